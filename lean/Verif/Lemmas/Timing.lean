import Verif.Spec.Timing
import Verif.Spec.SignedExpr
import Verif.Lemmas.SignedOps

/-!
# Lemmas for C79
-/

namespace Synedrion.Timing

open Timed Spec

variable {ε α β γ δ : Type}

/-- If both computations succeed, they go through the same steps and their results are related. -/
def Rel (R : α → β → Prop) (x : Timed ε α) (y : Timed ε β) : Prop :=
  ∀ a b, x.out = .ok a → y.out = .ok b → x.steps = y.steps ∧ R a b

theorem Rel.same {R : α → β → Prop} {x : Timed ε α} {y : Timed ε β} (h : Rel R x y) : SameSteps x y := fun a b ha hb => (h a b ha hb).1

theorem bind_def (x : Timed ε α) (f : α → Timed ε β) : (x >>= f) = x.bind f := rfl

theorem pure_def (a : α) : (pure a : Timed ε α) = ⟨[], .ok a⟩ := rfl

theorem bind_out (x : Timed ε α) (f : α → Timed ε β) : (x >>= f).out = x.out.bind fun a => (f a).out := by
  rw [bind_def, Timed.bind]
  cases x.out <;> rfl

theorem bind_of_ok {x : Timed ε α} {a : α} (h : x.out = .ok a) (f : α → Timed ε β) :
    (x >>= f) = ⟨x.steps ++ (f a).steps, (f a).out⟩ := by
  rw [bind_def, Timed.bind, h]

theorem Rel.bind {R : α → β → Prop} {S : γ → δ → Prop} {x : Timed ε α} {y : Timed ε β} {f : α → Timed ε γ} {g : β → Timed ε δ}
    (h : Rel R x y) (hf : ∀ a b, R a b → Rel S (f a) (g b)) : Rel S (x >>= f) (y >>= g) := by
  intro c d hc hd
  have hc' := hc
  have hd' := hd
  rw [bind_out] at hc' hd'
  obtain ⟨a, ha, ha'⟩ := Out.bind_eq_ok.1 hc'
  obtain ⟨b, hb, hb'⟩ := Out.bind_eq_ok.1 hd'
  obtain ⟨h1, h2⟩ := h a b ha hb
  obtain ⟨h3, h4⟩ := hf a b h2 c d ha' hb'
  rw [bind_of_ok ha, bind_of_ok hb]
  exact ⟨by simp only [h1, h3], h4⟩

theorem Rel.pure {R : α → β → Prop} {a : α} {b : β} (h : R a b) : Rel R (Pure.pure a : Timed ε α) (Pure.pure b) := by
  intro a' b' ha hb
  cases ha
  cases hb
  exact ⟨rfl, h⟩

theorem Rel.prim {R : α → β → Prop} {a : α} {b : β} {name : String} {sizes : List Nat} (h : R a b) :
    Rel R (Timed.prim name sizes a : Timed ε α) (Timed.prim name sizes b) := by
  intro a' b' ha hb
  cases ha
  cases hb
  exact ⟨rfl, h⟩

theorem Rel.vartime {R : α → β → Prop} {a : α} {b : β} {name : String} {operands : List Nat} (h : R a b) :
    Rel R (Timed.vartime name operands a : Timed ε α) (Timed.vartime name operands b) := by
  intro a' b' ha hb
  cases ha
  cases hb
  exact ⟨rfl, h⟩

theorem Rel.expect {R : α → β → Prop} {x : Option α} {y : Option β} (h : ∀ a b, x = some a → y = some b → R a b) :
    Rel R (Timed.expect x : Timed ε α) (Timed.expect y) := by
  intro a b ha hb
  cases x with
  | none => cases ha
  | some x =>
    cases y with
    | none => cases hb
    | some y =>
      cases ha
      cases hb
      exact ⟨rfl, h _ _ rfl rfl⟩

theorem Rel.assert {x y : Bool} : Rel (fun _ _ => True) (Timed.assert x : Timed ε Unit) (Timed.assert y) := by
  intro a b ha hb
  cases x with
  | false => cases ha
  | true =>
    cases y with
    | false => cases hb
    | true => exact ⟨rfl, trivial⟩

theorem Rel.refl {x : Timed ε α} : Rel (fun a b => a = b) x x := by
  intro a b ha hb
  rw [ha] at hb
  exact ⟨rfl, Out.ok.inj hb⟩

theorem Rel.mono {R S : α → β → Prop} {x : Timed ε α} {y : Timed ε β} (h : Rel R x y) (hS : ∀ a b, R a b → S a b) : Rel S x y :=
  fun a b ha hb => ⟨(h a b ha hb).1, hS _ _ (h a b ha hb).2⟩

/-! ## The operations -/

variable {w W : Nat}

/-- Results that may differ -/
def Any (_ : α) (_ : β) : Prop := True

/-- Options of numbers with the same bound, if both are there -/
def OptBound (x y : Option (SecretSigned w)) : Prop := ∀ a b, x = some a → y = some b → a.bound = b.bound

theorem isNegative_rel (s t : SecretSigned w) : Rel Any (isNegative s : Timed ε Bool) (isNegative t) := Rel.vartime trivial

theorem select_rel {n : Nat} {a b : α} {a' b' : β} {c c' : Bool} : Rel Any (select n a b c : Timed ε α) (select n a' b' c') := Rel.prim trivial

theorem absValue_rel (s t : SecretSigned w) : Rel Any (absValue s : Timed ε (BitVec w)) (absValue t) :=
  (Rel.prim (R := Any) trivial).bind fun _ _ _ => (isNegative_rel s t).bind fun _ _ _ => select_rel

theorem unsignedNew_rel (u v : BitVec w) (bound : Nat) :
    Rel (fun x y => ∀ a b, x = some a → y = some b → a.bound = b.bound) (unsignedNew u bound : Timed ε _) (unsignedNew v bound) := by
  refine (Rel.prim (R := Any) trivial).bind fun _ _ _ => (Rel.prim (R := Any) trivial).bind fun _ _ _ => (Rel.prim (R := Any) trivial).bind fun _ _ _ => Rel.pure ?_
  intro a b ha hb
  split at ha <;> cases ha
  split at hb <;> cases hb
  rfl

theorem abs_rel (s t : SecretSigned w) (h : s.bound = t.bound) : Rel (fun a b => a.bound = b.bound) (abs s : Timed ε _) (abs t) := by
  refine (absValue_rel s t).bind fun u v _ => ?_
  rw [h]
  exact (unsignedNew_rel u v t.bound).bind fun x y hxy => Rel.expect hxy

theorem newPositive_rel (u v : BitVec w) (bound : Nat) : Rel OptBound (newPositive u bound : Timed ε _) (newPositive v bound) := by
  refine (Rel.prim (R := Any) trivial).bind fun _ _ _ => (Rel.prim (R := Any) trivial).bind fun _ _ _ => (Rel.prim (R := Any) trivial).bind fun _ _ _ =>
    (isNegative_rel _ _).bind fun _ _ _ => Rel.pure ?_
  intro a b ha hb
  split at ha <;> cases ha
  split at hb <;> cases hb
  rfl

theorem newFromUnsigned_rel (u v : BitVec w) (bound : Nat) : Rel OptBound (newFromUnsigned u bound : Timed ε _) (newFromUnsigned v bound) := by
  refine (absValue_rel _ _).bind fun _ _ _ => (Rel.prim (R := Any) trivial).bind fun _ _ _ => (Rel.prim (R := Any) trivial).bind fun _ _ _ =>
    (Rel.prim (R := Any) trivial).bind fun _ _ _ => Rel.pure ?_
  intro a b ha hb
  split at ha <;> cases ha
  split at hb <;> cases hb
  rfl

theorem newFromAbs_rel (u v : BitVec w) (bound : Nat) (c d : Bool) : Rel OptBound (newFromAbs u bound c : Timed ε _) (newFromAbs v bound d) :=
  (Rel.prim (R := Any) trivial).bind fun _ _ _ => select_rel.bind fun _ _ _ => newFromUnsigned_rel _ _ _

theorem newModulo_rel (u v modulus : BitVec w) (modulusBits : Nat) :
    Rel OptBound (newModulo u modulus modulusBits : Timed ε _) (newModulo v modulus modulusBits) :=
  (Rel.vartime (R := Any) trivial).bind fun _ _ _ => (Rel.prim (R := Any) trivial).bind fun _ _ _ => Rel.assert.bind fun _ _ _ =>
    (Rel.prim (R := Any) trivial).bind fun _ _ _ => select_rel.bind fun _ _ _ => Rel.assert.bind fun _ _ _ => newFromUnsigned_rel _ _ _

theorem isInExponentRange_rel (s t : SecretSigned w) (h : s.bound = t.bound) (exp : Nat) :
    Rel Any (isInExponentRange s exp : Timed ε _) (isInExponentRange t exp) :=
  (abs_rel s t h).bind fun _ _ _ => Rel.assert.bind fun _ _ _ => (Rel.prim (R := Any) trivial).bind fun _ _ _ =>
    (Rel.prim (R := Any) trivial).bind fun _ _ _ => (Rel.prim (R := Any) trivial).bind fun _ _ _ => (Rel.prim (R := Any) trivial).bind fun _ _ _ =>
    (Rel.prim (R := Any) trivial).bind fun _ _ _ => (isNegative_rel s t).bind fun _ _ _ => Rel.pure trivial

theorem assertExponentRange_rel (s t : SecretSigned w) (h : s.bound = t.bound) (exp : Nat) :
    Rel Any (assertExponentRange s exp : Timed ε _) (assertExponentRange t exp) :=
  (isInExponentRange_rel s t h exp).bind fun _ _ _ => Rel.assert

theorem ensureExponentRange_rel (s t : SecretSigned w) (h : s.bound = t.bound) (exp : Nat) :
    Rel OptBound (ensureExponentRange s exp : Timed ε _) (ensureExponentRange t exp) := by
  refine (Rel.prim (R := Any) trivial).bind fun _ _ _ => (isInExponentRange_rel s t h exp).bind fun _ _ _ => Rel.pure ?_
  intro a b ha hb
  split at ha <;> cases ha
  split at hb <;> cases hb
  rfl

theorem toWide_rel (s t : SecretSigned w) (h : s.bound = t.bound) :
    Rel (fun a b => a.bound = b.bound) (toWide W s : Timed ε _) (toWide W t) := by
  refine (absValue_rel s t).bind fun _ _ _ => (Rel.prim (R := Any) trivial).bind fun _ _ _ => (isNegative_rel s t).bind fun _ _ _ => ?_
  rw [h]
  exact (newFromAbs_rel _ _ _ _ _).bind fun _ _ h => Rel.expect h

theorem mulWidePublic_rel {w₁ w₂ : Nat} (s t : SecretSigned w₁) (h : s.bound = t.bound) (r : PublicSigned w₂) :
    Rel (fun a b => a.bound = b.bound) (mulWidePublic s r : Timed ε _) (mulWidePublic t r) := by
  refine (absValue_rel s t).bind fun _ _ _ => Rel.refl.bind fun _ _ _ => (Rel.prim (R := Any) trivial).bind fun _ _ _ => (isNegative_rel s t).bind fun _ _ _ => ?_
  rw [h]
  exact (newFromAbs_rel _ _ _ _ _).bind fun _ _ h => Rel.expect h

theorem checked_rel (bounds : List Nat) (bound : Nat) (op : String) (u v : BitVec w) :
    Rel (fun a b => a.bound = b.bound) (checked bounds bound op u : Timed ε _) (checked bounds bound op v) := by
  refine (Rel.vartime (R := fun a b => a = b) rfl).bind fun a b hab => ?_
  subst hab
  refine (Rel.prim (R := Any) trivial).bind fun _ _ _ => (Rel.prim (R := Any) trivial).bind fun _ _ _ => Rel.expect ?_
  intro a b ha hb
  split at ha <;> cases ha
  split at hb <;> cases hb
  rfl

theorem add_rel {a b a' b' : SecretSigned w} (ha : a.bound = a'.bound) (hb : b.bound = b'.bound) :
    Rel (fun x y => x.bound = y.bound) (add a b : Timed ε _) (add a' b') := by
  unfold add; rw [ha, hb]; exact checked_rel _ _ _ _ _

theorem sub_rel {a b a' b' : SecretSigned w} (ha : a.bound = a'.bound) (hb : b.bound = b'.bound) :
    Rel (fun x y => x.bound = y.bound) (sub a b : Timed ε _) (sub a' b') := by
  unfold sub; rw [ha, hb]; exact checked_rel _ _ _ _ _

theorem mul_rel {a b a' b' : SecretSigned w} (ha : a.bound = a'.bound) (hb : b.bound = b'.bound) :
    Rel (fun x y => x.bound = y.bound) (mul a b : Timed ε _) (mul a' b') := by
  unfold mul; rw [ha, hb]; exact checked_rel _ _ _ _ _

theorem addPublic_rel {a a' : SecretSigned w} (ha : a.bound = a'.bound) (b : PublicSigned w) :
    Rel (fun x y => x.bound = y.bound) (addPublic a b : Timed ε _) (addPublic a' b) := by
  unfold addPublic; rw [ha]; exact checked_rel _ _ _ _ _

theorem mulPublic_rel {a a' : SecretSigned w} (ha : a.bound = a'.bound) (b : PublicSigned w) :
    Rel (fun x y => x.bound = y.bound) (mulPublic a b : Timed ε _) (mulPublic a' b) := by
  unfold mulPublic; rw [ha]; exact checked_rel _ _ _ _ _

theorem run_rel (e : SecretProg w) {s t : Nat → SecretSigned w} (h : ∀ i, (s i).bound = (t i).bound) :
    Rel (fun a b => a.bound = b.bound) (e.run s : Timed ε _) (e.run t) := by
  induction e with
  | var i => exact Rel.pure (h i)
  | neg a iha => exact iha.bind fun x y hxy => (Rel.prim (R := Any) trivial).bind fun _ _ _ => Rel.pure hxy
  | add a b iha ihb => exact iha.bind fun _ _ hx => ihb.bind fun _ _ hy => add_rel hx hy
  | sub a b iha ihb => exact iha.bind fun _ _ hx => ihb.bind fun _ _ hy => sub_rel hx hy
  | mul a b iha ihb => exact iha.bind fun _ _ hx => ihb.bind fun _ _ hy => mul_rel hx hy
  | addPublic a b iha => exact iha.bind fun _ _ hx => addPublic_rel hx b
  | mulPublic a b iha => exact iha.bind fun _ _ hx => mulPublic_rel hx b
  | inRange exp a iha => exact iha.bind fun x y hx => (assertExponentRange_rel x y hx exp).bind fun _ _ _ => Rel.pure hx

theorem powSecret_rel {m n : Nat} (a b : ZMod n) (e f : SecretSigned w) (h : e.bound = f.bound) :
    Rel Any (powSecret m a e : Timed ε _) (powSecret m b f) := by
  refine (abs_rel e f h).bind fun _ _ _ => ?_
  rw [h]
  exact (Rel.prim (R := Any) trivial).bind fun _ _ _ => (Rel.prim (R := Any) trivial).bind fun _ _ _ =>
    (Rel.expect (R := Any) fun _ _ _ _ => trivial).bind fun _ _ _ => (isNegative_rel e f).bind fun _ _ _ => select_rel

theorem commitSecret_rel {m N : Nat} (rp : RPParams N) {w₁ w₂ : Nat} (v v' : SecretSigned w₁) (r r' : SecretSigned w₂)
    (hv : v.bound = v'.bound) (hr : r.bound = r'.bound) :
    Rel Any (commitSecret m rp v r : Timed ε _) (commitSecret m rp v' r') :=
  (powSecret_rel _ _ v v' hv).bind fun _ _ _ => (powSecret_rel _ _ r r' hr).bind fun _ _ _ => Rel.prim trivial

theorem encInner_rel {N : Nat} (a b : SecretUnsigned W) (r s : Nat) (c d : Bool) :
    Rel Any (encInner w N a r c : Timed ε _) (encInner w N b s d) :=
  (Rel.prim (R := Any) trivial).bind fun _ _ _ => (Rel.prim (R := Any) trivial).bind fun _ _ _ => (Rel.prim (R := Any) trivial).bind fun _ _ _ =>
    (Rel.prim (R := Any) trivial).bind fun _ _ _ => (Rel.prim (R := Any) trivial).bind fun _ _ _ => (Rel.prim (R := Any) trivial).bind fun _ _ _ =>
    (Rel.vartime (R := Any) trivial).bind fun _ _ _ => Rel.prim trivial

theorem enc_rel {N : Nat} (a b : SecretSigned w) (h : a.bound = b.bound) (r s : Nat) :
    Rel Any (enc W N a r : Timed ε _) (enc W N b s) :=
  (abs_rel a b h).bind fun _ _ _ => (Rel.prim (R := Any) trivial).bind fun _ _ _ => (isNegative_rel a b).bind fun _ _ _ => encInner_rel _ _ _ _ _ _

theorem encWide_rel {N : Nat} (a b : SecretSigned W) (h : a.bound = b.bound) (r s : Nat) :
    Rel Any (encWide w N a r : Timed ε _) (encWide w N b s) :=
  (abs_rel a b h).bind fun _ _ _ => (isNegative_rel a b).bind fun _ _ _ => encInner_rel _ _ _ _ _ _

theorem deriveRandomizer_rel {p q modulusBits : Nat} (sk sk' : SecretKey p q) (c : Ct (p * q)) :
    Rel Any (deriveRandomizer w W modulusBits sk c : Timed ε _) (deriveRandomizer w W modulusBits sk' c) :=
  Rel.refl.bind fun x y hxy => by
    subst hxy
    exact Rel.refl.bind fun x y hxy => by
      subst hxy
      exact Rel.refl.bind fun x y hxy => by
        subst hxy
        exact (Rel.prim (R := Any) trivial).bind fun _ _ _ => (Rel.prim (R := Any) trivial).bind fun _ _ _ => Rel.prim trivial

theorem secretSignedFromScalar_rel {q numBits : Nat} (x y : ZMod q) :
    Rel (fun a b => a.bound = b.bound) (secretSignedFromScalar w numBits x : Timed ε _) (secretSignedFromScalar w numBits y) :=
  (Rel.prim (R := Any) trivial).bind fun _ _ _ => (newModulo_rel _ _ _ _).bind fun _ _ h => Rel.expect h

end Synedrion.Timing
