import Verif.Model.ZkModulus
import Verif.Model.ZkPaillier

/-!
# Functions that return no errors do not depend on the error type

The provers and verifiers can only succeed or panic, so the same call gives the same outcome in a context with another error type.
-/

namespace Synedrion

variable {ε ε' α β : Type}

/-- The same outcome with another error type; an error would become a panic. -/
def Out.cast (ε' : Type) : Out ε α → Out ε' α
  | .ok a => .ok a
  | .err _ => .panic
  | .panic => .panic

@[simp] theorem Out.cast_ok (a : α) : Out.cast ε' (.ok a : Out ε α) = .ok a := rfl
@[simp] theorem Out.cast_panic : Out.cast ε' (.panic : Out ε α) = .panic := rfl

theorem Out.cast_bind (x : Out ε α) (f : α → Out ε β) : Out.cast ε' (x.bind f) = (Out.cast ε' x).bind fun a => Out.cast ε' (f a) := by
  cases x <;> rfl

theorem Out.cast_ofOptionPanic (o : Option α) : Out.cast ε' (Out.ofOptionPanic o : Out ε α) = Out.ofOptionPanic o := by
  cases o <;> rfl

theorem Out.cast_assert (b : Bool) : Out.cast ε' (Out.assert b : Out ε Unit) = Out.assert b := by cases b <;> rfl

theorem Out.cast_check (b : Bool) (r : Out ε Bool) : Out.cast ε' (Out.check b r) = Out.check b (Out.cast ε' r) := by cases b <;> rfl

theorem Out.cast_ite (c : Prop) [Decidable c] (x y : Out ε α) : Out.cast ε' (if c then x else y) = if c then Out.cast ε' x else Out.cast ε' y := by
  split <;> rfl

theorem Out.cast_mapM' {γ : Type} (f : γ → Out ε α) (l : List γ) : Out.cast ε' (Out.mapM' f l) = Out.mapM' (fun a => Out.cast ε' (f a)) l := by
  induction l with
  | nil => rfl
  | cons a l ih => simp only [Out.mapM', Out.cast_bind, ih, Out.cast_ok]

theorem Out.cast_foldlBind {γ : Type} (f : α → γ → Out ε α) (l : List γ) : ∀ x : Out ε α,
    Out.cast ε' (l.foldl (fun acc b => acc.bind fun a => f a b) x) = l.foldl (fun acc b => acc.bind fun a => Out.cast ε' (f a b)) (Out.cast ε' x) := by
  induction l with
  | nil => intro x; rfl
  | cons b l ih => intro x; simp only [List.foldl_cons, ih, Out.cast_bind]

variable {Aux : Type}

theorem powPublic_cast {n : Nat} (a : ZMod n) (e : SInt) : Out.cast ε' (powPublic a e : Out ε _) = powPublic a e := by
  unfold powPublic; simp only [Out.cast_ite, Out.cast_ofOptionPanic, Out.cast_ok]

theorem powSecret_cast {n : Nat} (a : ZMod n) (e : SInt) : Out.cast ε' (powSecret a e : Out ε _) = powSecret a e := by
  unfold powSecret; simp only [Out.cast_ite, Out.cast_bind, Out.cast_ofOptionPanic, Out.cast_ok, Out.cast_panic]

theorem commitPublic_cast {n : Nat} (rp : RPParams n) (a b : SInt) : Out.cast ε' (rp.commitPublic a b : Out ε _) = rp.commitPublic a b := by
  unfold RPParams.commitPublic; simp only [Out.cast_bind, powPublic_cast, Out.cast_ok]

theorem commitSecret_cast {n : Nat} (rp : RPParams n) (a b : SInt) : Out.cast ε' (rp.commitSecret a b : Out ε _) = rp.commitSecret a b := by
  unfold RPParams.commitSecret; simp only [Out.cast_bind, powSecret_cast, Out.cast_ok]

theorem modulusSigned_cast (P : Params) (N : Nat) : Out.cast ε' (modulusSigned P N : Out ε _) = modulusSigned P N := by
  unfold modulusSigned; simp only [Out.cast_ite, Out.cast_ok, Out.cast_panic]

theorem primeSigned_cast (P : Params) (N : Nat) : Out.cast ε' (primeSigned P N : Out ε _) = primeSigned P N := by
  unfold primeSigned; simp only [Out.cast_ite, Out.cast_ok, Out.cast_panic]

theorem FacProof.verify_cast (P : Params) (H : FacHash Aux → SInt) {Nh : Nat} (self : FacProof) (N0 : Nat) (setup : RPParams Nh) (aux : Aux) :
    Out.cast ε' (self.verify P H N0 setup aux : Out ε Bool) = self.verify P H N0 setup aux := by
  simp only [FacProof.verify, Out.cast_check, Out.cast_bind, modulusSigned_cast, powPublic_cast, commitPublic_cast, Out.cast_ok,
    RPParams.commitZeroRandomizerPublic, RPParams.commitZeroValuePublic]

theorem SInt.add_cast (w : Nat) (a b : SInt) : Out.cast ε' (a.add w b : Out ε _) = a.add w b := by
  unfold SInt.add; simp only [Out.cast_ite, Out.cast_ok, Out.cast_panic]

theorem SInt.sub_cast (w : Nat) (a b : SInt) : Out.cast ε' (a.sub w b : Out ε _) = a.sub w b := by
  unfold SInt.sub; simp only [Out.cast_ite, Out.cast_ok, Out.cast_panic]

theorem SInt.mul_cast (w : Nat) (a b : SInt) : Out.cast ε' (a.mul w b : Out ε _) = a.mul w b := by
  unfold SInt.mul; simp only [Out.cast_ite, Out.cast_ok, Out.cast_panic]

theorem SInt.mulWide_cast (w : Nat) (a b : SInt) : Out.cast ε' (a.mulWide w b : Out ε _) = a.mulWide w b := by
  unfold SInt.mulWide; simp only [Out.cast_ite, Out.cast_ok, Out.cast_panic]

theorem FacProof.prove_cast (P : Params) (H : FacHash Aux → SInt) {Nh : Nat} (p q' : Nat) (setup : RPParams Nh) (aux : Aux) (mask : FacMasks) :
    Out.cast ε' (FacProof.prove P H p q' setup aux mask : Out ε _) = FacProof.prove P H p q' setup aux mask := by
  simp only [FacProof.prove, Out.cast_bind, primeSigned_cast, powSecret_cast, commitSecret_cast, Out.cast_ok, RPParams.commitZeroValueSecret,
    SInt.add_cast, SInt.sub_cast, SInt.mul_cast, SInt.mulWide_cast]

theorem modAnswer_cast {p q : Nat} (P : Params) (sk : SecretKey p q) (w y : Nat) :
    Out.cast ε' (modAnswer P sk w y : Out ε _) = modAnswer P sk w y := by
  simp only [modAnswer, Out.cast_bind, Out.cast_ofOptionPanic, Out.cast_ok]

theorem ModProof.prove_cast {p q : Nat} (P : Params) (H : ModHash Aux → List Nat) (sk : SecretKey p q) (aux : Aux) (w : Nat) :
    Out.cast ε' (ModProof.prove P H sk aux w : Out ε _) = ModProof.prove P H sk aux w := by
  simp only [ModProof.prove, Out.cast_bind, Out.cast_mapM', modAnswer_cast, Out.cast_ok]

theorem SecretKey.new_cast (p q : Nat) : Out.cast ε' (SecretKey.new p q : Out ε _) = SecretKey.new p q := by
  simp only [SecretKey.new, publicModulusNew, Out.cast_bind, Out.cast_ite, Out.cast_ofOptionPanic, Out.cast_assert, Out.cast_ok, Out.cast_panic]

/-- Transfer of an outcome along a `cast` equation. -/
theorem Out.eq_ok_of_cast {x : Out ε α} {y : Out ε' α} (h : Out.cast ε' x = y) {a : α} (hx : x = .ok a) : y = .ok a := by
  rw [← h, hx]; rfl

end Synedrion
