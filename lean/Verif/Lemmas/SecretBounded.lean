import Verif.Spec.SecretBounded
import Verif.Lemmas.SecretBox

/-!
# Helper lemmas about bounded secrets in memory
-/

namespace Synedrion.SecretBounded

open Spec Spec.BoundedOp SecretBox Function

variable {w : Nat → Prop} {vals : Plain Nat}

/-- A function ends with a new secret of this bound and value, or fails, after it gave up what is in `l`. -/
def Made (vals : Plain Nat) (l : List Nat) (o : Out Unit (Nat × Nat)) (r : Out Unit Handle) (vals' : Plain Nat) : Prop :=
  match o with
  | .ok (bound, v) => ∃ a, r = .ok ⟨bound, a⟩ ∧ (vals a = none ∨ a ∈ l) ∧ vals' = update (dropAll vals l) a (some v)
  | .err _ => r = .err () ∧ vals' = dropAll vals l
  | .panic => r = .panic ∧ vals' = dropAll vals l

/-- Bound and value of what a function gives -/
def meas {α : Type} (f : α → Held) (o : Out Unit α) : Out Unit (Nat × Nat) := o.bind fun x => .ok ((f x).bound, (f x).value)

theorem dropAll_nil : dropAll vals [] = vals := by funext b; simp [dropAll]

theorem dropAll_cons (t : Nat) (l : List Nat) : dropAll vals (t :: l) = update (dropAll vals l) t none := by
  funext b
  by_cases hb : b = t
  · subst hb; simp [dropAll]
  · simp [dropAll, hb]

theorem Made.of_new {bound v : Nat} {a : Nat} {vals' : Plain Nat} (h : New vals v a vals') : Made vals [] (.ok (bound, v)) (.ok ⟨bound, a⟩) vals' :=
  ⟨a, rfl, .inl h.1, by rw [dropAll_nil, h.2]⟩

theorem Made.perm {l l' : List Nat} {o} {r} {vals' : Plain Nat} (h : Made vals l o r vals') (hl : ∀ x, x ∈ l ↔ x ∈ l') : Made vals l' o r vals' := by
  have hd : dropAll vals l = dropAll vals l' := by funext b; simp [dropAll, hl]
  rcases o with ⟨bound, v⟩ | _ | _
  · obtain ⟨b, h1, h2, h3⟩ := h
    exact ⟨b, h1, h2.imp_right (hl b).1, by rw [← hd]; exact h3⟩
  · exact ⟨h.1, by rw [← hd]; exact h.2⟩
  · exact ⟨h.1, by rw [← hd]; exact h.2⟩

/-- A box that was made meanwhile is given up at the end. -/
theorem Made.fresh {t u : Nat} {l : List Nat} {o} {r} {vals' : Plain Nat} (ht : vals t = none) (h : Made (update vals t (some u)) (t :: l) o r vals') : Made vals l o r vals' := by
  have hd : dropAll (update vals t (some u)) (t :: l) = dropAll vals l := by
    funext b
    by_cases hb : b = t
    · subst hb; simp [dropAll, ht]
    · simp [dropAll, hb]
  rcases o with ⟨bound, v⟩ | _ | _
  · obtain ⟨a, h1, h2, h3⟩ := h
    rw [hd] at h3
    refine ⟨a, h1, ?_, h3⟩
    by_cases hat : a = t
    · subst hat; exact .inl ht
    · rw [update_of_ne hat] at h2
      simpa [hat] using h2
  · obtain ⟨h1, h2⟩ := h; exact ⟨h1, h2.trans hd⟩
  · obtain ⟨h1, h2⟩ := h; exact ⟨h1, h2.trans hd⟩

theorem does_wipe_after {p : M Nat (Out Unit Handle)} {o} {l : List Nat} {t u : Nat} (hp : Does w p vals (Made vals l o)) (ht : vals t = some u) (hl : t ∉ l) :
    Does w (do
      let r ← p
      wipe t
      return r) vals (Made vals (t :: l) o) := by
  refine hp.bind fun r v1 h => ?_
  have hv : v1 t = some u := by
    have hd : dropAll vals l t = some u := by simp [dropAll, hl, ht]
    rcases o with ⟨bound, v⟩ | _ | _
    · obtain ⟨a, -, h2, h3⟩ := h
      have : t ≠ a := by
        rintro rfl
        rcases h2 with h2 | h2
        · rw [ht] at h2; cases h2
        · exact hl h2
      rw [h3, update_of_ne this, hd]
    · rw [h.2, hd]
    · rw [h.2, hd]
  refine (does_wipe hv).bind fun _ v2 h2 => .pure ?_
  subst h2
  rcases o with ⟨bound, v⟩ | _ | _
  · obtain ⟨a, h1, h2, h3⟩ := h
    have hta : t ≠ a := by
      rintro rfl
      rcases h2 with h2 | h2
      · rw [ht] at h2; cases h2
      · exact hl h2
    refine ⟨a, h1, h2.imp_right fun h => List.mem_cons_of_mem _ h, ?_⟩
    rw [h3, dropAll_cons, update_comm hta]
  · exact ⟨h.1, by rw [h.2, dropAll_cons]⟩
  · exact ⟨h.1, by rw [h.2, dropAll_cons]⟩

theorem does_value {n a : Nat} {v : BitVec n} (ha : vals a = some v.toNat) : Does w (value n a) vals fun r vals' => r = v ∧ vals' = vals :=
  (does_expose ha).bind fun _ _ h => .pure ⟨by rw [h.1]; simp, h.2⟩

theorem does_boxed {n : Nat} {p : M Nat (BitVec n)} {v : BitVec n} (hp : Does w p vals fun r vals' => r = v ∧ vals' = vals) : Does w (boxed p) vals (New vals v.toNat) :=
  does_initWith (hp.bind fun _ _ h => .pure ⟨by rw [h.1], h.2⟩)

theorem does_box₁ {n n' a : Nat} {v : BitVec n} {f : BitVec n → BitVec n'} (ha : vals a = some v.toNat) : Does w (boxed do return f (← value n a)) vals (New vals (f v).toNat) :=
  does_boxed ((does_value ha).bind fun _ _ h => .pure ⟨by rw [h.1], h.2⟩)

theorem does_box₂ {n a b : Nat} {v u : BitVec n} {f : BitVec n → BitVec n → BitVec n} (ha : vals a = some v.toNat) (hb : vals b = some u.toNat) :
    Does w (boxed do return f (← value n a) (← value n b)) vals (New vals (f v u).toNat) :=
  does_boxed ((does_value ha).bind fun _ _ h => by
    obtain ⟨rfl, rfl⟩ := h
    exact (does_value hb).bind fun _ _ h => .pure ⟨by rw [h.1], h.2⟩)

theorem does_isNegative {n a : Nat} {v : BitVec n} (ha : vals a = some v.toNat) : Does w (isNegative n a) vals fun r vals' => r = v.msb ∧ vals' = vals :=
  (does_value ha).bind fun _ _ h => .pure ⟨by rw [h.1], h.2⟩

theorem does_keepIf {ok : Bool} {bound a v : Nat} (ha : vals a = some v) : Does w (keepIf ok ⟨bound, a⟩) vals (Made vals [a] (if ok then .ok (bound, v) else .err ())) := by
  cases ok with
  | true =>
    refine .pure ⟨a, rfl, .inr (by simp), ?_⟩
    rw [dropAll_cons, dropAll_nil, update_idem, ← ha, update_eq_self]
  | false =>
    refine (does_wipe ha).bind fun _ _ h => .pure ⟨rfl, ?_⟩
    rw [h, dropAll_cons, dropAll_nil]

theorem does_conditionalSelect {a b x y : Nat} {c : Bool} (ha : vals a = some x) (hb : vals b = some y) : Does w (conditionalSelect a b c) vals (New vals (if c then y else x)) :=
  does_initWith ((does_expose ha).bind fun _ _ h => by
    obtain ⟨rfl, rfl⟩ := h
    exact (does_expose hb).bind fun _ _ h => .pure ⟨by rw [h.1], h.2⟩)

/-- A new box, next to another one that is wiped -/
theorem new_wiped {t u v a : Nat} {vals' : Plain Nat} (ht : vals t = none) (h : New (update vals t (some u)) v a vals') : vals' t = some u ∧ New vals v a (update vals' t none) := by
  obtain ⟨h1, rfl⟩ := h
  have hat : a ≠ t := by rintro rfl; simp at h1
  rw [update_of_ne hat] at h1
  refine ⟨by rw [update_of_ne hat.symm, update_self], h1, ?_⟩
  funext b
  by_cases hb : b = t
  · subst hb; rw [update_self, update_of_ne hat.symm, ht]
  · rw [update_of_ne hb]
    by_cases hba : b = a
    · subst hba; simp
    · simp [hb, hba]

theorem new_other {t x v a : Nat} {vals' : Plain Nat} (h : New vals v a vals') (ht : vals t = some x) : vals' t = some x := by
  obtain ⟨h1, rfl⟩ := h
  rw [update_of_ne (by rintro rfl; rw [ht] at h1; cases h1), ht]

theorem new_self {v a : Nat} {vals' : Plain Nat} (h : New vals v a vals') : vals' a = some v := by rw [h.2, update_self]

theorem does_selectNeg {n a : Nat} {v : BitVec n} {c : Bool} (ha : vals a = some v.toNat) : Does w (selectNeg n a c) vals (New vals (if c then -v else v).toNat) := by
  refine (does_box₁ (f := fun v => -v) ha).bind fun t v1 h => ?_
  have hs := new_self h
  have ho := new_other h ha
  obtain ⟨h0, rfl⟩ := h
  refine (does_conditionalSelect ho hs).bind fun r v2 h2 => ?_
  obtain ⟨h3, h4⟩ := new_wiped h0 h2
  refine (does_wipe h3).bind fun _ v3 h5 => .pure ?_
  rw [h5]
  rw [show (if c = true then -v else v).toNat = if c = true then (-v).toNat else v.toNat by split <;> rfl]
  exact h4

theorem does_absValue {n a : Nat} {x : SecretSigned n} (ha : vals a = some x.value.toNat) : Does w (absValue n a) vals (New vals x.absValue.toNat) :=
  (does_isNegative ha).bind fun c _ h => by
    obtain ⟨rfl, rfl⟩ := h
    exact does_selectNeg ha

theorem does_unsignedNew {n a bound : Nat} {v : BitVec n} (ha : vals a = some v.toNat) :
    Does w (unsignedNew n a bound) vals (Made vals [a] (meas .unsigned (.ofOption () (SecretUnsigned.new v bound)))) :=
  (does_value ha).bind fun c _ h => by
    obtain ⟨rfl, rfl⟩ := h
    refine (does_keepIf ha).mono fun r v' h => ?_
    unfold SecretUnsigned.new
    by_cases hc : bound ≤ n ∧ bitLen c.toNat ≤ bound <;> simpa [hc, meas, Out.ofOption, Out.bind, Held.bound, Held.value] using h

theorem does_newPositive {n a bound : Nat} {v : BitVec n} (ha : vals a = some v.toNat) :
    Does w (newPositive n a bound) vals (Made vals [a] (meas .signed (.ofOption () (SecretSigned.newPositive v bound)))) :=
  (does_value ha).bind fun c _ h => by
    obtain ⟨rfl, rfl⟩ := h
    refine (does_isNegative ha).bind fun s _ h => ?_
    obtain ⟨rfl, rfl⟩ := h
    refine (does_keepIf ha).mono fun r v' h => ?_
    unfold SecretSigned.newPositive SecretSigned.isNegative
    by_cases hc : (bound < n ∧ bitLen c.toNat < n) <;> cases hm : c.msb <;> simpa [hc, hm, meas, Out.ofOption, Out.bind, Held.bound, Held.value] using h

theorem does_newFromUnsigned {n a bound : Nat} {v : BitVec n} (ha : vals a = some v.toNat) :
    Does w (newFromUnsigned n a bound) vals (Made vals [a] (meas .signed (.ofOption () (SecretSigned.newFromUnsigned v bound)))) := by
  refine (does_absValue (x := ⟨bound, v⟩) ha).bind fun t v1 h => ?_
  have hs := new_self h
  have ho := new_other h ha
  obtain ⟨h0, rfl⟩ := h
  refine (does_value hs).bind fun x _ hx => ?_
  obtain ⟨rfl, rfl⟩ := hx
  have hne : t ≠ a := by rintro rfl; rw [ha] at h0; cases h0
  refine (does_wipe_after (does_keepIf ho) hs (by simpa using hne)).mono fun r v' h => ?_
  have h := Made.fresh h0 h
  unfold SecretSigned.newFromUnsigned
  unfold SecretSigned.absValue SecretSigned.isNegative at h
  dsimp only at h ⊢
  by_cases hc : bound < n ∧ bitLen (if v.msb = true then -v else v).toNat ≤ bound
  · rw [if_pos hc]; rw [if_pos (by simpa using hc)] at h; exact h
  · rw [if_neg hc]; rw [if_neg (by simpa using hc)] at h; exact h

theorem does_expect {α : Type} {p : M Nat (Out Unit Handle)} {l : List Nat} {f : α → Held} {o : Option α} (hp : Does w p vals (Made vals l (meas f (.ofOption () o)))) :
    Does w (do return expect (← p)) vals (Made vals l (meas f (.ofOptionPanic o))) := by
  refine hp.bind fun r v1 h => .pure ?_
  cases o with
  | none => obtain ⟨rfl, h⟩ := h; exact ⟨rfl, h⟩
  | some x => obtain ⟨a, rfl, h⟩ := h; exact ⟨a, rfl, h⟩

theorem does_newFromAbs {n a bound : Nat} {v : BitVec n} {c : Bool} (ha : vals a = some v.toNat) :
    Does w (newFromAbs n a bound c) vals (Made vals [a] (meas .signed (.ofOption () (SecretSigned.newFromAbs v bound c)))) := by
  refine (does_selectNeg ha).bind fun t v1 h => ?_
  have hs := new_self h
  have ho := new_other h ha
  obtain ⟨h0, rfl⟩ := h
  have hne : t ≠ a := by rintro rfl; rw [ha] at h0; cases h0
  refine (does_wipe_after (does_newFromUnsigned hs) ho (by simpa using hne.symm)).mono fun r v' h => ?_
  refine Made.fresh h0 (l := [a]) (u := (if c then -v else v).toNat) ?_
  exact h.perm (by simp [or_comm])

theorem does_addMod {n a b m : Nat} {x y : SecretUnsigned n} {k : BitVec n} (ha : vals a = some x.value.toNat) (hb : vals b = some y.value.toNat) (hn : vals m = some k.toNat) :
    Does w (addMod n ⟨x.bound, a⟩ ⟨y.bound, b⟩ m) vals (Made vals [] (meas .unsigned (.ok (x.addMod y k)))) := by
  refine (does_boxed (v := (x.addMod y k).value) ?_).bind fun t v1 h => ?_
  · refine (does_value ha).bind fun _ _ h => ?_
    obtain ⟨rfl, rfl⟩ := h
    refine (does_value hb).bind fun _ _ h => ?_
    obtain ⟨rfl, rfl⟩ := h
    refine (does_value hn).bind fun _ _ h => ?_
    obtain ⟨rfl, rfl⟩ := h
    exact .pure ⟨rfl, rfl⟩
  · refine (does_value (new_other h hn)).bind fun _ _ h' => ?_
    obtain ⟨rfl, rfl⟩ := h'
    exact .pure (Made.of_new h)

theorem does_zero {n : Nat} : Does w (zero n) vals (Made vals [] (meas .signed (.ok (SecretSigned.zero (w := n))))) :=
  (does_boxed (v := 0#n) (.pure ⟨rfl, rfl⟩)).bind fun _ _ h => .pure (Made.of_new h)

theorem does_abs {n a : Nat} {x : SecretSigned n} (ha : vals a = some x.value.toNat) : Does w (abs n ⟨x.bound, a⟩) vals (Made vals [] (meas .unsigned x.abs)) := by
  refine (does_absValue ha).bind fun t v1 h => ?_
  have hs := new_self h
  obtain ⟨h0, rfl⟩ := h
  exact (does_expect (does_unsignedNew hs)).mono fun r v' h => Made.fresh h0 h

theorem does_wide {n n' a bound : Nat} {x : SecretSigned n} {f : BitVec n → BitVec n'} {g : Bool → Bool} (ha : vals a = some x.value.toNat) :
    Does w (do
      let abs ← absValue n a
      let wide ← boxed (w := n') do return f (← value n abs)
      wipe abs
      let neg ← isNegative n a
      return expect (← newFromAbs n' wide bound (g neg))) vals (Made vals [] (meas .signed (.ofOptionPanic (SecretSigned.newFromAbs (f x.absValue) bound (g x.isNegative))))) := by
  refine (does_absValue ha).bind fun t v1 h => ?_
  have hs := new_self h
  obtain ⟨h0, rfl⟩ := h
  refine (does_box₁ hs).bind fun t' v2 h2 => ?_
  obtain ⟨h3, h4⟩ := new_wiped h0 h2
  refine (does_wipe h3).bind fun _ v3 h5 => ?_
  subst h5
  have ho := new_other h4 ha
  have hs' := new_self h4
  refine (does_isNegative ho).bind fun s _ h => ?_
  obtain ⟨rfl, rfl⟩ := h
  refine (does_expect (does_newFromAbs hs')).mono fun r v' h => ?_
  obtain ⟨h6, h7⟩ := h4
  rw [h7] at h
  exact Made.fresh h6 h

theorem does_toWide {n W a : Nat} {x : SecretSigned n} (ha : vals a = some x.value.toNat) : Does w (toWide n W ⟨x.bound, a⟩) vals (Made vals [] (meas .signed (x.toWide W))) :=
  does_wide (g := id) ha

theorem does_mulWidePublic {n₁ n₂ a : Nat} {x : SecretSigned n₁} {p : PublicSigned n₂} (ha : vals a = some x.value.toNat) :
    Does w (mulWidePublic n₁ ⟨x.bound, a⟩ p) vals (Made vals [] (meas .signed (x.mulWidePublic p))) :=
  does_wide (f := fun v => v.setWidth (n₁ + n₂) * p.abs.setWidth (n₁ + n₂)) (g := fun s => s ^^ p.isNegative) ha

theorem does_kept {n bound : Nat} {p : M Nat Nat} {v : BitVec n} (hp : Does w p vals (New vals v.toNat)) :
    Does w (do
      let r ← p
      keepIf (decide (bound < n)) ⟨bound, r⟩) vals
      (Made vals [] (meas .signed (.ofOption () (if bound < n then some (⟨bound, v⟩ : SecretSigned n) else none)))) := by
  refine hp.bind fun t v1 h => ?_
  have hs := new_self h
  obtain ⟨h0, rfl⟩ := h
  refine (does_keepIf hs).mono fun r v' h => ?_
  have h := Made.fresh h0 h
  by_cases hc : bound < n
  · rw [if_pos hc]; rw [if_pos (by simpa using hc)] at h; exact h
  · rw [if_neg hc]; rw [if_neg (by simpa using hc)] at h; exact h

theorem does_checkedBin {n bound a b : Nat} {f : BitVec n → BitVec n → BitVec n} {v u : BitVec n} (ha : vals a = some v.toNat) (hb : vals b = some u.toNat) :
    Does w (checkedBin n bound f a b) vals (Made vals [] (meas .signed (.ofOption () (if bound < n then some (⟨bound, f v u⟩ : SecretSigned n) else none)))) :=
  does_kept (does_box₂ ha hb)

theorem does_checkedBinPublic {n bound a : Nat} {f : BitVec n → BitVec n → BitVec n} {v u : BitVec n} (ha : vals a = some v.toNat) :
    Does w (checkedBinPublic n bound f a u) vals (Made vals [] (meas .signed (.ofOption () (if bound < n then some (⟨bound, f v u⟩ : SecretSigned n) else none)))) :=
  does_kept (does_box₁ (f := fun v => f v u) ha)

theorem does_consuming₁ {p : M Nat (Out Unit Handle)} {o} {a u : Nat} (hp : Does w p vals (Made vals [] o)) (ha : vals a = some u) : Does w (consuming [a] p) vals (Made vals [a] o) := by
  have := does_wipe_after hp ha (by simp)
  simpa [consuming] using this

theorem does_consuming₂ {p : M Nat (Out Unit Handle)} {o} {a b u v : Nat} (hp : Does w p vals (Made vals [] o)) (ha : vals a = some u) (hb : vals b = some v) (hab : a ≠ b) :
    Does w (consuming [b, a] p) vals (Made vals [a, b] o) := by
  have := does_wipe_after (does_wipe_after hp hb (by simp)) ha (by simpa using hab)
  simpa [consuming] using this

theorem foldl_panic {n : Nat} : ∀ l : List (SecretSigned n), l.foldl (fun acc x => acc.bind fun a => a.add x) (.panic : Out Unit (SecretSigned n)) = .panic
  | [] => rfl
  | _ :: l => foldl_panic l

theorem does_sumFrom {n : Nat} : ∀ (l : List (Nat × SecretSigned n)) (c : Nat) (acc : SecretSigned n) (vals : Plain Nat), vals c = none → (∀ p ∈ l, vals p.1 = some p.2.value.toNat) →
    Does w (sumFrom n ⟨acc.bound, c⟩ (l.map fun p => ⟨p.2.bound, p.1⟩)) (update vals c (some acc.value.toNat))
      (Made vals [] (meas .signed ((l.map Prod.snd).foldl (fun acc x => acc.bind fun a => a.add x) (.ok acc)))) := by
  intro l
  induction l with
  | nil => intro c acc vals hc _; exact .pure ⟨c, rfl, .inl hc, by rw [dropAll_nil]; rfl⟩
  | cons p l ih =>
    intro c acc vals hc hl
    have hp := hl p (by simp)
    have hpc : p.1 ≠ c := by rintro rfl; rw [hp] at hc; cases hc
    have h1 := does_consuming₁ (w := w) (vals := update vals c (some acc.value.toNat)) (a := c) (u := acc.value.toNat)
      (does_checkedBin (bound := max acc.bound p.2.bound + 1) (f := (· + ·)) (b := p.1) (u := p.2.value) (update_self ..) (by rw [update_of_ne hpc]; exact hp)) (update_self ..)
    refine h1.bind fun r v1 h => ?_
    have h := Made.fresh hc h
    rw [List.map_cons, List.foldl_cons, show ((.ok acc : Out Unit (SecretSigned n)).bind fun a => a.add p.2) =
      .ofOptionPanic (if max acc.bound p.2.bound + 1 < n then some ⟨max acc.bound p.2.bound + 1, acc.value + p.2.value⟩ else none) from rfl]
    by_cases hb : max acc.bound p.2.bound + 1 < n
    · rw [if_pos hb] at h ⊢
      obtain ⟨a, rfl, h2, h3⟩ := h
      rw [dropAll_nil] at h3
      subst h3
      refine ih a ⟨_, _⟩ vals ?_ fun q hq => hl q (by simp [hq])
      simpa using h2
    · rw [if_neg hb] at h ⊢
      obtain ⟨rfl, h3⟩ := h
      rw [Out.ofOptionPanic_none, foldl_panic]
      exact .pure ⟨rfl, h3⟩

theorem does_positive {n bound : Nat} {draw s : BitVec n} : Does w (do
      let positive ← boxed (pure draw)
      let r ← boxed do return (← value n positive) - s
      wipe positive
      return Out.ok (⟨bound, r⟩ : Handle)) vals (Made vals [] (meas .signed (.ok (⟨bound, draw - s⟩ : SecretSigned n)))) := by
  refine (does_boxed (v := draw) (.pure ⟨rfl, rfl⟩)).bind fun t v1 h => ?_
  have hs := new_self h
  obtain ⟨h0, rfl⟩ := h
  refine (does_box₁ (f := fun v => v - s) hs).bind fun t' v2 h2 => ?_
  obtain ⟨h3, h4⟩ := new_wiped h0 h2
  refine (does_wipe h3).bind fun _ v3 h5 => .pure ?_
  subst h5
  exact Made.of_new h4

theorem does_random {n exp : Nat} {draw : BitVec n} : Does w (randomInExponentRange n exp draw) vals (Made vals [] (meas .signed (SecretSigned.randomInExponentRange exp draw))) := by
  unfold randomInExponentRange SecretSigned.randomInExponentRange
  split_ifs
  · exact .pure ⟨rfl, dropAll_nil.symm⟩
  · exact does_positive

theorem does_randomScaled {n v W exp : Nat} {scale : BitVec v} {draw : BitVec W} :
    Does w (randomInExponentRangeScaled n W exp scale draw) vals (Made vals [] (meas .signed (SecretSigned.randomInExponentRangeScaled n W exp scale draw))) := by
  unfold randomInExponentRangeScaled SecretSigned.randomInExponentRangeScaled
  split_ifs
  · exact .pure ⟨rfl, dropAll_nil.symm⟩
  · exact .pure ⟨rfl, dropAll_nil.symm⟩
  · exact .pure ⟨rfl, dropAll_nil.symm⟩
  · dsimp only
    split_ifs
    exact .pure ⟨rfl, dropAll_nil.symm⟩
  · dsimp only
    split_ifs
    exact does_positive

/-! ### The operations that are not careful -/

theorem does_left {n n' : Nat} {v : BitVec n} {x : Nat} (hin : w x) (hx : x = v.toNat) {f : BitVec n → BitVec n'} :
    Does w (do
      let copy ← alloc x
      let u ← value n copy
      forget copy
      return f u) vals fun r vals' => r = f v ∧ vals' = vals := by
  subst hx
  refine (does_alloc _).bind fun c v1 h1 => ?_
  obtain ⟨h0, rfl⟩ := h1
  refine (does_value (update_self ..)).bind fun _ _ h2 => ?_
  obtain ⟨rfl, rfl⟩ := h2
  refine (does_forget hin (update_self ..)).bind fun _ _ h3 => .pure ⟨rfl, ?_⟩
  rw [h3, update_idem, ← h0, update_eq_self]

theorem does_bitAnd {n bound a : Nat} {v mask : BitVec n} (hin : w v.toNat) (ha : vals a = some v.toNat) :
    Does w (bitAnd n ⟨bound, a⟩ mask) vals fun r vals' => r.bound = bound ∧ New vals (v &&& mask).toNat r.box vals' :=
  (does_boxed ((does_expose ha).bind fun _ _ h => by
    obtain ⟨rfl, rfl⟩ := h
    exact does_left hin rfl (f := fun v => v &&& mask))).bind fun _ _ h => .pure ⟨rfl, h⟩

theorem does_isInExponentRange (hall : ∀ v, w v) {n a exp : Nat} {x : SecretSigned n} (ha : vals a = some x.value.toNat) :
    Does w (isInExponentRange n ⟨x.bound, a⟩ exp) vals fun r vals' => r = x.isInExponentRange exp ∧ vals' = vals := by
  unfold isInExponentRange SecretSigned.isInExponentRange
  refine (does_abs ha).bind fun r v1 h => ?_
  cases hx : (x.abs : Out Unit _) with
  | ok y =>
    rw [hx] at h
    obtain ⟨t, rfl, h0, rfl⟩ := h
    replace h0 : vals t = none := by simpa using h0
    rw [dropAll_nil]
    dsimp only [Out.bind]
    have hta : a ≠ t := by rintro rfl; rw [ha] at h0; cases h0
    have hs : update vals t (some y.value.toNat) t = some y.value.toNat := update_self ..
    by_cases he : exp = 0
    · rw [if_pos he, if_pos he]
      refine (does_wipe hs).bind fun _ _ h => .pure ⟨rfl, ?_⟩
      rw [h, update_idem, ← h0, update_eq_self]
    · rw [if_neg he, if_neg he]
      refine (does_bitAnd (hall _) hs).bind fun t' v2 h2 => ?_
      obtain ⟨-, h2⟩ := h2
      have hm := new_self h2
      have hs' := new_other h2 hs
      have ha' := new_other h2 (by rw [update_of_ne hta]; exact ha : update vals t (some y.value.toNat) a = some x.value.toNat)
      refine (does_value hm).bind fun _ _ h => ?_
      obtain ⟨rfl, rfl⟩ := h
      refine (does_value hs').bind fun _ _ h => ?_
      obtain ⟨rfl, rfl⟩ := h
      refine (does_isNegative ha').bind fun _ _ h => ?_
      obtain ⟨rfl, rfl⟩ := h
      refine (does_wipe hm).bind fun _ v3 h3 => ?_
      have h4 : v3 = update vals t (some y.value.toNat) := by rw [h3, h2.2, update_idem, ← h2.1, update_eq_self]
      subst h4
      refine (does_wipe hs).bind fun _ v4 h4 => .pure ⟨rfl, ?_⟩
      rw [h4, update_idem, ← h0, update_eq_self]
  | err e => rw [hx] at h; obtain ⟨rfl, h⟩ := h; exact .pure ⟨rfl, by rw [h, dropAll_nil]⟩
  | panic => rw [hx] at h; obtain ⟨rfl, h⟩ := h; exact .pure ⟨rfl, by rw [h, dropAll_nil]⟩

theorem does_assertExponentRange (hall : ∀ v, w v) {n a exp : Nat} {x : SecretSigned n} (ha : vals a = some x.value.toNat) :
    Does w (assertExponentRange n ⟨x.bound, a⟩ exp) vals fun r vals' => r = x.assertExponentRange exp ∧ vals' = dropAll vals [] := by
  unfold assertExponentRange SecretSigned.assertExponentRange
  refine (does_isInExponentRange hall ha).bind fun r v1 h => ?_
  obtain ⟨rfl, rfl⟩ := h
  cases (x.isInExponentRange exp : Out Unit Bool) with
  | ok b => exact .pure ⟨rfl, dropAll_nil.symm⟩
  | err e => exact .pure ⟨rfl, dropAll_nil.symm⟩
  | panic => exact .pure ⟨rfl, dropAll_nil.symm⟩

theorem does_ensureExponentRange (hall : ∀ v, w v) {n a exp : Nat} {x : SecretSigned n} (ha : vals a = some x.value.toNat) :
    Does w (ensureExponentRange n ⟨x.bound, a⟩ exp) vals (Made vals [a] (meas .signed ((x.ensureExponentRange exp).bind (.ofOption ())))) := by
  unfold ensureExponentRange SecretSigned.ensureExponentRange
  refine (does_isInExponentRange hall ha).bind fun r v1 h => ?_
  obtain ⟨rfl, rfl⟩ := h
  cases hx : (x.isInExponentRange exp : Out Unit _) with
  | ok b =>
    refine (does_keepIf ha).mono fun r v' h => ?_
    cases hc : (b && decide (exp < n - 1)) <;> simpa [hc, meas, Out.ofOption, Out.bind, Held.bound, Held.value] using h
  | err e => exact (does_wipe ha).bind fun _ _ h => .pure ⟨rfl, by rw [h, dropAll_cons, dropAll_nil]⟩
  | panic => exact (does_wipe ha).bind fun _ _ h => .pure ⟨rfl, by rw [h, dropAll_cons, dropAll_nil]⟩

theorem does_newModulo {n a bits : Nat} {v modulus : BitVec n} (hin : v.toNat ≤ modulus.toNat → w (modulus - v).toNat) (ha : vals a = some v.toNat) :
    Does w (newModulo n a modulus bits) vals (Made vals [a] (meas .signed ((SecretSigned.newModulo v modulus bits).bind (.ofOption ())))) := by
  unfold newModulo SecretSigned.newModulo
  refine (does_value ha).bind fun _ _ h => ?_
  obtain ⟨rfl, rfl⟩ := h
  rename_i v vals
  dsimp only
  by_cases hlt : modulus.toNat < v.toNat
  · rw [if_pos hlt, if_pos hlt]
    exact (does_wipe ha).bind fun _ _ h => .pure ⟨rfl, by rw [h, dropAll_cons, dropAll_nil]⟩
  · rw [if_neg hlt, if_neg hlt]
    refine (does_boxed (v := -(modulus - v)) ((does_value ha).bind fun _ _ h => by
      obtain ⟨rfl, rfl⟩ := h
      exact does_left (hin (by omega)) rfl (f := fun d => -d))).bind fun t v1 h => ?_
    have hs := new_self h
    have ho := new_other h ha
    obtain ⟨h0, rfl⟩ := h
    have hta : t ≠ a := by rintro rfl; rw [ha] at h0; cases h0
    refine (does_conditionalSelect ho hs).bind fun t' v2 h2 => ?_
    have hs2 := new_self h2
    have ho2 := new_other h2 ho
    have hn2 := new_other h2 hs
    obtain ⟨h3, rfl⟩ := h2
    have htt : t' ≠ t := by rintro rfl; rw [hs] at h3; cases h3
    have hta' : t' ≠ a := by rintro rfl; rw [ho] at h3; cases h3
    by_cases hb : bits = 0
    · rw [if_pos hb, if_pos hb]
      have key := does_wipe_after (p := do wipe t'; return Out.panic) (o := .panic) (w := w) (l := [t']) ((does_wipe hs2).bind fun _ _ h => .pure ⟨rfl, by rw [h, dropAll_cons, dropAll_nil]⟩) hn2 (by simpa using htt.symm)
      have key := does_wipe_after key ho2 (by simp [hta.symm, hta'.symm])
      simp only [bind_assoc, pure_bind] at key
      refine key.mono fun r v' h => ?_
      exact Made.fresh h0 (Made.fresh h3 (h.perm (l' := [t', t, a]) (by simp [or_comm, or_left_comm])))
    · rw [if_neg hb, if_neg hb]
      have hval : (if decide (v.toNat > (modulus >>> 1).toNat) = true then (-(modulus - v)).toNat else v.toNat) =
          (if decide (v.toNat > (modulus >>> 1).toNat) = true then -(modulus - v) else v).toNat := by split <;> rfl
      rw [hval] at hs2 ho2 hn2 ⊢
      have key := does_wipe_after (does_wipe_after (does_newFromUnsigned (w := w) (bound := bits - 1) hs2) hn2 (by simpa using htt.symm)) ho2 (by simp [hta.symm, hta'.symm])
      simp only [bind_assoc, pure_bind] at key
      refine key.mono fun r v' h => ?_
      exact Made.fresh h0 (Made.fresh h3 (h.perm (l' := [t', t, a]) (by simp [or_comm, or_left_comm])))

/-! ### All operations -/

/-- The values of the secrets that exist -/
def plain (live : Live) : Plain Nat := fun a => (live a).map Held.value

theorem plain_eq {live : Live} {a : Nat} {h : Held} (ha : live a = some h) : plain live a = some h.value := by simp [plain, ha]

theorem plain_none {live : Live} {a : Nat} : plain live a = none ↔ live a = none := by simp [plain]

/-- What is true after an operation -/
def Post (live : Live) (moved : List Nat) (o : Out Unit (Option Held)) (r : Out Unit (Option Handle)) (vals' : Plain Nat) : Prop :=
  Agree r o ∧ vals' = plain (after live moved r o) ∧ ∀ h, r = .ok (some h) → live h.box = none ∨ h.box ∈ moved

theorem plain_dropAll {live : Live} {l : List Nat} : dropAll (plain live) l = plain fun b => if b ∈ l then none else live b := by
  funext b
  by_cases hb : b ∈ l <;> simp [dropAll, plain, hb]

theorem does_giving {α : Type} {live : Live} {p : M Nat (Out Unit Handle)} {l : List Nat} {f : α → Held} {o : Out Unit α} (hp : Does w p (plain live) (Made (plain live) l (meas f o))) :
    Does w (giving p) (plain live) (Post live l (new f o)) := by
  refine hp.bind fun r v1 h => ?_
  rcases o with x | _ | _
  · obtain ⟨a, rfl, h1, h2⟩ := h
    refine .pure ⟨rfl, ?_, ?_⟩
    · rw [h2, plain_dropAll]
      funext b
      by_cases hb : b = a <;> simp [plain, after, new, Out.bind, hb]
    · intro h hh
      cases hh
      exact h1.imp_left plain_none.1
  · obtain ⟨rfl, h2⟩ := h
    exact .pure ⟨trivial, by rw [h2, plain_dropAll]; rfl, by rintro _ ⟨⟩⟩
  · obtain ⟨rfl, h2⟩ := h
    exact .pure ⟨trivial, by rw [h2, plain_dropAll]; rfl, by rintro _ ⟨⟩⟩

theorem does_givingNew {live : Live} {bound : Nat} {p : M Nat Nat} {h : Held} (hb : h.bound = bound) (hp : Does w p (plain live) (New (plain live) h.value)) :
    Does w (giving do return .ok ⟨bound, ← p⟩) (plain live) (Post live [] (.ok (some h))) := by
  subst hb
  exact does_giving (f := id) (o := .ok h) (hp.bind fun _ _ h => .pure (Made.of_new h))

theorem does_nothing {live : Live} {p : M Nat (Out Unit Unit)} {l : List Nat} {o : Out Unit Unit} (hp : Does w p (plain live) fun r v => r = o ∧ v = dropAll (plain live) l) :
    Does w (nothing p) (plain live) (Post live l (o.bind fun _ => .ok none)) := by
  refine hp.bind fun r v1 h => ?_
  obtain ⟨rfl, rfl⟩ := h
  rcases r with _ | _ | _
  · exact .pure ⟨trivial, plain_dropAll, by rintro _ ⟨⟩⟩
  · exact .pure ⟨trivial, plain_dropAll, by rintro _ ⟨⟩⟩
  · exact .pure ⟨trivial, plain_dropAll, by rintro _ ⟨⟩⟩

theorem does_expecting {α : Type} {live : Live} {p : M Nat (Out Unit Handle)} {l : List Nat} {f : α → Held} {o : Option α}
    (hp : Does w p (plain live) (Made (plain live) l (meas f (.ofOption () o)))) : Does w (expecting p) (plain live) (Post live l (new f (.ofOptionPanic o))) :=
  does_giving (does_expect hp)

theorem does_run {live : Live} {op : Op} {o : Out Unit (Option Held)} (hm : Means live op o) (hw : (∃ v, ¬ w v) → Careful op) : Does w op.run (plain live) (Post live op.moved o) := by
  cases hm with
  | box v => exact does_givingNew rfl (does_boxed (.pure ⟨rfl, rfl⟩))
  | drop ha => exact does_nothing (o := .ok ()) ((does_wipe (plain_eq ha)).bind fun _ _ h => .pure ⟨rfl, by rw [h, ← dropAll_nil (vals := plain live), ← dropAll_cons, dropAll_nil]; rfl⟩)
  | clone ha => exact does_givingNew rfl (does_clone (plain_eq ha))
  | unsignedNew ha => exact does_giving (does_unsignedNew (plain_eq ha))
  | addMod ha hb hn =>
    exact does_giving (f := Held.unsigned) (o := .ok _) (does_addMod (plain_eq ha) (plain_eq hb) (plain_eq hn))
  | bitAnd ha =>
    refine does_giving (f := Held.unsigned) (o := .ok _) ((does_bitAnd (not_exists_not.1 hw _) (plain_eq ha)).bind fun r _ h => .pure ?_)
    obtain ⟨bd, a⟩ := r
    obtain ⟨rfl, h⟩ := h
    exact Made.of_new h
  | unsignedToWide ha => exact does_giving (f := Held.unsigned) (o := .ok _) ((does_box₁ (f := fun v => v.setWidth _) (plain_eq ha)).bind fun _ _ h => .pure (Made.of_new h))
  | newPositive ha => exact does_giving (does_newPositive (plain_eq ha))
  | newFromUnsigned ha => exact does_giving (does_newFromUnsigned (plain_eq ha))
  | newModulo ha => exact does_giving (does_newModulo (fun _ => not_exists_not.1 hw _) (plain_eq ha))
  | zero => exact does_giving (f := Held.signed) (o := .ok SecretSigned.zero) does_zero
  | neg ha => exact does_giving (f := Held.signed) (o := .ok _) ((does_box₁ (f := fun v => -v) (plain_eq ha)).bind fun _ _ h => .pure (Made.of_new h))
  | negOwned ha =>
    exact does_giving (f := Held.signed) (o := .ok _) (does_consuming₁ ((does_box₁ (f := fun v => -v) (plain_eq ha)).bind fun _ _ h => .pure (Made.of_new h)) (plain_eq ha))
  | absValue ha => exact does_givingNew rfl (does_absValue (plain_eq ha))
  | abs ha => exact does_giving (does_abs (plain_eq ha))
  | assertRange ha => exact does_nothing (does_assertExponentRange (not_exists_not.1 hw) (plain_eq ha))
  | ensureRange ha => exact does_giving (does_ensureExponentRange (not_exists_not.1 hw) (plain_eq ha))
  | toWide ha => exact does_giving (does_toWide (plain_eq ha))
  | mulWidePublic ha => exact does_giving (does_mulWidePublic (plain_eq ha))
  | checkedAdd ha hb => exact does_giving (does_checkedBin (plain_eq ha) (plain_eq hb))
  | checkedAddPublic ha => exact does_giving (does_checkedBinPublic (plain_eq ha))
  | checkedSub ha hb => exact does_giving (does_checkedBin (plain_eq ha) (plain_eq hb))
  | checkedMul ha hb => exact does_giving (does_checkedBin (plain_eq ha) (plain_eq hb))
  | checkedMulPublic ha => exact does_giving (does_checkedBinPublic (plain_eq ha))
  | add ha hb hab => exact does_expecting (does_consuming₂ (does_checkedBin (plain_eq ha) (plain_eq hb)) (plain_eq ha) (plain_eq hb) hab)
  | addRef ha hb hab => exact does_expecting (does_consuming₁ (does_checkedBin (plain_eq ha) (plain_eq hb)) (plain_eq ha))
  | sub ha hb hab => exact does_expecting (does_consuming₂ (does_checkedBin (plain_eq ha) (plain_eq hb)) (plain_eq ha) (plain_eq hb) hab)
  | mul ha hb hab => exact does_expecting (does_consuming₂ (does_checkedBin (plain_eq ha) (plain_eq hb)) (plain_eq ha) (plain_eq hb) hab)
  | mulRef ha hb hab => exact does_expecting (does_consuming₁ (does_checkedBin (plain_eq ha) (plain_eq hb)) (plain_eq ha))
  | addPublic ha => exact does_expecting (does_consuming₁ (does_checkedBinPublic (plain_eq ha)) (plain_eq ha))
  | refMulPublic ha => exact does_expecting (does_checkedBinPublic (plain_eq ha))
  | mulPublic ha => exact does_expecting (does_consuming₁ (does_checkedBinPublic (plain_eq ha)) (plain_eq ha))
  | sum hl =>
    refine does_giving (does_zero.bind fun r v1 h => ?_)
    obtain ⟨c, rfl, h0, rfl⟩ := h
    rw [dropAll_nil]
    exact does_sumFrom _ c SecretSigned.zero (plain live) (by simpa using h0) fun p hp => plain_eq (hl p hp)
  | random => exact does_giving does_random
  | randomScaled => exact does_giving does_randomScaled

theorem reached_inv {kind : Op → Prop} (hk : (∃ v, ¬ w v) → ∀ op, kind op → Careful op) {m : Mem Nat} {live : Live} (h : Reached kind m live) : Rep m (plain live) ∧ Wiped w m := by
  induction h with
  | start => exact ⟨fun a v => by simp [plain], fun c hc => by cases hc⟩
  | step m live op o r m' _ hop hm hr ih =>
    obtain ⟨r', m'', vals', h1, h2, h3, h4⟩ := does_run hm (fun hw => hk hw op hop) m ih.1 ih.2
    rw [hr] at h1
    cases h1
    exact ⟨h4.2.1 ▸ h2, h3⟩

/-! ### What is left behind -/

/-- Memory that was given up contains the value. -/
def Left (u : Nat) (m : Mem Nat) : Prop := ∃ c ∈ m, c.freed = true ∧ c.value = u

/-- What was left behind stays. -/
def Keeps {α : Type} (p : M Nat α) : Prop := ∀ m r m', p m = some (r, m') → ∀ u, Left u m → Left u m'

/-- The computation leaves the value behind. -/
def Leaves {α : Type} (u : Nat) (p : M Nat α) (vals : Plain Nat) : Prop := ∀ m r m', Rep m vals → p m = some (r, m') → Left u m'

variable {α β : Type}

theorem bind_run {p : M Nat α} {f : α → M Nat β} {m r m'} (h : (p >>= f) m = some (r, m')) : ∃ s m₁, p m = some (s, m₁) ∧ f s m₁ = some (r, m') := by
  change (p m).bind (fun x => f x.1 x.2) = _ at h
  cases hp : p m with
  | none => rw [hp] at h; cases h
  | some x => rw [hp] at h; exact ⟨x.1, x.2, rfl, h⟩

theorem Keeps.bind {p : M Nat α} {f : α → M Nat β} (hp : Keeps p) (hf : ∀ r, Keeps (f r)) : Keeps (p >>= f) := by
  intro m r m' h u hu
  obtain ⟨s, m₁, h1, h2⟩ := bind_run h
  exact hf s _ _ _ h2 u (hp _ _ _ h1 u hu)

theorem Keeps.pure (r : α) : Keeps (pure r : M Nat α) := by
  intro m r' m' h u hu
  cases h
  exact hu

theorem keeps_alloc (v : Nat) : Keeps (alloc v) := by
  intro m r m' h u hu
  cases h
  obtain ⟨c, hc, h⟩ := hu
  exact ⟨c, by simp [hc], h⟩

theorem keeps_expose (a : Nat) : Keeps (expose a) := by
  intro m r m' h u hu
  unfold expose at h
  split at h
  · cases h; exact hu
  · cases h

private theorem left_set {m : Mem Nat} {a v u : Nat} {c' : Cell Nat} (ha : m[a]? = some ⟨v, false⟩) (h : Left u m) : Left u (m.set a c') := by
  obtain ⟨c, hc, h1, h2⟩ := h
  obtain ⟨i, hi⟩ := List.mem_iff_getElem?.1 hc
  have hne : a ≠ i := by rintro rfl; rw [ha] at hi; cases hi; cases h1
  exact ⟨c, List.mem_of_getElem? (by rw [List.getElem?_set_ne hne, hi]), h1, h2⟩

theorem keeps_wipe (a : Nat) : Keeps (wipe a) := by
  intro m r m' h u hu
  unfold wipe at h
  split at h
  · rename_i ha; cases h; exact left_set ha hu
  · cases h

theorem keeps_newBox (v : Nat) : Keeps (newBox v) :=
  (keeps_alloc _).bind fun _ => (keeps_expose _).bind fun _ => (keeps_alloc _).bind fun _ => (keeps_wipe _).bind fun _ => .pure _

theorem keeps_value (n a : Nat) : Keeps (value n a) := (keeps_expose _).bind fun _ => .pure _

theorem keeps_isNegative (n a : Nat) : Keeps (isNegative n a) := (keeps_value _ _).bind fun _ => .pure _

theorem keeps_keepIf (b : Bool) (h : Handle) : Keeps (keepIf b h) := by
  cases b
  · exact (keeps_wipe _).bind fun _ => .pure _
  · exact .pure _

theorem keeps_boxed {n : Nat} {p : M Nat (BitVec n)} (hp : Keeps p) : Keeps (boxed p) := (hp.bind fun _ => .pure _).bind fun _ => keeps_newBox _

theorem keeps_conditionalSelect (a b : Nat) (c : Bool) : Keeps (conditionalSelect a b c : M Nat Nat) :=
  ((keeps_expose _).bind fun _ => (keeps_expose _).bind fun _ => .pure _).bind fun _ => keeps_newBox _

theorem keeps_absValue (n a : Nat) : Keeps (absValue n a) :=
  (keeps_isNegative _ _).bind fun _ => (keeps_boxed ((keeps_value _ _).bind fun _ => .pure _)).bind fun _ => (keeps_conditionalSelect _ _ _).bind fun _ => (keeps_wipe _).bind fun _ => .pure _

theorem keeps_newFromUnsigned (n a bound : Nat) : Keeps (newFromUnsigned n a bound) :=
  (keeps_absValue _ _).bind fun _ => (keeps_value _ _).bind fun _ => (keeps_keepIf _ _).bind fun _ => (keeps_wipe _).bind fun _ => .pure _

theorem Leaves.bind_left {u : Nat} {p : M Nat α} {f : α → M Nat β} (hp : Leaves u p vals) (hf : ∀ r, Keeps (f r)) : Leaves u (p >>= f) vals := by
  intro m r m' hm h
  obtain ⟨s, m₁, h1, h2⟩ := bind_run h
  exact hf s _ _ _ h2 u (hp m s m₁ hm h1)

theorem Leaves.bind_right {u : Nat} {p : M Nat α} {f : α → M Nat β} {mid : α → Plain Nat → Prop} (hp : Does (fun _ => True) p vals mid) (hf : ∀ r v, mid r v → Leaves u (f r) v) :
    Leaves u (p >>= f) vals := by
  intro m r m' hm h
  obtain ⟨s, m₁, h1, h2⟩ := bind_run h
  obtain ⟨s', m₂, v, k1, k2, -, k4⟩ := hp m hm (fun _ _ _ => .inr trivial)
  rw [h1] at k1
  cases k1
  exact hf _ _ k4 _ _ _ k2 h2

theorem leaves_forget {a v : Nat} (ha : vals a = some v) : Leaves v (forget a) vals := by
  intro m r m' hm h
  have hi := (hm a v).1 ha
  unfold forget at h
  rw [hi] at h
  cases h
  exact ⟨⟨v, true⟩, List.mem_set (List.getElem?_eq_some_iff.1 hi).1 _, rfl, rfl⟩

theorem leaves_copy {n x : Nat} {f : BitVec n → M Nat α} (hf : ∀ v, Keeps (f v)) (hx : ∃ v : BitVec n, x = v.toNat) :
    Leaves x (do
      let copy ← alloc x
      let u ← value n copy
      forget copy
      f u) vals := by
  obtain ⟨v, rfl⟩ := hx
  refine .bind_right (does_alloc _) fun c v1 h => ?_
  obtain ⟨h0, rfl⟩ := h
  refine .bind_right (does_value (update_self ..)) fun _ _ h => ?_
  obtain ⟨rfl, rfl⟩ := h
  exact .bind_left (leaves_forget (update_self ..)) fun _ => hf _

theorem leaves_bitAnd {n a bound : Nat} {v mask : BitVec n} (ha : vals a = some v.toNat) : Leaves v.toNat (bitAnd n ⟨bound, a⟩ mask) vals := by
  refine .bind_left (.bind_left (.bind_left (.bind_right (does_expose ha) fun _ _ h => ?_) fun _ => .pure _) fun _ => keeps_newBox _) fun _ => .pure _
  obtain ⟨rfl, rfl⟩ := h
  exact leaves_copy (fun _ => .pure _) ⟨v, rfl⟩

theorem leaves_isInExponentRange {n a exp : Nat} {x : SecretSigned n} {y : SecretUnsigned n} (ha : vals a = some x.value.toNat) (hy : (x.abs : Out Unit _) = .ok y) (he : exp ≠ 0) :
    Leaves y.value.toNat (isInExponentRange n ⟨x.bound, a⟩ exp) vals := by
  refine .bind_right (does_abs ha) fun r v1 h => ?_
  rw [hy] at h
  obtain ⟨t, rfl, h0, rfl⟩ := h
  dsimp only
  rw [if_neg he]
  exact .bind_left (leaves_bitAnd (update_self ..)) fun _ => (keeps_value _ _).bind fun _ => (keeps_value _ _).bind fun _ => (keeps_isNegative _ _).bind fun _ =>
    (keeps_wipe _).bind fun _ => (keeps_wipe _).bind fun _ => .pure _

theorem keeps_giving_end (r : Out Unit Handle) : Keeps (match r with
    | .ok h => pure (.ok (some h))
    | .err e => pure (.err e)
    | .panic => pure .panic : M Nat (Out Unit (Option Handle))) := by
  cases r <;> exact .pure _

theorem leaves_assertRange {n a exp : Nat} {x : SecretSigned n} {y : SecretUnsigned n} (ha : vals a = some x.value.toNat) (hy : (x.abs : Out Unit _) = .ok y) (he : exp ≠ 0) :
    Leaves y.value.toNat (Op.assertRange n ⟨x.bound, a⟩ exp).run vals :=
  .bind_left (.bind_left (leaves_isInExponentRange ha hy he) fun r => by cases r <;> exact .pure _) fun r => by cases r <;> exact .pure _

theorem leaves_ensureRange {n a exp : Nat} {x : SecretSigned n} {y : SecretUnsigned n} (ha : vals a = some x.value.toNat) (hy : (x.abs : Out Unit _) = .ok y) (he : exp ≠ 0) :
    Leaves y.value.toNat (Op.ensureRange n ⟨x.bound, a⟩ exp).run vals :=
  .bind_left (.bind_left (leaves_isInExponentRange ha hy he) fun r => by
    cases r
    · exact keeps_keepIf _ _
    · exact (keeps_wipe _).bind fun _ => .pure _
    · exact (keeps_wipe _).bind fun _ => .pure _) keeps_giving_end

theorem leaves_newModulo {n a bits : Nat} {v modulus : BitVec n} (ha : vals a = some v.toNat) (hle : v.toNat ≤ modulus.toNat) :
    Leaves (modulus - v).toNat (Op.newModulo n a modulus bits).run vals := by
  refine .bind_left (.bind_right (does_value ha) fun _ _ h => ?_) keeps_giving_end
  obtain ⟨rfl, rfl⟩ := h
  dsimp only
  rw [if_neg (Nat.not_lt.2 hle)]
  refine .bind_left (.bind_left (.bind_left (.bind_right (does_value ha) fun _ _ h => ?_) fun _ => .pure _) fun _ => keeps_newBox _) fun _ => ?_
  · obtain ⟨rfl, rfl⟩ := h
    exact leaves_copy (fun _ => .pure _) ⟨_, rfl⟩
  · refine (keeps_conditionalSelect _ _ _).bind fun _ => ?_
    split_ifs
    · exact (keeps_wipe _).bind fun _ => (keeps_wipe _).bind fun _ => (keeps_wipe _).bind fun _ => .pure _
    · exact (keeps_newFromUnsigned _ _ _).bind fun _ => (keeps_wipe _).bind fun _ => (keeps_wipe _).bind fun _ => .pure _

end Synedrion.SecretBounded
