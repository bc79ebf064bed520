import Verif.Lemmas.SignedOps

/-!
# Properties C01–C04: bounded signed integers
-/

namespace Synedrion.Props
open Spec

variable {ε : Type} {w : Nat}

/-! ## C01 -/

/-- **C01.** Any expression over truthful signed integers either panics or yields exactly the integer it denotes (and again a
truthful bound); it never returns a wrapped value or an error. -/
theorem C01_signed_expression_exact (e : SExpr w) (h : e.LeavesTruthful) :
    (∃ s : SecretSigned w, (e.run : Out ε _) = .ok s ∧ s.value.toInt = e.denote ∧ Truthful w s.bound s.value)
      ∨ (e.run : Out ε _) = .panic := by
  induction e with
  | lit s => exact .inl ⟨s, rfl, rfl, h⟩
  | zero => exact .inl ⟨_, rfl, by simp [SecretSigned.zero, SExpr.denote], zero_truthful (by omega)⟩
  | neg a ih =>
    rcases ih h with ⟨s, h1, h2, h3⟩ | h1
    · refine .inl ⟨s.neg, by simp [SExpr.run, h1], ?_, (neg_exact h3).2⟩
      simp [SecretSigned.neg, SExpr.denote, (neg_exact h3).1, h2]
    · exact .inr (by simp [SExpr.run, h1])
  | add a b iha ihb =>
    rcases iha h.1 with ⟨s, h1, h2, h3⟩ | h1
    · rcases ihb h.2 with ⟨t, h4, h5, h6⟩ | h4
      · simp only [SExpr.run, h1, h4, Out.bind_ok, SecretSigned.add, SecretSigned.checkedAdd]
        split
        · rename_i hb
          exact .inl ⟨_, rfl, by simp [SExpr.denote, (add_exact h3 h6 hb).1, h2, h5], (add_exact h3 h6 hb).2⟩
        · exact .inr rfl
      · exact .inr (by simp [SExpr.run, h1, h4])
    · exact .inr (by simp [SExpr.run, h1])
  | sub a b iha ihb =>
    rcases iha h.1 with ⟨s, h1, h2, h3⟩ | h1
    · rcases ihb h.2 with ⟨t, h4, h5, h6⟩ | h4
      · simp only [SExpr.run, h1, h4, Out.bind_ok, SecretSigned.sub, SecretSigned.checkedSub]
        split
        · rename_i hb
          exact .inl ⟨_, rfl, by simp [SExpr.denote, (sub_exact h3 h6 hb).1, h2, h5], (sub_exact h3 h6 hb).2⟩
        · exact .inr rfl
      · exact .inr (by simp [SExpr.run, h1, h4])
    · exact .inr (by simp [SExpr.run, h1])
  | mul a b iha ihb =>
    rcases iha h.1 with ⟨s, h1, h2, h3⟩ | h1
    · rcases ihb h.2 with ⟨t, h4, h5, h6⟩ | h4
      · simp only [SExpr.run, h1, h4, Out.bind_ok, SecretSigned.mul, SecretSigned.checkedMul]
        split
        · rename_i hb
          exact .inl ⟨_, rfl, by simp [SExpr.denote, (mul_exact h3 h6 hb).1, h2, h5], (mul_exact h3 h6 hb).2⟩
        · exact .inr rfl
      · exact .inr (by simp [SExpr.run, h1, h4])
    · exact .inr (by simp [SExpr.run, h1])
  | addPub a p ih =>
    rcases ih h.1 with ⟨s, h1, h2, h3⟩ | h1
    · simp only [SExpr.run, h1, Out.bind_ok, SecretSigned.addPublic, SecretSigned.checkedAddPublic]
      split
      · rename_i hb
        exact .inl ⟨_, rfl, by simp [SExpr.denote, (add_exact h3 h.2 hb).1, h2], (add_exact h3 h.2 hb).2⟩
      · exact .inr rfl
    · exact .inr (by simp [SExpr.run, h1])
  | mulPub a p ih =>
    rcases ih h.1 with ⟨s, h1, h2, h3⟩ | h1
    · simp only [SExpr.run, h1, Out.bind_ok, SecretSigned.mulPublic, SecretSigned.checkedMulPublic]
      split
      · rename_i hb
        exact .inl ⟨_, rfl, by simp [SExpr.denote, (mul_exact h3 h.2 hb).1, h2], (mul_exact h3 h.2 hb).2⟩
      · exact .inr rfl
    · exact .inr (by simp [SExpr.run, h1])
  | mulWide a p ih =>
    rcases ih h.1 with ⟨s, h1, h2, h3⟩ | h1
    · obtain ⟨r, r1, _, r3, r4⟩ := SecretSigned.mulWidePublic_eq (ε := ε) h3 h.2
      exact .inl ⟨r, by simp [SExpr.run, h1, r1], by simp [SExpr.denote, r3, h2], r4⟩
    · exact .inr (by simp [SExpr.run, h1])
  | widen W hW a ih =>
    rcases ih h with ⟨s, h1, h2, h3⟩ | h1
    · obtain ⟨r, r1, _, r3, r4⟩ := SecretSigned.toWide_eq (ε := ε) h3 hW
      exact .inl ⟨r, by simp [SExpr.run, h1, r1], by simp [SExpr.denote, r3, h2], r4⟩
    · exact .inr (by simp [SExpr.run, h1])

/-- Non-vacuity: a concrete expression `(100 - (-27)) * 3 + widen` that runs to the exact value. -/
example :
    let e : SExpr 16 := .mul (.sub (.widen 16 (by omega) (.lit (⟨7, 100#8⟩ : SecretSigned 8)))
      (.lit ⟨5, -27#16⟩)) (.lit ⟨2, 3#16⟩)
    e.LeavesTruthful ∧ e.denote = 381 ∧ (e.run : Out Unit _) = .ok ⟨10, 381#16⟩ := by
  refine ⟨?_, by decide, by decide⟩
  simp only [SExpr.LeavesTruthful]; decide

/-- **C01, when failure happens.** On truthful operands the checked operations fail exactly when the tracked bound would reach the
width; otherwise they succeed with the exact result.  (`SInt` computes over ℤ.) -/
theorem C01_add_refines (a b : SecretSigned w) (ha : Truthful w a.bound a.value) (hb : Truthful w b.bound b.value) :
    (SecretSigned.toSInt <$> (a.add b : Out ε _)) = SInt.add w a.toSInt b.toSInt := by
  simp only [SecretSigned.add, SecretSigned.checkedAdd, SInt.add, SecretSigned.toSInt, Out.map_eq]
  split
  · rename_i h; simp [(add_exact ha hb h).1, h]
  · rename_i h; simp [h]

theorem C01_sub_refines (a b : SecretSigned w) (ha : Truthful w a.bound a.value) (hb : Truthful w b.bound b.value) :
    (SecretSigned.toSInt <$> (a.sub b : Out ε _)) = SInt.sub w a.toSInt b.toSInt := by
  simp only [SecretSigned.sub, SecretSigned.checkedSub, SInt.sub, SecretSigned.toSInt, Out.map_eq]
  split
  · rename_i h; simp [(sub_exact ha hb h).1, h]
  · rename_i h; simp [h]

theorem C01_mul_refines (a b : SecretSigned w) (ha : Truthful w a.bound a.value) (hb : Truthful w b.bound b.value) :
    (SecretSigned.toSInt <$> (a.mul b : Out ε _)) = SInt.mul w a.toSInt b.toSInt := by
  simp only [SecretSigned.mul, SecretSigned.checkedMul, SInt.mul, SecretSigned.toSInt, Out.map_eq]
  split
  · rename_i h; simp [(mul_exact ha hb h).1, h]
  · rename_i h; simp [h]

theorem C01_addPublic_refines (a : SecretSigned w) (b : PublicSigned w) (ha : Truthful w a.bound a.value)
    (hb : Truthful w b.bound b.value) :
    (SecretSigned.toSInt <$> (a.addPublic b : Out ε _)) = SInt.add w a.toSInt b.toSInt := by
  simp only [SecretSigned.addPublic, SecretSigned.checkedAddPublic, SInt.add, SecretSigned.toSInt,
    PublicSigned.toSInt, Out.map_eq]
  split
  · rename_i h; simp [(add_exact ha hb h).1, h]
  · rename_i h; simp [h]

theorem C01_mulPublic_refines (a : SecretSigned w) (b : PublicSigned w) (ha : Truthful w a.bound a.value)
    (hb : Truthful w b.bound b.value) :
    (SecretSigned.toSInt <$> (a.mulPublic b : Out ε _)) = SInt.mul w a.toSInt b.toSInt := by
  simp only [SecretSigned.mulPublic, SecretSigned.checkedMulPublic, SInt.mul, SecretSigned.toSInt,
    PublicSigned.toSInt, Out.map_eq]
  split
  · rename_i h; simp [(mul_exact ha hb h).1, h]
  · rename_i h; simp [h]

theorem C01_neg_refines (a : SecretSigned w) (ha : Truthful w a.bound a.value) :
    a.neg.toSInt = a.toSInt.neg ∧ Truthful w a.neg.bound a.neg.value := by
  simp [SecretSigned.neg, SecretSigned.toSInt, SInt.neg, (neg_exact ha).1, (neg_exact ha).2]

/-- Making a secret value public never fails and keeps the value and its bound. -/
theorem C01_to_public_exact (a : SecretSigned w) (ha : Truthful w a.bound a.value) :
    ∃ p : PublicSigned w, (a.toPublic : Out ε _) = .ok p ∧ p.bound = a.bound ∧ p.value.toInt = a.value.toInt ∧ Truthful w p.bound p.value :=
  ⟨⟨a.bound, a.value⟩, by rw [SecretSigned.toPublic, PublicSigned.newFromUnsigned_eq, if_pos ha]; rfl, rfl, rfl, ha⟩

example : ((⟨3, -5#8⟩ : SecretSigned 8).toPublic : Out Empty _) = .ok ⟨3, -5#8⟩ := by decide +kernel

/-- Widening never fails and keeps the value; the widening product never fails and is exact. -/
theorem C01_widening_exact {W : Nat} (hW : w ≤ W) (a : SecretSigned w) (ha : Truthful w a.bound a.value) :
    (SecretSigned.toSInt <$> (a.toWide W : Out ε _)) = .ok a.toSInt.toWide := by
  obtain ⟨r, h1, h2, h3, _⟩ := SecretSigned.toWide_eq (ε := ε) ha hW
  simp [h1, SecretSigned.toSInt, SInt.toWide, h2, h3]

theorem C01_mulWide_exact {w₁ w₂ : Nat} (a : SecretSigned w₁) (p : PublicSigned w₂)
    (ha : Truthful w₁ a.bound a.value) (hp : Truthful w₂ p.bound p.value) :
    (SecretSigned.toSInt <$> (a.mulWidePublic p : Out ε _)) =
      .ok ⟨a.bound + p.bound, a.value.toInt * p.value.toInt⟩ ∧
    (SInt.mulWide (w₁ + w₂) a.toSInt p.toSInt : Out ε _) = .ok ⟨a.bound + p.bound, a.value.toInt * p.value.toInt⟩ := by
  obtain ⟨r, h1, h2, h3, _⟩ := SecretSigned.mulWidePublic_eq (ε := ε) ha hp
  refine ⟨by simp [h1, SecretSigned.toSInt, h2, h3], ?_⟩
  have := ha.1
  have := hp.1
  exact if_pos (show a.bound + p.bound < w₁ + w₂ by omega)

/-- **C01 for sums.** The iterator sum of truthful integers panics or returns the exact sum. -/
theorem C01_sum_exact (hw : 0 < w) (l : List (SecretSigned w)) (hl : ∀ s ∈ l, Truthful w s.bound s.value) :
    (∃ r : SecretSigned w, (SecretSigned.sum l : Out ε _) = .ok r ∧
        r.value.toInt = (l.map fun s => s.value.toInt).sum ∧ Truthful w r.bound r.value)
      ∨ (SecretSigned.sum l : Out ε _) = .panic := by
  have key : ∀ (l : List (SecretSigned w)) (a : SecretSigned w), (∀ s ∈ l, Truthful w s.bound s.value) →
      Truthful w a.bound a.value →
      (∃ r : SecretSigned w, (l.foldl (fun acc x => acc.bind fun a => a.add x) (.ok a) : Out ε _) = .ok r ∧
        r.value.toInt = a.value.toInt + (l.map fun s => s.value.toInt).sum ∧ Truthful w r.bound r.value)
      ∨ (l.foldl (fun acc x => acc.bind fun a => a.add x) (.ok a) : Out ε _) = .panic := by
    intro l
    induction l with
    | nil => intro a _ ha; exact .inl ⟨a, rfl, by simp, ha⟩
    | cons x l ih =>
      intro a hl ha
      have hx := hl x (by simp)
      have hl' : ∀ s ∈ l, Truthful w s.bound s.value := fun s hs => hl s (by simp [hs])
      have hpanic : ∀ l : List (SecretSigned w),
          (l.foldl (fun acc x => acc.bind fun a => a.add x) (.panic) : Out ε (SecretSigned w)) = .panic := by
        intro l; induction l with
        | nil => rfl
        | cons y l ih => simpa using ih
      simp only [List.foldl_cons, Out.bind_ok]
      by_cases hb : max a.bound x.bound + 1 < w
      · have hadd : (a.add x : Out ε _) = .ok ⟨max a.bound x.bound + 1, a.value + x.value⟩ := by
          simp [SecretSigned.add, SecretSigned.checkedAdd, hb]
        rw [hadd]
        rcases ih ⟨_, _⟩ hl' (add_exact ha hx hb).2 with ⟨r, h1, h2, h3⟩ | h1
        · refine .inl ⟨r, h1, ?_, h3⟩
          rw [h2]; simp [(add_exact ha hx hb).1, add_assoc]
        · exact .inr h1
      · have hadd : (a.add x : Out ε _) = .panic := by
          simp [SecretSigned.add, SecretSigned.checkedAdd, hb]
        rw [hadd]
        exact .inr (hpanic l)
  have := key l SecretSigned.zero hl (zero_truthful hw)
  simpa [SecretSigned.sum, SecretSigned.zero] using this

example : (SecretSigned.sum [⟨3, 5#16⟩, ⟨3, -7#16⟩] : Out Unit (SecretSigned 16)) = .ok ⟨5, -2#16⟩ := by decide

/-- **C01, when a sum fails.** The iterator sum is the sum over ℤ with the same tracked bounds, so it fails exactly when one of the partial sums' bounds reaches the width. -/
theorem C01_sum_refines (hw : 0 < w) (l : List (SecretSigned w)) (hl : ∀ s ∈ l, Truthful w s.bound s.value) :
    (SecretSigned.toSInt <$> (SecretSigned.sum l : Out ε _)) = SInt.sum w (l.map SecretSigned.toSInt) := by
  have hpanic : ∀ l : List (SecretSigned w), (l.foldl (fun acc x => acc.bind fun a => a.add x) (.panic) : Out ε (SecretSigned w)) = .panic := by
    intro l; induction l with
    | nil => rfl
    | cons y l ih => simpa using ih
  have hpanic' : ∀ l : List SInt, (l.foldl (fun acc x => acc.bind fun a => a.add w x) (.panic) : Out ε SInt) = .panic := by
    intro l; induction l with
    | nil => rfl
    | cons y l ih => simpa using ih
  have key : ∀ (l : List (SecretSigned w)) (a : SecretSigned w), (∀ s ∈ l, Truthful w s.bound s.value) → Truthful w a.bound a.value →
      (SecretSigned.toSInt <$> (l.foldl (fun acc x => acc.bind fun a => a.add x) (.ok a) : Out ε _)) =
        (l.map SecretSigned.toSInt).foldl (fun acc x => acc.bind fun a => a.add w x) (.ok a.toSInt) := by
    intro l
    induction l with
    | nil => intro a _ _; rfl
    | cons x l ih =>
      intro a hl ha
      have hx := hl x (by simp)
      simp only [List.foldl_cons, List.map_cons, Out.bind_ok]
      have h := C01_add_refines (ε := ε) a x ha hx
      by_cases hb : max a.bound x.bound + 1 < w
      · have hadd : (a.add x : Out ε _) = .ok ⟨max a.bound x.bound + 1, a.value + x.value⟩ := by simp [SecretSigned.add, SecretSigned.checkedAdd, hb]
        rw [← h, hadd]
        exact ih _ (fun s hs => hl s (by simp [hs])) (add_exact ha hx hb).2
      · have hadd : (a.add x : Out ε _) = .panic := by simp [SecretSigned.add, SecretSigned.checkedAdd, hb]
        rw [← h, hadd, hpanic]
        simp only [Out.map_eq, Out.bind_panic]
        exact (hpanic' _).symm
  have h := key l SecretSigned.zero hl (zero_truthful hw)
  have h0 : (SecretSigned.zero : SecretSigned w).toSInt = ⟨0, 0⟩ := by simp [SecretSigned.toSInt, SecretSigned.zero]
  rw [SecretSigned.sum, h, h0, SInt.sum]

/-- A sum of `n` integers of at most `b` bits succeeds if `b + n` is below the width; its bound is at most `b + n`. -/
theorem C01_sum_fits {b : Nat} (l : List (SecretSigned w)) (hl : ∀ s ∈ l, Truthful w s.bound s.value) (hb : ∀ s ∈ l, s.bound ≤ b) (hfit : b + l.length < w) :
    ∃ r : SecretSigned w, (SecretSigned.sum l : Out ε _) = .ok r ∧ r.bound ≤ b + l.length ∧ r.value.toInt = (l.map fun s => s.value.toInt).sum := by
  have key : ∀ (l : List (SecretSigned w)) (a : SecretSigned w) (b : Nat), (∀ s ∈ l, s.bound ≤ b) → a.bound ≤ b → b + l.length < w →
      ∃ r : SecretSigned w, (l.foldl (fun acc x => acc.bind fun a => a.add x) (.ok a) : Out ε _) = .ok r ∧ r.bound ≤ b + l.length := by
    intro l
    induction l with
    | nil => intro a b _ ha _; exact ⟨a, rfl, ha⟩
    | cons x l ih =>
      intro a b hl ha hfit
      have hx := hl x (by simp)
      simp only [List.length_cons] at hfit ⊢
      simp only [List.foldl_cons, Out.bind_ok]
      have hadd : (a.add x : Out ε _) = .ok ⟨max a.bound x.bound + 1, a.value + x.value⟩ := by
        simp only [SecretSigned.add, SecretSigned.checkedAdd]; rw [if_pos (by omega)]; rfl
      rw [hadd]
      obtain ⟨r, h1, h2⟩ := ih ⟨max a.bound x.bound + 1, a.value + x.value⟩ (b + 1) (fun s hs => (hl s (by simp [hs])).trans (by omega)) (by simp only; omega) (by omega)
      exact ⟨r, h1, by omega⟩
  obtain ⟨r, h1, h2⟩ := key l SecretSigned.zero b hb (Nat.zero_le _) hfit
  refine ⟨r, h1, h2, ?_⟩
  rcases C01_sum_exact (ε := ε) (by omega) l hl with ⟨r', h3, h4, -⟩ | h3
  · rw [SecretSigned.sum, h1] at h3
    cases h3; exact h4
  · rw [SecretSigned.sum, h1] at h3; cases h3

example : (SecretSigned.sum [⟨3, 5#8⟩, ⟨3, -7#8⟩, ⟨3, 1#8⟩] : Out Unit (SecretSigned 8)) = .ok ⟨6, -1#8⟩ ∧
    (SecretSigned.sum [⟨3, 5#8⟩, ⟨3, -7#8⟩, ⟨3, 1#8⟩, ⟨0, 0#8⟩, ⟨0, 0#8⟩] : Out Unit (SecretSigned 8)) = .panic := by decide

/-! ## C02 -/

/-- **C02 (partial).** Full statement: every constructor hands out only truthful bounds.  Proved for every constructor except
`SecretSigned::new_positive`, for which it is false (`C02_new_positive_bound_untruthful`). -/
theorem C02_constructors_truthful_partial (v : BitVec w) (b : Nat) (n : Bool) :
    (∀ s, SecretSigned.newFromUnsigned v b = some s → s.value = v ∧ s.bound = b ∧ Truthful w s.bound s.value) ∧
    (∀ s, SecretSigned.newFromAbs v b n = some s → Truthful w s.bound s.value) ∧
    (∀ m mb s, (SecretSigned.newModulo v m mb : Out ε _) = .ok (some s) → Truthful w s.bound s.value) ∧
    (∀ s, PublicSigned.newFromAbs v b n = some s →
      Truthful w s.bound s.value ∧ s.value.toInt = if n then -(v.toNat : Int) else v.toNat) ∧
    (∀ s, PublicSigned.newPositive v b = some s → Truthful w s.bound s.value ∧ s.value = v) ∧
    (∀ s, PublicSigned.newFromUnsigned v b = some s → s.value = v ∧ s.bound = b ∧ Truthful w s.bound s.value) := by
  have pub : ∀ n s, PublicSigned.newFromAbs v b n = some s →
      Truthful w s.bound s.value ∧ s.value.toInt = if n then -(v.toNat : Int) else v.toNat := by
    intro n s h
    unfold PublicSigned.newFromAbs at h
    split at h
    · cases h
    · rename_i hc
      rw [not_or] at hc
      have hb : b < w := by omega
      have hv : v.toNat < 2 ^ b := bitLen_le_iff.1 (by omega)
      have := signed_of_small hb hv n
      cases h
      exact ⟨this.2, this.1⟩
  refine ⟨?_, ?_, ?_, pub n, ?_, ?_⟩
  · intro s h
    rw [SecretSigned.newFromUnsigned_eq] at h
    split at h <;> cases h
    exact ⟨rfl, rfl, by assumption⟩
  · intro s h
    rw [SecretSigned.newFromAbs, SecretSigned.newFromUnsigned_eq] at h
    generalize (if n = true then -v else v) = x at h
    by_cases ht : Truthful w b x
    · rw [if_pos ht] at h; cases h; exact ht
    · rw [if_neg ht] at h; cases h
  · intro m mb s h
    simp only [SecretSigned.newModulo, SecretSigned.newFromUnsigned_eq] at h
    split at h
    · cases h
    · split at h
      · cases h
      · simp only [Out.ok.injEq] at h
        generalize (if decide (BitVec.toNat v > BitVec.toNat (m >>> 1)) = true then -(m - v) else v) = x at h
        by_cases ht : Truthful w (mb - 1) x
        · rw [if_pos ht] at h; cases h; exact ht
        · rw [if_neg ht] at h; cases h
  · intro s h
    refine ⟨(pub false s h).1, ?_⟩
    unfold PublicSigned.newPositive PublicSigned.newFromAbs at h
    split at h <;> cases h
    rfl
  · intro s h
    rw [PublicSigned.newFromUnsigned_eq] at h
    split at h <;> cases h
    exact ⟨rfl, rfl, by assumption⟩

/-- The constructors accept exactly the values that fit the declared bound (so they are not vacuously truthful). -/
theorem C02_constructors_accept_iff (v : BitVec w) (b : Nat) :
    ((SecretSigned.newFromUnsigned v b).isSome ↔ Truthful w b v) ∧
    ((PublicSigned.newFromUnsigned v b).isSome ↔ Truthful w b v) ∧
    ((PublicSigned.newPositive v b).isSome ↔ b < w ∧ v.toNat < 2 ^ b) := by
  refine ⟨?_, ?_, ?_⟩
  · rw [SecretSigned.newFromUnsigned_eq]; split <;> simp_all
  · rw [PublicSigned.newFromUnsigned_eq]; split <;> simp_all
  · unfold PublicSigned.newPositive PublicSigned.newFromAbs
    rw [← bitLen_le_iff]
    split
    · simp only [Option.isSome_none, Bool.false_eq_true, false_iff]; omega
    · simp only [Option.isSome_some, true_iff]; omega

example : SecretSigned.newFromUnsigned (-100#16) 7 = some ⟨7, -100#16⟩ ∧
    PublicSigned.newFromAbs 100#16 7 true = some ⟨7, -100#16⟩ := by decide

/-- **C02 fails** for `SecretSigned::new_positive`: for every width of at least 2 bits and every declared bound that leaves any room
for a violation it accepts a value that does not respect the bound, and taking the absolute value of the result panics. -/
theorem C02_new_positive_bound_untruthful (b : Nat) (hb : b + 1 < w) :
    ∃ (v : BitVec w) (s : SecretSigned w), SecretSigned.newPositive v b = some s ∧
      ¬ Truthful w s.bound s.value ∧ (s.abs : Out ε _) = .panic := by
  have hv : (1#w <<< b).toNat = 2 ^ b := toNat_one_shift (by omega)
  have hlt : (1#w <<< b).toNat < 2 ^ (b + 1) := by
    rw [hv]; exact Nat.pow_lt_pow_right (by norm_num) (by omega)
  have hint := toInt_of_small hb hlt
  have hneg : (1#w <<< b).msb = false := by
    rw [msb_iff_neg, hint]; simp; omega
  have habs : bitLen (1#w <<< b).toNat = b + 1 := by
    have h1 := bitLen_le_iff (n := (1#w <<< b).toNat) (k := b + 1)
    have h2 := bitLen_le_iff (n := (1#w <<< b).toNat) (k := b)
    rw [hv] at *
    have : ¬ (2 ^ b < 2 ^ b) := lt_irrefl _
    have h3 : 2 ^ b < 2 ^ (b + 1) := by rw [← hv]; rwa [hv]
    have := h1.2 h3
    have h4 : ¬ bitLen (2 ^ b) ≤ b := fun h => lt_irrefl _ (h2.1 h)
    omega
  refine ⟨1#w <<< b, ⟨b, 1#w <<< b⟩, ?_, ?_, ?_⟩
  · unfold SecretSigned.newPositive SecretSigned.isNegative
    simp only [hneg, habs]
    rw [if_pos ⟨⟨by omega, hb⟩, trivial⟩]
  · rintro ⟨_, h⟩
    rw [hint, hv] at h
    simp at h
  · unfold SecretSigned.abs SecretUnsigned.new SecretSigned.absValue SecretSigned.isNegative
    simp only [hneg, Bool.false_eq_true, if_false, habs]
    rw [if_neg (by omega)]; rfl

/-- Concrete witness: 127 is accepted with a declared bound of one bit. -/
example : SecretSigned.newPositive 127#8 1 = some ⟨1, 127#8⟩ ∧ ¬ Truthful 8 1 127#8 := by decide

/-! ## C03 -/

/-- **C03 (public integers).** -/
theorem C03_public_range_check_exact (s : PublicSigned w) (exp : Nat) (h1 : 1 ≤ exp) (h2 : exp ≤ w) :
    (s.isInExponentRange exp : Out ε _) = .ok (decide (InPm exp s.value.toInt)) := by
  unfold PublicSigned.isInExponentRange
  rw [if_neg (by omega)]
  refine congrArg Out.ok ?_
  have habs := s.abs_toNat
  have hs : (1#w <<< (exp - 1)).toNat = 2 ^ (exp - 1) := toNat_one_shift (by omega)
  have e1 : decide (bitLen s.abs.toNat < exp) = decide (s.value.toInt.natAbs < 2 ^ (exp - 1)) := by
    rw [decide_eq_decide, bitLen_lt_iff (by omega), habs]
  have e2 : decide (s.abs = 1#w <<< (exp - 1)) = decide (s.value.toInt.natAbs = 2 ^ (exp - 1)) := by
    rw [decide_eq_decide, ← BitVec.toNat_inj, habs, hs]
  rw [e1, e2, PublicSigned.isNegative, msb_iff_neg, Bool.eq_iff_iff]
  simp only [Bool.or_eq_true, Bool.and_eq_true, decide_eq_true_eq, Bool.not_eq_true', decide_eq_false_iff_not]
  unfold InPm
  have hp : ((2 ^ (exp - 1) : Nat) : Int) = 2 ^ (exp - 1) := by push_cast; rfl
  have hpos : (0 : Int) < 2 ^ (exp - 1) := by positivity
  rw [← hp] at *
  omega

/-- **C03 (secret integers).** -/
theorem C03_secret_range_check_exact (s : SecretSigned w) (hs : Truthful w s.bound s.value) (exp : Nat) (h1 : 1 ≤ exp) :
    (s.isInExponentRange exp : Out ε _) = .ok (decide (InPm exp s.value.toInt)) := by
  unfold SecretSigned.isInExponentRange
  rw [SecretSigned.abs_eq hs, Out.bind_ok, if_neg (by omega)]
  have hp : ((2 ^ (exp - 1) : Nat) : Int) = 2 ^ (exp - 1) := by push_cast; rfl
  have hpos : (0 : Int) < 2 ^ (exp - 1) := by positivity
  refine congrArg Out.ok ?_
  by_cases hw : exp - 1 < w
  · have habs := s.absValue_toNat
    have hsh : (1#w <<< (exp - 1)).toNat = 2 ^ (exp - 1) := toNat_one_shift hw
    have e1 : decide (s.absValue &&& -(1#w <<< (exp - 1)) = 0#w) = decide (s.value.toInt.natAbs < 2 ^ (exp - 1)) := by
      rw [decide_eq_decide, and_neg_shift_eq_zero hw, habs]
    have e2 : decide (s.absValue = 1#w <<< (exp - 1)) = decide (s.value.toInt.natAbs = 2 ^ (exp - 1)) := by
      rw [decide_eq_decide, ← BitVec.toNat_inj, habs, hsh]
    rw [e1, e2, SecretSigned.isNegative, msb_iff_neg, Bool.eq_iff_iff]
    simp only [Bool.or_eq_true, Bool.and_eq_true, decide_eq_true_eq, Bool.not_eq_true', decide_eq_false_iff_not]
    unfold InPm
    rw [← hp] at *
    omega
  · have h0 : 1#w <<< (exp - 1) = 0#w := by
      apply BitVec.eq_of_toNat_eq
      rw [BitVec.toNat_shiftLeft, BitVec.toNat_ofNat, Nat.shiftLeft_eq]
      have : 2 ^ w ∣ 2 ^ (exp - 1) := pow_dvd_pow 2 (by omega)
      simp [Nat.mod_eq_zero_of_dvd (Dvd.dvd.mul_left this _)]
    have hlt := hs.lt
    have hle := pow_le_pow_int (show s.bound ≤ exp - 1 by have := hs.1; omega)
    have : InPm exp s.value.toInt := ⟨by linarith [hlt.1], by linarith [hlt.2]⟩
    simp [h0, this]

/-- The asserting and the bound-resetting variants follow the same interval. -/
theorem C03_assert_and_ensure (s : SecretSigned w) (hs : Truthful w s.bound s.value) (exp : Nat) (h1 : 1 ≤ exp) :
    ((s.assertExponentRange exp : Out ε _) = .ok () ↔ InPm exp s.value.toInt) ∧
    ((s.assertExponentRange exp : Out ε _) = .panic ↔ ¬ InPm exp s.value.toInt) ∧
    (s.ensureExponentRange exp : Out ε _) =
      .ok (if InPm exp s.value.toInt ∧ exp + 1 < w then some ⟨exp + 1, s.value⟩ else none) := by
  have h := C03_secret_range_check_exact (ε := ε) s hs exp h1
  unfold SecretSigned.assertExponentRange SecretSigned.ensureExponentRange
  rw [h]
  have := hs.pos
  refine ⟨?_, ?_, ?_⟩
  · by_cases hc : InPm exp s.value.toInt <;> simp [hc]
  · by_cases hc : InPm exp s.value.toInt <;> simp [hc]
  · have : (exp < w - 1) ↔ exp + 1 < w := by omega
    simp only [Out.bind_ok, Bool.and_eq_true, decide_eq_true_eq, this]

/-- Both end points: `2^(exp-1)` is in, `-2^(exp-1)` is out, `-2^(exp-1)+1` is in. -/
example : ((⟨6, 8#16⟩ : PublicSigned 16).isInExponentRange 4 : Out Unit _) = .ok true ∧
    ((⟨6, -8#16⟩ : PublicSigned 16).isInExponentRange 4 : Out Unit _) = .ok false ∧
    ((⟨6, -7#16⟩ : SecretSigned 16).isInExponentRange 4 : Out Unit _) = .ok true ∧
    ((⟨6, 9#16⟩ : SecretSigned 16).isInExponentRange 4 : Out Unit _) = .ok false ∧
    Truthful 16 6 (-7#16) := by decide

/-! ## C04 -/

/-- **C04 (plain).** For `1 ≤ exp < BITS` the sampler maps the uniform draws `[0, 2^exp)` one-to-one onto the interval
`±2^exp`, and each result carries a truthful bound. -/
theorem C04_sampling_bijective (exp : Nat) (h1 : 1 ≤ exp) (h2 : exp < w) :
    (∀ draw : BitVec w, draw.toNat < 2 ^ exp →
      ∃ s, (SecretSigned.randomInExponentRange exp draw : Out ε _) = .ok s ∧ s.bound = exp ∧
        InPm exp s.value.toInt ∧ Truthful w s.bound s.value) ∧
    (∀ v : Int, InPm exp v → ∃! draw : BitVec w, draw.toNat < 2 ^ exp ∧
      ∃ s, (SecretSigned.randomInExponentRange exp draw : Out ε _) = .ok s ∧ s.value.toInt = v) := by
  have e0i := pow_pred_mul_two (w := exp) (by omega)
  constructor
  · intro draw hd
    obtain ⟨ha, hb⟩ := draw_sub_shift exp h1 h2 draw hd
    refine ⟨⟨exp, draw - ((1#w <<< (exp - 1)) - 1#w)⟩, ?_, rfl, ?_, hb⟩
    · unfold SecretSigned.randomInExponentRange; rw [if_neg (by omega)]
    · have h4 : (draw.toNat : Int) < 2 ^ exp := by exact_mod_cast hd
      unfold InPm; rw [ha]; constructor <;> linarith
  · intro v hv
    have hn : (v + 2 ^ (exp - 1) - 1).toNat < 2 ^ exp := by
      have hp : ((2 ^ exp : Nat) : Int) = 2 ^ exp := by push_cast; rfl
      have := hv.1; have := hv.2
      have h5 : (0 : Int) < 2 ^ (exp - 1) := by positivity
      zify
      rw [Int.toNat_of_nonneg (by linarith)]; linarith
    have hlt : 2 ^ exp < 2 ^ w := Nat.pow_lt_pow_right (by norm_num) h2
    refine ⟨BitVec.ofNat w (v + 2 ^ (exp - 1) - 1).toNat, ⟨?_, ?_⟩, ?_⟩
    · rw [BitVec.toNat_ofNat, Nat.mod_eq_of_lt (by omega)]; exact hn
    · have hd : (BitVec.ofNat w (v + 2 ^ (exp - 1) - 1).toNat).toNat = (v + 2 ^ (exp - 1) - 1).toNat := by
        rw [BitVec.toNat_ofNat, Nat.mod_eq_of_lt (by omega)]
      obtain ⟨ha, hb⟩ := draw_sub_shift exp h1 h2 _ (by rw [hd]; exact hn)
      refine ⟨⟨exp, _⟩, by unfold SecretSigned.randomInExponentRange; rw [if_neg (by omega)], ?_⟩
      simp only
      rw [ha, hd, Int.toNat_of_nonneg (by linarith [hv.1])]; ring
    · rintro draw ⟨hd, s, hs, hv'⟩
      obtain ⟨ha, hb⟩ := draw_sub_shift exp h1 h2 draw hd
      unfold SecretSigned.randomInExponentRange at hs
      rw [if_neg (by omega)] at hs
      cases hs
      simp only at hv'
      apply BitVec.eq_of_toNat_eq
      rw [BitVec.toNat_ofNat, Nat.mod_eq_of_lt (by omega)]
      omega

/-- **C04 (XOF variant).** The challenge derived from a hash output of `exp` bits covers `±2^exp` one-to-one and never panics. -/
theorem C04_xof_bijective (exp : Nat) (h1 : 1 ≤ exp) (h2 : exp < w) :
    (∀ draw : BitVec w, draw.toNat < 2 ^ exp →
      ∃ s, (PublicSigned.fromXofInExponentRange exp draw : Out ε _) = .ok s ∧ s.bound = exp ∧
        InPm exp s.value.toInt ∧ Truthful w s.bound s.value) ∧
    (∀ v : Int, InPm exp v → ∃! draw : BitVec w, draw.toNat < 2 ^ exp ∧
      ∃ s, (PublicSigned.fromXofInExponentRange exp draw : Out ε _) = .ok s ∧ s.value.toInt = v) := by
  have key : ∀ draw : BitVec w, draw.toNat < 2 ^ exp →
      (PublicSigned.fromXofInExponentRange exp draw : Out ε _) =
        .ok ⟨exp, draw - ((1#w <<< (exp - 1)) - 1#w)⟩ := by
    intro draw hd
    unfold PublicSigned.fromXofInExponentRange
    rw [if_neg (by omega)]
    simp only [PublicSigned.newFromUnsigned_eq, (draw_sub_shift exp h1 h2 draw hd).2, if_true]
    rfl
  have key2 : ∀ draw : BitVec w, (SecretSigned.randomInExponentRange exp draw : Out ε _) =
        .ok ⟨exp, draw - ((1#w <<< (exp - 1)) - 1#w)⟩ := by
    intro draw; unfold SecretSigned.randomInExponentRange; rw [if_neg (by omega)]
  obtain ⟨hA, hB⟩ := C04_sampling_bijective (ε := ε) exp h1 h2
  constructor
  · intro draw hd
    obtain ⟨s, hs, b1, b2, b3⟩ := hA draw hd
    rw [key2] at hs; cases hs
    exact ⟨_, key draw hd, rfl, b2, b3⟩
  · intro v hv
    obtain ⟨draw, ⟨hd, s, hs, hsv⟩, huniq⟩ := hB v hv
    rw [key2] at hs; cases hs
    refine ⟨draw, ⟨hd, _, key draw hd, hsv⟩, ?_⟩
    rintro d ⟨hd', s', hs', hsv'⟩
    rw [key d hd'] at hs'; cases hs'
    exact huniq d ⟨hd', _, key2 d, hsv'⟩

/-- The samplers are defined exactly for `1 ≤ exp < BITS`; outside they panic (the assertions in the code). -/
theorem C04_sampling_guard (exp : Nat) (h : exp = 0 ∨ w ≤ exp) (draw : BitVec w) :
    (SecretSigned.randomInExponentRange exp draw : Out ε _) = .panic ∧
    (PublicSigned.fromXofInExponentRange exp draw : Out ε _) = .panic := by
  unfold SecretSigned.randomInExponentRange PublicSigned.fromXofInExponentRange
  constructor <;> rw [if_pos (by omega)]

example : (SecretSigned.randomInExponentRange 4 15#16 : Out Unit _) = .ok ⟨4, 8#16⟩ ∧
    (SecretSigned.randomInExponentRange 4 0#16 : Out Unit _) = .ok ⟨4, -7#16⟩ := by decide

/-- **C04 (scaled).** With a non-zero scale that leaves room in the result type (`exp + bits(scale) < W`), the scaled sampler maps
the draws `[0, scale·2^exp)` one-to-one onto `[-scale·2^(exp-1)+1, scale·2^(exp-1)]`, with truthful bounds. -/
theorem C04_scaled_sampling_bijective {v W : Nat} (exp : Nat) (scale : BitVec v) (h1 : 1 ≤ exp) (h2 : exp < w)
    (h0 : 0 < scale.toNat) (h3 : exp + bitLen scale.toNat < W) :
    (∀ draw : BitVec W, draw.toNat < scale.toNat * 2 ^ exp →
      ∃ s, (SecretSigned.randomInExponentRangeScaled w W exp scale draw : Out ε _) = .ok s ∧
        InPmScaled exp scale.toNat s.value.toInt ∧ Truthful W s.bound s.value) ∧
    (∀ x : Int, InPmScaled exp scale.toNat x → ∃! draw : BitVec W, draw.toNat < scale.toNat * 2 ^ exp ∧
      ∃ s, (SecretSigned.randomInExponentRangeScaled w W exp scale draw : Out ε _) = .ok s ∧ s.value.toInt = x) := by
  set b := bitLen scale.toNat with hb
  set n := scale.toNat with hn
  have hsc : n < 2 ^ b := bitLen_le_iff.1 (le_of_eq hb.symm)
  have hpe : (2 : Nat) ^ exp = 2 * 2 ^ (exp - 1) := by
    obtain ⟨n, rfl⟩ : ∃ n, exp = n + 1 := ⟨exp - 1, by omega⟩
    simp [pow_succ, mul_comm]
  have hne : n * 2 ^ exp < 2 ^ (exp + b) := by
    rw [pow_add, mul_comm]; exact Nat.mul_lt_mul_of_pos_left hsc (Nat.two_pow_pos _)
  have hne1 : n * 2 ^ (exp - 1) < 2 ^ (exp + b) := by
    refine lt_of_le_of_lt ?_ hne; exact Nat.mul_le_mul_left _ (Nat.pow_le_pow_right (by norm_num) (by omega))
  have hW : 2 ^ (exp + b) < 2 ^ W := Nat.pow_lt_pow_right (by norm_num) h3
  have hbW : 2 ^ b ≤ 2 ^ W := Nat.pow_le_pow_right (by norm_num) (by omega)
  have hset : (scale.setWidth W).toNat = n := by
    rw [BitVec.toNat_setWidth]; exact Nat.mod_eq_of_lt (by omega)
  have hshl : ∀ k, n * 2 ^ k < 2 ^ W → (scale.setWidth W <<< k).toNat = n * 2 ^ k := by
    intro k hk
    rw [BitVec.toNat_shiftLeft, hset, Nat.shiftLeft_eq]; exact Nat.mod_eq_of_lt hk
  have hs1 := hshl (exp - 1) (by omega)
  have hs0 := hshl exp (by omega)
  have hpos1 : 0 < n * 2 ^ (exp - 1) := Nat.mul_pos h0 (Nat.two_pow_pos _)
  have hone : (1#W).toNat = 1 := by
    rw [BitVec.toNat_ofNat]; exact Nat.mod_eq_of_lt (Nat.one_lt_two_pow (by omega))
  have hrun : ∀ draw : BitVec W, (SecretSigned.randomInExponentRangeScaled w W exp scale draw : Out ε _) =
      .ok ⟨exp + b, draw - ((scale.setWidth W <<< (exp - 1)) - 1#W)⟩ := by
    intro draw
    unfold SecretSigned.randomInExponentRangeScaled
    rw [if_neg (by omega), if_neg (by omega), if_neg]
    · simp only; rw [if_neg (by omega)]
    · intro h
      have := congrArg BitVec.toNat h
      rw [hs0] at this
      simp at this
      omega
  have hshift : ((scale.setWidth W <<< (exp - 1)) - 1#W).toNat = n * 2 ^ (exp - 1) - 1 := by
    rw [BitVec.toNat_sub_of_le, hs1, hone]
    rw [BitVec.le_def, hone, hs1]; omega
  have hval : ∀ draw : BitVec W, draw.toNat < n * 2 ^ exp →
      (draw - ((scale.setWidth W <<< (exp - 1)) - 1#W)).toInt = (draw.toNat : Int) - n * 2 ^ (exp - 1) + 1 ∧
      Truthful W (exp + b) (draw - ((scale.setWidth W <<< (exp - 1)) - 1#W)) := by
    intro draw hd
    have hdi := toInt_of_small h3 (lt_trans hd hne)
    have hsi : ((scale.setWidth W <<< (exp - 1)) - 1#W).toInt = (n : Int) * 2 ^ (exp - 1) - 1 := by
      rw [toInt_of_small h3 (by rw [hshift]; omega), hshift, Nat.cast_sub (by omega)]
      push_cast; rfl
    have hfit : (draw.toInt - ((scale.setWidth W <<< (exp - 1)) - 1#W).toInt).natAbs < 2 ^ (exp + b) := by
      rw [natAbs_lt_pow, hsi, hdi]
      have e1 : (draw.toNat : Int) < 2 ^ (exp + b) := by exact_mod_cast lt_trans hd hne
      have e2 : (n : Int) * 2 ^ (exp - 1) < 2 ^ (exp + b) := by exact_mod_cast hne1
      have e3 : (0 : Int) < n * 2 ^ (exp - 1) := by exact_mod_cast hpos1
      constructor <;> linarith [show (0 : Int) ≤ draw.toNat by omega]
    obtain ⟨h6, h7⟩ := truthful_of_fits BitVec.toInt_sub h3 hfit
    exact ⟨by rw [h6, hsi, hdi]; ring, h7⟩
  have hdouble : (n : Int) * 2 ^ exp = 2 * (n * 2 ^ (exp - 1)) := by
    have : (2 : Int) ^ exp = 2 * 2 ^ (exp - 1) := by exact_mod_cast hpe
    rw [this]; ring
  constructor
  · intro draw hd
    refine ⟨_, hrun draw, ?_, (hval draw hd).2⟩
    have : (draw.toNat : Int) < n * 2 ^ exp := by exact_mod_cast hd
    unfold InPmScaled
    simp only
    rw [(hval draw hd).1]
    constructor <;> linarith [show (0 : Int) ≤ draw.toNat by omega]
  · intro x hx
    have hlt : (x + n * 2 ^ (exp - 1) - 1).toNat < n * 2 ^ exp := by
      zify
      rw [Int.toNat_of_nonneg (by linarith [hx.1])]
      linarith [hx.2, hx.1]
    have hd : (BitVec.ofNat W (x + n * 2 ^ (exp - 1) - 1).toNat).toNat = (x + n * 2 ^ (exp - 1) - 1).toNat := by
      rw [BitVec.toNat_ofNat, Nat.mod_eq_of_lt (by omega)]
    refine ⟨BitVec.ofNat W (x + n * 2 ^ (exp - 1) - 1).toNat, ⟨by rw [hd]; exact hlt, _, hrun _, ?_⟩, ?_⟩
    · simp only
      rw [(hval _ (by rw [hd]; exact hlt)).1, hd, Int.toNat_of_nonneg (by linarith [hx.1])]; ring
    · rintro draw ⟨hdl, s, hs, hv'⟩
      rw [hrun] at hs; cases hs
      simp only at hv'
      rw [(hval draw hdl).1] at hv'
      apply BitVec.eq_of_toNat_eq
      rw [hd]; omega

example : (SecretSigned.randomInExponentRangeScaled 8 16 3 (5#8) (39#16) : Out Unit _) = .ok ⟨6, 20#16⟩ ∧
    (SecretSigned.randomInExponentRangeScaled 8 16 3 (5#8) (0#16) : Out Unit _) = .ok ⟨6, -19#16⟩ := by decide

/-- **C01, C02 (modular addition).** For reduced operands the modular sum of two secret unsigned integers is exact, although the plain sum may not fit the width, and the declared
bound is truthful. -/
theorem C01_add_mod_exact {w : Nat} (a b : SecretUnsigned w) (m : BitVec w) (ha : a.value.toNat < m.toNat) (hb : b.value.toNat < m.toNat) :
    (a.addMod b m).value.toNat = (a.value.toNat + b.value.toNat) % m.toNat ∧ (a.addMod b m).value.toNat < 2 ^ (a.addMod b m).bound ∧ (a.addMod b m).bound ≤ w := by
  have hm := m.isLt
  have hval : (a.addMod b m).value.toNat = (a.value.toNat + b.value.toNat) % m.toNat := by
    simp only [SecretUnsigned.addMod, BitVec.toNat_ofNat]
    split
    · rename_i h
      rw [Nat.mod_eq_of_lt (h.trans hm), Nat.mod_eq_of_lt h]
    · rename_i h
      rw [Nat.mod_eq_sub_mod (by omega : m.toNat ≤ a.value.toNat + b.value.toNat), Nat.mod_eq_of_lt (by omega), Nat.mod_eq_of_lt (by omega)]
  refine ⟨hval, ?_, bitLen_le_iff.2 hm⟩
  rw [hval]
  exact (Nat.mod_lt _ (by omega)).trans (bitLen_le_iff.1 le_rfl)

/-- Near the top of the width -/
example : ((⟨8, 250#8⟩ : SecretUnsigned 8).addMod ⟨8, 249#8⟩ 251#8).value = 248#8 := by decide

end Synedrion.Props
