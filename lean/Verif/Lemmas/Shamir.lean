import Verif.Model.Shamir
import Verif.Spec.Sharing
import Verif.Lemmas.BMap
import Mathlib.LinearAlgebra.Lagrange
import Mathlib.Algebra.CharP.Basic

/-!
# Lemmas about Shamir sharing
-/

set_option linter.unusedSectionVars false

namespace Synedrion.Shamir
open Spec

variable {ε : Type} {F : Type} [Field F] [LinearOrder F] {C : Type} [AddCommGroup C] [Module F C]

theorem polyValue_nil (x : F) : polyValue ([] : List C) x = 0 := by
  unfold polyValue; simp

theorem polyValue_cons (c : C) (l : List C) (x : F) : polyValue (c :: l) x = c + x • polyValue l x := by
  unfold polyValue
  rw [show (∑ i : Fin (c :: l).length, x ^ (i : Nat) • (c :: l)[i]) =
    ∑ i : Fin (l.length + 1), x ^ (i : Nat) • (c :: l)[i] from rfl]
  rw [Fin.sum_univ_succ, Finset.smul_sum]
  congr 1
  · simp
  · apply Finset.sum_congr rfl
    intro i _
    rw [smul_smul]
    simp [pow_succ, mul_comm]

theorem foldl_horner (l : List C) (acc : C) (x : F) :
    l.foldl (fun acc coeff => x • acc + coeff) acc = polyValue (l.reverse ++ [acc]) x := by
  induction l generalizing acc with
  | nil => simp [polyValue_cons, polyValue_nil]
  | cons c l ih =>
    rw [List.foldl_cons, ih, List.reverse_cons]
    have : ∀ (l : List C) (a b : C), polyValue (l ++ [x • a + b]) x = polyValue (l ++ [b] ++ [a]) x := by
      intro l a b
      induction l with
      | nil => simp [polyValue_cons, polyValue_nil, add_comm]
      | cons d l ih => simp only [List.cons_append, polyValue_cons, ih]
    exact this _ _ _

theorem horner_eq {coeffs : List C} (h : coeffs ≠ []) (x : F) :
    (horner coeffs x : Out ε C) = .ok (polyValue coeffs x) := by
  unfold horner
  cases hr : coeffs.reverse with
  | nil => simp at hr; exact absurd hr h
  | cons acc rest =>
    simp only
    rw [foldl_horner]
    have : coeffs = rest.reverse ++ [acc] := by
      rw [← List.reverse_reverse coeffs, hr, List.reverse_cons]
    rw [this]

theorem evaluatePolynomial_eq {coeffs : List C} (h : 1 < coeffs.length) (x : F) :
    (evaluatePolynomial coeffs x : Out ε C) = .ok (polyValue coeffs x) := by
  unfold evaluatePolynomial
  have hne : coeffs ≠ [] := by rintro rfl; simp at h
  simp [h, horner_eq hne]

theorem evaluatePolynomial_panic {coeffs : List C} (h : coeffs.length ≤ 1) (x : F) :
    (evaluatePolynomial coeffs x : Out ε C) = .panic := by
  unfold evaluatePolynomial
  have : decide (coeffs.length > 1) = false := by simp; omega
  rw [this]; rfl

theorem polyValue_publicPolynomial (g : C) (coeffs : List F) (x : F) :
    polyValue (publicPolynomial g coeffs) x = polyValue coeffs x • g := by
  induction coeffs with
  | nil => simp [publicPolynomial, polyValue_nil]
  | cons c l ih =>
    unfold publicPolynomial at ih ⊢
    rw [List.map_cons, polyValue_cons, polyValue_cons, ih, add_smul, smul_smul, smul_eq_mul]

/-- The Lagrange coefficient at zero. -/
def lagrange0 (s : Finset F) (i : F) : F := ∏ j ∈ s.erase i, j * (j - i)⁻¹

theorem interpolationCoeff_eq {ids : List F} (hn : ids.Nodup) (i : F) :
    (interpolationCoeff ids i : Out ε F) = .ok (lagrange0 ids.toFinset i) := by
  unfold interpolationCoeff lagrange0
  have : Out.mapM' (fun id => if id - i = 0 then (.panic : Out ε F) else .ok (id * (id - i)⁻¹))
      (ids.filter fun id => id ≠ i) = .ok ((ids.filter fun id => id ≠ i).map fun id => id * (id - i)⁻¹) := by
    apply Out.mapM'_ok_of_forall
    intro a ha
    have : a ≠ i := by simpa using (List.mem_filter.1 ha).2
    rw [if_neg (sub_ne_zero.2 this)]
  rw [this, Out.bind_ok]
  refine congrArg Out.ok ?_
  rw [← List.prod_toFinset _ (hn.filter _)]
  apply Finset.prod_congr
  · ext x; simp [and_comm]
  · intros; rfl

theorem lagrange0_eq_eval_basis (s : Finset F) (i : F) :
    lagrange0 s i = (Lagrange.basis s id i).eval 0 := by
  unfold lagrange0 Lagrange.basis
  rw [Polynomial.eval_prod]
  apply Finset.prod_congr rfl
  intro j hj
  have hne : j ≠ i := Finset.ne_of_mem_erase hj
  unfold Lagrange.basisDivisor
  simp
  have h1 : j - i ≠ 0 := sub_ne_zero.2 hne
  have h2 : i - j ≠ 0 := sub_ne_zero.2 (Ne.symm hne)
  field_simp
  ring

theorem lagrange0_pow_sum (s : Finset F) {k : Nat} (hk : k < s.card) :
    ∑ i ∈ s, lagrange0 s i * i ^ k = if k = 0 then 1 else 0 := by
  have hinj : Set.InjOn (id : F → F) s := fun a _ b _ h => h
  have hdeg : (Polynomial.X ^ k : Polynomial F).degree < s.card := by
    rw [Polynomial.degree_X_pow]; exact_mod_cast hk
  have h := congrArg (Polynomial.eval 0) (Lagrange.eq_interpolate (s := s) (v := id) hinj hdeg)
  rw [Lagrange.interpolate_apply, Polynomial.eval_finsetSum] at h
  simp only [Polynomial.eval_mul, Polynomial.eval_C, ← lagrange0_eq_eval_basis, Polynomial.eval_pow,
    Polynomial.eval_X, id] at h
  rw [zero_pow_eq] at h
  rw [h]
  apply Finset.sum_congr rfl
  intros; ring

theorem lagrange0_sum_one {s : Finset F} (hs : s.Nonempty) : ∑ i ∈ s, lagrange0 s i = 1 := by
  have := lagrange0_pow_sum s (k := 0) (Finset.card_pos.2 hs)
  simpa using this

theorem lagrange0_ne_zero {s : Finset F} {i : F} (h0 : ∀ j ∈ s, j ≠ 0) : lagrange0 s i ≠ 0 := by
  unfold lagrange0
  rw [Finset.prod_ne_zero_iff]
  intro j hj
  have := Finset.mem_erase.1 hj
  exact mul_ne_zero (h0 j this.2) (inv_ne_zero (sub_ne_zero.2 this.1))

/-- Interpolation at zero of a polynomial with at most `|s|` coefficients gives the constant term. -/
theorem lagrange0_interpolates (s : Finset F) (c : C) (l : List C) (h : l.length < s.card) :
    ∑ i ∈ s, lagrange0 s i • polyValue (c :: l) i = c := by
  unfold polyValue
  simp only [Finset.smul_sum, smul_smul]
  rw [Finset.sum_comm]
  have : ∀ k : Fin (c :: l).length,
      ∑ i ∈ s, (lagrange0 s i * i ^ (k : Nat)) • (c :: l)[k] = if (k : Nat) = 0 then (c :: l)[k] else 0 := by
    intro k
    rw [← Finset.sum_smul, lagrange0_pow_sum s (by have := k.isLt; simp at this; omega)]
    split <;> simp
  rw [Finset.sum_congr rfl (fun k _ => this k)]
  rw [show (∑ k : Fin (c :: l).length, if (k : Nat) = 0 then (c :: l)[k] else 0) =
    ∑ k : Fin (l.length + 1), if (k : Nat) = 0 then (c :: l)[k] else 0 from rfl]
  rw [Fin.sum_univ_succ]
  simp

theorem joinPoints_eq [Inhabited C] (m : BMap F C) :
    (joinPoints m : Out ε C) = .ok (∑ i ∈ m.keySet, lagrange0 m.keySet i • (m.get? i).getD default) := by
  unfold joinPoints
  have h : Out.mapM' (fun p : F × C => (interpolationCoeff m.keys p.1 : Out ε F).bind fun c => .ok (c • p.2)) m.entries
      = .ok (m.entries.map fun p => lagrange0 m.keySet p.1 • p.2) := by
    apply Out.mapM'_ok_of_forall
    intro p _
    rw [interpolationCoeff_eq m.nodup_keys, Out.bind_ok]; rfl
  rw [h, Out.bind_ok]
  refine congrArg Out.ok ?_
  rw [← sum_bsetIter, BMap.bsetIter_keySet, BMap.keys, List.map_map]
  congr 1
  apply List.map_congr_left
  intro p hp
  have : m.get? p.1 = some p.2 := BMap.get?_eq_some_iff.2 hp
  simp [this]

theorem joinPoints_tabulate (s : Finset F) (f : F → C) :
    (joinPoints (BMap.tabulate s f) : Out ε C) = .ok (∑ i ∈ s, lagrange0 s i • f i) := by
  have : Inhabited C := ⟨0⟩
  rw [joinPoints_eq, BMap.keySet_tabulate]
  refine congrArg Out.ok (Finset.sum_congr rfl ?_)
  intro i hi
  simp [hi]

theorem joinScalars_eq_joinPoints (m : BMap F F) : (joinScalars m : Out ε F) = joinPoints m := by
  unfold joinScalars joinPoints
  simp only [smul_eq_mul, mul_comm]

theorem evaluationPoints_nodup {q n : Nat} [CharP F q] (h : n < q) : (evaluationPoints F n).Nodup := by
  unfold evaluationPoints shareId
  rw [List.nodup_map_iff_inj_on List.nodup_range]
  intro a ha b hb he
  simp at ha hb
  have := CharP.natCast_injOn_Iio F q (show a + 1 ∈ Set.Iio q by simp; omega) (show b + 1 ∈ Set.Iio q by simp; omega) he
  omega

theorem evaluationPoints_ne_zero {q n : Nat} [CharP F q] (h : n < q) : ∀ x ∈ evaluationPoints F n, x ≠ 0 := by
  intro x hx
  unfold evaluationPoints shareId at hx
  simp only [List.mem_map, List.mem_range] at hx
  obtain ⟨i, hi, rfl⟩ := hx
  intro h0
  have := (CharP.cast_eq_zero_iff F q (i + 1)).1 h0
  have := Nat.le_of_dvd (by omega) this
  omega

end Synedrion.Shamir
