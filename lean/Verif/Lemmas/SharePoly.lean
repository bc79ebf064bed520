import Verif.Lemmas.Shamir

/-!
# Coefficient lists as polynomials
-/

set_option linter.unusedSectionVars false

namespace Synedrion.Shamir
open Spec Polynomial

variable {F : Type} [Field F] [LinearOrder F]

noncomputable def toPoly : List F → F[X]
  | [] => 0
  | c :: l => C c + X * toPoly l

theorem eval_toPoly (l : List F) (x : F) : (toPoly l).eval x = polyValue l x := by
  induction l with
  | nil => simp [toPoly, polyValue_nil]
  | cons c l ih => simp [toPoly, polyValue_cons, ih]

theorem coeff_toPoly (l : List F) (i : Nat) : (toPoly l).coeff i = (l[i]?).getD 0 := by
  induction l generalizing i with
  | nil => simp [toPoly]
  | cons c l ih =>
    cases i with
    | zero => simp [toPoly]
    | succ i => simp [toPoly, coeff_X_mul, ih]

theorem degree_toPoly (l : List F) : (toPoly l).degree < l.length := by
  rw [Polynomial.degree_lt_iff_coeff_zero]
  intro m hm
  rw [coeff_toPoly]
  simp [List.getElem?_eq_none hm]

theorem toPoly_inj {l l' : List F} (hlen : l.length = l'.length) (h : toPoly l = toPoly l') : l = l' := by
  apply List.ext_getElem? 
  intro i
  have := congrArg (fun p => coeff p i) h
  simp only [coeff_toPoly] at this
  by_cases hi : i < l.length
  · rw [List.getElem?_eq_getElem hi, List.getElem?_eq_getElem (by omega)] at this ⊢
    simpa using this
  · rw [List.getElem?_eq_none (by omega), List.getElem?_eq_none (by omega)]

theorem polyValue_coeffList (p : F[X]) (n : Nat) (hp : p.degree < n) (x : F) :
    polyValue ((List.range n).map p.coeff) x = p.eval x := by
  rw [← eval_toPoly]
  congr 1
  ext i
  rw [coeff_toPoly]
  by_cases hi : i < n
  · simp [hi]
  · rw [(Polynomial.degree_lt_iff_coeff_zero p n).1 hp i (by omega)]
    simp [hi]

/-- Values at `|ids|` non-zero points and at zero determine exactly one list of further coefficients. -/
theorem existsUnique_tail (ids : Finset F) (h0 : (0 : F) ∉ ids) (values : F → F) (secret : F) :
    ∃! tail : List F, tail.length = ids.card ∧ ∀ x ∈ ids, polyValue (secret :: tail) x = values x := by
  set S := insert (0 : F) ids with hS
  have hcard : S.card = ids.card + 1 := Finset.card_insert_of_notMem h0
  have hinj : Set.InjOn (id : F → F) S := fun a _ b _ h => h
  set r : F → F := fun x => if x = 0 then secret else values x with hr
  set p := Lagrange.interpolate S id r with hp
  have hdeg : p.degree < (ids.card + 1 : Nat) := by
    have := Lagrange.degree_interpolate_lt (s := S) (v := id) r hinj
    rw [hcard] at this; exact this
  have hev : ∀ x ∈ S, p.eval x = r x := fun x hx => Lagrange.eval_interpolate_at_node (s := S) (v := id) r hinj hx
  have hlist : (List.range (ids.card + 1)).map p.coeff = secret :: (List.range ids.card).map (fun i => p.coeff (i + 1)) := by
    rw [List.range_succ_eq_map, List.map_cons, List.map_map]
    congr 1
    rw [Polynomial.coeff_zero_eq_eval_zero, hev 0 (by simp [hS])]
    simp [hr]
  refine ⟨(List.range ids.card).map (fun i => p.coeff (i + 1)), ⟨by simp, ?_⟩, ?_⟩
  · intro x hx
    rw [← hlist, polyValue_coeffList p _ hdeg, hev x (by simp [hS, hx])]
    have : x ≠ 0 := fun e => h0 (e ▸ hx)
    simp [hr, this]
  · rintro tail ⟨hlen, htail⟩
    have : secret :: tail = secret :: (List.range ids.card).map (fun i => p.coeff (i + 1)) := by
      rw [← hlist]
      apply toPoly_inj (by simp [hlen])
      apply Polynomial.eq_of_degrees_lt_of_eval_finset_eq S
      · rw [hcard]
        have := degree_toPoly (secret :: tail)
        rw [List.length_cons, hlen] at this; exact this
      · rw [hcard]
        have := degree_toPoly ((List.range (ids.card + 1)).map p.coeff)
        rw [List.length_map, List.length_range] at this; exact this
      · intro x hx
        rw [eval_toPoly, eval_toPoly, polyValue_coeffList p _ hdeg, hev x hx]
        by_cases h : x = 0
        · subst h; simp [polyValue_cons, hr]
        · rw [htail x (by simpa [hS, h] using hx)]; simp [hr, h]
    exact (List.cons.inj this).2

end Synedrion.Shamir
