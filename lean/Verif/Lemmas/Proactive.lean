import Verif.Spec.Proactive
import Verif.Lemmas.ZeroKnowledge
import Verif.Lemmas.BMap
import Verif.Lemmas.Shamir

/-!
# Lemmas about shares from different periods
-/

set_option linter.unusedSectionVars false

namespace Synedrion
open Spec Shamir

section
variable {ι F T : Type} [Fintype ι] [DecidableEq ι] [Field F] [Fintype F] [DecidableEq F]

/-- Shifting non-zero draws by constants: the distance is at most the number of shifted draws over `q - 1`. -/
theorem statClose_shift (w : ι → F) (f f' : (ι → F) → T) (m : Nat) (hm : (Finset.univ.filter fun i => w i ≠ 0).card ≤ m)
    (he : ∀ a, f a = f' fun i => a i + w i) :
    StatClose ((m : ℚ) * (1 / ((Fintype.card F : ℚ) - 1))) (nonZeroDraws ι F) f (nonZeroDraws ι F) f' := by
  classical
  have hcard : ((Finset.univ.erase (0 : F)).card : ℚ) = (Fintype.card F : ℚ) - 1 := by
    rw [Finset.card_erase_of_mem (Finset.mem_univ _), Finset.card_univ, Nat.cast_sub Fintype.card_pos]; simp
  have hpos : (0 : ℚ) < (Fintype.card F : ℚ) - 1 := by
    have : 1 < Fintype.card F := Fintype.one_lt_card
    have : (1 : ℚ) < Fintype.card F := by exact_mod_cast this
    linarith
  set W := Finset.univ.filter fun i => w i ≠ 0 with hW
  refine statClose_of_matching rfl (fun a => ∀ i ∈ W, a i + w i ≠ 0) (fun a i => a i + w i) ?_ ?_ (fun a _ _ => he a) (by positivity) ?_
  · intro a ha hg
    simp only [nonZeroDraws, Fintype.mem_piFinset, Finset.mem_erase, Finset.mem_univ, and_true] at ha ⊢
    intro i
    by_cases hi : i ∈ W
    · exact hg i hi
    · have : w i = 0 := by simpa [hW] using hi
      rw [this, add_zero]; exact ha i
  · intro a _ a' _ _ _ h
    funext i
    exact add_right_cancel (congrFun h i)
  · -- a union over the shifted draws
    have hone : ∀ i ∈ W, (((nonZeroDraws ι F).filter fun a => a i + w i = 0).card : ℚ) * ((Fintype.card F : ℚ) - 1) ≤ (nonZeroDraws ι F).card := by
      intro i _
      have hsub : ((nonZeroDraws ι F).filter fun a => a i + w i = 0) ⊆ Fintype.piFinset (Function.update (fun _ => Finset.univ.erase (0 : F)) i {-(w i)}) := by
        intro a ha
        simp only [nonZeroDraws, Finset.mem_filter, Fintype.mem_piFinset] at ha ⊢
        intro j
        by_cases hj : j = i
        · subst hj; simpa using eq_neg_of_add_eq_zero_left ha.2
        · rw [Function.update_of_ne hj]; exact ha.1 j
      have hc := Finset.card_le_card hsub
      rw [Fintype.card_piFinset] at hc
      have hprod : (∏ j, (Function.update (fun _ => Finset.univ.erase (0 : F)) i {-(w i)} j).card) * (Finset.univ.erase (0 : F)).card = (nonZeroDraws ι F).card := by
        have h1 : ∀ j, (Function.update (fun _ => Finset.univ.erase (0 : F)) i {-(w i)} j).card =
            Function.update (fun _ => (Finset.univ.erase (0 : F)).card) i 1 j := by
          intro j
          by_cases hj : j = i
          · subst hj; simp
          · rw [Function.update_of_ne hj, Function.update_of_ne hj]
        rw [Finset.prod_congr rfl fun j _ => h1 j, Finset.prod_update_of_mem (Finset.mem_univ i), one_mul, Finset.sdiff_singleton_eq_erase, mul_comm,
          Finset.mul_prod_erase _ (fun _ => (Finset.univ.erase (0 : F)).card) (Finset.mem_univ i), nonZeroDraws, Fintype.card_piFinset]
      rw [← hprod, Nat.cast_mul, hcard]
      exact mul_le_mul_of_nonneg_right (by exact_mod_cast hc) hpos.le
    have hsub : ((nonZeroDraws ι F).filter fun a => ¬ ∀ i ∈ W, a i + w i ≠ 0) ⊆ W.biUnion fun i => (nonZeroDraws ι F).filter fun a => a i + w i = 0 := by
      intro a ha
      rw [Finset.mem_filter] at ha
      obtain ⟨h1, h2⟩ := ha
      push Not at h2
      obtain ⟨i, hi, h0⟩ := h2
      exact Finset.mem_biUnion.2 ⟨i, hi, Finset.mem_filter.2 ⟨h1, h0⟩⟩
    have h1 : (((nonZeroDraws ι F).filter fun a => ¬ ∀ i ∈ W, a i + w i ≠ 0).card : ℚ) ≤ ∑ i ∈ W, (((nonZeroDraws ι F).filter fun a => a i + w i = 0).card : ℚ) := by
      exact_mod_cast (Finset.card_le_card hsub).trans Finset.card_biUnion_le
    have h2 : ∑ i ∈ W, (((nonZeroDraws ι F).filter fun a => a i + w i = 0).card : ℚ) ≤ ∑ _i ∈ W, (1 / ((Fintype.card F : ℚ) - 1)) * (nonZeroDraws ι F).card := by
      refine Finset.sum_le_sum fun i hi => ?_
      rw [one_div, inv_mul_eq_div, le_div_iff₀ hpos]
      exact hone i hi
    rw [Finset.sum_const, nsmul_eq_mul] at h2
    refine (h1.trans h2).trans ?_
    rw [mul_assoc]
    exact mul_le_mul_of_nonneg_right (by exact_mod_cast hm) (by positivity)

end

section
variable {I F : Type} [LinearOrder I] [Field F] [LinearOrder F]

/-- The parts of a split: the draws in the order of the ids, and what is left for the last id. -/
theorem part_eq {ids : Finset I} {secret : F} {c : Fin (ids.card - 1) → F} {i : I} (hi : i ∈ ids) :
    part ids secret c i = if h : (bsetIter ids).idxOf i < ids.card - 1 then c ⟨_, h⟩ else secret - ∑ p, c p := by
  have hpos : 0 < ids.card := Finset.card_pos.2 ⟨i, hi⟩
  have hmem : i ∈ bsetIter ids := mem_bsetIter.2 hi
  have hlt : (bsetIter ids).idxOf i < ids.card := by
    rw [← bsetIter_length ids]; exact List.idxOf_lt_length_iff.2 hmem
  have hparts : valueOf [] (secretSplit secret ids.card (drawsOf c)) = List.ofFn c ++ [secret - ∑ p, c p] := by
    unfold secretSplit
    split
    · rename_i h1
      have : ids.card - 1 = 0 := by omega
      have hz : List.ofFn c = [] := List.eq_nil_of_length_eq_zero (by simpa using this)
      have hs : ∑ p, c p = 0 := by rw [← List.sum_ofFn, hz]; rfl
      rw [hz, hs]; simp [valueOf]
    · rw [if_neg (by omega)]
      have htail : ((List.range (ids.card - 1)).map (drawsOf c)) = List.ofFn c := by
        apply List.ext_getElem
        · simp
        · intro n h1 h2
          have : n < ids.card - 1 := by simpa using h1
          simp [drawsOf, this]
      simp only [htail, valueOf, List.sum_ofFn]
  unfold part
  rw [hparts]
  have hget : (BMap.ofList ((bsetIter ids).zip (List.ofFn c ++ [secret - ∑ p, c p]))).get? i = (List.ofFn c ++ [secret - ∑ p, c p])[(bsetIter ids).idxOf i]? := by
    have hl : (List.ofFn c ++ [secret - ∑ p, c p]).length = ids.card := by simp; omega
    have hk : (((bsetIter ids).zip (List.ofFn c ++ [secret - ∑ p, c p])).map Prod.fst).Nodup := by
      rw [List.map_fst_zip (by simp; omega)]; exact bsetIter_nodup ids
    rw [List.getElem?_eq_getElem (by omega), BMap.get?_ofList_eq_some hk]
    rw [List.mem_iff_getElem]
    refine ⟨(bsetIter ids).idxOf i, by simp; omega, ?_⟩
    rw [List.getElem_zip, List.getElem_idxOf]
  rw [hget]
  by_cases h : (bsetIter ids).idxOf i < ids.card - 1
  · rw [dif_pos h, List.getElem?_append_left (by simpa using h), List.getElem?_ofFn, dif_pos h]; rfl
  · rw [dif_neg h, List.getElem?_append_right (by simpa using h)]
    have : (bsetIter ids).idxOf i - (List.ofFn c).length = 0 := by simp; omega
    rw [this]; rfl

theorem part_add {ids : Finset I} {s s' : F} {c c' : Fin (ids.card - 1) → F} {i : I} (hi : i ∈ ids) :
    part ids (s + s') (fun p => c p + c' p) i = part ids s c i + part ids s' c' i := by
  rw [part_eq hi, part_eq hi, part_eq hi]
  split
  · rfl
  · rw [Finset.sum_add_distrib]; ring

theorem sum_part {ids : Finset I} (hne : ids.Nonempty) (s : F) (c : Fin (ids.card - 1) → F) : ∑ i ∈ ids, part ids s c i = s := by
  have hpos : 0 < ids.card := Finset.card_pos.2 hne
  have hl := bsetIter_length ids
  have h1 : ∑ i ∈ ids, part ids s c i = ∑ p : Fin ids.card, if h : p.1 < ids.card - 1 then c ⟨p.1, h⟩ else s - ∑ p, c p := by
    refine (Finset.sum_bij (fun p _ => (bsetIter ids)[p.1]'(by rw [hl]; exact p.2)) ?_ ?_ ?_ ?_).symm
    · intro p _; exact mem_bsetIter.1 (List.getElem_mem _)
    · intro p _ p' _ h
      exact Fin.ext ((List.Nodup.getElem_inj_iff (bsetIter_nodup ids)).1 h)
    · intro i hi
      have hm := List.idxOf_lt_length_iff.2 (mem_bsetIter.2 hi)
      exact ⟨⟨_, by rw [← hl]; exact hm⟩, Finset.mem_univ _, List.getElem_idxOf _⟩
    · intro p _
      rw [part_eq (mem_bsetIter.1 (List.getElem_mem _))]
      simp only [List.Nodup.idxOf_getElem (bsetIter_nodup ids)]
  rw [h1]
  clear h1 hl
  generalize ids.card = n at *
  obtain ⟨m, rfl⟩ : ∃ m, n = m + 1 := ⟨n - 1, by omega⟩
  rw [Fin.sum_univ_castSucc]
  simp

/-- The draws that give the whole secret to one party. -/
def onlyFor (ids : Finset I) (s : F) (u : I) (p : Fin (ids.card - 1)) : F := if p.1 = (bsetIter ids).idxOf u then s else 0

theorem part_onlyFor {ids : Finset I} {s : F} {u i : I} (hu : u ∈ ids) (hi : i ∈ ids) : part ids s (onlyFor ids s u) i = if i = u then s else 0 := by
  have hmi : i ∈ bsetIter ids := mem_bsetIter.2 hi
  have hmu : u ∈ bsetIter ids := mem_bsetIter.2 hu
  have hlt : ∀ j ∈ bsetIter ids, (bsetIter ids).idxOf j < ids.card := fun j hj => by
    rw [← bsetIter_length ids]; exact List.idxOf_lt_length_iff.2 hj
  have hinj : (bsetIter ids).idxOf i = (bsetIter ids).idxOf u ↔ i = u := List.idxOf_inj hmi
  rw [part_eq hi]
  split
  · simp only [onlyFor, hinj]
  · rename_i h
    have h1 := hlt i hmi
    have h2 := hlt u hmu
    by_cases hu' : (bsetIter ids).idxOf u < ids.card - 1
    · have hne : ¬ i = u := fun e => h (hinj.2 e ▸ hu')
      have : ∑ p, onlyFor ids s u p = s := by
        rw [Finset.sum_eq_single ⟨_, hu'⟩]
        · simp [onlyFor]
        · intro p _ hp
          unfold onlyFor
          rw [if_neg fun e => hp (Fin.ext e)]
        · simp
      rw [this, sub_self, if_neg hne]
    · have he : i = u := hinj.1 (by omega)
      have : ∑ p, onlyFor ids s u p = 0 := by
        refine Finset.sum_eq_zero fun p _ => ?_
        unfold onlyFor
        rw [if_neg]
        have := p.2
        omega
      rw [this, sub_zero, if_pos he]

end
end Synedrion
