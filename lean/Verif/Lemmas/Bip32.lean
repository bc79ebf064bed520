import Verif.Lemmas.Entities

/-!
# Lemmas about tweaks and full-to-threshold conversion
-/

set_option linter.unusedSectionVars false

namespace Synedrion
open Spec Shamir

variable {I F G : Type} [LinearOrder I] [Field F] [LinearOrder F] [AddCommGroup G] [Module F G] [DecidableEq G]

theorem deriveChildPublic_smul {g : G} (hg : g ≠ 0) (x t : F) :
    deriveChildPublic g (x • g) t = (deriveChildSecret x t).bind fun y => .ok (y • g) := by
  unfold deriveChildPublic deriveChildSecret
  rw [← add_smul]
  by_cases h : t = 0
  · simp [h]
  · by_cases h2 : x + t = 0
    · simp [h, h2]
    · simp [h, h2, hg]

theorem applyTweaksPublic_smul {g : G} (hg : g ≠ 0) (x : F) (ts : List F) :
    applyTweaksPublic g (x • g) ts = (applyTweaksSecret x ts).bind fun y => .ok (y • g) := by
  induction ts generalizing x with
  | nil => rfl
  | cons t ts ih =>
    unfold applyTweaksPublic applyTweaksSecret
    rw [deriveChildPublic_smul hg]
    cases deriveChildSecret x t with
    | ok y => simp [ih]
    | err e => rfl
    | panic => rfl

theorem applyTweaksSecret_ok {x y : F} {ts : List F} (h : applyTweaksSecret x ts = .ok y) : y = x + ts.sum := by
  induction ts generalizing x with
  | nil => cases h; simp
  | cons t ts ih =>
    unfold applyTweaksSecret at h
    obtain ⟨z, hz, h2⟩ := Out.bind_eq_ok.1 h
    have : z = x + t := by
      unfold deriveChildSecret at hz
      split at hz
      · cases hz
      · split at hz
        · cases hz
        · cases hz; rfl
    rw [ih h2, this, List.sum_cons, add_assoc]

theorem applyTweaksSecret_ne_zero {x y : F} {ts : List F} (hx : x ≠ 0) (h : applyTweaksSecret x ts = .ok y) : y ≠ 0 := by
  induction ts generalizing x with
  | nil => cases h; exact hx
  | cons t ts ih =>
    unfold applyTweaksSecret at h
    obtain ⟨z, hz, h2⟩ := Out.bind_eq_ok.1 h
    refine ih ?_ h2
    unfold deriveChildSecret at hz
    split at hz
    · cases hz
    · split at hz
      · cases hz
      · rename_i h3; cases hz; exact h3

theorem deriveTweaks_apply {CC : Type} {g : G} (hg : g ≠ 0) {dt : G → CC → Nat → Out EntErr (F × CC)} {path : List Nat} {x : F}
    {cc : CC} {ts : List F} (h : deriveTweaksLoop g dt path (x • g) cc = .ok ts) : ∃ y, applyTweaksSecret x ts = .ok y := by
  induction path generalizing x cc ts with
  | nil => cases h; exact ⟨x, rfl⟩
  | cons c path ih =>
    unfold deriveTweaksLoop at h
    obtain ⟨⟨t, cc'⟩, _, h2⟩ := Out.bind_eq_ok.1 h
    obtain ⟨pk', hpk, h3⟩ := Out.bind_eq_ok.1 h2
    obtain ⟨ts', hts, h4⟩ := Out.bind_eq_ok.1 h3
    cases h4
    simp only at hpk hts
    rw [deriveChildPublic_smul hg] at hpk
    obtain ⟨y, hy, h5⟩ := Out.bind_eq_ok.1 hpk
    cases h5
    obtain ⟨z, hz⟩ := ih hts
    refine ⟨z, ?_⟩
    unfold applyTweaksSecret
    rw [hy]; exact hz

/-- Values at `n ≥ 1` distinct points are those of a polynomial with `n` coefficients. -/
theorem exists_poly_through (S : Finset F) (hS : S.Nonempty) (values : F → F) :
    ∃ (c : F) (tail : List F), tail.length + 1 = S.card ∧ ∀ x ∈ S, polyValue (c :: tail) x = values x := by
  have hinj : Set.InjOn (id : F → F) S := fun a _ b _ h => h
  set p := Lagrange.interpolate S id values with hp
  have hdeg : p.degree < (S.card : Nat) := Lagrange.degree_interpolate_lt (s := S) (v := id) values hinj
  have hev : ∀ x ∈ S, p.eval x = values x :=
    fun x hx => Lagrange.eval_interpolate_at_node (s := S) (v := id) values hinj hx
  have hc : S.card = (S.card - 1) + 1 := by have := Finset.card_pos.2 hS; omega
  refine ⟨p.coeff 0, (List.range (S.card - 1)).map (fun i => p.coeff (i + 1)), by simp; omega, ?_⟩
  intro x hx
  have hlist : (List.range S.card).map p.coeff = p.coeff 0 :: (List.range (S.card - 1)).map (fun i => p.coeff (i + 1)) := by
    rw [hc, List.range_succ_eq_map, List.map_cons, List.map_map]; rfl
  rw [← hlist, polyValue_coeffList p _ hdeg, hev x hx]

theorem exists_sid (F : Type) [Field F] [LinearOrder F] {q : Nat} [CharP F q] (ids : Finset I) (hq : ids.card < q) :
    ∃ sid : I → F, evaluationPoints F ids.card = (bsetIter ids).map sid ∧ Set.InjOn sid ids ∧ (∀ i ∈ ids, sid i ≠ 0) ∧
      BMap.ofList ((bsetIter ids).zip (evaluationPoints F ids.card)) = BMap.tabulate ids sid := by
  obtain ⟨sid, hsid⟩ := exists_map_of_nodup (b := evaluationPoints F ids.card) (bsetIter_nodup ids) (by
    rw [bsetIter_length]; simp [evaluationPoints])
  refine ⟨sid, hsid, ?_, ?_, ?_⟩
  · have := evaluationPoints_nodup (F := F) hq
    rw [hsid, List.nodup_map_iff_inj_on (bsetIter_nodup ids)] at this
    intro a ha b hb h
    exact this a (mem_bsetIter.2 ha) b (mem_bsetIter.2 hb) h
  · intro i hi
    apply evaluationPoints_ne_zero (F := F) hq
    rw [hsid]
    exact List.mem_map.2 ⟨i, mem_bsetIter.2 hi, rfl⟩
  · rw [hsid, zip_map_self, ofList_map_bsetIter]

theorem fromKeyShare_eq {ε : Type} {q : Nat} [CharP F q] (ids : Finset I) (hq : ids.card < q) :
    ∃ sid : I → F, Set.InjOn sid ids ∧ (∀ i ∈ ids, sid i ≠ 0) ∧ ∀ (o : I) (x : F) (p : I → G), o ∈ ids →
    (ThresholdKeyShare.fromKeyShare ⟨o, x, BMap.tabulate ids p⟩ : Out ε (ThresholdKeyShare I F G)) =
      .ok ⟨o, ids.card, x * (lagrange0 (ids.image sid) (sid o))⁻¹, BMap.tabulate ids sid,
        BMap.tabulate ids fun i => (lagrange0 (ids.image sid) (sid i))⁻¹ • p i⟩ := by
  obtain ⟨sid, hsid, hinj, hne, hmap⟩ := exists_sid F ids hq
  refine ⟨sid, hinj, hne, ?_⟩
  intro o x p ho
  have hlne : ∀ i, lagrange0 (ids.image sid) (sid i) ≠ 0 := by
    intro i
    apply lagrange0_ne_zero
    intro j hj
    obtain ⟨k, hk, rfl⟩ := Finset.mem_image.1 hj
    exact hne k hk
  unfold ThresholdKeyShare.fromKeyShare KeyShare.allParties
  simp only [BMap.keySet_tabulate]
  have hmap' : BMap.ofList ((bsetIter ids).zip ((List.range ids.card).map fun i => shareId F (i + 1))) = BMap.tabulate ids sid := hmap
  rw [hmap']
  simp only [BMap.get?_tabulate, if_pos ho, Out.ofOptionPanic_some, Out.bind_ok, interpolationCoeff_image hinj]
  unfold ThresholdKeyShare.invertExpect
  rw [if_neg (hlne o), Out.bind_ok]
  have : Out.mapM' (fun id : I =>
      (Out.ofOptionPanic (if id ∈ ids then some (sid id) else none) : Out ε F).bind fun shareId =>
      (Out.ofOptionPanic (if id ∈ ids then some (p id) else none) : Out ε G).bind fun pt =>
      (interpolationCoeff (BMap.tabulate ids sid).values shareId).bind fun c =>
      (if c = 0 then .panic else .ok c⁻¹ : Out ε F).bind fun cinv => .ok (id, cinv • pt)) (bsetIter ids) =
      .ok ((bsetIter ids).map fun i => (i, (lagrange0 (ids.image sid) (sid i))⁻¹ • p i)) := by
    apply Out.mapM'_ok_of_forall
    intro i hi
    simp only [if_pos (mem_bsetIter.1 hi), Out.ofOptionPanic_some, Out.bind_ok, interpolationCoeff_image hinj]
    rw [if_neg (hlne i), Out.bind_ok]
  simp only [interpolationCoeff_image hinj, Out.bind_ok] at this
  rw [this, Out.bind_ok, ofList_map_bsetIter]

end Synedrion
