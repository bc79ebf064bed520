import Verif.Props.Sharing
import Verif.Lemmas.ZeroKnowledge

/-!
# C10: how little fewer than threshold shares reveal
-/

set_option linter.unusedSectionVars false

namespace Synedrion.Props

open Spec Shamir

variable {F : Type} [Field F] [LinearOrder F] [Fintype F]

/-- What holders of the shares `ids` see when `secret` is split with the non-constant coefficients `c`. -/
def seenShares (secret : F) (t : Nat) (indices : List F) (ids : Finset F) (c : Fin (t - 1) → F) : Out Unit (BMap F F) :=
  (split secret t indices fun i => if h : i < t - 1 then c ⟨i, h⟩ else 0).bind fun shares => .ok (shares.filterKeys (· ∈ ids))

private theorem seenShares_eq (secret : F) (t : Nat) (indices : List F) (hn : indices.Nodup) (ids : Finset F) (hs : ids ⊆ indices.toFinset) (c : Fin (t - 1) → F) :
    seenShares secret t indices ids c = .ok (BMap.tabulate ids fun x => polyValue (secret :: List.ofFn c) x) := by
  have htail : ((List.range (t - 1)).map fun i => if h : i < t - 1 then c ⟨i, h⟩ else 0) = List.ofFn c := by
    apply List.ext_getElem
    · simp
    · intro i h1 h2
      have : i < t - 1 := by simpa using h1
      simp [this]
  have hsplit : (split secret t indices fun i => if h : i < t - 1 then c ⟨i, h⟩ else 0 : Out Unit _) =
      .ok (BMap.ofList (indices.map fun i => (i, polyValue (secret :: List.ofFn c) i))) := by
    unfold split randomPolynomial
    simp only
    rw [htail, Out.mapM'_ok_of_forall (g := fun i => (i, polyValue (secret :: List.ofFn c) i))]
    · rfl
    · intro i _
      unfold evaluate
      rw [horner_eq (by simp)]; rfl
  unfold seenShares
  rw [hsplit]
  refine congrArg Out.ok ?_
  have hkeys : ((indices.map fun i => (i, polyValue (secret :: List.ofFn c) i)).map Prod.fst).Nodup := by
    rw [List.map_map]; simpa [Function.comp_def] using hn
  ext k v
  rw [BMap.get?_filterKeys, BMap.get?_tabulate]
  by_cases hk : k ∈ ids
  · have : k ∈ indices := List.mem_toFinset.1 (hs hk)
    simp only [hk, decide_true, if_true]
    rw [BMap.get?_ofList_eq_some hkeys, List.mem_map]
    constructor
    · rintro ⟨a, _, he⟩
      obtain ⟨rfl, rfl⟩ := Prod.mk.inj he
      rfl
    · intro he
      exact ⟨k, this, by rw [Option.some.inj he]⟩
  · simp [hk]

theorem polyValue_ofFn_add (n : Nat) : ∀ (a b : F) (u v : Fin n → F) (x : F),
    polyValue ((a + b) :: List.ofFn fun i => u i + v i) x = polyValue (a :: List.ofFn u) x + polyValue (b :: List.ofFn v) x := by
  induction n with
  | zero => intro a b u v x; simp [polyValue_cons, polyValue_nil]
  | succ n ih =>
    intro a b u v x
    have := ih (u 0) (v 0) (fun i => u i.succ) (fun i => v i.succ) x
    rw [polyValue_cons, polyValue_cons (c := a), polyValue_cons (c := b)]
    simp only [List.ofFn_succ] at *
    rw [this, smul_add]
    ring

/-- A polynomial with a given value at zero that vanishes at fewer than `t` other points. -/
theorem exists_vanishing (t : Nat) (ids : Finset F) (h0 : (0 : F) ∉ ids) (hc : ids.card < t) (d : F) :
    ∃ w : Fin (t - 1) → F, ∀ x ∈ ids, polyValue (d :: List.ofFn w) x = 0 := by
  obtain ⟨tail, ⟨h1, h2⟩, -⟩ := existsUnique_tail ids h0 (fun _ => 0) d
  refine ⟨fun i => (tail[(i : Nat)]?).getD 0, fun x hx => ?_⟩
  refine Eq.trans ?_ (h2 x hx)
  rw [← eval_toPoly, ← eval_toPoly]
  congr 1
  ext i
  rw [coeff_toPoly, coeff_toPoly]
  cases i with
  | zero => rfl
  | succ i =>
    simp only [List.getElem?_cons_succ]
    by_cases hi : i < t - 1
    · rw [List.getElem?_eq_getElem (by simpa using hi), List.getElem_ofFn]; rfl
    · rw [List.getElem?_eq_none (by simp; omega), List.getElem?_eq_none (by omega)]

/-- **C10 (statistical hiding).** Split two secrets with threshold `t`, the non-constant coefficients being drawn uniformly among the non-zero scalars, as the library does.
Whoever sees fewer than `t` of the shares, at any ids but zero, can tell the secrets apart with advantage at most `(t-1)/(q-1)`, where `q` is the order of the field.
For the curve of the library this is negligible; it is not zero by `C10_not_perfectly_hiding`. -/
theorem C10_statistically_hiding_partial (t : Nat) (indices : List F) (hn : indices.Nodup) (ids : Finset F) (hs : ids ⊆ indices.toFinset) (h0 : (0 : F) ∉ ids) (hc : ids.card < t)
    (secret secret' : F) :
    StatClose (((t - 1 : Nat) : ℚ) * (1 / ((Fintype.card F : ℚ) - 1)))
      (repeated (t - 1) (Finset.univ.erase (0 : F))) (seenShares secret t indices ids)
      (repeated (t - 1) (Finset.univ.erase (0 : F))) (seenShares secret' t indices ids) := by
  obtain ⟨w, hw⟩ := exists_vanishing t ids h0 hc (secret' - secret)
  have hcard : ((Finset.univ.erase (0 : F)).card : ℚ) = (Fintype.card F : ℚ) - 1 := by
    rw [Finset.card_erase_of_mem (Finset.mem_univ _), Finset.card_univ, Nat.cast_sub Fintype.card_pos]; simp
  have hpos : (0 : ℚ) < (Fintype.card F : ℚ) - 1 := by
    have : 1 < Fintype.card F := Fintype.one_lt_card
    have : (1 : ℚ) < Fintype.card F := by exact_mod_cast this
    linarith
  refine statClose_repeated (fun i a => a + w i ≠ 0) (fun i a => a + w i) ?_ ?_ ?_ (by positivity) ?_
  · intro i a _ hg; simpa using hg
  · intro i a _ a' _ h; exact add_right_cancel h
  · intro a _
    rw [seenShares_eq _ _ _ hn _ hs, seenShares_eq _ _ _ hn _ hs]
    refine congrArg Out.ok ?_
    ext k v
    rw [BMap.get?_tabulate, BMap.get?_tabulate]
    by_cases hk : k ∈ ids
    · have := polyValue_ofFn_add (t - 1) secret (secret' - secret) a w k
      rw [hw k hk, add_zero, add_sub_cancel] at this
      simp [hk, this]
    · simp [hk]
  · intro i
    unfold Mostly
    rw [hcard, one_div, inv_mul_cancel₀ hpos.ne']
    have : ((Finset.univ.erase (0 : F)).filter fun a => ¬ (a + w i ≠ 0)) ⊆ {-w i} := by
      intro a ha
      simp only [Finset.mem_filter, not_not] at ha
      simpa using eq_neg_of_add_eq_zero_left ha.2
    exact_mod_cast (Finset.card_le_card this).trans (by simp)

/-- What is seen of an additive split into `num` parts, made with the random parts `c`, when part `k` is missing. -/
def seenParts (secret : F) (num k : Nat) (c : Fin (num - 1) → F) : Out Unit (List F) :=
  (secretSplit secret num fun i => if h : i < num - 1 then c ⟨i, h⟩ else 0).bind fun parts => .ok (parts.eraseIdx k)

private theorem seenParts_eq (secret : F) (num k : Nat) (hn : 2 ≤ num) (c : Fin (num - 1) → F) :
    seenParts secret num k c = .ok ((List.ofFn c ++ [secret - ∑ i, c i]).eraseIdx k) := by
  have htail : ((List.range (num - 1)).map fun i => if h : i < num - 1 then c ⟨i, h⟩ else 0) = List.ofFn c := by
    apply List.ext_getElem
    · simp
    · intro i h1 h2
      have : i < num - 1 := by simpa using h1
      simp [this]
  unfold seenParts secretSplit
  rw [if_neg (by omega), if_neg (by omega)]
  simp only
  rw [htail, List.sum_ofFn]
  rfl

/-- **C11 (hiding).** Whoever sees all parts of an additive split but one can tell two secrets apart with advantage at most `1/(q-1)`. -/
theorem C11_all_but_one_part_hide (secret secret' : F) (num k : Nat) (hn : 2 ≤ num) (hk : k < num) :
    StatClose (1 / ((Fintype.card F : ℚ) - 1))
      (repeated (num - 1) (Finset.univ.erase (0 : F))) (seenParts secret num k)
      (repeated (num - 1) (Finset.univ.erase (0 : F))) (seenParts secret' num k) := by
  have hcard : ((Finset.univ.erase (0 : F)).card : ℚ) = (Fintype.card F : ℚ) - 1 := by
    rw [Finset.card_erase_of_mem (Finset.mem_univ _), Finset.card_univ, Nat.cast_sub Fintype.card_pos]; simp
  have hpos : (0 : ℚ) < (Fintype.card F : ℚ) - 1 := by
    have : 1 < Fintype.card F := Fintype.one_lt_card
    have : (1 : ℚ) < Fintype.card F := by exact_mod_cast this
    linarith
  by_cases hlast : k = num - 1
  · intro ev _
    have : seenParts secret num k = seenParts secret' num k := by
      funext c
      rw [seenParts_eq _ _ _ hn, seenParts_eq _ _ _ hn, List.eraseIdx_append_of_length_le (by simp; omega), List.eraseIdx_append_of_length_le (by simp; omega)]
      simp [hlast]
    rw [this, sub_self, abs_zero]
    positivity
  have hk' : k < num - 1 := by omega
  set K : Fin (num - 1) := ⟨k, hk'⟩ with hK
  refine statClose_of_matching rfl (fun a => a K + (secret' - secret) ≠ 0) (fun a => Function.update a K (a K + (secret' - secret))) ?_ ?_ ?_ (by positivity) ?_
  · intro a ha hg
    simp only [repeated, Fintype.mem_piFinset] at ha ⊢
    intro i
    by_cases hi : i = K
    · subst hi; simpa using hg
    · rw [Function.update_of_ne hi]; exact ha i
  · intro a _ a' _ _ _ h
    funext i
    have := congrFun h i
    by_cases hi : i = K
    · subst hi; simpa using this
    · rwa [Function.update_of_ne hi, Function.update_of_ne hi] at this
  · intro a _ _
    rw [seenParts_eq _ _ _ hn, seenParts_eq _ _ _ hn]
    refine congrArg Out.ok ?_
    have hsum : ∑ i, Function.update a K (a K + (secret' - secret)) i = ∑ i, a i + (secret' - secret) := by
      rw [Finset.sum_update_of_mem (Finset.mem_univ K), Finset.sdiff_singleton_eq_erase, ← Finset.add_sum_erase _ a (Finset.mem_univ K)]
      ring
    rw [hsum, List.eraseIdx_append_of_lt_length (by simpa using hk'), List.eraseIdx_append_of_lt_length (by simpa using hk')]
    have e1 : (List.ofFn a).eraseIdx k = (List.ofFn (Function.update a K (a K + (secret' - secret)))).eraseIdx k := by
      apply List.ext_getElem?
      intro i
      rw [List.getElem?_eraseIdx, List.getElem?_eraseIdx]
      split
      · rw [List.getElem?_ofFn, List.getElem?_ofFn]
        split
        · rw [Function.update_of_ne (by simp [hK, Fin.ext_iff]; omega)]
        · rfl
      · rw [List.getElem?_ofFn, List.getElem?_ofFn]
        split
        · rw [Function.update_of_ne (by simp [hK, Fin.ext_iff]; omega)]
        · rfl
    rw [e1]
    congr 2
    ring
  · have hsub : ((repeated (num - 1) (Finset.univ.erase (0 : F))).filter fun a => ¬ (a K + (secret' - secret) ≠ 0)) ⊆
        Fintype.piFinset (Function.update (fun _ => Finset.univ.erase (0 : F)) K {-(secret' - secret)}) := by
      intro a ha
      simp only [repeated, Finset.mem_filter, Fintype.mem_piFinset, not_not] at ha ⊢
      intro i
      by_cases hi : i = K
      · subst hi; simpa using eq_neg_of_add_eq_zero_left ha.2
      · rw [Function.update_of_ne hi]; exact ha.1 i
    have hc := Finset.card_le_card hsub
    rw [Fintype.card_piFinset] at hc
    have hprod : (∏ i, (Function.update (fun _ => Finset.univ.erase (0 : F)) K {-(secret' - secret)} i).card) * (Finset.univ.erase (0 : F)).card =
        (repeated (num - 1) (Finset.univ.erase (0 : F))).card := by
      have h1 : ∀ i, (Function.update (fun _ => Finset.univ.erase (0 : F)) K {-(secret' - secret)} i).card =
          Function.update (fun _ => (Finset.univ.erase (0 : F)).card) K 1 i := by
        intro i
        by_cases hi : i = K
        · subst hi; simp
        · rw [Function.update_of_ne hi, Function.update_of_ne hi]
      rw [Finset.prod_congr rfl fun i _ => h1 i, Finset.prod_update_of_mem (Finset.mem_univ K), one_mul, Finset.sdiff_singleton_eq_erase, mul_comm,
        Finset.mul_prod_erase _ (fun _ => (Finset.univ.erase (0 : F)).card) (Finset.mem_univ K), repeated, Fintype.card_piFinset]
    rw [← hprod, Nat.cast_mul, hcard]
    have h2 : ((1 : ℚ) / ((Fintype.card F : ℚ) - 1)) * ((Fintype.card F : ℚ) - 1) = 1 := one_div_mul_cancel hpos.ne'
    rw [mul_comm (Nat.cast _), ← mul_assoc, h2, one_mul]
    exact_mod_cast hc

attribute [local instance] Toy.fact11 Toy.order11

/-- Concrete case: threshold 3 among 4 holders over `ZMod 11`; the shares 1 and 4 tell two secrets apart with advantage at most 1/5. -/
example : StatClose ((2 : ℚ) * (1 / (11 - 1))) (repeated 2 (Finset.univ.erase (0 : ZMod 11))) (seenShares 7 3 [1, 2, 3, 4] {1, 4})
    (repeated 2 (Finset.univ.erase (0 : ZMod 11))) (seenShares 2 3 [1, 2, 3, 4] {1, 4}) := by
  have := C10_statistically_hiding_partial 3 [1, 2, 3, 4] (by decide) {1, 4} (by decide) (by decide) (by decide) (7 : ZMod 11) 2
  simpa [ZMod.card] using this

/-- The share with id 1 equals 7 with different probabilities for the secrets 7 and 2, so the bound cannot be replaced by zero. -/
example : ((repeated 1 (Finset.univ.erase (0 : ZMod 11))).filter fun c => seenShares 7 2 [1, 2] {1} c = .ok (BMap.ofList [(1, 7)])).card = 0 ∧
    ((repeated 1 (Finset.univ.erase (0 : ZMod 11))).filter fun c => seenShares 2 2 [1, 2] {1} c = .ok (BMap.ofList [(1, 7)])).card = 1 := by decide +kernel

/-- Concrete case: of three parts the second one is missing. -/
example : seenParts (7 : ZMod 11) 3 1 ![4, 5] = .ok [4, 9] ∧
    StatClose (1 / (11 - 1)) (repeated 2 (Finset.univ.erase (0 : ZMod 11))) (seenParts 7 3 1) (repeated 2 (Finset.univ.erase (0 : ZMod 11))) (seenParts 2 3 1) := by
  refine ⟨by decide +kernel, ?_⟩
  have := C11_all_but_one_part_hide (7 : ZMod 11) 2 3 1 (by decide) (by decide)
  simpa [ZMod.card] using this

end Synedrion.Props
