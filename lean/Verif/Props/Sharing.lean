import Verif.Lemmas.SharePoly
import Verif.Lemmas.Toy

/-!
# Properties C09, C10, C11: secret sharing
-/

set_option linter.unusedSectionVars false

namespace Synedrion.Props
open Spec Shamir

variable {ε : Type} {F : Type} [Field F] [LinearOrder F] {G : Type} [AddCommGroup G] [Module F G]

/-- **C09.** Splitting never panics, gives each index exactly one share, and any subset of at least `t` (and at least one) of the
shares joins to the secret; the corresponding public shares join to the public key. -/
theorem C09_threshold_shares_reconstruct (g : G) (secret : F) (t : Nat) (indices : List F) (hn : indices.Nodup)
    (draw : Nat → F) :
    ∃ shares : BMap F F, (split secret t indices draw : Out ε _) = .ok shares ∧ shares.keySet = indices.toFinset ∧
      ∀ S ⊆ indices.toFinset, max 1 t ≤ S.card →
        (joinScalars (shares.filterKeys (· ∈ S)) : Out ε F) = .ok secret ∧
        (joinPoints ((shares.filterKeys (· ∈ S)).mapVals fun _ v => v • g) : Out ε G) = .ok (secret • g) := by
  set tail := (List.range (t - 1)).map draw with htail
  have hsplit : (split secret t indices draw : Out ε _) =
      .ok (BMap.ofList (indices.map fun i => (i, polyValue (secret :: tail) i))) := by
    unfold split
    have : Out.mapM' (fun idx => (evaluate (randomPolynomial secret t draw) idx : Out ε F).bind fun v => .ok (idx, v)) indices
        = .ok (indices.map fun i => (i, polyValue (secret :: tail) i)) := by
      apply Out.mapM'_ok_of_forall
      intro i _
      unfold evaluate randomPolynomial
      rw [horner_eq (by simp)]; rfl
    simp only
    rw [this]; rfl
  have hkeys : ((indices.map fun i => (i, polyValue (secret :: tail) i)).map Prod.fst).Nodup := by
    rw [List.map_map]; simpa [Function.comp_def] using hn
  have hget : ∀ k v, (BMap.ofList (indices.map fun i => (i, polyValue (secret :: tail) i))).get? k = some v ↔
      k ∈ indices ∧ v = polyValue (secret :: tail) k := by
    intro k v
    rw [BMap.get?_ofList_eq_some hkeys, List.mem_map]
    constructor
    · rintro ⟨a, ha, he⟩
      obtain ⟨rfl, rfl⟩ := Prod.mk.inj he
      exact ⟨ha, rfl⟩
    · rintro ⟨ha, rfl⟩; exact ⟨k, ha, rfl⟩
  refine ⟨_, hsplit, ?_, ?_⟩
  · ext k
    rw [BMap.mem_keySet, BMap.mem_keys_iff, List.mem_toFinset]
    constructor
    · rintro ⟨v, hv⟩; exact ((hget k v).1 hv).1
    · intro hk; exact ⟨_, (hget k _).2 ⟨hk, rfl⟩⟩
  · intro S hS hcard
    have htab : (BMap.ofList (indices.map fun i => (i, polyValue (secret :: tail) i))).filterKeys (· ∈ S) =
        BMap.tabulate S (fun i => polyValue (secret :: tail) i) := by
      ext k v
      rw [BMap.get?_filterKeys, BMap.get?_tabulate]
      by_cases hk : k ∈ S
      · simp only [hk, decide_true, if_true]
        rw [hget]
        have : k ∈ indices := List.mem_toFinset.1 (hS hk)
        simp [this, eq_comm]
      · simp [hk]
    have hlen : tail.length < S.card := by
      rw [htail]; simp; omega
    rw [htab]
    constructor
    · rw [joinScalars_eq_joinPoints, joinPoints_tabulate, lagrange0_interpolates S secret tail hlen]
    · have : (BMap.tabulate S (fun i => polyValue (secret :: tail) i)).mapVals (fun _ v => v • g) =
          BMap.tabulate S (fun i => polyValue (secret :: tail) i • g) := by
        ext k v
        simp only [BMap.get?_mapVals, BMap.get?_tabulate]
        split <;> simp
      rw [this, joinPoints_tabulate]
      refine congrArg Out.ok ?_
      conv_rhs => rw [← lagrange0_interpolates S secret tail hlen, Finset.sum_smul]
      simp [smul_smul]

/-- **C09 (any dealer).** Whatever polynomial the shares come from, joining the values at `|S|` or more points than it has
coefficients returns its constant term, for scalars and for points. -/
theorem C09_join_returns_constant_term (S : Finset F) (c : G) (l : List G) (h : l.length < S.card) :
    (joinPoints (BMap.tabulate S fun i => polyValue (c :: l) i) : Out ε G) = .ok c := by
  rw [joinPoints_tabulate, lagrange0_interpolates S c l h]

/-- **C09 (checking a dealt share).** The published polynomial evaluates to the public key of the secret evaluation, provided it has at
least two coefficients; with one coefficient the secret evaluation works but the public one panics. -/
theorem C09_public_evaluation (g : G) (coeffs : List F) (x : F) :
    (1 < coeffs.length → ∃ v, (evaluate coeffs x : Out ε F) = .ok v ∧
      (publicEvaluate (publicPolynomial g coeffs) x : Out ε G) = .ok (v • g)) ∧
    (coeffs.length = 1 → (evaluate coeffs x : Out ε F).isOk = true ∧
      (publicEvaluate (publicPolynomial g coeffs) x : Out ε G) = .panic) := by
  have hl : (publicPolynomial g coeffs).length = coeffs.length := by simp [publicPolynomial]
  constructor
  · intro h
    have hne : coeffs ≠ [] := by rintro rfl; simp at h
    refine ⟨polyValue coeffs x, horner_eq hne x, ?_⟩
    unfold publicEvaluate
    rw [evaluatePolynomial_eq (by omega), polyValue_publicPolynomial]
  · intro h
    have hne : coeffs ≠ [] := by rintro rfl; simp at h
    refine ⟨by unfold evaluate; rw [horner_eq hne]; rfl, ?_⟩
    exact evaluatePolynomial_panic (by omega) x

attribute [local instance] Toy.fact11 Toy.order11

/-- Concrete case: 2-of-3 sharing of 7 with the polynomial `7 + 3X` over `ZMod 11`; shares 1 and 3 rebuild it. -/
example : (split (7 : ZMod 11) 2 (evaluationPoints (ZMod 11) 3) (fun _ => 3) : Out Unit _) =
      .ok (BMap.ofList [(1, 10), (2, 2), (3, 5)]) ∧
    (joinScalars (BMap.ofList [((1 : ZMod 11), (10 : ZMod 11)), (3, 5)]) : Out Unit _) = .ok 7 ∧
    (evaluationPoints (ZMod 11) 3).Nodup := by decide +kernel

/-- The full statement of C10: any `t-1` share values at distinct non-zero ids are compatible with every secret, through a polynomial
the library could have drawn (it draws the non-constant coefficients among the non-zero scalars). -/
def C10Full (F : Type) [Field F] [LinearOrder F] : Prop :=
  ∀ (t : Nat) (secret : F) (ids : Finset F) (values : F → F), 0 < t → ids.card = t - 1 → (0 : F) ∉ ids →
    ∃ draw : Nat → F, (∀ i, draw i ≠ 0) ∧
      ∀ x ∈ ids, (evaluate (randomPolynomial secret t draw) x : Out Unit F) = .ok (values x)

/-- **C10 is false**: with threshold 2 no share ever equals the secret, because the linear coefficient is drawn non-zero. So a single
share excludes one candidate secret. -/
theorem C10_not_perfectly_hiding : ¬ C10Full F := by
  intro h
  obtain ⟨draw, hd, hx⟩ := h 2 0 {1} (fun _ => 0) (by norm_num) (by simp) (by simp)
  have := hx 1 (by simp)
  unfold evaluate randomPolynomial at this
  rw [horner_eq (by simp)] at this
  have h0 : draw 0 = 0 := by simpa [polyValue_cons, polyValue_nil] using this
  exact hd 0 h0

/-- **C10 (partial).** For any `t-1` shares and any secret there is exactly one polynomial of the right length through them. The library
can draw it iff none of its non-constant coefficients is zero; this side condition is what is missing from the full statement. -/
theorem C10_shares_below_threshold_partial (t : Nat) (secret : F) (ids : Finset F) (hc : ids.card = t - 1)
    (h0 : (0 : F) ∉ ids) (values : F → F) :
    ∃ tail : List F,
      (tail.length = t - 1 ∧ ∀ x ∈ ids, (evaluate (secret :: tail) x : Out Unit F) = .ok (values x)) ∧
      (∀ tail' : List F, tail'.length = t - 1 →
        (∀ x ∈ ids, (evaluate (secret :: tail') x : Out Unit F) = .ok (values x)) → tail' = tail) ∧
      ((∃ draw : Nat → F, (∀ i, draw i ≠ 0) ∧
          ∀ x ∈ ids, (evaluate (randomPolynomial secret t draw) x : Out Unit F) = .ok (values x)) ↔
        ∀ c ∈ tail, c ≠ 0) := by
  have hev : ∀ (l : List F) (x v : F), (evaluate (secret :: l) x : Out Unit F) = .ok v ↔ polyValue (secret :: l) x = v := by
    intro l x v
    unfold evaluate
    rw [horner_eq (by simp)]; simp
  obtain ⟨tail, ⟨h1, h2⟩, h3⟩ := existsUnique_tail ids h0 values secret
  refine ⟨tail, ⟨by omega, fun x hx => (hev _ _ _).2 (h2 x hx)⟩, ?_, ?_⟩
  · intro tail' hl hx
    exact h3 tail' ⟨by omega, fun x h => (hev _ _ _).1 (hx x h)⟩
  · constructor
    · rintro ⟨draw, hd, hx⟩
      have : (List.range (t - 1)).map draw = tail := by
        apply h3
        exact ⟨by simp [hc], fun x h => (hev _ _ _).1 (hx x h)⟩
      rw [← this]
      intro c hcm
      obtain ⟨i, _, rfl⟩ := List.mem_map.1 hcm
      exact hd i
    · intro hne
      refine ⟨fun i => if h : i < tail.length then tail[i] else 1, ?_, ?_⟩
      · intro i
        by_cases h : i < tail.length
        · simp only [h, dif_pos]; exact hne _ (List.getElem_mem h)
        · simp [h]
      · intro x hx
        have : randomPolynomial secret t (fun i => if h : i < tail.length then tail[i] else 1) = secret :: tail := by
          unfold randomPolynomial
          congr 1
          apply List.ext_getElem
          · simp; omega
          · intro i h4 h5
            simp [h5]
        rw [this]
        exact (hev _ _ _).2 (h2 x hx)

/-- Concrete case of C10: threshold 2, share 5 at id 1; secret 3 is compatible (coefficient 2), secret 5 is not. -/
example : (evaluate (randomPolynomial (3 : ZMod 11) 2 (fun _ => 2)) 1 : Out Unit _) = .ok 5 ∧
    (∀ c : ZMod 11, c ≠ 0 → (evaluate (randomPolynomial (5 : ZMod 11) 2 (fun _ => c)) 1 : Out Unit _) ≠ .ok 5) := by decide

/-- **C11.** Splitting into `num ≥ 1` parts gives exactly `num` parts whose sum is the scalar; zero parts is a panic. -/
theorem C11_additive_split (scalar : F) (num : Nat) (draw : Nat → F) :
    (1 ≤ num → ∃ parts, (secretSplit scalar num draw : Out ε _) = .ok parts ∧ parts.length = num ∧ parts.sum = scalar) ∧
    (num = 0 → (secretSplit scalar num draw : Out ε _) = .panic) := by
  unfold secretSplit
  constructor
  · intro h
    by_cases h1 : num = 1
    · subst h1; exact ⟨[scalar], by simp⟩
    · rw [if_neg h1, if_neg (by omega)]
      refine ⟨_, rfl, ?_, ?_⟩
      · simp; omega
      · simp
  · rintro rfl; simp

example : (secretSplit (7 : ZMod 11) 3 (fun i => i + 4) : Out Unit _) = .ok [4, 5, 9] := by decide

end Synedrion.Props
