import Verif.Spec.ZeroKnowledge
import Verif.Lemmas.Zk
import Mathlib.Data.Finset.Card
import Mathlib.Algebra.BigOperators.Group.Finset.Sigma
import Mathlib.Algebra.Order.BigOperators.Group.Finset
import Mathlib.Algebra.BigOperators.Ring.Finset
import Mathlib.Tactic.Linarith
import Mathlib.GroupTheory.OrderOfElement
import Mathlib.FieldTheory.Finite.Basic
import Mathlib.Tactic.FieldSimp
import Mathlib.Data.Fintype.BigOperators
import Mathlib.Data.List.OfFn
import Mathlib.Algebra.Order.Ring.Pow

/-!
# Lemmas about statistical distance
-/

namespace Synedrion

open Spec

section
variable {A B T : Type}

/-- Two experiments are close if most outcomes of one can be matched with equal outcomes of the other. -/
theorem statClose_of_matching {S : Finset A} {S' : Finset B} {f : A → T} {f' : B → T} (hc : S.card = S'.card) (good : A → Prop)
    [DecidablePred good] (σ : A → B) (hm : ∀ a ∈ S, good a → σ a ∈ S') (hi : ∀ a ∈ S, ∀ a' ∈ S, good a → good a' → σ a = σ a' → a = a')
    (he : ∀ a ∈ S, good a → f a = f' (σ a)) {δ : ℚ} (hδ : 0 ≤ δ) (hb : ((S.filter fun a => ¬ good a).card : ℚ) ≤ δ * S.card) :
    StatClose δ S f S' f' := by
  classical
  intro ev _
  unfold prob
  have hsplit : (S.filter good).card + (S.filter fun a => ¬ good a).card = S.card := Finset.card_filter_add_card_filter_not _
  have h1 : (S.filter fun a => ev (f a)).card ≤ (S'.filter fun b => ev (f' b)).card + (S.filter fun a => ¬ good a).card := by
    have hsub : (S.filter fun a => ev (f a)) ⊆ ((S.filter good).filter fun a => ev (f a)) ∪ (S.filter fun a => ¬ good a) := by
      intro a ha
      rw [Finset.mem_filter] at ha
      by_cases hg : good a
      · exact Finset.mem_union_left _ (by simp [ha.1, ha.2, hg])
      · exact Finset.mem_union_right _ (by simp [ha.1, hg])
    refine (Finset.card_le_card hsub).trans ((Finset.card_union_le _ _).trans (Nat.add_le_add_right ?_ _))
    refine Finset.card_le_card_of_injOn σ ?_ ?_
    · intro a ha
      simp only [Finset.coe_filter, Set.mem_setOf_eq, Finset.mem_filter] at ha ⊢
      exact ⟨hm a ha.1.1 ha.1.2, by rw [← he a ha.1.1 ha.1.2]; exact ha.2⟩
    · intro a ha a' ha' h
      simp only [Finset.coe_filter, Set.mem_setOf_eq, Finset.mem_filter] at ha ha'
      exact hi a ha.1.1 a' ha'.1.1 ha.1.2 ha'.1.2 h
  have h2 : (S'.filter fun b => ev (f' b)).card ≤ (S.filter fun a => ev (f a)).card + (S.filter fun a => ¬ good a).card := by
    have himg : ((S.filter good).image σ).card = (S.filter good).card := by
      refine Finset.card_image_of_injOn ?_
      intro a ha a' ha' h
      simp only [Finset.coe_filter, Set.mem_setOf_eq] at ha ha'
      exact hi a ha.1 a' ha'.1 ha.2 ha'.2 h
    have hsubI : (S.filter good).image σ ⊆ S' := by
      intro b hb
      obtain ⟨a, ha, rfl⟩ := Finset.mem_image.1 hb
      rw [Finset.mem_filter] at ha
      exact hm a ha.1 ha.2
    have hrest : (S' \ (S.filter good).image σ).card = (S.filter fun a => ¬ good a).card := by
      rw [Finset.card_sdiff_of_subset hsubI, himg]; omega
    have hsub : (S'.filter fun b => ev (f' b)) ⊆ ((S.filter fun a => ev (f a)).image σ) ∪ (S' \ (S.filter good).image σ) := by
      intro b hb
      rw [Finset.mem_filter] at hb
      by_cases hin : b ∈ (S.filter good).image σ
      · obtain ⟨a, ha, rfl⟩ := Finset.mem_image.1 hin
        rw [Finset.mem_filter] at ha
        refine Finset.mem_union_left _ (Finset.mem_image.2 ⟨a, ?_, rfl⟩)
        rw [Finset.mem_filter]
        exact ⟨ha.1, by rw [he a ha.1 ha.2]; exact hb.2⟩
      · exact Finset.mem_union_right _ (Finset.mem_sdiff.2 ⟨hb.1, hin⟩)
    refine (Finset.card_le_card hsub).trans ((Finset.card_union_le _ _).trans ?_)
    rw [hrest]
    exact Nat.add_le_add_right Finset.card_image_le _
  rw [← hc]
  rcases Nat.eq_zero_or_pos S.card with h0 | hpos
  · rw [h0]; simpa using hδ
  · have hq : (0 : ℚ) < S.card := by exact_mod_cast hpos
    have h1' : ((S.filter fun a => ev (f a)).card : ℚ) ≤ (S'.filter fun b => ev (f' b)).card + (S.filter fun a => ¬ good a).card := by exact_mod_cast h1
    have h2' : ((S'.filter fun b => ev (f' b)).card : ℚ) ≤ (S.filter fun a => ev (f a)).card + (S.filter fun a => ¬ good a).card := by exact_mod_cast h2
    rw [← sub_div, abs_div, abs_of_pos hq, div_le_iff₀ hq, abs_le]
    constructor <;> linarith

/-- A bijection gives equal distributions. -/
theorem statClose_zero {S : Finset A} {S' : Finset B} {f : A → T} {f' : B → T} (hc : S.card = S'.card) (σ : A → B)
    (hm : ∀ a ∈ S, σ a ∈ S') (hi : ∀ a ∈ S, ∀ a' ∈ S, σ a = σ a' → a = a') (he : ∀ a ∈ S, f a = f' (σ a)) : StatClose 0 S f S' f' :=
  statClose_of_matching hc (fun _ => True) σ (fun a ha _ => hm a ha) (fun a ha a' ha' _ _ => hi a ha a' ha') (fun a ha _ => he a ha) le_rfl (by simp)

theorem statClose_trans {C : Type} {δ δ' : ℚ} {S : Finset A} {S' : Finset B} {S'' : Finset C} {f : A → T} {f' : B → T} {f'' : C → T}
    (h : StatClose δ S f S' f') (h' : StatClose δ' S' f' S'' f'') : StatClose (δ + δ') S f S'' f'' := by
  intro ev _
  exact (abs_sub_le _ _ _).trans (add_le_add (h ev) (h' ev))

/-- A map that takes every value equally often does not change a distribution. -/
theorem prob_fibers {S : Finset A} {S' : Finset B} {f : A → T} {f' : B → T} (π : A → B) (m : Nat) (hm : 0 < m) (hmem : ∀ a ∈ S, π a ∈ S') [DecidableEq B]
    (hfib : ∀ b ∈ S', (S.filter fun a => π a = b).card = m) (he : ∀ a ∈ S, f a = f' (π a)) (ev : T → Prop) [DecidablePred ev] :
    prob S f ev = prob S' f' ev := by
  classical
  unfold prob
  have h1 : S.card = S'.card * m := by
    rw [Finset.card_eq_sum_card_fiberwise (f := π) (t := S') hmem, Finset.sum_congr rfl hfib, Finset.sum_const, smul_eq_mul]
  have h2 : (S.filter fun a => ev (f a)).card = (S'.filter fun b => ev (f' b)).card * m := by
    rw [Finset.card_eq_sum_card_fiberwise (f := π) (t := S'.filter fun b => ev (f' b)), Finset.sum_congr rfl (g := fun _ => m), Finset.sum_const, smul_eq_mul]
    · intro b hb
      rw [Finset.mem_filter] at hb
      rw [← hfib b hb.1]
      congr 1
      ext a
      simp only [Finset.mem_filter]
      constructor
      · rintro ⟨⟨h1, _⟩, h2⟩; exact ⟨h1, h2⟩
      · rintro ⟨h1, h2⟩; exact ⟨⟨h1, by rw [he a h1, h2]; exact hb.2⟩, h2⟩
    · intro a ha
      simp only [Finset.coe_filter, Set.mem_setOf_eq] at ha ⊢
      exact ⟨hmem a ha.1, by rw [← he a ha.1]; exact ha.2⟩
  rw [h1, h2]
  push_cast
  have hm' : (m : ℚ) ≠ 0 := by exact_mod_cast hm.ne'
  exact mul_div_mul_right _ _ hm'

/-- Two experiments that take every value of a common set equally often have equal distributions. -/
theorem statClose_fibers {C : Type} [DecidableEq C] {S : Finset A} {S' : Finset B} {T' : Finset C} {f : A → T} {f' : B → T} (h : C → T) (π : A → C) (π' : B → C)
    (m m' : Nat) (hm : 0 < m) (hm' : 0 < m') (hmem : ∀ a ∈ S, π a ∈ T') (hmem' : ∀ b ∈ S', π' b ∈ T')
    (hfib : ∀ c ∈ T', (S.filter fun a => π a = c).card = m) (hfib' : ∀ c ∈ T', (S'.filter fun b => π' b = c).card = m')
    (he : ∀ a ∈ S, f a = h (π a)) (he' : ∀ b ∈ S', f' b = h (π' b)) : StatClose 0 S f S' f' := by
  intro ev _
  rw [prob_fibers π m hm hmem hfib he ev, prob_fibers π' m' hm' hmem' hfib' he' ev, sub_self, abs_zero]

/-- Choosing from a larger set. -/
theorem statClose_subset {S S' : Finset A} (f : A → T) (hs : S ⊆ S') (hS : 0 < S.card) : StatClose (1 - (S.card : ℚ) / S'.card) S f S' f := by
  classical
  intro ev _
  unfold prob
  have hle : S.card ≤ S'.card := Finset.card_le_card hs
  have hsplit : (S'.filter fun a => ev (f a)).card = (S.filter fun a => ev (f a)).card + ((S' \ S).filter fun a => ev (f a)).card := by
    rw [← Finset.card_union_of_disjoint, ← Finset.filter_union, Finset.union_sdiff_of_subset hs]
    exact Finset.disjoint_filter_filter Finset.disjoint_sdiff
  have ha : (S.filter fun a => ev (f a)).card ≤ S.card := Finset.card_filter_le _ _
  have hb : ((S' \ S).filter fun a => ev (f a)).card ≤ S'.card - S.card := (Finset.card_filter_le _ _).trans (Finset.card_sdiff_of_subset hs).le
  generalize (S.filter fun a => ev (f a)).card = a at *
  generalize ((S' \ S).filter fun a => ev (f a)).card = b at *
  rw [hsplit]
  generalize S.card = s at *
  generalize S'.card = s' at *
  have h1 : (0 : ℚ) < s := by exact_mod_cast hS
  have h2 : (0 : ℚ) < s' := by exact_mod_cast lt_of_lt_of_le hS hle
  have h3 : (s : ℚ) ≤ s' := by exact_mod_cast hle
  have h4 : (a : ℚ) ≤ s := by exact_mod_cast ha
  have h5 : (b : ℚ) ≤ s' - s := by rw [← Nat.cast_sub hle]; exact_mod_cast hb
  have h6 : (0 : ℚ) ≤ a := by positivity
  have h7 : (0 : ℚ) ≤ b := by positivity
  push_cast
  have e1 : (a : ℚ) / s - (a + b) / s' = (a / s * (s' - s) - b) / s' := by field_simp; ring
  have e2 : (1 : ℚ) - s / s' = (s' - s) / s' := by field_simp
  rw [e1, e2, abs_div, abs_of_pos h2]
  refine div_le_div_of_nonneg_right ?_ h2.le
  have h8 : (a : ℚ) / s ≤ 1 := (div_le_one h1).2 h4
  have h9 : 0 ≤ (a : ℚ) / s := by positivity
  rw [abs_le]
  constructor
  · nlinarith
  · nlinarith

/-- At most a fraction `δ` of `S` violates `p`. -/
def Mostly (δ : ℚ) (S : Finset A) (p : A → Prop) [DecidablePred p] : Prop := ((S.filter fun a => ¬ p a).card : ℚ) ≤ δ * S.card

theorem Mostly.and {δ δ' : ℚ} {S : Finset A} {p p' : A → Prop} [DecidablePred p] [DecidablePred p'] (h : Mostly δ S p) (h' : Mostly δ' S p') :
    Mostly (δ + δ') S (fun a => p a ∧ p' a) := by
  classical
  unfold Mostly at *
  have hsub : (S.filter fun a => ¬ (p a ∧ p' a)) ⊆ (S.filter fun a => ¬ p a) ∪ (S.filter fun a => ¬ p' a) := by
    intro a ha
    simp only [Finset.mem_union, Finset.mem_filter] at ha ⊢
    by_cases hp : p a
    · exact Or.inr ⟨ha.1, fun h => ha.2 ⟨hp, h⟩⟩
    · exact Or.inl ⟨ha.1, hp⟩
  have hle : ((S.filter fun a => ¬ (p a ∧ p' a)).card : ℚ) ≤ (S.filter fun a => ¬ p a).card + (S.filter fun a => ¬ p' a).card := by
    exact_mod_cast (Finset.card_le_card hsub).trans (Finset.card_union_le _ _)
  rw [add_mul]
  linarith

theorem Mostly.fst {δ : ℚ} {S : Finset A} {S' : Finset B} {p : A → Prop} [DecidablePred p] (h : Mostly δ S p) :
    Mostly δ (S ×ˢ S') (fun a => p a.1) := by
  unfold Mostly at *
  have : ((S ×ˢ S').filter fun a => ¬ p a.1) = (S.filter fun a => ¬ p a) ×ˢ S' := by
    ext a; simp only [Finset.mem_filter, Finset.mem_product]; tauto
  rw [this, Finset.card_product, Finset.card_product]
  push_cast
  rw [← mul_assoc]
  exact mul_le_mul_of_nonneg_right h (by positivity)

theorem Mostly.snd {δ : ℚ} {S : Finset A} {S' : Finset B} {p : A → B → Prop} [∀ a, DecidablePred (p a)] (h : ∀ a ∈ S, Mostly δ S' (p a)) :
    Mostly δ (S ×ˢ S') (fun a => p a.1 a.2) := by
  unfold Mostly at *
  have : ((S ×ˢ S').filter fun a => ¬ p a.1 a.2).card = ∑ a ∈ S, (S'.filter fun b => ¬ p a b).card := by
    rw [Finset.card_filter, Finset.sum_product]
    refine Finset.sum_congr rfl fun a _ => ?_
    rw [Finset.card_filter]
  rw [this, Finset.card_product]
  push_cast
  calc ∑ a ∈ S, ((S'.filter fun b => ¬ p a b).card : ℚ) ≤ ∑ _a ∈ S, δ * S'.card := Finset.sum_le_sum h
    _ = δ * (S.card * S'.card) := by rw [Finset.sum_const, nsmul_eq_mul]; ring

theorem Mostly.trivial {S : Finset A} : Mostly 0 S (fun _ => True) := by simp [Mostly]

/-- One more choice. -/
theorem Mostly.cons {δ₁ δ₂ : ℚ} {S₁ : Finset A} {S₂ : Finset B} {p₁ : A → Prop} {p₂ : B → Prop} [DecidablePred p₁] [DecidablePred p₂]
    (h₁ : Mostly δ₁ S₁ p₁) (h₂ : Mostly δ₂ S₂ p₂) : Mostly (δ₁ + δ₂) (S₁ ×ˢ S₂) (fun a => p₁ a.1 ∧ p₂ a.2) := by
  have e1 : Mostly δ₁ (S₁ ×ˢ S₂) (fun a => p₁ a.1) := Mostly.fst h₁
  have e2 : Mostly δ₂ (S₁ ×ˢ S₂) (fun a => p₂ a.2) := Mostly.snd (p := fun (_ : A) (b : B) => p₂ b) fun _ _ => h₂
  exact e1.and e2

/-- Two more choices, with a condition that relates them. -/
theorem Mostly.cons₂ {C : Type} {δ₁ δ₂ δ₃ : ℚ} {S₁ : Finset A} {S₂ : Finset B} {S₃ : Finset C}
    {p₁ : A → Prop} {p₂ : A → B → Prop} {p₃ : C → Prop} [DecidablePred p₁] [∀ a, DecidablePred (p₂ a)] [DecidablePred p₃]
    (h₁ : Mostly δ₁ S₁ p₁) (h₂ : ∀ a ∈ S₁, Mostly δ₂ S₂ (p₂ a)) (h₃ : Mostly δ₃ S₃ p₃) :
    Mostly (δ₁ + δ₂ + δ₃) (S₁ ×ˢ S₂ ×ˢ S₃) (fun a => (p₁ a.1 ∧ p₂ a.1 a.2.1) ∧ p₃ a.2.2) := by
  have e1 : Mostly δ₁ (S₁ ×ˢ S₂ ×ˢ S₃) (fun a => p₁ a.1) := Mostly.fst h₁
  have e2 : Mostly δ₂ (S₁ ×ˢ S₂ ×ˢ S₃) (fun a => p₂ a.1 a.2.1) :=
    Mostly.snd (p := fun (a : A) (b : B × C) => p₂ a b.1) fun a ha => Mostly.fst (h₂ a ha)
  have e3 : Mostly δ₃ (S₁ ×ˢ S₂ ×ˢ S₃) (fun a => p₃ a.2.2) :=
    Mostly.snd (p := fun (_ : A) (b : B × C) => p₃ b.2) fun _ _ => Mostly.snd (p := fun (_ : B) (c : C) => p₃ c) fun _ _ => h₃
  exact (e1.and e2).and e3

/-- One more choice, with a condition that depends on it. -/
theorem Mostly.dep {δ₁ δ₂ : ℚ} {S₁ : Finset A} {S₂ : Finset B} {p₁ : A → Prop} {p₂ : A → B → Prop} [DecidablePred p₁] [∀ a, DecidablePred (p₂ a)]
    (h₁ : Mostly δ₁ S₁ p₁) (h₂ : ∀ a ∈ S₁, Mostly δ₂ S₂ (p₂ a)) : Mostly (δ₁ + δ₂) (S₁ ×ˢ S₂) (fun a => p₁ a.1 ∧ p₂ a.1 a.2) := by
  have e1 : Mostly δ₁ (S₁ ×ˢ S₂) (fun a => p₁ a.1) := Mostly.fst h₁
  have e2 : Mostly δ₂ (S₁ ×ˢ S₂) (fun a => p₂ a.1 a.2) := Mostly.snd h₂
  exact e1.and e2

theorem Mostly.mono {δ δ' : ℚ} {S : Finset A} {p : A → Prop} [DecidablePred p] (h : Mostly δ S p) (hd : δ ≤ δ') : Mostly δ' S p := by
  unfold Mostly at *
  exact h.trans (mul_le_mul_of_nonneg_right hd (by positivity))

theorem Mostly.of_forall {S : Finset A} {p : A → Prop} [DecidablePred p] (h : ∀ a ∈ S, p a) : Mostly 0 S p := by
  unfold Mostly
  rw [Finset.filter_false_of_mem (by simpa using h)]
  simp

/-- Repetition: the fractions add up. -/
theorem Mostly.repeated {k : Nat} {δ : ℚ} {S : Finset A} {p : Fin k → A → Prop} [∀ i, DecidablePred (p i)] (h : ∀ i, Mostly δ S (p i)) :
    Mostly (k * δ) (Spec.repeated k S) (fun a => ∀ i, p i (a i)) := by
  classical
  induction k with
  | zero => exact (Mostly.of_forall fun a _ i => i.elim0).mono (by simp)
  | succ k ih =>
    have ih' := ih (p := fun i => p i.succ) fun i => h i.succ
    have hc := Mostly.cons (h 0) ih'
    unfold Mostly at *
    have e1 : (Spec.repeated (k + 1) S).card = (S ×ˢ Spec.repeated k S).card := by
      simp [Spec.repeated, Fintype.card_piFinset, pow_succ']
    have e2 : ((Spec.repeated (k + 1) S).filter fun a => ¬ ∀ i, p i (a i)).card ≤
        ((S ×ˢ Spec.repeated k S).filter fun a => ¬ (p 0 a.1 ∧ ∀ i : Fin k, p i.succ (a.2 i))).card := by
      refine Finset.card_le_card_of_injOn (fun a => (a 0, fun i => a i.succ)) ?_ ?_
      · intro a ha
        simp only [Spec.repeated, Finset.coe_filter, Set.mem_setOf_eq, Fintype.mem_piFinset, Finset.mem_product] at ha ⊢
        refine ⟨⟨ha.1 0, fun i => ha.1 i.succ⟩, fun hh => ha.2 fun i => ?_⟩
        exact Fin.cases hh.1 hh.2 i
      · intro a _ a' _ hh
        simp only [Prod.mk.injEq] at hh
        funext i
        exact Fin.cases hh.1 (fun i => congrFun hh.2 i) i
    rw [e1]
    refine le_trans (by exact_mod_cast e2) (hc.trans (le_of_eq ?_))
    push_cast
    ring

/-- Two experiments of `k` repetitions are close if most outcomes of every repetition can be matched. -/
theorem statClose_repeated {k : Nat} {S : Finset A} {f f' : (Fin k → A) → T} (good : Fin k → A → Prop) [∀ i, DecidablePred (good i)] (σ : Fin k → A → A)
    (hm : ∀ i, ∀ a ∈ S, good i a → σ i a ∈ S) (hi : ∀ i, ∀ a ∈ S, ∀ a' ∈ S, σ i a = σ i a' → a = a')
    (he : ∀ a, (∀ i, a i ∈ S) → f a = f' fun i => σ i (a i)) {δ : ℚ} (hδ : 0 ≤ δ) (hb : ∀ i, Mostly δ S (good i)) :
    StatClose (k * δ) (Spec.repeated k S) f (Spec.repeated k S) f' := by
  refine statClose_of_matching rfl (fun a => ∀ i, good i (a i)) (fun a i => σ i (a i)) ?_ ?_ ?_ (by positivity) ?_
  · intro a ha hg
    simp only [Spec.repeated, Fintype.mem_piFinset] at ha ⊢
    exact fun i => hm i _ (ha i) (hg i)
  · intro a ha a' ha' _ _ h
    simp only [Spec.repeated, Fintype.mem_piFinset] at ha ha'
    funext i
    exact hi i _ (ha i) _ (ha' i) (congrFun h i)
  · intro a ha _
    simp only [Spec.repeated, Fintype.mem_piFinset] at ha
    exact he a ha
  · have m := Mostly.repeated hb
    unfold Mostly at m
    exact m

/-- Choosing `k` times from a larger set. -/
theorem statClose_repeated_subset {k : Nat} {S S' : Finset A} (f : (Fin k → A) → T) (hs : S ⊆ S') (hS : 0 < S.card) :
    StatClose (k * (1 - (S.card : ℚ) / S'.card)) (Spec.repeated k S) f (Spec.repeated k S') f := by
  have hc : ∀ X : Finset A, (Spec.repeated k X).card = X.card ^ k := fun X => by simp [Spec.repeated, Fintype.card_piFinset]
  have hsub : Spec.repeated k S ⊆ Spec.repeated k S' := by
    intro a ha
    simp only [Spec.repeated, Fintype.mem_piFinset] at ha ⊢
    exact fun i => hs (ha i)
  intro ev _
  refine (statClose_subset f hsub (by rw [hc]; exact pow_pos hS _) ev).trans ?_
  rw [hc, hc]
  push_cast
  rw [← div_pow]
  have h2 : (0 : ℚ) < S'.card := by exact_mod_cast lt_of_lt_of_le hS (Finset.card_le_card hs)
  have h0 : (0 : ℚ) ≤ (S.card : ℚ) / S'.card := by positivity
  have := one_add_mul_le_pow (a := (S.card : ℚ) / S'.card - 1) (by linarith) k
  rw [add_sub_cancel] at this
  linarith

theorem Out.mapM'_ofFn {ε α β : Type} {k : Nat} {f : α → Out ε β} {a : Fin k → α} {b : Fin k → β} (h : ∀ i, f (a i) = .ok (b i)) :
    Out.mapM' f (List.ofFn a) = .ok (List.ofFn b) := by
  induction k with
  | zero => simp [Out.mapM']
  | succ k ih => rw [List.ofFn_succ, List.ofFn_succ, Out.mapM', h 0, Out.bind_ok, ih (fun i => h i.succ), Out.bind_ok]

theorem zip_ofFn {α β : Type} {k : Nat} (a : Fin k → α) (b : Fin k → β) : (List.ofFn a).zip (List.ofFn b) = List.ofFn fun i => (a i, b i) := by
  apply List.ext_getElem <;> simp

/-- Shifting an interval by `c` leaves it for at most `|c|` values. -/
theorem card_shift_le (a b c : Int) : ((Finset.Icc a b).filter fun v => ¬ (v + c ∈ Finset.Icc a b)).card ≤ c.natAbs := by
  have hsub : ((Finset.Icc a b).filter fun v => ¬ (v + c ∈ Finset.Icc a b)) ⊆ if 0 ≤ c then Finset.Ioc (b - c) b else Finset.Ico a (a - c) := by
    intro v hv
    simp only [Finset.mem_filter, Finset.mem_Icc] at hv
    split <;> simp only [Finset.mem_Ioc, Finset.mem_Ico] <;> omega
  refine (Finset.card_le_card hsub).trans ?_
  split
  · rw [Int.card_Ioc]; omega
  · rw [Int.card_Ico]; omega

theorem Mostly.shift {a b c : Int} {δ : ℚ} (h : (c.natAbs : ℚ) ≤ δ * (Finset.Icc a b).card) : Mostly δ (Finset.Icc a b) (fun v => v + c ∈ Finset.Icc a b) :=
  le_trans (by exact_mod_cast card_shift_le a b c) h

end

/-! ### Sample sets -/

theorem card_pm {exp : Nat} (h : 0 < exp) : (pm exp).card = 2 ^ exp := by
  unfold pm
  rw [Int.card_Icc]
  have hc : (2 : Int) ^ (exp - 1) = ((2 ^ (exp - 1) : Nat) : Int) := by push_cast; rfl
  have h2 : 2 ^ exp = 2 * 2 ^ (exp - 1) := by rw [← pow_succ']; congr 1; omega
  rw [hc, h2]
  generalize 2 ^ (exp - 1) = n
  omega

theorem card_pmScaled {exp : Nat} (scale : Nat) (h : 0 < exp) : (pmScaled exp scale).card = scale * 2 ^ exp := by
  unfold pmScaled
  rw [Int.card_Icc]
  have hc : (scale : Int) * (2 : Int) ^ (exp - 1) = ((scale * 2 ^ (exp - 1) : Nat) : Int) := by push_cast; rfl
  have h2 : scale * 2 ^ exp = 2 * (scale * 2 ^ (exp - 1)) := by
    have : 2 ^ exp = 2 * 2 ^ (exp - 1) := by rw [← pow_succ']; congr 1; omega
    rw [this]; ring
  rw [hc, h2]
  generalize scale * 2 ^ (exp - 1) = n
  omega

theorem mem_pm {exp : Nat} {v : Int} : v ∈ pm exp ↔ InPm exp v := Finset.mem_Icc

theorem mem_pmScaled {exp scale : Nat} {v : Int} : v ∈ pmScaled exp scale ↔ InPmScaled exp scale v := Finset.mem_Icc

theorem mem_residues {N r : Nat} : r ∈ residues N ↔ r < N ∧ Nat.Coprime r N := by simp [residues]

theorem Mostly.pm_shift {exp : Nat} (h : 0 < exp) {c : Int} {n : Nat} (hc : c.natAbs ≤ n) : Mostly ((n : ℚ) / 2 ^ exp) (pm exp) (fun v => v + c ∈ pm exp) := by
  refine Mostly.shift ?_
  have h1 : ((Finset.Icc (-(2 : Int) ^ (exp - 1) + 1) (2 ^ (exp - 1))).card : ℚ) = 2 ^ exp := by
    have := card_pm h
    unfold pm at this
    rw [this]; push_cast; rfl
  rw [h1, div_mul_cancel₀ _ (by positivity)]
  exact_mod_cast hc

theorem Mostly.pmScaled_shift {exp scale : Nat} (h : 0 < exp) {c : Int} {n : Nat} (hc : c.natAbs ≤ n * scale) :
    Mostly ((n : ℚ) / 2 ^ exp) (pmScaled exp scale) (fun v => v + c ∈ pmScaled exp scale) := by
  refine Mostly.shift ?_
  have h1 : ((Finset.Icc (-((scale : Int) * 2 ^ (exp - 1)) + 1) ((scale : Int) * 2 ^ (exp - 1))).card : ℚ) = scale * 2 ^ exp := by
    have := card_pmScaled scale h
    unfold pmScaled at this
    rw [this]; push_cast; rfl
  rw [h1, mul_comm (scale : ℚ), ← mul_assoc, div_mul_cancel₀ _ (by positivity)]
  exact_mod_cast hc

theorem natAbs_of_mem_pmScaled {exp scale : Nat} {v : Int} (h : v ∈ pmScaled exp scale) : v.natAbs ≤ scale * 2 ^ (exp - 1) := by
  have h := mem_pmScaled.1 h
  unfold InPmScaled at h
  have hcst : (scale : Int) * (2 : Int) ^ (exp - 1) = ((scale * 2 ^ (exp - 1) : Nat) : Int) := by push_cast; rfl
  rw [hcst] at h
  omega

/-- A scaled mask times a challenge. -/
theorem scaled_mul_challenge_le {exp L scale : Nat} (hexp : 0 < exp) {v : Int} (h : v ∈ pmScaled exp scale) {e : Nat} (he : e < 2 ^ L) :
    (v * (e : Int)).natAbs ≤ 2 ^ (exp + L - 1) * scale := by
  rw [Int.natAbs_mul, Int.natAbs_natCast]
  calc v.natAbs * e ≤ (scale * 2 ^ (exp - 1)) * 2 ^ L := Nat.mul_le_mul (natAbs_of_mem_pmScaled h) he.le
    _ = 2 ^ (exp + L - 1) * scale := by
      rw [mul_assoc, ← pow_add, mul_comm]; congr 2; omega

/-! ### Powers -/

theorem zpowMod_unit {n : Nat} (u : (ZMod n)ˣ) (k : Int) : zpowMod (u : ZMod n) k = ((u ^ k : (ZMod n)ˣ) : ZMod n) := by
  unfold zpowMod
  split
  · rename_i h
    obtain ⟨m, rfl⟩ := Int.eq_ofNat_of_zero_le h
    simp
  · rename_i h
    obtain ⟨m, hm⟩ := Int.eq_ofNat_of_zero_le (a := -k) (by omega)
    have hk : k = -(m : Int) := by omega
    subst hk
    rw [Int.natAbs_neg, Int.natAbs_natCast, zpow_neg, zpow_natCast, ← inv_pow, Units.val_pow_eq_pow_val, ZMod.inv_coe_unit]

theorem commitment_unit {Nh : Nat} {setup : RPParams Nh} {s t : (ZMod Nh)ˣ} (hs : (s : ZMod Nh) = setup.s) (ht : (t : ZMod Nh) = setup.t) (m rho : Int) :
    commitment setup m rho = ((comU s t m rho : (ZMod Nh)ˣ) : ZMod Nh) := by
  unfold commitment comU
  rw [← hs, ← ht, zpowMod_unit, zpowMod_unit, Units.val_mul]

theorem encPublic_encryption {N : Nat} (m : SInt) (rho : Nat) : encPublic N m rho = encryption N m.val rho := encPublic_eq ..

/-- The masked randomizer, explicitly. -/
theorem toMasked_residue {ε : Type} {N : Nat} (hN : 0 < N) {rho r : Nat} (hrho : Nat.Coprime rho N) {e : SInt} (he : e.Fits) :
    (toMasked N rho r e : Out ε _) = .ok (zpowMod (rho : ZMod N) e.val * (r : ZMod N)).val := by
  have hu : ((ZMod.unitOfCoprime rho hrho : (ZMod N)ˣ) : ZMod N) = (rho : ZMod N) := ZMod.coe_unitOfCoprime _ _
  unfold toMasked
  rw [← hu, powPublic_unit _ he, Out.bind_ok, zpowMod_unit]

theorem masked_mem {N : Nat} (hN : 0 < N) {rho r : Nat} (hrho : Nat.Coprime rho N) (hr : Nat.Coprime r N) (k : Int) :
    (zpowMod (rho : ZMod N) k * (r : ZMod N)).val ∈ residues N := by
  have : NeZero N := ⟨hN.ne'⟩
  have hu : ((ZMod.unitOfCoprime rho hrho : (ZMod N)ˣ) : ZMod N) = (rho : ZMod N) := ZMod.coe_unitOfCoprime _ _
  have hv : ((ZMod.unitOfCoprime r hr : (ZMod N)ˣ) : ZMod N) = (r : ZMod N) := ZMod.coe_unitOfCoprime _ _
  rw [mem_residues]
  refine ⟨ZMod.val_lt _, ?_⟩
  rw [← hu, ← hv, zpowMod_unit, ← Units.val_mul]
  exact ZMod.val_coe_unit_coprime _

theorem masked_inj {N : Nat} (hN : 0 < N) {rho r r' : Nat} (hrho : Nat.Coprime rho N) (hr : r < N) (hr' : r' < N) (k : Int)
    (h : (zpowMod (rho : ZMod N) k * (r : ZMod N)).val = (zpowMod (rho : ZMod N) k * (r' : ZMod N)).val) : r = r' := by
  have : NeZero N := ⟨hN.ne'⟩
  have hu : ((ZMod.unitOfCoprime rho hrho : (ZMod N)ˣ) : ZMod N) = (rho : ZMod N) := ZMod.coe_unitOfCoprime _ _
  have h1 := ZMod.val_injective N h
  rw [← hu, zpowMod_unit] at h1
  have h2 := (Units.mul_right_inj _).1 h1
  rw [ZMod.natCast_eq_natCast_iff, Nat.ModEq, Nat.mod_eq_of_lt hr, Nat.mod_eq_of_lt hr'] at h2
  exact h2

/-- The ciphertext with a masked randomizer. -/
theorem encryption_masked {N : Nat} (hN : 0 < N) {rho r : Nat} {u v : (ZMod (N ^ 2))ˣ} (hu : (u : Ct N) = (rho : Ct N)) (hv : (v : Ct N) = (r : Ct N))
    (hrho : Nat.Coprime rho N) {e : SInt} (he : e.Fits) (m : Int) :
    encryption N m (zpowMod (rho : ZMod N) e.val * (r : ZMod N)).val = ((encU N m (u ^ e.val * v) : (ZMod (N ^ 2))ˣ) : Ct N) := by
  obtain ⟨z, hz, h⟩ := toMasked_ok (ε := Empty) hN hu hv he
  rw [toMasked_residue hN hrho he] at hz
  rw [Out.ok.inj hz]
  have := h ⟨0, m⟩
  rw [encPublic_encryption] at this
  exact this

/-- A commitment to any value is a commitment to zero, with the randomizer shifted by less than the modulus. -/
theorem commitment_hides {Nh : Nat} (hN : 0 < Nh) {s t : (ZMod Nh)ˣ} {l : Int} (hst : s = t ^ l) (x : Int) :
    ∃ c : Int, c.natAbs ≤ Nh ∧ ∀ mu, comU s t x mu = comU s t 0 (mu + c) := by
  have : NeZero Nh := ⟨hN.ne'⟩
  have hpos : 0 < orderOf t := orderOf_pos t
  have hle : orderOf t ≤ Nh := by
    refine (orderOf_le_card_univ).trans ?_
    rw [ZMod.card_units_eq_totient]
    exact Nat.totient_le Nh
  refine ⟨(l * x) % (orderOf t : Int), ?_, fun mu => ?_⟩
  · have h1 := Int.emod_nonneg (l * x) (b := (orderOf t : Int)) (by omega)
    have h2 := Int.emod_lt_of_pos (l * x) (b := (orderOf t : Int)) (by omega)
    omega
  · unfold comU
    rw [zpow_zero, one_mul, zpow_add, zpow_mod_orderOf, hst, ← zpow_mul, mul_comm]

end Synedrion
