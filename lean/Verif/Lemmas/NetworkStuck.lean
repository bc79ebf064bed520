import Verif.Lemmas.NetworkScript

/-!
# Parties that wait for each other
-/

set_option linter.unusedSectionVars false

namespace Synedrion.Spec.Machine

variable {I M S E R : Type} [DecidableEq I] {P : Machine I M S E R} {honest : Set I} {init : I → S} {n n' : Net I M S E R}

/-- A party that is running has begun the rounds it has completed and the one it is in. -/
theorem Reachable.begun_running (h : P.Reachable honest init n) {i : I} : ∀ {s : S} {got : List (I × M)}, n.status i = .running s got → n.begun i = (n.past i).map Prod.fst ++ [s] := by
  induction h with
  | refl =>
    intro s got hst
    cases hst
    rfl
  | @tail n n' _ hstep ih =>
    intro s got hst
    cases hstep with
    | receive i' s' got' j m hi hs hj hn ha =>
      by_cases e : i = i'
      · subst e
        simp only [Function.update_self, received] at hst
        split at hst
        · cases hst; exact ih hs
        · cases hst
        · cases hst
      · simp only [Function.update_of_ne e] at hst
        exact ih hst
    | advance i' s' got' hi hs hc =>
      by_cases e : i = i'
      · subst e
        simp only [Function.update_self] at hst ⊢
        rw [hst, ih hs, List.map_append]
        rfl
      · simp only [Function.update_of_ne e] at hst ⊢
        exact ih hst
    | crash i' s' got' hi hs =>
      by_cases e : i = i'
      · subst e
        simp only [Function.update_self] at hst
        cases hst
      · simp only [Function.update_of_ne e] at hst
        exact ih hst

/-- All honest parties complete a round with given messages. -/
theorem Reachable.round_all {honest : Finset I} (h : P.Reachable (honest : Set I) init n) {s s' : I → S} {inbox : I → List (I × M)} (hst : ∀ i ∈ honest, n.status i = .running (s i) [])
    (hc : ∀ i ∈ honest, P.Complete (s i) (inbox i)) (hnext : ∀ i ∈ honest, P.next (s i) (inbox i) = .ok (.inl (s' i)))
    (hauth : ∀ i ∈ honest, ∀ a ∈ inbox i, a.1 ∈ honest → P.round (s a.1) = P.round (s i) ∧ (i, a.2) ∈ P.send (s a.1)) :
    ∃ n', P.Reachable (honest : Set I) init n' ∧ ∀ i ∈ honest, n'.status i = .running (s' i) [] ∧ n'.past i = n.past i ++ [(s i, inbox i)] ∧ n'.begun i = n.begun i ++ [s' i] := by
  have hb : ∀ i ∈ honest, s i ∈ n.begun i := fun i hi => by rw [h.begun_running (hst i hi)]; simp
  have key : ∀ T : Finset I, T ⊆ honest → ∃ n', P.Reachable (honest : Set I) init n' ∧
      (∀ i ∈ honest, i ∉ T → n'.status i = .running (s i) [] ∧ n'.past i = n.past i ∧ n'.begun i = n.begun i) ∧
      ∀ i ∈ T, n'.status i = .running (s' i) [] ∧ n'.past i = n.past i ++ [(s i, inbox i)] ∧ n'.begun i = n.begun i ++ [s' i] := by
    intro T
    induction T using Finset.induction_on with
    | empty => exact fun _ => ⟨n, h, fun i hi _ => ⟨hst i hi, rfl, rfl⟩, fun i hi => by simp at hi⟩
    | insert i T hiT ihT =>
      intro hsub
      obtain ⟨n', hn', hno, hyes⟩ := ihT (fun x hx => hsub (Finset.mem_insert_of_mem hx))
      have hi := hsub (Finset.mem_insert_self i T)
      obtain ⟨a1, a2, a3⟩ := hno i hi hiT
      have hr := hn'.round (Finset.mem_coe.2 hi) a1 (hc i hi) (fun a ha hj => by
        obtain ⟨e1, e2⟩ := hauth i hi a ha hj
        refine ⟨s a.1, ?_, e1, e2⟩
        by_cases hjT : a.1 ∈ T
        · rw [(hyes _ hjT).2.2]
          exact List.mem_append_left _ (hb _ hj)
        · rw [(hno _ hj hjT).2.2]
          exact hb _ hj)
      have hadv : P.advanced (s i) (inbox i) = .running (s' i) [] := by
        unfold advanced
        rw [hnext i hi]
      rw [hadv] at hr
      refine ⟨_, hr, fun j hj hjT => ?_, fun j hj => ?_⟩
      · have hji : j ≠ i := fun e => hjT (e ▸ Finset.mem_insert_self _ _)
        simp only [Function.update_of_ne hji]
        exact hno j hj (fun hx => hjT (Finset.mem_insert_of_mem hx))
      · by_cases hji : j = i
        · subst hji
          simp only [Function.update_self, fresh, a2, a3]
          exact ⟨trivial, trivial, trivial⟩
        · simp only [Function.update_of_ne hji]
          exact hyes j ((Finset.mem_insert.1 hj).resolve_left hji)
  obtain ⟨n', hn', -, hyes⟩ := key honest (Finset.Subset.refl _)
  exact ⟨n', hn', hyes⟩

/-- A party is in a round for which a message of some honest party is missing, and this party has not begun this round. -/
def Waiting (P : Machine I M S E R) (honest : Set I) (n : Net I M S E R) (i : I) : Prop :=
  ∃ s got, n.status i = .running s got ∧ ∃ j ∈ honest, j ∈ P.expected s ∧ j ∉ got.map Prod.fst ∧ ∀ t ∈ n.begun j, P.round t ≠ P.round s

theorem stuck_step (h : ∀ i ∈ honest, P.Waiting honest n i ∨ (∃ a, n.status i = .stopped a) ∨ n.status i = .panicked ∨ n.status i = .crashed) (hs : P.Step honest n n') :
    n'.begun = n.begun ∧ n'.past = n.past ∧
      ∀ i ∈ honest, P.Waiting honest n' i ∨ (∃ a, n'.status i = .stopped a) ∨ n'.status i = .panicked ∨ n'.status i = .crashed := by
  cases hs with
  | receive i' s' got' j m hi hst hj hn ha =>
    refine ⟨rfl, rfl, fun i hi' => ?_⟩
    by_cases e : i = i'
    · subst e
      rcases h i hi' with ⟨s, got, hr, k, hk, hke, hkg, hkb⟩ | ⟨a, hr⟩ | hr | hr <;> rw [hst] at hr <;> cases hr
      simp only [Waiting, Function.update_self]
      cases hrec : P.recv s' j m with
      | ok u =>
        left
        refine ⟨s', got' ++ [(j, m)], by simp only [received, hrec], k, hk, hke, ?_, hkb⟩
        rw [List.map_append, List.mem_append]
        rintro (h | h)
        · exact hkg h
        · obtain rfl : k = j := by simpa using h
          obtain ⟨t, ht, hrt, -⟩ := ha hk
          exact hkb t ht hrt
      | err a => exact .inr (.inl ⟨a, by simp only [received, hrec]⟩)
      | panic => exact .inr (.inr (.inl (by simp only [received, hrec])))
    · simp only [Waiting, Function.update_of_ne e]
      exact h i hi'
  | advance i' s' got' hi hst hc =>
    exfalso
    rcases h i' hi with ⟨s, got, hr, k, hk, hke, hkg, hkb⟩ | ⟨a, hr⟩ | hr | hr <;> rw [hst] at hr <;> cases hr
    rw [← hc, List.mem_toFinset] at hke
    exact hkg hke
  | crash i' s' got' hi hst =>
    refine ⟨rfl, rfl, fun i hi' => ?_⟩
    by_cases e : i = i'
    · subst e
      simp only [Function.update_self]
      exact .inr (.inr (.inr trivial))
    · simp only [Waiting, Function.update_of_ne e]
      exact h i hi'

/-- If every honest party waits for one that is elsewhere, then none of them ever completes its round. -/
theorem stuck (h : ∀ i ∈ honest, P.Waiting honest n i) (hs : Relation.ReflTransGen (P.Step honest) n n') :
    n'.begun = n.begun ∧ n'.past = n.past ∧
      ∀ i ∈ honest, P.Waiting honest n' i ∨ (∃ a, n'.status i = .stopped a) ∨ n'.status i = .panicked ∨ n'.status i = .crashed := by
  induction hs with
  | refl => exact ⟨rfl, rfl, fun i hi => .inl (h i hi)⟩
  | tail _ hs ih =>
    obtain ⟨e1, e2, e3⟩ := stuck_step ih.2.2 hs
    exact ⟨e1.trans ih.1, e2.trans ih.2.1, e3⟩

end Synedrion.Spec.Machine
