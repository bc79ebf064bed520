import Verif.Lemmas.NetworkExists

/-!
# Executions in which the honest parties receive given messages
-/

set_option linter.unusedSectionVars false

namespace Synedrion.Spec.Machine

variable {I M S E R : Type} [DecidableEq I] {P : Machine I M S E R} {honest : Set I} {init : I → S} {n : Net I M S E R}

/-- A party receives, one after the other, messages that it accepts. -/
theorem Reachable.receive_all (h : P.Reachable honest init n) {i : I} (hi : i ∈ honest) {s : S} (hst : n.status i = .running s []) :
    ∀ got : List (I × M), (got.map Prod.fst).Nodup → (∀ a ∈ got, a.1 ∈ P.expected s) → (∀ a ∈ got, P.recv s a.1 a.2 = .ok ()) →
      (∀ a ∈ got, a.1 ∈ honest → P.Sent n a.1 i (P.round s) a.2) →
      P.Reachable honest init { n with status := Function.update n.status i (.running s got) } := by
  intro got
  induction got using List.reverseRecOn with
  | nil =>
    intro _ _ _ _
    rw [← hst, Function.update_eq_self]
    exact h
  | append_singleton got a ih =>
    intro hnd hex hrecv hsent
    rw [List.map_append, List.nodup_append] at hnd
    have h1 := ih hnd.1 (fun x hx => hex x (by simp [hx])) (fun x hx => hrecv x (by simp [hx])) (fun x hx => hsent x (by simp [hx]))
    have hstep := Step.receive (P := P) (honest := honest) { n with status := Function.update n.status i (.running s got) } i s got a.1 a.2 hi (by simp) (hex a (by simp))
      (fun hm => hnd.2.2 _ hm _ (by simp) rfl) (fun hj => hsent a (by simp) hj)
    have := Relation.ReflTransGen.tail h1 hstep
    simp only [Function.update_idem, received, hrecv a (by simp)] at this
    exact this

/-- A party completes a round with given messages. -/
theorem Reachable.round (h : P.Reachable honest init n) {i : I} (hi : i ∈ honest) {s : S} (hst : n.status i = .running s []) {got : List (I × M)} (hc : P.Complete s got)
    (hsent : ∀ a ∈ got, a.1 ∈ honest → P.Sent n a.1 i (P.round s) a.2) :
    P.Reachable honest init ⟨Function.update n.status i (P.advanced s got), Function.update n.begun i (n.begun i ++ fresh (P.advanced s got)),
      Function.update n.past i (n.past i ++ [(s, got)])⟩ := by
  have h1 := h.receive_all hi hst got hc.1 (fun a ha => by rw [← hc.2.1, List.mem_toFinset]; exact List.mem_map.2 ⟨a, ha, rfl⟩) hc.2.2 hsent
  have hstep := Step.advance (P := P) (honest := honest) { n with status := Function.update n.status i (.running s got) } i s got hi (by simp) hc.2.1
  have := Relation.ReflTransGen.tail h1 hstep
  simp only [Function.update_idem] at this
  exact this

/-- Messages `inbox k i` that let the honest parties go through `K` rounds, where they are in the states `st k i` -/
structure Script (P : Machine I M S E R) (honest : Finset I) (init : I → S) (K : Nat) (st : Nat → I → S) (inbox : Nat → I → List (I × M)) : Prop where
  first : ∀ i ∈ honest, st 0 i = init i
  complete : ∀ k < K, ∀ i ∈ honest, P.Complete (st k i) (inbox k i)
  next : ∀ k < K, ∀ i ∈ honest, P.next (st k i) (inbox k i) = .ok (.inl (st (k + 1) i))
  authentic : ∀ k < K, ∀ i ∈ honest, ∀ a ∈ inbox k i, a.1 ∈ honest → P.round (st k a.1) = P.round (st k i) ∧ (i, a.2) ∈ P.send (st k a.1)

/-- There is an execution in which the honest parties go through these rounds. -/
theorem Script.exists {honest : Finset I} {K : Nat} {st : Nat → I → S} {inbox : Nat → I → List (I × M)} (h : Script P honest init K st inbox) :
    ∀ k ≤ K, ∃ n, P.Reachable (honest : Set I) init n ∧ ∀ i ∈ honest, n.status i = .running (st k i) [] ∧ (∀ l ≤ k, st l i ∈ n.begun i) ∧
      n.past i = (List.range k).map fun l => (st l i, inbox l i) := by
  intro k
  induction k with
  | zero =>
    intro _
    refine ⟨P.start init, .refl, fun i hi => ⟨by rw [h.first i hi]; rfl, fun l hl => ?_, rfl⟩⟩
    obtain rfl : l = 0 := by omega
    rw [h.first i hi]
    simp [start]
  | succ k ih =>
    intro hk
    obtain ⟨n, hn, hs⟩ := ih (by omega)
    have key : ∀ T : Finset I, T ⊆ honest → ∃ n', P.Reachable (honest : Set I) init n' ∧ (∀ i ∈ honest, i ∉ T → n'.status i = .running (st k i) [] ∧ (∀ l ≤ k, st l i ∈ n'.begun i) ∧
          n'.past i = (List.range k).map fun l => (st l i, inbox l i)) ∧
        ∀ i ∈ T, n'.status i = .running (st (k + 1) i) [] ∧ (∀ l ≤ k + 1, st l i ∈ n'.begun i) ∧ n'.past i = (List.range (k + 1)).map fun l => (st l i, inbox l i) := by
      intro T
      induction T using Finset.induction_on with
      | empty => exact fun _ => ⟨n, hn, fun i hi _ => hs i hi, fun i hi => by simp at hi⟩
      | insert i T hiT ihT =>
        intro hsub
        obtain ⟨n', hn', hno, hyes⟩ := ihT (fun x hx => hsub (Finset.mem_insert_of_mem hx))
        have hi := hsub (Finset.mem_insert_self i T)
        obtain ⟨a1, a2, a3⟩ := hno i hi hiT
        have hr := hn'.round (Finset.mem_coe.2 hi) a1 (h.complete k (by omega) i hi) (fun a ha hj => by
          obtain ⟨e1, e2⟩ := h.authentic k (by omega) i hi a ha hj
          refine ⟨st k a.1, ?_, e1, e2⟩
          by_cases hjT : a.1 ∈ T
          · exact (hyes _ hjT).2.1 k (by omega)
          · exact (hno _ hj hjT).2.1 k (by omega))
        have hadv : P.advanced (st k i) (inbox k i) = .running (st (k + 1) i) [] := by
          unfold advanced
          rw [h.next k (by omega) i hi]
        rw [hadv] at hr
        refine ⟨_, hr, fun j hj hjT => ?_, fun j hj => ?_⟩
        · have hji : j ≠ i := fun e => hjT (e ▸ Finset.mem_insert_self _ _)
          simp only [Function.update_of_ne hji]
          exact hno j hj (fun hx => hjT (Finset.mem_insert_of_mem hx))
        · by_cases hji : j = i
          · subst hji
            simp only [Function.update_self, fresh]
            refine ⟨trivial, fun l hl => ?_, ?_⟩
            · rcases Nat.lt_or_ge l (k + 1) with h | h
              · exact List.mem_append_left _ (a2 l (by omega))
              · obtain rfl : l = k + 1 := by omega
                simp
            · rw [a3, List.range_succ, List.map_append]
              rfl
          · simp only [Function.update_of_ne hji]
            exact hyes j ((Finset.mem_insert.1 hj).resolve_left hji)
    obtain ⟨n', hn', -, hyes⟩ := key honest (Finset.Subset.refl _)
    exact ⟨n', hn', hyes⟩

/-- A party in an execution receives a message that it refuses. -/
theorem Reachable.refuse (h : P.Reachable honest init n) {i j : I} (hi : i ∈ honest) {s : S} (hst : n.status i = .running s []) {m : M} (hj : j ∈ P.expected s)
    (hsent : j ∈ honest → P.Sent n j i (P.round s) m) {a : Abort I E} (hr : P.recv s j m = .err a) :
    P.Reachable honest init { n with status := Function.update n.status i (.stopped a) } := by
  have hstep := Step.receive (P := P) (honest := honest) n i s [] j m hi hst hj (by simp) hsent
  have := Relation.ReflTransGen.tail h hstep
  simp only [received, hr] at this
  exact this

/-- A party completes the first round. -/
theorem exists_second {i : I} (hi : i ∈ honest) {got : List (I × M)} (hc : P.Complete (init i) got)
    (hsent : ∀ a ∈ got, a.1 ∈ honest → P.round (init a.1) = P.round (init i) ∧ (i, a.2) ∈ P.send (init a.1)) {s : S} (hnext : P.next (init i) got = .ok (.inl s)) :
    ∃ n, P.Reachable honest init n ∧ n.status i = .running s [] ∧ init i ∈ n.begun i ∧ s ∈ n.begun i := by
  have h0 : P.Reachable honest init (P.start init) := .refl
  have h1 := h0.round hi (s := init i) rfl hc (fun a ha hj => by
    obtain ⟨e1, e2⟩ := hsent a ha hj
    exact ⟨init a.1, List.mem_singleton.2 rfl, e1, e2⟩)
  have hadv : P.advanced (init i) got = .running s [] := by
    unfold advanced
    rw [hnext]
  rw [hadv] at h1
  exact ⟨_, h1, by simp only [Function.update_self], by simp [Function.update_self, start], by simp [Function.update_self, fresh]⟩

/-- A party completes the first round and refuses a message of somebody who is not honest in the second one. -/
theorem exists_refusal {i j : I} (hi : i ∈ honest) {got : List (I × M)} (hc : P.Complete (init i) got)
    (hsent : ∀ a ∈ got, a.1 ∈ honest → P.round (init a.1) = P.round (init i) ∧ (i, a.2) ∈ P.send (init a.1)) {s : S} (hnext : P.next (init i) got = .ok (.inl s))
    (hj : j ∉ honest) {m : M} (hje : j ∈ P.expected s) {a : Abort I E} (hr : P.recv s j m = .err a) :
    ∃ n, P.Reachable honest init n ∧ n.status i = .stopped a ∧ ∀ k, ∀ x ∈ n.past k, x = (init i, got) := by
  have h0 : P.Reachable honest init (P.start init) := .refl
  have h1 := h0.round hi (s := init i) rfl hc (fun a ha hj => by
    obtain ⟨e1, e2⟩ := hsent a ha hj
    exact ⟨init a.1, List.mem_singleton.2 rfl, e1, e2⟩)
  have hadv : P.advanced (init i) got = .running s [] := by
    unfold advanced
    rw [hnext]
  rw [hadv] at h1
  have h2 := h1.refuse hi (s := s) (by simp only [Function.update_self]) hje (fun h => absurd h hj) hr
  refine ⟨_, h2, by simp only [Function.update_self], fun k x hx => ?_⟩
  by_cases hk : k = i
  · subst hk
    simp only [Function.update_self, start, List.nil_append, List.mem_singleton] at hx
    exact hx
  · simp only [Function.update_of_ne hk, start] at hx
    cases hx

end Synedrion.Spec.Machine
