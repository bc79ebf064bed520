import Verif.Lemmas.NetworkScript
import Verif.Lemmas.NetworkWith
import Verif.Lemmas.Machines

/-!
# Executions in which an honest party panics
-/

set_option linter.unusedSectionVars false

namespace Synedrion

variable {I M A E Pl : Type} [LinearOrder I]

/-- A party receives one message from each expected sender, which it accepts. -/
theorem gather_all {expected : Finset I} {part : M → Option A} {recv : I → A → Out (RecvErr E) Pl} {f : I → M} {p : I → Pl}
    (h : ∀ j ∈ expected, ∃ x, part (f j) = some x ∧ recv j x = .ok (p j)) : gather expected part recv ((bsetIter expected).map fun j => (j, f j)) = .ok (BMap.tabulate expected p) := by
  have hfst : ((bsetIter expected).map fun j => (j, f j)).map Prod.fst = bsetIter expected := by
    rw [List.map_map]; exact List.map_id _
  refine gather_eq_ok.2 ⟨by rw [hfst]; exact bsetIter_nodup _, ?_, by simp, fun a ha => ?_⟩
  · rw [hfst]
    ext j
    rw [List.mem_toFinset, mem_bsetIter]
  · obtain ⟨j, hj, rfl⟩ := List.mem_map.1 ha
    have hj := mem_bsetIter.1 hj
    obtain ⟨x, hx, hr⟩ := h j hj
    exact ⟨x, p j, hx, hr, by rw [BMap.get?_tabulate, if_pos hj]⟩

end Synedrion

namespace Synedrion.Spec.Machine

variable {I M S E R : Type} [DecidableEq I] {P : Machine I M S E R} {honest : Set I} {init : I → S} {n : Net I M S E R}

/-- A party in an execution receives a message that makes it panic. -/
theorem Reachable.seize (h : P.Reachable honest init n) {i j : I} (hi : i ∈ honest) {s : S} (hst : n.status i = .running s []) {m : M} (hj : j ∈ P.expected s)
    (hsent : j ∈ honest → P.Sent n j i (P.round s) m) (hr : P.recv s j m = .panic) :
    P.Reachable honest init { n with status := Function.update n.status i .panicked } := by
  have hstep := Step.receive (P := P) (honest := honest) n i s [] j m hi hst hj (by simp) hsent
  have := Relation.ReflTransGen.tail h hstep
  simp only [received, hr] at this
  exact this

/-- A party in an execution receives messages of which one makes it panic, or which make it panic together. -/
theorem Reachable.seize_all (h : P.Reachable honest init n) {i : I} (hi : i ∈ honest) {s : S} (hst : n.status i = .running s []) {got : List (I × M)} (hnd : (got.map Prod.fst).Nodup)
    (hex : (got.map Prod.fst).toFinset = P.expected s) (hsent : ∀ a ∈ got, a.1 ∈ honest → P.Sent n a.1 i (P.round s) a.2)
    (hp : (∃ a ∈ got, P.recv s a.1 a.2 = .panic) ∨ (∀ a ∈ got, P.recv s a.1 a.2 = .ok ()) ∧ P.next s got = .panic) : ∃ n', P.Reachable honest init n' ∧ n'.status i = .panicked := by
  rcases hp with ⟨a, ha, hr⟩ | ⟨hall, hp⟩
  · refine ⟨_, h.seize hi hst (j := a.1) (m := a.2) ?_ (hsent a ha) hr, by simp only [Function.update_self]⟩
    rw [← hex, List.mem_toFinset]
    exact List.mem_map.2 ⟨a, ha, rfl⟩
  · refine ⟨_, h.round hi hst ⟨hnd, hex, hall⟩ hsent, ?_⟩
    simp only [Function.update_self]
    unfold advanced
    rw [hp]

/-- A party completes the first round and panics at a message of somebody who is not honest in the second one. -/
theorem exists_panic {i j : I} (hi : i ∈ honest) {got : List (I × M)} (hc : P.Complete (init i) got)
    (hsent : ∀ a ∈ got, a.1 ∈ honest → P.round (init a.1) = P.round (init i) ∧ (i, a.2) ∈ P.send (init a.1)) {s : S} (hnext : P.next (init i) got = .ok (.inl s))
    (hj : j ∉ honest) {m : M} (hje : j ∈ P.expected s) (hr : P.recv s j m = .panic) : ∃ n, P.Reachable honest init n ∧ n.status i = .panicked := by
  have h0 : P.Reachable honest init (P.start init) := .refl
  have h1 := h0.round hi (s := init i) rfl hc (fun a ha hj => by
    obtain ⟨e1, e2⟩ := hsent a ha hj
    exact ⟨init a.1, List.mem_singleton.2 rfl, e1, e2⟩)
  have hadv : P.advanced (init i) got = .running s [] := by
    unfold advanced
    rw [hnext]
  rw [hadv] at h1
  exact ⟨_, h1.seize hi (s := s) (by simp only [Function.update_self]) hje (fun h => absurd h hj) hr, by simp only [Function.update_self]⟩

variable {allowed : I → I → M → Prop}

/-- A party receives, one after the other, allowed messages that it accepts. -/
theorem ReachableWith.receive_all (h : P.ReachableWith honest allowed init n) {i : I} (hi : i ∈ honest) {s : S} (hst : n.status i = .running s []) :
    ∀ got : List (I × M), (got.map Prod.fst).Nodup → (∀ a ∈ got, a.1 ∈ P.expected s) → (∀ a ∈ got, P.recv s a.1 a.2 = .ok ()) →
      (∀ a ∈ got, a.1 ∈ honest → P.Sent n a.1 i (P.round s) a.2) → (∀ a ∈ got, allowed i a.1 a.2) →
      P.ReachableWith honest allowed init { n with status := Function.update n.status i (.running s got) } := by
  intro got
  induction got using List.reverseRecOn with
  | nil =>
    intro _ _ _ _ _
    rw [← hst, Function.update_eq_self]
    exact h
  | append_singleton got a ih =>
    intro hnd hex hrecv hsent hal
    rw [List.map_append, List.nodup_append] at hnd
    have h1 := ih hnd.1 (fun x hx => hex x (by simp [hx])) (fun x hx => hrecv x (by simp [hx])) (fun x hx => hsent x (by simp [hx])) (fun x hx => hal x (by simp [hx]))
    have := ReachableWith.receive (i := i) (s := s) (got := got) (j := a.1) (m := a.2) h1 hi (by simp) (hex a (by simp))
      (fun hm => hnd.2.2 _ hm _ (by simp) rfl) (fun hj => hsent a (by simp) hj) (hal a (by simp))
    simp only [Function.update_idem, received, hrecv a (by simp)] at this
    exact this

/-- A party completes a round with given allowed messages. -/
theorem ReachableWith.round (h : P.ReachableWith honest allowed init n) {i : I} (hi : i ∈ honest) {s : S} (hst : n.status i = .running s []) {got : List (I × M)} (hc : P.Complete s got)
    (hsent : ∀ a ∈ got, a.1 ∈ honest → P.Sent n a.1 i (P.round s) a.2) (hal : ∀ a ∈ got, allowed i a.1 a.2) :
    P.ReachableWith honest allowed init ⟨Function.update n.status i (P.advanced s got), Function.update n.begun i (n.begun i ++ fresh (P.advanced s got)),
      Function.update n.past i (n.past i ++ [(s, got)])⟩ := by
  have h1 := h.receive_all hi hst got hc.1 (fun a ha => by rw [← hc.2.1, List.mem_toFinset]; exact List.mem_map.2 ⟨a, ha, rfl⟩) hc.2.2 hsent hal
  have := ReachableWith.advance (i := i) (s := s) (got := got) h1 hi (by simp) hc.2.1
  simp only [Function.update_idem] at this
  exact this

/-- A party completes the first round and accepts a message of somebody who is not honest in the second one. -/
theorem exists_accepted {i j : I} (hi : i ∈ honest) {got : List (I × M)} (hc : P.Complete (init i) got)
    (hsent : ∀ a ∈ got, a.1 ∈ honest → P.round (init a.1) = P.round (init i) ∧ (i, a.2) ∈ P.send (init a.1)) (hal : ∀ a ∈ got, allowed i a.1 a.2) {s : S}
    (hnext : P.next (init i) got = .ok (.inl s)) (hj : j ∉ honest) {m : M} (hje : j ∈ P.expected s) (hr : P.recv s j m = .ok ()) (halj : allowed i j m) :
    ∃ n, P.ReachableWith honest allowed init n ∧ n.status i = .running s [(j, m)] := by
  have h0 : P.ReachableWith honest allowed init (P.start init) := .start
  have h1 := h0.round hi (s := init i) rfl hc (fun a ha hj => by
    obtain ⟨e1, e2⟩ := hsent a ha hj
    exact ⟨init a.1, List.mem_singleton.2 rfl, e1, e2⟩) hal
  have hadv : P.advanced (init i) got = .running s [] := by
    unfold advanced
    rw [hnext]
  rw [hadv] at h1
  exact ⟨_, h1.receive_all hi (s := s) (by simp only [Function.update_self]) [(j, m)] (by simp) (by simpa using hje) (by simpa using hr)
    (fun a ha h => absurd (by simpa [List.mem_singleton.1 ha] using h) hj) (by simpa using halj), by simp only [Function.update_self]⟩

end Synedrion.Spec.Machine
