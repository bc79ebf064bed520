import Verif.Lemmas.Session

/-!
# C48: arrival order does not matter; C45, C46: who is blamed for a rejected message
-/

set_option linter.unusedSectionVars false

namespace Synedrion.Props

variable {I M Pl E : Type} [LinearOrder I]

/-- **C48 (one round).** If the same messages arrive in another order, the round completes in both cases or in neither, and with the same payloads. -/
theorem C48_round_order (expected : Finset I) (recv : I → M → Out (RecvErr E) Pl) (arr arr' : List (I × M)) (hp : arr.Perm arr') (m : BMap I Pl) :
    collect expected recv arr = .ok m ↔ collect expected recv arr' = .ok m := by
  rw [collect_eq_ok, collect_eq_ok, (hp.map Prod.fst).nodup_iff, List.toFinset_eq_of_perm _ _ (hp.map Prod.fst)]
  simp only [hp.mem_iff]

private theorem mapM'_single_failure {ε α β : Type} {f : α → Out ε β} {l : List α} {a : α} (ha : a ∈ l) (hbad : ∀ b, f a ≠ .ok b)
    (h : ∀ x ∈ l, x ≠ a → ∃ b, f x = .ok b) (r : Out ε (List β)) (hr : ∀ k : β → Out ε (List β), (f a).bind k = r) :
    Out.mapM' f l = r := by
  induction l with
  | nil => simp at ha
  | cons x l ih =>
    rw [Out.mapM']
    by_cases hx : x = a
    · subst hx; exact hr _
    · obtain ⟨b, hb⟩ := h x (by simp) hx
      have hal : a ∈ l := by simpa [Ne.symm hx] using ha
      rw [hb, Out.bind_ok, ih hal (fun y hy hne => h y (by simp [hy]) hne)]
      cases hfa : f a with
      | ok b => exact absurd hfa (hbad b)
      | err e => rw [← hr fun _ => .ok [], hfa]; rfl
      | panic => rw [← hr fun _ => .ok [], hfa]; rfl

/-- **C48 (one faulty sender).** If the messages of all senders but `a.1` are accepted, the outcome of the round, including who is blamed and for
what, is the same whatever the order of arrival. -/
theorem C48_single_fault_order (expected : Finset I) (recv : I → M → Out (RecvErr E) Pl) (arr arr' : List (I × M)) (hp : arr.Perm arr')
    (a : I × M) (ha : a ∈ arr) (h : ∀ x ∈ arr, x ≠ a → ∃ p, recv x.1 x.2 = .ok p) :
    collect expected recv arr = collect expected recv arr' := by
  by_cases hok : ∃ p, recv a.1 a.2 = .ok p
  · have hall : ∀ x ∈ arr, ∃ p, recv x.1 x.2 = .ok p := by
      intro x hx
      by_cases hxa : x = a
      · rw [hxa]; exact hok
      · exact h x hx hxa
    by_cases hc : (arr.map Prod.fst).Nodup ∧ (arr.map Prod.fst).toFinset = expected
    · have : ∃ m, collect expected recv arr = .ok m := by
        unfold collect
        rw [if_pos hc]
        cases hm : Out.mapM' (fun a : I × M => received a.1 (recv a.1 a.2)) arr with
        | ok l => exact ⟨_, rfl⟩
        | err e =>
          obtain ⟨x, hx, hx'⟩ := Out.mapM'_eq_err hm
          obtain ⟨p, hp⟩ := hall x hx
          simp [hp, received] at hx'
        | panic =>
          obtain ⟨x, hx, hx'⟩ := Out.mapM'_eq_panic hm
          obtain ⟨p, hp⟩ := hall x hx
          simp [hp, received] at hx'
      obtain ⟨m, hm⟩ := this
      rw [hm, (C48_round_order expected recv arr arr' hp m).1 hm]
    · unfold collect
      rw [if_neg hc, if_neg (by rwa [← (hp.map Prod.fst).nodup_iff, ← List.toFinset_eq_of_perm _ _ (hp.map Prod.fst)])]
  · have hbad : ∀ x, (fun a : I × M => received a.1 (recv a.1 a.2)) a ≠ .ok x := by
      intro x hx
      exact hok ⟨_, (received_eq_ok.1 hx).1⟩
    have hgood : ∀ x ∈ arr, x ≠ a → ∃ b, (fun a : I × M => received a.1 (recv a.1 a.2)) x = .ok b := by
      intro x hx hne
      obtain ⟨p, hp⟩ := h x hx hne
      exact ⟨(x.1, p), received_eq_ok.2 ⟨hp, rfl⟩⟩
    have key : ∀ l : List (I × M), a ∈ l → (∀ x ∈ l, x ≠ a → ∃ b, (fun a : I × M => received a.1 (recv a.1 a.2)) x = .ok b) →
        Out.mapM' (fun a : I × M => received a.1 (recv a.1 a.2)) l =
          (received a.1 (recv a.1 a.2)).bind fun _ => .ok [] := by
      intro l hal hl
      refine mapM'_single_failure hal hbad hl _ fun k => ?_
      show (received a.1 (recv a.1 a.2)).bind k = _
      cases hr : received a.1 (recv a.1 a.2) with
      | ok b => exact absurd hr (hbad b)
      | err e => rfl
      | panic => rfl
    unfold collect
    rw [key arr ha hgood, key arr' (hp.mem_iff.1 ha) (fun x hx => hgood x (hp.mem_iff.2 hx))]
    have hiff : ((arr.map Prod.fst).Nodup ∧ (arr.map Prod.fst).toFinset = expected) ↔
        ((arr'.map Prod.fst).Nodup ∧ (arr'.map Prod.fst).toFinset = expected) := by
      rw [(hp.map Prod.fst).nodup_iff, List.toFinset_eq_of_perm _ _ (hp.map Prod.fst)]
    simp only [hiff]

/-- **C46 (one round).** The party blamed for a failed round is the sender of a message that the receiver rejected, and it is blamed for what was rejected; an error of the
receiver itself blames nobody. -/
theorem C46_blamed_sender (expected : Finset I) (recv : I → M → Out (RecvErr E) Pl) (arr : List (I × M)) (j : I) (e : E)
    (h : collect expected recv arr = .err (.fault j e)) : ∃ m, (j, m) ∈ arr ∧ recv j m = .err (.protocol e) :=
  collect_eq_fault h

/-- **C45 (one round).** When one message of every expected sender has arrived, and that of `a.1` is the only one not accepted, then its sender is blamed if the receiver
rejected it for a fault of the sender, and nobody is blamed if the receiver reported an error of its own. -/
theorem C45_single_fault_blamed (expected : Finset I) (recv : I → M → Out (RecvErr E) Pl) (arr : List (I × M)) (hn : (arr.map Prod.fst).Nodup)
    (hs : (arr.map Prod.fst).toFinset = expected) (a : I × M) (ha : a ∈ arr) (h : ∀ x ∈ arr, x ≠ a → ∃ p, recv x.1 x.2 = .ok p) :
    (∀ e, recv a.1 a.2 = .err (.protocol e) → collect expected recv arr = .err (.fault a.1 e)) ∧
    (∀ e, recv a.1 a.2 = .err (.localErr e) → collect expected recv arr = .err (.localErr e)) := by
  have hgood : ∀ x ∈ arr, x ≠ a → ∃ b, (fun a : I × M => received a.1 (recv a.1 a.2)) x = .ok b := by
    intro x hx hne
    obtain ⟨p, hp⟩ := h x hx hne
    exact ⟨(x.1, p), received_eq_ok.2 ⟨hp, rfl⟩⟩
  constructor
  · intro e he
    have hr : received a.1 (recv a.1 a.2) = .err (.fault a.1 e) := by rw [he]; rfl
    unfold collect
    rw [if_pos ⟨hn, hs⟩, mapM'_single_failure ha (fun b => by simp only [hr]; simp) hgood (.err (.fault a.1 e)) fun k => by simp only [hr]; rfl]
    rfl
  · intro e he
    have hr : (received a.1 (recv a.1 a.2) : Out (Abort I E) _) = .err (.localErr e) := by rw [he]; rfl
    unfold collect
    rw [if_pos ⟨hn, hs⟩, mapM'_single_failure ha (fun b => by simp only [hr]; simp) hgood (.err (.localErr e)) fun k => by simp only [hr]; rfl]
    rfl

/-- Three messages in two orders, the one of sender 2 rejected: the same party is blamed. -/
example :
    let recv : Nat → Nat → Out (RecvErr String) Nat := fun _ m => if m = 7 then .err (.protocol "bad") else .ok m
    collect {1, 2, 3} recv [(1, 5), (2, 7), (3, 6)] = .err (.fault 2 "bad") ∧
      collect {1, 2, 3} recv [(3, 6), (2, 7), (1, 5)] = .err (.fault 2 "bad") := by decide

/-- The message of sender 2 makes the receiver fail by itself: nobody is blamed. -/
example : let recv : Nat → Nat → Out (RecvErr String) Nat := fun _ m => if m = 7 then .err (.localErr .missing) else .ok m
    collect {1, 2, 3} recv [(1, 5), (2, 7), (3, 6)] = .err (.localErr .missing) := by decide

/-- A complete round in two orders. -/
example : let recv : Nat → Nat → Out (RecvErr String) Nat := fun i m => .ok (i + m)
    collect {1, 2, 3} recv [(1, 5), (2, 7), (3, 6)] = collect {1, 2, 3} recv [(3, 6), (1, 5), (2, 7)] := by decide

end Synedrion.Props
