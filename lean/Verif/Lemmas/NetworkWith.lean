import Verif.Spec.NetworkWith
import Verif.Lemmas.NetworkBlame

/-!
# Lemmas about executions with restricted messages
-/

set_option linter.unusedSectionVars false

namespace Synedrion

namespace Spec.Machine

variable {I M S E R : Type} [DecidableEq I] {P : Machine I M S E R} {honest : Set I} {init : I → S} {allowed : I → I → M → Prop} {n : Net I M S E R}

theorem ReachableWith.reachable (h : P.ReachableWith honest allowed init n) : P.Reachable honest init n := by
  induction h with
  | start => exact Relation.ReflTransGen.refl
  | receive _ hi hst hj hn ha _ ih => exact ih.tail (.receive _ _ _ _ _ _ hi hst hj hn ha)
  | advance _ hi hst hc ih => exact ih.tail (.advance _ _ _ _ hi hst hc)
  | crash _ hi hst ih => exact ih.tail (.crash _ _ _ _ hi hst)

/-- If every message is allowed, these are all executions. -/
theorem Reachable.with (h : P.Reachable honest init n) (hall : ∀ i j m, allowed i j m) : P.ReachableWith honest allowed init n := by
  induction h with
  | refl => exact .start
  | tail _ hs ih =>
    cases hs with
    | receive i s got j m hi hst hj hn ha => exact .receive ih hi hst hj hn ha (hall _ _ _)
    | advance i s got hi hst hc => exact .advance ih hi hst hc
    | crash i s got hi hst => exact .crash ih hi hst

/-- What the messages a party has received so far are like -/
def Seen (P : Machine I M S E R) (honest : Set I) (allowed : I → I → M → Prop) (init : I → S) (n : Net I M S E R) (i : I) : Status I M S E R → Prop
  | .running _ got => ∀ a ∈ got, allowed i a.1 a.2
  | .panicked => P.replay (init i) ((n.past i).map Prod.snd) = .panic ∨
      ∃ s j m, P.replay (init i) ((n.past i).map Prod.snd) = .ok (.inl s) ∧ j ∈ P.expected s ∧ P.recv s j m = .panic ∧ allowed i j m ∧
        (j ∈ honest → P.Sent n j i (P.round s) m)
  | _ => True

theorem Seen.mono {n n' : Net I M S E R} {i : I} {st : Status I M S E R} (hs : P.Step honest n n') (hp : n'.past i = n.past i) (h : Seen P honest allowed init n i st) : Seen P honest allowed init n' i st := by
  cases st with
  | running s got => exact h
  | panicked =>
    unfold Seen at h ⊢
    rw [hp]
    rcases h with h | ⟨t, j, m, h1, h3, h4, h5, h6⟩
    · exact .inl h
    · exact .inr ⟨t, j, m, h1, h3, h4, h5, fun hj => (h6 hj).mono hs⟩
  | finished r => trivial
  | stopped a => trivial
  | crashed => trivial

theorem ReachableWith.seen (h : P.ReachableWith honest allowed init n) (i : I) :
    (∀ x ∈ n.past i, ∀ a ∈ x.2, allowed i a.1 a.2) ∧ Seen P honest allowed init n i (n.status i) := by
  induction h with
  | start => exact ⟨by simp [Machine.start], by simp [Machine.start, Seen]⟩
  | @receive n i' s got j m h hi hst hj hn ha hal ih =>
    have hs' := Step.receive n i' s got j m hi hst hj hn ha
    refine ⟨ih.1, ?_⟩
    by_cases e : i = i'
    · subst e
      have h0 := (h.reachable.inv i).status
      rw [hst] at h0
      have hs := ih.2
      rw [hst] at hs
      simp only [Function.update_self]
      unfold received
      cases hr : P.recv s j m with
      | ok u =>
        intro a ha'
        rcases List.mem_append.1 ha' with h1 | h1
        · exact hs a h1
        · rw [List.mem_singleton] at h1; subst h1; exact hal
      | err a => trivial
      | panic => exact .inr ⟨s, j, m, h0.1, hj, hr, hal, fun hh => ha hh⟩
    · simp only [Function.update_of_ne e]
      exact Seen.mono hs' rfl ih.2
  | @advance n i' s got h hi hst hc ih =>
    have hs' := Step.advance n i' s got hi hst hc
    by_cases e : i = i'
    · subst e
      have h0 := (h.reachable.inv i).status
      rw [hst] at h0
      have hs := ih.2
      rw [hst] at hs
      refine ⟨?_, ?_⟩
      · intro x hx
        simp only [Function.update_self] at hx
        rcases List.mem_append.1 hx with hx | hx
        · exact ih.1 x hx
        · rw [List.mem_singleton] at hx; subst hx; exact hs
      · simp only [Function.update_self]
        unfold advanced
        cases hx : P.next s got with
        | ok x =>
          cases x with
          | inl u => intro a ha; cases ha
          | inr r => trivial
        | err a => trivial
        | panic =>
          refine .inl ?_
          simp only [Function.update_self]
          rw [List.map_append]
          exact (replay_snoc h0.1 got).trans hx
    · refine ⟨?_, ?_⟩
      · simpa only [Function.update_of_ne e] using ih.1
      · simp only [Function.update_of_ne e]
        exact Seen.mono hs' (by simp only [Function.update_of_ne e]) ih.2
  | @crash n i' s got h hi hst ih =>
    have hs' := Step.crash (P := P) n i' s got hi hst
    refine ⟨ih.1, ?_⟩
    by_cases e : i = i'
    · subst e; simp only [Function.update_self]; trivial
    · simp only [Function.update_of_ne e]; exact Seen.mono hs' rfl ih.2

/-- Where a party that has panicked was, and that all messages it has received are fine if those of honest parties always are -/
theorem ReachableWith.panic {fine : I → I → M → Prop} (h : P.ReachableWith honest (fun i j m => j ∉ honest → fine i j m) init n)
    (hsent : ∀ j ∈ honest, ∀ i ∈ honest, ∀ k m, P.Sent n j i k m → fine i j m) {i : I} (hi : i ∈ honest) (hst : n.status i = .panicked) :
    ∃ l s, P.replay (init i) l = .ok (.inl s) ∧ (∀ got ∈ l, ∀ a ∈ got, fine i a.1 a.2) ∧
      ((∃ got, P.next s got = .panic ∧ ∀ a ∈ got, fine i a.1 a.2) ∨ ∃ j m, j ∈ P.expected s ∧ P.recv s j m = .panic ∧ fine i j m) := by
  have hs := h.seen i
  have h0 := (h.reachable.inv i).status
  have hpast : ∀ x ∈ n.past i, ∀ a ∈ x.2, fine i a.1 a.2 := by
    intro x hx a ha
    by_cases hh : a.1 ∈ honest
    · exact hsent _ hh i hi _ _ (((h.reachable.inv i).past x hx).2.2.authentic a ha hh)
    · exact hs.1 x hx a ha hh
  rw [hst] at h0
  rcases h0 with h0 | h0
  · rcases List.eq_nil_or_concat' (n.past i) with hnil | ⟨pre, x, hx⟩
    · rw [hnil] at h0; cases h0
    · have hrep := h.reachable.past_replay i pre x.1 x.2 [] hx
      have hnext : P.next x.1 x.2 = .panic := by
        rw [← replay_snoc hrep x.2, ← h0, hx, List.map_append]; rfl
      refine ⟨pre.map Prod.snd, x.1, hrep, ?_, .inl ⟨x.2, hnext, hpast x (by rw [hx]; simp)⟩⟩
      intro got hg a ha
      obtain ⟨y, hy, rfl⟩ := List.mem_map.1 hg
      exact hpast y (by rw [hx]; exact List.mem_append_left _ hy) a ha
  · have hs2 := hs.2
    rw [hst] at hs2
    rcases hs2 with hs2 | ⟨s, j, m, hrep, hj, hr, hal, ha⟩
    · obtain ⟨s, _, _, hrep, _⟩ := h0
      rw [hs2] at hrep; cases hrep
    refine ⟨_, s, hrep, ?_, .inr ⟨j, m, hj, hr, ?_⟩⟩
    swap
    · by_cases hh : j ∈ honest
      · exact hsent _ hh i hi _ _ (ha hh)
      · exact hal hh
    intro got hg a ha
    obtain ⟨y, hy, rfl⟩ := List.mem_map.1 hg
    exact hpast y hy a ha

end Spec.Machine

section Glue

variable {I M A E Pl α : Type} [LinearOrder I]

theorem acceptPart_panic {part : M → Option A} {recv : I → A → Out (RecvErr E) Pl} {j : I} {m : M} (h : acceptPart part recv j m = .panic) :
    ∃ a, part m = some a ∧ recv j a = .panic := by
  unfold acceptPart at h
  cases hp : part m with
  | none => rw [hp] at h; cases h
  | some a =>
    refine ⟨a, rfl, ?_⟩
    rw [hp] at h
    cases hr : recv j a with
    | ok p => simp [received, hr] at h
    | err e => cases e <;> simp [received, hr] at h
    | panic => rfl

theorem collect_panic_first {expected : Finset I} {recv : I → A → Out (RecvErr E) Pl} {j : I} (hj : j ∈ expected) {a : A} (h : recv j a = .panic) (f : I → A) :
    collect expected recv ((j, a) :: (bsetIter (expected.erase j)).map fun k => (k, f k)) = .panic := by
  unfold collect
  rw [if_pos]
  · unfold Out.mapM'
    rw [show received j (recv j a) = .panic by rw [h]; rfl]
    rfl
  · simp only [List.map_cons, List.map_map]
    have hid : (Prod.fst ∘ fun k : I => (k, f k)) = id := rfl
    rw [hid, List.map_id]
    refine ⟨List.nodup_cons.2 ⟨fun hx => absurd rfl (Finset.mem_erase.1 (mem_bsetIter.1 hx)).1, bsetIter_nodup _⟩, ?_⟩
    ext k
    simp only [List.toFinset_cons, Finset.mem_insert, List.mem_toFinset, mem_bsetIter, Finset.mem_erase]
    constructor
    · rintro (rfl | h)
      · exact hj
      · exact h.2
    · intro h
      by_cases hk : k = j
      · exact .inl hk
      · exact .inr ⟨hk, h⟩

/-- The messages with which a round has panicked -/
theorem gather_unmap_panic {expected : Finset I} {part : M → Option A} {inj : A → M} (hinj : ∀ m a, part m = some a → m = inj a)
    {recv : I → A → Out (RecvErr E) Pl} {got : List (I × M)} {f : BMap I Pl → Out (Abort I E) α} (h : (gather expected part recv got).bind f = .panic) :
    ∃ arr : List (I × A), got = arr.map (fun a => (a.1, inj a.2)) ∧ (collect expected recv arr).bind f = .panic := by
  unfold gather at h
  cases hm : Out.mapM' (fun x : I × M => (Out.ofOption (Abort.incomplete : Abort I E) (part x.2)).bind fun y => .ok (x.1, y)) got with
  | err e => rw [hm] at h; cases h
  | panic =>
    exfalso
    obtain ⟨x, -, hx⟩ := Out.mapM'_eq_panic hm
    cases hp : part x.2 <;> simp [hp, Out.ofOption] at hx
  | ok arr =>
    rw [hm, Out.bind_ok] at h
    refine ⟨arr, ?_, h⟩
    have hf := Out.mapM'_eq_ok_iff.1 hm
    clear hm h
    induction hf with
    | nil => rfl
    | @cons x y l l' hxy _ ih =>
      rw [Out.bind_eq_ok] at hxy
      obtain ⟨z, hz, hy⟩ := hxy
      cases hy
      rw [List.map_cons, ← ih, ← hinj _ _ (Out.ofOption_eq_ok.1 hz)]

/-- A round that panics, on its own, with messages that are all fine: one of them is to blame, or the round ends in a panic. `pad` are messages of the others in place of those not yet
received. -/
theorem round_panic {expected expected' : Finset I} {part : M → Option A} {inj : A → M}
    {recv : I → A → Out (RecvErr E) Pl} {f : BMap I Pl → Out (Abort I E) α} {fine : I → M → Prop} {pad : A → I → A}
    {next : List (I × M) → Out (Abort I E) α} {acc : I → M → Out (Abort I E) Unit}
    (h : (∃ got, next got = .panic ∧ ∀ a ∈ got, fine a.1 a.2) ∨ ∃ j m, j ∈ expected' ∧ acc j m = .panic ∧ fine j m)
    (hnext : ∀ got, next got = (gather expected part recv got).bind f) (hacc : ∀ j m, acc j m = acceptPart part recv j m) (hex : expected' = expected)
    (hinj : ∀ m a, part m = some a → m = inj a) (hpad : ∀ a j k, fine j (inj a) → fine k (inj (pad a k))) :
    ∃ arr : List (I × A), (collect expected recv arr = .panic ∨ ∃ pls, collect expected recv arr = .ok pls ∧ f pls = .panic) ∧ ∀ a ∈ arr, fine a.1 (inj a.2) := by
  subst hex
  rcases h with ⟨got, hn, hf⟩ | ⟨j, m, hj, hr, hf⟩
  · rw [hnext] at hn
    obtain ⟨arr, rfl, hc⟩ := gather_unmap_panic hinj hn
    refine ⟨arr, ?_, fun a ha => hf (a.1, inj a.2) (List.mem_map.2 ⟨a, ha, rfl⟩)⟩
    cases hx : collect expected' recv arr with
    | ok v => rw [hx] at hc; exact .inr ⟨v, rfl, hc⟩
    | err e => rw [hx] at hc; cases hc
    | panic => exact .inl rfl
  · rw [hacc] at hr
    obtain ⟨a, ha, hr⟩ := acceptPart_panic hr
    rw [hinj m a ha] at hf
    refine ⟨_, .inl (collect_panic_first hj hr (pad a)), ?_⟩
    intro b hb
    rcases List.mem_cons.1 hb with rfl | hb
    · exact hf
    · obtain ⟨k, -, rfl⟩ := List.mem_map.1 hb
      exact hpad a j k hf

theorem bind_ok_panic {ε α β : Type} {o : Out ε α} {f : α → β} (h : (o.bind fun x => .ok (f x)) = .panic) : o = .panic := by
  cases o with
  | ok x => cases h
  | err e => cases h
  | panic => rfl

end Glue

end Synedrion
