import Verif.Spec.Network
import Mathlib.Data.List.Nodup
import Mathlib.Data.Finset.Card
import Mathlib.Algebra.Order.BigOperators.Group.Finset

/-!
# Lemmas about executions over a network
-/

set_option linter.unusedSectionVars false

namespace Synedrion.Spec.Machine

variable {I M S E R : Type} [DecidableEq I] {P : Machine I M S E R} {honest : Set I} {init : I → S} {n n' : Net I M S E R}

theorem begun_mono (h : P.Step honest n n') (i : I) : n.begun i <+: n'.begun i := by
  cases h with
  | receive i' s got j m hi hs hj hn ha => exact List.prefix_rfl
  | advance i' s got hi hs hc =>
    by_cases e : i = i'
    · subst e; simp only [Function.update_self]; exact List.prefix_append _ _
    · simp only [Function.update_of_ne e]; exact List.prefix_rfl
  | crash i' s got hi hs => exact List.prefix_rfl

theorem past_mono (h : P.Step honest n n') (i : I) : n.past i <+: n'.past i := by
  cases h with
  | receive i' s got j m hi hs hj hn ha => exact List.prefix_rfl
  | advance i' s got hi hs hc =>
    by_cases e : i = i'
    · subst e; simp only [Function.update_self]; exact List.prefix_append _ _
    · simp only [Function.update_of_ne e]; exact List.prefix_rfl
  | crash i' s got hi hs => exact List.prefix_rfl

theorem past_mono_star (h : Relation.ReflTransGen (P.Step honest) n n') (i : I) : n.past i <+: n'.past i := by
  induction h with
  | refl => exact List.prefix_rfl
  | tail _ h ih => exact ih.trans (past_mono h i)

theorem begun_mono_star (h : Relation.ReflTransGen (P.Step honest) n n') (i : I) : n.begun i <+: n'.begun i := by
  induction h with
  | refl => exact List.prefix_rfl
  | tail _ h ih => exact ih.trans (begun_mono h i)

theorem Sent.mono {j i : I} {k : Nat} {m : M} (hs : P.Sent n j i k m) (h : P.Step honest n n') : P.Sent n' j i k m := by
  obtain ⟨s, hs, h2⟩ := hs
  exact ⟨s, (begun_mono h j).subset hs, h2⟩

/-! ## What a party has done is what it does on its own with the same messages -/

theorem replay_snoc {s t : S} {l : List (List (I × M))} (h : P.replay s l = .ok (.inl t)) (got : List (I × M)) :
    P.replay s (l ++ [got]) = P.next t got := by
  induction l generalizing s with
  | nil =>
    obtain rfl : s = t := by cases h; rfl
    simp only [List.nil_append, replay]
    cases P.next s got with
    | ok x => cases x <;> rfl
    | err a => rfl
    | panic => rfl
  | cons g l ih =>
    simp only [replay, List.cons_append] at h ⊢
    cases hn : P.next s g with
    | ok x =>
      rw [hn] at h
      simp only [Out.bind_ok] at h ⊢
      cases x with
      | inl s' => exact ih h
      | inr r => cases l <;> cases h
    | err a => rw [hn] at h; cases h
    | panic => rw [hn] at h; cases h

/-- Messages received so far in a round -/
structure GotOk (P : Machine I M S E R) (honest : Set I) (n : Net I M S E R) (i : I) (s : S) (got : List (I × M)) : Prop where
  nodup : (got.map Prod.fst).Nodup
  expected : ∀ a ∈ got, a.1 ∈ P.expected s
  accepted : ∀ a ∈ got, P.recv s a.1 a.2 = .ok ()
  authentic : ∀ a ∈ got, a.1 ∈ honest → P.Sent n a.1 i (P.round s) a.2

theorem GotOk.mono {i : I} {s : S} {got : List (I × M)} (h : GotOk P honest n i s got) (hs : P.Step honest n n') : GotOk P honest n' i s got :=
  ⟨h.nodup, h.expected, h.accepted, fun a ha hh => (h.authentic a ha hh).mono hs⟩

theorem GotOk.nil {i : I} {s : S} : GotOk P honest n i s [] := ⟨List.nodup_nil, by simp, by simp, by simp⟩

/-- How the status of a party follows from what it has done -/
def StatusOk (P : Machine I M S E R) (honest : Set I) (n : Net I M S E R) (init : S) (i : I) : Status I M S E R → Prop
  | .running s got => P.replay init ((n.past i).map Prod.snd) = .ok (.inl s) ∧ s ∈ n.begun i ∧ GotOk P honest n i s got
  | .finished r => P.replay init ((n.past i).map Prod.snd) = .ok (.inr r)
  | .stopped a => P.replay init ((n.past i).map Prod.snd) = .err a ∨
      ∃ s j m, P.replay init ((n.past i).map Prod.snd) = .ok (.inl s) ∧ s ∈ n.begun i ∧ j ∈ P.expected s ∧ P.recv s j m = .err a ∧
        (j ∈ honest → P.Sent n j i (P.round s) m)
  | .panicked => P.replay init ((n.past i).map Prod.snd) = .panic ∨
      ∃ s j m, P.replay init ((n.past i).map Prod.snd) = .ok (.inl s) ∧ s ∈ n.begun i ∧ j ∈ P.expected s ∧ P.recv s j m = .panic ∧
        (j ∈ honest → P.Sent n j i (P.round s) m)
  | .crashed => True

structure PartyInv (P : Machine I M S E R) (honest : Set I) (n : Net I M S E R) (init : S) (i : I) : Prop where
  begun : ∀ s ∈ n.begun i, ∃ l, l <+: (n.past i).map Prod.snd ∧ P.replay init l = .ok (.inl s)
  past : ∀ x ∈ n.past i, x.1 ∈ n.begun i ∧ P.Complete x.1 x.2 ∧ GotOk P honest n i x.1 x.2
  status : StatusOk P honest n init i (n.status i)

theorem StatusOk.mono {i : I} {s : S} {st : Status I M S E R} (hs : P.Step honest n n') (hp : n'.past i = n.past i) (h : StatusOk P honest n s i st) :
    StatusOk P honest n' s i st := by
  cases st with
  | running t got => exact ⟨by rw [hp]; exact h.1, (begun_mono hs i).subset h.2.1, h.2.2.mono hs⟩
  | finished r => show P.replay _ _ = _; rw [hp]; exact h
  | stopped a =>
    rcases h with h | ⟨t, j, m, h1, h2, h3, h4, h5⟩
    · exact .inl (by rw [hp]; exact h)
    · exact .inr ⟨t, j, m, by rw [hp]; exact h1, (begun_mono hs i).subset h2, h3, h4, fun hj => (h5 hj).mono hs⟩
  | panicked =>
    rcases h with h | ⟨t, j, m, h1, h2, h3, h4, h5⟩
    · exact .inl (by rw [hp]; exact h)
    · exact .inr ⟨t, j, m, by rw [hp]; exact h1, (begun_mono hs i).subset h2, h3, h4, fun hj => (h5 hj).mono hs⟩
  | crashed => trivial

theorem partyInv_step (hs : P.Step honest n n') (i : I) (h : PartyInv P honest n (init i) i) : PartyInv P honest n' (init i) i := by
  have hgot := fun x hx => (h.past x hx)
  cases hs with
  | receive i' s got j m hi hst hj hn ha =>
    have hs' := Step.receive n i' s got j m hi hst hj hn ha
    refine ⟨h.begun, fun x hx => ⟨(hgot x hx).1, (hgot x hx).2.1, (hgot x hx).2.2.mono hs'⟩, ?_⟩
    by_cases e : i = i'
    · subst e
      have h0 := h.status
      rw [hst] at h0
      simp only [Function.update_self]
      suffices hb : ∀ N : Net I M S E R, P.Step honest n N → N.past = n.past → N.begun = n.begun →
          StatusOk P honest N (init i) i (P.received s got j m) by
        exact hb _ hs' rfl rfl
      clear hs'
      intro N hs' hNp hNb
      simp only [received]
      have h0 : P.replay (init i) ((N.past i).map Prod.snd) = .ok (.inl s) ∧ s ∈ N.begun i ∧ GotOk P honest n i s got := by
        rw [hNp, hNb]; exact h0
      cases hr : P.recv s j m with
      | ok u =>
        refine ⟨h0.1, h0.2.1, ?_, ?_, ?_, ?_⟩
        · rw [List.map_append, List.nodup_append]
          exact ⟨h0.2.2.nodup, by simp, by rintro a ha' b hb rfl; simp at hb; subst hb; exact hn ha'⟩
        · intro a ha'
          rcases List.mem_append.1 ha' with h1 | h1
          · exact h0.2.2.expected a h1
          · rw [List.mem_singleton] at h1; subst h1; exact hj
        · intro a ha'
          rcases List.mem_append.1 ha' with h1 | h1
          · exact h0.2.2.accepted a h1
          · rw [List.mem_singleton] at h1; subst h1; exact hr
        · intro a ha' hh
          rcases List.mem_append.1 ha' with h1 | h1
          · exact (h0.2.2.authentic a h1 hh).mono hs'
          · rw [List.mem_singleton] at h1; subst h1; exact (ha hh).mono hs'
      | err a => exact .inr ⟨s, j, m, h0.1, h0.2.1, hj, hr, fun hh => (ha hh).mono hs'⟩
      | panic => exact .inr ⟨s, j, m, h0.1, h0.2.1, hj, hr, fun hh => (ha hh).mono hs'⟩
    · simp only [Function.update_of_ne e]
      exact StatusOk.mono hs' rfl h.status
  | advance i' s got hi hst hc =>
    have hs' := Step.advance n i' s got hi hst hc
    by_cases e : i = i'
    · subst e
      have h0 := h.status
      rw [hst] at h0
      obtain ⟨h1, h2, h3⟩ := h0
      have hrep : P.replay (init i) ((n.past i ++ [(s, got)]).map Prod.snd) = P.next s got := by
        rw [List.map_append]; exact replay_snoc h1 got
      refine ⟨?_, ?_, ?_⟩
      · intro t ht
        simp only [Function.update_self] at ht ⊢
        rcases List.mem_append.1 ht with ht | ht
        · obtain ⟨l, hl, hl'⟩ := h.begun t ht
          exact ⟨l, hl.trans (by rw [List.map_append]; exact List.prefix_append _ _), hl'⟩
        · refine ⟨_, List.prefix_rfl, ?_⟩
          rw [hrep]
          unfold advanced at ht
          cases hx : P.next s got with
          | ok x =>
            rw [hx] at ht
            cases x with
            | inl u => simp only [fresh, List.mem_singleton] at ht; rw [ht]
            | inr r => simp [fresh] at ht
          | err a => rw [hx] at ht; simp [fresh] at ht
          | panic => rw [hx] at ht; simp [fresh] at ht
      · intro x hx
        simp only [Function.update_self] at hx ⊢
        rcases List.mem_append.1 hx with hx | hx
        · exact ⟨List.mem_append_left _ (hgot x hx).1, (hgot x hx).2.1, (hgot x hx).2.2.mono hs'⟩
        · rw [List.mem_singleton] at hx
          subst hx
          exact ⟨List.mem_append_left _ h2, ⟨h3.nodup, hc, h3.accepted⟩, h3.mono hs'⟩
      · simp only [Function.update_self]
        unfold advanced
        cases hx : P.next s got with
        | ok x =>
          cases x with
          | inl u =>
            refine ⟨?_, ?_, GotOk.nil⟩
            · simp only [Function.update_self]; rw [hrep, hx]
            · simp only [Function.update_self, fresh]; exact List.mem_append_right _ (by simp)
          | inr r => show P.replay _ _ = _; simp only [Function.update_self]; rw [hrep, hx]
        | err a => refine .inl ?_; simp only [Function.update_self]; rw [hrep, hx]
        | panic => refine .inl ?_; simp only [Function.update_self]; rw [hrep, hx]
    · refine ⟨?_, ?_, ?_⟩
      · simpa only [Function.update_of_ne e] using h.begun
      · intro x hx
        simp only [Function.update_of_ne e] at hx ⊢
        exact ⟨(hgot x hx).1, (hgot x hx).2.1, (hgot x hx).2.2.mono hs'⟩
      · simp only [Function.update_of_ne e]
        exact StatusOk.mono hs' (by simp only [Function.update_of_ne e]) h.status
  | crash i' s got hi hst =>
    have hs' := Step.crash (P := P) n i' s got hi hst
    refine ⟨h.begun, fun x hx => ⟨(hgot x hx).1, (hgot x hx).2.1, (hgot x hx).2.2.mono hs'⟩, ?_⟩
    by_cases e : i = i'
    · subst e; simp only [Function.update_self]; trivial
    · simp only [Function.update_of_ne e]; exact StatusOk.mono hs' rfl h.status

theorem partyInv_start (i : I) : PartyInv P honest (P.start init) (init i) i := by
  refine ⟨?_, by simp [start], ?_⟩
  · intro s hs
    simp only [start, List.mem_singleton] at hs
    subst hs
    exact ⟨[], List.nil_prefix, rfl⟩
  · exact ⟨rfl, by simp [start], GotOk.nil⟩

theorem Reachable.inv (h : P.Reachable honest init n) (i : I) : PartyInv P honest n (init i) i := by
  induction h with
  | refl => exact partyInv_start i
  | tail _ hs ih => exact partyInv_step hs i ih

/-! ## If everybody follows the protocol -/

section Ideal

variable {parties : Finset I} {K : Nat} {ideal : Nat → I → S} {res : I → R}

/-- The first `k` intended states -/
def firstStates (ideal : Nat → I → S) (i : I) (k : Nat) : List S := (List.range k).map fun a => ideal (a + 1) i

theorem mem_firstStates {i : I} {k : Nat} {s : S} : s ∈ firstStates ideal i k ↔ ∃ a, 1 ≤ a ∧ a ≤ k ∧ s = ideal a i := by
  unfold firstStates
  rw [List.mem_map]
  constructor
  · rintro ⟨a, ha, rfl⟩
    exact ⟨a + 1, by omega, by have := List.mem_range.1 ha; omega, rfl⟩
  · rintro ⟨a, h1, h2, rfl⟩
    exact ⟨a - 1, List.mem_range.2 (by omega), by rw [Nat.sub_add_cancel h1]⟩

theorem firstStates_succ (i : I) (k : Nat) : firstStates ideal i (k + 1) = firstStates ideal i k ++ [ideal (k + 1) i] := by
  unfold firstStates; rw [List.range_succ, List.map_append]; rfl

/-- A party is where it should be. -/
inductive OnTrack (P : Machine I M S E R) (parties : Finset I) (K : Nat) (ideal : Nat → I → S) (res : I → R) (n : Net I M S E R) (i : I) : Prop where
  | running (k : Nat) (got : List (I × M)) : 1 ≤ k → k ≤ K → n.status i = .running (ideal k i) got → n.begun i = firstStates ideal i k →
      (got.map Prod.fst).Nodup → (∀ a ∈ got, a.1 ∈ P.expected (ideal k i) ∧ (i, a.2) ∈ P.send (ideal k a.1)) → OnTrack P parties K ideal res n i
  | finished : n.status i = .finished (res i) → n.begun i = firstStates ideal i K → OnTrack P parties K ideal res n i
  | crashed (k : Nat) : 1 ≤ k → k ≤ K → n.status i = .crashed → n.begun i = firstStates ideal i k → OnTrack P parties K ideal res n i

theorem OnTrack.begun {i : I} (h : OnTrack P parties K ideal res n i) (hK : 1 ≤ K) : ∃ k, 1 ≤ k ∧ k ≤ K ∧ n.begun i = firstStates ideal i k := by
  cases h with
  | running k got h1 h2 h3 h4 h5 h6 => exact ⟨k, h1, h2, h4⟩
  | finished h1 h2 => exact ⟨K, hK, le_rfl, h2⟩
  | crashed k h1 h2 h3 h4 => exact ⟨k, h1, h2, h4⟩

theorem sent_ideal (hI : P.Ideal parties init K ideal res) (ht : ∀ i ∈ parties, OnTrack P parties K ideal res n i) {j i : I} (hj : j ∈ parties)
    {k : Nat} {m : M} (hs : P.Sent n j i k m) : (i, m) ∈ P.send (ideal k j) := by
  obtain ⟨s, hs, hk, hm⟩ := hs
  obtain ⟨k', h1, h2, hb⟩ := (ht j hj).begun hI.rounds
  rw [hb, mem_firstStates] at hs
  obtain ⟨a, ha, ha', rfl⟩ := hs
  rw [hI.round a j ha (ha'.trans h2) hj] at hk
  rw [← hk]; exact hm

theorem onTrack_step (hI : P.Ideal parties init K ideal res) (ht : ∀ i ∈ parties, OnTrack P parties K ideal res n i)
    (hs : P.Step (parties : Set I) n n') (i : I) (hi' : i ∈ parties) : OnTrack P parties K ideal res n' i := by
  have keep : ∀ N : Net I M S E R, N.status i = n.status i → N.begun i = n.begun i → OnTrack P parties K ideal res N i := by
    intro N h1 h2
    cases ht i hi' with
    | running k got a b c d e f => exact .running k got a b (h1.trans c) (h2.trans d) e f
    | finished a b => exact .finished (h1.trans a) (h2.trans b)
    | crashed k a b c d => exact .crashed k a b (h1.trans c) (h2.trans d)
  cases hs with
  | receive i' s got j m hi hst hj hn ha =>
    by_cases e : i = i'
    · subst e
      cases ht i hi' with
      | running k got' a b c d e f =>
        rw [hst] at c
        obtain ⟨rfl, rfl⟩ : s = ideal k i ∧ got = got' := by cases c; exact ⟨rfl, rfl⟩
        have hjp : j ∈ parties := hI.expected k i a b hi' hj
        have hm := sent_ideal hI ht hjp (ha hjp)
        rw [hI.round k i a b hi'] at hm
        have hr := hI.accepts k i a b hi' j hj m hm
        refine .running k (got ++ [(j, m)]) a b ?_ d ?_ ?_
        · simp only [Function.update_self, received, hr]
        · rw [List.map_append, List.nodup_append]
          exact ⟨e, by simp, by rintro x hx y hy rfl; simp at hy; subst hy; exact hn hx⟩
        · intro x hx
          rcases List.mem_append.1 hx with h1 | h1
          · exact f x h1
          · rw [List.mem_singleton] at h1; subst h1; exact ⟨hj, hm⟩
      | finished a b => rw [hst] at a; cases a
      | crashed k a b c d => rw [hst] at c; cases c
    · exact keep _ (by simp only [Function.update_of_ne e]) rfl
  | advance i' s got hi hst hc =>
    by_cases e : i = i'
    · subst e
      cases ht i hi' with
      | running k got' a b c d e f =>
        rw [hst] at c
        obtain ⟨rfl, rfl⟩ : s = ideal k i ∧ got = got' := by cases c; exact ⟨rfl, rfl⟩
        have hcomp : P.Complete (ideal k i) got := ⟨e, hc, fun x hx => hI.accepts k i a b hi' x.1 (f x hx).1 x.2 (f x hx).2⟩
        rcases Nat.lt_or_ge k K with hk | hk
        · have hnx := hI.advances k i a hk hi' got hcomp fun x hx => (f x hx).2
          refine .running (k + 1) [] (by omega) hk ?_ ?_ (by simp) (by simp)
          · simp only [Function.update_self, advanced, hnx]
          · simp only [Function.update_self, advanced, hnx, fresh]; rw [d, firstStates_succ]
        · obtain rfl : k = K := by omega
          have hnx := hI.finishes i hi' got hcomp fun x hx => (f x hx).2
          refine .finished ?_ ?_
          · simp only [Function.update_self, advanced, hnx]
          · simp only [Function.update_self, advanced, hnx, fresh]; rw [d, List.append_nil]
      | finished a b => rw [hst] at a; cases a
      | crashed k a b c d => rw [hst] at c; cases c
    · exact keep _ (by simp only [Function.update_of_ne e]) (by simp only [Function.update_of_ne e])
  | crash i' s got hi hst =>
    by_cases e : i = i'
    · subst e
      cases ht i hi' with
      | running k got' a b c d e f => exact .crashed k a b (by simp only [Function.update_self]) d
      | finished a b => rw [hst] at a; cases a
      | crashed k a b c d => rw [hst] at c; cases c
    · exact keep _ (by simp only [Function.update_of_ne e]) rfl

theorem onTrack_start (hI : P.Ideal parties init K ideal res) (i : I) (hi : i ∈ parties) : OnTrack P parties K ideal res (P.start init) i :=
  .running 1 [] le_rfl hI.rounds (by rw [hI.first i hi]; rfl) (by simp [firstStates, start, hI.first i hi]) (by simp) (by simp)

theorem Reachable.onTrack (hI : P.Ideal parties init K ideal res) (h : P.Reachable (parties : Set I) init n) : ∀ i ∈ parties,
    OnTrack P parties K ideal res n i := by
  induction h with
  | refl => exact onTrack_start hI
  | tail _ hs ih => exact onTrack_step hI ih hs

/-! ### Nobody waits for ever -/

theorem OnTrack.enabled (hI : P.Ideal parties init K ideal res) (ht : ∀ i ∈ parties, OnTrack P parties K ideal res n i)
    (hc : ∀ i ∈ parties, n.status i ≠ .crashed) (hn : ∃ i ∈ parties, n.status i ≠ .finished (res i)) :
    ∃ n', P.Step (parties : Set I) n n' ∧ ∀ i, n'.status i = .crashed → n.status i = .crashed := by
  classical
  -- a party in the earliest round
  have hex : ∃ k, ∃ i ∈ parties, ∃ got, 1 ≤ k ∧ k ≤ K ∧ n.status i = .running (ideal k i) got ∧ n.begun i = firstStates ideal i k ∧
      (got.map Prod.fst).Nodup ∧ (∀ a ∈ got, a.1 ∈ P.expected (ideal k i) ∧ (i, a.2) ∈ P.send (ideal k a.1)) := by
    obtain ⟨i, hi, hne⟩ := hn
    cases ht i hi with
    | running k got a b c d e f => exact ⟨k, i, hi, got, a, b, c, d, e, f⟩
    | finished a b => exact absurd a hne
    | crashed k a b c d => exact absurd c (hc i hi)
  obtain ⟨i, hi, got, a, b, c, d, e, f⟩ := Nat.find_spec hex
  have hmin := fun k' (hk : k' < Nat.find hex) => Nat.find_min hex hk
  generalize Nat.find hex = k at a b c d e f hmin
  have hlater : ∀ j ∈ parties, ∃ k', k ≤ k' ∧ n.begun j = firstStates ideal j k' := by
    intro j hj
    cases ht j hj with
    | running k' got' a' b' c' d' e' f' =>
      refine ⟨k', ?_, d'⟩
      by_contra hlt
      exact hmin k' (by omega) ⟨j, hj, got', a', b', c', d', e', f'⟩
    | finished a' b' => exact ⟨K, b, b'⟩
    | crashed k' a' b' c' d' => exact absurd c' (hc j hj)
  by_cases hall : (got.map Prod.fst).toFinset = P.expected (ideal k i)
  · refine ⟨_, .advance n i _ got hi c hall, ?_⟩
    intro j hj
    by_cases e' : j = i
    · subst e'
      simp only [Function.update_self] at hj
      unfold advanced at hj
      split at hj <;> cases hj
    · simpa only [Function.update_of_ne e'] using hj
  · have hsub : (got.map Prod.fst).toFinset ⊆ P.expected (ideal k i) := by
      intro x hx
      obtain ⟨y, hy, rfl⟩ := List.mem_map.1 (List.mem_toFinset.1 hx)
      exact (f y hy).1
    obtain ⟨j, hj, hjn⟩ := Finset.exists_of_ssubset (hsub.ssubset_of_ne hall)
    obtain ⟨m, hm⟩ := hI.sends k i a b hi j hj
    have hjp := hI.expected k i a b hi hj
    obtain ⟨k', hk', hb'⟩ := hlater j hjp
    refine ⟨_, .receive n i _ got j m hi c hj (by simpa using hjn) (fun _ => ⟨ideal k j, ?_, ?_, hm⟩), ?_⟩
    · rw [hb', mem_firstStates]; exact ⟨k, a, hk', rfl⟩
    · rw [hI.round k j a b hjp, hI.round k i a b hi]
    · intro j' hj'
      by_cases e' : j' = i
      · subst e'
        simp only [Function.update_self] at hj'
        unfold received at hj'
        split at hj' <;> cases hj'
      · simpa only [Function.update_of_ne e'] using hj'

/-! ### Executions are finite -/

/-- How far a party has got -/
def progress (P : Machine I M S E R) (K c : Nat) : Status I M S E R → Nat
  | .running s got => (P.round s - 1) * (c + 1) + got.length
  | _ => K * (c + 1)

theorem got_le (hI : P.Ideal parties init K ideal res) {i : I} (hi : i ∈ parties) {k : Nat} (a : 1 ≤ k) (b : k ≤ K) {got : List (I × M)}
    (e : (got.map Prod.fst).Nodup) (f : ∀ x ∈ got, x.1 ∈ P.expected (ideal k i)) : got.length ≤ parties.card := by
  rw [← List.length_map (f := Prod.fst), ← List.toFinset_card_of_nodup e]
  refine Finset.card_le_card ?_
  intro x hx
  obtain ⟨y, hy, rfl⟩ := List.mem_map.1 (List.mem_toFinset.1 hx)
  exact hI.expected k i a b hi (f y hy)

theorem progress_running_lt {k K c l : Nat} (a : 1 ≤ k) (b : k ≤ K) (hl : l ≤ c) : (k - 1) * (c + 1) + l < K * (c + 1) := by
  have h1 : (k - 1) * (c + 1) + (c + 1) ≤ K * (c + 1) := by
    rw [← Nat.succ_mul]
    exact Nat.mul_le_mul_right _ (by omega)
  omega

theorem progress_le (hI : P.Ideal parties init K ideal res) {i : I} (hi : i ∈ parties) (ht : OnTrack P parties K ideal res n i) :
    progress P K parties.card (n.status i) ≤ K * (parties.card + 1) := by
  cases ht with
  | running k got a b c d e f =>
    rw [c]
    simp only [progress]
    rw [hI.round k i a b hi]
    exact (progress_running_lt a b (got_le hI hi a b e fun x hx => (f x hx).1)).le
  | finished a b => rw [a]; exact le_rfl
  | crashed k a b c d => rw [c]; exact le_rfl

theorem progress_step (hI : P.Ideal parties init K ideal res) (ht : ∀ i ∈ parties, OnTrack P parties K ideal res n i)
    (hs : P.Step (parties : Set I) n n') : ∃ i ∈ parties, progress P K parties.card (n.status i) < progress P K parties.card (n'.status i) ∧
      ∀ j ≠ i, n'.status j = n.status j := by
  have ht' := onTrack_step hI ht hs
  cases hs with
  | receive i s got j m hi hst hj hn ha =>
    refine ⟨i, hi, ?_, fun j' hj' => by simp only [Function.update_of_ne hj']⟩
    have h1 := ht' i hi
    have h0 := ht i hi
    cases h0 with
    | running k got' a b c d e f =>
      rw [hst] at c
      obtain ⟨rfl, rfl⟩ : s = ideal k i ∧ got = got' := by cases c; exact ⟨rfl, rfl⟩
      have hjp : j ∈ parties := hI.expected k i a b hi hj
      have hm := sent_ideal hI ht hjp (ha hjp)
      rw [hI.round k i a b hi] at hm
      have hr := hI.accepts k i a b hi j hj m hm
      simp only [Function.update_self, received, hr, hst, progress, List.length_append, List.length_singleton]
      omega
    | finished a b => rw [hst] at a; cases a
    | crashed k a b c d => rw [hst] at c; cases c
  | advance i s got hi hst hc =>
    refine ⟨i, hi, ?_, fun j' hj' => by simp only [Function.update_of_ne hj']⟩
    cases ht i hi with
    | running k got' a b c d e f =>
      rw [hst] at c
      obtain ⟨rfl, rfl⟩ : s = ideal k i ∧ got = got' := by cases c; exact ⟨rfl, rfl⟩
      have hcomp : P.Complete (ideal k i) got := ⟨e, hc, fun x hx => hI.accepts k i a b hi x.1 (f x hx).1 x.2 (f x hx).2⟩
      have hle := got_le hI hi a b e fun x hx => (f x hx).1
      rcases Nat.lt_or_ge k K with hk | hk
      · have hnx := hI.advances k i a hk hi got hcomp fun x hx => (f x hx).2
        simp only [Function.update_self, advanced, hnx, hst, progress, hI.round k i a b hi, hI.round (k + 1) i (by omega) hk hi, List.length_nil]
        have := progress_running_lt (k := k) (K := k) (c := parties.card) a le_rfl hle
        simpa using this
      · obtain rfl : k = K := by omega
        have hnx := hI.finishes i hi got hcomp fun x hx => (f x hx).2
        simp only [Function.update_self, advanced, hnx, hst, progress, hI.round k i a b hi]
        exact progress_running_lt a b hle
    | finished a b => rw [hst] at a; cases a
    | crashed k a b c d => rw [hst] at c; cases c
  | crash i s got hi hst =>
    refine ⟨i, hi, ?_, fun j' hj' => by simp only [Function.update_of_ne hj']⟩
    cases ht i hi with
    | running k got' a b c d e f =>
      rw [hst] at c
      obtain ⟨rfl, rfl⟩ : s = ideal k i ∧ got = got' := by cases c; exact ⟨rfl, rfl⟩
      simp only [Function.update_self, hst, progress, hI.round k i a b hi]
      exact progress_running_lt a b (got_le hI hi a b e fun x hx => (f x hx).1)
    | finished a b => rw [hst] at a; cases a
    | crashed k a b c d => rw [hst] at c; cases c

theorem Execution.toReachable {k : Nat} (h : P.Execution honest k (P.start init) n) : P.Reachable honest init n := by
  generalize hn : P.start init = n0 at h
  induction h with
  | refl _ => subst hn; exact .refl
  | step _ hs ih => exact (ih hn).tail hs

theorem Reachable.toExecution (h : P.Reachable honest init n) : ∃ k, P.Execution honest k (P.start init) n := by
  induction h with
  | refl => exact ⟨0, .refl _⟩
  | tail _ hs ih => exact ⟨_, .step ih.choose_spec hs⟩

theorem Execution.length_le_progress (hI : P.Ideal parties init K ideal res) {k : Nat} (h : P.Execution (parties : Set I) k (P.start init) n) :
    k ≤ ∑ i ∈ parties, progress P K parties.card (n.status i) := by
  generalize hn : P.start init = n0 at h
  induction h with
  | refl _ => exact Nat.zero_le _
  | step h0 hs ih =>
    have hr : P.Reachable (parties : Set I) init _ := Execution.toReachable (hn ▸ h0)
    obtain ⟨i, hi, hlt, hoth⟩ := progress_step hI (hr.onTrack hI) hs
    refine Nat.succ_le_of_lt (lt_of_le_of_lt (ih hn) ?_)
    refine Finset.sum_lt_sum (fun j hj => ?_) ⟨i, hi, hlt⟩
    by_cases e : j = i
    · subst e; exact hlt.le
    · rw [hoth j e]

theorem Execution.length_le (hI : P.Ideal parties init K ideal res) {k : Nat} (h : P.Execution (parties : Set I) k (P.start init) n) :
    k ≤ parties.card * (K * (parties.card + 1)) := by
  refine (h.length_le_progress hI).trans ?_
  have := Finset.sum_le_card_nsmul parties (fun i => progress P K parties.card (n.status i)) (K * (parties.card + 1)) fun i hi =>
    progress_le hI hi (h.toReachable.onTrack hI i hi)
  simpa using this

theorem Ideal.alwaysFinishes (hI : P.Ideal parties init K ideal res) : P.AlwaysFinishes parties init (parties.card * (K * (parties.card + 1))) res := by
  refine ⟨fun n hn i hi => ?_, fun n hn hc => ?_, fun k n h => h.length_le hI⟩
  · cases hn.onTrack hI i hi with
    | running k got a b c d e f => exact .inl ⟨_, _, c⟩
    | finished a b => exact .inr (.inl a)
    | crashed k a b c d => exact .inr (.inr c)
  · by_cases hall : ∀ i ∈ parties, n.status i = .finished (res i)
    · exact .inl hall
    · push Not at hall
      exact .inr (OnTrack.enabled hI (hn.onTrack hI) hc hall)

end Ideal

theorem Execution.reachable {k : Nat} (h : P.Execution honest k (P.start init) n) : P.Reachable honest init n := by
  unfold Reachable
  generalize P.start init = n₀ at h
  induction h with
  | refl => exact .refl
  | step _ hs ih => exact ih.tail hs

/-- There are executions in which all parties finish. -/
theorem AlwaysFinishes.exists_finished {parties : Finset I} {bound : Nat} {res : I → R} (h : P.AlwaysFinishes parties init bound res) :
    ∃ n, P.Reachable (parties : Set I) init n ∧ ∀ i ∈ parties, n.status i = .finished (res i) := by
  by_contra hn
  push Not at hn
  have key : ∀ k, ∃ n, P.Execution (parties : Set I) k (P.start init) n ∧ ∀ i ∈ parties, n.status i ≠ .crashed := by
    intro k
    induction k with
    | zero => exact ⟨_, .refl _, fun i _ h => by cases h⟩
    | succ k ih =>
      obtain ⟨n, he, hc⟩ := ih
      rcases h.live n he.reachable hc with hall | ⟨n', hs, hc'⟩
      · obtain ⟨i, hi, hne⟩ := hn n he.reachable
        exact absurd (hall i hi) hne
      · exact ⟨n', he.step hs, fun i hi hx => hc i hi (hc' i hx)⟩
  obtain ⟨n, he, -⟩ := key (bound + 1)
  have := h.bounded _ _ he
  omega

end Synedrion.Spec.Machine
