import Verif.Spec.WireNet
import Verif.Lemmas.WireHonest
import Verif.Lemmas.Network

/-!
# Lemmas: executions over serialized messages refine executions over messages
-/

set_option linter.unusedSectionVars false

namespace Synedrion

open Spec

variable {I M S E R : Type} [LinearOrder I] {P : Spec.Machine I M S E R} {T : Transport I M} {panics : Panics I M S} {honest : Set I} {init : I → S}

theorem unpackAll_eq_some {r : Nat} {got : List (I × Packet I)} {got' : List (I × M)} : T.unpackAll r got = some got' ↔ Reads T r got got' := by
  induction got generalizing got' with
  | nil =>
    constructor
    · intro h; cases h; exact .nil
    · intro h; cases h; rfl
  | cons a l ih =>
    unfold Transport.unpackAll
    rw [Option.bind_eq_some_iff]
    constructor
    · rintro ⟨m, hm, h⟩
      obtain ⟨l', hl', rfl⟩ := Option.map_eq_some_iff.1 h
      exact .cons ⟨rfl, hm⟩ (ih.1 hl')
    · intro h
      cases h with
      | cons h1 h2 =>
        rename_i b l'
        refine ⟨b.2, h1.2, ?_⟩
        rw [ih.2 h2]
        show some ((a.1, b.2) :: l') = _
        rw [h1.1]

theorem Spec.Reads.fst {r : Nat} {got : List (I × Packet I)} {got' : List (I × M)} (h : Reads T r got got') : got'.map Prod.fst = got.map Prod.fst := by
  induction h with
  | nil => rfl
  | cons h _ ih => rw [List.map_cons, List.map_cons, ih, h.1]

theorem Spec.Reads.append {r : Nat} {got : List (I × Packet I)} {got' : List (I × M)} (h : Reads T r got got') {j : I} {d : Packet I} {m : M} (hm : T.unpack r d = some m) :
    Reads T r (got ++ [(j, d)]) (got' ++ [(j, m)]) := by
  induction h with
  | nil => exact .cons ⟨rfl, hm⟩ .nil
  | cons h _ ih => exact .cons h ih

theorem Spec.Reads.of_mem {r : Nat} {got : List (I × Packet I)} {got' : List (I × M)} (h : Reads T r got got') {b : I × M} (hb : b ∈ got') : ∃ a ∈ got, a.1 = b.1 ∧ T.unpack r a.2 = some b.2 := by
  induction h with
  | nil => cases hb
  | cons h _ ih =>
    rcases List.mem_cons.1 hb with rfl | hb
    · exact ⟨_, List.mem_cons_self, h⟩
    · obtain ⟨a, ha, h'⟩ := ih hb
      exact ⟨a, List.mem_cons_of_mem _ ha, h'⟩

theorem mem_packAll {l : List (I × M)} {a : I × Packet I} : a ∈ T.packAll l ↔ ∃ m, (a.1, m) ∈ l ∧ T.pack m = .ok a.2 := by
  unfold Transport.packAll
  rw [List.mem_filterMap]
  constructor
  · rintro ⟨b, hb, h⟩
    split at h
    · next d hd =>
      cases h
      exact ⟨b.2, hb, hd⟩
    · cases h
  · rintro ⟨m, hm, h⟩
    refine ⟨(a.1, m), hm, ?_⟩
    show (match T.pack m with | .ok d => some (a.1, d) | _ => none) = _
    rw [h]

theorem Out.onWire_eq_ok {α : Type} {x : Out (Abort I E) α} {a : α} : x.onWire = .ok a ↔ x = .ok a := by cases x <;> simp [Out.onWire]

theorem overWire_next {s : S} {got : List (I × Packet I)} {got' : List (I × M)} (hpk : T.packable (P.send s) = true) (hgot : Reads T (P.round s) got got')
    (hpan : ¬ panics.next s got' = true) :
    (overWire P T panics).next s got = (P.next s got').onWire.bind fun
      | .inl s' => if T.packable (P.send s') then .ok (.inl s') else .panic
      | .inr r => .ok (.inr r) := by
  unfold overWire
  dsimp only
  rw [if_pos hpk, unpackAll_eq_some.2 hgot]
  exact if_neg hpan

/-- A property of honest parties' states that makes serialization faithful -/
structure Faithful (P : Spec.Machine I M S E R) (T : Transport I M) (ok : M → Prop) (inv : S → Prop) : Prop where
  read : ∀ r d m, T.unpack r d = some m → ok m
  next : ∀ s got s', inv s → (∀ a ∈ got, ok a.2) → P.next s got = .ok (.inl s') → inv s'
  trip : ∀ s, inv s → ∀ a ∈ P.send s, ∀ d, T.pack a.2 = .ok d → T.unpack (P.round s) d = some a.2

/-- The invariant of the simulation -/
structure Sim (P : Spec.Machine I M S E R) (T : Transport I M) (honest : Set I) (ok : M → Prop) (inv : S → Prop) (init : I → S) (n : Net I (Packet I) S (WireErr E) R) (n' : Net I M S E R) : Prop where
  reach : P.ReachableWith honest (fun _ _ m => ok m) init n'
  course : SameCourse T P.round honest n n'
  begun : ∀ i ∈ honest, ∀ s ∈ n.begun i, inv s
  now : ∀ i ∈ honest, ∀ s got, n.status i = .running s got → inv s

variable {ok : M → Prop} {inv : S → Prop}

theorem sim_start (hinit : ∀ i ∈ honest, inv (init i)) : Sim P T honest ok inv init ((overWire P T panics).start init) (P.start init) where
  reach := .start
  course := ⟨fun _ => .running .nil, rfl, fun _ => ⟨0, .nil, by decide, fun _ => rfl⟩⟩
  begun i hi s hs := by
    cases List.mem_singleton.1 hs
    exact hinit i hi
  now i hi s got hs := by
    cases hs
    exact hinit i hi

theorem past_of_running {n : Net I (Packet I) S (WireErr E) R} {n' : Net I M S E R} (h : SameCourse T P.round honest n n') {i : I} (hi : n.status i ≠ .panicked) :
    List.Forall₂ (fun x y => x.1 = y.1 ∧ Reads T (P.round x.1) x.2 y.2) (n.past i) (n'.past i) := by
  obtain ⟨rest, h1, -, h2⟩ := h.past i
  rwa [h2 hi, Nat.sub_zero, List.take_length] at h1

/-- The party `i` changes its status only. -/
theorem sameCourse_update {n : Net I (Packet I) S (WireErr E) R} {n' : Net I M S E R} (h : SameCourse T P.round honest n n') {i : I} (hi : n.status i ≠ .panicked)
    {st : Status I (Packet I) S (WireErr E) R} {st' : Status I M S E R} (hst : StatusMatches T P.round honest st st') :
    SameCourse T P.round honest { n with status := Function.update n.status i st } { n' with status := Function.update n'.status i st' } where
  status k := by
    by_cases hk : k = i
    · subst hk; simpa using hst
    · simpa [Function.update_of_ne hk] using h.status k
  begun := h.begun
  past k := by
    by_cases hk : k = i
    · subst hk
      exact ⟨0, by rw [Nat.sub_zero, List.take_length]; exact past_of_running h hi, by decide, fun _ => rfl⟩
    · obtain ⟨rest, h1, h2, h3⟩ := h.past k
      exact ⟨rest, h1, h2, fun hne => h3 (by simpa [Function.update_of_ne hk] using hne)⟩

theorem onWire_status {s : S} {a : Abort I E} : StatusMatches (R := R) T P.round honest (.stopped a.onWire) (.stopped a) := by
  cases a
  · exact .fault
  · exact .localErr
  · exact .incomplete

theorem sim_step (hF : Faithful P T ok inv) {n m : Net I (Packet I) S (WireErr E) R} {n' : Net I M S E R} (h : Sim P T honest ok inv init n n')
    (hs : (overWire P T panics).Step honest n m) : ∃ m', Sim P T honest ok inv init m m' := by
  cases hs with
  | receive i s got j d hi hst hexp hnew hsent =>
    have hm := h.course.status i
    rw [hst] at hm
    generalize hst' : n'.status i = st' at hm
    cases hm with
    | running hgot =>
    rename_i got'
    have hne : n.status i ≠ .panicked := by rw [hst]; simp
    have hstop : ∀ {st}, StatusMatches T P.round honest st (.crashed : Status I M S E R) → (∀ s got, st ≠ .running s got) →
        ∃ m', Sim P T honest ok inv init { n with status := Function.update n.status i st } m' := fun {st} h1 h2 =>
      ⟨_, h.reach.crash hi hst', sameCourse_update h.course hne h1, h.begun, fun k hk s got hs => by
        by_cases hki : k = i
        · subst hki
          exact absurd (by simpa using hs) (h2 s got)
        · exact h.now k hk s got (by simpa [Function.update_of_ne hki] using hs)⟩
    unfold Machine.received overWire
    dsimp only
    by_cases hpk : T.packable (P.send s) = true
    swap
    · rw [if_neg hpk]
      exact hstop .unserializable (by simp)
    rw [if_pos hpk]
    cases hd : T.unpack (P.round s) d with
    | none =>
      refine hstop (.malformed fun hj => ?_) (by simp)
      obtain ⟨s', hs', hr, hmem⟩ := hsent hj
      obtain ⟨x, hx, hp⟩ := mem_packAll.1 hmem
      have := hF.trip s' (h.begun j hj s' hs') _ hx d hp
      rw [show P.round s' = P.round s from hr, hd] at this
      cases this
    | some x =>
      dsimp only
      by_cases hpan : panics.recv s j x = true
      · rw [if_pos hpan]
        exact hstop .unserializable (by simp)
      · rw [if_neg hpan]
        refine ⟨_, h.reach.receive (j := j) (m := x) hi hst' hexp (by rw [hgot.fst]; exact hnew) (fun hj => ?_) (hF.read _ _ _ hd), sameCourse_update h.course hne ?_, h.begun, ?_⟩
        · obtain ⟨s', hs', hr, hmem⟩ := hsent hj
          obtain ⟨y, hy, hp⟩ := mem_packAll.1 hmem
          have := hF.trip s' (h.begun j hj s' hs') _ hy d hp
          rw [show P.round s' = P.round s from hr, hd] at this
          cases this
          exact ⟨s', by rw [h.course.begun]; exact hs', hr, hy⟩
        · unfold Machine.received
          cases P.recv s j x with
          | ok u => exact .running (hgot.append hd)
          | err a => exact onWire_status (s := s)
          | panic => exact .panicked
        · intro k hk s₂ got₂ hs₂
          by_cases hki : k = i
          · subst hki
            have : s₂ = s := by
              revert hs₂
              cases P.recv s j x <;> simp [Out.onWire]
              intro h _; exact h.symm
            rw [this]
            exact h.now k hk s got hst
          · exact h.now k hk s₂ got₂ (by simpa [Function.update_of_ne hki] using hs₂)
  | advance i s got hi hst hexp =>
    have hm := h.course.status i
    rw [hst] at hm
    generalize hst' : n'.status i = st' at hm
    cases hm with
    | running hgot =>
    rename_i got'
    have hne : n.status i ≠ .panicked := by rw [hst]; simp
    have hpast := past_of_running h.course hne
    have hall : T.unpackAll (P.round s) got = some got' := unpackAll_eq_some.2 hgot
    have hpanic : (overWire P T panics).advanced s got = .panicked → ∃ m', Sim P T honest ok inv init ⟨Function.update n.status i ((overWire P T panics).advanced s got),
        Function.update n.begun i (n.begun i ++ Machine.fresh ((overWire P T panics).advanced s got)), Function.update n.past i (n.past i ++ [(s, got)])⟩ m' := fun hp => by
      rw [hp]
      refine ⟨_, h.reach.crash hi hst', ⟨fun k => ?_, ?_, fun k => ?_⟩, fun k hk s₂ hs₂ => ?_, fun k hk s₂ got₂ hs₂ => ?_⟩
      · by_cases hk : k = i
        · subst hk; simpa using .unserializable
        · simpa [Function.update_of_ne hk] using h.course.status k
      · show n'.begun = Function.update n.begun i (n.begun i ++ [])
        rw [List.append_nil, Function.update_eq_self]
        exact h.course.begun
      · by_cases hk : k = i
        · subst hk
          refine ⟨1, ?_, le_refl _, fun hne => absurd (by simp) hne⟩
          simpa using hpast
        · obtain ⟨rest, h1, h2, h3⟩ := h.course.past k
          exact ⟨rest, by simpa [Function.update_of_ne hk] using h1, h2, fun hne => h3 (by simpa [Function.update_of_ne hk] using hne)⟩
      · refine h.begun k hk s₂ ?_
        by_cases hki : k = i
        · subst hki; simpa [Machine.fresh] using hs₂
        · simpa [Function.update_of_ne hki] using hs₂
      · by_cases hki : k = i
        · subst hki; simp at hs₂
        · exact h.now k hk s₂ got₂ (by simpa [Function.update_of_ne hki] using hs₂)
    have hgo : ∀ st st', (overWire P T panics).advanced s got = st → P.advanced s got' = st' → StatusMatches T P.round honest st st' →
        (Machine.fresh st' = Machine.fresh st) → (∀ s₂ got₂, st = .running s₂ got₂ → inv s₂) →
        ∃ m', Sim P T honest ok inv init ⟨Function.update n.status i ((overWire P T panics).advanced s got),
        Function.update n.begun i (n.begun i ++ Machine.fresh ((overWire P T panics).advanced s got)), Function.update n.past i (n.past i ++ [(s, got)])⟩ m' := fun st st' h1 h2 h3 h4 h5 => by
      refine ⟨_, h.reach.advance hi hst' (by rw [hgot.fst]; exact hexp), ?_, ?_, ?_⟩
      · rw [h1, h2]
        refine ⟨fun k => ?_, ?_, fun k => ?_⟩
        · by_cases hk : k = i
          · subst hk; simpa using h3
          · simpa [Function.update_of_ne hk] using h.course.status k
        · show Function.update n'.begun i (n'.begun i ++ _) = Function.update n.begun i (n.begun i ++ _)
          rw [h.course.begun, h4]
        · by_cases hk : k = i
          · subst hk
            refine ⟨0, ?_, by decide, fun _ => rfl⟩
            show List.Forall₂ _ (List.take (List.length (Function.update n.past k _ k) - 0) (Function.update n.past k _ k)) (Function.update n'.past k _ k)
            rw [Nat.sub_zero, List.take_length, Function.update_self, Function.update_self]
            exact List.rel_append hpast (.cons ⟨rfl, hgot⟩ .nil)
          · obtain ⟨rest, h1, h2, h3⟩ := h.course.past k
            exact ⟨rest, by simpa [Function.update_of_ne hk] using h1, h2, fun hne => h3 (by simpa [Function.update_of_ne hk] using hne)⟩
      · intro k hk s₂ hs₂
        by_cases hki : k = i
        · subst hki
          rw [h1] at hs₂
          have hs₂ : s₂ ∈ n.begun k ++ Machine.fresh st := by simpa using hs₂
          rcases List.mem_append.1 hs₂ with hs₂ | hs₂
          · exact h.begun k hk s₂ hs₂
          · cases st with
            | running s₃ got₃ =>
              cases List.mem_singleton.1 hs₂
              exact h5 _ _ rfl
            | finished _ => cases hs₂
            | stopped _ => cases hs₂
            | panicked => cases hs₂
            | crashed => cases hs₂
        · exact h.begun k hk s₂ (by simpa [Function.update_of_ne hki] using hs₂)
      · intro k hk s₂ got₂ hs₂
        by_cases hki : k = i
        · subst hki
          rw [h1] at hs₂
          exact h5 s₂ got₂ (by simpa using hs₂)
        · exact h.now k hk s₂ got₂ (by simpa [Function.update_of_ne hki] using hs₂)
    by_cases hpk : T.packable (P.send s) = true
    swap
    · refine hpanic ?_
      have : (overWire P T panics).next s got = .panic := by
        unfold overWire
        dsimp only
        rw [if_neg hpk]
      unfold Machine.advanced
      rw [this]
    by_cases hpan : panics.next s got' = true
    · refine hpanic ?_
      have : (overWire P T panics).next s got = .panic := by
        unfold overWire
        dsimp only
        rw [if_pos hpk, hall]
        exact if_pos hpan
      unfold Machine.advanced
      rw [this]
    have hnext := overWire_next (panics := panics) hpk hgot hpan
    cases hn : P.next s got' with
    | panic =>
      rw [hn] at hnext
      exact hgo .panicked _ (by unfold Machine.advanced; rw [hnext]; rfl) (by unfold Machine.advanced; rw [hn]) .panicked rfl (by intro _ _ h; cases h)
    | err a =>
      rw [hn] at hnext
      exact hgo (.stopped a.onWire) _ (by unfold Machine.advanced; rw [hnext]; rfl) (by unfold Machine.advanced; rw [hn]) (onWire_status (s := s)) rfl (by intro _ _ h; cases h)
    | ok x =>
      rw [hn] at hnext
      cases x with
      | inr r =>
        exact hgo (.finished r) _ (by unfold Machine.advanced; rw [hnext]; rfl) (by unfold Machine.advanced; rw [hn]) .finished rfl (by intro _ _ h; cases h)
      | inl s' =>
        have hnext : (overWire P T panics).next s got = if T.packable (P.send s') then .ok (.inl s') else .panic := hnext
        by_cases hpk' : T.packable (P.send s') = true
        · rw [if_pos hpk'] at hnext
          refine hgo (.running s' []) _ (by unfold Machine.advanced; rw [hnext]) (by unfold Machine.advanced; rw [hn]) (.running .nil) rfl ?_
          intro s₂ got₂ h2
          cases h2
          refine hF.next s got' s' (h.now i hi s got hst) (fun a ha => ?_) hn
          obtain ⟨_, _, _, h3⟩ := hgot.of_mem ha
          exact hF.read _ _ _ h3
        · rw [if_neg hpk'] at hnext
          exact hpanic (by unfold Machine.advanced; rw [hnext])
  | crash i s got hi hst =>
    have hm := h.course.status i
    rw [hst] at hm
    generalize hst' : n'.status i = st' at hm
    cases hm with
    | running hgot =>
    have hne : n.status i ≠ .panicked := by rw [hst]; simp
    exact ⟨_, h.reach.crash hi hst', sameCourse_update h.course hne .crashed, h.begun, fun k hk s₂ got₂ hs₂ => by
      by_cases hki : k = i
      · subst hki; simp at hs₂
      · exact h.now k hk s₂ got₂ (by simpa [Function.update_of_ne hki] using hs₂)⟩

/-- Executions over serialized messages refine executions over messages. -/
theorem overWire_refines (hF : Faithful P T ok inv) (hinit : ∀ i ∈ honest, inv (init i)) {n : Net I (Packet I) S (WireErr E) R}
    (h : (overWire P T panics).Reachable honest init n) : ∃ n', P.ReachableWith honest (fun _ _ m => ok m) init n' ∧ SameCourse T P.round honest n n' := by
  have : ∃ n', Sim P T honest ok inv init n n' := by
    induction h with
    | refl => exact ⟨_, sim_start hinit⟩
    | tail _ hs ih =>
      obtain ⟨n', hn'⟩ := ih
      exact sim_step hF hn' hs
  obtain ⟨n', h⟩ := this
  exact ⟨n', h.reach, h.course⟩

/-- If all parties are honest, what works with messages works with serialized ones, as long as they can be serialized and hashing does not panic. -/
theorem overWire_ideal_quiet {parties : Finset I} {K : Nat} {ideal : Nat → I → S} {res : I → R} (hI : P.Ideal parties init K ideal res)
    (htrip : ∀ k i, 1 ≤ k → k ≤ K → i ∈ parties → ∀ a ∈ P.send (ideal k i), ∃ d, T.pack a.2 = .ok d ∧ T.unpack k d = some a.2)
    (hrecv : ∀ k i, 1 ≤ k → k ≤ K → i ∈ parties → ∀ j ∈ P.expected (ideal k i), ∀ m, (i, m) ∈ P.send (ideal k j) → panics.recv (ideal k i) j m = false)
    (hquiet : ∀ k i, 1 ≤ k → k ≤ K → i ∈ parties → ∀ got, (∀ b ∈ got, b.1 ∈ P.expected (ideal k i)) → (∀ b ∈ got, (i, b.2) ∈ P.send (ideal k b.1)) → panics.next (ideal k i) got = false) : (overWire P T panics).Ideal parties init K ideal res := by
  have hreads : ∀ k i, 1 ≤ k → k ≤ K → i ∈ parties → ∀ got : List (I × Packet I), (∀ a ∈ got, a.1 ∈ P.expected (ideal k i)) → (∀ a ∈ got, (i, a.2) ∈ (overWire P T panics).send (ideal k a.1)) →
      ∃ got', Reads T k got got' ∧ ∀ b ∈ got', (i, b.2) ∈ P.send (ideal k b.1) := by
    intro k i h1 h2 hi got hexp hsend
    induction got with
    | nil => exact ⟨[], .nil, fun b hb => by cases hb⟩
    | cons a l ih =>
      obtain ⟨l', hl, hl'⟩ := ih (fun a ha => hexp a (List.mem_cons_of_mem _ ha)) fun a ha => hsend a (List.mem_cons_of_mem _ ha)
      obtain ⟨m, hm, hp⟩ := mem_packAll.1 (hsend a List.mem_cons_self)
      obtain ⟨d, hd, hu⟩ := htrip k a.1 h1 h2 (hI.expected k i h1 h2 hi (hexp a List.mem_cons_self)) _ hm
      rw [show T.pack m = .ok a.2 from hp] at hd
      cases Out.ok.inj hd
      refine ⟨(a.1, m) :: l', .cons ⟨rfl, hu⟩ hl, fun b hb => ?_⟩
      rcases List.mem_cons.1 hb with rfl | hb
      · exact hm
      · exact hl' b hb
  have hpack : ∀ k i, 1 ≤ k → k ≤ K → i ∈ parties → T.packable (P.send (ideal k i)) = true := fun k i h1 h2 hi => List.all_eq_true.2 fun a ha => by
    obtain ⟨d, hd, _⟩ := htrip k i h1 h2 hi a ha
    rw [hd]; rfl
  have hnext : ∀ k i, 1 ≤ k → k ≤ K → i ∈ parties → ∀ got : List (I × Packet I), (overWire P T panics).Complete (ideal k i) got →
      (∀ a ∈ got, (i, a.2) ∈ (overWire P T panics).send (ideal k a.1)) → ∃ got', P.Complete (ideal k i) got' ∧ (∀ b ∈ got', (i, b.2) ∈ P.send (ideal k b.1)) ∧
      (overWire P T panics).next (ideal k i) got = (P.next (ideal k i) got').onWire.bind fun
        | .inl s' => if T.packable (P.send s') then .ok (.inl s') else .panic
        | .inr r => .ok (.inr r) := by
    intro k i h1 h2 hi got hc hsend
    have hexp : ∀ a ∈ got, a.1 ∈ P.expected (ideal k i) := fun a ha => by
      have : (got.map Prod.fst).toFinset = P.expected (ideal k i) := hc.2.1
      rw [← this, List.mem_toFinset]
      exact List.mem_map_of_mem ha
    obtain ⟨got', hr, hs⟩ := hreads k i h1 h2 hi got hexp hsend
    have hexp' : ∀ b ∈ got', b.1 ∈ P.expected (ideal k i) := fun b hb => by
      obtain ⟨a, ha, hab, _⟩ := hr.of_mem hb
      rw [← hab]; exact hexp a ha
    refine ⟨got', ⟨by rw [hr.fst]; exact hc.1, by rw [hr.fst]; exact hc.2.1, fun b hb => hI.accepts k i h1 h2 hi b.1 (hexp' b hb) b.2 (hs b hb)⟩, hs,
      overWire_next (hpack k i h1 h2 hi) (by rw [hI.round k i h1 h2 hi]; exact hr) fun hp => ?_⟩
    rw [hquiet k i h1 h2 hi got' hexp' hs] at hp
    cases hp
  refine ⟨hI.rounds, hI.first, hI.round, hI.expected, fun k i h1 h2 hi j hj => ?_, fun k i h1 h2 hi j hj d hd => ?_, fun k i h1 h2 hi got hc hs => ?_, fun i hi got hc hs => ?_⟩
  · obtain ⟨m, hm⟩ := hI.sends k i h1 h2 hi j hj
    obtain ⟨d, hd, _⟩ := htrip k j h1 h2 (hI.expected k i h1 h2 hi hj) _ hm
    exact ⟨d, mem_packAll.2 ⟨m, hm, hd⟩⟩
  · obtain ⟨m, hm, hp⟩ := mem_packAll.1 hd
    have hj' := hI.expected k i h1 h2 hi hj
    obtain ⟨d', hd', hu⟩ := htrip k j h1 h2 hj' _ hm
    rw [show T.pack m = .ok d from hp] at hd'
    cases Out.ok.inj hd'
    show (if T.packable (P.send (ideal k i)) then (match T.unpack (P.round (ideal k i)) d with | none => _ | some m => _) else _) = _
    rw [if_pos (hpack k i h1 h2 hi), hI.round k i h1 h2 hi, hu]
    show (if panics.recv (ideal k i) j m then _ else _) = _
    rw [hrecv k i h1 h2 hi j hj m hm, hI.accepts k i h1 h2 hi j hj m hm]
    rfl
  · obtain ⟨got', hc', hs', h⟩ := hnext k i h1 h2.le hi got hc hs
    rw [h, hI.advances k i h1 h2 hi got' hc' hs']
    show (if T.packable (P.send (ideal (k + 1) i)) then _ else _) = _
    exact if_pos (hpack (k + 1) i (by omega) (by omega) hi)
  · obtain ⟨got', hc', hs', h⟩ := hnext K i hI.rounds le_rfl hi got hc hs
    rw [h, hI.finishes i hi got' hc' hs']
    rfl

/-- If all parties are honest, what works with messages works with serialized ones, as long as they can be serialized and hashing panics only for messages that nobody sends. -/
theorem overWire_ideal {parties : Finset I} {K : Nat} {ideal : Nat → I → S} {res : I → R} {bad : M → Prop} (hI : P.Ideal parties init K ideal res) (hpan : PanicsOnly P panics bad)
    (htrip : ∀ k i, 1 ≤ k → k ≤ K → i ∈ parties → ∀ a ∈ P.send (ideal k i), ∃ d, T.pack a.2 = .ok d ∧ T.unpack k d = some a.2)
    (hbad : ∀ k i, 1 ≤ k → k ≤ K → i ∈ parties → ∀ a ∈ P.send (ideal k i), ¬ bad a.2) : (overWire P T panics).Ideal parties init K ideal res :=
  overWire_ideal_quiet hI htrip
    (fun k i h1 h2 hi j hj m hm => Bool.eq_false_iff.2 fun h => hbad k j h1 h2 (hI.expected k i h1 h2 hi hj) _ hm (hpan.recv _ _ _ h))
    fun k i h1 h2 hi got hexp hs => Bool.eq_false_iff.2 fun hp => by
      rcases hpan.next _ _ hp with ⟨b, hb, h⟩ | ⟨b, hb, h⟩
      · exact hbad k b.1 h1 h2 (hI.expected k i h1 h2 hi (hexp b hb)) _ (hs b hb) h
      · exact hbad k i h1 h2 hi b hb h

end Synedrion
