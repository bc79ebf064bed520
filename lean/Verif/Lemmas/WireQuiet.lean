import Verif.Lemmas.WireNet
import Verif.Lemmas.WireFinish
import Verif.Model.HashPoints
import Verif.Spec.WirePanics
import Verif.Lemmas.NetworkWith

/-!
# Lemmas: executions over serialized messages in which nothing is an identity point
-/

set_option linter.unusedSectionVars false

namespace Synedrion

open Spec

variable {I M S E R : Type} [LinearOrder I] {P : Spec.Machine I M S E R} {T : Transport I M} {panics : Panics I M S} {honest : Set I} {init : I → S}

/-- States in which serialization causes no panics as long as all messages are good -/
structure Quiet (P : Spec.Machine I M S E R) (T : Transport I M) (panics : Panics I M S) (good : M → Prop) (clean extra : S → Prop) : Prop where
  pack : ∀ s, clean s → T.packable (P.send s) = true
  send : ∀ s, clean s → ∀ a ∈ P.send s, good a.2
  recv : ∀ s, clean s → ∀ j m, good m → panics.recv s j m = false
  next : ∀ s, clean s → ∀ got, (∀ a ∈ got, good a.2) → panics.next s got = false
  step : ∀ s got s', clean s → (∀ a ∈ got, good a.2) → P.next s got = .ok (.inl s') → extra s' → clean s'

/-- The invariant of the simulation -/
structure QuietSim (P : Spec.Machine I M S E R) (T : Transport I M) (honest : Set I) (allowed : I → I → M → Prop) (good : M → Prop) (clean : S → Prop) (init : I → S)
    (n : Net I (Packet I) S (WireErr E) R) (n' : Net I M S E R) : Prop where
  reach : P.ReachableWith honest (fun i j m => j ∉ honest → allowed i j m) init n'
  status : ∀ i, StatusMatches T P.round honest (n.status i) (n'.status i)
  begun : n'.begun = n.begun
  clean_begun : ∀ i ∈ honest, ∀ s ∈ n.begun i, clean s
  clean_now : ∀ i ∈ honest, ∀ s got, n'.status i = .running s got → clean s ∧ ∀ a ∈ got, good a.2
  panicked : ∀ i, n.status i = .panicked → n'.status i = .panicked
  past : ∀ i, List.Forall₂ (fun x y => x.1 = y.1 ∧ Reads T (P.round x.1) x.2 y.2) (n.past i) (n'.past i)

variable {ok : M → Prop} {inv : S → Prop} {allowed : I → I → M → Prop} {good : M → Prop} {clean extra : S → Prop}

/-- An execution over serialized messages in which the parties that are not honest send nothing that is read as anything but an allowed message refines one over messages, with the same panics. -/
theorem overWire_quiet (htrip : ∀ s, clean s → ∀ a ∈ P.send s, ∀ d, T.pack a.2 = .ok d → T.unpack (P.round s) d = some a.2) (hQ : Quiet P T panics good clean extra)
    (hinit : ∀ i ∈ honest, clean (init i)) (hgood : ∀ i ∈ honest, ∀ j m, allowed i j m → good m) {n : Net I (Packet I) S (WireErr E) R}
    (h : (overWire P T panics).ReachableWith honest (fun i j d => j ∉ honest → ∀ r m, T.unpack r d = some m → allowed i j m) init n) (hex : ∀ i ∈ honest, ∀ s, P.ComesTo T init n i s → extra s) :
    ∃ n', QuietSim P T honest allowed good clean init n n' := by
  induction h with
  | start =>
    exact ⟨P.start init, .start, fun _ => .running .nil, rfl, fun i hi s hs => by cases List.mem_singleton.1 hs; exact hinit i hi,
      fun i hi s got hs => by cases hs; exact ⟨hinit i hi, fun _ h => by cases h⟩, (fun i h => by cases h), fun _ => .nil⟩
  | @receive n i s got j d _ hi hst hexp hnew hsent hal ih =>
    obtain ⟨n', h⟩ := ih hex
    have hm := h.status i
    rw [hst] at hm
    generalize hst' : n'.status i = st' at hm
    cases hm with
    | running hgot =>
    rename_i got'
    obtain ⟨hcl, hgd⟩ := h.clean_now i hi s got' hst'
    have upd : ∀ {st : Status I (Packet I) S (WireErr E) R} {st' : Status I M S E R}, P.ReachableWith honest (fun i j m => j ∉ honest → allowed i j m) init { n' with status := Function.update n'.status i st' } →
        StatusMatches T P.round honest st st' → (∀ s got, st' = .running s got → clean s ∧ ∀ a ∈ got, good a.2) → (st = .panicked → st' = .panicked) →
        ∃ m', QuietSim P T honest allowed good clean init { n with status := Function.update n.status i st } m' := fun {st st'} h1 h2 h3 h4 =>
      ⟨_, h1, fun k => by
        by_cases hk : k = i
        · subst hk; simpa using h2
        · simpa [Function.update_of_ne hk] using h.status k, h.begun, h.clean_begun, fun k hk s got hs => by
        by_cases hki : k = i
        · subst hki; exact h3 s got (by simpa using hs)
        · exact h.clean_now k hk s got (by simpa [Function.update_of_ne hki] using hs), fun k hs => by
        by_cases hki : k = i
        · subst hki
          have := h4 (by simpa using hs)
          simpa using this
        · have := h.panicked k (by simpa [Function.update_of_ne hki] using hs)
          simpa [Function.update_of_ne hki] using this, h.past⟩
    unfold Machine.received overWire
    dsimp only
    rw [if_pos (hQ.pack s hcl)]
    cases hd : T.unpack (P.round s) d with
    | none =>
      refine upd (st := .stopped (.fault j .malformed)) (h.reach.crash hi hst') (.malformed fun hj => ?_) (fun _ _ h => by cases h) fun h => by cases h
      obtain ⟨s', hs', hr, hmem⟩ := hsent hj
      obtain ⟨x, hx, hp⟩ := mem_packAll.1 hmem
      have := htrip s' (h.clean_begun j hj s' hs') _ hx d hp
      rw [show P.round s' = P.round s from hr, hd] at this
      cases this
    | some x =>
      dsimp only
      have hsx : j ∈ honest → P.Sent n' j i (P.round s) x := fun hj => by
        obtain ⟨s', hs', hr, hmem⟩ := hsent hj
        obtain ⟨y, hy, hp⟩ := mem_packAll.1 hmem
        have := htrip s' (h.clean_begun j hj s' hs') _ hy d hp
        rw [show P.round s' = P.round s from hr, hd] at this
        cases this
        exact ⟨s', by rw [h.begun]; exact hs', hr, hy⟩
      have hgx : good x := by
        by_cases hj : j ∈ honest
        · obtain ⟨s', hs', -, hy⟩ := hsx hj
          exact hQ.send s' (h.clean_begun j hj s' (by rw [← h.begun]; exact hs')) _ hy
        · exact hgood i hi j x (hal hj _ x hd)
      rw [if_neg (by rw [hQ.recv s hcl j x hgx]; simp)]
      have hr := h.reach.receive (j := j) (m := x) hi hst' hexp (by rw [hgot.fst]; exact hnew) hsx fun hj => hal hj _ x hd
      unfold Machine.received at hr
      cases hrec : P.recv s j x with
      | ok u =>
        rw [hrec] at hr
        refine upd (st := .running s (got ++ [(j, d)])) hr (.running (hgot.append hd)) (fun s₂ got₂ h2 => ?_) fun h => by cases h
        cases h2
        refine ⟨hcl, fun a ha => ?_⟩
        rcases List.mem_append.1 ha with ha | ha
        · exact hgd a ha
        · cases List.mem_singleton.1 ha
          exact hgx
      | err a =>
        rw [hrec] at hr
        exact upd (st := .stopped a.onWire) hr (onWire_status (s := s)) (fun _ _ h => by cases h) fun h => by cases h
      | panic =>
        rw [hrec] at hr
        exact upd (st := .panicked) hr .panicked (fun _ _ h => by cases h) fun _ => rfl
  | @advance n i s got _ hi hst hexp ih =>
    obtain ⟨n', h⟩ := ih fun k hk s₂ ⟨l, got, h1, h2, h3⟩ => hex k hk s₂ ⟨l, got, h1.trans (by
      by_cases hki : k = i
      · subst hki; simp
      · simp [Function.update_of_ne hki]), h2, h3⟩
    have hm := h.status i
    rw [hst] at hm
    generalize hst' : n'.status i = st' at hm
    cases hm with
    | running hgot =>
    rename_i got'
    obtain ⟨hcl, hgd⟩ := h.clean_now i hi s got' hst'
    have hnext := overWire_next (panics := panics) (P := P) (hQ.pack s hcl) hgot (by rw [hQ.next s hcl got' hgd]; simp)
    have hgo : ∀ st st', (overWire P T panics).advanced s got = st → P.advanced s got' = st' → StatusMatches T P.round honest st st' →
        (Machine.fresh st' = Machine.fresh st) → (∀ s₂ got₂, st = .running s₂ got₂ → clean s₂) → (∀ s₂ got₂, st' = .running s₂ got₂ → clean s₂ ∧ got₂ = []) → (st = .panicked → st' = .panicked) →
        ∃ m', QuietSim P T honest allowed good clean init ⟨Function.update n.status i ((overWire P T panics).advanced s got),
        Function.update n.begun i (n.begun i ++ Machine.fresh ((overWire P T panics).advanced s got)), Function.update n.past i (n.past i ++ [(s, got)])⟩ m' := fun st st' h1 h2 h3 h4 h5 h6 h7 => by
      refine ⟨_, h.reach.advance hi hst' (by rw [hgot.fst]; exact hexp), fun k => ?_, ?_, fun k hk s₂ hs₂ => ?_, fun k hk s₂ got₂ hs₂ => ?_, fun k hs => ?_, fun k => ?_⟩
      · rw [h1, h2]
        by_cases hk : k = i
        · subst hk; simpa using h3
        · simpa [Function.update_of_ne hk] using h.status k
      · rw [h1, h2]
        show Function.update n'.begun i (n'.begun i ++ _) = Function.update n.begun i (n.begun i ++ _)
        rw [h.begun, h4]
      · by_cases hki : k = i
        · subst hki
          rw [h1] at hs₂
          have hs₂ : s₂ ∈ n.begun k ++ Machine.fresh st := by simpa using hs₂
          rcases List.mem_append.1 hs₂ with hs₂ | hs₂
          · exact h.clean_begun k hk s₂ hs₂
          · cases st with
            | running s₃ got₃ =>
              cases List.mem_singleton.1 hs₂
              exact h5 _ _ rfl
            | finished _ => cases hs₂
            | stopped _ => cases hs₂
            | panicked => cases hs₂
            | crashed => cases hs₂
        · exact h.clean_begun k hk s₂ (by simpa [Function.update_of_ne hki] using hs₂)
      · rw [h2] at hs₂
        by_cases hki : k = i
        · subst hki
          obtain ⟨h8, rfl⟩ := h6 s₂ got₂ (by simpa using hs₂)
          exact ⟨h8, fun _ h => by cases h⟩
        · exact h.clean_now k hk s₂ got₂ (by simpa [Function.update_of_ne hki] using hs₂)
      · rw [h1] at hs
        rw [h2]
        by_cases hki : k = i
        · subst hki
          have := h7 (by simpa using hs)
          simpa using this
        · have := h.panicked k (by simpa [Function.update_of_ne hki] using hs)
          simpa [Function.update_of_ne hki] using this
      · by_cases hki : k = i
        · subst hki
          show List.Forall₂ _ (Function.update n.past k _ k) (Function.update n'.past k _ k)
          rw [Function.update_self, Function.update_self]
          exact List.rel_append (h.past k) (.cons ⟨rfl, hgot⟩ .nil)
        · simpa [Function.update_of_ne hki] using h.past k
    cases hn : P.next s got' with
    | panic =>
      rw [hn] at hnext
      exact hgo .panicked .panicked (by unfold Machine.advanced; rw [hnext]; rfl) (by unfold Machine.advanced; rw [hn]) .panicked rfl (fun _ _ h => by cases h) (fun _ _ h => by cases h) fun _ => rfl
    | err a =>
      rw [hn] at hnext
      exact hgo (.stopped a.onWire) (.stopped a) (by unfold Machine.advanced; rw [hnext]; rfl) (by unfold Machine.advanced; rw [hn]) (onWire_status (s := s)) rfl (fun _ _ h => by cases h)
        (fun _ _ h => by cases h) fun h => by cases h
    | ok x =>
      rw [hn] at hnext
      cases x with
      | inr r =>
        exact hgo (.finished r) (.finished r) (by unfold Machine.advanced; rw [hnext]; rfl) (by unfold Machine.advanced; rw [hn]) .finished rfl (fun _ _ h => by cases h)
          (fun _ _ h => by cases h) fun h => by cases h
      | inl s' =>
        have hto : P.ComesTo T init ⟨Function.update n.status i ((overWire P T panics).advanced s got), Function.update n.begun i (n.begun i ++ Machine.fresh ((overWire P T panics).advanced s got)),
            Function.update n.past i (n.past i ++ [(s, got)])⟩ i s' := by
          refine ⟨n.past i ++ [(s, got)], ((n'.past i).map Prod.snd) ++ [got'], by simp, ?_, ?_⟩
          · refine List.rel_append ?_ (.cons hgot .nil)
            have := h.past i
            generalize n'.past i = past', n.past i = past at this ⊢
            induction this with
            | nil => exact .nil
            | cons h1 _ ih => exact .cons h1.2 ih
          · have hrep := (h.reach.reachable.inv i).status
            rw [hst'] at hrep
            rw [Machine.replay_snoc (hrep.1 : P.replay (init i) ((n'.past i).map Prod.snd) = .ok (.inl s))]
            exact hn
        have hcl' : clean s' := hQ.step s got' s' hcl hgd hn (hex i hi s' hto)
        have hnext : (overWire P T panics).next s got = if T.packable (P.send s') then .ok (.inl s') else .panic := hnext
        rw [if_pos (hQ.pack s' hcl')] at hnext
        exact hgo (.running s' []) (.running s' []) (by unfold Machine.advanced; rw [hnext]) (by unfold Machine.advanced; rw [hn]) (.running .nil) rfl (fun _ _ h => by cases h; exact hcl')
          (fun _ _ h => by cases h; exact ⟨hcl', rfl⟩) fun h => by cases h
  | @crash n i s got _ hi hst ih =>
    obtain ⟨n', h⟩ := ih hex
    have hm := h.status i
    rw [hst] at hm
    generalize hst' : n'.status i = st' at hm
    cases hm with
    | running hgot =>
    refine ⟨_, h.reach.crash hi hst', fun k => ?_, h.begun, h.clean_begun, fun k hk s got hs => ?_, fun k hs => ?_, h.past⟩
    · by_cases hk : k = i
      · subst hk; simpa using .crashed
      · simpa [Function.update_of_ne hk] using h.status k
    · by_cases hki : k = i
      · subst hki; simp at hs
      · exact h.clean_now k hk s got (by simpa [Function.update_of_ne hki] using hs)
    · by_cases hki : k = i
      · subst hki; simp at hs
      · have := h.panicked k (by simpa [Function.update_of_ne hki] using hs)
        simpa [Function.update_of_ne hki] using this

/-- States in which nothing is an identity point -/
theorem Quiet.of (hF : Faithful P T ok inv) (hsend : ∀ s, inv s → ∀ a ∈ P.send s, ok a.2) (hpack : ∀ m, ok m → ((∃ d, T.pack m = .ok d) ↔ good m))
    (hcs : ∀ s, clean s → ∀ a ∈ P.send s, good a.2) (hcn : ∀ s got s', clean s → (∀ a ∈ got, good a.2) → P.next s got = .ok (.inl s') → extra s' → clean s')
    (hrecv : ∀ s, clean s → ∀ j m, good m → panics.recv s j m = false) (hnext : ∀ s, clean s → ∀ got, panics.next s got = false) :
    Quiet P T panics (fun m => ok m ∧ good m) (fun s => inv s ∧ clean s) extra where
  pack s hs := List.all_eq_true.2 fun a ha => by
    obtain ⟨d, hd⟩ := (hpack a.2 (hsend s hs.1 a ha)).2 (hcs s hs.2 a ha)
    rw [hd]; rfl
  send s hs a ha := ⟨hsend s hs.1 a ha, hcs s hs.2 a ha⟩
  recv s hs j m hm := hrecv s hs.2 j m hm.2
  next s hs got _ := hnext s hs.2 got
  step s got s' hs hgot h he := ⟨hF.next s got s' hs.1 (fun a ha => (hgot a ha).1) h, hcn s got s' hs.2 (fun a ha => (hgot a ha).2) h he⟩

theorem hashPanics_recv {G : Type} [Zero G] [DecidableEq G] {own : S → List G} {read : S → I → M → List G} {s : S} {j : I} {m : M} (h1 : 0 ∉ own s) (h2 : 0 ∉ read s j m) :
    (hashPanics own read).recv s j m = false := decide_eq_false (by simp [h1, h2])

theorem hashPanics_next {G : Type} [Zero G] [DecidableEq G] {own : S → List G} {read : S → I → M → List G} {s : S} {got : List (I × M)} (h1 : 0 ∉ own s) :
    (hashPanics own read).next s got = false := decide_eq_false h1

theorem Spec.Machine.ReachableWith.mono {M S E R : Type} {P : Spec.Machine I M S E R} {init : I → S} {A B : I → I → M → Prop} (hAB : ∀ i j m, A i j m → B i j m) {n : Net I M S E R}
    (h : P.ReachableWith honest A init n) : P.ReachableWith honest B init n := by
  induction h with
  | start => exact .start
  | receive _ hi hst hexp hnew hsent hal ih => exact ih.receive hi hst hexp hnew hsent (hAB _ _ _ hal)
  | advance _ hi hst hexp ih => exact ih.advance hi hst hexp
  | crash _ hi hst ih => exact ih.crash hi hst

/-- The form in which it is used -/
theorem overWire_quiet' (hF : Faithful P T ok inv) (hQ : Quiet P T panics (fun m => ok m ∧ good m) (fun s => inv s ∧ clean s) extra)
    (hinit : ∀ i ∈ honest, inv (init i) ∧ clean (init i)) (hgood : ∀ i j m, allowed i j m → good m) {n : Net I (Packet I) S (WireErr E) R}
    (h : (overWire P T panics).ReachableWith honest (fun i j d => j ∉ honest → ∀ r m, T.unpack r d = some m → allowed i j m) init n)
    (hex : ∀ i ∈ honest, ∀ s, P.ComesTo T init n i s → extra s) :
    ∃ n', QuietSim P T honest (fun i j m => ok m ∧ allowed i j m) (fun m => ok m ∧ good m) (fun s => inv s ∧ clean s) init n n' :=
  overWire_quiet (fun s hs => hF.trip s hs.1) hQ hinit (fun i _ j m hm => ⟨hm.1, hgood i j m hm.2⟩) (h.mono fun _ _ d hd hj r m hm => ⟨hF.read r d m hm, hd hj r m hm⟩) hex

/-- All messages of the generation of auxiliary info can be serialized. -/
theorem Spec.FormatValid.auxGen_packs {q : Nat} {G V : Type} [AddCommGroup G] {W : WireFormat G V} (hW : FormatValid W q) (m : AuxGen.Message V) (hm : auxGenMessageFits W.P m) :
    ∃ d : Packet I, W.auxGenTransport.pack m = .ok d := by
  cases m with
  | one v => exact ⟨_, rfl⟩
  | two m =>
    obtain ⟨e, he, -⟩ := (hW.auxGen_lawful (ε := Unit) (I := I) .echo 2).ok m.echo (hm 2 .echo _ rfl) List.not_mem_nil
    obtain ⟨y, hy, -⟩ := (hW.auxGen_lawful (ε := Unit) (I := I) .normal 2).ok ⟨m.pk, m.psi, m.u⟩ (hm 2 .normal _ rfl) List.not_mem_nil
    refine ⟨⟨some e, some y, none⟩, ?_⟩
    show Out.bind ((W.auxGen .echo 2).enc m.echo) (fun e => Out.bind ((W.auxGen .normal 2).enc ⟨m.pk, m.psi, m.u⟩) fun n => .ok ⟨some e, some n, none⟩) =
      (.ok ⟨some e, some y, none⟩ : Out Unit (Packet I))
    rw [he, Out.bind_ok, hy, Out.bind_ok]
  | three m =>
    obtain ⟨e, he, -⟩ := (hW.auxGen_lawful (ε := Unit) (I := I) .normal 3).ok m.psiPrime (hm 3 .normal _ rfl) List.not_mem_nil
    obtain ⟨y, hy, -⟩ := (hW.auxGen_lawful (ε := Unit) (I := I) .direct 3).ok m.psi (hm 3 .direct _ rfl) List.not_mem_nil
    refine ⟨⟨none, some e, some y⟩, ?_⟩
    show Out.bind ((W.auxGen .normal 3).enc m.psiPrime) (fun e => Out.bind ((W.auxGen .direct 3).enc m.psi) fun n => .ok ⟨none, some e, some n⟩) =
      (.ok ⟨none, some e, some y⟩ : Out Unit (Packet I))
    rw [he, Out.bind_ok, hy, Out.bind_ok]

namespace KeyResharing

variable {q : Nat} {G V : Type} [Fact q.Prime] [LinearOrder (ZMod q)] [AddCommGroup G] [Module (ZMod q) G] [DecidableEq G] {W : WireFormat G V}

theorem quiet (hW : FormatValid W q) (g : G) : Quiet (machine (I := I) g) W.resharingTransport ⟨fun _ _ _ => false, fun _ _ => false⟩ (fun _ => True)
    (fun s => ∀ a ∈ (machine (F := ZMod q) g).send s, resharingNoIdentity a.2) (fun _ => True) where
  pack s hs := List.all_eq_true.2 fun a ha => by
    obtain ⟨d, hd⟩ := (hW.resharing_packs (I := I) a.2).2 (hs a ha)
    rw [hd]; rfl
  send _ _ _ _ := trivial
  recv _ _ _ _ _ := rfl
  next _ _ _ _ := rfl
  step s got s' _ _ h _ := by
    obtain ⟨_, _, h⟩ := Out.bind_eq_ok.1 h
    obtain ⟨_, _, h⟩ := Out.bind_eq_ok.1 h
    cases Out.ok.inj h

/-- With non-zero draws, an honest old holder whose share is not zero sends no identity point. -/
theorem begin_clean {g : G} (hg : g ≠ 0) {inp : Inputs I (ZMod q) G} {i : I} {draw : Nat → ZMod q} {r : Round1 I (ZMod q) G} {s : State I (ZMod q) G} (hr : start g inp i draw = .ok r)
    (h0 : begin r = .ok s) (hdraw : ∀ ks, inp.oldHolder = some ks → ks.secretShare ≠ 0 ∧ ∀ k, draw k ≠ 0) : ∀ a ∈ (machine g).send s, resharingNoIdentity a.2 := by
  obtain ⟨out, ho, h0⟩ := Out.bind_eq_ok.1 h0
  rw [← Out.ok.inj h0]
  intro a ha
  have hmsg := sendAll_mem ho (show a ∈ out from ha)
  unfold start at hr
  split at hr
  · cases hr
  obtain ⟨oh, hoh, hr⟩ := Out.bind_eq_ok.1 hr
  cases hks : inp.oldHolder with
  | none =>
    rw [hks] at hoh
    cases Out.ok.inj hoh
    rw [← Out.ok.inj hr] at hmsg
    cases Out.ok.inj hmsg
  | some ks =>
    rw [hks] at hoh
    obtain ⟨x, _, hoh⟩ := Out.bind_eq_ok.1 hoh
    rw [← Out.ok.inj hoh] at hr
    rw [← Out.ok.inj hr] at hmsg
    obtain ⟨_, _, hmsg⟩ := Out.bind_eq_ok.1 hmsg
    obtain ⟨_, _, hmsg⟩ := Out.bind_eq_ok.1 hmsg
    rw [← Option.some.inj (Out.ok.inj hmsg)]
    intro h0
    obtain ⟨c, hc, hc0⟩ := List.mem_map.1 h0
    rcases List.mem_cons.1 hc with rfl | hc
    · exact smul_ne_zero (hdraw ks hks).1 hg hc0
    · obtain ⟨k, _, rfl⟩ := List.mem_map.1 hc
      exact smul_ne_zero ((hdraw ks hks).2 k) hg hc0

end KeyResharing

end Synedrion
