import Verif.Lemmas.WireTransport

/-!
# Lemmas: what executions over serialized messages take over from executions over messages
-/

set_option linter.unusedSectionVars false

namespace Synedrion

open Spec

section Course

variable {I M S E R : Type} [LinearOrder I] {P : Spec.Machine I M S E R} {T : Transport I M} {panics : Panics I M S} {honest : Set I} {init : I → S}
  {n : Net I (Packet I) S (WireErr E) R} {n' : Net I M S E R}

theorem SameCourse.finished (h : SameCourse T P.round honest n n') {i : I} {r : R} (hi : n.status i = .finished r) : n'.status i = .finished r := by
  have hm := h.status i
  rw [hi] at hm
  generalize n'.status i = st at hm
  cases hm
  rfl

theorem SameCourse.fault (h : SameCourse T P.round honest n n') {i j : I} {e : WireErr E} (hi : n.status i = .stopped (.fault j e)) :
    (∃ e', e = .protocol e' ∧ n'.status i = .stopped (.fault j e')) ∨ (e = .malformed ∧ j ∉ honest) := by
  have hm := h.status i
  rw [hi] at hm
  generalize n'.status i = st at hm ⊢
  cases hm with
  | fault => exact .inl ⟨_, rfl, rfl⟩
  | malformed hj => exact .inr ⟨rfl, hj⟩

theorem mem_of_forall₂ {α β : Type} {p : α → β → Prop} {l : List α} {l' : List β} (h : List.Forall₂ p l l') {b : β} (hb : b ∈ l') : ∃ a ∈ l, p a b := by
  induction h with
  | nil => cases hb
  | cons h _ ih =>
    rcases List.mem_cons.1 hb with rfl | hb
    · exact ⟨_, List.mem_cons_self, h⟩
    · obtain ⟨a, ha, h⟩ := ih hb
      exact ⟨a, List.mem_cons_of_mem _ ha, h⟩

/-- If the serialized broadcasts agree, so do the broadcasts. -/
theorem SameCourse.echoAgree {X : Type} {echo : M → X} {k : Nat} (h : SameCourse T P.round honest n n')
    (hdet : ∀ d d' m m', T.unpack k d = some m → T.unpack k d' = some m' → d.echo = d'.echo → echo m = echo m')
    (he : (overWire P T panics).EchoAgree honest k Packet.echo n) : P.EchoAgree honest k echo n' := by
  have hmem : ∀ i, ∀ x ∈ n'.past i, ∃ y ∈ n.past i, y.1 = x.1 ∧ Reads T (P.round y.1) y.2 x.2 := fun i x hx => by
    obtain ⟨_, h1, -⟩ := h.past i
    obtain ⟨y, hy, h2⟩ := mem_of_forall₂ h1 hx
    exact ⟨y, List.mem_of_mem_take hy, h2⟩
  intro i hi i' hi' x hx x' hx' hk hk' j m m' hm hm'
  obtain ⟨y, hy, hy1, hr⟩ := hmem i x hx
  obtain ⟨y', hy', hy1', hr'⟩ := hmem i' x' hx'
  rw [← hy1] at hk
  rw [← hy1'] at hk'
  rw [hk] at hr
  rw [hk'] at hr'
  obtain ⟨⟨j₁, d⟩, hd, h1, hu⟩ := hr.of_mem hm
  obtain ⟨⟨j₂, d'⟩, hd', h2, hu'⟩ := hr'.of_mem hm'
  cases h1
  cases h2
  exact hdet d d' m m' hu hu' (he i hi i' hi' y hy y' hy' hk hk' _ _ _ hd hd')

/-- A party that goes on has done so in the protocol, and could serialize what it sends then. -/
theorem overWire_next_eq_ok {s : S} {got : List (I × Packet I)} {x : S ⊕ R} (h : (overWire P T panics).next s got = .ok x) :
    T.packable (P.send s) = true ∧ ∃ got', Reads T (P.round s) got got' ∧ P.next s got' = .ok x ∧ ∀ s', x = .inl s' → T.packable (P.send s') = true := by
  unfold overWire at h
  dsimp only at h
  split at h
  swap
  · cases h
  refine ⟨‹_›, ?_⟩
  split at h
  · cases h
  · next got' hu =>
    split at h
    · cases h
    · obtain ⟨y, hy, h⟩ := Out.bind_eq_ok.1 h
      refine ⟨got', unpackAll_eq_some.1 hu, ?_⟩
      rw [Out.onWire_eq_ok.1 hy]
      cases y with
      | inl s' =>
        dsimp only at h
        split at h
        · next hp =>
          cases Out.ok.inj h
          exact ⟨rfl, fun _ h => by cases h; exact hp⟩
        · cases h
      | inr r =>
        cases Out.ok.inj h
        exact ⟨rfl, fun _ h => by cases h⟩

/-- What a party does given serialized messages it also does given some messages. -/
theorem overWire_replay {s : S} {l : List (List (I × Packet I))} {x : S ⊕ R} (h : (overWire P T panics).replay s l = .ok x) :
    ∃ l', l'.length = l.length ∧ P.replay s l' = .ok x := by
  induction l generalizing s with
  | nil => cases Out.ok.inj h; exact ⟨[], rfl, rfl⟩
  | cons got rest ih =>
    obtain ⟨y, hy, h⟩ := Out.bind_eq_ok.1 h
    obtain ⟨-, got', -, hn, -⟩ := overWire_next_eq_ok hy
    cases y with
    | inl s' =>
      obtain ⟨l', hl, h'⟩ := ih h
      exact ⟨got' :: l', congrArg (· + 1) hl, by unfold Machine.replay; rw [hn]; exact h'⟩
    | inr r =>
      cases rest with
      | nil => cases Out.ok.inj h; exact ⟨[got'], rfl, by unfold Machine.replay; rw [hn]; rfl⟩
      | cons a l => cases h

/-- What holds for the states of an honest execution -/
theorem ideal_inv {parties : Finset I} {K : Nat} {ideal : Nat → I → S} {res : I → R} (hI : P.Ideal parties init K ideal res) {inv : I → S → Prop} {ok : M → Prop}
    (h0 : ∀ i ∈ parties, inv i (init i)) (hsend : ∀ i s, inv i s → ∀ a ∈ P.send s, ok a.2)
    (hnext : ∀ i s got s', inv i s → (∀ a ∈ got, ok a.2) → P.next s got = .ok (.inl s') → inv i s') : ∀ k i, 1 ≤ k → k ≤ K → i ∈ parties → inv i (ideal k i) := by
  intro k
  induction k with
  | zero => intro i h; omega
  | succ k ih =>
    intro i _ hk hi
    rcases Nat.eq_zero_or_pos k with rfl | hk0
    · rw [Nat.zero_add, hI.first i hi]; exact h0 i hi
    · have ih := fun j => ih j hk0 (by omega)
      have hex : ∀ j ∈ bsetIter (P.expected (ideal k i)), ∃ m, (i, m) ∈ P.send (ideal k j) := fun j hj => hI.sends k i hk0 (by omega) hi j (mem_bsetIter.1 hj)
      obtain ⟨got, hfst, hgot⟩ : ∃ got : List (I × M), got.map Prod.fst = bsetIter (P.expected (ideal k i)) ∧ ∀ a ∈ got, (i, a.2) ∈ P.send (ideal k a.1) := by
        generalize bsetIter (P.expected (ideal k i)) = l at hex
        induction l with
        | nil => exact ⟨[], rfl, fun _ h => by cases h⟩
        | cons j l ihl =>
          obtain ⟨got, h1, h2⟩ := ihl fun j hj => hex j (List.mem_cons_of_mem _ hj)
          obtain ⟨m, hm⟩ := hex j List.mem_cons_self
          exact ⟨(j, m) :: got, congrArg (j :: ·) h1, fun a ha => by
            rcases List.mem_cons.1 ha with rfl | ha
            · exact hm
            · exact h2 a ha⟩
      have hexp : ∀ a ∈ got, a.1 ∈ P.expected (ideal k i) := fun a ha => mem_bsetIter.1 (hfst ▸ List.mem_map_of_mem ha)
      refine hnext i (ideal k i) got _ (ih i hi) (fun a ha => hsend a.1 _ (ih a.1 (hI.expected k i hk0 (by omega) hi (hexp a ha))) (i, a.2) (hgot a ha))
        (hI.advances k i hk0 (by omega) hi got ⟨?_, ?_, fun a ha => hI.accepts k i hk0 (by omega) hi a.1 (hexp a ha) a.2 (hgot a ha)⟩ hgot)
      · rw [hfst]; exact bsetIter_nodup _
      · rw [hfst]; ext j; rw [List.mem_toFinset, mem_bsetIter]

end Course

/-! ### What is broadcast is determined by the bytes of the broadcast -/

namespace WireFormat

variable {I G V : Type} [LinearOrder I] [AddCommGroup G] {q : Nat} {W : WireFormat G V} {d d' : Packet I}

theorem keyInit_echo₁ {m m' : KeyInit.Message (ZMod q) G V} (h : W.keyInitTransport.unpack 1 d = some m) (h' : W.keyInitTransport.unpack 1 d' = some m') (he : d.echo = d'.echo) :
    m = m' := by
  obtain ⟨_ | e, _ | n, _ | x⟩ := d <;> first | (cases h; done) | skip
  obtain ⟨_ | e', _ | n', _ | x'⟩ := d' <;> first | (cases h'; done) | skip
  cases he
  exact Option.some.inj (h.symm.trans h')

theorem keyInit_echo₂ {m m' : KeyInit.Message (ZMod q) G V} (h : W.keyInitTransport.unpack 2 d = some m) (h' : W.keyInitTransport.unpack 2 d' = some m') (he : d.echo = d'.echo) :
    m.two?.map KeyInit.Msg2.rho = m'.two?.map KeyInit.Msg2.rho := by
  obtain ⟨_ | e, _ | n, _ | x⟩ := d <;> first | (cases h; done) | skip
  obtain ⟨_ | e', _ | n', _ | x'⟩ := d' <;> first | (cases h'; done) | skip
  cases he
  obtain ⟨a, -, h⟩ := Option.bind_eq_some_iff.1 h
  obtain ⟨b, hb, rfl⟩ := Option.map_eq_some_iff.1 h
  obtain ⟨a', -, h'⟩ := Option.bind_eq_some_iff.1 h'
  obtain ⟨b', hb', rfl⟩ := Option.map_eq_some_iff.1 h'
  exact hb.symm.trans hb'

theorem auxGen_echo₁ {m m' : AuxGen.Message V} (h : W.auxGenTransport.unpack 1 d = some m) (h' : W.auxGenTransport.unpack 1 d' = some m') (he : d.echo = d'.echo) : m = m' := by
  obtain ⟨_ | e, _ | n, _ | x⟩ := d <;> first | (cases h; done) | skip
  obtain ⟨_ | e', _ | n', _ | x'⟩ := d' <;> first | (cases h'; done) | skip
  cases he
  exact Option.some.inj (h.symm.trans h')

theorem auxGen_echo₂ {m m' : AuxGen.Message V} (h : W.auxGenTransport.unpack 2 d = some m) (h' : W.auxGenTransport.unpack 2 d' = some m') (he : d.echo = d'.echo) :
    m.two?.map AuxGen.Msg2.echo = m'.two?.map AuxGen.Msg2.echo := by
  obtain ⟨_ | e, _ | n, _ | x⟩ := d <;> first | (cases h; done) | skip
  obtain ⟨_ | e', _ | n', _ | x'⟩ := d' <;> first | (cases h'; done) | skip
  cases he
  obtain ⟨a, ha, h⟩ := Option.bind_eq_some_iff.1 h
  obtain ⟨b, hb, rfl⟩ := Option.map_eq_some_iff.1 h
  obtain ⟨a', ha', h'⟩ := Option.bind_eq_some_iff.1 h'
  obtain ⟨b', hb', rfl⟩ := Option.map_eq_some_iff.1 h'
  exact ha.symm.trans ha'

theorem keyRefresh_echo₁ {m m' : KeyRefresh.Message I (ZMod q) G V} (h : W.keyRefreshTransport.unpack 1 d = some m) (h' : W.keyRefreshTransport.unpack 1 d' = some m')
    (he : d.echo = d'.echo) : m = m' := by
  obtain ⟨_ | e, _ | n, _ | x⟩ := d <;> first | (cases h; done) | skip
  obtain ⟨_ | e', _ | n', _ | x'⟩ := d' <;> first | (cases h'; done) | skip
  cases he
  exact Option.some.inj (h.symm.trans h')

theorem keyRefresh_echo₂ {m m' : KeyRefresh.Message I (ZMod q) G V} (h : W.keyRefreshTransport.unpack 2 d = some m) (h' : W.keyRefreshTransport.unpack 2 d' = some m')
    (he : d.echo = d'.echo) : m.two?.map KeyRefresh.Msg2.echo = m'.two?.map KeyRefresh.Msg2.echo := by
  obtain ⟨_ | e, _ | n, _ | x⟩ := d <;> first | (cases h; done) | skip
  obtain ⟨_ | e', _ | n', _ | x'⟩ := d' <;> first | (cases h'; done) | skip
  cases he
  obtain ⟨a, ha, h⟩ := Option.bind_eq_some_iff.1 h
  obtain ⟨b, hb, rfl⟩ := Option.map_eq_some_iff.1 h
  obtain ⟨a', ha', h'⟩ := Option.bind_eq_some_iff.1 h'
  obtain ⟨b', hb', rfl⟩ := Option.map_eq_some_iff.1 h'
  exact ha.symm.trans ha'

theorem signing_echo₂ {m m' : Signing.Message q I G} (h : W.signingTransport.unpack 2 d = some m) (h' : W.signingTransport.unpack 2 d' = some m') (he : d.echo = d'.echo) :
    m.two?.map Signing.Msg2.echo = m'.two?.map Signing.Msg2.echo := by
  obtain ⟨_ | e, _ | n, _ | x⟩ := d <;> first | (cases h; done) | skip
  obtain ⟨_ | e', _ | n', _ | x'⟩ := d' <;> first | (cases h'; done) | skip
  cases he
  obtain ⟨a, ha, h⟩ := Option.bind_eq_some_iff.1 h
  obtain ⟨b, hb, rfl⟩ := Option.map_eq_some_iff.1 h
  obtain ⟨a', ha', h'⟩ := Option.bind_eq_some_iff.1 h'
  obtain ⟨b', hb', rfl⟩ := Option.map_eq_some_iff.1 h'
  exact ha.symm.trans ha'

theorem signing_echo₁ {m m' : Signing.Message q I G} (h : W.signingTransport.unpack 1 d = some m) (h' : W.signingTransport.unpack 1 d' = some m') (he : d.echo = d'.echo) :
    m.one?.map Signing.Msg1.echo = m'.one?.map Signing.Msg1.echo := by
  obtain ⟨_ | e, _ | n, _ | x⟩ := d <;> first | (cases h; done) | skip
  obtain ⟨_ | e', _ | n', _ | x'⟩ := d' <;> first | (cases h'; done) | skip
  cases he
  obtain ⟨a, ha, h⟩ := Option.bind_eq_some_iff.1 h
  obtain ⟨b, hb, rfl⟩ := Option.map_eq_some_iff.1 h
  obtain ⟨a', ha', h'⟩ := Option.bind_eq_some_iff.1 h'
  obtain ⟨b', hb', rfl⟩ := Option.map_eq_some_iff.1 h'
  exact hb.symm.trans hb'

theorem signing_echo₃ {m m' : Signing.Message q I G} (h : W.signingTransport.unpack 3 d = some m) (h' : W.signingTransport.unpack 3 d' = some m') (he : d.echo = d'.echo) :
    m.three?.map Signing.Msg3.delta = m'.three?.map Signing.Msg3.delta := by
  obtain ⟨_ | e, _ | n, _ | x⟩ := d <;> first | (cases h; done) | skip
  obtain ⟨_ | e', _ | n', _ | x'⟩ := d' <;> first | (cases h'; done) | skip
  cases he
  obtain ⟨a, ha, h⟩ := Option.bind_eq_some_iff.1 h
  obtain ⟨b, hb, rfl⟩ := Option.map_eq_some_iff.1 h
  obtain ⟨a', ha', h'⟩ := Option.bind_eq_some_iff.1 h'
  obtain ⟨b', hb', rfl⟩ := Option.map_eq_some_iff.1 h'
  exact ha.symm.trans ha'

end WireFormat

/-! ### The first state -/

section Initial

variable {I G V Sid : Type} [LinearOrder I] [AddCommGroup G] {q : Nat} [Fact q.Prime] [Module (ZMod q) G]

theorem KeyInit.initial_fits {g : G} {ids : Finset I} {sid : Sid} {i : I} {d : KeyInit.Draws (ZMod q)} {c : KeyInit.Context I (ZMod q) G Sid} (hd : BitsFit d.rho ∧ BitsFit d.u)
    (h : KeyInit.start g ids sid i d = .ok c) : KeyInit.StateFits (V := V) (.one c) := by
  unfold KeyInit.start at h
  split at h
  · cases h
  · cases Out.ok.inj h
    exact hd

theorem AuxGen.initial_fits {E : AuxEnv I Sid} (hE : AuxHashesFit E) {ids : Finset I} {sid : Sid} {i : I} {d : AuxDraws I} {c : AuxGen.Context I Sid} (hd : AuxDrawsFit E.P d)
    (h : AuxGen.start E ids sid i d = .ok c) : AuxGen.StateFits (V := V) E.P (.one c) := by
  unfold AuxGen.start at h
  split at h
  · cases h
  · obtain ⟨y, hy, h⟩ := Out.bind_eq_ok.1 h
    cases Out.ok.inj h
    exact AuxGen.makeData_fits hE hd hy

theorem KeyRefresh.initial_fits {E : KeyRefresh.Env I Sid (ZMod q) G} (hE : AuxHashesFit E.aux) {ids : Finset I} {sid : Sid} {i : I} {d : KeyRefresh.Draws I (ZMod q)}
    {c : KeyRefresh.Context I (ZMod q) G Sid} (hd : AuxDrawsFit E.aux.P d.aux) (h : KeyRefresh.start E ids sid i d = .ok c) : KeyRefresh.StateFits (V := V) E.aux.P (.one c) := by
  unfold KeyRefresh.start at h
  split at h
  · cases h
  · obtain ⟨y, hy, h⟩ := Out.bind_eq_ok.1 h
    obtain ⟨_, _, h⟩ := Out.bind_eq_ok.1 h
    cases Out.ok.inj h
    exact AuxGen.makeData_fits hE hd hy

end Initial

end Synedrion
