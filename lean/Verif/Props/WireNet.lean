import Verif.Lemmas.WireCourse
import Verif.Lemmas.NetworkWith
import Verif.Props.NetworkRefinement
import Verif.Props.NetworkBlame
import Verif.Props.Wire

/-!
# C91: executions over serialized messages
-/

set_option linter.unusedSectionVars false

namespace Synedrion.Props

open Spec

variable {I G V Sid Ep : Type} [LinearOrder I] [AddCommGroup G] {q : Nat} [Fact q.Prime] [Module (ZMod q) G] [DecidableEq G] {W : WireFormat G V}

section Sessions

variable [LinearOrder (ZMod q)] [DecidableEq V]

/-! ### Key generation -/

/-- **C91 (key generation).** Every execution over serialized messages, whatever bytes the other parties send and wherever hashing an identity point panics, takes the course of one over messages that
are values of their types. -/
theorem C91_key_init (hW : FormatValid W q) (hashV : Sid → I → KeyInit.PublicData G → V) (H : SchHash G (KeyInit.SchAux I Sid) → ZMod q) (g : G)
    (panics : Panics I (KeyInit.Message (ZMod q) G V) (KeyInit.State I (ZMod q) G Sid V)) (honest : Set I) (ids : Finset I) (sid : Sid) (d : I → KeyInit.Draws (ZMod q))
    (hd : ∀ i ∈ honest, BitsFit (d i).rho ∧ BitsFit (d i).u) (c : I → KeyInit.Context I (ZMod q) G Sid) (hc : ∀ i ∈ honest, KeyInit.start g ids sid i (d i) = .ok (c i))
    (n : Net I (Packet I) (KeyInit.State I (ZMod q) G Sid V) (WireErr KeyInit.Err) (KeyShare I (ZMod q) G))
    (h : (overWire (KeyInit.machine hashV H g) W.keyInitTransport panics).Reachable honest (fun i => .one (c i)) n) :
    ∃ n', (KeyInit.machine hashV H g).ReachableWith honest (fun _ _ m => keyInitMessageFits m) (fun i => .one (c i)) n' ∧
      SameCourse W.keyInitTransport (KeyInit.machine hashV H g).round honest n n' :=
  overWire_refines (KeyInit.faithful hW) (fun i hi => KeyInit.initial_fits (hd i hi) (hc i hi)) h

/-- Honest parties that finish agree on the key (C81), over serialized messages with an echo of the serialized broadcasts. -/
theorem C91_key_init_agreement (hW : FormatValid W q) (hashV : Sid → I → KeyInit.PublicData G → V) (hinj : ∀ s i h h', hashV s i h = hashV s i h' → h = h')
    (H : SchHash G (KeyInit.SchAux I Sid) → ZMod q) (g : G) (panics : Panics I (KeyInit.Message (ZMod q) G V) (KeyInit.State I (ZMod q) G Sid V)) (honest : Set I) (ids : Finset I)
    (sid : Sid) (d : I → KeyInit.Draws (ZMod q)) (hd : ∀ i ∈ honest, BitsFit (d i).rho ∧ BitsFit (d i).u) (c : I → KeyInit.Context I (ZMod q) G Sid)
    (hc : ∀ i ∈ honest, KeyInit.start g ids sid i (d i) = .ok (c i)) (n : Net I (Packet I) (KeyInit.State I (ZMod q) G Sid V) (WireErr KeyInit.Err) (KeyShare I (ZMod q) G))
    (h : (overWire (KeyInit.machine hashV H g) W.keyInitTransport panics).Reachable honest (fun i => .one (c i)) n)
    (hecho : (overWire (KeyInit.machine hashV H g) W.keyInitTransport panics).EchoAgree honest 1 Packet.echo n) (a b : I) (ha : a ∈ honest) (hb : b ∈ honest) (hab : a ≠ b)
    (ksA ksB : KeyShare I (ZMod q) G) (hA : n.status a = .finished ksA) (hB : n.status b = .finished ksB) :
    ksA.pub = ksB.pub ∧ ksA.verifyingKeyAsPoint = ksB.verifyingKeyAsPoint ∧ ksA.pub.get? b = some (ksB.secret • g) ∧ ksB.pub.get? a = some (ksA.secret • g) := by
  obtain ⟨n', hn', hs⟩ := C91_key_init hW hashV H g panics honest ids sid d hd c hc n h
  exact C81_key_init_agreement hashV hinj H g honest ids sid d c hc n' hn'.reachable (SameCourse.echoAgree hs (fun _ _ _ _ => WireFormat.keyInit_echo₁) hecho) a b ha hb hab ksA ksB
    (SameCourse.finished hs hA) (SameCourse.finished hs hB)

/-- Whoever is blamed is not honest (C83), over serialized messages: neither for what it has sent nor for data that cannot be read. -/
theorem C91_key_init_blame (hW : FormatValid W q) (hashV : Sid → I → KeyInit.PublicData G → V) (H : SchHash G (KeyInit.SchAux I Sid) → ZMod q) (g : G)
    (panics : Panics I (KeyInit.Message (ZMod q) G V) (KeyInit.State I (ZMod q) G Sid V)) (honest : Set I) (ids : Finset I) (sid : Sid) (d : I → KeyInit.Draws (ZMod q))
    (hd : ∀ i ∈ honest, BitsFit (d i).rho ∧ BitsFit (d i).u) (c : I → KeyInit.Context I (ZMod q) G Sid) (hc : ∀ i ∈ honest, KeyInit.start g ids sid i (d i) = .ok (c i))
    (n : Net I (Packet I) (KeyInit.State I (ZMod q) G Sid V) (WireErr KeyInit.Err) (KeyShare I (ZMod q) G))
    (h : (overWire (KeyInit.machine hashV H g) W.keyInitTransport panics).Reachable honest (fun i => .one (c i)) n)
    (hecho : (overWire (KeyInit.machine hashV H g) W.keyInitTransport panics).EchoAgree honest 2 Packet.echo n) (i j : I) (hi : i ∈ honest) (e : WireErr KeyInit.Err)
    (hst : n.status i = .stopped (.fault j e)) : j ∉ honest := by
  obtain ⟨n', hn', hs⟩ := C91_key_init hW hashV H g panics honest ids sid d hd c hc n h
  rcases SameCourse.fault hs hst with ⟨e', -, h'⟩ | ⟨-, hj⟩
  · exact C83_key_init hashV H g honest ids sid d c hc n' hn'.reachable (SameCourse.echoAgree hs (fun _ _ _ _ => WireFormat.keyInit_echo₂) hecho) i j hi e' h'
  · exact hj

/-- Parties that follow the protocol always finish, under any schedule, over serialized messages, if none of them has drawn a zero scalar and hashing panics only because of identity points.
False without the condition on the draws: `C91_key_init_zero`. -/
theorem C91_key_init_finishes_partial (hW : FormatValid W q) (hashV : Sid → I → KeyInit.PublicData G → V) (H : SchHash G (KeyInit.SchAux I Sid) → ZMod q) (g : G) (hg : g ≠ 0)
    (panics : Panics I (KeyInit.Message (ZMod q) G V) (KeyInit.State I (ZMod q) G Sid V)) (ids : Finset I) (sid : Sid) (d : I → KeyInit.Draws (ZMod q)) (len : Nat)
    (hlen : ∀ i ∈ ids, (d i).rho.length = len) (hd : ∀ i ∈ ids, BitsFit (d i).rho ∧ BitsFit (d i).u) (c : I → KeyInit.Context I (ZMod q) G Sid)
    (hc : ∀ i ∈ ids, KeyInit.start g ids sid i (d i) = .ok (c i)) (hsum : ∑ i ∈ ids, (d i).x ≠ 0) (hx : ∀ i ∈ ids, (d i).x ≠ 0 ∧ (d i).tau ≠ 0)
    (hpan : PanicsOnly (KeyInit.machine hashV H g) panics fun m => ∃ m₂, m = .two m₂ ∧ (m₂.capX = 0 ∨ m₂.capA = 0)) :
    ∃ shares : I → KeyShare I (ZMod q) G, (overWire (KeyInit.machine hashV H g) W.keyInitTransport panics).AlwaysFinishes ids (fun i => .one (c i)) (ids.card * (3 * (ids.card + 1))) shares ∧
      SharesKey g ids shares (∑ i ∈ ids, (d i).x) := by
  obtain ⟨st, shares, hI, hk⟩ := KeyInit.ideal hashV H g hg ids sid d len hlen c hc hsum
  let good : KeyInit.Context I (ZMod q) G Sid → Prop := fun c => BitsFit c.data.rho ∧ BitsFit c.data.u ∧ c.data.capX ≠ 0 ∧ c.data.capA ≠ 0
  let inv : I → KeyInit.State I (ZMod q) G Sid V → Prop := fun _ s => match s with
    | .one c => good c
    | .two r => good r.ctx
    | .three _ => True
  have hinv : ∀ k i, 1 ≤ k → k ≤ 3 → i ∈ ids → inv i (st k i) := by
    refine ideal_inv (ok := fun _ => True) hI (fun i hi => ?_) (fun _ _ _ _ _ => trivial) fun i s got s' hs _ hn => ?_
    · have h := hc i hi
      unfold KeyInit.start at h
      split at h
      · cases h
      · rw [← Out.ok.inj h]
        exact ⟨(hd i hi).1, (hd i hi).2, smul_ne_zero (hx i hi).1 hg, smul_ne_zero (hx i hi).2 hg⟩
    · cases s with
      | one c =>
        obtain ⟨_, _, hn⟩ := Out.bind_eq_ok.1 hn
        cases Out.ok.inj hn
        exact hs
      | two r =>
        obtain ⟨_, _, hn⟩ := Out.bind_eq_ok.1 hn
        obtain ⟨_, _, hn⟩ := Out.bind_eq_ok.1 hn
        cases Out.ok.inj hn
        trivial
      | three r =>
        obtain ⟨_, _, hn⟩ := Out.bind_eq_ok.1 hn
        obtain ⟨_, _, hn⟩ := Out.bind_eq_ok.1 hn
        cases Out.ok.inj hn
  refine ⟨shares, (overWire_ideal hI hpan (fun k i h1 h2 hi a ha => ?_) fun k i h1 h2 hi a ha hbad => ?_).alwaysFinishes, hk⟩
  · have h := hinv k i h1 h2 hi
    have hr := hI.round k i h1 h2 hi
    generalize st k i = s at h hr ha
    rw [← hr]
    suffices hs : ∃ d, W.keyInitTransport.pack a.2 = .ok d by
      obtain ⟨d, hd⟩ := hs
      refine ⟨d, hd, (KeyInit.faithful (H := H) (hashV := hashV) (g := g) hW).trip s ?_ a ha d hd⟩
      cases s with
      | one c => exact ⟨h.1, h.2.1⟩
      | two r => exact ⟨h.1, h.2.1⟩
      | three r => trivial
    cases s with
    | one c =>
      obtain ⟨b, _, rfl⟩ := List.mem_map.1 (show a ∈ (bsetIter c.otherIds).map fun j => (j, KeyInit.Message.one (KeyInit.msg1 hashV c)) from ha)
      exact ⟨_, rfl⟩
    | two r =>
      obtain ⟨b, _, rfl⟩ := List.mem_map.1 (show a ∈ (bsetIter r.ctx.otherIds).map fun j => (j, KeyInit.Message.two (KeyInit.msg2 r.ctx)) from ha)
      obtain ⟨y, hy, -⟩ := (hW.keyInit_lawful (ε := Unit) (I := I) (q := q) .normal 2).ok ⟨r.ctx.data.capX, r.ctx.data.capA, r.ctx.data.u⟩ h.2.1
        (fun h0 => by
          rcases List.mem_cons.1 h0 with h0 | h0
          · exact h.2.2.1 h0.symm
          · exact h.2.2.2 (List.mem_singleton.1 h0).symm)
      obtain ⟨e, he, -⟩ := (hW.keyInit_lawful (ε := Unit) (I := I) (q := q) .echo 2).ok r.ctx.data.rho h.1 List.not_mem_nil
      refine ⟨⟨some e, some y, none⟩, ?_⟩
      show Out.bind ((W.keyInit (q := q) .echo 2).enc r.ctx.data.rho) (fun e => Out.bind ((W.keyInit (q := q) .normal 2).enc ⟨r.ctx.data.capX, r.ctx.data.capA, r.ctx.data.u⟩)
        fun n => .ok ⟨some e, some n, none⟩) = (.ok ⟨some e, some y, none⟩ : Out Unit (Packet I))
      rw [he, Out.bind_ok, hy, Out.bind_ok]
    | three r =>
      obtain ⟨b, _, rfl⟩ := List.mem_map.1 (show a ∈ (bsetIter r.ctx.otherIds).map fun j => (j, KeyInit.Message.three (KeyInit.msg3 H r)) from ha)
      exact ⟨_, rfl⟩
  · have h := hinv k i h1 h2 hi
    generalize st k i = s at h ha
    obtain ⟨m₂, hm, hbad⟩ := hbad
    cases s with
    | one c =>
      obtain ⟨b, _, rfl⟩ := List.mem_map.1 (show a ∈ (bsetIter c.otherIds).map fun j => (j, KeyInit.Message.one (KeyInit.msg1 hashV c)) from ha)
      cases hm
    | two r =>
      obtain ⟨b, _, rfl⟩ := List.mem_map.1 (show a ∈ (bsetIter r.ctx.otherIds).map fun j => (j, KeyInit.Message.two (KeyInit.msg2 r.ctx)) from ha)
      cases hm
      rcases hbad with hbad | hbad
      · exact h.2.2.1 hbad
      · exact h.2.2.2 hbad
    | three r =>
      obtain ⟨b, _, rfl⟩ := List.mem_map.1 (show a ∈ (bsetIter r.ctx.otherIds).map fun j => (j, KeyInit.Message.three (KeyInit.msg3 H r)) from ha)
      cases hm

/-- A party that has drawn a zero scalar panics: over serialized messages it never finishes key generation, whatever the others do. -/
theorem C91_key_init_zero (hW : FormatValid W q) (hashV : Sid → I → KeyInit.PublicData G → V) (H : SchHash G (KeyInit.SchAux I Sid) → ZMod q) (g : G)
    (panics : Panics I (KeyInit.Message (ZMod q) G V) (KeyInit.State I (ZMod q) G Sid V)) (honest : Set I) (ids : Finset I) (sid : Sid) (d : I → KeyInit.Draws (ZMod q))
    (c : I → KeyInit.Context I (ZMod q) G Sid) (i : I) (hi : i ∈ honest) (hd : BitsFit (d i).u) (hc : KeyInit.start g ids sid i (d i) = .ok (c i))
    (hids : ∃ j ∈ ids, j ≠ i) (h0 : (d i).x = 0 ∨ (d i).tau = 0)
    (n : Net I (Packet I) (KeyInit.State I (ZMod q) G Sid V) (WireErr KeyInit.Err) (KeyShare I (ZMod q) G))
    (h : (overWire (KeyInit.machine hashV H g) W.keyInitTransport panics).Reachable honest (fun i => .one (c i)) n) : ∀ share, n.status i ≠ .finished share := by
  have hcd : (c i).otherIds = ids.erase i ∧ (c i).data = ⟨(d i).x • g, (d i).tau • g, (d i).rho, (d i).u⟩ := by
    unfold KeyInit.start at hc
    split at hc
    · cases hc
    · rw [← Out.ok.inj hc]
      exact ⟨rfl, rfl⟩
  have hpack : ∀ capVs, ¬ W.keyInitTransport.packable ((KeyInit.machine hashV H g).send (.two ⟨c i, capVs⟩)) := fun capVs hp => by
    obtain ⟨j, hj, hji⟩ := hids
    have := List.all_eq_true.1 hp (j, .two (KeyInit.msg2 (c i))) (List.mem_map.2 ⟨j, mem_bsetIter.2 (by rw [hcd.1]; exact Finset.mem_erase.2 ⟨hji, hj⟩), rfl⟩)
    have hy := (hW.keyInit_lawful (ε := Unit) (I := I) (q := q) .normal 2).panic ⟨(c i).data.capX, (c i).data.capA, (c i).data.u⟩ (by rw [hcd.2]; exact hd) (by
      rw [hcd.2]
      rcases h0 with h0 | h0
      · exact List.mem_cons.2 (.inl (by rw [h0, zero_smul]))
      · exact List.mem_cons.2 (.inr (List.mem_singleton.2 (by rw [h0, zero_smul]))))
    have hb : W.keyInitTransport.pack (KeyInit.Message.two (F := ZMod q) (V := V) (KeyInit.msg2 (c i))) = (.panic : Out Unit (Packet I)) := by
      show Out.bind ((W.keyInit (q := q) .echo 2).enc (c i).data.rho) (fun e => Out.bind ((W.keyInit (q := q) .normal 2).enc ⟨(c i).data.capX, (c i).data.capA, (c i).data.u⟩)
        fun n => .ok ⟨some e, some n, none⟩) = (.panic : Out Unit (Packet I))
      rw [hy]
      rfl
    rw [hb] at this
    cases this
  intro share hf
  have hst := (h.inv i).status
  rw [hf] at hst
  have hst : (overWire (KeyInit.machine hashV H g) W.keyInitTransport panics).replay (.one (c i)) ((n.past i).map Prod.snd) = .ok (.inr share) := hst
  generalize (n.past i).map Prod.snd = l at hst
  cases l with
  | nil => cases Out.ok.inj hst
  | cons got rest =>
    obtain ⟨x, hx, -⟩ := Out.bind_eq_ok.1 hst
    obtain ⟨-, got', -, hx, hp⟩ := overWire_next_eq_ok hx
    obtain ⟨capVs, -, hx⟩ := Out.bind_eq_ok.1 hx
    exact hpack capVs (hp _ (Out.ok.inj hx).symm)

/-! ### Auxiliary info generation -/

/-- **C91 (auxiliary info).** Every execution over serialized messages takes the course of one over messages that are values of their types. -/
theorem C91_aux_gen (hW : FormatValid W q) (E : AuxEnv I Sid) (hP : W.P = E.P) (hE : AuxHashesFit E) (hashV : Sid → I → AuxGen.Hashed → V)
    (panics : Panics I (AuxGen.Message V) (AuxGen.State I Sid V)) (honest : Set I) (ids : Finset I) (sid : Sid) (d : I → AuxDraws I) (hd : ∀ i ∈ honest, AuxDrawsFit E.P (d i))
    (c : I → AuxGen.Context I Sid) (hc : ∀ i ∈ honest, AuxGen.start E ids sid i (d i) = .ok (c i))
    (n : Net I (Packet I) (AuxGen.State I Sid V) (WireErr (AuxGen.Err I)) (AuxInfo I PaillierKey PublicAux))
    (h : (overWire (AuxGen.machine E hashV) W.auxGenTransport panics).Reachable honest (fun i => .one (c i)) n) :
    ∃ n', (AuxGen.machine E hashV).ReachableWith honest (fun _ _ m => auxGenMessageFits E.P m) (fun i => .one (c i)) n' ∧
      SameCourse W.auxGenTransport (AuxGen.machine E hashV).round honest n n' :=
  overWire_refines (AuxGen.faithful hW hP hE) (fun i hi => AuxGen.initial_fits hE (hd i hi) (hc i hi)) h

/-- Honest parties that finish agree on the public auxiliary info (C81), over serialized messages. -/
theorem C91_aux_gen_agreement (hW : FormatValid W q) (E : AuxEnv I Sid) (hP : W.P = E.P) (hE : AuxHashesFit E) (hashV : Sid → I → AuxGen.Hashed → V)
    (hinj : ∀ s i h h', hashV s i h = hashV s i h' → h = h') (panics : Panics I (AuxGen.Message V) (AuxGen.State I Sid V)) (honest : Set I) (ids : Finset I) (sid : Sid)
    (d : I → AuxDraws I) (hd : ∀ i ∈ honest, AuxDrawsFit E.P (d i)) (c : I → AuxGen.Context I Sid) (hc : ∀ i ∈ honest, AuxGen.start E ids sid i (d i) = .ok (c i))
    (n : Net I (Packet I) (AuxGen.State I Sid V) (WireErr (AuxGen.Err I)) (AuxInfo I PaillierKey PublicAux))
    (h : (overWire (AuxGen.machine E hashV) W.auxGenTransport panics).Reachable honest (fun i => .one (c i)) n)
    (hecho : (overWire (AuxGen.machine E hashV) W.auxGenTransport panics).EchoAgree honest 1 Packet.echo n) (a b : I) (ha : a ∈ honest) (hb : b ∈ honest) (hab : a ≠ b)
    (infoA infoB : AuxInfo I PaillierKey PublicAux) (hA : n.status a = .finished infoA) (hB : n.status b = .finished infoB) :
    infoA.pub = infoB.pub ∧ (∃ x, infoA.pub.get? b = some x ∧ x.pk = infoB.secret.p * infoB.secret.q) ∧
      ∃ x, infoB.pub.get? a = some x ∧ x.pk = infoA.secret.p * infoA.secret.q := by
  obtain ⟨n', hn', hs⟩ := C91_aux_gen hW E hP hE hashV panics honest ids sid d hd c hc n h
  exact C81_aux_gen_agreement E hashV hinj honest ids sid d c hc n' hn'.reachable (SameCourse.echoAgree hs (fun _ _ _ _ => WireFormat.auxGen_echo₁) hecho) a b ha hb hab infoA infoB
    (SameCourse.finished hs hA) (SameCourse.finished hs hB)

/-- Whoever is blamed is not honest (C83), over serialized messages. -/
theorem C91_aux_gen_blame (hW : FormatValid W q) (E : AuxEnv I Sid) (hP : W.P = E.P) (hE : AuxHashesFit E) (k : Nat) (hEv : HashesValid E k) (hashV : Sid → I → AuxGen.Hashed → V)
    (panics : Panics I (AuxGen.Message V) (AuxGen.State I Sid V)) (honest : Set I) (ids : Finset I) (sid : Sid) (d : I → AuxDraws I) (hd : ∀ i ∈ honest, AuxDrawsFit E.P (d i))
    (hdv : ∀ i ∈ honest, DrawsValid E k (d i))
    (hfac : ∀ i ∈ honest, ∀ j ∈ honest, i ≠ j → FacDrawsValid E.P ((d j).p * (d j).q) ((d i).rpP * (d i).rpQ) ((d j).facMasks i))
    (c : I → AuxGen.Context I Sid) (hc : ∀ i ∈ honest, AuxGen.start E ids sid i (d i) = .ok (c i))
    (n : Net I (Packet I) (AuxGen.State I Sid V) (WireErr (AuxGen.Err I)) (AuxInfo I PaillierKey PublicAux))
    (h : (overWire (AuxGen.machine E hashV) W.auxGenTransport panics).Reachable honest (fun i => .one (c i)) n)
    (hecho : (overWire (AuxGen.machine E hashV) W.auxGenTransport panics).EchoAgree honest 2 Packet.echo n) (i j : I) (hi : i ∈ honest) (e : WireErr (AuxGen.Err I))
    (hst : n.status i = .stopped (.fault j e)) : j ∉ honest := by
  obtain ⟨n', hn', hs⟩ := C91_aux_gen hW E hP hE hashV panics honest ids sid d hd c hc n h
  rcases SameCourse.fault hs hst with ⟨e', -, h'⟩ | ⟨-, hj⟩
  · exact C83_aux_gen E k hEv hashV honest ids sid d hdv hfac c hc n' hn'.reachable (SameCourse.echoAgree hs (fun _ _ _ _ => WireFormat.auxGen_echo₂) hecho) i j hi e' h'
  · exact hj

/-- Parties that follow the protocol always finish, under any schedule, over serialized messages: no points are involved, so nothing panics. -/
theorem C91_aux_gen_finishes (hW : FormatValid W q) (E : AuxEnv I Sid) (hP : W.P = E.P) (hE : AuxHashesFit E) (k : Nat) (hEv : HashesValid E k) (hashV : Sid → I → AuxGen.Hashed → V)
    (ids : Finset I) (sid : Sid) (d : I → AuxDraws I) (hd : ∀ i ∈ ids, AuxDrawsFit E.P (d i)) (hdv : ∀ i ∈ ids, DrawsValid E k (d i))
    (hfac : ∀ i ∈ ids, ∀ j ∈ ids, i ≠ j → FacDrawsValid E.P ((d i).p * (d i).q) ((d j).rpP * (d j).rpQ) ((d i).facMasks j)) (len : Nat) (hlen : ∀ i ∈ ids, (d i).rid.length = len)
    (c : I → AuxGen.Context I Sid) (hc : ∀ i ∈ ids, AuxGen.start E ids sid i (d i) = .ok (c i)) :
    ∃ res : I → AuxInfo I PaillierKey PublicAux,
      (overWire (AuxGen.machine E hashV) W.auxGenTransport ⟨fun _ _ _ => false, fun _ _ => false⟩).AlwaysFinishes ids (fun i => .one (c i)) (ids.card * (3 * (ids.card + 1))) res ∧
      (ConsistentAux ids res fun j => ⟨(d j).p * (d j).q, (RPParams.withSecret ((d j).rpP * (d j).rpQ) E.P.modBits (d j).lambda (d j).tDraw).toWire⟩) ∧
      UsableAux E.P ids res fun j => ⟨_, RPParams.withSecret ((d j).rpP * (d j).rpQ) E.P.modBits (d j).lambda (d j).tDraw⟩ := by
  obtain ⟨st, res, hI, h1, -, h2⟩ := AuxGen.ideal E k hEv hashV ids sid d hdv hfac len hlen c hc
  have hinv := ideal_inv (inv := fun _ s => AuxGen.StateFits E.P s) (ok := auxGenMessageFits E.P) hI (fun i hi => AuxGen.initial_fits hE (hd i hi) (hc i hi))
    (fun _ s hs a ha => AuxGen.send_fits (hashV := hashV) hs ha) fun _ s got s' hs hg hn => AuxGen.next_fits hE hs hg hn
  refine ⟨res, (overWire_ideal (bad := fun _ => False) hI ⟨(fun _ _ _ h => by cases h), (fun _ _ h => by cases h)⟩ (fun k i h1 h2 hi a ha => ?_) fun _ _ _ _ _ _ _ h => h).alwaysFinishes, h1, h2⟩
  have h := hinv k i h1 h2 hi
  have hr := hI.round k i h1 h2 hi
  generalize st k i = s at h hr ha
  rw [← hr]
  have hf : auxGenMessageFits W.P a.2 := hP ▸ AuxGen.send_fits (hashV := hashV) h ha
  suffices hs : ∃ d, W.auxGenTransport.pack a.2 = .ok d by
    obtain ⟨d, hd⟩ := hs
    exact ⟨d, hd, (AuxGen.faithful (hashV := hashV) hW hP hE).trip s h a ha d hd⟩
  obtain ⟨j, m⟩ := a
  cases m with
  | one v => exact ⟨_, rfl⟩
  | two m =>
    obtain ⟨e, he, -⟩ := (hW.auxGen_lawful (ε := Unit) (I := I) .echo 2).ok m.echo (hf 2 .echo _ rfl) List.not_mem_nil
    obtain ⟨y, hy, -⟩ := (hW.auxGen_lawful (ε := Unit) (I := I) .normal 2).ok ⟨m.pk, m.psi, m.u⟩ (hf 2 .normal _ rfl) List.not_mem_nil
    refine ⟨⟨some e, some y, none⟩, ?_⟩
    show Out.bind ((W.auxGen .echo 2).enc m.echo) (fun e => Out.bind ((W.auxGen .normal 2).enc ⟨m.pk, m.psi, m.u⟩) fun n => .ok ⟨some e, some n, none⟩) =
      (.ok ⟨some e, some y, none⟩ : Out Unit (Packet I))
    rw [he, Out.bind_ok, hy, Out.bind_ok]
  | three m =>
    obtain ⟨e, he, -⟩ := (hW.auxGen_lawful (ε := Unit) (I := I) .normal 3).ok m.psiPrime (hf 3 .normal _ rfl) List.not_mem_nil
    obtain ⟨y, hy, -⟩ := (hW.auxGen_lawful (ε := Unit) (I := I) .direct 3).ok m.psi (hf 3 .direct _ rfl) List.not_mem_nil
    refine ⟨⟨none, some e, some y⟩, ?_⟩
    show Out.bind ((W.auxGen .normal 3).enc m.psiPrime) (fun e => Out.bind ((W.auxGen .direct 3).enc m.psi) fun n => .ok ⟨none, some e, some n⟩) =
      (.ok ⟨none, some e, some y⟩ : Out Unit (Packet I))
    rw [he, Out.bind_ok, hy, Out.bind_ok]

/-! ### Key refresh -/

/-- **C91 (key refresh).** Every execution over serialized messages takes the course of one over messages that are values of their types. -/
theorem C91_key_refresh (hW : FormatValid W q) (E : KeyRefresh.Env I Sid (ZMod q) G) (hP : W.P = E.aux.P) (hE : AuxHashesFit E.aux) (hashV : Sid → I → KeyRefresh.Hashed I G → V)
    (panics : Panics I (KeyRefresh.Message I (ZMod q) G V) (KeyRefresh.State I (ZMod q) G Sid V)) (honest : Set I) (ids : Finset I) (sid : Sid) (d : I → KeyRefresh.Draws I (ZMod q))
    (hd : ∀ i ∈ honest, AuxDrawsFit E.aux.P (d i).aux) (c : I → KeyRefresh.Context I (ZMod q) G Sid) (hc : ∀ i ∈ honest, KeyRefresh.start E ids sid i (d i) = .ok (c i))
    (n : Net I (Packet I) (KeyRefresh.State I (ZMod q) G Sid V) (WireErr (KeyRefresh.Err I (ZMod q))) (KeyShareChange I (ZMod q) G × AuxInfo I PaillierKey PublicAux))
    (h : (overWire (KeyRefresh.machine E hashV) W.keyRefreshTransport panics).Reachable honest (fun i => .one (c i)) n) :
    ∃ n', (KeyRefresh.machine E hashV).ReachableWith honest (fun _ _ m => keyRefreshMessageFits E.aux.P m) (fun i => .one (c i)) n' ∧
      SameCourse W.keyRefreshTransport (KeyRefresh.machine E hashV).round honest n n' :=
  overWire_refines (KeyRefresh.faithful hW hP hE) (fun i hi => KeyRefresh.initial_fits hE (hd i hi) (hc i hi)) h

/-- Honest parties that finish agree on the changes of the public shares and on the public auxiliary info (C81), over serialized messages. -/
theorem C91_key_refresh_agreement (hW : FormatValid W q) (E : KeyRefresh.Env I Sid (ZMod q) G) (hP : W.P = E.aux.P) (hE : AuxHashesFit E.aux) (hashV : Sid → I → KeyRefresh.Hashed I G → V)
    (hinj : ∀ s i h h', hashV s i h = hashV s i h' → h = h')
    (panics : Panics I (KeyRefresh.Message I (ZMod q) G V) (KeyRefresh.State I (ZMod q) G Sid V)) (honest : Set I) (ids : Finset I) (sid : Sid) (d : I → KeyRefresh.Draws I (ZMod q))
    (hd : ∀ i ∈ honest, AuxDrawsFit E.aux.P (d i).aux) (c : I → KeyRefresh.Context I (ZMod q) G Sid) (hc : ∀ i ∈ honest, KeyRefresh.start E ids sid i (d i) = .ok (c i))
    (n : Net I (Packet I) (KeyRefresh.State I (ZMod q) G Sid V) (WireErr (KeyRefresh.Err I (ZMod q))) (KeyShareChange I (ZMod q) G × AuxInfo I PaillierKey PublicAux))
    (h : (overWire (KeyRefresh.machine E hashV) W.keyRefreshTransport panics).Reachable honest (fun i => .one (c i)) n)
    (hecho : (overWire (KeyRefresh.machine E hashV) W.keyRefreshTransport panics).EchoAgree honest 1 Packet.echo n) (a b : I) (ha : a ∈ honest) (hb : b ∈ honest) (hab : a ≠ b)
    (chA chB : KeyShareChange I (ZMod q) G) (infoA infoB : AuxInfo I PaillierKey PublicAux) (hA : n.status a = .finished (chA, infoA)) (hB : n.status b = .finished (chB, infoB)) :
    chA.publicShareChanges = chB.publicShareChanges ∧ infoA.pub = infoB.pub ∧
      chA.publicShareChanges.get? b = some (chB.secretShareChange • E.g) ∧ chB.publicShareChanges.get? a = some (chA.secretShareChange • E.g) := by
  obtain ⟨n', hn', hs⟩ := C91_key_refresh hW E hP hE hashV panics honest ids sid d hd c hc n h
  exact C81_key_refresh_agreement E hashV hinj honest ids sid d c hc n' hn'.reachable (SameCourse.echoAgree hs (fun _ _ _ _ => WireFormat.keyRefresh_echo₁) hecho) a b ha hb hab
    chA chB infoA infoB (SameCourse.finished hs hA) (SameCourse.finished hs hB)

/-- Whoever is blamed is not honest (C83), over serialized messages. -/
theorem C91_key_refresh_blame (hW : FormatValid W q) (E : KeyRefresh.Env I Sid (ZMod q) G) (hP : W.P = E.aux.P) (hE : AuxHashesFit E.aux) (k : Nat) (hEv : HashesValid E.aux k)
    (hashV : Sid → I → KeyRefresh.Hashed I G → V) (panics : Panics I (KeyRefresh.Message I (ZMod q) G V) (KeyRefresh.State I (ZMod q) G Sid V)) (honest : Set I) (ids : Finset I)
    (sid : Sid) (d : I → KeyRefresh.Draws I (ZMod q)) (hd : ∀ i ∈ honest, AuxDrawsFit E.aux.P (d i).aux) (hdv : ∀ i ∈ honest, DrawsValid E.aux k (d i).aux)
    (hfac : ∀ i ∈ honest, ∀ j ∈ honest, i ≠ j → FacDrawsValid E.aux.P ((d j).aux.p * (d j).aux.q) ((d i).aux.rpP * (d i).aux.rpQ) ((d j).aux.facMasks i))
    (c : I → KeyRefresh.Context I (ZMod q) G Sid) (hc : ∀ i ∈ honest, KeyRefresh.start E ids sid i (d i) = .ok (c i))
    (n : Net I (Packet I) (KeyRefresh.State I (ZMod q) G Sid V) (WireErr (KeyRefresh.Err I (ZMod q))) (KeyShareChange I (ZMod q) G × AuxInfo I PaillierKey PublicAux))
    (h : (overWire (KeyRefresh.machine E hashV) W.keyRefreshTransport panics).Reachable honest (fun i => .one (c i)) n)
    (hecho : (overWire (KeyRefresh.machine E hashV) W.keyRefreshTransport panics).EchoAgree honest 2 Packet.echo n) (i j : I) (hi : i ∈ honest) (e : WireErr (KeyRefresh.Err I (ZMod q)))
    (hst : n.status i = .stopped (.fault j e)) : j ∉ honest := by
  obtain ⟨n', hn', hs⟩ := C91_key_refresh hW E hP hE hashV panics honest ids sid d hd c hc n h
  rcases SameCourse.fault hs hst with ⟨e', -, h'⟩ | ⟨-, hj⟩
  · exact C83_key_refresh E k hEv hashV honest ids sid d hdv hfac c hc n' hn'.reachable (SameCourse.echoAgree hs (fun _ _ _ _ => WireFormat.keyRefresh_echo₂) hecho) i j hi e' h'
  · exact hj

/-! ### Key resharing -/

/-- **C91 (key resharing).** Every execution over serialized messages takes the course of one over messages. -/
theorem C91_resharing (hW : FormatValid W q) (g : G) (panics : Panics I (KeyResharing.Msg (ZMod q) G) (KeyResharing.State I (ZMod q) G)) (honest : Set I)
    (init : I → KeyResharing.State I (ZMod q) G) (n : Net I (Packet I) (KeyResharing.State I (ZMod q) G) (WireErr KeyResharing.Err) (Option (ThresholdKeyShare I (ZMod q) G)))
    (h : (overWire (KeyResharing.machine g) W.resharingTransport panics).Reachable honest init n) :
    ∃ n', (KeyResharing.machine g).Reachable honest init n' ∧ SameCourse W.resharingTransport (KeyResharing.machine (F := ZMod q) (I := I) g).round honest n n' := by
  obtain ⟨n', h1, h2⟩ := overWire_refines (KeyResharing.faithful hW) (fun _ _ => trivial) h
  exact ⟨n', h1.reachable, h2⟩

/-- Whoever is blamed is not honest (C83), over serialized messages. -/
theorem C91_resharing_blame (hW : FormatValid W q) (g : G) (panics : Panics I (KeyResharing.Msg (ZMod q) G) (KeyResharing.State I (ZMod q) G)) (honest : Set I)
    (inp : I → KeyResharing.Inputs I (ZMod q) G) (newHolders : Finset I) (hnew : ∀ i ∈ honest, (inp i).newHolders = newHolders) (draw : I → Nat → ZMod q)
    (r : I → KeyResharing.Round1 I (ZMod q) G) (hr : ∀ i ∈ honest, KeyResharing.start g (inp i) i (draw i) = .ok (r i)) (init : I → KeyResharing.State I (ZMod q) G)
    (hinit : ∀ i ∈ honest, KeyResharing.begin (r i) = .ok (init i))
    (n : Net I (Packet I) (KeyResharing.State I (ZMod q) G) (WireErr KeyResharing.Err) (Option (ThresholdKeyShare I (ZMod q) G)))
    (h : (overWire (KeyResharing.machine g) W.resharingTransport panics).Reachable honest init n) (i j : I) (hi : i ∈ honest) (e : WireErr KeyResharing.Err)
    (hst : n.status i = .stopped (.fault j e)) : j ∉ honest := by
  obtain ⟨n', hn', hs⟩ := C91_resharing hW g panics honest init n h
  rcases SameCourse.fault hs hst with ⟨e', -, h'⟩ | ⟨-, hj⟩
  · exact C83_resharing g honest inp newHolders hnew draw r hr init hinit n' hn' i j hi e' h'
  · exact hj

end Sessions

/-! ### Signing -/

section Signing

/-- **C91 (signing).** Every execution over serialized messages takes the course of one over messages that are values of their types. -/
theorem C91_signing (hW : FormatValid W q) (E : Signing.Env q I Ep G) (hP : W.P = E.P) (hc : E.P.SelfConsistent) (hE : SigningHashesFit E)
    (epidOf : BMap I G → BMap I PublicAux → Ep) (message : ZMod q) (panics : Panics I (Signing.Message q I G) (Signing.State q I Ep G)) (honest : Set I)
    (ks : I → KeyShare I (ZMod q) G) (aux : I → AuxInfo I PaillierKey PublicAux) (haux : ∀ i ∈ honest, AllValues (AuxFits E.P) (aux i).pub)
    (hkey : ∀ i ∈ honest, (aux i).secret.modulus ≠ 0 ∧ (aux i).secret.modulus < 2 ^ E.P.modBits) (d : I → Signing.Draws q I)
    (hd : ∀ i ∈ honest, SigningDrawsFit E.P ((ks i).pub.keySet.erase i) (d i)) (r : I → Signing.Round1 q I Ep G)
    (hr : ∀ i ∈ honest, Signing.start E epidOf message (ks i) (aux i) i (d i) = .ok (r i)) (init : I → Signing.State q I Ep G)
    (hinit : ∀ i ∈ honest, Signing.begin E (r i) = .ok (init i))
    (n : Net I (Packet I) (Signing.State q I Ep G) (WireErr (Signing.Err I)) (RecoverableSignature q))
    (h : (overWire (Signing.machine E) W.signingTransport panics).Reachable honest init n) :
    ∃ n', (Signing.machine E).ReachableWith honest (fun _ _ m => signingMessageFits E.P m) init n' ∧ SameCourse W.signingTransport (Signing.machine E).round honest n n' :=
  overWire_refines (Signing.faithful hW hP hE) (fun i hi => by
    obtain ⟨h1, h2⟩ := Signing.start_fits hc (haux i hi) (hkey i hi).1 (hkey i hi).2 (hd i hi) (hr i hi)
    exact Signing.begin_fits hE h1 h2 (hinit i hi)) h

/-- Honest signers that finish have the same signature (C81), over serialized messages. -/
theorem C91_signature_agreement (hW : FormatValid W q) (E : Signing.Env q I Ep G) (hC : CurveLaws E.C q) (hP : W.P = E.P) (hc : E.P.SelfConsistent) (hE : SigningHashesFit E)
    (epidOf : BMap I G → BMap I PublicAux → Ep) (message : ZMod q) (panics : Panics I (Signing.Message q I G) (Signing.State q I Ep G)) (honest : Set I)
    (ids : Finset I) (pub : BMap I G) (hids : pub.keySet = ids) (hsub : honest ⊆ ids)
    (ks : I → KeyShare I (ZMod q) G) (hpub : ∀ i ∈ honest, (ks i).pub = pub) (aux : I → AuxInfo I PaillierKey PublicAux) (haux : ∀ i ∈ honest, AllValues (AuxFits E.P) (aux i).pub)
    (hkey : ∀ i ∈ honest, (aux i).secret.modulus ≠ 0 ∧ (aux i).secret.modulus < 2 ^ E.P.modBits) (d : I → Signing.Draws q I)
    (hd : ∀ i ∈ honest, SigningDrawsFit E.P ((ks i).pub.keySet.erase i) (d i)) (r : I → Signing.Round1 q I Ep G)
    (hr : ∀ i ∈ honest, Signing.start E epidOf message (ks i) (aux i) i (d i) = .ok (r i)) (init : I → Signing.State q I Ep G)
    (hinit : ∀ i ∈ honest, Signing.begin E (r i) = .ok (init i))
    (n : Net I (Packet I) (Signing.State q I Ep G) (WireErr (Signing.Err I)) (RecoverableSignature q))
    (h : (overWire (Signing.machine E) W.signingTransport panics).Reachable honest init n)
    (hecho : (overWire (Signing.machine E) W.signingTransport panics).EchoAgree honest 2 Packet.echo n) (a b : I) (ha : a ∈ honest) (hb : b ∈ honest)
    (sigA sigB : RecoverableSignature q) (hA : n.status a = .finished sigA) (hB : n.status b = .finished sigB) : sigA = sigB := by
  obtain ⟨n', hn', hs⟩ := C91_signing hW E hP hc hE epidOf message panics honest ks aux haux hkey d hd r hr init hinit n h
  exact C81_signature_agreement E hC epidOf message honest ids pub hids ks hpub aux hsub d r hr init hinit n' hn'.reachable
    (SameCourse.echoAgree hs (fun _ _ _ _ => WireFormat.signing_echo₂) hecho) a b ha hb sigA sigB (SameCourse.finished hs hA) (SameCourse.finished hs hB)

/-- Whoever is blamed is not honest, except in the rounds about a failure (C83), over serialized messages. What is missing is the same without exceptions, which is false
(`C83_honest_signer_blamed`). -/
theorem C91_signing_blame_partial (hW : FormatValid W q) (E : Signing.Env q I Ep G) (hS : SigningSetting E) (hP : W.P = E.P) (hE : SigningHashesFit E)
    (epidOf : BMap I G → BMap I PublicAux → Ep) (message sk : ZMod q) (panics : Panics I (Signing.Message q I G) (Signing.State q I Ep G)) (ids : Finset I)
    (shares : I → KeyShare I (ZMod q) G) (hshares : SharesKey E.C.g ids shares sk) (infos : I → AuxInfo I PaillierKey PublicAux) (setup : I → RPSetup)
    (haux : UsableAux E.P ids infos setup) (hfit : ∀ i ∈ ids, AllValues (AuxFits E.P) (infos i).pub)
    (hkey : ∀ i ∈ ids, (infos i).secret.modulus ≠ 0 ∧ (infos i).secret.modulus < 2 ^ E.P.modBits) (d : I → Signing.Draws q I)
    (hd : SigningDrawsValid E.P ids (fun i => (infos i).secret.modulus) (fun i => (setup i).modulus) d) (hdf : ∀ i ∈ ids, SigningDrawsFit E.P ((shares i).pub.keySet.erase i) (d i))
    (honest : Set I) (hsub : honest ⊆ (ids : Set I)) (hgamma : ∀ i ∈ honest, (d i).gamma ≠ 0)
    (r : I → Signing.Round1 q I Ep G) (hr : ∀ i ∈ honest, Signing.start E epidOf message (shares i) (infos i) i (d i) = .ok (r i))
    (init : I → Signing.State q I Ep G) (hinit : ∀ i ∈ honest, Signing.begin E (r i) = .ok (init i))
    (n : Net I (Packet I) (Signing.State q I Ep G) (WireErr (Signing.Err I)) (RecoverableSignature q))
    (h : (overWire (Signing.machine E) W.signingTransport panics).Reachable honest init n)
    (hecho : ∀ k ∈ [1, 2, 3], (overWire (Signing.machine E) W.signingTransport panics).EchoAgree honest k Packet.echo n)
    (i j : I) (hi : i ∈ honest) (e : WireErr (Signing.Err I)) (hst : n.status i = .stopped (.fault j e)) :
    j ∉ honest ∨ ∃ hat, e = .protocol (.decFailed hat) ∨ e = .protocol (.wrongIdsPsi hat) ∨ ∃ k, e = .protocol (.affGStarFailed hat k) := by
  obtain ⟨n', hn', hs⟩ := C91_signing hW E hP hS.consistent hE epidOf message panics honest shares infos (fun i hi => hfit i (hsub hi)) (fun i hi => hkey i (hsub hi)) d
    (fun i hi => hdf i (hsub hi)) r hr init hinit n h
  rcases SameCourse.fault hs hst with ⟨e', rfl, h'⟩ | ⟨-, hj⟩
  · rcases C83_signing_partial E hS epidOf message sk ids shares hshares infos setup haux d hd honest hsub hgamma r hr init hinit n' hn'.reachable
      (SameCourse.echoAgree hs (fun _ _ _ _ => WireFormat.signing_echo₁) (hecho 1 (by simp))) (SameCourse.echoAgree hs (fun _ _ _ _ => WireFormat.signing_echo₂) (hecho 2 (by simp)))
      (SameCourse.echoAgree hs (fun _ _ _ _ => WireFormat.signing_echo₃) (hecho 3 (by simp))) i j hi e' h' with hj | ⟨hat, hh⟩
    · exact .inl hj
    · refine .inr ⟨hat, ?_⟩
      rcases hh with rfl | rfl | ⟨k, rfl⟩
      · exact .inl rfl
      · exact .inr (.inl rfl)
      · exact .inr (.inr ⟨k, rfl⟩)
  · exact .inl hj

end Signing

/-- Messages with a part too many or too few are not read, in any round of any protocol. -/
theorem C91_parts (W : WireFormat G V) : SameParts (I := I) (W.keyInitTransport (q := q)) ∧ SameParts (I := I) W.auxGenTransport ∧ SameParts (I := I) (W.keyRefreshTransport (q := q)) ∧
    SameParts (I := I) (W.resharingTransport (q := q)) ∧ SameParts (I := I) (W.signingTransport (q := q)) := by
  refine ⟨?_, ?_, ?_, ?_, ?_⟩
  · intro r d m d' h hp
    unfold WireFormat.keyInitTransport at h
    dsimp only at h
    split at h <;> first
      | (cases h; done)
      | (obtain ⟨_, -, h⟩ := Option.bind_eq_some_iff.1 h
         obtain ⟨_, -, h⟩ := Option.bind_eq_some_iff.1 h
         obtain ⟨_, -, rfl⟩ := Option.map_eq_some_iff.1 h
         unfold WireFormat.keyInitTransport at hp
         dsimp only at hp
         obtain ⟨_, -, hp⟩ := Out.bind_eq_ok.1 hp
         obtain ⟨_, -, hp⟩ := Out.bind_eq_ok.1 hp
         obtain ⟨_, -, hp⟩ := Out.bind_eq_ok.1 hp
         rw [← Out.ok.inj hp]
         exact ⟨rfl, rfl, rfl⟩)
      | (obtain ⟨_, -, h⟩ := Option.bind_eq_some_iff.1 h
         obtain ⟨_, -, rfl⟩ := Option.map_eq_some_iff.1 h
         unfold WireFormat.keyInitTransport at hp
         dsimp only at hp
         obtain ⟨_, -, hp⟩ := Out.bind_eq_ok.1 hp
         obtain ⟨_, -, hp⟩ := Out.bind_eq_ok.1 hp
         rw [← Out.ok.inj hp]
         exact ⟨rfl, rfl, rfl⟩)
      | (obtain ⟨_, -, rfl⟩ := Option.map_eq_some_iff.1 h
         unfold WireFormat.keyInitTransport at hp
         dsimp only at hp
         obtain ⟨_, -, hp⟩ := Out.bind_eq_ok.1 hp
         rw [← Out.ok.inj hp]
         exact ⟨rfl, rfl, rfl⟩)
  · intro r d m d' h hp
    unfold WireFormat.auxGenTransport at h
    dsimp only at h
    split at h <;> first
      | (cases h; done)
      | (obtain ⟨_, -, h⟩ := Option.bind_eq_some_iff.1 h
         obtain ⟨_, -, h⟩ := Option.bind_eq_some_iff.1 h
         obtain ⟨_, -, rfl⟩ := Option.map_eq_some_iff.1 h
         unfold WireFormat.auxGenTransport at hp
         dsimp only at hp
         obtain ⟨_, -, hp⟩ := Out.bind_eq_ok.1 hp
         obtain ⟨_, -, hp⟩ := Out.bind_eq_ok.1 hp
         obtain ⟨_, -, hp⟩ := Out.bind_eq_ok.1 hp
         rw [← Out.ok.inj hp]
         exact ⟨rfl, rfl, rfl⟩)
      | (obtain ⟨_, -, h⟩ := Option.bind_eq_some_iff.1 h
         obtain ⟨_, -, rfl⟩ := Option.map_eq_some_iff.1 h
         unfold WireFormat.auxGenTransport at hp
         dsimp only at hp
         obtain ⟨_, -, hp⟩ := Out.bind_eq_ok.1 hp
         obtain ⟨_, -, hp⟩ := Out.bind_eq_ok.1 hp
         rw [← Out.ok.inj hp]
         exact ⟨rfl, rfl, rfl⟩)
      | (obtain ⟨_, -, rfl⟩ := Option.map_eq_some_iff.1 h
         unfold WireFormat.auxGenTransport at hp
         dsimp only at hp
         obtain ⟨_, -, hp⟩ := Out.bind_eq_ok.1 hp
         rw [← Out.ok.inj hp]
         exact ⟨rfl, rfl, rfl⟩)
  · intro r d m d' h hp
    unfold WireFormat.keyRefreshTransport at h
    dsimp only at h
    split at h <;> first
      | (cases h; done)
      | (obtain ⟨_, -, h⟩ := Option.bind_eq_some_iff.1 h
         obtain ⟨_, -, h⟩ := Option.bind_eq_some_iff.1 h
         obtain ⟨_, -, rfl⟩ := Option.map_eq_some_iff.1 h
         unfold WireFormat.keyRefreshTransport at hp
         dsimp only at hp
         obtain ⟨_, -, hp⟩ := Out.bind_eq_ok.1 hp
         obtain ⟨_, -, hp⟩ := Out.bind_eq_ok.1 hp
         obtain ⟨_, -, hp⟩ := Out.bind_eq_ok.1 hp
         rw [← Out.ok.inj hp]
         exact ⟨rfl, rfl, rfl⟩)
      | (obtain ⟨_, -, h⟩ := Option.bind_eq_some_iff.1 h
         obtain ⟨_, -, rfl⟩ := Option.map_eq_some_iff.1 h
         unfold WireFormat.keyRefreshTransport at hp
         dsimp only at hp
         obtain ⟨_, -, hp⟩ := Out.bind_eq_ok.1 hp
         obtain ⟨_, -, hp⟩ := Out.bind_eq_ok.1 hp
         rw [← Out.ok.inj hp]
         exact ⟨rfl, rfl, rfl⟩)
      | (obtain ⟨_, -, rfl⟩ := Option.map_eq_some_iff.1 h
         unfold WireFormat.keyRefreshTransport at hp
         dsimp only at hp
         obtain ⟨_, -, hp⟩ := Out.bind_eq_ok.1 hp
         rw [← Out.ok.inj hp]
         exact ⟨rfl, rfl, rfl⟩)
  · intro r d m d' h hp
    unfold WireFormat.resharingTransport at h
    dsimp only at h
    split at h <;> first
      | (cases h; done)
      | (obtain ⟨_, -, h⟩ := Option.bind_eq_some_iff.1 h
         obtain ⟨_, -, h⟩ := Option.bind_eq_some_iff.1 h
         obtain ⟨_, -, rfl⟩ := Option.map_eq_some_iff.1 h
         unfold WireFormat.resharingTransport at hp
         dsimp only at hp
         obtain ⟨_, -, hp⟩ := Out.bind_eq_ok.1 hp
         obtain ⟨_, -, hp⟩ := Out.bind_eq_ok.1 hp
         obtain ⟨_, -, hp⟩ := Out.bind_eq_ok.1 hp
         rw [← Out.ok.inj hp]
         exact ⟨rfl, rfl, rfl⟩)
      | (obtain ⟨_, -, h⟩ := Option.bind_eq_some_iff.1 h
         obtain ⟨_, -, rfl⟩ := Option.map_eq_some_iff.1 h
         unfold WireFormat.resharingTransport at hp
         dsimp only at hp
         obtain ⟨_, -, hp⟩ := Out.bind_eq_ok.1 hp
         obtain ⟨_, -, hp⟩ := Out.bind_eq_ok.1 hp
         rw [← Out.ok.inj hp]
         exact ⟨rfl, rfl, rfl⟩)
      | (obtain ⟨_, -, rfl⟩ := Option.map_eq_some_iff.1 h
         unfold WireFormat.resharingTransport at hp
         dsimp only at hp
         obtain ⟨_, -, hp⟩ := Out.bind_eq_ok.1 hp
         rw [← Out.ok.inj hp]
         exact ⟨rfl, rfl, rfl⟩)
  · intro r d m d' h hp
    unfold WireFormat.signingTransport at h
    dsimp only at h
    split at h <;> first
      | (cases h; done)
      | (obtain ⟨_, -, h⟩ := Option.bind_eq_some_iff.1 h
         obtain ⟨_, -, h⟩ := Option.bind_eq_some_iff.1 h
         obtain ⟨_, -, rfl⟩ := Option.map_eq_some_iff.1 h
         unfold WireFormat.signingTransport at hp
         dsimp only at hp
         obtain ⟨_, -, hp⟩ := Out.bind_eq_ok.1 hp
         obtain ⟨_, -, hp⟩ := Out.bind_eq_ok.1 hp
         obtain ⟨_, -, hp⟩ := Out.bind_eq_ok.1 hp
         rw [← Out.ok.inj hp]
         exact ⟨rfl, rfl, rfl⟩)
      | (obtain ⟨_, -, h⟩ := Option.bind_eq_some_iff.1 h
         obtain ⟨_, -, rfl⟩ := Option.map_eq_some_iff.1 h
         unfold WireFormat.signingTransport at hp
         dsimp only at hp
         obtain ⟨_, -, hp⟩ := Out.bind_eq_ok.1 hp
         obtain ⟨_, -, hp⟩ := Out.bind_eq_ok.1 hp
         rw [← Out.ok.inj hp]
         exact ⟨rfl, rfl, rfl⟩)
      | (obtain ⟨_, -, rfl⟩ := Option.map_eq_some_iff.1 h
         unfold WireFormat.signingTransport at hp
         dsimp only at hp
         obtain ⟨_, -, hp⟩ := Out.bind_eq_ok.1 hp
         rw [← Out.ok.inj hp]
         exact ⟨rfl, rfl, rfl⟩)

/-! ### Concrete cases -/

section Examples

attribute [local instance] Toy.fact11 Toy.order11

private def bitByte (b : Bool) : Byte := if b then 1 else 0

private theorem bits_inj : ∀ {l l' : List Bool} {m m' : List Bool}, l.map bitByte ++ (2#8 :: m.map bitByte) = l'.map bitByte ++ (2#8 :: m'.map bitByte) → l = l' ∧ m = m'
  | [], [], m, m', h => ⟨rfl, List.map_injective_iff.2 (by decide) (List.cons.inj h).2⟩
  | [], b :: l', m, m', h => by
    have := (List.cons.inj h).1
    cases b <;> exact absurd this (by decide)
  | b :: l, [], m, m', h => by
    have := (List.cons.inj h).1
    cases b <;> exact absurd this (by decide)
  | b :: l, b' :: l', m, m', h => by
    obtain ⟨h1, h2⟩ := List.cons.inj h
    obtain ⟨h3, h4⟩ := bits_inj h2
    exact ⟨by rw [(by decide : Function.Injective bitByte) h1, h3], h4⟩

/-- A hash of the data of key generation without collisions, as bytes -/
def kgByteHash : Nat → Nat → KeyInit.PublicData (ZMod 11) → List Byte := fun _ _ d =>
  BitVec.ofNat 8 d.capX.val :: BitVec.ofNat 8 d.capA.val :: (d.rho.map bitByte ++ (2#8 :: d.u.map bitByte))

theorem kgByteHash_inj (s i : Nat) (h h' : KeyInit.PublicData (ZMod 11)) (e : kgByteHash s i h = kgByteHash s i h') : h = h' := by
  obtain ⟨h1, e⟩ := List.cons.inj e
  obtain ⟨h2, e⟩ := List.cons.inj e
  obtain ⟨h3, h4⟩ := bits_inj e
  have key : ∀ a b : ZMod 11, BitVec.ofNat 8 a.val = BitVec.ofNat 8 b.val → a = b := by decide
  obtain ⟨x, a, rho, u⟩ := h
  obtain ⟨x', a', rho', u'⟩ := h'
  cases key _ _ h1
  cases key _ _ h2
  cases h3
  cases h4
  rfl

/-- Hashing panics exactly if an identity point of a message of round 2 is involved. -/
private def isBad : KeyInit.Message (ZMod 11) (ZMod 11) (List Byte) → Bool
  | .two m => m.capX = 0 ∨ m.capA = 0
  | _ => false

def kgPanics : Panics Nat (KeyInit.Message (ZMod 11) (ZMod 11) (List Byte)) (KeyInit.State Nat (ZMod 11) (ZMod 11) Nat (List Byte)) where
  recv _ _ m := isBad m
  next _ got := got.any fun a => isBad a.2

private theorem isBad_iff {m : KeyInit.Message (ZMod 11) (ZMod 11) (List Byte)} (h : isBad m = true) : ∃ m₂, m = .two m₂ ∧ (m₂.capX = 0 ∨ m₂.capA = 0) := by
  cases m with
  | one v => cases h
  | two m => exact ⟨m, rfl, of_decide_eq_true h⟩
  | three psi => cases h

private theorem kgPanicsOnly : PanicsOnly (KeyInit.machine kgByteHash kgH (1 : ZMod 11)) kgPanics fun m => ∃ m₂, m = .two m₂ ∧ (m₂.capX = 0 ∨ m₂.capA = 0) where
  recv _ _ _ h := isBad_iff h
  next _ got h := by
    obtain ⟨a, ha, h⟩ := List.any_eq_true.1 h
    exact .inl ⟨a, ha, isBad_iff h⟩

private theorem kgBits (i : Nat) : BitsFit (kgDraws i).rho ∧ BitsFit (kgDraws i).u := ⟨by simp [BitsFit, kgDraws], by simp [BitsFit, kgDraws]⟩

/-- The key generation of three parties over serialized messages, two of them counted as honest, with an echo of the serialized broadcasts of round 1: both finish, so the
hypotheses of `C91_key_init`, `C91_key_init_agreement` and `C91_key_init_finishes_partial` are met. -/
example : ∃ (n : Spec.Net Nat _ _ _ _) (shares : Nat → KeyShare Nat (ZMod 11) (ZMod 11)),
    (overWire (KeyInit.machine kgByteHash kgH (1 : ZMod 11)) toyWire.keyInitTransport kgPanics).Reachable {1, 2} (fun i => .one (kgCtx i)) n ∧
    (∀ i ∈ ({1, 2} : Set Nat), n.status i = .finished (shares i)) ∧
    (overWire (KeyInit.machine kgByteHash kgH (1 : ZMod 11)) toyWire.keyInitTransport kgPanics).EchoAgree {1, 2} 1 Packet.echo n ∧
    (shares 1).verifyingKeyAsPoint = (shares 2).verifyingKeyAsPoint := by
  have hsub : ({1, 2} : Set Nat) ⊆ (({1, 2, 3} : Finset Nat) : Set Nat) := by rintro i (rfl | rfl) <;> simp
  obtain ⟨shares, h, -⟩ := C91_key_init_finishes_partial toyWire_valid kgByteHash kgH (1 : ZMod 11) (by decide) kgPanics {1, 2, 3} 7 kgDraws 3 (fun _ _ => rfl) (fun i _ => kgBits i)
    kgCtx kgStart (by decide +kernel) (by decide +kernel) kgPanicsOnly
  obtain ⟨n, hn, hf, he⟩ := h.exists_agreeing (echo := Packet.echo) (k := 1)
    (fun i hi l s hs => by
      obtain ⟨l', -, hs'⟩ := overWire_replay hs
      intro j hj
      have hj : j ∈ (kgCtx i).otherIds := by
        rw [← (KeyInit.replay_expected hs').1]
        exact hj
      exact (Finset.mem_erase.1 hj).2)
    (fun i hi l s hs hk => by
      obtain ⟨l', hl, hs'⟩ := overWire_replay hs
      rw [← hl]
      exact (KeyInit.replay_expected hs').2.symm.trans hk)
    (fun s hs a ha b hb => by
      obtain ⟨m, hm, hp⟩ := mem_packAll.1 ha
      obtain ⟨m', hm', hp'⟩ := mem_packAll.1 hb
      have e : m = m' := KeyInit.send_one s hs _ hm _ hm'
      rw [e] at hp
      rw [Out.ok.inj (hp.symm.trans hp')]) {1, 2} hsub
  exact ⟨n, shares, hn, hf, he, (C91_key_init_agreement toyWire_valid kgByteHash kgByteHash_inj kgH 1 kgPanics {1, 2} {1, 2, 3} 7 kgDraws (fun i _ => kgBits i) kgCtx
    (fun i hi => kgStart i (hsub hi)) n hn he 1 2 (by simp) (by simp) (by decide) _ _ (hf 1 (by simp)) (hf 2 (by simp))).2.1⟩

/-- Party 3 sends nothing that can be read; party 1 blames it (`C91_key_init_blame`). -/
example : ∃ n : Spec.Net Nat _ _ _ _,
    (overWire (KeyInit.machine kgByteHash kgH (1 : ZMod 11)) toyWire.keyInitTransport kgPanics).Reachable {1, 2} (fun i => .one (kgCtx i)) n ∧
    n.status 1 = .stopped (.fault 3 .malformed) ∧
    (overWire (KeyInit.machine kgByteHash kgH (1 : ZMod 11)) toyWire.keyInitTransport kgPanics).EchoAgree {1, 2} 2 Packet.echo n := by
  refine ⟨_, .tail .refl (.receive _ 1 (.one (kgCtx 1)) [] 3 ⟨none, none, none⟩ (by simp) rfl (by decide) (by simp) (fun h => by simp at h)), ?_, ?_⟩
  · rfl
  · intro i _ i' _ x hx
    cases hx

/-- Party 2 has drawn zero, and the others are honest: it never finishes (`C91_key_init_zero`). -/
example (n : Spec.Net Nat (Packet Nat) (KeyInit.State Nat (ZMod 11) (ZMod 11) Nat (List Byte)) (WireErr KeyInit.Err) (KeyShare Nat (ZMod 11) (ZMod 11)))
    (h : (overWire (KeyInit.machine kgByteHash kgH (1 : ZMod 11)) toyWire.keyInitTransport kgPanics).Reachable {1, 2, 3}
      (fun i => .one (if i = 2 then ⟨{1, 3}, 2, 0, 4, ⟨0, 4, [true], [false]⟩, 7⟩ else kgCtx i)) n) : ∀ share, n.status 2 ≠ .finished share :=
  C91_key_init_zero toyWire_valid kgByteHash kgH 1 kgPanics {1, 2, 3} {1, 2, 3} 7 (fun i => if i = 2 then ⟨0, 4, [true], [false]⟩ else kgDraws i)
    (fun i => if i = 2 then ⟨{1, 3}, 2, 0, 4, ⟨0, 4, [true], [false]⟩, 7⟩ else kgCtx i) 2 (by simp) (by simp [BitsFit]) (by rfl) ⟨1, by decide, by decide⟩ (.inl rfl) n h

/-- Three parties generate auxiliary info over serialized messages. -/
example : ∃ (ctx : Nat → AuxGen.Context Nat Nat) (n : Spec.Net Nat _ _ _ _) (res : Nat → AuxInfo Nat PaillierKey PublicAux),
    (∀ i ∈ ({1, 2, 3} : Finset Nat), AuxGen.start Toy.auxEnv {1, 2, 3} 7 i (Toy.auxDraws i) = .ok (ctx i)) ∧
    (overWire (AuxGen.machine Toy.auxEnv wireHash) toyWire.auxGenTransport ⟨fun _ _ _ => false, fun _ _ => false⟩).Reachable (({1, 2, 3} : Finset Nat) : Set Nat) (fun i => .one (ctx i)) n ∧
    ∀ i ∈ ({1, 2, 3} : Finset Nat), n.status i = .finished (res i) := by
  have hst : ∀ i ∈ ({1, 2, 3} : Finset Nat), ∃ c, AuxGen.start Toy.auxEnv ({1, 2, 3} : Finset Nat) 7 i (Toy.auxDraws i) = .ok c := by
    intro i hi
    obtain ⟨c, h, _⟩ := C54_start Toy.auxEnv 2 {1, 2, 3} 7 i hi (Toy.auxDraws i) (Toy.auxDraws_valid i (by simp at hi; omega))
    exact ⟨c, h⟩
  have : Nonempty (AuxGen.Context Nat Nat) := ⟨(hst 1 (by decide)).choose⟩
  obtain ⟨ctx, hctx⟩ := exists_fun hst
  obtain ⟨res, h, -⟩ := C91_aux_gen_finishes toyWire_valid Toy.auxEnv rfl auxHashesFit 2 Toy.auxEnv_valid wireHash {1, 2, 3} 7 Toy.auxDraws (fun i _ => auxDrawsFit i)
    (fun i hi => Toy.auxDraws_valid i (by simp at hi; omega)) (fun i _ j _ _ => Toy.facDraws_valid i j) 3 (fun _ _ => rfl) ctx hctx
  obtain ⟨n, hn, hf⟩ := h.exists_finished
  exact ⟨ctx, n, res, hctx, hn, hf⟩

end Examples

end Synedrion.Props
