import Verif.Lemmas.WireNet

/-!
# Lemmas: the serialized messages of the protocols
-/

set_option linter.unusedSectionVars false

namespace Synedrion

open Spec

variable {I G V : Type} [LinearOrder I] [AddCommGroup G] {q : Nat} {W : WireFormat G V}

theorem WireCodec.Lawful.trip {ε α : Type} {c : WireCodec ε I α} {fits : α → Prop} {pts : α → List G} (h : c.Lawful fits pts) {x : α} (hx : fits x) {d : Data I} (hd : c.enc x = .ok d) :
    c.dec d = some x := by
  by_cases h0 : 0 ∈ pts x
  · rw [h.panic x hx h0] at hd; cases hd
  · obtain ⟨d', h1, h2⟩ := h.ok x hx h0
    rw [h1] at hd
    cases Out.ok.inj hd
    exact h2

namespace Spec.FormatValid

/-! ### Key generation -/

theorem keyInit_one (hW : FormatValid W q) {v : V} {d : Packet I} (h : (W.keyInitTransport (q := q)).pack (.one v) = .ok d) : (W.keyInitTransport (q := q)).unpack 1 d = some (.one v) := by
  obtain ⟨e, he, h⟩ := Out.bind_eq_ok.1 (show Out.bind ((W.keyInit (q := q) .echo 1).enc v) (fun e => .ok ⟨some e, none, none⟩) = .ok d from h)
  cases Out.ok.inj h
  exact congrArg (Option.map _) ((hW.keyInit_lawful .echo 1).trip trivial he)

theorem keyInit_two (hW : FormatValid W q) {m : KeyInit.Msg2 G} (hm : keyInitMessageFits (q := q) (V := V) (.two m)) {d : Packet I} (h : (W.keyInitTransport (q := q)).pack (.two m) = .ok d) :
    (W.keyInitTransport (q := q)).unpack 2 d = some (.two m) := by
  obtain ⟨e, he, h⟩ := Out.bind_eq_ok.1 (show Out.bind ((W.keyInit (q := q) .echo 2).enc m.rho) (fun e => Out.bind ((W.keyInit (q := q) .normal 2).enc ⟨m.capX, m.capA, m.u⟩) fun n => .ok ⟨some e, some n, none⟩) = .ok d from h)
  obtain ⟨n, hn, h⟩ := Out.bind_eq_ok.1 (show Out.bind ((W.keyInit (q := q) .normal 2).enc ⟨m.capX, m.capA, m.u⟩) (fun n => .ok ⟨some e, some n, none⟩) = .ok d from h)
  cases Out.ok.inj h
  show Option.bind _ _ = _
  rw [(hW.keyInit_lawful .normal 2).trip (hm 2 .normal _ rfl) hn]
  exact congrArg (Option.map _) ((hW.keyInit_lawful .echo 2).trip (hm 2 .echo _ rfl) he)

theorem keyInit_three (hW : FormatValid W q) {m : SchProof (ZMod q)} {d : Packet I} (h : (W.keyInitTransport (q := q)).pack (.three m) = .ok d) :
    (W.keyInitTransport (q := q)).unpack 3 d = some (.three m) := by
  obtain ⟨n, hn, h⟩ := Out.bind_eq_ok.1 (show Out.bind ((W.keyInit (q := q) .normal 3).enc m) (fun n => .ok ⟨none, some n, none⟩) = .ok d from h)
  cases Out.ok.inj h
  exact congrArg (Option.map _) ((hW.keyInit_lawful .normal 3).trip trivial hn)

theorem keyInit_read (hW : FormatValid W q) {r : Nat} {d : Packet I} {m : KeyInit.Message (ZMod q) G V} (h : W.keyInitTransport.unpack r d = some m) : keyInitMessageFits m := by
  obtain ⟨e, n, d⟩ := d
  rcases e with _ | e <;> rcases n with _ | n <;> rcases d with _ | d <;> rcases r with _ | _ | _ | _ | r <;> first | (cases h; done) | skip
  · obtain ⟨x, h1, rfl⟩ := Option.map_eq_some_iff.1 h
    intro k p x hx
    rcases p <;> rcases k with _ | _ | _ | _ | k <;> first | (cases hx; done) | trivial
  · obtain ⟨x, h1, rfl⟩ := Option.map_eq_some_iff.1 h
    intro k p x hx
    rcases p <;> rcases k with _ | _ | _ | _ | k <;> first | (cases hx; done) | trivial
  · obtain ⟨x, h1, h⟩ := Option.bind_eq_some_iff.1 h
    obtain ⟨y, h2, rfl⟩ := Option.map_eq_some_iff.1 h
    intro k p x hx
    rcases p <;> rcases k with _ | _ | _ | _ | k <;> first | (cases hx; done) | (cases Option.some.inj hx; first | exact (hW.keyInit_lawful .normal 2).sound _ _ h1 | exact (hW.keyInit_lawful .echo 2).sound _ _ h2)

/-! ### Auxiliary info generation -/

theorem auxGen_one (hW : FormatValid W q) {v : V} {d : Packet I} (h : W.auxGenTransport.pack (.one v) = .ok d) : W.auxGenTransport.unpack 1 d = some (.one v) := by
  obtain ⟨e, he, h⟩ := Out.bind_eq_ok.1 (show Out.bind ((W.auxGen .echo 1).enc v) (fun e => .ok ⟨some e, none, none⟩) = .ok d from h)
  cases Out.ok.inj h
  exact congrArg (Option.map _) ((hW.auxGen_lawful .echo 1).trip trivial he)

theorem auxGen_two (hW : FormatValid W q) {m : AuxGen.Msg2} (hm : auxGenMessageFits (V := V) W.P (.two m)) {d : Packet I} (h : W.auxGenTransport.pack (.two m) = .ok d) :
    W.auxGenTransport.unpack 2 d = some (.two m) := by
  obtain ⟨e, he, h⟩ := Out.bind_eq_ok.1 (show Out.bind ((W.auxGen .echo 2).enc m.echo) (fun e => Out.bind ((W.auxGen .normal 2).enc ⟨m.pk, m.psi, m.u⟩) fun n => .ok ⟨some e, some n, none⟩) = .ok d from h)
  obtain ⟨n, hn, h⟩ := Out.bind_eq_ok.1 (show Out.bind ((W.auxGen .normal 2).enc ⟨m.pk, m.psi, m.u⟩) (fun n => .ok ⟨some e, some n, none⟩) = .ok d from h)
  cases Out.ok.inj h
  show Option.bind _ _ = _
  rw [(hW.auxGen_lawful .echo 2).trip (hm 2 .echo _ rfl) he]
  exact congrArg (Option.map _) ((hW.auxGen_lawful .normal 2).trip (hm 2 .normal _ rfl) hn)

theorem auxGen_three (hW : FormatValid W q) {m : AuxGen.Msg3} (hm : auxGenMessageFits (V := V) W.P (.three m)) {d : Packet I} (h : W.auxGenTransport.pack (.three m) = .ok d) :
    W.auxGenTransport.unpack 3 d = some (.three m) := by
  obtain ⟨n, hn, h⟩ := Out.bind_eq_ok.1 h
  obtain ⟨e, he, h⟩ := Out.bind_eq_ok.1 h
  cases Out.ok.inj h
  show Option.bind _ _ = _
  rw [(hW.auxGen_lawful .normal 3).trip (hm 3 .normal _ rfl) hn]
  exact congrArg (Option.map _) ((hW.auxGen_lawful .direct 3).trip (hm 3 .direct _ rfl) he)

theorem auxGen_read (hW : FormatValid W q) {r : Nat} {d : Packet I} {m : AuxGen.Message V} (h : W.auxGenTransport.unpack r d = some m) : auxGenMessageFits W.P m := by
  obtain ⟨e, n, d⟩ := d
  rcases e with _ | e <;> rcases n with _ | n <;> rcases d with _ | d <;> rcases r with _ | _ | _ | _ | r <;> first | (cases h; done) | skip
  · obtain ⟨x, h1, h⟩ := Option.bind_eq_some_iff.1 h
    obtain ⟨y, h2, rfl⟩ := Option.map_eq_some_iff.1 h
    intro k p x hx
    rcases p <;> rcases k with _ | _ | _ | _ | k <;> first | (cases hx; done) | (cases Option.some.inj hx; first | exact (hW.auxGen_lawful .normal 3).sound _ _ h1 | exact (hW.auxGen_lawful .direct 3).sound _ _ h2)
  · obtain ⟨x, h1, rfl⟩ := Option.map_eq_some_iff.1 h
    intro k p x hx
    rcases p <;> rcases k with _ | _ | _ | _ | k <;> first | (cases hx; done) | trivial
  · obtain ⟨x, h1, h⟩ := Option.bind_eq_some_iff.1 h
    obtain ⟨y, h2, rfl⟩ := Option.map_eq_some_iff.1 h
    intro k p x hx
    rcases p <;> rcases k with _ | _ | _ | _ | k <;> first | (cases hx; done) | (cases Option.some.inj hx; first | exact (hW.auxGen_lawful .echo 2).sound _ _ h1 | exact (hW.auxGen_lawful .normal 2).sound _ _ h2)

/-! ### Key refresh -/

theorem keyRefresh_one (hW : FormatValid W q) {v : V} {d : Packet I} (h : (W.keyRefreshTransport (q := q)).pack (.one v) = .ok d) :
    (W.keyRefreshTransport (q := q)).unpack 1 d = some (.one v) := by
  obtain ⟨e, he, h⟩ := Out.bind_eq_ok.1 (show Out.bind ((W.keyRefresh (I := I) (q := q) .echo 1).enc v) (fun e => .ok ⟨some e, none, none⟩) = .ok d from h)
  cases Out.ok.inj h
  exact congrArg (Option.map _) ((hW.keyRefresh_lawful .echo 1).trip trivial he)

theorem keyRefresh_two (hW : FormatValid W q) {m : KeyRefresh.Msg2 I G} (hm : keyRefreshMessageFits (q := q) (V := V) W.P (.two m)) {d : Packet I}
    (h : (W.keyRefreshTransport (q := q)).pack (.two m) = .ok d) : (W.keyRefreshTransport (q := q)).unpack 2 d = some (.two m) := by
  obtain ⟨e, he, h⟩ := Out.bind_eq_ok.1 h
  obtain ⟨n, hn, h⟩ := Out.bind_eq_ok.1 h
  cases Out.ok.inj h
  show Option.bind _ _ = _
  rw [(hW.keyRefresh_lawful .echo 2).trip (hm 2 .echo _ rfl) he]
  exact congrArg (Option.map _) ((hW.keyRefresh_lawful .normal 2).trip (hm 2 .normal _ rfl) hn)

theorem keyRefresh_three (hW : FormatValid W q) {m : KeyRefresh.Msg3 I (ZMod q)} (hm : keyRefreshMessageFits (G := G) (V := V) W.P (.three m)) {d : Packet I}
    (h : W.keyRefreshTransport.pack (.three m) = .ok d) : W.keyRefreshTransport.unpack 3 d = some (.three m) := by
  obtain ⟨e, he, h⟩ := Out.bind_eq_ok.1 h
  obtain ⟨n, hn, h⟩ := Out.bind_eq_ok.1 h
  obtain ⟨d', hd, h⟩ := Out.bind_eq_ok.1 h
  cases Out.ok.inj h
  show Option.bind _ _ = _
  rw [(hW.keyRefresh_lawful .echo 3).trip (hm 3 .echo _ rfl) he]
  show Option.bind _ _ = _
  rw [(hW.keyRefresh_lawful .normal 3).trip (hm 3 .normal _ rfl) hn]
  exact congrArg (Option.map _) ((hW.keyRefresh_lawful .direct 3).trip (hm 3 .direct _ rfl) hd)

theorem keyRefresh_read (hW : FormatValid W q) {r : Nat} {d : Packet I} {m : KeyRefresh.Message I (ZMod q) G V} (h : W.keyRefreshTransport.unpack r d = some m) :
    keyRefreshMessageFits W.P m := by
  obtain ⟨e, n, d⟩ := d
  rcases e with _ | e <;> rcases n with _ | n <;> rcases d with _ | d <;> rcases r with _ | _ | _ | _ | r <;> first | (cases h; done) | skip
  · obtain ⟨x, h1, rfl⟩ := Option.map_eq_some_iff.1 h
    intro k p x hx
    rcases p <;> rcases k with _ | _ | _ | _ | k <;> first | (cases hx; done) | trivial
  · obtain ⟨x, h1, h⟩ := Option.bind_eq_some_iff.1 h
    obtain ⟨y, h2, rfl⟩ := Option.map_eq_some_iff.1 h
    intro k p x hx
    rcases p <;> rcases k with _ | _ | _ | _ | k <;> first | (cases hx; done) | (cases Option.some.inj hx; first | exact (hW.keyRefresh_lawful .echo 2).sound _ _ h1 | exact (hW.keyRefresh_lawful .normal 2).sound _ _ h2)
  · obtain ⟨x, h1, h⟩ := Option.bind_eq_some_iff.1 h
    obtain ⟨y, h2, h⟩ := Option.bind_eq_some_iff.1 h
    obtain ⟨z, h3, rfl⟩ := Option.map_eq_some_iff.1 h
    intro k p x hx
    rcases p <;> rcases k with _ | _ | _ | _ | k <;> first | (cases hx; done) | (cases Option.some.inj hx; first | exact (hW.keyRefresh_lawful .normal 3).sound _ _ h2 | exact (hW.keyRefresh_lawful .direct 3).sound _ _ h3 | trivial)

/-! ### Key resharing -/

theorem resharing_trip (hW : FormatValid W q) {m : KeyResharing.Msg (ZMod q) G} {d : Packet I} (h : W.resharingTransport.pack m = .ok d) : W.resharingTransport.unpack 1 d = some m := by
  obtain ⟨e, he, h⟩ := Out.bind_eq_ok.1 h
  obtain ⟨n, hn, h⟩ := Out.bind_eq_ok.1 h
  cases Out.ok.inj h
  show Option.bind _ _ = _
  rw [hW.resharingBroadcast_lawful.trip trivial he]
  exact congrArg (Option.map _) (hW.resharingDirect_lawful.trip trivial hn)

/-! ### Signing -/

theorem signing_one (hW : FormatValid W q) {m : Signing.Msg1 q G} (hm : signingMessageFits (I := I) W.P (.one m)) {d : Packet I} (h : W.signingTransport.pack (.one m) = .ok d) :
    W.signingTransport.unpack 1 d = some (.one m) := by
  obtain ⟨e, he, h⟩ := Out.bind_eq_ok.1 h
  obtain ⟨n, hn, h⟩ := Out.bind_eq_ok.1 h
  cases Out.ok.inj h
  show Option.bind _ _ = _
  rw [(hW.signing_lawful .direct 1).trip (hm 1 .direct _ rfl) hn]
  exact congrArg (Option.map _) ((hW.signing_lawful .echo 1).trip (hm 1 .echo _ rfl) he)

theorem signing_two (hW : FormatValid W q) {m : Signing.Msg2 q I G} (hm : signingMessageFits W.P (.two m)) {d : Packet I} (h : W.signingTransport.pack (.two m) = .ok d) :
    W.signingTransport.unpack 2 d = some (.two m) := by
  obtain ⟨e, he, h⟩ := Out.bind_eq_ok.1 h
  obtain ⟨n, hn, h⟩ := Out.bind_eq_ok.1 h
  cases Out.ok.inj h
  show Option.bind _ _ = _
  rw [(hW.signing_lawful .echo 2).trip (hm 2 .echo _ rfl) he]
  exact congrArg (Option.map _) ((hW.signing_lawful .normal 2).trip (hm 2 .normal _ rfl) hn)

theorem signing_three (hW : FormatValid W q) {m : Signing.Msg3 q G} {d : Packet I} (h : W.signingTransport.pack (.three m) = .ok d) : W.signingTransport.unpack 3 d = some (.three m) := by
  obtain ⟨e, he, h⟩ := Out.bind_eq_ok.1 (show Out.bind ((W.signing (I := I) .echo 3).enc m.delta) (fun e => Out.bind ((W.signing (I := I) .normal 3).enc ⟨m.capDelta, m.psiPrime, m.capS⟩) fun n => .ok ⟨some e, some n, none⟩) = .ok d from h)
  obtain ⟨n, hn, h⟩ := Out.bind_eq_ok.1 (show Out.bind ((W.signing (I := I) .normal 3).enc ⟨m.capDelta, m.psiPrime, m.capS⟩) (fun n => .ok ⟨some e, some n, none⟩) = .ok d from h)
  cases Out.ok.inj h
  show Option.bind _ _ = _
  rw [(hW.signing_lawful .echo 3).trip trivial he]
  exact congrArg (Option.map _) ((hW.signing_lawful .normal 3).trip trivial hn)

theorem signing_four (hW : FormatValid W q) {m : ZMod q} {d : Packet I} (h : W.signingTransport.pack (.four m) = .ok d) : W.signingTransport.unpack 4 d = some (.four m) := by
  obtain ⟨n, hn, h⟩ := Out.bind_eq_ok.1 (show Out.bind ((W.signing (I := I) .normal 4).enc m) (fun n => .ok ⟨none, some n, none⟩) = .ok d from h)
  cases Out.ok.inj h
  exact congrArg (Option.map _) ((hW.signing_lawful .normal 4).trip trivial hn)

theorem signing_error (hW : FormatValid W q) {m : Signing.MsgErr I G} (hm : signingMessageFits (q := q) W.P (.error m)) {d : Packet I}
    (h : (W.signingTransport (q := q)).pack (.error m) = .ok d) : (W.signingTransport (q := q)).unpack 5 d = some (.error m) ∧ (W.signingTransport (q := q)).unpack 6 d = some (.error m) := by
  obtain ⟨e, he, h⟩ := Out.bind_eq_ok.1 h
  cases Out.ok.inj h
  have := congrArg (Option.map (Signing.Message.error (q := q))) ((hW.signing_lawful .echo 5).trip (hm 5 .echo _ rfl) he)
  exact ⟨this, this⟩

theorem signing_read (hW : FormatValid W q) {r : Nat} {d : Packet I} {m : Signing.Message q I G} (h : W.signingTransport.unpack r d = some m) : signingMessageFits W.P m := by
  obtain ⟨e, n, d⟩ := d
  rcases e with _ | e <;> rcases n with _ | n <;> rcases d with _ | d <;> rcases r with _ | _ | _ | _ | _ | _ | _ | r <;> first | (cases h; done) | skip
  · obtain ⟨x, h1, rfl⟩ := Option.map_eq_some_iff.1 h
    intro k p x hx
    rcases p <;> rcases k with _ | _ | _ | _ | _ | _ | _ | k <;> first | (cases hx; done) | trivial
  · obtain ⟨x, h1, rfl⟩ := Option.map_eq_some_iff.1 h
    intro k p x hx
    rcases p <;> rcases k with _ | _ | _ | _ | _ | _ | _ | k <;> first | (cases hx; done) | (cases Option.some.inj hx; exact (hW.signing_lawful .echo 5).sound _ _ h1)
  · obtain ⟨x, h1, rfl⟩ := Option.map_eq_some_iff.1 h
    intro k p x hx
    rcases p <;> rcases k with _ | _ | _ | _ | _ | _ | _ | k <;> first | (cases hx; done) | (cases Option.some.inj hx; exact (hW.signing_lawful .echo 5).sound _ _ h1)
  · obtain ⟨x, h1, h⟩ := Option.bind_eq_some_iff.1 h
    obtain ⟨y, h2, rfl⟩ := Option.map_eq_some_iff.1 h
    intro k p x hx
    rcases p <;> rcases k with _ | _ | _ | _ | _ | _ | _ | k <;> first | (cases hx; done) | (cases Option.some.inj hx; first | exact (hW.signing_lawful .direct 1).sound _ _ h1 | exact (hW.signing_lawful .echo 1).sound _ _ h2)
  · obtain ⟨x, h1, h⟩ := Option.bind_eq_some_iff.1 h
    obtain ⟨y, h2, rfl⟩ := Option.map_eq_some_iff.1 h
    intro k p x hx
    rcases p <;> rcases k with _ | _ | _ | _ | _ | _ | _ | k <;> first | (cases hx; done) | (cases Option.some.inj hx; first | exact (hW.signing_lawful .echo 2).sound _ _ h1 | exact (hW.signing_lawful .normal 2).sound _ _ h2)
  · obtain ⟨x, h1, h⟩ := Option.bind_eq_some_iff.1 h
    obtain ⟨y, h2, rfl⟩ := Option.map_eq_some_iff.1 h
    intro k p x hx
    rcases p <;> rcases k with _ | _ | _ | _ | _ | _ | _ | k <;> first | (cases hx; done) | trivial

end Spec.FormatValid

/-! ### Honest parties -/

theorem KeyInit.faithful [Fact q.Prime] [LinearOrder (ZMod q)] [Module (ZMod q) G] [DecidableEq G] [DecidableEq V] {Sid : Type} (hW : FormatValid W q) {hashV : Sid → I → KeyInit.PublicData G → V}
    {H : SchHash G (KeyInit.SchAux I Sid) → ZMod q} {g : G} : Faithful (KeyInit.machine hashV H g) W.keyInitTransport keyInitMessageFits KeyInit.StateFits where
  read _ _ _ := hW.keyInit_read
  next _ _ _ h _ hn := KeyInit.next_fits h hn
  trip s hs a ha d hd := by
    have hf := KeyInit.send_fits hs ha
    obtain ⟨j, m⟩ := a
    cases s with
    | one c =>
      obtain ⟨b, _, hb⟩ := List.mem_map.1 (show (j, m) ∈ (bsetIter c.otherIds).map fun j => (j, Message.one (msg1 hashV c)) from ha)
      cases hb
      exact hW.keyInit_one hd
    | two r =>
      obtain ⟨b, _, hb⟩ := List.mem_map.1 (show (j, m) ∈ (bsetIter r.ctx.otherIds).map fun j => (j, Message.two (msg2 r.ctx)) from ha)
      cases hb
      exact hW.keyInit_two hf hd
    | three r =>
      obtain ⟨b, _, hb⟩ := List.mem_map.1 (show (j, m) ∈ (bsetIter r.ctx.otherIds).map fun j => (j, Message.three (msg3 H r)) from ha)
      cases hb
      exact hW.keyInit_three hd

theorem AuxGen.faithful [DecidableEq V] {Sid : Type} (hW : FormatValid W q) {E : AuxEnv I Sid} (hP : W.P = E.P) (hE : AuxHashesFit E) {hashV : Sid → I → AuxGen.Hashed → V} :
    Faithful (AuxGen.machine E hashV) W.auxGenTransport (auxGenMessageFits E.P) (AuxGen.StateFits E.P) where
  read _ _ _ h := hP ▸ hW.auxGen_read h
  next _ _ _ h hg hn := AuxGen.next_fits hE h hg hn
  trip s hs a ha d hd := by
    have hf := AuxGen.send_fits (hashV := hashV) hs ha
    rw [← hP] at hf
    obtain ⟨j, m⟩ := a
    cases s with
    | one c =>
      obtain ⟨b, _, hb⟩ := List.mem_map.1 (show (j, m) ∈ (bsetIter c.otherIds).map fun j => (j, Message.one (msg1 hashV c)) from ha)
      cases hb
      exact hW.auxGen_one hd
    | two c capVs =>
      obtain ⟨b, _, hb⟩ := List.mem_map.1 (show (j, m) ∈ (bsetIter c.otherIds).map fun j => (j, Message.two (msg2 c)) from ha)
      cases hb
      exact hW.auxGen_two hf hd
    | three r out =>
      obtain ⟨b, _, hb⟩ := List.mem_map.1 (show (j, m) ∈ out.map fun a => (a.1, Message.three a.2) from ha)
      cases hb
      exact hW.auxGen_three hf hd

theorem KeyRefresh.faithful [Fact q.Prime] [LinearOrder (ZMod q)] [Module (ZMod q) G] [DecidableEq G] [DecidableEq V] {Sid : Type} (hW : FormatValid W q) {E : KeyRefresh.Env I Sid (ZMod q) G}
    (hP : W.P = E.aux.P) (hE : AuxHashesFit E.aux) {hashV : Sid → I → KeyRefresh.Hashed I G → V} :
    Faithful (KeyRefresh.machine E hashV) W.keyRefreshTransport (keyRefreshMessageFits E.aux.P) (KeyRefresh.StateFits E.aux.P) where
  read _ _ _ h := hP ▸ hW.keyRefresh_read h
  next _ _ _ h hg hn := KeyRefresh.next_fits hE h hg hn
  trip s hs a ha d hd := by
    have hf := KeyRefresh.send_fits (hashV := hashV) hs ha
    rw [← hP] at hf
    obtain ⟨j, m⟩ := a
    cases s with
    | one c =>
      obtain ⟨b, _, hb⟩ := List.mem_map.1 (show (j, m) ∈ (bsetIter c.otherIds).map fun j => (j, Message.one (msg1 hashV c)) from ha)
      cases hb
      exact hW.keyRefresh_one hd
    | two c capVs =>
      obtain ⟨b, _, hb⟩ := List.mem_map.1 (show (j, m) ∈ (bsetIter c.otherIds).map fun j => (j, Message.two (msg2 c)) from ha)
      cases hb
      exact hW.keyRefresh_two hf hd
    | three r out =>
      obtain ⟨b, _, hb⟩ := List.mem_map.1 (show (j, m) ∈ out.map fun a => (a.1, Message.three a.2) from ha)
      cases hb
      exact hW.keyRefresh_three hf hd

theorem KeyResharing.faithful [Fact q.Prime] [LinearOrder (ZMod q)] [Module (ZMod q) G] [DecidableEq G] (hW : FormatValid W q) {g : G} :
    Faithful (KeyResharing.machine (F := ZMod q) (I := I) g) W.resharingTransport (fun _ => True) (fun _ => True) where
  read _ _ _ _ := trivial
  next _ _ _ _ _ _ := trivial
  trip _ _ _ _ _ hd := hW.resharing_trip hd

theorem Signing.faithful [Fact q.Prime] [Module (ZMod q) G] [DecidableEq G] {Ep : Type} (hW : FormatValid W q) {E : Signing.Env q I Ep G} (hP : W.P = E.P) (hE : SigningHashesFit E) :
    Faithful (Signing.machine E) W.signingTransport (signingMessageFits E.P) (Signing.StateFits E.P) where
  read _ _ _ h := hP ▸ hW.signing_read h
  next _ _ _ h _ hn := Signing.next_fits hE h hn
  trip s hs a ha d hd := by
    have hf := Signing.send_fits hs ha
    rw [← hP] at hf
    obtain ⟨j, m⟩ := a
    cases s with
    | one r out =>
      obtain ⟨b, _, hb⟩ := List.mem_map.1 (show (j, m) ∈ out.map fun a => (a.1, Message.one a.2) from ha)
      cases hb
      exact hW.signing_one hf hd
    | two r =>
      obtain ⟨b, _, hb⟩ := List.mem_map.1 ha
      cases hb
      exact hW.signing_two hf hd
    | three r =>
      obtain ⟨b, _, hb⟩ := List.mem_map.1 ha
      cases hb
      exact hW.signing_three hd
    | four r =>
      obtain ⟨b, _, hb⟩ := List.mem_map.1 ha
      cases hb
      exact hW.signing_four hd
    | error r m =>
      obtain ⟨b, _, hb⟩ := List.mem_map.1 ha
      cases hb
      cases hh : r.hat
      · simpa [Signing.machine, hh] using (hW.signing_error hf hd).1
      · simpa [Signing.machine, hh] using (hW.signing_error hf hd).2

end Synedrion
