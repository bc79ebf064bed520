import Verif.Lemmas.WireEvidenceSplits
import Verif.Props.NetworkEvidence
import Verif.Props.WireNet
import Verif.Props.HashPoints
import Verif.Lemmas.WireQuiet

/-!
# C98: evidence over serialized messages
-/

set_option linter.unusedSectionVars false

namespace Synedrion.Props

open Spec

variable {I G V Sid : Type} [LinearOrder I] {q : Nat} [Fact q.Prime] [LinearOrder (ZMod q)] [AddCommGroup G] [Module (ZMod q) G] [DecidableEq G] [DecidableEq V] {W : WireFormat G V}

theorem recv_fault {M S E R : Type} {P : Machine I M S E R} {T : Transport I M} {panics : Panics I M S} {s : S} {j j' : I} {d : Packet I} {e : E}
    (h : (overWire P T panics).recv s j d = .err (.fault j' (.protocol e))) : ∃ m, T.unpack (P.round s) d = some m ∧ panics.recv s j m = false ∧ P.recv s j m = .err (.fault j' e) := by
  simp only [overWire] at h
  split at h
  swap
  · cases h
  cases hu : T.unpack (P.round s) d with
  | none => rw [hu] at h; cases h
  | some m =>
    rw [hu] at h
    dsimp only at h
    split at h
    · cases h
    · rename_i hp
      refine ⟨m, rfl, by simpa using hp, ?_⟩
      cases hr : P.recv s j m with
      | ok a => rw [hr] at h; cases h
      | panic => rw [hr] at h; cases h
      | err a =>
        rw [hr] at h
        cases a with
        | fault i e' =>
          cases h
          rfl
        | localErr e' => cases h
        | incomplete => cases h

theorem running_matches {M S E R : Type} {T : Transport I M} {round : S → Nat} {honest : Set I} {n : Net I (Packet I) S (WireErr E) R} {n' : Net I M S E R}
    (hs : SameCourse T round honest n n') {i : I} {s : S} {got : List (I × Packet I)} (hst : n.status i = .running s got) : ∃ got', n'.status i = .running s got' := by
  have := hs.status i
  rw [hst] at this
  generalize n'.status i = st at this
  cases this
  exact ⟨_, rfl⟩

theorem past_transfer {M S E R : Type} {P : Machine I M S E R} {T : Transport I M} {honest : Set I} {n : Net I (Packet I) S (WireErr E) R} {n' : Net I M S E R}
    (hs : SameCourse T P.round honest n n') {i : I} {s : S} {got : List (I × Packet I)} (hst : n.status i = .running s got) {p : S → Prop} (h : ∀ x ∈ n'.past i, p x.1) :
    ∀ x ∈ n.past i, p x.1 := by
  intro x hx
  obtain ⟨y, hy, hxy, -⟩ := exists_of_forall₂ (past_of_running hs (by rw [hst]; simp)) hx
  rw [hxy]
  exact h y hy

private theorem past_read {M S E R : Type} {T : Transport I M} {round : S → Nat} {honest : Set I} {n : Net I (Packet I) S (WireErr E) R} {n' : Net I M S E R}
    (hs : SameCourse T round honest n n') {j : I} {y : S × List (I × M)} (hy : y ∈ n'.past j) {i : I} {m : M} (hm : (i, m) ∈ y.2) :
    ∃ x pkt, x ∈ n.past j ∧ (i, pkt) ∈ x.2 ∧ T.unpack (round x.1) pkt = some m := by
  obtain ⟨rest, hp, -⟩ := hs.past j
  obtain ⟨x, hx, -, hr⟩ := mem_of_forall₂ hp hy
  obtain ⟨⟨_, pkt⟩, ha, rfl, hu⟩ := mem_of_forall₂ hr hm
  exact ⟨x, pkt, List.mem_of_mem_take hx, ha, hu⟩

theorem hashing_ok {pts : List G} {check : Evidence} (h : check = .ok true) (hp : (0 : G) ∉ pts) : check.hashing pts = .ok true := by
  rw [h]
  simp [Evidence.hashing, hp]

theorem hashing_true {pts : List G} {check : Evidence} (h : check.hashing pts = .ok true) : check = .ok true := by
  obtain ⟨b, hb, h⟩ := Out.bind_eq_ok.1 h
  split at h
  · cases h
  · cases h; exact hb

section KeyInit

open KeyInit

/-- **C98 (key generation, evidence convinces).** At any time of any execution of key generation over serialized messages, whatever the schedule and whatever data the parties that are not honest send: if an
honest party refuses what it receives from `j` because of a fault in the protocol, `j` is to blame; it can present the serialized parts it has received, and everyone to whom it presents the declared ones can read
them, does not panic when checking them, and agrees. -/
theorem C98_key_init_convincing (hW : FormatValid W q) (hashV : Sid → I → PublicData G → V) (H : SchHash G (SchAux I Sid) → ZMod q) (g : G) (honest : Set I) (ids : Finset I) (sid : Sid)
    (d : I → Draws (ZMod q)) (hd : ∀ i ∈ honest, BitsFit (d i).rho ∧ BitsFit (d i).u) (c : I → Context I (ZMod q) G Sid) (hc : ∀ i ∈ honest, start g ids sid i (d i) = .ok (c i))
    (n : Net I (Packet I) (State I (ZMod q) G Sid V) (WireErr Err) (KeyShare I (ZMod q) G))
    (h : (overWire (machine hashV H g) W.keyInitTransport KeyInit.hashPanics).Reachable honest (fun i => .one (c i)) n)
    (i j : I) (hi : i ∈ honest) (s : State I (ZMod q) G Sid V) (got : List (I × Packet I)) (hst : n.status i = .running s got) (hj : j ∈ (machine hashV H g).expected s) (pkt : Packet I) (j' : I) (e : Err)
    (hm : (overWire (machine hashV H g) W.keyInitTransport KeyInit.hashPanics).recv s j pkt = .err (.fault j' (.protocol e))) :
    j' = j ∧ (machine hashV H g).round s = e.round ∧
      (∃ t, Presents (overWire (machine hashV H g) W.keyInitTransport KeyInit.hashPanics) packetPart ids n i s j pkt t) ∧
      ∀ t : Transcript I (fun _ _ => Data I), Presents (overWire (machine hashV H g) W.keyInitTransport KeyInit.hashPanics) packetPart ids n i s j pkt t →
        checkExhibit W hashV H g sid j e (supply t e.round e.required) = .ok true := by
  obtain ⟨n', hn', hs⟩ := C91_key_init hW hashV H g KeyInit.hashPanics honest ids sid d hd c hc n h
  obtain ⟨m, hu, hp, hr⟩ := recv_fault hm
  obtain ⟨got', hst'⟩ := running_matches hs hst
  have hci : i ∈ ids ∧ (c i).otherIds = ids.erase i := by
    have hci := hc i hi
    unfold start at hci
    split at hci
    · cases hci
    · rename_i hmem
      rw [← Out.ok.inj hci]
      exact ⟨not_not.1 hmem, rfl⟩
  have hexp : ∀ x ∈ n.past i, (machine hashV H g).expected x.1 = ids.erase i :=
    past_transfer hs hst (p := fun s => (machine hashV H g).expected s = ids.erase i) fun x hx => (past_expected hn'.reachable hi x hx).trans hci.2
  have hF := KeyInit.faithful (I := I) (Sid := Sid) hW (hashV := hashV) (H := H) (g := g)
  have hinit := fun i hi => KeyInit.initial_fits (V := V) (hd i hi) (hc i hi)
  obtain ⟨h1, h2, ⟨t', ht'⟩, h3⟩ := C86_key_init_convincing hashV H g honest ids sid d c hc n' hn'.reachable i j hi s got' hst' hj m j' e hr
  obtain ⟨-, href⟩ := refusal hn'.reachable hi hst' hj hr
  have hji : j ≠ i := by
    have hj : j ∈ (machine hashV H g).expected s := hj
    have : (machine hashV H g).expected s = ids.erase i := by
      rw [← hci.2]
      cases href with
      | two => rfl
      | three in1 in2 capVs r3 v m2 psi x1 x2 q1 hv hm2 hx1 e1 r1 hx2 e2 r2 hs2 q3 hrec => exact congrArg Context.otherIds (toRound3_ctx q3)
    rw [this] at hj
    exact (Finset.mem_erase.1 hj).1
  refine ⟨h1, h2, presentable_wire (keyInit_splits W) hF hinit h hs hi (fun l s hr => (fol (c := c) i hi l s hr).2) hci.1 hji hst hexp pkt ht', ?_⟩
  intro t ht
  obtain ⟨hread, hecho⟩ := presents_read (keyInit_splits W) hF hinit h hs hi hst hexp hu ht
  have hv := h3 _ hread
  have hp : (0 : G) ∉ ownPoints s ++ readPoints s j m := by simpa [KeyInit.hashPanics, Synedrion.hashPanics] using hp
  have hp := fun hmem => hp (List.mem_append_right _ hmem)
  have hdec : ∀ r ∈ e.required.echos, ((t.combined r).decodeAll (W.keyInit (ε := Unit) (I := I) (q := q) .echo r).dec).isSome := by
    cases href with
    | two =>
      cases e with
      | r2HashMismatch => intro r hr; cases hr
      | r3InvalidSchProof => cases h2
    | three in1 in2 capVs r3 v m2 psi x1 x2 q1 hv' hm2 hx1 e1 r1 hx2 e2 r2 hs2 q3 hrec =>
      cases e with
      | r2HashMismatch => cases h2
      | r3InvalidSchProof =>
        intro r hr
        obtain rfl := List.mem_singleton.1 hr
        obtain ⟨capVs', hs2⟩ := hs2
        obtain ⟨x, hx, hxy, -⟩ := mem_of_forall₂ (past_of_running hs (by rw [hst]; simp)) hx2
        have hj2 : j ∈ (c i).otherIds := by rw [← toRound3_ctx q3]; exact hj
        have hr2 : (machine hashV H g).round x.1 = 2 := by rw [hxy]; exact r2
        have := hecho x hx ⟨(j, .two (msg2 (c i))), by rw [hxy, hs2]; exact mem_toAll.2 ⟨hj2, rfl⟩, by rw [hr2]; rfl⟩
        rw [hr2] at this
        exact this
  unfold checkExhibit
  dsimp only
  rw [supply_decode _ t e.round e.required hdec]
  refine hashing_ok hv ?_
  cases href with
  | two in1 capVs v m2 x1 q1 hv' hx1 e1 r1 hrec =>
    cases e with
    | r3InvalidSchProof => cases h2
    | r2HashMismatch =>
      have a3 : (t.read fun p r => (W.keyInit (ε := Unit) (I := I) (q := q) p r).dec).msg 2 .normal = some ⟨m2.capX, m2.capA, m2.u⟩ := hread.refused .normal
      simp only [evidencePoints, supply, Err.required, Err.round, a3]
      exact hp
  | three in1 in2 capVs r3 v m2 psi x1 x2 q1 hv' hm2 hx1 e1 r1 hx2 e2 r2 hs2 q3 hrec =>
    cases e with
    | r2HashMismatch => cases h2
    | r3InvalidSchProof =>
      have a3 : (t.read fun p r => (W.keyInit (ε := Unit) (I := I) (q := q) p r).dec).msg 2 .normal = some ⟨m2.capX, m2.capA, m2.u⟩ := by
        have := hread.earlier x2 hx2 (.two m2) (by rw [e2]; exact List.mem_map.2 ⟨_, hm2, rfl⟩) .normal
        rw [r2] at this
        exact this
      obtain ⟨-, -, -, hget, -⟩ := keyInit_toRound3_ok q3
      obtain ⟨g1, g2⟩ := hget j m2 hm2
      simp only [readPoints, BMap.at, g1, g2] at hp
      simp only [evidencePoints, supply, Err.required, Err.round, List.lookup]
      simp [a3, schPoints] at hp ⊢
      exact hp

/-- **C98 (key generation, nobody is framed).** At any time of any execution of key generation over serialized messages: no data that an honest party has signed convinces anyone that it is faulty. -/
theorem C98_key_init_unframed (hW : FormatValid W q) (hashV : Sid → I → PublicData G → V) (H : SchHash G (SchAux I Sid) → ZMod q) (g : G)
    (panics : Panics I (Message (ZMod q) G V) (State I (ZMod q) G Sid V)) (honest : Set I) (ids : Finset I) (sid : Sid)
    (d : I → Draws (ZMod q)) (hd : ∀ i ∈ honest, BitsFit (d i).rho ∧ BitsFit (d i).u) (c : I → Context I (ZMod q) G Sid) (hc : ∀ i ∈ honest, start g ids sid i (d i) = .ok (c i))
    (n : Net I (Packet I) (State I (ZMod q) G Sid V) (WireErr Err) (KeyShare I (ZMod q) G))
    (h : (overWire (machine hashV H g) W.keyInitTransport panics).Reachable honest (fun i => .one (c i)) n)
    (j reporter : I) (hj : j ∈ honest) (e : Err) (ev : Exhibit I e.round) (hev : SignedBy (overWire (machine hashV H g) W.keyInitTransport panics) packetPart n j reporter ev) :
    checkExhibit W hashV H g sid j e ev ≠ .ok true := by
  intro hv
  have hv := hashing_true hv
  obtain ⟨n', hn', hs⟩ := C91_key_init hW hashV H g panics honest ids sid d hd c hc n h
  have hF := KeyInit.faithful (I := I) (Sid := Sid) hW (hashV := hashV) (H := H) (g := g)
  have hinit := fun i hi => KeyInit.initial_fits (V := V) (hd i hi) (hc i hi)
  have hsig := signedBy_read (keyInit_splits W) hF hinit h hn'.reachable hs hj (fun l s hr => (fol (c := c) j hj l s hr).2) hev (verify_current hv)
  refine C86_key_init_unframed hashV H g honest ids sid d c hc n' hn'.reachable j reporter hj e _ hsig ?_
  rw [verify_upTo]
  exact hv

/-- **C98 (evidence can crash its judge).** Whoever can sign as `guilty` can make evidence that makes everyone panic who checks it, instead of being rejected: a message of round 2 with an identity point. -/
theorem C98_check_crash (hW : FormatValid W q) (hashV : Sid → I → PublicData G → V) (H : SchHash G (SchAux I Sid) → ZMod q) (g : G) (sid : Sid) (guilty : I) (v : V) (m2 : Msg2 G)
    (hr : BitsFit m2.rho) (hu : BitsFit m2.u) (h0 : m2.capX = 0 ∨ m2.capA = 0) :
    ∃ d1 d2 : Packet I, W.keyInitTransport.unpack 1 d1 = some (.one v : Message (ZMod q) G V) ∧ W.keyInitTransport.unpack 2 d2 = some (.two m2 : Message (ZMod q) G V) ∧
      checkExhibit W hashV H g sid guilty .r2HashMismatch
        ⟨d2.part, fun r => if r = 1 then some d1.part else none, fun _ => none⟩ = .panic := by
  have honto := (C93_receivable (ε := Unit) (I := I) hW).1
  obtain ⟨a, ha⟩ := (honto .echo 1 v).2 trivial
  obtain ⟨b, hb⟩ := (honto .echo 2 m2.rho).2 hr
  obtain ⟨e, he⟩ := (honto .normal 2 ⟨m2.capX, m2.capA, m2.u⟩).2 hu
  refine ⟨⟨some a, none, none⟩, ⟨some b, some e, none⟩, ?_, ?_, ?_⟩
  · show Option.map _ _ = _
    rw [ha]; rfl
  · show Option.bind _ _ = _
    rw [he, Option.bind_some, hb]; rfl
  · have hz : (0 : G) ∈ [m2.capX, m2.capA] := by
      rcases h0 with h | h <;> simp [h]
    have e1 : ((W.keyInit (ε := Unit) (I := I) (q := q) .echo 1).dec a) = some v := ha
    have e2 : ((W.keyInit (ε := Unit) (I := I) (q := q) .echo 2).dec b) = some m2.rho := hb
    have e3 : ((W.keyInit (ε := Unit) (I := I) (q := q) .normal 2).dec e) = some ⟨m2.capX, m2.capA, m2.u⟩ := he
    unfold checkExhibit
    simp only [Package.decode, Evidence.hashing, verifyMessages, evidencePoints, Package.prev, Package.cur, Packet.part, Err.round, if_pos, Option.map_some, Option.bind_some, e1, e2, e3,
      Out.ofOption_some, Out.bind_ok, hz]

end KeyInit

section AuxGen

open AuxGen

/-- **C98 (auxiliary info, evidence convinces).** The same as `C98_key_init_convincing` for the generation of auxiliary info, in which no points are hashed. -/
theorem C98_aux_gen_convincing (hW : FormatValid W q) (E : AuxEnv I Sid) (hP : W.P = E.P) (hE : AuxHashesFit E) (hashV : Sid → I → Hashed → V)
    (panics : Panics I (Message V) (State I Sid V)) (honest : Set I) (ids : Finset I) (sid : Sid) (d : I → AuxDraws I) (hd : ∀ i ∈ honest, AuxDrawsFit E.P (d i))
    (c : I → Context I Sid) (hc : ∀ i ∈ honest, start E ids sid i (d i) = .ok (c i))
    (n : Net I (Packet I) (State I Sid V) (WireErr (Err I)) (AuxInfo I PaillierKey PublicAux))
    (h : (overWire (machine E hashV) W.auxGenTransport panics).Reachable honest (fun i => .one (c i)) n)
    (i j : I) (hi : i ∈ honest) (s : State I Sid V) (got : List (I × Packet I)) (hst : n.status i = .running s got) (hj : j ∈ (machine E hashV).expected s) (pkt : Packet I) (j' : I) (e : Err I)
    (hm : (overWire (machine E hashV) W.auxGenTransport panics).recv s j pkt = .err (.fault j' (.protocol e))) :
    j' = j ∧ (machine E hashV).round s = e.round ∧
      (∃ t, Presents (overWire (machine E hashV) W.auxGenTransport panics) packetPart ids n i s j pkt t) ∧
      ∀ t : Transcript I (fun _ _ => Data I), Presents (overWire (machine E hashV) W.auxGenTransport panics) packetPart ids n i s j pkt t →
        checkExhibit W E hashV sid j e (supply t e.round e.required) = .ok true := by
  obtain ⟨n', hn', hs⟩ := C91_aux_gen hW E hP hE hashV panics honest ids sid d hd c hc n h
  obtain ⟨m, hu, -, hr⟩ := recv_fault hm
  obtain ⟨got', hst'⟩ := running_matches hs hst
  have hci : i ∈ ids ∧ (c i).otherIds = ids.erase i := by
    obtain ⟨hme, -, _, -, hci⟩ := start_ok (hc i hi)
    exact ⟨hme, by rw [hci]⟩
  have hexp : ∀ x ∈ n.past i, (machine E hashV).expected x.1 = ids.erase i :=
    past_transfer hs hst (p := fun s => (machine E hashV).expected s = ids.erase i) fun x hx => (past_expected hn'.reachable hi x hx).trans hci.2
  have hF := AuxGen.faithful (I := I) (Sid := Sid) hW hP hE (hashV := hashV)
  have hinit := fun i hi => AuxGen.initial_fits (V := V) hE (hd i hi) (hc i hi)
  obtain ⟨h1, h2, ⟨t', ht'⟩, h3⟩ := C86_aux_gen_convincing E hashV honest ids sid d c hc n' hn'.reachable i j hi s got' hst' hj m j' e hr
  obtain ⟨-, href⟩ := refusal hn'.reachable hi hst' hj hr
  have hji : j ≠ i := by
    have : (machine E hashV).expected s = ids.erase i := by
      rw [← hci.2]
      cases href with
      | two => rfl
      | three in1 in2 capVs r3 out v m2 m3 x1 x2 q1 hv hm2 hx1 e1 r1 hx2 e2 r2 hs2 q3 hrec => exact congrArg Context.otherIds (toRound3_ctx q3)
    rw [this] at hj
    exact (Finset.mem_erase.1 hj).1
  refine ⟨h1, h2, presentable_wire (auxGen_splits W) hF hinit h hs hi (fun l s hr => (fol (c := c) i hi l s hr).2) hci.1 hji hst hexp pkt ht', ?_⟩
  intro t ht
  obtain ⟨hread, hecho⟩ := presents_read (auxGen_splits W) hF hinit h hs hi hst hexp hu ht
  have hv := h3 _ hread
  have hdec : ∀ r ∈ e.required.echos, ((t.combined r).decodeAll (W.auxGen (ε := Unit) (I := I) .echo r).dec).isSome := by
    cases href with
    | two =>
      cases e with
      | r3ModFailed | r3FacFailed => cases h2
      | _ => intro r hr; cases hr
    | three in1 in2 capVs r3 out v m2 m3 x1 x2 q1 hv' hm2 hx1 e1 r1 hx2 e2 r2 hs2 q3 hrec =>
      have key : ((t.combined 2).decodeAll (W.auxGen (ε := Unit) (I := I) .echo 2).dec).isSome := by
        obtain ⟨capVs', hs2⟩ := hs2
        obtain ⟨x, hx, hxy, -⟩ := mem_of_forall₂ (past_of_running hs (by rw [hst]; simp)) hx2
        have hj2 : j ∈ (c i).otherIds := by rw [← toRound3_ctx q3]; exact hj
        have hr2 : (machine E hashV).round x.1 = 2 := by rw [hxy]; exact r2
        have := hecho x hx ⟨(j, .two (msg2 (c i))), by rw [hxy, hs2]; exact mem_toAll.2 ⟨hj2, rfl⟩, by rw [hr2]; rfl⟩
        rw [hr2] at this
        exact this
      cases e with
      | r3ModFailed | r3FacFailed =>
        intro r hr
        obtain rfl := List.mem_singleton.1 hr
        exact key
      | _ => cases h2
  unfold checkExhibit
  rw [supply_decode _ t e.round e.required hdec]
  exact hv

/-- **C98 (auxiliary info, nobody is framed).** The same as `C98_key_init_unframed` for the generation of auxiliary info, if the ring-Pedersen moduli that the party has read are not larger than the others, and the draws
of the party are valid. Direct messages can only be presented by those they were sent to. -/
theorem C98_aux_gen_unframed (hW : FormatValid W q) (E : AuxEnv I Sid) (hP : W.P = E.P) (hE : AuxHashesFit E) (k : Nat) (hE' : HashesValid E k) (hashV : Sid → I → Hashed → V)
    (panics : Panics I (Message V) (State I Sid V)) (honest : Set I) (ids : Finset I) (sid : Sid) (d : I → AuxDraws I) (hd : ∀ i ∈ honest, AuxDrawsFit E.P (d i))
    (hd' : ∀ i ∈ honest, DrawsValid E k (d i)) (c : I → Context I Sid) (hc : ∀ i ∈ honest, start E ids sid i (d i) = .ok (c i))
    (n : Net I (Packet I) (State I Sid V) (WireErr (Err I)) (AuxInfo I PaillierKey PublicAux))
    (h : (overWire (machine E hashV) W.auxGenTransport panics).Reachable honest (fun i => .one (c i)) n)
    (j reporter : I) (hj : j ∈ honest)
    (hmask : ∀ x ∈ n.past j, ∀ i pkt m, (i, pkt) ∈ x.2 → W.auxGenTransport.unpack ((machine E hashV).round x.1) pkt = some (.two m) → m.echo.rp.modulus < 2 ^ E.P.modBits ∧
      FacDrawsValid E.P ((d j).p * (d j).q) m.echo.rp.modulus ((d j).facMasks i) ∧ ((d j).facMasks i).mu.val ≠ 0)
    (e : Err I) (he : ∀ i, e = .r3FacFailed i → i = reporter)
    (ev : Exhibit I e.round) (hev : SignedBy (overWire (machine E hashV) W.auxGenTransport panics) packetPart n j reporter ev) :
    checkExhibit W E hashV sid j e ev ≠ .ok true := by
  intro hv
  obtain ⟨n', hn', hs⟩ := C91_aux_gen hW E hP hE hashV panics honest ids sid d hd c hc n h
  have hF := AuxGen.faithful (I := I) (Sid := Sid) hW hP hE (hashV := hashV)
  have hinit := fun i hi => AuxGen.initial_fits (V := V) hE (hd i hi) (hc i hi)
  have hsig := signedBy_read (auxGen_splits W) hF hinit h hn'.reachable hs hj (fun l s hr => (fol (c := c) j hj l s hr).2) hev (verify_current hv)
  refine C86_aux_gen_unframed E k hE' hashV honest ids sid d hd' c hc n' hn'.reachable j reporter hj ?_ e he _ hsig ?_
  · intro y hy i m hm
    obtain ⟨x, pkt, hx, hp, hu⟩ := past_read hs hy hm
    exact hmask x hx i pkt m hp hu
  · rw [verify_upTo]
    exact hv

end AuxGen

section KeyRefresh

open KeyRefresh

private theorem recv3_fault_points {E : Env I Sid (ZMod q) G} {r : Round3 I (ZMod q) G Sid} {j : I} {m : Msg3 I (ZMod q)} {pl : Payload2 I G} (hpl : r.payloads.get? j = some pl) {e : Err I (ZMod q)}
    (h : recv3 E r j m = .err (.protocol e)) :
    match e with
    | .r3ShareChangeMismatch k y => k = r.ctx.myId ∧ r.ctx.ys.get? j = some y
    | .r3SchFailed k => ∃ psi, (k, psi) ∈ m.hatPsis.entries
    | _ => True := by
  unfold recv3 at h
  simp only [recvGet, hpl, Out.ofOption_some, Out.bind_ok] at h
  cases hy : pl.capYs.get? r.ctx.myId with
  | none => simp [hy, Out.ofOption, Out.bind] at h
  | some capY =>
    cases hys : r.ctx.ys.get? j with
    | none => simp [hy, hys, Out.ofOption, Out.bind] at h
    | some y =>
      cases hx : pl.capXs.get? r.ctx.myId with
      | none => simp [hy, hys, hx, Out.ofOption, Out.bind] at h
      | some capX =>
        simp only [hy, hys, hx, Out.ofOption_some, Out.bind_ok] at h
        split at h
        · cases h
          exact ⟨rfl, rfl⟩
        split at h
        · cases h; trivial
        rcases Out.bind_eq_err.1 h with h | ⟨ok, -, h⟩
        · rcases Out.ok_or_panic_of_cast (FacProof.verify_cast (ε := Empty) (ε' := RecvErr (Err I (ZMod q))) _ _ _ _ _ _) with hx | ⟨_, hx⟩ <;> rw [hx] at h <;> cases h
        split at h
        · cases h; trivial
        split at h
        · cases h; trivial
        rcases Out.bind_eq_err.1 h with h | ⟨_, -, h⟩
        · obtain ⟨a, ha, _, _, rfl, -⟩ := checkSch_eq_protocol h
          exact ⟨a.2, ha⟩
        · cases h

/-- **C98 (key refresh, evidence convinces).** The same as `C98_key_init_convincing` for key refresh. -/
theorem C98_refresh_convincing (hW : FormatValid W q) (E : Env I Sid (ZMod q) G) (hg : E.g ≠ 0) (hP : W.P = E.aux.P) (hE : AuxHashesFit E.aux) (hashV : Sid → I → Hashed I G → V)
    (honest : Set I) (ids : Finset I) (sid : Sid) (d : I → Draws I (ZMod q)) (hd : ∀ i ∈ honest, AuxDrawsFit E.aux.P (d i).aux)
    (c : I → Context I (ZMod q) G Sid) (hc : ∀ i ∈ honest, start E ids sid i (d i) = .ok (c i))
    (n : Net I (Packet I) (State I (ZMod q) G Sid V) (WireErr (Err I (ZMod q))) (KeyShareChange I (ZMod q) G × AuxInfo I PaillierKey PublicAux))
    (h : (overWire (machine E hashV) W.keyRefreshTransport KeyRefresh.hashPanics).Reachable honest (fun i => .one (c i)) n)
    (i j : I) (hi : i ∈ honest) (s : State I (ZMod q) G Sid V) (got : List (I × Packet I)) (hst : n.status i = .running s got) (hj : j ∈ (machine E hashV).expected s) (pkt : Packet I) (j' : I)
    (e : Err I (ZMod q)) (hm : (overWire (machine E hashV) W.keyRefreshTransport KeyRefresh.hashPanics).recv s j pkt = .err (.fault j' (.protocol e))) :
    j' = j ∧ (machine E hashV).round s = e.round ∧
      (∃ t, Presents (overWire (machine E hashV) W.keyRefreshTransport KeyRefresh.hashPanics) packetPart ids n i s j pkt t) ∧
      ∀ t : Transcript I (fun _ _ => Data I), Presents (overWire (machine E hashV) W.keyRefreshTransport KeyRefresh.hashPanics) packetPart ids n i s j pkt t →
        checkExhibit W E hashV sid ids j e (supply t e.round e.required) = .ok true := by
  obtain ⟨n', hn', hs⟩ := C91_key_refresh hW E hP hE hashV KeyRefresh.hashPanics honest ids sid d hd c hc n h
  obtain ⟨m, hu, hp, hr⟩ := recv_fault hm
  obtain ⟨got', hst'⟩ := running_matches hs hst
  obtain ⟨hme, -, dx, sk, -, -, hctx⟩ := start_ok (hc i hi)
  have hci : i ∈ ids ∧ (c i).otherIds = ids.erase i := ⟨hme, by rw [hctx]; rfl⟩
  have hexp : ∀ x ∈ n.past i, (machine E hashV).expected x.1 = ids.erase i :=
    past_transfer hs hst (p := fun s => (machine E hashV).expected s = ids.erase i) fun x hx => (past_expected hn'.reachable hi x hx).trans hci.2
  have hF := KeyRefresh.faithful (I := I) (Sid := Sid) hW hP hE (hashV := hashV)
  have hinit := fun i hi => KeyRefresh.initial_fits (V := V) hE (hd i hi) (hc i hi)
  obtain ⟨h1, h2, ⟨t', ht'⟩, h3⟩ := C86_refresh_convincing E hg hashV honest ids sid d c hc n' hn'.reachable i j hi s got' hst' hj m j' e hr
  obtain ⟨-, href⟩ := refusal hn'.reachable hi hst' hj hr
  have hji : j ≠ i := by
    have : (machine E hashV).expected s = ids.erase i := by
      rw [← hci.2]
      cases href with
      | two => rfl
      | three in1 in2 capVs r3 out v m2 m3 x1 x2 q1 hv hm2 hx1 e1 r1 hx2 e2 r2 hs2 q3 hrec => exact congrArg Context.otherIds (toRound3_ctx q3)
    rw [this] at hj
    exact (Finset.mem_erase.1 hj).1
  refine ⟨h1, h2, presentable_wire (keyRefresh_splits W) hF hinit h hs hi (fun l s hr => (fol (c := c) i hi l s hr).2) hci.1 hji hst hexp pkt ht', ?_⟩
  intro t ht
  obtain ⟨hread, hecho⟩ := presents_read (keyRefresh_splits W) hF hinit h hs hi hst hexp hu ht
  have hv := h3 _ hread
  have hp : (0 : G) ∉ ownPoints s ++ readPoints s j m := by simpa [KeyRefresh.hashPanics, Synedrion.hashPanics] using hp
  have hp := fun hmem => hp (List.mem_append_right _ hmem)
  have hdec : ∀ r ∈ e.required.echos, ((t.combined r).decodeAll (W.keyRefresh (ε := Unit) (I := I) (q := q) .echo r).dec).isSome := by
    cases href with
    | two =>
      cases e with
      | r3ModFailed | r3FacFailed | r3ShareChangeMismatch | r3WrongIdsHatPsi | r3SchFailed => cases h2
      | _ => intro r hr; cases hr
    | three in1 in2 capVs r3 out v m2 m3 x1 x2 q1 hv' hm2 hx1 e1 r1 hx2 e2 r2 hs2 q3 hrec =>
      have key : ((t.combined 2).decodeAll (W.keyRefresh (ε := Unit) (I := I) (q := q) .echo 2).dec).isSome := by
        obtain ⟨capVs', hs2⟩ := hs2
        obtain ⟨x, hx, hxy, -⟩ := mem_of_forall₂ (past_of_running hs (by rw [hst]; simp)) hx2
        have hj2 : j ∈ (c i).otherIds := by rw [← toRound3_ctx q3]; exact hj
        have hr2 : (machine E hashV).round x.1 = 2 := by rw [hxy]; exact r2
        have := hecho x hx ⟨(j, .two (msg2 (c i))), by rw [hxy, hs2]; exact mem_toAll.2 ⟨hj2, rfl⟩, by rw [hr2]; rfl⟩
        rw [hr2] at this
        exact this
      cases e with
      | r3ModFailed | r3FacFailed | r3ShareChangeMismatch | r3SchFailed =>
        intro r hr
        obtain rfl := List.mem_singleton.1 hr
        exact key
      | r3WrongIdsHatPsi => intro r hr; cases hr
      | _ => cases h2
  unfold checkExhibit
  dsimp only
  rw [supply_decode _ t e.round e.required hdec]
  refine hashing_ok hv ?_
  cases href with
  | two in1 capVs v m2 x1 q1 hv' hx1 e1 r1 hrec =>
    have a2 : (t.read fun p r => (W.keyRefresh (ε := Unit) (I := I) (q := q) p r).dec).msg 2 .echo = some m2.echo := hread.refused .echo
    have a3 : (t.read fun p r => (W.keyRefresh (ε := Unit) (I := I) (q := q) p r).dec).msg 2 .normal = some ⟨m2.capXs, m2.capAs, m2.pk, m2.psi, m2.u⟩ := hread.refused .normal
    cases e with
    | r3ModFailed | r3FacFailed | r3ShareChangeMismatch | r3WrongIdsHatPsi | r3SchFailed => cases h2
    | r2HashMismatch =>
      simp only [evidencePoints, supply, Err.required, Err.round, a2, a3]
      intro hmem
      refine hp (List.mem_append.2 ?_)
      rcases List.mem_append.1 hmem with hmem | hmem
      · rcases List.mem_append.1 hmem with hmem | hmem
        · exact .inl (List.mem_append_left _ hmem)
        · exact .inr hmem
      · exact .inl (List.mem_append_right _ hmem)
    | _ => exact List.not_mem_nil
  | three in1 in2 capVs r3 out v m2 m3 x1 x2 q1 hv' hm2 hx1 e1 r1 hx2 e2 r2 hs2 q3 hrec =>
    have a2 : (t.read fun p r => (W.keyRefresh (ε := Unit) (I := I) (q := q) p r).dec).msg 2 .echo = some m2.echo := by
      have := hread.earlier x2 hx2 (.two m2) (by rw [e2]; exact List.mem_map.2 ⟨_, hm2, rfl⟩) .echo
      rw [r2] at this
      exact this
    have a3 : (t.read fun p r => (W.keyRefresh (ε := Unit) (I := I) (q := q) p r).dec).msg 2 .normal = some ⟨m2.capXs, m2.capAs, m2.pk, m2.psi, m2.u⟩ := by
      have := hread.earlier x2 hx2 (.two m2) (by rw [e2]; exact List.mem_map.2 ⟨_, hm2, rfl⟩) .normal
      rw [r2] at this
      exact this
    rw [hctx] at q3
    obtain ⟨rid, psiPrime, pl, hr3, -, hfst, -, hpls, -, -⟩ := toRound3_ok hme q3
    have hjids : j ∈ ids := by
      have : j ∈ (in2.map Prod.fst).toFinset := List.mem_toFinset.2 (List.mem_map.2 ⟨_, hm2, rfl⟩)
      rw [hfst] at this
      exact Finset.mem_of_mem_erase this
    have hpl : r3.payloads.get? j = some (payloadOf m2) := by
      rw [hr3, ← (hpls j m2 hm2).1]
      show (BMap.tabulate ids pl).get? j = _
      rw [BMap.get?_tabulate, if_pos hjids]
    have hmy : r3.ctx.myId = i := by rw [hr3]; rfl
    have hshape := recv3_fault_points hpl hrec
    cases e with
    | r3ShareChangeMismatch k y =>
      obtain ⟨rfl, hy⟩ := hshape
      simp only [evidencePoints, supply, Err.required, Err.round, List.lookup]
      simp only [readPoints, maskPoints, hpl, hy] at hp
      simp [a2, payloadOf] at hp ⊢
      exact hp.1
    | r3SchFailed k =>
      obtain ⟨psi, hk⟩ := hshape
      simp only [evidencePoints, supply, Err.required, Err.round, List.lookup]
      intro hmem
      refine hp (List.mem_append_right _ (List.mem_flatMap.2 ⟨_, hk, ?_⟩))
      rw [hpl]
      simpa [a3, payloadOf] using hmem
    | r3ModFailed | r3FacFailed | r3WrongIdsHatPsi => exact List.not_mem_nil
    | _ => cases h2

/-- **C98 (key refresh, nobody is framed).** The same as `C98_aux_gen_unframed` for key refresh. -/
theorem C98_refresh_unframed (hW : FormatValid W q) (E : Env I Sid (ZMod q) G) (hg : E.g ≠ 0) (hP : W.P = E.aux.P) (hE : AuxHashesFit E.aux) (k : Nat) (hE' : HashesValid E.aux k)
    (hashV : Sid → I → Hashed I G → V) (panics : Panics I (Message I (ZMod q) G V) (State I (ZMod q) G Sid V)) (honest : Set I) (ids : Finset I) (sid : Sid) (d : I → Draws I (ZMod q))
    (hd : ∀ i ∈ honest, AuxDrawsFit E.aux.P (d i).aux) (hd' : ∀ i ∈ honest, DrawsValid E.aux k (d i).aux) (c : I → Context I (ZMod q) G Sid) (hc : ∀ i ∈ honest, start E ids sid i (d i) = .ok (c i))
    (n : Net I (Packet I) (State I (ZMod q) G Sid V) (WireErr (Err I (ZMod q))) (KeyShareChange I (ZMod q) G × AuxInfo I PaillierKey PublicAux))
    (h : (overWire (machine E hashV) W.keyRefreshTransport panics).Reachable honest (fun i => .one (c i)) n)
    (j reporter : I) (hj : j ∈ honest)
    (hmask : ∀ x ∈ n.past j, ∀ i pkt m, (i, pkt) ∈ x.2 → (W.keyRefreshTransport (q := q)).unpack ((machine E hashV).round x.1) pkt = some (.two m) → m.echo.rp.modulus < 2 ^ E.aux.P.modBits ∧
      FacDrawsValid E.aux.P ((d j).aux.p * (d j).aux.q) m.echo.rp.modulus ((d j).aux.facMasks i) ∧ ((d j).aux.facMasks i).mu.val ≠ 0)
    (e : Err I (ZMod q)) (he : ∀ i, (e = .r3FacFailed i ∨ ∃ y, e = .r3ShareChangeMismatch i y) → i = reporter)
    (ev : Exhibit I e.round) (hev : SignedBy (overWire (machine E hashV) W.keyRefreshTransport panics) packetPart n j reporter ev) :
    checkExhibit W E hashV sid ids j e ev ≠ .ok true := by
  intro hv
  have hv := hashing_true hv
  obtain ⟨n', hn', hs⟩ := C91_key_refresh hW E hP hE hashV panics honest ids sid d hd c hc n h
  have hF := KeyRefresh.faithful (I := I) (Sid := Sid) hW hP hE (hashV := hashV)
  have hinit := fun i hi => KeyRefresh.initial_fits (V := V) hE (hd i hi) (hc i hi)
  have hsig := signedBy_read (keyRefresh_splits W) hF hinit h hn'.reachable hs hj (fun l s hr => (fol (c := c) j hj l s hr).2) hev (verify_current hv)
  refine C86_refresh_unframed E hg k hE' hashV honest ids sid d hd' c hc n' hn'.reachable j reporter hj ?_ e he _ hsig ?_
  · intro y hy i m hm
    obtain ⟨x, pkt, hx, hp, hu⟩ := past_read hs hy hm
    exact hmask x hx i pkt m hp hu
  · rw [verify_upTo]
    exact hv

end KeyRefresh

section Examples

private theorem gather_two {M A E : Type} {part : M → Option A} {recv : Nat → A → Out (RecvErr E) A} {expected : Finset Nat} (he : expected = {2, 3}) {x y : M} {v w : A}
    (hx : part x = some v) (hy : part y = some w) (h2 : recv 2 v = .ok v) (h3 : recv 3 w = .ok w) :
    gather expected part recv [(2, x), (3, y)] = .ok (BMap.tabulate {2, 3} fun k => if k = 2 then v else w) := by
  refine gather_eq_ok.2 ⟨by simp, by rw [he]; rfl, by rw [he]; simp, ?_⟩
  intro a ha
  simp only [List.mem_cons, List.not_mem_nil, or_false] at ha
  rcases ha with rfl | rfl
  · exact ⟨v, v, hx, h2, (BMap.get?_tabulate ..).trans (by simp)⟩
  · exact ⟨w, w, hy, h3, (BMap.get?_tabulate ..).trans (by simp)⟩

attribute [local instance] Toy.fact11 Toy.order11

/-- The party `i`, the only honest one, completes the first round, has signed messages for `k` and refuses what `j` sends. -/
private theorem wire_case {M S E R : Type} {P : Machine I M S E R} {T : Transport I M} {panics : Panics I M S} {i : I} {init : I → S} {got : List (I × Packet I)} {got' : List (I × M)} {s : S}
    (hpk : T.packable (P.send (init i)) = true) (hread : Reads T (P.round (init i)) got got') (hc : P.Complete (init i) got') (hnr : ∀ a ∈ got', panics.recv (init i) a.1 a.2 = false)
    (hnn : panics.next (init i) got' = false) (hnext : P.next (init i) got' = .ok (.inl s)) (hpk' : T.packable (P.send s) = true) (hi : ∀ a ∈ got, a.1 ≠ i)
    {j : I} {m : M} {d : Packet I} (hu : T.unpack (P.round s) d = some m) (hp : panics.recv s j m = false) {e : E} (hr : P.recv s j m = .err (.fault j e)) {k : I} {m1 m2 : M}
    (hm1 : (k, m1) ∈ P.send (init i)) (hm2 : (k, m2) ∈ P.send s) (hr1 : P.round (init i) = 1) (hr2 : P.round s = 2) :
    ∃ (n : Net I (Packet I) S (WireErr E) R) (d1 d2 : Packet I), (overWire P T panics).Reachable {i} init n ∧ n.status i = .running s [] ∧
      (overWire P T panics).recv s j d = .err (.fault j (.protocol e)) ∧ (∀ x ∈ n.past i, x = (init i, got)) ∧ T.pack m1 = .ok d1 ∧ T.pack m2 = .ok d2 ∧
      SignedBy (overWire P T panics) packetPart n i k (⟨d2.part, fun r => if r = 1 then some d1.part else none, fun _ => none⟩ : Exhibit I 2) := by
  have hrecv : ∀ a ∈ got, (overWire P T panics).recv (init i) a.1 a.2 = .ok () := by
    intro a ha
    obtain ⟨b, hb, h1, h2⟩ := exists_of_forall₂ hread ha
    have := hc.2.2 b hb
    simp only [overWire]
    rw [if_pos hpk, h2]
    dsimp only
    rw [h1, hnr b hb, if_neg (by simp), this]
    rfl
  have hc' : (overWire P T panics).Complete (init i) got := ⟨by rw [← hread.fst]; exact hc.1, by rw [← hread.fst]; exact hc.2.1, hrecv⟩
  have hn : (overWire P T panics).next (init i) got = .ok (.inl s) := by
    rw [overWire_next hpk hread (by rw [hnn]; simp), hnext]
    show (if T.packable (P.send s) then _ else _) = _
    rw [if_pos hpk']
  have h0 : (overWire P T panics).Reachable {i} init ((overWire P T panics).start init) := .refl
  have h1 := h0.round (show i ∈ ({i} : Set I) from rfl) (s := init i) rfl hc' (fun a ha hj => absurd hj (hi a ha))
  have hadv : (overWire P T panics).advanced (init i) got = .running s [] := by
    unfold Machine.advanced
    rw [hn]
  rw [hadv] at h1
  obtain ⟨d1, hd1⟩ := packs_of_packable hpk hm1
  obtain ⟨d2, hd2⟩ := packs_of_packable hpk' hm2
  refine ⟨_, d1, d2, h1, by simp only [Function.update_self], ?_, ?_, hd1, hd2, ?_⟩
  · simp only [overWire]
    rw [if_pos hpk', hu]
    dsimp only
    rw [hp, if_neg (by simp), hr]
    rfl
  · intro x hx
    simpa [Function.update_self, Machine.start] using hx
  · refine ⟨fun p x hx => ⟨k, d2, ⟨s, by simp [Function.update_self, Machine.fresh], hr2, mem_packAll.2 ⟨m2, hm2, hd2⟩⟩, fun _ => rfl, hx⟩, ?_, fun r echos he => by cases he⟩
    intro r msg p x hmsg hx
    by_cases hr : r = 1
    · subst hr
      cases hmsg
      exact ⟨k, d1, ⟨init i, by simp [Function.update_self, Machine.start], hr1, mem_packAll.2 ⟨m1, hm1, hd1⟩⟩, fun _ => rfl, hx⟩
    · simp [hr] at hmsg

private theorem packs_all {M : Type} {T : Transport I M} {l : List (I × M)} (h : ∀ a ∈ l, ∃ d, T.pack a.2 = .ok d) : T.packable l = true := List.all_eq_true.2 fun a ha => by
  obtain ⟨d, hd⟩ := h a ha
  rw [hd]
  rfl

private def quietDraws (i : Nat) : KeyRefresh.Draws Nat (ZMod 11) := ⟨Toy.auxDraws i, fun n => (n + i : ℕ), fun j => (i + j : ℕ), fun j => (i + 2 * j : ℕ)⟩

private def refreshBytes : Nat → Nat → KeyRefresh.Hashed Nat (ZMod 11) → List Byte := fun s i _ => [BitVec.ofNat 8 s, BitVec.ofNat 8 i]

/-- Data that can be read as a digest -/
private def digest : Packet Nat := ⟨some (.seq [.bytes []]), none, none⟩

/-- The hypotheses of `C98_key_init_convincing` and `C98_key_init_unframed` can be met: the honest party 1 refuses what the party 3 opens, and has itself signed messages that could be presented as evidence. -/
example : ∃ (n : Spec.Net Nat (Packet Nat) (KeyInit.State Nat (ZMod 11) (ZMod 11) Nat (List Byte)) (WireErr KeyInit.Err) (KeyShare Nat (ZMod 11) (ZMod 11))) (s : _) (pkt d1 d2 : Packet Nat),
    (∀ i ∈ ({1} : Set Nat), BitsFit (kgDraws i).rho ∧ BitsFit (kgDraws i).u) ∧ (∀ i ∈ ({1} : Set Nat), KeyInit.start (1 : ZMod 11) {1, 2, 3} 7 i (kgDraws i) = .ok (kgCtx i)) ∧
    (overWire (KeyInit.machine kgByteHash kgH (1 : ZMod 11)) toyWire.keyInitTransport KeyInit.hashPanics).Reachable {1} (fun i => .one (kgCtx i)) n ∧ n.status 1 = .running s [] ∧
    3 ∈ (KeyInit.machine kgByteHash kgH (1 : ZMod 11)).expected s ∧
    (overWire (KeyInit.machine kgByteHash kgH (1 : ZMod 11)) toyWire.keyInitTransport KeyInit.hashPanics).recv s 3 pkt = .err (.fault 3 (.protocol .r2HashMismatch)) ∧
    toyWire.keyInitTransport.pack (.one (KeyInit.msg1 kgByteHash (kgCtx 1)) : KeyInit.Message (ZMod 11) (ZMod 11) (List Byte)) = .ok d1 ∧
    toyWire.keyInitTransport.pack (.two (KeyInit.msg2 (kgCtx 1)) : KeyInit.Message (ZMod 11) (ZMod 11) (List Byte)) = .ok d2 ∧
    SignedBy (overWire (KeyInit.machine kgByteHash kgH (1 : ZMod 11)) toyWire.keyInitTransport KeyInit.hashPanics) packetPart n 1 2
      (⟨d2.part, fun r => if r = 1 then some d1.part else none, fun _ => none⟩ : Exhibit Nat 2) := by
  have hg := gather_two (part := KeyInit.Message.one? (F := ZMod 11) (G := ZMod 11)) (recv := KeyInit.recv1 (I := Nat) (V := List Byte))
    (expected := (kgCtx 1).otherIds) (by decide) (x := .one []) (y := .one []) rfl rfl rfl rfl
  obtain ⟨n, d1, d2, hn, hst, hr, -, hd1, hd2, hsig⟩ := wire_case (P := KeyInit.machine kgByteHash kgH (1 : ZMod 11)) (T := toyWire.keyInitTransport) (panics := KeyInit.hashPanics) (i := 1)
    (init := fun i => .one (kgCtx i)) (got := [(2, digest), (3, digest)]) (got' := [(2, .one []), (3, .one [])]) (s := .two ⟨kgCtx 1, BMap.tabulate {2, 3} fun k => if k = 2 then [] else []⟩)
    (by decide +kernel) (.cons ⟨rfl, by rfl⟩ (.cons ⟨rfl, by rfl⟩ .nil)) (Signing.gather_complete hg) (by decide +kernel) (by decide +kernel) (by simp only [KeyInit.machine, hg, Out.bind_ok])
    (by decide +kernel) (by decide) (j := 3) (m := .two ⟨[true], 3, 5, [true, false]⟩) (d := ⟨some (.seq [.seq [.nat 1, .bytes [128#8]]]), some (.seq [.bytes [2#8, 3#8], .bytes [2#8, 5#8], .seq [.nat 2, .bytes [128#8]]]), none⟩)
    (by rfl) (by decide +kernel) (e := .r2HashMismatch) (by rfl) (k := 2) (m1 := .one (KeyInit.msg1 kgByteHash (kgCtx 1))) (m2 := .two (KeyInit.msg2 (kgCtx 1))) (Signing.in_toAll (by decide))
    (Signing.in_toAll (by decide)) rfl rfl
  exact ⟨n, _, _, d1, d2, fun i _ => ⟨by simp [BitsFit, kgDraws], by simp [BitsFit, kgDraws]⟩, fun i hi => kgStart i (by rw [hi]; decide), hn, hst, by decide, hr, hd1, hd2, hsig⟩

/-- The hypotheses of `C98_aux_gen_convincing` and `C98_aux_gen_unframed` can be met: the honest party 1 refuses what the party 3 opens, and has itself signed messages that could be presented as evidence. -/
example (panics : Panics Nat (AuxGen.Message (List Byte)) (AuxGen.State Nat Nat (List Byte))) (hr : ∀ s j m, panics.recv s j m = false) (hx : ∀ s l, panics.next s l = false) :
    ∃ (ctx : Nat → AuxGen.Context Nat Nat) (n : Spec.Net Nat (Packet Nat) (AuxGen.State Nat Nat (List Byte)) (WireErr (AuxGen.Err Nat)) (AuxInfo Nat PaillierKey PublicAux)) (s : _) (pkt d1 d2 : Packet Nat),
    (∀ i ∈ ({1} : Set Nat), AuxDrawsFit Params.test (Toy.auxDraws i)) ∧ (∀ i ∈ ({1} : Set Nat), DrawsValid Toy.auxEnv 2 (Toy.auxDraws i)) ∧
    (∀ i ∈ ({1} : Set Nat), AuxGen.start Toy.auxEnv {1, 2, 3} 7 i (Toy.auxDraws i) = .ok (ctx i)) ∧
    (overWire (AuxGen.machine Toy.auxEnv wireHash) toyWire.auxGenTransport panics).Reachable {1} (fun i => .one (ctx i)) n ∧ n.status 1 = .running s [] ∧
    3 ∈ (AuxGen.machine Toy.auxEnv wireHash).expected s ∧
    (overWire (AuxGen.machine Toy.auxEnv wireHash) toyWire.auxGenTransport panics).recv s 3 pkt = .err (.fault 3 (.protocol .r2HashMismatch)) ∧
    (∀ x ∈ n.past 1, ∀ i pkt m, (i, pkt) ∈ x.2 → toyWire.auxGenTransport.unpack ((AuxGen.machine Toy.auxEnv wireHash).round x.1) pkt = some (.two m) → m.echo.rp.modulus < 2 ^ Params.test.modBits ∧
      FacDrawsValid Params.test ((Toy.auxDraws 1).p * (Toy.auxDraws 1).q) m.echo.rp.modulus ((Toy.auxDraws 1).facMasks i) ∧ ((Toy.auxDraws 1).facMasks i).mu.val ≠ 0) ∧
    toyWire.auxGenTransport.pack (.one (AuxGen.msg1 wireHash (ctx 1))) = .ok d1 ∧ toyWire.auxGenTransport.pack (.two (AuxGen.msg2 (ctx 1))) = .ok d2 ∧
    SignedBy (overWire (AuxGen.machine Toy.auxEnv wireHash) toyWire.auxGenTransport panics) packetPart n 1 2
      (⟨d2.part, fun r => if r = 1 then some d1.part else none, fun _ => none⟩ : Exhibit Nat 2) := by
  have hst : ∀ i ∈ ({1, 2, 3} : Finset Nat), ∃ c, AuxGen.start Toy.auxEnv ({1, 2, 3} : Finset Nat) 7 i (Toy.auxDraws i) = .ok c := by
    intro i hi
    obtain ⟨c, h, _⟩ := C54_start Toy.auxEnv 2 {1, 2, 3} 7 i hi (Toy.auxDraws i) (Toy.auxDraws_valid i (by simp at hi; omega))
    exact ⟨c, h⟩
  have : Nonempty (AuxGen.Context Nat Nat) := ⟨(hst 1 (by decide)).choose⟩
  obtain ⟨ctx, hctx⟩ := exists_fun hst
  have hoth : (ctx 1).otherIds = {2, 3} := by
    obtain ⟨-, -, sk, -, hcc⟩ := AuxGen.start_ok (hctx 1 (by decide))
    rw [hcc]
    show ({1, 2, 3} : Finset Nat).erase 1 = {2, 3}
    decide
  have hsid : (ctx 1).sid = 7 := by
    obtain ⟨-, -, sk, -, hcc⟩ := AuxGen.start_ok (hctx 1 (by decide))
    rw [hcc]
  have hg := gather_two (part := AuxGen.Message.one? (V := List Byte)) (recv := AuxGen.recv1 (I := Nat) (V := List Byte))
    (expected := (ctx 1).otherIds) hoth (x := .one []) (y := .one []) rfl rfl rfl rfl
  have hfit : ∀ i ∈ ({1, 2, 3} : Finset Nat), AuxGen.StateFits Params.test (.one (ctx i) : AuxGen.State Nat Nat (List Byte)) := fun i hi => AuxGen.initial_fits auxHashesFit (auxDrawsFit i) (hctx i hi)
  have hF := AuxGen.faithful (I := Nat) (Sid := Nat) toyWire_valid (E := Toy.auxEnv) rfl auxHashesFit (hashV := wireHash)
  have hpk : ∀ s, AuxGen.StateFits Params.test s → ∀ a ∈ (AuxGen.machine Toy.auxEnv wireHash).send s, ∃ d : Packet Nat, toyWire.auxGenTransport.pack a.2 = .ok d := fun s hs a ha =>
    toyWire_valid.auxGen_packs a.2 (AuxGen.send_fits (E := Toy.auxEnv) hs ha)
  have h2 : 2 ∈ (ctx 1).otherIds := by rw [hoth]; decide
  have h3 : (2, AuxGen.Message.two (AuxGen.msg2 (ctx 3))) ∈ (AuxGen.machine Toy.auxEnv wireHash).send (.two (ctx 3) BMap.empty) := Signing.in_toAll (by
    obtain ⟨-, -, sk, -, hcc⟩ := AuxGen.start_ok (hctx 3 (by decide))
    rw [hcc]
    show 2 ∈ ({1, 2, 3} : Finset Nat).erase 3
    decide)
  obtain ⟨d, hd⟩ := hpk _ (show AuxGen.StateFits Params.test (.two (ctx 3) BMap.empty) from hfit 3 (by decide)) _ h3
  obtain ⟨n, d1, d2, hn, hst, hr, hp, hd1, hd2, hsig⟩ := wire_case (P := AuxGen.machine Toy.auxEnv wireHash) (T := toyWire.auxGenTransport) (panics := panics) (i := 1)
    (init := fun i => .one (ctx i)) (got := [(2, digest), (3, digest)]) (got' := [(2, .one []), (3, .one [])]) (s := .two (ctx 1) (BMap.tabulate {2, 3} fun k => if k = 2 then [] else []))
    (packs_all (hpk _ (hfit 1 (by decide)))) (.cons ⟨rfl, by rfl⟩ (.cons ⟨rfl, by rfl⟩ .nil)) (Signing.gather_complete hg) (fun _ _ => hr ..) (hx ..) (by simp only [AuxGen.machine, hg, Out.bind_ok])
    (packs_all (hpk _ (hfit 1 (by decide)))) (by decide) (j := 3) (m := .two (AuxGen.msg2 (ctx 3))) (d := d)
    (hF.trip _ (show AuxGen.StateFits Params.test (.two (ctx 3) BMap.empty) from hfit 3 (by decide)) _ h3 d hd) (hr ..) (e := .r2HashMismatch) (by
      obtain ⟨-, -, sk, -, hcc⟩ := AuxGen.start_ok (hctx 3 (by decide))
      have hacc := AuxGen.hdata_accepted Toy.auxEnv_valid (Toy.auxDraws_valid 3 (by omega)) 7 3 wireHash
        (BMap.tabulate {3} fun _ => wireHash 7 3 (AuxGen.hdata Toy.auxEnv 7 3 (Toy.auxDraws 3)).hashed) ((BMap.get?_tabulate ..).trans (by simp))
      unfold AuxGen.recv2 at hacc
      obtain ⟨data, hdata, -⟩ := Out.bind_eq_ok.1 hacc
      show (received 3 (AuxGen.recv2 Toy.auxEnv wireHash (ctx 1).sid _ 3 (AuxGen.msg2 (ctx 3)))).bind _ = _
      have hm : AuxGen.msg2 (ctx 3) = (AuxGen.hdata Toy.auxEnv 7 3 (Toy.auxDraws 3)).msg2 := by rw [hcc]; rfl
      rw [hm, hsid]
      unfold AuxGen.recv2
      rw [hdata, Out.bind_ok]
      unfold recvGet
      rw [BMap.get?_tabulate]
      simp [wireHash, received]) (k := 2) (m1 := .one (AuxGen.msg1 wireHash (ctx 1))) (m2 := .two (AuxGen.msg2 (ctx 1))) (Signing.in_toAll h2) (Signing.in_toAll h2) rfl rfl
  refine ⟨ctx, n, _, d, d1, d2, fun i _ => auxDrawsFit i, fun i hi => Toy.auxDraws_valid i (by rw [hi]; decide), fun i hi => hctx i (by rw [hi]; decide), hn, hst, ?_, hr, ?_, hd1, hd2, hsig⟩
  · show 3 ∈ (ctx 1).otherIds
    rw [hoth]
    decide
  · intro x hx i pkt m hm hu
    rw [hp x hx] at hm hu
    have : pkt = digest := by simp at hm; rcases hm with h | h <;> exact h.2
    rw [this] at hu
    exact absurd hu (by rintro ⟨⟩)

/-- The hypotheses of `C98_refresh_convincing` and `C98_refresh_unframed` can be met: the honest party 1 refuses what the party 3 opens, and has itself signed messages that could be presented as evidence. -/
example : ∃ (ctx : Nat → KeyRefresh.Context Nat (ZMod 11) (ZMod 11) Nat)
    (n : Spec.Net Nat (Packet Nat) (KeyRefresh.State Nat (ZMod 11) (ZMod 11) Nat (List Byte)) (WireErr (KeyRefresh.Err Nat (ZMod 11))) (KeyShareChange Nat (ZMod 11) (ZMod 11) × AuxInfo Nat PaillierKey PublicAux))
    (s : _) (pkt d1 d2 : Packet Nat),
    (∀ i ∈ ({1} : Set Nat), KeyRefresh.start refreshCaseEnv {1, 2, 3} 7 i (quietDraws i) = .ok (ctx i)) ∧
    (overWire (KeyRefresh.machine refreshCaseEnv refreshBytes) toyWire.keyRefreshTransport KeyRefresh.hashPanics).Reachable {1} (fun i => .one (ctx i)) n ∧ n.status 1 = .running s [] ∧
    3 ∈ (KeyRefresh.machine refreshCaseEnv refreshBytes).expected s ∧
    (overWire (KeyRefresh.machine refreshCaseEnv refreshBytes) toyWire.keyRefreshTransport KeyRefresh.hashPanics).recv s 3 pkt = .err (.fault 3 (.protocol .r2HashMismatch)) ∧
    (∀ x ∈ n.past 1, ∀ i pkt m, (i, pkt) ∈ x.2 → (toyWire.keyRefreshTransport (q := 11)).unpack ((KeyRefresh.machine refreshCaseEnv refreshBytes).round x.1) pkt = some (.two m) →
      m.echo.rp.modulus < 2 ^ Params.test.modBits ∧
      FacDrawsValid Params.test ((Toy.auxDraws 1).p * (Toy.auxDraws 1).q) m.echo.rp.modulus ((Toy.auxDraws 1).facMasks i) ∧ ((Toy.auxDraws 1).facMasks i).mu.val ≠ 0) ∧
    toyWire.keyRefreshTransport.pack (.one (KeyRefresh.msg1 refreshBytes (ctx 1)) : KeyRefresh.Message Nat (ZMod 11) (ZMod 11) (List Byte)) = .ok d1 ∧
    toyWire.keyRefreshTransport.pack (.two (KeyRefresh.msg2 (ctx 1)) : KeyRefresh.Message Nat (ZMod 11) (ZMod 11) (List Byte)) = .ok d2 ∧
    SignedBy (overWire (KeyRefresh.machine refreshCaseEnv refreshBytes) toyWire.keyRefreshTransport KeyRefresh.hashPanics) packetPart n 1 2
      (⟨d2.part, fun r => if r = 1 then some d1.part else none, fun _ => none⟩ : Exhibit Nat 2) := by
  have hst : ∀ i ∈ ({1, 2, 3} : Finset Nat), ∃ c, KeyRefresh.start refreshCaseEnv ({1, 2, 3} : Finset Nat) 7 i (quietDraws i) = .ok c :=
    fun i hi => (C38_start refreshCaseEnv 2 {1, 2, 3} 7 i (quietDraws i) (Toy.auxDraws_valid i (by simp at hi; omega))).1 hi
  have : Nonempty (KeyRefresh.Context Nat (ZMod 11) (ZMod 11) Nat) := ⟨(hst 1 (by decide)).choose⟩
  obtain ⟨ctx, hctx⟩ := exists_fun hst
  have hoth : (ctx 1).otherIds = {2, 3} := by
    obtain ⟨-, -, sk, y, -, -, hcc⟩ := KeyRefresh.start_ok (hctx 1 (by decide))
    rw [hcc]
    show ({1, 2, 3} : Finset Nat).erase 1 = {2, 3}
    decide
  have hsid : (ctx 1).sid = 7 := by
    obtain ⟨-, -, sk, y, -, -, hcc⟩ := KeyRefresh.start_ok (hctx 1 (by decide))
    rw [hcc]
    rfl
  have hg := gather_two (part := KeyRefresh.Message.one? (I := Nat) (F := ZMod 11) (G := ZMod 11) (V := List Byte)) (recv := KeyRefresh.recv1 (I := Nat) (F := ZMod 11) (V := List Byte))
    (expected := (ctx 1).otherIds) hoth (x := .one []) (y := .one []) rfl rfl rfl rfl
  have hfit : ∀ i ∈ ({1, 2, 3} : Finset Nat), KeyRefresh.StateFits Params.test (.one (ctx i) : KeyRefresh.State Nat (ZMod 11) (ZMod 11) Nat (List Byte)) :=
    fun i hi => KeyRefresh.initial_fits (E := refreshCaseEnv) (d := quietDraws i) auxHashesFit (auxDrawsFit i) (hctx i hi)
  have hclean : ∀ i ∈ ({1, 3} : Finset Nat), KeyRefresh.Clean (.one (ctx i) : KeyRefresh.State Nat (ZMod 11) (ZMod 11) Nat (List Byte)) := fun i hi =>
    (KeyRefresh.start_clean (by decide) (hctx i (by revert hi; revert i; decide))).2 (by
      rw [KeyRefresh.start_xs (hctx i (by revert hi; revert i; decide))]
      revert i
      decide +kernel)
  have hF := KeyRefresh.faithful (I := Nat) (Sid := Nat) toyWire_valid (E := refreshCaseEnv) rfl auxHashesFit (hashV := refreshBytes)
  have hpk : ∀ s, KeyRefresh.StateFits Params.test s → KeyRefresh.Clean s → ∀ a ∈ (KeyRefresh.machine refreshCaseEnv refreshBytes).send s, ∃ d, toyWire.keyRefreshTransport.pack a.2 = .ok d := fun s hs hs' a ha =>
    (toyWire_valid.keyRefresh_packs a.2 (KeyRefresh.send_fits (E := refreshCaseEnv) hs ha)).2 (KeyRefresh.clean_send hs' ha)
  have h2 : 2 ∈ (ctx 1).otherIds := by rw [hoth]; decide
  have h3 : (2, KeyRefresh.Message.two (KeyRefresh.msg2 (ctx 3))) ∈ (KeyRefresh.machine refreshCaseEnv refreshBytes).send (.two (ctx 3) BMap.empty) := Signing.in_toAll (by
    obtain ⟨-, -, sk, y, -, -, hcc⟩ := KeyRefresh.start_ok (hctx 3 (by decide))
    rw [hcc]
    show 2 ∈ ({1, 2, 3} : Finset Nat).erase 3
    decide)
  have hf3 : KeyRefresh.StateFits Params.test (.two (ctx 3) BMap.empty : KeyRefresh.State Nat (ZMod 11) (ZMod 11) Nat (List Byte)) := hfit 3 (by decide)
  have hc3 : KeyRefresh.Clean (.two (ctx 3) BMap.empty : KeyRefresh.State Nat (ZMod 11) (ZMod 11) Nat (List Byte)) := hclean 3 (by decide)
  obtain ⟨d, hd⟩ := hpk _ hf3 hc3 _ h3
  have hown : ∀ (s : KeyRefresh.State Nat (ZMod 11) (ZMod 11) Nat (List Byte)) j (m : KeyRefresh.Message Nat (ZMod 11) (ZMod 11) (List Byte)), KeyRefresh.Clean s → keyRefreshNoIdentity m → KeyRefresh.hashPanics.recv s j m = false := fun s j m hs hm => by
    simp only [KeyRefresh.hashPanics, hashPanics, decide_eq_false_iff_not, List.mem_append, not_or]
    exact ⟨KeyRefresh.clean_own hs, KeyRefresh.clean_read hs hm⟩
  have hone : keyRefreshNoIdentity (.one [] : KeyRefresh.Message Nat (ZMod 11) (ZMod 11) (List Byte)) := by
    intro n p x hx
    rcases p <;> rcases n with _ | _ | _ | _ | n <;> first | (cases hx; done) | exact List.not_mem_nil
  obtain ⟨n, d1, d2, hn, hst, hr, hp, hd1, hd2, hsig⟩ := wire_case (P := KeyRefresh.machine refreshCaseEnv refreshBytes) (T := toyWire.keyRefreshTransport) (panics := KeyRefresh.hashPanics) (i := 1)
    (init := fun i => .one (ctx i)) (got := [(2, digest), (3, digest)]) (got' := [(2, .one []), (3, .one [])]) (s := .two (ctx 1) (BMap.tabulate {2, 3} fun k => if k = 2 then [] else []))
    (packs_all (hpk _ (hfit 1 (by decide)) (hclean 1 (by decide)))) (.cons ⟨rfl, by rfl⟩ (.cons ⟨rfl, by rfl⟩ .nil)) (Signing.gather_complete hg)
    (fun a ha => hown _ _ _ (hclean 1 (by decide)) (by simp only [List.mem_cons, List.not_mem_nil, or_false] at ha; rcases ha with rfl | rfl <;> exact hone))
    (decide_eq_false (KeyRefresh.clean_own (hclean 1 (by decide)))) (by simp only [KeyRefresh.machine, hg, Out.bind_ok])
    (packs_all (hpk _ (hfit 1 (by decide)) (hclean 1 (by decide)))) (by decide) (j := 3) (m := .two (KeyRefresh.msg2 (ctx 3))) (d := d)
    (hF.trip _ hf3 _ h3 d hd) (hown _ _ _ (hclean 1 (by decide)) (KeyRefresh.clean_send hc3 h3)) (e := .r2HashMismatch) (by
      obtain ⟨-, -, sk, y, -, hy, hcc⟩ := KeyRefresh.start_ok (hctx 3 (by decide))
      have hacc := KeyRefresh.hdata_accepted (E := refreshCaseEnv) Toy.auxEnv_valid (d := quietDraws 3) (Toy.auxDraws_valid 3 (by omega)) 7 3 hy refreshBytes
        (BMap.tabulate {3} fun _ => refreshBytes 7 3 (KeyRefresh.hdata refreshCaseEnv {1, 2, 3} 7 3 (quietDraws 3) y).hashed) ((BMap.get?_tabulate ..).trans (by simp))
      unfold KeyRefresh.recv2 at hacc
      obtain ⟨data, hdata, -⟩ := Out.bind_eq_ok.1 hacc
      show (received 3 (KeyRefresh.recv2 refreshCaseEnv refreshBytes (ctx 1).sid _ _ 3 (KeyRefresh.msg2 (ctx 3)))).bind _ = _
      have hm : KeyRefresh.msg2 (ctx 3) = (KeyRefresh.hdata refreshCaseEnv {1, 2, 3} 7 3 (quietDraws 3) y).msg2 := by rw [hcc]; rfl
      rw [hm, hsid]
      unfold KeyRefresh.recv2
      rw [hdata, Out.bind_ok]
      unfold recvGet
      rw [BMap.get?_tabulate]
      simp [refreshBytes, received]) (k := 2) (m1 := .one (KeyRefresh.msg1 refreshBytes (ctx 1))) (m2 := .two (KeyRefresh.msg2 (ctx 1))) (Signing.in_toAll h2) (Signing.in_toAll h2) rfl rfl
  refine ⟨ctx, n, _, d, d1, d2, fun i hi => hctx i (by rw [hi]; decide), hn, hst, ?_, hr, ?_, hd1, hd2, hsig⟩
  · show 3 ∈ (ctx 1).otherIds
    rw [hoth]
    decide
  · intro x hx i pkt m hm hu
    rw [hp x hx] at hm hu
    have : pkt = digest := by simp at hm; rcases hm with h | h <;> exact h.2
    rw [this] at hu
    exact absurd hu (by rintro ⟨⟩)

end Examples

end Synedrion.Props
