import Verif.Lemmas.WireFraming
import Verif.Props.WireEvidenceSigning

/-!
# C101: who has signed successfully over serialized messages can be framed
-/

set_option linter.unusedSectionVars false

namespace Synedrion.Props

open Spec Signing

variable {q : Nat} [Fact q.Prime] {I Ep G V : Type} [LinearOrder I] [AddCommGroup G] [Module (ZMod q) G] [DecidableEq G] [DecidableEq V] {W : WireFormat G V}
  {E : Env q I Ep G} {epidOf : BMap I G → BMap I PublicAux → Ep} {message : ZMod q} {shares : I → KeyShare I (ZMod q) G} {infos : I → AuxInfo I PaillierKey PublicAux} {d : I → Draws q I}
  {honest : Set I} {r : I → Round1 q I Ep G} {init : I → State q I Ep G} {n : Net I (Packet I) (State q I Ep G) (WireErr (Err I)) (RecoverableSignature q)}

private theorem quiet_points {g : G} {s : State q I Ep G} {got : List (I × Message q I G)} (h : (Signing.hashPanics g).next s got = false) : (0 : G) ∉ ownPoints g s := by
  simpa [Signing.hashPanics, Synedrion.hashPanics] using h

/-- The key shares of who has finished are not zero. -/
private theorem shares_points {T : Transport I (Message q I G)} (hstart : ∀ i ∈ honest, start E epidOf message (shares i) (infos i) i (d i) = .ok (r i)) (hinit : ∀ i ∈ honest, begin E (r i) = .ok (init i))
    {n' : Net I (Message q I G) (State q I Ep G) (Err I) (RecoverableSignature q)}
    (h : (overWire (machine E) T (Signing.hashPanics E.C.g)).Reachable honest init n) (hn' : (machine E).Reachable honest init n') (hs : SameCourse T (machine E).round honest n n')
    {j : I} (hj : j ∈ honest) {res : RecoverableSignature q} (hf : n.status j = .finished res) (hlen : 1 ≤ (n'.past j).length) : (0 : G) ∉ (shares j).pub.values := by
  obtain ⟨-, -, -, -, hks, -⟩ := start_eq_ok (hstart j hj)
  obtain ⟨y, hy, out, ho, hys, -⟩ := past_first hinit hn' hj hlen
  have hb : y.1 ∈ n.begun j := by rw [← hs.begun]; exact ((hn'.inv j).past y hy).1
  obtain ⟨got', hq⟩ := quiet_of_finished h hf hb
  have hq := quiet_points hq
  rw [hys] at hq
  intro h0
  refine hq (List.mem_append_left _ ?_)
  rw [hks]
  exact h0

/-- **C101 is false of signing: a message of round 3.** In any execution of signing over serialized messages, whatever the schedule: an honest party that has finished with a signature has signed data that convinces
everyone with the same public inputs, who reads it and does not panic, that its message of round 3 was wrong, unless the shares of `Γ` that it received sum up to zero or the response in its proof is zero. -/
theorem C101_signing_elog_framed (hW : FormatValid W q) (hP : W.P = E.P) (hc : E.P.SelfConsistent) (hE : SigningHashesFit E)
    (haux : ∀ i ∈ honest, AllValues (Spec.AuxFits E.P) (infos i).pub) (hkey : ∀ i ∈ honest, (infos i).secret.modulus ≠ 0 ∧ (infos i).secret.modulus < 2 ^ E.P.modBits)
    (hd : ∀ i ∈ honest, SigningDrawsFit E.P ((shares i).pub.keySet.erase i) (d i))
    (hstart : ∀ i ∈ honest, start E epidOf message (shares i) (infos i) i (d i) = .ok (r i)) (hinit : ∀ i ∈ honest, begin E (r i) = .ok (init i))
    (h : (overWire (machine E) W.signingTransport (Signing.hashPanics E.C.g)).Reachable honest init n) (j i reporter : I) (hj : j ∈ honest) (res : RecoverableSignature q)
    (hf : n.status j = .finished res) (pkt : Packet I) (hsent : (overWire (machine E) W.signingTransport (Signing.hashPanics E.C.g)).Sent n j i 3 pkt) (m3 : Msg3 q G)
    (hm3 : W.signingTransport.unpack 3 pkt = some (.three m3 : Message q I G)) (hu : m3.psiPrime.u ≠ 0) (x : State q I Ep G × List (I × Packet I)) (hx : x ∈ n.past j)
    (hx2 : (machine E).round x.1 = 2) (got : List (I × Message q I G)) (hgot : Reads W.signingTransport 2 x.2 got)
    (hsum : ((echosOf Message.part 2 got).map fun a => Echo2.capGamma a.2).sum ≠ 0) (named : Bool) :
    ∃ ev : Exhibit I 3, SignedBy (overWire (machine E) W.signingTransport (Signing.hashPanics E.C.g)) packetPart n j reporter ev ∧
      checkExhibit W E named (signingData epidOf message (shares j) (infos j)) j .r3ElogFailed ev = .ok true := by
  obtain ⟨n', hn', hs⟩ := C91_signing hW E hP hc hE epidOf message (Signing.hashPanics E.C.g) honest shares infos haux hkey d hd r hstart init hinit n h
  replace hn' := hn'.reachable
  have hF := Signing.faithful hW hP hE (I := I)
  have hinit' : ∀ i ∈ honest, StateFits E.P (init i) := fun i hi => by
    obtain ⟨h1, h2⟩ := Signing.start_fits hc (haux i hi) (hkey i hi).1 (hkey i hi).2 (hd i hi) (hstart i hi)
    exact Signing.begin_fits hE h1 h2 (hinit i hi)
  have hsent' : (machine E).Sent n' j i 3 (.three m3) := by
    obtain ⟨s, hb, hr, hmem⟩ := hsent
    obtain ⟨m, hm, hp⟩ := mem_packAll.1 hmem
    have ht := hF.trip s (begun_inv hF hinit' h hj hb) (i, m) hm pkt hp
    rw [show (machine E).round s = 3 from hr, hm3] at ht
    cases Option.some.inj ht
    exact ⟨s, by rw [hs.begun]; exact hb, hr, hm⟩
  obtain ⟨y, hy, hxy, hread⟩ := exists_of_forall₂ (past_of_running hs (by rw [hf]; simp)) hx
  have hyg : y.2 = got := by
    rw [hx2] at hread
    refine List.ext_getElem (by rw [← hread.length_eq, ← hgot.length_eq]) fun k hk hk' => ?_
    have hk0 : k < x.2.length := by rw [hread.length_eq]; exact hk
    have h1 := hread.get hk0 hk
    have h2 := hgot.get hk0 hk'
    simp only [List.get_eq_getElem] at h1 h2
    exact Prod.ext (h1.1.symm.trans h2.1) (Option.some.inj (h1.2.symm.trans h2.2))
  obtain ⟨ev', hsig, hv⟩ := C87_signing_elog_framed hstart hinit hn' j i reporter hj m3 hsent' hu y hy (by rw [← hxy]; exact hx2) (by rw [hyg]; exact hsum) named
  obtain ⟨ev, hev, hdec⟩ := signedBy_write (signing_splits W) hF hinit' h hs hj hf hsig
  refine ⟨ev, hev, ?_⟩
  refine (congrArg (fun p : Package I (Parts q I G) (Err.r3ElogFailed (I := I)).round => (verifyMessages E named (signingData epidOf message (shares j) (infos j)) j .r3ElogFailed p).hashing
    (evidencePoints E.C.g (signingData epidOf message (shares j) (infos j)) j .r3ElogFailed p)) hdec).trans ?_
  refine hashing_ok hv ?_
  -- the party hashed these points itself
  have hlen := sent_length hinit hn' hj (k := 2) hsent' (by omega)
  have hshares := shares_points hstart hinit h hn' hs hj hf (by omega)
  obtain ⟨-, -, -, hmy, -⟩ := start_eq_ok (hstart j hj)
  obtain ⟨y2, hy2, r2, hr2, hs2, -⟩ := past_second hinit hn' hj hlen
  have q2 : (0 : G) ∉ ownPoints E.C.g (.two r2 : State q I Ep G) := by
    have hb : y2.1 ∈ n.begun j := by rw [← hs.begun]; exact ((hn'.inv j).past y2 hy2).1
    rw [← hs2]
    exact quiet_points (quiet_of_finished h hf hb).choose_spec
  obtain ⟨hctx2, -, -, hown2, -⟩ := toRound2_payloads hr2
  have hgamma : r2.capGamma ≠ 0 := by
    intro h0
    refine q2 (List.mem_append_left _ ?_)
    rw [hctx2, hown2]
    simp [ElogProof.hashed, Payload1.elogPub, h0]
  have q3 : ∀ r3, toRound3 E (r j) (got1 n' j) (got2 n' j) = .ok r3 → (0 : G) ∉ r3.msg.psiPrime.hashed (((r j).echo.payload (r j).ctx.key.modulus).elogPub' r3.msg.capDelta r3.capGammaCombined) := by
    intro r3 hr3
    obtain ⟨s, hb, hk, -⟩ := hsent'
    have hb' := hb
    rw [hs.begun] at hb'
    have hq := quiet_points (quiet_of_finished h hf hb').choose_spec
    obtain ⟨l, hl, hrep⟩ := (hn'.inv j).begun s hb
    have hst := stage (n := n') hinit hj hl hrep
    generalize l.length = len at hst
    cases hst with
    | one out ho => cases hk
    | two r2 h2 => cases hk
    | four r4 h4 => cases hk
    | error re m' h4 hm' =>
      exfalso
      change (if re.hat then 6 else 5) = 3 at hk
      split at hk <;> cases hk
    | three r3' hr3' =>
      rw [hr3] at hr3'
      cases Out.ok.inj hr3'
      simp only [ownPoints] at hq
      rw [(toRound3_ok hr3).1, (toRound3_own hr3).1] at hq
      exact hq
  have p1 : ∀ msg (e1 : Echo1 G), ev'.previous 1 = some msg → msg .echo = some e1 → e1 = (r j).echo := by
    intro msg e1 hm he
    obtain ⟨i', m, hsm, -, hp⟩ := hsig.previous 1 msg .echo e1 hm he
    rcases sent hinit hn' hj hsm with ⟨-, m1, hm1, rfl⟩ | ⟨hk, -⟩ | ⟨hk, -⟩ | ⟨hk, -⟩ | ⟨hk | hk, -⟩
    · cases hp
      exact msg1_echo hm1
    all_goals cases hk
  have p2 : ∀ msg (e2 : Echo2 I G), ev'.previous 2 = some msg → msg .echo = some e2 → e2 = (msg2 r2).echo := by
    intro msg e2 hm he
    obtain ⟨i', m, hsm, -, hp⟩ := hsig.previous 2 msg .echo e2 hm he
    rcases sent hinit hn' hj hsm with ⟨hk, -⟩ | ⟨-, r2', hr2', rfl⟩ | ⟨hk, -⟩ | ⟨hk, -⟩ | ⟨hk | hk, -⟩
    · cases hk
    · rw [hr2] at hr2'
      cases Out.ok.inj hr2'
      exact (Option.some.inj hp).symm
    all_goals cases hk
  have p3 : ∀ nb : Normal3 q G, ev'.current .normal = some nb → ∃ r3, toRound3 E (r j) (got1 n' j) (got2 n' j) = .ok r3 ∧ nb.psiPrime = r3.msg.psiPrime ∧ nb.capDelta = r3.msg.capDelta := by
    intro nb hn
    obtain ⟨i', m, hsm, -, hp⟩ := hsig.current .normal nb hn
    rcases sent hinit hn' hj hsm with ⟨hk, -⟩ | ⟨hk, -⟩ | ⟨-, r3, hr3, rfl⟩ | ⟨hk, -⟩ | ⟨hk | hk, -⟩
    · cases hk
    · cases hk
    · cases hp
      exact ⟨r3, hr3, rfl, rfl⟩
    all_goals cases hk
  refine fun hmem => (List.mem_append.1 hmem).elim hshares fun h0 => ?_
  obtain ⟨e1, he1, h0⟩ := List.mem_flatMap.1 h0
  obtain ⟨e2, he2, h0⟩ := List.mem_flatMap.1 h0
  obtain ⟨nb, hnb, h0⟩ := List.mem_flatMap.1 h0
  obtain ⟨msg1, hmsg1, he1⟩ := Option.bind_eq_some_iff.1 (Option.mem_toList.1 he1)
  obtain ⟨msg2', hmsg2, he2⟩ := Option.bind_eq_some_iff.1 (Option.mem_toList.1 he2)
  obtain rfl := p1 _ _ hmsg1 he1
  obtain rfl := p2 _ _ hmsg2 he2
  obtain ⟨r3, hr3, e3, e4⟩ := p3 _ (Option.mem_toList.1 hnb)
  have hq := q3 r3 hr3
  rw [e3, e4] at h0
  simp only [ElogProof.hashed, Payload1.elogPub', Echo1.payload, List.mem_cons, List.not_mem_nil, or_false, not_or] at hq h0
  obtain ⟨a1, a2, a3, a4, a5, a6, a7, -⟩ := hq
  rcases h0 with h0 | h0 | h0 | h0 | h0 | h0 | h0 | h0
  · exact a1 h0
  · exact a2 h0
  · exact a3 h0
  · exact a4 h0
  · exact a5 h0
  · exact a6 h0
  · exact a7 h0
  · exact hgamma h0.symm

/-- **C101 is false of signing: the second multiplication in round 2.** In any execution of signing over serialized messages, whatever the schedule: if honest parties `i` and `j` have finished, `j` has signed data that
convinces everyone with the same public inputs, who reads it and does not panic, that the proof about the second multiplication that `j` made for `i` was wrong, although `i` has accepted it, unless the two have the
same public key share or the challenge of the proof is zero. -/
theorem C101_signing_hat_framed (hW : FormatValid W q) (hP : W.P = E.P) (hc : E.P.SelfConsistent) (hE : SigningHashesFit E)
    (haux : ∀ i ∈ honest, AllValues (Spec.AuxFits E.P) (infos i).pub) (hkey : ∀ i ∈ honest, (infos i).secret.modulus ≠ 0 ∧ (infos i).secret.modulus < 2 ^ E.P.modBits)
    (hd : ∀ i ∈ honest, SigningDrawsFit E.P ((shares i).pub.keySet.erase i) (d i)) (hnew : ∀ i ∈ honest, Signing.new (shares i) (infos i) = .ok ())
    (hstart : ∀ i ∈ honest, start E epidOf message (shares i) (infos i) i (d i) = .ok (r i))
    (hself : ∀ i ∈ honest, ∃ a, (infos i).pub.get? i = some a ∧ a.pk = (infos i).secret.modulus) (hinit : ∀ i ∈ honest, begin E (r i) = .ok (init i))
    (h : (overWire (machine E) W.signingTransport (Signing.hashPanics E.C.g)).Reachable honest init n) (i j : I) (hi : i ∈ honest) (hj : j ∈ honest) (res res' : RecoverableSignature q)
    (hfi : n.status i = .finished res) (hfj : n.status j = .finished res') (x : State q I Ep G × List (I × Packet I)) (hx : x ∈ n.past i) (hx2 : (machine E).round x.1 = 2) (pkt : Packet I)
    (hpkt : (j, pkt) ∈ x.2) (m2 : Msg2 q I G) (hm2 : W.signingTransport.unpack 2 pkt = some (.two m2 : Message q I G)) (psi : AffGProof q G) (hpsi : m2.hatPsis.get? i = some psi) (hchal : psi.e ≠ 0)
    (hshare : (shares i).pub.get? i ≠ (shares i).pub.get? j) (named : Bool) :
    ∃ ev : Exhibit I 2, SignedBy (overWire (machine E) W.signingTransport (Signing.hashPanics E.C.g)) packetPart n j i ev ∧
      checkExhibit W E named (signingData epidOf message (shares i) (infos i)) j (.r2AffGHatPsiFailed i) ev = .ok true := by
  obtain ⟨n', hn', hs⟩ := C91_signing hW E hP hc hE epidOf message (Signing.hashPanics E.C.g) honest shares infos haux hkey d hd r hstart init hinit n h
  replace hn' := hn'.reachable
  have hF := Signing.faithful hW hP hE (I := I)
  have hinit' : ∀ i ∈ honest, StateFits E.P (init i) := fun i hi => by
    obtain ⟨h1, h2⟩ := Signing.start_fits hc (haux i hi) (hkey i hi).1 (hkey i hi).2 (hd i hi) (hstart i hi)
    exact Signing.begin_fits hE h1 h2 (hinit i hi)
  obtain ⟨y, hy, hxy, hread⟩ := exists_of_forall₂ (past_of_running hs (by rw [hfi]; simp)) hx
  rw [hx2] at hread
  obtain ⟨b, hb, hb1, hb2⟩ := exists_of_forall₂ hread hpkt
  rw [hm2] at hb2
  obtain ⟨b1, b2⟩ := b
  dsimp only at hb1 hb2
  subst hb1
  cases Option.some.inj hb2
  have hy2 : (machine E).round y.1 = 2 := by rw [← hxy]; exact hx2
  obtain ⟨ev', hsig, hv⟩ := C87_signing_hat_framed hnew hstart hself hinit hn' i j hi hj y hy hy2 m2 hb psi hpsi hchal hshare named
  obtain ⟨ev, hev, hdec⟩ := signedBy_write (signing_splits W) hF hinit' h hs hj hfj hsig
  refine ⟨ev, hev, ?_⟩
  refine (congrArg (fun p : Package I (Parts q I G) (Err.r2AffGHatPsiFailed i).round => (verifyMessages E named (signingData epidOf message (shares i) (infos i)) j (.r2AffGHatPsiFailed i) p).hashing
    (evidencePoints E.C.g (signingData epidOf message (shares i) (infos i)) j (.r2AffGHatPsiFailed i) p)) hdec).trans ?_
  refine hashing_ok hv ?_
  obtain ⟨-, -, -, hmy, hks, -, hoth, -⟩ := start_eq_ok (hstart i hi)
  obtain ⟨k, hstg, hk, -⟩ := past_stage hinit hn' hi hy
  have hshares := shares_points hstart hinit h hn' hs hi hfi (by omega)
  obtain ⟨⟨-, hexp, hacc⟩, hgot⟩ := ((hn'.inv i).past y hy).2
  have hjexp : j ∈ (machine E).expected y.1 := by rw [← hexp, List.mem_toFinset]; exact List.mem_map.2 ⟨_, hb, rfl⟩
  have hsent : (machine E).Sent n' j i 2 (.two m2) := by rw [← hy2]; exact hgot.authentic _ hb hj
  obtain ⟨r2j, h2j, rfl⟩ : ∃ r2, toRound2 E (r j) (got1 n' j) = .ok r2 ∧ m2 = msg2 r2 := by
    rcases sent hinit hn' hj hsent with ⟨hk, -⟩ | ⟨-, r2, h2, he⟩ | ⟨hk, -⟩ | ⟨hk, -⟩ | ⟨hk | hk, -⟩
    · cases hk
    · cases he; exact ⟨r2, h2, rfl⟩
    all_goals cases hk
  have hcap : psi.capBx ≠ 0 := by
    obtain ⟨-, m, hu, hp, -⟩ := wire_recv_ok (((h.inv i).past x hx).2.1.2.2 _ hpkt)
    rw [hx2, hm2] at hu
    cases Option.some.inj hu
    have hp : (0 : G) ∉ ownPoints E.C.g x.1 ++ readPoints E.C.g x.1 j (.two (msg2 r2j)) := by simpa [Signing.hashPanics, Synedrion.hashPanics] using hp
    intro h0
    refine hp (List.mem_append_right _ ?_)
    rw [hxy]
    generalize y.1 = s at hstg hjexp hy2
    cases hstg with
    | one out ho => cases hy2
    | three r3 h3 => cases hy2
    | four r4 h4 => cases hy2
    | error re m' h4 hm' =>
      exfalso
      change (if re.hat then 6 else 5) = 2 at hy2
      split at hy2 <;> cases hy2
    | two r2 h2 =>
      have hj1 : j ∈ (shares i).pub.keySet := by
        have : j ∈ (r i).ctx.otherIds := by rw [← toRound2_ok h2]; exact hjexp
        rw [hoth] at this
        exact Finset.mem_of_mem_erase this
      obtain ⟨capX, hX⟩ := BMap.mem_keys_iff.1 (BMap.mem_keySet.1 hj1)
      refine List.mem_append_left _ (List.mem_append_right _ (List.mem_flatMap.2 ⟨psi, List.mem_map.2 ⟨_, BMap.get?_eq_some_iff.1 hpsi, rfl⟩, List.mem_flatMap.2 ⟨capX, ?_, ?_⟩⟩))
      · rw [toRound2_ok h2, hks]
        exact Option.mem_toList.2 hX
      · rw [AffGProof.hashed, h0]
        exact List.mem_cons_self
  refine fun hmem => (List.mem_append.1 hmem).elim hshares fun h0 => ?_
  obtain ⟨nb, hnb, h0⟩ := List.mem_flatMap.1 h0
  obtain ⟨psi', hpsi', h0⟩ := List.mem_flatMap.1 h0
  obtain ⟨capX, hcapX, h0⟩ := List.mem_flatMap.1 h0
  have hnb : ev'.current .normal = some nb := Option.mem_toList.1 hnb
  obtain ⟨i', m, hsm, -, hp⟩ := hsig.current .normal nb hnb
  obtain rfl : psi' = psi := by
    rcases sent hinit hn' hj hsm with ⟨hk, -⟩ | ⟨-, r2', hr2', rfl⟩ | ⟨hk, -⟩ | ⟨hk, -⟩ | ⟨hk | hk, -⟩
    · cases hk
    · rw [h2j] at hr2'
      cases Out.ok.inj hr2'
      cases hp
      have := Option.mem_toList.1 hpsi'
      exact Option.some.inj (this.symm.trans hpsi)
    all_goals cases hk
  rcases List.mem_cons.1 h0 with h0 | h0
  · exact hcap h0.symm
  · rw [List.mem_singleton] at h0
    refine hshares (h0 ▸ List.mem_map.2 ⟨_, BMap.get?_eq_some_iff.1 (Option.mem_toList.1 hcapX), rfl⟩)

section Examples

attribute [local instance] Toy.fact11 Toy.order11

/-- `C101_signing_elog_framed`, `C101_signing_hat_framed`: three honest parties sign over serialized messages, and all of them finish with the same signature. Still party 1 has signed data that convinces everyone that its
message of round 3 was wrong, and data that convinces everyone that its proof for party 2 in round 2 was wrong. -/
example : ∃ (infos : Nat → AuxInfo Nat PaillierKey PublicAux) (init : Nat → State 11 Nat Nat (ZMod 11))
    (n : Net Nat (Packet Nat) (State 11 Nat Nat (ZMod 11)) (WireErr (Err Nat)) (RecoverableSignature 11)) (sig : RecoverableSignature 11),
    (overWire (machine Toy.signEnv) toyWire.signingTransport (Signing.hashPanics Toy.signEnv.C.g)).Reachable (Toy.parties : Set Nat) init n ∧ (∀ i ∈ Toy.parties, n.status i = .finished sig) ∧
    (∃ ev : Exhibit Nat 3, SignedBy (overWire (machine Toy.signEnv) toyWire.signingTransport (Signing.hashPanics Toy.signEnv.C.g)) packetPart n 1 2 ev ∧
      checkExhibit toyWire Toy.signEnv false (signingData (fun _ _ => 7) 5 (Toy.signShares 1) (infos 1)) 1 .r3ElogFailed ev = .ok true) ∧
    ∃ ev : Exhibit Nat 2, SignedBy (overWire (machine Toy.signEnv) toyWire.signingTransport (Signing.hashPanics Toy.signEnv.C.g)) packetPart n 1 2 ev ∧
      checkExhibit toyWire Toy.signEnv false (signingData (fun _ _ => 7) 5 (Toy.signShares 2) (infos 2)) 1 (.r2AffGHatPsiFailed 2) ev = .ok true := by
  obtain ⟨infos, r, init, sig, haux, hfit, hmod, hst, h0, h⟩ := signQuietSession
  obtain ⟨n, hn, hf⟩ := h.exists_finished
  have hp1 : 1 ∈ Toy.parties := by decide
  have hp2 : 2 ∈ Toy.parties := by decide
  have hkey : ∀ i ∈ (Toy.parties : Set Nat), (infos i).secret.modulus ≠ 0 ∧ (infos i).secret.modulus < 2 ^ Toy.signEnv.P.modBits := fun i _ => by rw [hmod]; exact ⟨by decide +kernel, by decide +kernel⟩
  have hoth : ∀ i ∈ Toy.parties, (r i).ctx.otherIds = Toy.parties.erase i := fun i hi => by
    obtain ⟨-, -, -, -, -, -, hoth, -⟩ := start_eq_ok (hst i hi)
    rw [hoth, Toy.signShares_valid.holders i hi]
  have hF := Signing.faithful (I := Nat) (Ep := Nat) toyWire_valid (E := Toy.signEnv) rfl signHashesFit
  obtain ⟨n', hn', hs⟩ := C91_signing toyWire_valid Toy.signEnv rfl Toy.signEnv_setting.consistent signHashesFit (fun _ _ => 7) 5 (Signing.hashPanics Toy.signEnv.C.g) (Toy.parties : Set Nat) Toy.signShares infos
    hfit hkey signQuietDraws (fun i _ => signQuietDrawsFit i _) r hst init h0 n hn
  replace hn' := hn'.reachable
  have hinit' : ∀ i ∈ (Toy.parties : Set Nat), StateFits Toy.signEnv.P (init i) := fun i hi => by
    obtain ⟨h1, h2⟩ := Signing.start_fits Toy.signEnv_setting.consistent (hfit i hi) (hkey i hi).1 (hkey i hi).2 (signQuietDrawsFit i _) (hst i hi)
    exact Signing.begin_fits signHashesFit h1 h2 (h0 i hi)
  have hf' : ∀ i ∈ Toy.parties, n'.status i = .finished sig := fun i hi => by
    have := hs.status i
    rw [hf i hi] at this
    generalize n'.status i = st at this
    cases this
    rfl
  have hlen : ∀ i ∈ Toy.parties, (n'.past i).length = 4 := fun i hi => finished_length h0 hn' hi (hf' i hi)
  have hh := history' h0 hn'
  have hgam : ∀ i ∈ Toy.parties, ∀ r2, toRound2 Toy.signEnv (r i) (got1 n' i) = .ok r2 → r2.capGamma = (signQuietDraws i).gamma • Toy.signEnv.C.g := fun i hi r2 hr2 => by
    rw [(toRound2_own hr2).2.1]
    obtain ⟨-, -, -, -, -, -, -, hd, -⟩ := start_eq_ok (hst i hi)
    rw [hd]
  refine ⟨infos, init, n, sig, hn, hf, ?_, ?_⟩
  · obtain ⟨y2, hy2, r2, hr2, hs2, hg2⟩ := past_second h0 hn' hp1 (by rw [hlen 1 hp1]; omega)
    obtain ⟨y3, hy3, r3, hr3, hs3, hg3⟩ := past_third h0 hn' hp1 (by rw [hlen 1 hp1]; omega)
    obtain ⟨x, hx, hxy, hread⟩ := mem_of_forall₂ (past_of_running hs (by rw [hf 1 hp1]; simp)) hy2
    have hx2 : (machine Toy.signEnv).round x.1 = 2 := by rw [hxy, hs2]; rfl
    rw [hx2] at hread
    have hb3 : y3.1 ∈ n.begun 1 := by rw [← hs.begun]; exact ((hn'.inv 1).past y3 hy3).1
    have hmem : (2, Message.three r3.msg) ∈ (machine Toy.signEnv).send y3.1 := by
      rw [hs3]
      exact in_toAll (by rw [(toRound3_ok hr3).1, hoth 1 hp1]; decide)
    obtain ⟨pkt, hpkt⟩ := packs_of_packable (packable_of_finished hn (hf 1 hp1) hb3) hmem
    have hun := hF.trip _ (begun_inv hF hinit' hn hp1 hb3) _ hmem pkt hpkt
    have hr3' : (machine Toy.signEnv).round y3.1 = 3 := by rw [hs3]; rfl
    rw [hr3'] at hun
    obtain ⟨-, -, -, hmy, -, -, -, hd, -⟩ := start_eq_ok (hst 1 hp1)
    refine C101_signing_elog_framed toyWire_valid rfl Toy.signEnv_setting.consistent signHashesFit hfit hkey (fun i _ => signQuietDrawsFit i _) hst h0 hn 1 2 2 hp1 sig (hf 1 hp1) pkt
      ⟨y3.1, hb3, hr3', mem_packAll.2 ⟨_, hmem, hpkt⟩⟩ r3.msg hun ?_ x hx hx2 y2.2 hread ?_ false
    · rw [(toRound3_own hr3).2, hmy, hd]
      show (9 : ZMod 11) + (1 : Nat) * ((1 : Nat) + 3 : ZMod 11) ≠ 0
      decide +kernel
    · obtain ⟨nd, ex, -⟩ := toRound3_capGamma (by rw [hmy, hoth 1 hp1]; decide) hr2 hr3
      rw [hg2, echosOf_two, List.map_map]
      have heq : (got2 n' 1).map ((fun a => Echo2.capGamma a.2) ∘ fun a : Nat × Msg2 11 Nat (ZMod 11) => (a.1, a.2.echo)) =
          ((got2 n' 1).map Prod.fst).map fun k => (signQuietDraws k).gamma • Toy.signEnv.C.g := by
        rw [List.map_map]
        refine List.map_congr_left fun a ha => ?_
        have hak : a.1 ∈ Toy.parties := by
          have : a.1 ∈ ((got2 n' 1).map Prod.fst).toFinset := List.mem_toFinset.2 (List.mem_map.2 ⟨a, ha, rfl⟩)
          rw [ex, hoth 1 hp1] at this
          exact Finset.mem_of_mem_erase this
        obtain ⟨r2', hr2', hm⟩ := hh.second 1 hp1 a.1 hak a.2 ha
        show a.2.echo.capGamma = _
        rw [hm]
        exact hgam _ hak r2' hr2'
      refine fun hz => absurd ((congrArg List.sum heq).symm.trans hz) ?_
      rw [← List.sum_toFinset _ nd, ex, hoth 1 hp1]
      decide +kernel
  · obtain ⟨y2, hy2, r2, hr2, hs2, hg2⟩ := past_second h0 hn' hp2 (by rw [hlen 2 hp2]; omega)
    obtain ⟨x, hx, hxy, hread⟩ := mem_of_forall₂ (past_of_running hs (by rw [hf 2 hp2]; simp)) hy2
    have hx2 : (machine Toy.signEnv).round x.1 = 2 := by rw [hxy, hs2]; rfl
    rw [hx2] at hread
    obtain ⟨⟨-, hexp, hacc⟩, hgot⟩ := ((hn'.inv 2).past y2 hy2).2
    have hctx : r2.ctx = (r 2).ctx := toRound2_ok hr2
    have : (1 : Nat) ∈ (y2.2.map Prod.fst).toFinset := by
      rw [hexp, hs2]
      show 1 ∈ r2.ctx.otherIds
      rw [hctx, hoth 2 hp2]; decide
    obtain ⟨⟨k, m⟩, ha, hk⟩ := List.mem_map.1 (List.mem_toFinset.1 this)
    dsimp only at hk
    subst hk
    replace hacc := hacc _ ha
    rw [hs2] at hacc
    obtain ⟨m2, p, hm2, hacc2⟩ := acceptPart_eq_ok.1 (show acceptPart Message.two? (recv2 Toy.signEnv r2) 1 m = .ok () from hacc)
    cases two_inj _ _ hm2
    obtain ⟨⟨k', pkt⟩, hpkt, hk', hun⟩ := mem_of_forall₂ hread ha
    dsimp only at hk' hun
    subst hk'
    have hin : (1, m2) ∈ got2 n' 2 := by
      rw [hg2] at ha
      obtain ⟨⟨b, m'⟩, hb, he⟩ := List.mem_map.1 ha
      cases he
      exact hb
    obtain ⟨r2', hr2', rfl⟩ := hh.second 2 hp2 1 hp1 m2 hin
    obtain ⟨psi, hpsi⟩ : ∃ psi, (msg2 r2').hatPsis.get? 2 = some psi := by
      have hmem : 2 ∈ r2'.outs.keySet := by rw [(toRound2_own hr2').1, hoth 1 hp1]; decide
      obtain ⟨o, ho⟩ := BMap.mem_keys_iff.1 (BMap.mem_keySet.1 hmem)
      exact ⟨o.2.psi, by show (r2'.outs.mapVals fun _ x => x.2.psi).get? 2 = _; rw [BMap.get?_mapVals, ho]; rfl⟩
    refine C101_signing_hat_framed toyWire_valid rfl Toy.signEnv_setting.consistent signHashesFit hfit hkey (fun i _ => signQuietDrawsFit i _) (fun i hi => Toy.signNew haux hi) hst
      (fun i hi => ⟨_, haux.consistent.public_agree i hi i hi, rfl⟩) h0 hn 2 1 hp2 hp1 sig sig (hf 2 hp2) (hf 1 hp1) x hx hx2 pkt hpkt (msg2 r2') hun psi hpsi ?_ ?_ false
    · unfold recv2 at hacc2
      obtain ⟨_, _, hacc2⟩ := Out.bind_eq_ok.1 hacc2
      dsimp only at hacc2
      split at hacc2
      · cases hacc2
      split at hacc2
      · cases hacc2
      split at hacc2
      · cases hacc2
      obtain ⟨_, _, hacc2⟩ := Out.bind_eq_ok.1 hacc2
      obtain ⟨dfs, _, hacc2⟩ := Out.bind_eq_ok.1 hacc2
      obtain ⟨hatDfs, hdfs, -⟩ := Out.bind_eq_ok.1 hacc2
      obtain ⟨target, p, w, f, x, htar, hp, hd, hf, hx, hv⟩ := mtaVerify_all hdfs hpsi
      obtain ⟨t, ht, hte⟩ := affGVerify_e hv
      rw [hte]
      show (t.aux.2 : ZMod 11) + 2 ≠ 0
      rw [ht]
      show ((1 : Nat) : ZMod 11) + 2 ≠ 0
      decide
    · show (BMap.tabulate Toy.parties fun j => (j : ZMod 11) • Toy.signEnv.C.g).get? 2 ≠ (BMap.tabulate Toy.parties fun j => (j : ZMod 11) • Toy.signEnv.C.g).get? 1
      rw [BMap.get?_tabulate, BMap.get?_tabulate, if_pos hp2, if_pos hp1]
      decide +kernel

end Examples

end Synedrion.Props
