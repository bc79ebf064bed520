import Verif.Lemmas.SigningQuiet
import Verif.Props.HashPoints
import Verif.Props.NetworkPanics

/-!
# C94: panics in executions over serialized messages

Full property: in an execution over serialized messages, with any schedule, honest parties panic only if the others send messages of the kinds known from `C85`, or something in the messages of the
others or in the draws of the honest is an identity point.
-/

set_option linter.unusedSectionVars false

namespace Synedrion.Props

open Spec

variable {q : Nat} [Fact q.Prime] {I Sid V G Ep : Type} [LinearOrder I] [DecidableEq V] [LinearOrder (ZMod q)] [AddCommGroup G] [Module (ZMod q) G] [DecidableEq G]
variable {W : WireFormat G V}

/-! ### Key generation -/

/-- **C94 (key generation).** If the honest parties have drawn no zero scalar and have random strings of the same length, and whatever the others send is, if it can be read at all, a message without
identity points and with a random string of that length, no honest party panics, at any time of any execution. -/
theorem C94_key_init (hW : FormatValid W q) (hashV : Sid → I → KeyInit.PublicData G → V) (H : SchHash G (KeyInit.SchAux I Sid) → ZMod q) (g : G) (hg : g ≠ 0) (honest : Set I) (ids : Finset I)
    (sid : Sid) (d : I → KeyInit.Draws (ZMod q)) (len : Nat) (hlen : ∀ i ∈ honest, (d i).rho.length = len) (hd : ∀ i ∈ honest, BitsFit (d i).rho ∧ BitsFit (d i).u)
    (hx : ∀ i ∈ honest, (d i).x ≠ 0 ∧ (d i).tau ≠ 0) (c : I → KeyInit.Context I (ZMod q) G Sid) (hc : ∀ i ∈ honest, KeyInit.start g ids sid i (d i) = .ok (c i))
    (n : Net I (Packet I) (KeyInit.State I (ZMod q) G Sid V) (WireErr KeyInit.Err) (KeyShare I (ZMod q) G))
    (h : (overWire (KeyInit.machine hashV H g) W.keyInitTransport KeyInit.hashPanics).ReachableWith honest
      (fun _ j data => j ∉ honest → ∀ r (m : KeyInit.Message (ZMod q) G V), W.keyInitTransport.unpack r data = some m → keyInitNoIdentity m ∧ ∀ m2, m = .two m2 → m2.rho.length = len) (fun i => .one (c i)) n)
    (i : I) (hi : i ∈ honest) : n.status i ≠ .panicked := by
  have hQ : Quiet (KeyInit.machine hashV H g) W.keyInitTransport KeyInit.hashPanics (fun m => keyInitMessageFits m ∧ keyInitNoIdentity m) (fun s => KeyInit.StateFits s ∧ KeyInit.Clean s) fun _ => True :=
    Quiet.of (KeyInit.faithful hW) (fun _ hs _ ha => KeyInit.send_fits hs ha) (fun m hm => hW.keyInit_packs m hm) (fun _ hs _ ha => KeyInit.clean_send hs ha)
      (fun _ _ _ hs hg h _ => KeyInit.clean_next hs hg h) (fun _ hs _ _ hm => hashPanics_recv (KeyInit.clean_own hs) (KeyInit.clean_read hs hm)) fun _ hs _ => hashPanics_next (KeyInit.clean_own hs)
  obtain ⟨n', hn⟩ := overWire_quiet' (KeyInit.faithful hW) hQ (fun i hi => ⟨KeyInit.initial_fits (hd i hi) (hc i hi), by
    obtain ⟨h1, h2, -⟩ := KeyInit.start_points (hc i hi)
    exact ⟨by rw [h1]; exact smul_ne_zero (hx i hi).1 hg, by rw [h2]; exact smul_ne_zero (hx i hi).2 hg⟩⟩) (fun _ _ _ hm => hm.1) h fun _ _ _ _ => trivial
  exact fun hp => C85_key_init_partial hashV H g honest ids sid d len hlen c hc n' (hn.reach.mono fun _ _ _ ha hj => (ha hj).2.2) i hi (hn.panicked i hp)

/-! ### Auxiliary info -/

/-- **C94 (auxiliary info).** If the messages of the others, where they can be read, are harmless, no honest party panics. No points are involved. -/
theorem C94_aux_gen (hW : FormatValid W q) (E : AuxEnv I Sid) (hP : W.P = E.P) (hE : AuxHashesFit E) (k : Nat) (hEv : HashesValid E k) (hashV : Sid → I → AuxGen.Hashed → V)
    (honest : Set I) (ids : Finset I) (sid : Sid) (d : I → AuxDraws I) (hd : ∀ i ∈ honest, AuxDrawsFit E.P (d i)) (hdv : ∀ i ∈ honest, DrawsValid E k (d i))
    (len : Nat) (hlen : ∀ i ∈ honest, (d i).rid.length = len)
    (hfac : ∀ i ∈ honest, ∀ j ∈ honest, i ≠ j → FacMasksValid E.P ((d i).p * (d i).q) ((d j).rpP * (d j).rpQ) ((d i).facMasks j))
    (c : I → AuxGen.Context I Sid) (hc : ∀ i ∈ honest, AuxGen.start E ids sid i (d i) = .ok (c i))
    (n : Net I (Packet I) (AuxGen.State I Sid V) (WireErr (AuxGen.Err I)) (AuxInfo I PaillierKey PublicAux))
    (h : (overWire (AuxGen.machine E hashV) W.auxGenTransport ⟨fun _ _ _ => false, fun _ _ => false⟩).ReachableWith honest
      (fun i j data => j ∉ honest → ∀ r m, W.auxGenTransport.unpack r data = some m →
        (∀ m2, m = .two m2 → HarmlessAux E.P.modBits len m2.pk m2.echo.rp m2.echo.rid ∧ FacMasksValid E.P ((d i).p * (d i).q) m2.echo.rp.modulus ((d i).facMasks j)) ∧
        ∀ m3, m = .three m3 → HarmlessFac ((d i).rpP * (d i).rpQ) m3.psi) (fun i => .one (c i)) n)
    (i : I) (hi : i ∈ honest) : n.status i ≠ .panicked := by
  have hF := AuxGen.faithful (hashV := hashV) hW hP hE
  have hQ : Quiet (AuxGen.machine E hashV) W.auxGenTransport ⟨fun _ _ _ => false, fun _ _ => false⟩ (fun m => auxGenMessageFits E.P m ∧ True) (fun s => AuxGen.StateFits E.P s ∧ True) fun _ => True :=
    Quiet.of hF (fun _ hs _ ha => AuxGen.send_fits (hashV := hashV) hs ha) (fun m hm => ⟨fun _ => trivial, fun _ => hW.auxGen_packs m (hP ▸ hm)⟩) (fun _ _ _ _ => trivial)
      (fun _ _ _ _ _ _ _ => trivial) (fun _ _ _ _ _ => rfl) fun _ _ _ => rfl
  obtain ⟨n', hn⟩ := overWire_quiet' hF hQ (fun i hi => ⟨AuxGen.initial_fits hE (hd i hi) (hc i hi), trivial⟩) (fun _ _ _ _ => trivial) h fun _ _ _ _ => trivial
  exact fun hp => C85_aux_gen_partial E k hEv hashV honest ids sid d hdv len hlen hfac c hc n' (hn.reach.mono fun _ _ _ ha hj => (ha hj).2) i hi (hn.panicked i hp)

/-! ### Key refresh -/

/-- **C94 (key refresh).** If the honest parties' secret share changes and their scalars for the masks and the proofs are not zero (with at least two parties), and the messages of the others, where they
can be read, are harmless and without identity points, no honest party panics. -/
theorem C94_key_refresh (hW : FormatValid W q) (E : KeyRefresh.Env I Sid (ZMod q) G) (hg : E.g ≠ 0) (hP : W.P = E.aux.P) (hE : AuxHashesFit E.aux) (k : Nat) (hEv : HashesValid E.aux k)
    (hashV : Sid → I → KeyRefresh.Hashed I G → V) (honest : Set I) (ids : Finset I) (sid : Sid)
    (d : I → KeyRefresh.Draws I (ZMod q)) (hd : ∀ i ∈ honest, AuxDrawsFit E.aux.P (d i).aux) (hdv : ∀ i ∈ honest, DrawsValid E.aux k (d i).aux)
    (len : Nat) (hlen : ∀ i ∈ honest, (d i).aux.rid.length = len)
    (hfac : ∀ i ∈ honest, ∀ j ∈ honest, i ≠ j → FacMasksValid E.aux.P ((d i).aux.p * (d i).aux.q) ((d j).aux.rpP * (d j).aux.rpQ) ((d i).aux.facMasks j))
    (htwo : 2 ≤ ids.card) (hsplit : ∀ i ∈ honest, (∀ k < ids.card - 1, (d i).split k ≠ 0) ∧ ∑ k ∈ Finset.range (ids.card - 1), (d i).split k ≠ 0)
    (hys : ∀ i ∈ honest, ∀ j ∈ ids, (d i).ys j ≠ 0 ∧ (d i).taus j ≠ 0)
    (c : I → KeyRefresh.Context I (ZMod q) G Sid) (hc : ∀ i ∈ honest, KeyRefresh.start E ids sid i (d i) = .ok (c i))
    (n : Net I (Packet I) (KeyRefresh.State I (ZMod q) G Sid V) (WireErr (KeyRefresh.Err I (ZMod q))) (KeyShareChange I (ZMod q) G × AuxInfo I PaillierKey PublicAux))
    (h : (overWire (KeyRefresh.machine E hashV) W.keyRefreshTransport KeyRefresh.hashPanics).ReachableWith honest
      (fun i j data => j ∉ honest → ∀ r (m : KeyRefresh.Message I (ZMod q) G V), W.keyRefreshTransport.unpack r data = some m → keyRefreshNoIdentity m ∧
        (∀ m2, m = .two m2 → HarmlessAux E.aux.P.modBits len m2.pk m2.echo.rp m2.echo.rid ∧
          FacMasksValid E.aux.P ((d i).aux.p * (d i).aux.q) m2.echo.rp.modulus ((d i).aux.facMasks j)) ∧
        ∀ m3, m = .three m3 → HarmlessFac ((d i).aux.rpP * (d i).aux.rpQ) m3.psi) (fun i => .one (c i)) n)
    (i : I) (hi : i ∈ honest) : n.status i ≠ .panicked := by
  have hF := KeyRefresh.faithful (hashV := hashV) hW hP hE
  have hQ : Quiet (KeyRefresh.machine E hashV) W.keyRefreshTransport KeyRefresh.hashPanics (fun m => keyRefreshMessageFits E.aux.P m ∧ keyRefreshNoIdentity m)
      (fun s => KeyRefresh.StateFits E.aux.P s ∧ KeyRefresh.Clean s) fun _ => True :=
    Quiet.of hF (fun _ hs _ ha => KeyRefresh.send_fits (hashV := hashV) hs ha) (fun m hm => hW.keyRefresh_packs m (hP ▸ hm)) (fun _ hs _ ha => KeyRefresh.clean_send hs ha)
      (fun _ _ _ hs hg h _ => KeyRefresh.clean_next hs hg h) (fun _ hs _ _ hm => hashPanics_recv (KeyRefresh.clean_own hs) (KeyRefresh.clean_read hs hm))
      fun _ hs _ => hashPanics_next (KeyRefresh.clean_own hs)
  obtain ⟨n', hn⟩ := overWire_quiet' hF hQ (fun i hi => ⟨KeyRefresh.initial_fits hE (hd i hi) (hc i hi),
    (KeyRefresh.start_clean hg (hc i hi)).2 ⟨(KeyRefresh.start_xs (hc i hi)).2 ⟨htwo, hsplit i hi⟩, hys i hi⟩⟩) (fun _ _ _ hm => hm.1) h fun _ _ _ _ => trivial
  exact fun hp => C85_key_refresh_partial E k hEv hashV honest ids sid d hdv len hlen hfac c hc n' (hn.reach.mono fun _ _ _ ha hj => (ha hj).2.2) i hi (hn.panicked i hp)

/-! ### Key resharing -/

/-- **C94 (key resharing).** If the new threshold of the honest old holders is at least two, their shares and draws are not zero, and the public polynomials of the others, where they can be read, have at
least two coefficients, an honest party has panicked only if it is a new holder, has received and accepted all the messages it was waiting for, and the constant terms in them do not interpolate to the
verifying key it was told to expect. Identity points in the messages of the others do no harm. -/
theorem C94_resharing (hW : FormatValid W q) (g : G) (hg : g ≠ 0) (honest : Set I) (inp : I → KeyResharing.Inputs I (ZMod q) G) (draw : I → Nat → ZMod q)
    (hthr : ∀ i ∈ honest, (inp i).oldHolder.isSome → 1 < (inp i).newThreshold)
    (hdraw : ∀ i ∈ honest, ∀ ks, (inp i).oldHolder = some ks → ks.secretShare ≠ 0 ∧ ∀ k, draw i k ≠ 0)
    (r : I → KeyResharing.Round1 I (ZMod q) G) (hs : ∀ i ∈ honest, KeyResharing.start g (inp i) i (draw i) = .ok (r i))
    (init : I → KeyResharing.State I (ZMod q) G) (hinit : ∀ i ∈ honest, KeyResharing.begin (r i) = .ok (init i))
    (n : Net I (Packet I) (KeyResharing.State I (ZMod q) G) (WireErr KeyResharing.Err) (Option (ThresholdKeyShare I (ZMod q) G)))
    (h : (overWire (KeyResharing.machine g) W.resharingTransport ⟨fun _ _ _ => false, fun _ _ => false⟩).ReachableWith honest
      (fun _ j data => j ∉ honest → ∀ k (m : KeyResharing.Msg (ZMod q) G), W.resharingTransport.unpack k data = some m → 1 < m.publicPolynomial.length) init n)
    (i : I) (hi : i ∈ honest) (hst : n.status i = .panicked) :
    ∃ data got, n.past i = [(init i, data)] ∧ Reads W.resharingTransport 1 data got ∧ (∀ a ∈ got, KeyResharing.recv g (r i) a.1 a.2 = .ok a.2) ∧
      ∃ (nh : KeyResharing.NewHolder I G) (P : BMap I (KeyResharing.Msg (ZMod q) G)) (v : G), (inp i).newHolder = some nh ∧
        (∀ j p, P.get? j = some p → Saw (r i) got j p.publicPolynomial p.oldShareId) ∧ KeyResharing.vkeySum P = .ok v ∧ v ≠ nh.verifyingKey := by
  obtain ⟨n', hn⟩ := overWire_quiet (fun s _ a ha d hd => (KeyResharing.faithful hW).trip s trivial a ha d hd) (KeyResharing.quiet hW g)
    (fun i hi => KeyResharing.begin_clean hg (hs i hi) (hinit i hi) (hdraw i hi)) (fun _ _ _ _ _ => trivial) h fun _ _ _ _ => trivial
  obtain ⟨got, hpast, hrest⟩ := C85_resharing_partial g honest inp draw hthr r hs init hinit n' hn.reach i hi (hn.panicked i hst)
  have hp := hn.past i
  rw [hpast] at hp
  generalize n.past i = past at hp
  cases hp with
  | cons h1 h2 =>
  cases h2
  rename_i x
  obtain ⟨s, data⟩ := x
  obtain ⟨rfl, h3⟩ := h1
  exact ⟨data, got, rfl, h3, hrest⟩

/-! ### Signing -/

/-- **C94 (signing).** If no key share is zero and neither what the others send, where it can be read, nor what the honest parties have to send contains an identity point or a zero
`delta`, and the ciphertexts `K` and `F` of the others are invertible, no honest party panics, also not in the rounds about a failure. -/
theorem C94_signing (hW : FormatValid W q) (E : Signing.Env q I Ep G) (hS : SigningSetting E) (hg : E.C.g ≠ 0) (hP : W.P = E.P) (hE : SigningHashesFit E)
    (epidOf : BMap I G → BMap I PublicAux → Ep) (message sk : ZMod q) (ids : Finset I) (htwo : 2 ≤ ids.card) (shares : I → KeyShare I (ZMod q) G) (hshares : SharesKey E.C.g ids shares sk)
    (infos : I → AuxInfo I PaillierKey PublicAux) (setup : I → RPSetup) (haux : UsableAux E.P ids infos setup)
    (d : I → Signing.Draws q I) (hd : SigningDrawsValid E.P ids (fun i => (infos i).secret.modulus) (fun i => (setup i).modulus) d) (c : Nat) (hfew : FewParties E.P ids.card c)
    (honest : Set I) (hsub : honest ⊆ (ids : Set I)) (hfit : ∀ i ∈ honest, AllValues (AuxFits E.P) (infos i).pub)
    (hmod : ∀ i ∈ honest, (infos i).secret.modulus ≠ 0 ∧ (infos i).secret.modulus < 2 ^ E.P.modBits)
    (hdf : ∀ i ∈ honest, SigningDrawsFit E.P ((shares i).pub.keySet.erase i) (d i))
    (hderr : ∀ i ∈ honest, ErrorDrawsValid E (ids.erase i) (infos i).secret.modulus (fun j => (infos j).secret.modulus) c (d i))
    (hz : ∀ i ∈ ids, (shares i).secret ≠ 0)
    (r : I → Signing.Round1 q I Ep G) (hs : ∀ i ∈ honest, Signing.start E epidOf message (shares i) (infos i) i (d i) = .ok (r i))
    (init : I → Signing.State q I Ep G) (hinit : ∀ i ∈ honest, Signing.begin E (r i) = .ok (init i))
    (n : Net I (Packet I) (Signing.State q I Ep G) (WireErr (Signing.Err I)) (RecoverableSignature q))
    (h : (overWire (Signing.machine E) W.signingTransport (Signing.hashPanics E.C.g)).ReachableWith honest
      (fun _ j data => j ∉ honest → ∀ r (m : Signing.Message q I G), W.signingTransport.unpack r data = some m → signingNoZero m ∧ (∀ m1, m = .one m1 → Nat.Coprime m1.echo.capK (infos j).secret.modulus) ∧
        ∀ m2, m = .two m2 → ∀ id w, m2.echo.capFs.get? id = some w ∨ m2.echo.hatCapFs.get? id = some w → Nat.Coprime w (infos j).secret.modulus) init n)
    (hown : ∀ i ∈ honest, ∀ s, (Signing.machine E).ComesTo W.signingTransport init n i s → ∀ a ∈ (Signing.machine E).send s, signingNoZero a.2)
    (i : I) (hi : i ∈ honest) : n.status i ≠ .panicked := by
  have hF := Signing.faithful (E := E) hW hP hE
  have hQ : Quiet (Signing.machine E) W.signingTransport (Signing.hashPanics E.C.g) (fun m => signingMessageFits E.P m ∧ signingNoZero m)
      (fun s => Signing.StateFits E.P s ∧ Signing.CleanAll E s ∧ ∀ a ∈ (Signing.machine E).send s, signingNoZero a.2) fun s => ∀ a ∈ (Signing.machine E).send s, signingNoZero a.2 := by
    refine ⟨fun s hs => List.all_eq_true.2 fun a ha => ?_, fun s hs a ha => ⟨Signing.send_fits hs.1 ha, hs.2.2 a ha⟩,
      fun s hs j m hm => hashPanics_recv (Signing.cleanAll_own hg hs.2.1 hs.2.2) (Signing.cleanAll_read hg hs.2.1 hs.2.2 hm.2),
      fun s hs got _ => hashPanics_next (Signing.cleanAll_own hg hs.2.1 hs.2.2),
      fun s got s' hs hgot h he => ⟨hF.next s got s' hs.1 (fun a ha => (hgot a ha).1) h, Signing.cleanAll_next hg hs.2.1 hs.2.2 (fun a ha => (hgot a ha).2) h, he⟩⟩
    obtain ⟨data, hd⟩ := (hW.signing_packs a.2 (hP ▸ Signing.send_fits hs.1 ha)).2 (hs.2.2 a ha).1
    rw [hd]; rfl
  obtain ⟨n', hn⟩ := overWire_quiet' hF hQ (fun i hi => by
    obtain ⟨h1, h2⟩ := Signing.start_fits hS.consistent (hfit i hi) (hmod i hi).1 (hmod i hi).2 (hdf i hi) (hs i hi)
    refine ⟨Signing.begin_fits hE h1 h2 (hinit i hi), ?_, hown i hi _ ⟨[], [], List.nil_prefix, .nil, rfl⟩⟩
    obtain ⟨out, ho, hks, hoth, hne⟩ := Signing.begin_clean (hs i hi) (hinit i hi)
    have hn : (r i).ctx.otherIds.Nonempty := by
      rw [hoth, hshares.holders i (hsub hi), ← Finset.card_pos, Finset.card_erase_of_mem (hsub hi)]
      omega
    rw [ho]
    refine ⟨?_, hn, hne hn⟩
    rw [hks, Signing.pub_values hg hshares (hsub hi)]
    rintro ⟨j, hj, hj0⟩
    exact hz j hj hj0) (fun _ _ _ hm => hm.1) h hown
  exact fun hp => C85_signing_partial E hS epidOf message sk ids shares hshares infos setup haux d hd c hfew honest hsub hderr r hs init hinit n'
    (hn.reach.mono fun _ _ _ ha hj => (ha hj).2.2) i hi (hn.panicked i hp)

/-- The condition on `delta` is needed: a party that has sent zero for `delta` makes honest parties panic in round 5 with any error message that can be read, whether its proofs are valid or not. So it is not
blamed there, although signing has failed because of it. -/
theorem C94_signing_delta (hW : FormatValid W q) (E : Signing.Env q I Ep G) (honest : Set I) (init : I → Signing.State q I Ep G)
    (n : Net I (Packet I) (Signing.State q I Ep G) (WireErr (Signing.Err I)) (RecoverableSignature q))
    (h : (overWire (Signing.machine E) W.signingTransport (Signing.hashPanics E.C.g)).Reachable honest init n) (i j : I) (hi : i ∈ honest) (hj : j ∉ honest)
    (r3 : Signing.Round3 q I Ep G) (payloads : BMap I (Signing.Payload3 q G)) (r : Signing.ErrRound q I Ep G) (hr : Signing.finalize3 E r3 payloads = .ok (.error r)) (hhat : r.hat = false)
    (p : Signing.Payload3 q G) (hp : payloads.get? j = some p) (hzero : p.delta = 0) (hme : j ≠ r3.ctx.myId) (hgam : j ∈ r3.capGammas.keySet)
    (m₀ : Signing.MsgErr I G) (got : List (I × Packet I)) (hst : n.status i = .running (.error r m₀) got) (hexp : j ∈ r.ctx.otherIds) (hnew : j ∉ got.map Prod.fst)
    (m : Signing.MsgErr I G) (hm : signingMessageFits (q := q) W.P (.error m)) :
    ∃ data, W.signingTransport.unpack 5 data = some (.error m : Signing.Message q I G) ∧
      (overWire (Signing.machine E) W.signingTransport (Signing.hashPanics E.C.g)).recv (.error r m₀) j data = .panic ∧
      (overWire (Signing.machine E) W.signingTransport (Signing.hashPanics E.C.g)).Reachable honest init { n with status := Function.update n.status i .panicked } := by
  have h0 : 0 ∈ Signing.readPoints E.C.g (.error r m₀) j (.error m : Signing.Message q I G) := by
    unfold Signing.finalize3 at hr
    dsimp only at hr
    split at hr
    · cases Out.ok.inj hr
      obtain ⟨x, hx⟩ := BMap.mem_keys_iff.1 (BMap.mem_keySet.1 hgam)
      unfold Signing.readPoints
      dsimp only
      rw [hx, BMap.get?_mapVals, BMap.get?_insert, if_neg hme, hp]
      simp [DecProof.hashed, hzero]
    · split at hr
      · cases Out.ok.inj hr
        cases hhat
      · split at hr
        · cases hr
        · cases Out.ok.inj hr
  obtain ⟨data, hd, -⟩ := hW.signing_unpack_err m hm
  have hround : (Signing.machine E).round (.error r m₀) = 5 := by
    show (if r.hat then 6 else 5) = 5
    rw [hhat]; rfl
  refine ⟨data, hd, read_panics (by rw [hround]; exact hd) h0, h.tail (overWire_crash hi hst hexp hnew hj (by rw [hround]; exact hd) h0)⟩

/-! ### Examples -/

section Examples

attribute [local instance] Toy.fact11 Toy.order11

/-- A message without any parts -/
private def junk : Packet Nat := ⟨none, none, none⟩

/-- A party that is not honest sends a message without any parts. -/
private theorem exists_junk {M S E R : Type} {P : Machine Nat M S E R} {T : Transport Nat M} {panics : Panics Nat M S} {honest : Set Nat} {allowed : Nat → Nat → Packet Nat → Prop} {init : Nat → S}
    {i j : Nat} (hi : i ∈ honest) (hj : j ∉ honest) (hex : j ∈ P.expected (init i)) (hal : allowed i j junk)
    (hr : ∀ r, T.unpack r junk = none) : ∃ n, (overWire P T panics).ReachableWith honest allowed init n ∧ (∀ k, n.past k = []) ∧ (n.status i ≠ .panicked → n.status i = .stopped (.fault j .malformed)) := by
  refine ⟨_, Machine.ReachableWith.receive (i := i) (s := init i) (got := []) (j := j) (m := junk) .start hi rfl hex (by simp) (fun h => absurd h hj) hal, fun _ => rfl, ?_⟩
  simp only [Function.update_self, Machine.received, overWire, hr]
  split_ifs
  · exact fun _ => rfl
  · exact fun h => absurd rfl h

/-- Party 1 generates a key with 2 and with 3, who is not honest, and gets a commitment from 3. -/
example : ∃ n, (overWire (KeyInit.machine kgByteHash kgH (1 : ZMod 11)) toyWire.keyInitTransport KeyInit.hashPanics).ReachableWith {1, 2}
      (fun _ j data => j ∉ ({1, 2} : Set Nat) → ∀ r (m : KeyInit.Message (ZMod 11) (ZMod 11) (List Byte)), toyWire.keyInitTransport.unpack r data = some m →
        keyInitNoIdentity m ∧ ∀ m2, m = .two m2 → m2.rho.length = 3) (fun i => .one (kgCtx i)) n ∧
    (∃ data, n.status 1 = .running (.one (kgCtx 1)) [(3, data)]) ∧ ∀ i ∈ ({1, 2} : Set Nat), n.status i ≠ .panicked := by
  have hsub : ∀ i ∈ ({1, 2} : Set Nat), i ∈ ({1, 2, 3} : Finset Nat) := by rintro i (rfl | rfl) <;> decide
  have hn := Machine.ReachableWith.receive (P := overWire (KeyInit.machine kgByteHash kgH (1 : ZMod 11)) toyWire.keyInitTransport KeyInit.hashPanics) (honest := {1, 2})
    (allowed := fun _ j data => j ∉ ({1, 2} : Set Nat) → ∀ r (m : KeyInit.Message (ZMod 11) (ZMod 11) (List Byte)), toyWire.keyInitTransport.unpack r data = some m →
        keyInitNoIdentity m ∧ ∀ m2, m = .two m2 → m2.rho.length = 3) (init := fun i => .one (kgCtx i)) (i := 1) (j := 3) (s := .one (kgCtx 1)) (got := []) (m := ⟨some (.seq [.bytes []]), none, none⟩) .start
    (by simp) rfl (by decide) (by simp) (fun h => absurd h (by simp)) (fun _ r m hm => by
      unfold WireFormat.keyInitTransport at hm
      dsimp only at hm
      split at hm
      all_goals first | (cases hm; done) | (rename_i h; cases h; done) | skip
      · obtain ⟨v, hv, hm⟩ := Option.map_eq_some_iff.1 hm
        rw [← hm]
        exact ⟨fun r p x hx => by rcases p <;> rcases r with _ | _ | _ | _ | r <;> first | (cases hx; done) | exact List.not_mem_nil, fun m2 h => by cases h⟩)
  refine ⟨_, hn, ⟨⟨some (.seq [.bytes []]), none, none⟩, ?_⟩, fun i hi => ?_⟩
  · simp only [Function.update_self]; rfl
  · exact C94_key_init toyWire_valid kgByteHash kgH (1 : ZMod 11) (by decide) {1, 2} {1, 2, 3} 7 kgDraws 3 (fun _ _ => rfl) (fun i _ => by simp [kgDraws, BitsFit])
      (fun i hi => by rcases hi with rfl | rfl <;> decide) kgCtx (fun i hi => kgStart i (hsub i hi)) _ hn i hi

private theorem not_read {M : Type} {unpack : Nat → Packet Nat → Option M} (h : ∀ r, unpack r junk = none) {p : M → Prop} : ∀ r m, unpack r junk = some m → p m := by
  intro r m hm
  rw [h] at hm
  cases hm

private theorem auxGen_junk (r : Nat) : toyWire.auxGenTransport.unpack r junk = none := by
  unfold WireFormat.auxGenTransport junk
  dsimp only
  split <;> first | rfl | (rename_i h; cases h)

private theorem keyRefresh_junk (r : Nat) : (toyWire.keyRefreshTransport (q := 11)).unpack r junk = none := by
  unfold WireFormat.keyRefreshTransport junk
  dsimp only
  split <;> first | rfl | (rename_i h; cases h)

private theorem signing_junk (r : Nat) : (toyWire.signingTransport (q := 11)).unpack r junk = none := by
  unfold WireFormat.signingTransport junk
  dsimp only
  split <;> first | rfl | (rename_i h; cases h)

/-- Party 1 generates auxiliary info with 2 and with 3, who is not honest; it stops and blames 3 for a message that cannot be read. -/
example : ∃ ctx : Nat → AuxGen.Context Nat Nat, (∀ i ∈ ({1, 2} : Set Nat), AuxGen.start Toy.auxEnv {1, 2, 3} 7 i (Toy.auxDraws i) = .ok (ctx i)) ∧
    ∃ n, (overWire (AuxGen.machine Toy.auxEnv fun _ _ _ => ([] : List Byte)) toyWire.auxGenTransport ⟨fun _ _ _ => false, fun _ _ => false⟩).ReachableWith {1, 2}
        (fun i j data => j ∉ ({1, 2} : Set Nat) → ∀ r m, toyWire.auxGenTransport.unpack r data = some m →
          (∀ m2, m = .two m2 → HarmlessAux Toy.auxEnv.P.modBits 3 m2.pk m2.echo.rp m2.echo.rid ∧
            FacMasksValid Toy.auxEnv.P ((Toy.auxDraws i).p * (Toy.auxDraws i).q) m2.echo.rp.modulus ((Toy.auxDraws i).facMasks j)) ∧
          ∀ m3, m = .three m3 → HarmlessFac ((Toy.auxDraws i).rpP * (Toy.auxDraws i).rpQ) m3.psi) (fun i => .one (ctx i)) n ∧
      n.status 1 = .stopped (.fault 3 .malformed) ∧ n.status 2 ≠ .panicked := by
  have hst : ∀ i ∈ ({1, 2, 3} : Finset Nat), ∃ c, AuxGen.start Toy.auxEnv ({1, 2, 3} : Finset Nat) 7 i (Toy.auxDraws i) = .ok c := by
    intro i hi
    obtain ⟨c, h, _⟩ := C54_start Toy.auxEnv 2 {1, 2, 3} 7 i hi (Toy.auxDraws i) (Toy.auxDraws_valid i (by simp at hi; omega))
    exact ⟨c, h⟩
  have : Nonempty (AuxGen.Context Nat Nat) := ⟨(hst 1 (by decide)).choose⟩
  obtain ⟨ctx, hctx⟩ := exists_fun hst
  have hctx' : ∀ i ∈ ({1, 2} : Set Nat), AuxGen.start Toy.auxEnv {1, 2, 3} 7 i (Toy.auxDraws i) = .ok (ctx i) := fun i hi => hctx i (by rcases hi with rfl | rfl <;> simp)
  have h3 : 3 ∈ (ctx 1).otherIds := by
    obtain ⟨-, -, sk, -, hcc⟩ := AuxGen.start_ok (hctx 1 (by decide))
    rw [hcc]
    show 3 ∈ ({1, 2, 3} : Finset Nat).erase 1
    decide
  obtain ⟨n, hn, -, h1⟩ := exists_junk (P := AuxGen.machine Toy.auxEnv fun _ _ _ => ([] : List Byte)) (T := toyWire.auxGenTransport) (panics := ⟨fun _ _ _ => false, fun _ _ => false⟩) (honest := {1, 2})
    (allowed := fun i j data => j ∉ ({1, 2} : Set Nat) → ∀ r m, toyWire.auxGenTransport.unpack r data = some m →
          (∀ m2, m = .two m2 → HarmlessAux Toy.auxEnv.P.modBits 3 m2.pk m2.echo.rp m2.echo.rid ∧
            FacMasksValid Toy.auxEnv.P ((Toy.auxDraws i).p * (Toy.auxDraws i).q) m2.echo.rp.modulus ((Toy.auxDraws i).facMasks j)) ∧
          ∀ m3, m = .three m3 → HarmlessFac ((Toy.auxDraws i).rpP * (Toy.auxDraws i).rpQ) m3.psi) (init := fun i => .one (ctx i)) (i := 1) (j := 3) (by simp) (by simp) h3
    (fun _ => not_read auxGen_junk) auxGen_junk
  have hq := C94_aux_gen (q := 11) toyWire_valid Toy.auxEnv rfl auxHashesFit 2 Toy.auxEnv_valid (fun _ _ _ => ([] : List Byte)) {1, 2} {1, 2, 3} 7 Toy.auxDraws (fun i _ => auxDrawsFit i)
    (fun i hi => Toy.auxDraws_valid i (by rcases hi with rfl | rfl <;> decide)) 3 (fun _ _ => rfl) (fun i _ j _ _ => (Toy.facDraws_valid i j).masks) ctx hctx' n hn
  exact ⟨ctx, hctx', n, hn, h1 (hq 1 (by simp)), hq 2 (by simp)⟩

private def calmDraws (i : Nat) : KeyRefresh.Draws Nat (ZMod 11) := ⟨Toy.auxDraws i, fun n => (n + i : ℕ), fun j => (i + j : ℕ), fun j => (i + 2 * j : ℕ)⟩

/-- Party 1 refreshes a key with 2 and with 3, who is not honest; it stops and blames 3 for a message that cannot be read. -/
example : ∃ ctx : Nat → KeyRefresh.Context Nat (ZMod 11) (ZMod 11) Nat, (∀ i ∈ ({1, 2} : Set Nat), KeyRefresh.start refreshCaseEnv {1, 2, 3} 7 i (calmDraws i) = .ok (ctx i)) ∧
    ∃ n, (overWire (KeyRefresh.machine refreshCaseEnv fun _ _ _ => ([] : List Byte)) toyWire.keyRefreshTransport KeyRefresh.hashPanics).ReachableWith {1, 2}
        (fun i j data => j ∉ ({1, 2} : Set Nat) → ∀ r (m : KeyRefresh.Message Nat (ZMod 11) (ZMod 11) (List Byte)), toyWire.keyRefreshTransport.unpack r data = some m → keyRefreshNoIdentity m ∧
          (∀ m2, m = .two m2 → HarmlessAux refreshCaseEnv.aux.P.modBits 3 m2.pk m2.echo.rp m2.echo.rid ∧
            FacMasksValid refreshCaseEnv.aux.P ((calmDraws i).aux.p * (calmDraws i).aux.q) m2.echo.rp.modulus ((calmDraws i).aux.facMasks j)) ∧
          ∀ m3, m = .three m3 → HarmlessFac ((calmDraws i).aux.rpP * (calmDraws i).aux.rpQ) m3.psi) (fun i => .one (ctx i)) n ∧
      n.status 1 = .stopped (.fault 3 .malformed) ∧ n.status 2 ≠ .panicked := by
  have hst : ∀ i ∈ ({1, 2, 3} : Finset Nat), ∃ c, KeyRefresh.start refreshCaseEnv ({1, 2, 3} : Finset Nat) 7 i (calmDraws i) = .ok c :=
    fun i hi => (C38_start refreshCaseEnv 2 {1, 2, 3} 7 i (calmDraws i) (Toy.auxDraws_valid i (by simp at hi; omega))).1 hi
  have : Nonempty (KeyRefresh.Context Nat (ZMod 11) (ZMod 11) Nat) := ⟨(hst 1 (by decide)).choose⟩
  obtain ⟨ctx, hctx⟩ := exists_fun hst
  have hctx' : ∀ i ∈ ({1, 2} : Set Nat), KeyRefresh.start refreshCaseEnv {1, 2, 3} 7 i (calmDraws i) = .ok (ctx i) := fun i hi => hctx i (by rcases hi with rfl | rfl <;> simp)
  have h3 : 3 ∈ (ctx 1).otherIds := by
    obtain ⟨-, -, sk, y, -, -, hcc⟩ := KeyRefresh.start_ok (hctx 1 (by decide))
    rw [hcc]
    show 3 ∈ ({1, 2, 3} : Finset Nat).erase 1
    decide
  obtain ⟨n, hn, -, h1⟩ := exists_junk (P := KeyRefresh.machine refreshCaseEnv fun _ _ _ => ([] : List Byte)) (T := toyWire.keyRefreshTransport) (panics := KeyRefresh.hashPanics) (honest := {1, 2})
    (allowed := fun i j data => j ∉ ({1, 2} : Set Nat) → ∀ r (m : KeyRefresh.Message Nat (ZMod 11) (ZMod 11) (List Byte)), toyWire.keyRefreshTransport.unpack r data = some m → keyRefreshNoIdentity m ∧
          (∀ m2, m = .two m2 → HarmlessAux refreshCaseEnv.aux.P.modBits 3 m2.pk m2.echo.rp m2.echo.rid ∧
            FacMasksValid refreshCaseEnv.aux.P ((calmDraws i).aux.p * (calmDraws i).aux.q) m2.echo.rp.modulus ((calmDraws i).aux.facMasks j)) ∧
          ∀ m3, m = .three m3 → HarmlessFac ((calmDraws i).aux.rpP * (calmDraws i).aux.rpQ) m3.psi) (init := fun i => .one (ctx i)) (i := 1) (j := 3) (by simp) (by simp) h3
    (fun _ => not_read keyRefresh_junk) keyRefresh_junk
  have hq := C94_key_refresh toyWire_valid refreshCaseEnv (by decide) rfl auxHashesFit 2 Toy.auxEnv_valid (fun _ _ _ => ([] : List Byte)) {1, 2} {1, 2, 3} 7 calmDraws (fun i _ => auxDrawsFit i)
    (fun i hi => Toy.auxDraws_valid i (by rcases hi with rfl | rfl <;> decide)) 3 (fun _ _ => rfl) (fun i _ j _ _ => (Toy.facDraws_valid i j).masks) (by decide)
    (fun i hi => by rcases hi with rfl | rfl <;> decide +kernel) (fun i hi => by rcases hi with rfl | rfl <;> decide +kernel) ctx hctx' n hn
  exact ⟨ctx, hctx', n, hn, h1 (hq 1 (by simp)), hq 2 (by simp)⟩

private theorem isOk_unit {ε : Type} {o : Out ε Unit} (h : o.isOk = true) : o = .ok () := by
  cases o <;> first | rfl | cases h

private def panics {ε α : Type} : Out ε α → Bool
  | .panic => true
  | _ => false

private theorem panics_iff {ε α : Type} {o : Out ε α} : panics o = true ↔ o = .panic := by
  cases o <;> simp [panics]

private def newInputs : KeyResharing.Inputs Nat (ZMod 11) (ZMod 11) := ⟨none, some ⟨5, 2, {1, 2}⟩, {2, 3, 4}, 2⟩

private def newRound : KeyResharing.Round1 Nat (ZMod 11) (ZMod 11) := ⟨none, some ⟨5, 2, {1, 2}⟩, KeyResharing.newShareIds (ZMod 11) {2, 3, 4}, 2, 4, ∅, {1, 2}⟩

/-- The new holder 4 panics over serialized messages, as the constant terms it got from the old holders do not interpolate to the key. -/
example : ∃ n, (overWire (KeyResharing.machine (1 : ZMod 11)) toyWire.resharingTransport ⟨fun _ _ _ => false, fun _ _ => false⟩).ReachableWith {4}
      (fun _ j data => j ∉ ({4} : Set Nat) → ∀ k (m : KeyResharing.Msg (ZMod 11) (ZMod 11)), toyWire.resharingTransport.unpack k data = some m → 1 < m.publicPolynomial.length)
      (fun _ => ⟨newRound, []⟩) n ∧ n.status 4 = .panicked ∧
    ∃ data got, n.past 4 = [(⟨newRound, []⟩, data)] ∧ Reads toyWire.resharingTransport 1 data got ∧ ∀ a ∈ got, KeyResharing.recv (1 : ZMod 11) newRound a.1 a.2 = .ok a.2 := by
  have hb : KeyResharing.begin newRound = .ok ⟨newRound, []⟩ := rfl
  have hpk : ∀ m : KeyResharing.Msg (ZMod 11) (ZMod 11), resharingNoIdentity m → ∃ d : Packet Nat, toyWire.resharingTransport.unpack 1 d = some m ∧
      ∀ k m', toyWire.resharingTransport.unpack k d = some m' → m' = m := by
    intro m hm
    obtain ⟨d, hd⟩ := (toyWire_valid.resharing_packs (I := Nat) m).2 hm
    have h1 : toyWire.resharingTransport.unpack 1 d = some m := (KeyResharing.faithful (g := (1 : ZMod 11)) toyWire_valid).trip ⟨newRound, [(1, m)]⟩ trivial (1, m) (by simp [KeyResharing.machine]) d hd
    refine ⟨d, h1, fun k m' h => ?_⟩
    obtain rfl : k = 1 := by
      unfold WireFormat.resharingTransport at h
      dsimp only at h
      split at h
      · rfl
      · cases h
    rw [h1] at h
    exact (Option.some.inj h).symm
  obtain ⟨d1, h1, h1'⟩ := hpk ⟨[8, 4], 1, 9⟩ (by show (0 : ZMod 11) ∉ [8, 4]; decide)
  obtain ⟨d2, h2, h2'⟩ := hpk ⟨[1, 6], 2, 8⟩ (by show (0 : ZMod 11) ∉ [1, 6]; decide)
  have h0 : (overWire (KeyResharing.machine (1 : ZMod 11)) toyWire.resharingTransport ⟨fun _ _ _ => false, fun _ _ => false⟩).ReachableWith {4}
      (fun _ j data => j ∉ ({4} : Set Nat) → ∀ k (m : KeyResharing.Msg (ZMod 11) (ZMod 11)), toyWire.resharingTransport.unpack k data = some m → 1 < m.publicPolynomial.length)
      (fun _ => ⟨newRound, []⟩) ((overWire (KeyResharing.machine (1 : ZMod 11)) toyWire.resharingTransport ⟨fun _ _ _ => false, fun _ _ => false⟩).start fun _ => ⟨newRound, []⟩) := .start
  have hr := h0.round (i := 4) (got := [(1, d1), (2, d2)]) rfl (s := ⟨newRound, []⟩) rfl ⟨by simp, by show ([1, 2] : List Nat).toFinset = newRound.expectingMessagesFrom; decide, fun a ha => by
      have h1 : toyWire.resharingTransport.unpack ((KeyResharing.machine (1 : ZMod 11)).round ⟨newRound, []⟩) d1 = some (⟨[8, 4], 1, 9⟩ : KeyResharing.Msg (ZMod 11) (ZMod 11)) := h1
      have h2 : toyWire.resharingTransport.unpack ((KeyResharing.machine (1 : ZMod 11)).round ⟨newRound, []⟩) d2 = some (⟨[1, 6], 2, 8⟩ : KeyResharing.Msg (ZMod 11) (ZMod 11)) := h2
      simp only [List.mem_cons, List.not_mem_nil, or_false] at ha
      rcases ha with rfl | rfl
      · simp only [overWire, h1]
        exact isOk_unit (by decide +kernel)
      · simp only [overWire, h2]
        exact isOk_unit (by decide +kernel)⟩ (fun a ha h => by
      simp only [List.mem_cons, List.not_mem_nil, or_false] at ha
      rcases ha with rfl | rfl <;> simp at h) (fun a ha _ k m hm => by
      simp only [List.mem_cons, List.not_mem_nil, or_false] at ha
      rcases ha with rfl | rfl
      · rw [h1' k m hm]; decide
      · rw [h2' k m hm]; decide)
  have hp : (overWire (KeyResharing.machine (1 : ZMod 11)) toyWire.resharingTransport ⟨fun _ _ _ => false, fun _ _ => false⟩).advanced ⟨newRound, []⟩ [(1, d1), (2, d2)] = .panicked := by
    have hall : toyWire.resharingTransport.unpackAll ((KeyResharing.machine (1 : ZMod 11)).round ⟨newRound, []⟩) [(1, d1), (2, d2)] =
        some [(1, (⟨[8, 4], 1, 9⟩ : KeyResharing.Msg (ZMod 11) (ZMod 11))), (2, ⟨[1, 6], 2, 8⟩)] := by
      show (toyWire.resharingTransport.unpack 1 d1).bind _ = _
      rw [h1]
      show ((toyWire.resharingTransport.unpack 1 d2).bind _).map _ = _
      rw [h2]
      rfl
    have hn : (KeyResharing.machine (1 : ZMod 11)).next ⟨newRound, []⟩ [(1, ⟨[8, 4], 1, 9⟩), (2, ⟨[1, 6], 2, 8⟩)] = .panic := panics_iff.1 (by decide +kernel)
    simp only [Machine.advanced, overWire, hall, hn]
    rfl
  rw [hp] at hr
  refine ⟨_, hr, by simp, ?_⟩
  obtain ⟨data, got, h3, h4, h5, -⟩ := C94_resharing toyWire_valid (1 : ZMod 11) (by decide) {4} (fun _ => newInputs) (fun _ _ => 0) (fun _ _ h => by cases h) (fun _ _ _ h => by cases h) (fun _ => newRound)
    (fun i hi => by cases hi; rfl) (fun _ => ⟨newRound, []⟩) (fun _ _ => hb) _ hr 4 rfl (by simp)
  exact ⟨data, got, h3, h4, h5⟩

private def signCalm (i : Nat) : Signing.Draws 11 Nat := { Toy.signDraws i with y := 2 }

private theorem prove_points {P : Params} {H : EncElgHash (ZMod 11) (Nat × Nat) → ZMod 11} {g : ZMod 11} {N0 Nh : Nat} {x : SInt} {rho : Nat} {b : ZMod 11} {pub : EncElgPublic N0 (ZMod 11)}
    {setup : RPParams Nh} {aux : Nat × Nat} {mask : EncElgMasks 11} {p : EncElgProof 11 (ZMod 11)} (h : (EncElgProof.prove P H g x rho b pub setup aux mask : Out LocalErr _) = .ok p) :
    p.capY = mask.beta • pub.capA + scalarOfSigned 11 mask.alpha • g ∧ p.capZ = mask.beta • g := by
  unfold EncElgProof.prove at h
  iterate 7 obtain ⟨_, _, h⟩ := Out.bind_eq_ok.1 h
  rw [← Out.ok.inj h]
  exact ⟨rfl, rfl⟩

/-- Party 2, who is honest, sends no identity points in round 1. -/
private theorem sends_calm {infos : AuxInfo Nat PaillierKey PublicAux} {r : Signing.Round1 11 Nat Nat (ZMod 11)} {s : Signing.State 11 Nat Nat (ZMod 11)}
    (hs : Signing.start Toy.signEnv (fun _ _ => 7) (5 : ZMod 11) (Toy.signShares 2) infos 2 (signCalm 2) = .ok r) (hb : Signing.begin Toy.signEnv r = .ok s) :
    ∀ a ∈ (Signing.machine Toy.signEnv).send s, signingNoZero a.2 := by
  obtain ⟨out, ho, hb⟩ := Out.bind_eq_ok.1 hb
  rw [← Out.ok.inj hb]
  intro a ha
  obtain ⟨⟨j, m⟩, hm, rfl⟩ := List.mem_map.1 ha
  refine ⟨?_, fun m3 h => by cases h⟩
  obtain ⟨k, hk, h⟩ := Signing.forall₂_mem (Out.mapM'_eq_ok_iff.1 ho).flip hm
  have hk := mem_bsetIter.1 hk
  obtain ⟨m', hm', h⟩ := Out.bind_eq_ok.1 h
  cases Out.ok.inj h
  have hm := finalizeResult_eq_ok.1 hm'
  have hd := (Signing.start_eq_ok hs).2.2.2.2.2.2.2.1
  have hoth := (Signing.start_eq_ok hs).2.2.2.2.2.2.1
  have hecho : (0 : ZMod 11) ∉ signingPoints (q := 11) (I := Nat) .echo 1 r.echo ∧ r.echo.capY = 2 := by
    unfold Signing.start at hs
    split at hs
    · cases hs
    iterate 5 obtain ⟨_, _, hs⟩ := Out.bind_eq_ok.1 hs
    rw [← Out.ok.inj hs]
    constructor
    · show (0 : ZMod 11) ∉ [(signCalm 2).y • Toy.signEnv.C.g, (signCalm 2).a • Toy.signEnv.C.g,
        (signCalm 2).a • (signCalm 2).y • Toy.signEnv.C.g + (signCalm 2).k • Toy.signEnv.C.g, (signCalm 2).b • Toy.signEnv.C.g,
        (signCalm 2).b • (signCalm 2).y • Toy.signEnv.C.g + (signCalm 2).gamma • Toy.signEnv.C.g]
      decide +kernel
    · show (signCalm 2).y • Toy.signEnv.C.g = 2
      decide +kernel
  unfold Signing.msg1 at hm
  obtain ⟨_, _, hm⟩ := Out.bind_eq_ok.1 hm
  obtain ⟨_, _, hm⟩ := Out.bind_eq_ok.1 hm
  obtain ⟨_, h0, hm⟩ := Out.bind_eq_ok.1 hm
  obtain ⟨_, _, hm⟩ := Out.bind_eq_ok.1 hm
  obtain ⟨_, h1, hm⟩ := Out.bind_eq_ok.1 hm
  rw [← Out.ok.inj hm]
  obtain ⟨y0, z0⟩ := prove_points h0
  obtain ⟨y1, z1⟩ := prove_points h1
  intro rd p x hx
  rcases p <;> rcases rd with _ | _ | rd <;> first | (cases hx; done) | cases Option.some.inj hx
  · exact hecho.1
  · rw [hoth, show (Toy.signShares 2).pub.keySet.erase 2 = {1, 3} by decide +kernel] at hk
    show (0 : ZMod 11) ∉ [_, _, _, _]
    rw [y0, z0, y1, z1, hd]
    show (0 : ZMod 11) ∉ [_ • r.echo.capY + _, _, _ • r.echo.capY + _, _]
    rw [hecho.2]
    simp only [Finset.mem_insert, Finset.mem_singleton] at hk
    rcases hk with rfl | rfl <;> decide +kernel

/-- Party 2 signs with 1 and 3, who are not honest; it stops and blames 3 for a message that cannot be read. -/
example : ∃ (infos : Nat → AuxInfo Nat PaillierKey PublicAux) (r : Nat → Signing.Round1 11 Nat Nat (ZMod 11)) (init : Nat → Signing.State 11 Nat Nat (ZMod 11)),
    Signing.start Toy.signEnv (fun _ _ => 7) (5 : ZMod 11) (Toy.signShares 2) (infos 2) 2 (signCalm 2) = .ok (r 2) ∧ Signing.begin Toy.signEnv (r 2) = .ok (init 2) ∧
    ∃ n, (overWire (Signing.machine Toy.signEnv) toyWire.signingTransport (Signing.hashPanics Toy.signEnv.C.g)).ReachableWith {2}
        (fun _ j data => j ∉ ({2} : Set Nat) → ∀ r (m : Signing.Message 11 Nat (ZMod 11)), toyWire.signingTransport.unpack r data = some m → signingNoZero m ∧
          (∀ m1, m = .one m1 → Nat.Coprime m1.echo.capK (infos j).secret.modulus) ∧
          ∀ m2, m = .two m2 → ∀ id w, m2.echo.capFs.get? id = some w ∨ m2.echo.hatCapFs.get? id = some w → Nat.Coprime w (infos j).secret.modulus) init n ∧
      n.status 2 = .stopped (.fault 3 .malformed) := by
  obtain ⟨infos, haux, hmod⟩ := Toy.exists_signInfos
  have hd : SigningDrawsValid Toy.signEnv.P Toy.parties (fun i => (infos i).secret.modulus) (fun i => (Toy.ringPedersen i).modulus) signCalm := by
    rw [funext hmod]
    exact ⟨Toy.signDraws_valid.nu, Toy.signDraws_valid.rho, Toy.signDraws_valid.enc0, Toy.signDraws_valid.enc1, Toy.signDraws_valid.mta, Toy.signDraws_valid.hatMta⟩
  have hst := C41_honest_start Toy.signEnv Toy.signEnv_setting (fun _ _ => 7) 5 6 Toy.parties Toy.signShares Toy.signShares_valid infos Toy.ringPedersen haux signCalm
  have : Nonempty (Signing.Round1 11 Nat Nat (ZMod 11)) := ⟨(hst 1 (by decide)).choose⟩
  obtain ⟨r1, hr1⟩ := exists_fun hst
  have hfit : ∀ i ∈ Toy.parties, AllValues (AuxFits Params.test) (infos i).pub := by
    intro i hi v hv
    obtain ⟨e, he, rfl⟩ := List.mem_map.1 hv
    have h1 : (infos i).pub.get? e.1 = some e.2 := BMap.get?_eq_some_iff.2 he
    have h2 : e.1 ∈ Toy.parties := by
      rw [← haux.consistent.holders i hi, BMap.mem_keySet]
      exact List.mem_map.2 ⟨e, he, rfl⟩
    rw [haux.consistent.public_agree i hi e.1 h2] at h1
    rw [← Option.some.inj h1]
    refine ⟨?_, ?_⟩
    · show (infos e.1).secret.modulus < _
      rw [hmod]
      decide +kernel
    · show Toy.primeQ * Toy.primeP ≤ _
      decide +kernel
  have hdf : ∀ i others, SigningDrawsFit Params.test others (signCalm i) := fun i others => ⟨(signDrawsFit i others).beta, (signDrawsFit i others).dec, (signDrawsFit i others).star⟩
  obtain ⟨init, sig, h0, -, -, hiff⟩ := C93_signing toyWire_valid Toy.signEnv Toy.signEnv_setting (by decide) rfl signHashesFit (fun _ _ => 7) 5 6 Toy.parties (by decide) Toy.signShares
    Toy.signShares_valid infos Toy.ringPedersen haux hfit (fun i _ => by rw [hmod]; exact ⟨by decide +kernel, by decide +kernel⟩) signCalm hd (fun i _ => hdf i _) r1
    (fun i hi => (hr1 i hi).2) (by decide +kernel) (by decide +kernel) (by decide +kernel) (by decide +kernel) (by decide +kernel)
  have hs2 := (hr1 2 (by decide)).2
  have hsend := sends_calm hs2 (h0 2 (by decide))
  have h3 : 3 ∈ (Signing.machine Toy.signEnv).expected (init 2) := by
    obtain ⟨out, ho, -, hoth, -⟩ := Signing.begin_clean hs2 (h0 2 (by decide))
    rw [ho]
    show 3 ∈ (r1 2).ctx.otherIds
    rw [hoth]
    decide +kernel
  obtain ⟨n, hn, hpast, h1⟩ := exists_junk (P := Signing.machine Toy.signEnv) (T := toyWire.signingTransport) (panics := Signing.hashPanics Toy.signEnv.C.g) (honest := {2})
    (allowed := fun _ j data => j ∉ ({2} : Set Nat) → ∀ r (m : Signing.Message 11 Nat (ZMod 11)), toyWire.signingTransport.unpack r data = some m → signingNoZero m ∧
          (∀ m1, m = .one m1 → Nat.Coprime m1.echo.capK (infos j).secret.modulus) ∧
          ∀ m2, m = .two m2 → ∀ id w, m2.echo.capFs.get? id = some w ∨ m2.echo.hatCapFs.get? id = some w → Nat.Coprime w (infos j).secret.modulus) (init := init) (i := 2) (j := 3) rfl (by simp) h3
    (fun _ => not_read signing_junk) signing_junk
  have hp : ∀ i ∈ ({2} : Set Nat), i ∈ Toy.parties := by rintro i rfl; decide
  refine ⟨infos, r1, init, hs2, h0 2 (by decide), n, hn, h1 ?_⟩
  refine C94_signing toyWire_valid Toy.signEnv Toy.signEnv_setting (by decide) rfl signHashesFit (fun _ _ => 7) 5 6 Toy.parties (by decide) Toy.signShares Toy.signShares_valid infos Toy.ringPedersen haux
    signCalm hd 2 Toy.fewParties {2} (fun i hi => hp i hi) (fun i hi => hfit i (hp i hi)) (fun i _ => by rw [hmod]; exact ⟨by decide +kernel, by decide +kernel⟩) (fun i _ => hdf i _)
    (fun i _ => ?_) (by decide +kernel) r1 (fun i hi => (hr1 i (hp i hi)).2) init (fun i hi => h0 i (hp i hi)) n hn ?_ 2 rfl
  · simp only [hmod]
    have := Toy.errorDraws_valid i
    exact ⟨this.rho, this.beta, this.r, this.s, this.dec, this.star, this.decCount, this.starCount⟩
  · rintro i rfl s ⟨l, got, hl, hg, hrep⟩
    rw [hpast, List.prefix_nil] at hl
    subst hl
    cases hg
    cases Sum.inl.inj (Out.ok.inj hrep)
    exact hsend

/-- Party 1 has gone through the first two rounds of signing with 2 and 3 and gets messages of round 3 whose sums do not match. Party 3 has sent zero for `delta`; its next message makes party 1 panic. -/
example : ∃ (r3 : Signing.Round3 11 Nat Nat (ZMod 11)) (payloads : BMap Nat (Signing.Payload3 11 (ZMod 11))) (r : Signing.ErrRound 11 Nat Nat (ZMod 11)),
    (∃ r1 m1 m2, Signing.toRound3 Toy.signEnv r1 m1 m2 = .ok r3) ∧ Signing.finalize3 Toy.signEnv r3 payloads = .ok (.error r) ∧
    ∀ m : Signing.MsgErr Nat (ZMod 11), signingMessageFits (q := 11) toyWire.P (.error m) → ∃ data, toyWire.signingTransport.unpack 5 data = some (.error m : Signing.Message 11 Nat (ZMod 11)) ∧
      (overWire (Signing.machine Toy.signEnv) toyWire.signingTransport (Signing.hashPanics Toy.signEnv.C.g)).recv (.error r ⟨⟨[], [], []⟩, .empty⟩) 3 data = .panic := by
  obtain ⟨infos, S, m1, o, haux, hdr, hmod, good, hE, hids, hd, hsh, ho, hst, h1, h2, h3⟩ := Toy.signRun
  have hid : (S.r3 o 1).ctx.myId = 1 := (Signing.start_eq_ok (hst 1 (by decide))).2.2.2.1
  have hoth : (S.r3 o 1).ctx.otherIds = {2, 3} := by
    rw [show (S.r3 o 1).ctx.otherIds = (S.r1 1).ctx.otherIds from rfl, (Signing.start_eq_ok (hst 1 (by decide))).2.2.2.2.2.2.1]
    decide +kernel
  have hgam : 3 ∈ (S.r3 o 1).capGammas.keySet := by
    show 3 ∈ (BMap.tabulate S.ids _).keySet
    rw [BMap.keySet_tabulate, hids]
    decide
  obtain ⟨c, hc⟩ : ∃ c : ZMod 11, ((S.r3 o 1).msg.payload.delta + 0 + 0) • Toy.signEnv.C.g ≠ (S.r3 o 1).msg.payload.capDelta + 0 + c := by
    by_contra h
    push Not at h
    have := (h 0).symm.trans (h 1)
    exact absurd (add_left_cancel this) (by decide)
  obtain ⟨r, hr, hhat, hctx⟩ : ∃ r, Signing.finalize3 Toy.signEnv (S.r3 o 1) (BMap.tabulate {2, 3} fun j => ⟨0, if j = 3 then c else 0, 0⟩) = .ok (.error r) ∧ r.hat = false ∧ r.ctx = (S.r3 o 1).ctx := by
    unfold Signing.finalize3
    dsimp only
    rw [hid, if_pos]
    · exact ⟨_, rfl, rfl, rfl⟩
    · generalize (S.r3 o 1).msg.payload = p at hc ⊢
      have : ((BMap.tabulate {2, 3} fun j : Nat => (⟨0, if j = 3 then c else 0, 0⟩ : Signing.Payload3 11 (ZMod 11))).insert 1 p).values = [p, ⟨0, 0, 0⟩, ⟨0, c, 0⟩] := by rfl
      rw [this]
      intro h
      apply hc
      simpa [add_assoc] using h
  refine ⟨S.r3 o 1, _, r, ⟨_, _, _, h3 1 (by decide)⟩, hr, fun m hm => ?_⟩
  obtain ⟨data, hd, hp, -⟩ := C94_signing_delta toyWire_valid Toy.signEnv {1} (fun _ => .error r ⟨⟨[], [], []⟩, .empty⟩) _ .refl 1 3 rfl (by simp) (S.r3 o 1) _ r hr hhat ⟨0, c, 0⟩
    (by rw [BMap.get?_tabulate]; rfl) rfl (by rw [hid]; decide) hgam ⟨⟨[], [], []⟩, .empty⟩ [] rfl (by rw [hctx, hoth]; decide) (by simp) m hm
  exact ⟨data, hd, hp⟩

end Examples

end Synedrion.Props
