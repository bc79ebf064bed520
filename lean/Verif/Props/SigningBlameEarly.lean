import Verif.Lemmas.SigningErrBlame
import Verif.Lemmas.SigningCulprit
import Verif.Props.SigningBlame

/-!
# C63: honest signers accuse each other at most in the rounds that look for a culprit
-/

set_option linter.unusedSectionVars false

namespace Synedrion.Props

open Spec Signing

variable {q : Nat} [Fact q.Prime] {I Ep G : Type} [LinearOrder I] [AddCommGroup G] [Module (ZMod q) G] [DecidableEq G]

private theorem recvErr_errors {E : Env q I Ep G} {r : ErrRound q I Ep G} {j : I} {m : MsgErr I G} {e : Err I} (h : recvErr E r j m = .err (.protocol e)) :
    ∃ hat, e = .decFailed hat ∨ e = .wrongIdsPsi hat ∨ ∃ k, e = .affGStarFailed hat k := by
  unfold recvErr at h
  rcases Out.bind_eq_err.1 h with h | ⟨_, -, h⟩
  · exact absurd h recvGet_no_fault
  rcases Out.bind_eq_err.1 h with h | ⟨_, -, h⟩
  · exfalso
    unfold aggregate at h
    rcases Out.bind_eq_err.1 h with h | ⟨_, -, h⟩
    · exact sumNonEmpty_no_fault (fun o ho => by obtain ⟨_, -, rfl⟩ := List.mem_map.1 ho; exact matrixGet_no_fault) h
    · rcases Out.bind_eq_err.1 h with h | ⟨_, -, h⟩
      · exact sumNonEmpty_no_fault (fun o ho => by obtain ⟨_, -, rfl⟩ := List.mem_map.1 ho; exact matrixGet_no_fault) h
      · exact add_ne_err h
  rcases Out.bind_eq_err.1 h with h | ⟨_, -, h⟩
  · exact absurd h recvGet_no_fault
  rcases Out.bind_eq_err.1 h with h | ⟨_, -, h⟩
  · exact absurd h recvGet_no_fault
  rcases Out.bind_eq_err.1 h with h | ⟨_, -, h⟩
  · exact absurd h recvGet_no_fault
  rcases Out.bind_eq_err.1 h with h | ⟨_, -, h⟩
  · exact absurd h under_ne_err
  rcases Out.bind_eq_err.1 h with h | ⟨_, -, h⟩
  · exact absurd h under_ne_err
  rcases Out.bind_eq_err.1 h with h | ⟨_, -, h⟩
  · exact absurd h dec_ne_err
  split at h
  · cases h; exact ⟨_, .inl rfl⟩
  split at h
  · cases h; exact ⟨_, .inr (.inl rfl)⟩
  rcases Out.bind_eq_err.1 h with h | ⟨_, -, h⟩
  · unfold BMap.traverse at h
    rcases Out.bind_eq_err.1 h with h | ⟨_, -, h⟩
    · obtain ⟨⟨k, psi⟩, -, h⟩ := Out.mapM'_eq_err h
      rcases Out.bind_eq_err.1 h with h | ⟨_, -, h⟩
      · simp only at h
        split at h
        · cases h
        · rcases Out.bind_eq_err.1 h with h | ⟨_, -, h⟩
          · exact absurd h recvGet_no_fault
          rcases Out.bind_eq_err.1 h with h | ⟨_, -, h⟩
          · exact absurd h recvGet_no_fault
          rcases Out.bind_eq_err.1 h with h | ⟨_, -, h⟩
          · exact absurd h matrixGet_no_fault
          rcases Out.bind_eq_err.1 h with h | ⟨_, -, h⟩
          · exact absurd h matrixGet_no_fault
          rcases Out.bind_eq_err.1 h with h | ⟨_, -, h⟩
          · exfalso
            unfold starVerify at h
            rcases Out.bind_eq_err.1 h with h | ⟨_, -, h⟩
            · exact under_ne_err h
            rcases Out.bind_eq_err.1 h with h | ⟨_, -, h⟩
            · exact under_ne_err h
            rcases Out.bind_eq_err.1 h with h | ⟨_, -, h⟩
            · exact under_ne_err h
            exact star_ne_err h
          split at h
          · cases h; exact ⟨_, .inr (.inr ⟨_, rfl⟩)⟩
          · cases h
      · cases h
    · cases h
  · cases h

private theorem late (E : Env q I Ep G) (hE : SigningSetting E) (epidOf : BMap I G → BMap I PublicAux → Ep) (message sk : ZMod q) (ids : Finset I)
    (shares : I → KeyShare I (ZMod q) G) (hshares : SharesKey E.C.g ids shares sk) (infos : I → AuxInfo I PaillierKey PublicAux) (setup : I → RPSetup)
    (haux : UsableAux E.P ids infos setup) (d : I → Draws q I)
    (hd : SigningDrawsValid E.P ids (fun i => (infos i).secret.modulus) (fun i => (setup i).modulus) d) (me peer : I) (hme : me ∈ ids) (hpeer : peer ∈ ids)
    (hne : me ≠ peer) (hgamma : (d peer).gamma ≠ 0) (r1 r1P : Round1 q I Ep G) (hs : start E epidOf message (shares me) (infos me) me (d me) = .ok r1)
    (hsP : start E epidOf message (shares peer) (infos peer) peer (d peer) = .ok r1P)
    (in1 in1P : List (I × Msg1 q G)) (in2 in2P : List (I × Msg2 q I G)) (in3 in3P : List (I × Msg3 q G)) (in4 : List (I × ZMod q)) (inErr : List (I × MsgErr I G))
    (h1 : ∀ m, (peer, m) ∈ in1 → msg1 E r1P me = .ok m) (echo1 : EchoAgreement Msg1.echo me peer r1.echo r1P.echo in1 in1P)
    (h2 : ∀ m, (peer, m) ∈ in2 → ∃ r2P, toRound2 E r1P in1P = .ok r2P ∧ m = msg2 r2P)
    (echo2 : ∀ r2 r2P, toRound2 E r1 in1 = .ok r2 → toRound2 E r1P in1P = .ok r2P → EchoAgreement Msg2.echo me peer (msg2 r2).echo (msg2 r2P).echo in2 in2P)
    (h3 : ∀ m, (peer, m) ∈ in3 → ∃ r3P, toRound3 E r1P in1P in2P = .ok r3P ∧ m = r3P.msg)
    (echo3 : ∀ r3 r3P, toRound3 E r1 in1 in2 = .ok r3 → toRound3 E r1P in1P in2P = .ok r3P → EchoAgreement Msg3.delta me peer r3.msg.delta r3P.msg.delta in3 in3P)
    (h4 : ∀ s, (peer, s) ∈ in4 → ∃ r4P, toRound4 E r1P in1P in2P in3P = .ok (.round4 r4P) ∧ s = r4P.sigma) (e : Err I)
    (hrun : run E r1 in1 in2 in3 in4 inErr = .err (.fault peer e)) :
    ∃ r m, toRound4 E r1 in1 in2 in3 = .ok (.error r) ∧ (peer, m) ∈ inErr ∧ recvErr E r peer m = .err (.protocol e) ∧
      ∀ rP c, toRound4 E r1P in1P in2P in3P = .ok (.error rP) → rP.hat = r.hat → msgErr E rP = .ok m →
        ErrorDrawsValid E (ids.erase peer) (infos peer).secret.modulus (fun j => (infos j).secret.modulus) c (d peer) → e = .decFailed r.hat := by
  have good := honest_good E hE epidOf message sk ids shares hshares infos setup haux d hd
  have hol : ∀ j ∈ ids, ∀ c : Ct (infos j).secret.modulus, IsUnit c → ∃ m, (⟨_, c⟩ : Cipher).Holds (infos j).secret.modulus m := by
    intro j hj c hc
    have hP := haux.primes j hj
    obtain ⟨m, -, hco, he⟩ := (C21_randomizer_recovery (ε := Unit) hP.primes _ (haux.secretKey j hj) E.P.uint E.P.modBits (FullSizePrimes.lt hP hE.consistent.2.1.1)
      hE.consistent.2.1.2.2.1).2 c hc
    unfold enc at he
    split at he
    · rename_i hf
      rw [encInner_eq] at he
      exact ⟨m.val, holds_of_encrypts hco (Out.ok.inj he).symm⟩
    · cases he
  obtain rfl : (honest E epidOf message ids shares infos setup d).r1 me = r1 :=
    Out.ok.inj ((honest_start E hE epidOf message sk ids shares hshares infos setup haux d hme).symm.trans hs)
  obtain rfl : (honest E epidOf message ids shares infos setup d).r1 peer = r1P :=
    Out.ok.inj ((honest_start E hE epidOf message sk ids shares hshares infos setup haux d hpeer).symm.trans hsP)
  clear hs hsP
  generalize hS : honest E epidOf message ids shares infos setup d = S at *
  have e1 : S.E = E := by rw [← hS]; rfl
  have e2 : S.ids = ids := by rw [← hS]; rfl
  have e3 : S.d = d := by rw [← hS]; rfl
  have hol' : ∀ j ∈ S.ids, ∀ c : Ct (S.N j), IsUnit c → ∃ m, (⟨S.N j, c⟩ : Cipher).Holds (S.N j) m := by subst hS; exact hol
  have hmsg : S.message = message := by rw [← hS]; rfl
  have hN : ∀ j, (infos j).secret.modulus = S.N j := by rw [← hS]; exact fun _ => rfl
  clear hol hS hd haux hshares hE
  subst e1 e2 e3
  have hpl : ∀ {in1 : List (I × Msg1 q G)} {r2 : Round2 q I Ep G} {i k : I}, S.At2 i in1 r2 → k ∈ S.ids → k ≠ i → ∃ m, (k, m) ∈ in1 ∧
      r2.payloads1.get? k = some (m.echo.payload (S.N k)) := by
    intro in1 r2 i k ha hk hki
    obtain ⟨m, hm⟩ := exists_from ha.senders (Finset.mem_erase.2 ⟨hki, hk⟩)
    exact ⟨m, hm, ha.payload k m hm⟩
  have hsame : ∀ {r2 r2P}, toRound2 S.E (S.r1 me) in1 = .ok r2 → toRound2 S.E (S.r1 peer) in1P = .ok r2P → ∀ k ∈ S.ids, r2.payloads1.get? k = r2P.payloads1.get? k := by
    intro r2 r2P ha hb k hk
    have ha := good.at2 hme ha
    have hb := good.at2 hpeer hb
    by_cases hkm : k = me
    · subst hkm
      obtain ⟨m, hm, hg⟩ := hpl hb hk hne
      rw [hg, ha.own, echo1.fromA m hm]
      exact congrArg some (good.payload_eq hk).symm
    · obtain ⟨m, hm, hg⟩ := hpl ha hk hkm
      by_cases hkp : k = peer
      · subst hkp
        rw [hg, hb.own, echo1.fromB m hm]
        exact congrArg some (good.payload_eq hk)
      · obtain ⟨m', hm', hg'⟩ := hpl hb hk hkp
        rw [hg, hg', echo1.fromThird k m m' hm hm']
  have hgam : ∀ {r3 r3P}, toRound3 S.E (S.r1 me) in1 in2 = .ok r3 → toRound3 S.E (S.r1 peer) in1P in2P = .ok r3P → r3.capGammaCombined = r3P.capGammaCombined := by
    intro r3 r3P ha hb
    obtain ⟨r2, h2a, -, nd, ex, -⟩ := Run.toRound3_parts ha
    obtain ⟨r2P, h2b, -, ndP, exP, -⟩ := Run.toRound3_parts hb
    obtain ⟨bc, b1, b2, b3, b4⟩ := echo_table hpeer hne (echo2 r2 r2P h2a h2b) nd ex exP
    have hx := toRound3_nonce (r := S.r1 me) (by show me ∉ S.ids.erase me; simp) ha (fun i => (bc i).capGamma)
      (by show (bc me).capGamma = _; rw [b1]; exact (good.at2 hme h2a).capGamma) (fun a h => by rw [b3 a h])
    have hy := toRound3_nonce (r := S.r1 peer) (by show peer ∉ S.ids.erase peer; simp) hb (fun i => (bc i).capGamma)
      (by show (bc peer).capGamma = _; rw [b2]; exact (good.at2 hpeer h2b).capGamma) (fun a h => by rw [b4 a h])
    rw [hx, hy]
    show ∑ i ∈ insert me (S.ids.erase me), _ = ∑ i ∈ insert peer (S.ids.erase peer), _
    rw [Finset.insert_erase hme, Finset.insert_erase hpeer]
  unfold run at hrun
  rcases Out.bind_eq_err.1 hrun with hr | ⟨a, ha, hrun⟩
  · exfalso
    unfold toRound4 at hr
    rcases Out.bind_eq_err.1 hr with hr | ⟨r3, hr3, hr⟩
    · unfold toRound3 at hr
      rcases Out.bind_eq_err.1 hr with hr | ⟨r2, hr2, hr⟩
      · -- round 1
        unfold toRound2 at hr
        rcases Out.bind_eq_err.1 hr with hr | ⟨_, -, hr⟩
        · unfold send1 at hr
          obtain ⟨_, -, hx⟩ := Out.mapM'_eq_err hr
          rcases Out.bind_eq_err.1 hx with hx | ⟨_, -, hx⟩
          · exact finalizeResult_no_fault hx
          · cases hx
        · rcases Out.bind_eq_err.1 hr with hr | ⟨_, -, hr⟩
          · obtain ⟨m, hm, hrecv⟩ := collect_eq_fault hr
            obtain ⟨m', hm', hacc⟩ := good.sent1 hpeer hme hne.symm
            obtain rfl : m' = m := Out.ok.inj (hm'.symm.trans (h1 m hm))
            rw [show recv1 S.E (S.r1 me).ctx peer m' = _ from hacc] at hrecv
            cases hrecv
          · exact finalizeResult_no_fault hr
      · -- round 2
        rcases Out.bind_eq_err.1 hr with hr | ⟨_, -, hr⟩
        · obtain ⟨m, hm, hrecv⟩ := collect_eq_fault hr
          obtain ⟨r2P, hr2P, rfl⟩ := h2 m hm
          exact good.recv2_no_fault hol' hme hpeer hgamma (good.at2 hme hr2) (good.at2 hpeer hr2P) (hsame hr2 hr2P) hrecv
        · exact finalizeResult_no_fault hr
    · -- round 3
      rcases Out.bind_eq_err.1 hr with hr | ⟨_, -, hr⟩
      · obtain ⟨m, hm, hrecv⟩ := collect_eq_fault hr
        obtain ⟨r3P, hr3P, rfl⟩ := h3 m hm
        have hG := hgam hr3 hr3P
        obtain ⟨r2, hr2, hp1, -⟩ := Run.toRound3_parts hr3
        obtain ⟨r2P, hr2P, -, -, -, p, hp, hD, -, hpsi⟩ := Run.toRound3_parts hr3P
        have hctx : r3.ctx = S.ctx me := (toRound3_ok hr3).1
        have hown := (good.at2 hpeer hr2P).own
        rw [hp] at hown
        cases hown
        unfold recv3 recvGet at hrecv
        rw [hp1, hsame hr2 hr2P peer hpeer, hp, Out.ofOption_some, Out.bind_ok, hG, hctx] at hrecv
        have helog : r3P.msg.psiPrime.verify S.E.elogH S.E.C.g ((S.pl1 peer).elogPub' r3P.msg.capDelta r3P.capGammaCombined) (S.epid, peer) = true := by
          rw [hpsi]
          refine C26_complete S.E.elogH S.E.C.g _ (S.d peer).k (S.d peer).a (S.epid, peer) _ _ ⟨rfl, ?_, hD⟩
          show (S.d peer).a • (S.d peer).y • S.E.C.g + (S.d peer).k • S.E.C.g = (S.d peer).k • S.E.C.g + (S.d peer).a • (S.d peer).y • S.E.C.g
          abel
        replace hrecv := (if_neg (not_not.2 helog)).symm.trans hrecv
        cases hrecv
      · exact finalizeResult_no_fault hr
  · cases a with
    | round4 r4 =>
      exfalso
      unfold last at hrun
      rcases Out.bind_eq_err.1 hrun with hr | ⟨_, -, hr⟩
      · obtain ⟨s, hm, hrecv⟩ := collect_eq_fault hr
        obtain ⟨r4P, ha4P, rfl⟩ := h4 s hm
        obtain ⟨r3, pl, hr3, hctx, hown, hc, hf⟩ := toRound4_ok ha
        obtain ⟨r3P, plP, hr3P, hctxP, hownP, hcP, hfP⟩ := toRound4_ok ha4P
        obtain ⟨nd, ex, ks, al⟩ := collect_eq_ok.1 hc
        obtain ⟨ndP, exP, ksP, alP⟩ := collect_eq_ok.1 hcP
        obtain ⟨δ, hδ, -, -, -, c4, g4, s4, td, ts⟩ := finalize3_round4 hown (by rw [ks, hctx]; show me ∉ S.ids.erase me; simp) hf
        obtain ⟨δP, hδP, -, -, -, -, g4P, s4P, -, -⟩ := finalize3_round4 hownP (by rw [ksP, hctxP]; show peer ∉ S.ids.erase peer; simp) hfP
        have hsum : ∀ {r3 : Round3 q I Ep G} {s : Finset I} {arr : List (I × Msg3 q G)} {m : BMap I (Payload3 q G)}, collect s (recv3 S.E r3) arr = .ok m →
            (m.values.map fun p => p.delta).sum = (arr.map fun a => a.2.delta).sum := by
          intro r3 s arr m hc
          refine collect_sum hc fun a _ p hp => ?_
          unfold recv3 at hp
          obtain ⟨_, -, hp⟩ := Out.bind_eq_ok.1 hp
          split at hp
          · cases hp
          · cases hp; rfl
        have hdelta : δ = δP := by
          rw [hδ, hδP, hsum hc, hsum hcP]
          have := (echo_perm (f := id) hme hpeer hne (echo3 r3 r3P hr3 hr3P) nd ndP ex exP).sum_eq
          simpa using this
        have hG := hgam hr3 hr3P
        obtain ⟨m3, hm3⟩ := exists_from (s := S.ids.erase me) ex (Finset.mem_erase.2 ⟨hne.symm, hpeer⟩)
        obtain ⟨r3P', hr3P', rfl⟩ := h3 m3 hm3
        obtain rfl : r3P = r3P' := Out.ok.inj (hr3P.symm.trans hr3P')
        obtain ⟨p, hp, hgp⟩ := al _ hm3
        have hp' : p = r3P.msg.payload := by
          unfold recv3 at hp
          obtain ⟨_, -, hp⟩ := Out.bind_eq_ok.1 hp
          split at hp
          · cases hp
          · cases hp; rfl
        subst hp'
        have hget : (pl.insert r3.ctx.myId r3.msg.payload).get? peer = some r3P.msg.payload := by
          rw [BMap.get?_insert, if_neg (by rw [hctx]; exact hne.symm)]; exact hgp
        unfold recv4 recvGet at hrecv
        rw [td, ts, BMap.get?_mapVals, BMap.get?_mapVals, hget] at hrecv
        simp only [Option.map_some, Out.ofOption_some, Out.bind_ok] at hrecv
        split at hrecv
        · rename_i hn
          apply hn
          rw [s4P, g4, c4, hctx, hctxP, hG, hdelta]
          show _ • r3P.capGammaCombined = S.message • δP⁻¹ • r3P.msg.capDelta + _ • δP⁻¹ • r3P.msg.capS
          rw [hownP.capDelta, hownP.capS, hctxP]
          show ((S.d peer).k * δP⁻¹ * S.message + r3P.chi * δP⁻¹ * S.E.C.xCoordinate q r3P.capGammaCombined) • r3P.capGammaCombined =
            S.message • δP⁻¹ • (S.d peer).k • r3P.capGammaCombined + S.E.C.xCoordinate q r3P.capGammaCombined • δP⁻¹ • r3P.chi • r3P.capGammaCombined
          module
        · cases hrecv
      · exact finalizeResult_no_fault hr
    | error r =>
      unfold last at hrun
      rcases Out.bind_eq_err.1 hrun with hr | ⟨_, -, hrun⟩
      · exact absurd hr finalizeResult_no_fault
      · rcases Out.bind_eq_err.1 hrun with hr | ⟨_, -, hr⟩
        · obtain ⟨m, hm, hrecv⟩ := collect_eq_fault hr
          refine ⟨r, m, ha, hm, hrecv, fun rP c hrP hhat hmP hdr => ?_⟩
          rw [hN, funext hN] at hdr
          exact good.recvErr_decFailed hme hpeer hne hgamma hdr ha hrP hhat hsame h2 hmP hrecv
        · exact absurd hr finalizeResult_no_fault

/-- **C63 (signing, partial).** Let `me` and `peer` both follow signing for the same message, key and auxiliary info, with valid draws (`d j` matters only for these two). What arrives
at `me` in the name of `peer` in the rounds 1 to 4 is what `peer` sent to `me`, and both received the same echo-broadcast parts. If `me` declares `peer` faulty, it does so in one of the
rounds 5 and 6 that look for a culprit, whatever the other parties send to either of them.

The full property, that `me` does not declare `peer` faulty at all, is false: `C63_honest_signer_blamed`. -/
theorem C63_signing_partial (E : Env q I Ep G) (hE : SigningSetting E) (epidOf : BMap I G → BMap I PublicAux → Ep) (message sk : ZMod q) (ids : Finset I)
    (shares : I → KeyShare I (ZMod q) G) (hshares : SharesKey E.C.g ids shares sk) (infos : I → AuxInfo I PaillierKey PublicAux) (setup : I → RPSetup)
    (haux : UsableAux E.P ids infos setup) (d : I → Draws q I)
    (hd : SigningDrawsValid E.P ids (fun i => (infos i).secret.modulus) (fun i => (setup i).modulus) d) (me peer : I) (hme : me ∈ ids) (hpeer : peer ∈ ids)
    (hne : me ≠ peer) (hgamma : (d peer).gamma ≠ 0) (r1 r1P : Round1 q I Ep G) (hs : start E epidOf message (shares me) (infos me) me (d me) = .ok r1)
    (hsP : start E epidOf message (shares peer) (infos peer) peer (d peer) = .ok r1P)
    (in1 in1P : List (I × Msg1 q G)) (in2 in2P : List (I × Msg2 q I G)) (in3 in3P : List (I × Msg3 q G)) (in4 : List (I × ZMod q)) (inErr : List (I × MsgErr I G))
    (h1 : ∀ m, (peer, m) ∈ in1 → msg1 E r1P me = .ok m) (echo1 : EchoAgreement Msg1.echo me peer r1.echo r1P.echo in1 in1P)
    (h2 : ∀ m, (peer, m) ∈ in2 → ∃ r2P, toRound2 E r1P in1P = .ok r2P ∧ m = msg2 r2P)
    (echo2 : ∀ r2 r2P, toRound2 E r1 in1 = .ok r2 → toRound2 E r1P in1P = .ok r2P → EchoAgreement Msg2.echo me peer (msg2 r2).echo (msg2 r2P).echo in2 in2P)
    (h3 : ∀ m, (peer, m) ∈ in3 → ∃ r3P, toRound3 E r1P in1P in2P = .ok r3P ∧ m = r3P.msg)
    (echo3 : ∀ r3 r3P, toRound3 E r1 in1 in2 = .ok r3 → toRound3 E r1P in1P in2P = .ok r3P → EchoAgreement Msg3.delta me peer r3.msg.delta r3P.msg.delta in3 in3P)
    (h4 : ∀ s, (peer, s) ∈ in4 → ∃ r4P, toRound4 E r1P in1P in2P in3P = .ok (.round4 r4P) ∧ s = r4P.sigma) (e : Err I)
    (hrun : run E r1 in1 in2 in3 in4 inErr = .err (.fault peer e)) :
    ∃ hat, e = .decFailed hat ∨ e = .wrongIdsPsi hat ∨ ∃ k, e = .affGStarFailed hat k := by
  obtain ⟨r, m, -, -, hrecv, -⟩ := late E hE epidOf message sk ids shares hshares infos setup haux d hd me peer hme hpeer hne hgamma r1 r1P hs hsP in1 in1P in2 in2P in3 in3P in4
    inErr h1 echo1 h2 echo2 h3 echo3 h4 e hrun
  exact recvErr_errors hrecv

/-- **C63 (signing, partial), with the rounds that look for a culprit.** The same if `peer` also follows the protocol in the rounds 5 and 6, with valid draws for them, and what arrives from it
is what it sent in the round (`hat` tells which of the two) that `me` is in: the only reason for which `me` can then declare `peer` faulty is that the proof of the decryption is not accepted. The proofs
about the multiplications and the set of the parties they are for always are. That this one reason remains is shown by `C63_honest_signer_blamed`. -/
theorem C63_signing_error_round_partial (E : Env q I Ep G) (hE : SigningSetting E) (epidOf : BMap I G → BMap I PublicAux → Ep) (message sk : ZMod q) (ids : Finset I)
    (shares : I → KeyShare I (ZMod q) G) (hshares : SharesKey E.C.g ids shares sk) (infos : I → AuxInfo I PaillierKey PublicAux) (setup : I → RPSetup)
    (haux : UsableAux E.P ids infos setup) (d : I → Draws q I)
    (hd : SigningDrawsValid E.P ids (fun i => (infos i).secret.modulus) (fun i => (setup i).modulus) d) (me peer : I) (hme : me ∈ ids) (hpeer : peer ∈ ids)
    (hne : me ≠ peer) (hgamma : (d peer).gamma ≠ 0) (r1 r1P : Round1 q I Ep G) (hs : start E epidOf message (shares me) (infos me) me (d me) = .ok r1)
    (hsP : start E epidOf message (shares peer) (infos peer) peer (d peer) = .ok r1P)
    (in1 in1P : List (I × Msg1 q G)) (in2 in2P : List (I × Msg2 q I G)) (in3 in3P : List (I × Msg3 q G)) (in4 : List (I × ZMod q)) (inErr : List (I × MsgErr I G))
    (h1 : ∀ m, (peer, m) ∈ in1 → msg1 E r1P me = .ok m) (echo1 : EchoAgreement Msg1.echo me peer r1.echo r1P.echo in1 in1P)
    (h2 : ∀ m, (peer, m) ∈ in2 → ∃ r2P, toRound2 E r1P in1P = .ok r2P ∧ m = msg2 r2P)
    (echo2 : ∀ r2 r2P, toRound2 E r1 in1 = .ok r2 → toRound2 E r1P in1P = .ok r2P → EchoAgreement Msg2.echo me peer (msg2 r2).echo (msg2 r2P).echo in2 in2P)
    (h3 : ∀ m, (peer, m) ∈ in3 → ∃ r3P, toRound3 E r1P in1P in2P = .ok r3P ∧ m = r3P.msg)
    (echo3 : ∀ r3 r3P, toRound3 E r1 in1 in2 = .ok r3 → toRound3 E r1P in1P in2P = .ok r3P → EchoAgreement Msg3.delta me peer r3.msg.delta r3P.msg.delta in3 in3P)
    (h4 : ∀ s, (peer, s) ∈ in4 → ∃ r4P, toRound4 E r1P in1P in2P in3P = .ok (.round4 r4P) ∧ s = r4P.sigma) (c : Nat)
    (herr : ErrorDrawsValid E (ids.erase peer) (infos peer).secret.modulus (fun j => (infos j).secret.modulus) c (d peer))
    (h5 : ∀ r m, toRound4 E r1 in1 in2 in3 = .ok (.error r) → (peer, m) ∈ inErr →
      ∃ rP, toRound4 E r1P in1P in2P in3P = .ok (.error rP) ∧ rP.hat = r.hat ∧ msgErr E rP = .ok m) (e : Err I)
    (hrun : run E r1 in1 in2 in3 in4 inErr = .err (.fault peer e)) :
    ∃ hat, e = .decFailed hat := by
  obtain ⟨r, m, hr, hm, -, hdec⟩ := late E hE epidOf message sk ids shares hshares infos setup haux d hd me peer hme hpeer hne hgamma r1 r1P hs hsP in1 in1P in2 in2P in3 in3P in4
    inErr h1 echo1 h2 echo2 h3 echo3 h4 e hrun
  obtain ⟨rP, hrP, hhat, hmP⟩ := h5 r m hr hm
  exact ⟨r.hat, hdec rP c hrP hhat hmP herr⟩

/-! ### A concrete case -/

section Examples

attribute [local instance] Toy.fact11

private theorem arrived {M : Type} {f : Nat → M} {i j : Nat} {m : M} (h : (j, m) ∈ Toy.arrivals f i) : m = f j ∧ j ∈ Toy.parties ∧ j ≠ i := by
  obtain ⟨k, hk, e⟩ := List.mem_map.1 h
  cases e
  have := Finset.mem_erase.1 (mem_bsetIter.1 hk)
  exact ⟨rfl, this.2, this.1⟩

/-- All hypotheses of `C63_signing_partial` and `C63_signing_error_round_partial` can be met, in the run of `C63_honest_signer_blamed` with three parties: party 2 accuses the honest party 1 after round 3. -/
example : ∃ (infos : Nat → AuxInfo Nat PaillierKey PublicAux) (r1 : Nat → Round1 11 Nat Nat (ZMod 11)) (in1 : Nat → List (Nat × Msg1 11 (ZMod 11)))
    (in2 : Nat → List (Nat × Msg2 11 Nat (ZMod 11))) (in3 : Nat → List (Nat × Msg3 11 (ZMod 11))) (inErr : List (Nat × MsgErr Nat (ZMod 11))),
    UsableAux Toy.signEnv.P Toy.parties infos Toy.ringPedersen ∧
    SigningDrawsValid Toy.signEnv.P Toy.parties (fun i => (infos i).secret.modulus) (fun i => (Toy.ringPedersen i).modulus) Toy.signDraws ∧ (Toy.signDraws 1).gamma ≠ 0 ∧
    start Toy.signEnv (fun _ _ => 7) (5 : ZMod 11) (Toy.signShares 2) (infos 2) 2 (Toy.signDraws 2) = .ok (r1 2) ∧
    start Toy.signEnv (fun _ _ => 7) (5 : ZMod 11) (Toy.signShares 1) (infos 1) 1 (Toy.signDraws 1) = .ok (r1 1) ∧
    (∀ m, (1, m) ∈ in1 2 → msg1 Toy.signEnv (r1 1) 2 = .ok m) ∧ EchoAgreement Msg1.echo 2 1 (r1 2).echo (r1 1).echo (in1 2) (in1 1) ∧
    (∀ m, (1, m) ∈ in2 2 → ∃ r2P, toRound2 Toy.signEnv (r1 1) (in1 1) = .ok r2P ∧ m = msg2 r2P) ∧
    (∀ r2 r2P, toRound2 Toy.signEnv (r1 2) (in1 2) = .ok r2 → toRound2 Toy.signEnv (r1 1) (in1 1) = .ok r2P →
      EchoAgreement Msg2.echo 2 1 (msg2 r2).echo (msg2 r2P).echo (in2 2) (in2 1)) ∧
    (∀ m, (1, m) ∈ in3 2 → ∃ r3P, toRound3 Toy.signEnv (r1 1) (in1 1) (in2 1) = .ok r3P ∧ m = r3P.msg) ∧
    (∀ r3 r3P, toRound3 Toy.signEnv (r1 2) (in1 2) (in2 2) = .ok r3 → toRound3 Toy.signEnv (r1 1) (in1 1) (in2 1) = .ok r3P →
      EchoAgreement Msg3.delta 2 1 r3.msg.delta r3P.msg.delta (in3 2) (in3 1)) ∧
    (∀ r m, toRound4 Toy.signEnv (r1 2) (in1 2) (in2 2) (in3 2) = .ok (.error r) → (1, m) ∈ inErr →
      ∃ rP, toRound4 Toy.signEnv (r1 1) (in1 1) (in2 1) (in3 1) = .ok (.error rP) ∧ rP.hat = r.hat ∧ msgErr Toy.signEnv rP = .ok m) ∧
    ErrorDrawsValid Toy.signEnv (Toy.parties.erase 1) (infos 1).secret.modulus (fun j => (infos j).secret.modulus) 2 (Toy.signDraws 1) ∧
    run Toy.signEnv (r1 2) (in1 2) (in2 2) (in3 2) [] inErr = .err (.fault 1 (.decFailed false)) := by
  obtain ⟨infos, haux, hmod⟩ := Toy.exists_signInfos
  have hd : SigningDrawsValid Toy.signEnv.P Toy.parties (fun i => (infos i).secret.modulus) (fun i => (Toy.ringPedersen i).modulus) Toy.signDraws := by
    rw [funext hmod]; exact Toy.signDraws_valid
  have hst' : ∀ i, ∃ r : Round1 11 Nat Nat (ZMod 11), i ∈ Toy.parties →
      start Toy.signEnv (fun _ _ => 7) (5 : ZMod 11) (Toy.signShares i) (infos i) i (Toy.signDraws i) = .ok r := by
    intro i
    by_cases hi : i ∈ Toy.parties
    · exact ⟨_, fun _ => honest_start Toy.signEnv Toy.signEnv_setting _ 5 6 Toy.parties Toy.signShares Toy.signShares_valid infos Toy.ringPedersen haux Toy.signDraws hi⟩
    · exact ⟨(honest Toy.signEnv (fun _ _ => 7) (5 : ZMod 11) Toy.parties Toy.signShares infos Toy.ringPedersen Toy.signDraws).r1 i, fun h => absurd h hi⟩
  choose r1 hr1 using hst'
  obtain ⟨m1, r2, other2, r3, rErr, mErr, hm1, hecho, hmsg, hhat, hrun⟩ := C63_honest_signer_blamed Toy.signEnv Toy.signEnv_setting (by decide +kernel) (fun _ _ => 7) 5 6
    Toy.parties Toy.signShares Toy.signShares_valid infos Toy.ringPedersen haux Toy.signDraws hd 2 Toy.fewParties
    (fun i _ => by rw [hmod, funext hmod]; exact Toy.errorDraws_valid i) (fun t => by simp [Toy.signEnv]) r1 hr1 3 1 2 (by decide) (by decide) (by decide) (by decide)
    (by decide) (by decide) 4 (by decide)
  obtain ⟨h2, hrun⟩ := hrun (fun i => Toy.arrivals (fun j => m1 j i) i) (fun i _ => Toy.arrivals_fromOthers _ i)
  obtain ⟨h3, hrun⟩ := hrun (fun i => Toy.arrivals (fun j => if j = 3 ∧ i = 2 then other2 else msg2 (r2 j)) i) (fun i _ => Toy.arrivals_fromOthers _ i)
  obtain ⟨h4, hrun⟩ := hrun (fun i => Toy.arrivals (fun j => if j = 3 then { (r3 j).msg with delta := (r3 j).msg.delta + 4 } else (r3 j).msg) i)
    (fun i _ => Toy.arrivals_fromOthers _ i)
  have hrun := hrun [] [(3, mErr)] (by simp) (show ([1, 3] : List Nat).toFinset = _ by decide)
  have he1 : ∀ i ∈ Toy.parties, ∀ j ∈ Toy.parties, i ≠ j → (m1 i j).echo = (r1 i).echo := by
    intro i hi j hj hij
    have h := hm1 i hi j hj hij
    simp only [msg1, Out.bind_eq_ok] at h
    obtain ⟨_, -, _, -, _, -, _, -, _, -, h⟩ := h
    exact (Out.ok.inj h) ▸ rfl
  have he2 : ∀ i j, (if j = 3 ∧ i = 2 then other2 else msg2 (r2 j)).echo = (msg2 (r2 j)).echo := by
    intro i j; split
    · rename_i h; rw [h.1, hecho]
    · rfl
  refine ⟨infos, r1, fun i => Toy.arrivals (fun j => m1 j i) i, fun i => Toy.arrivals (fun j => if j = 3 ∧ i = 2 then other2 else msg2 (r2 j)) i,
    fun i => Toy.arrivals (fun j => if j = 3 then { (r3 j).msg with delta := (r3 j).msg.delta + 4 } else (r3 j).msg) i, _, haux, hd, by decide +kernel, hr1 2 (by decide),
    hr1 1 (by decide), ?_, ⟨?_, ?_, ?_⟩, ?_, ?_, ?_, ?_, ?_, ?_, hrun⟩
  · intro m hm
    obtain ⟨rfl, hj, hne⟩ := arrived hm
    exact hm1 1 hj 2 (by decide) hne
  · intro m hm
    obtain ⟨rfl, hj, hne⟩ := arrived hm
    exact he1 2 hj 1 (by decide) hne
  · intro m hm
    obtain ⟨rfl, hj, hne⟩ := arrived hm
    exact he1 1 hj 2 (by decide) hne
  · intro k m m' hm hm'
    obtain ⟨rfl, hj, hne⟩ := arrived hm
    obtain ⟨rfl, -, hne'⟩ := arrived hm'
    rw [he1 k hj 2 (by decide) hne, he1 k hj 1 (by decide) hne']
  · intro m hm
    obtain ⟨rfl, -, -⟩ := arrived hm
    exact ⟨_, h2 1 (by decide), by simp⟩
  · intro a b ha hb
    obtain rfl := Out.ok.inj ((h2 2 (by decide)).symm.trans ha)
    obtain rfl := Out.ok.inj ((h2 1 (by decide)).symm.trans hb)
    refine ⟨fun m hm => ?_, fun m hm => ?_, fun k m m' hm hm' => ?_⟩
    · obtain ⟨rfl, -, -⟩ := arrived hm; exact he2 _ _
    · obtain ⟨rfl, -, -⟩ := arrived hm; exact he2 _ _
    · obtain ⟨rfl, -, -⟩ := arrived hm
      obtain ⟨rfl, -, -⟩ := arrived hm'
      rw [he2, he2]
  · intro m hm
    obtain ⟨rfl, -, -⟩ := arrived hm
    exact ⟨_, h3 1 (by decide), by simp⟩
  · intro a b ha hb
    obtain rfl := Out.ok.inj ((h3 2 (by decide)).symm.trans ha)
    obtain rfl := Out.ok.inj ((h3 1 (by decide)).symm.trans hb)
    refine ⟨fun m hm => ?_, fun m hm => ?_, fun k m m' hm hm' => ?_⟩
    · obtain ⟨rfl, -, -⟩ := arrived hm; simp
    · obtain ⟨rfl, -, -⟩ := arrived hm; simp
    · obtain ⟨rfl, -, -⟩ := arrived hm
      obtain ⟨rfl, -, -⟩ := arrived hm'
      rfl
  · intro r m hr hm
    obtain rfl : rErr 2 = r := by
      have := (h4 2 (by decide) (by decide)).symm.trans hr
      cases this; rfl
    obtain rfl : m = mErr := by
      rcases List.mem_cons.1 hm with hm | hm
      · exact congrArg Prod.snd hm
      · rcases List.mem_cons.1 hm with hm | hm <;> cases hm
    exact ⟨rErr 1, h4 1 (by decide) (by decide), by rw [hhat, hhat], hmsg⟩
  · rw [hmod, funext hmod]; exact Toy.errorDraws_valid 1

end Examples

end Synedrion.Props
