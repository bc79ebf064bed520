import Verif.Props.SigningEvidence
import Verif.Props.SigningHonest
import Verif.Lemmas.SigningMessage
import Verif.Lemmas.ToySigningRun

/-!
# C66: signers that were given different messages
-/

set_option linter.unusedSectionVars false

namespace Synedrion.Props

open Synedrion Spec Signing

variable {q : Nat} [Fact q.Prime] {I Ep G : Type} [LinearOrder I] [AddCommGroup G] [Module (ZMod q) G] [DecidableEq G]

/-- **C66 (the message is used last).** Take a signer with the same key share, auxiliary data and randomness, once with the message `m` and once with `m'`. Whatever
it receives, it sends the same messages in rounds 1, 2 and 3, and fails in the same way if it fails. After round 3 it goes on in both cases to round 4, with the
same combined nonce point, or in both cases to the same error round, where it sends the same message and treats what it receives in the same way. -/
theorem C66_message_used_last (E : Env q I Ep G) (epidOf : BMap I G → BMap I PublicAux → Ep) (m m' : ZMod q) (keyShare : KeyShare I (ZMod q) G)
    (auxInfo : AuxInfo I PaillierKey PublicAux) (me : I) (d : Draws q I) (r : Round1 q I Ep G)
    (hr : start E epidOf m keyShare auxInfo me d = .ok r) :
    ∃ r', start E epidOf m' keyShare auxInfo me d = .ok r' ∧ send1 E r' = send1 E r ∧
      ∀ in1, msg2 <$> toRound2 E r' in1 = msg2 <$> toRound2 E r in1 ∧
        ∀ in2, Round3.msg <$> toRound3 E r' in1 in2 = Round3.msg <$> toRound3 E r in1 in2 ∧
          ∀ in3, (∀ e, toRound4 E r' in1 in2 in3 = .err e ↔ toRound4 E r in1 in2 in3 = .err e) ∧
            (toRound4 E r' in1 in2 in3 = .panic ↔ toRound4 E r in1 in2 in3 = .panic) ∧
            (∀ r4, toRound4 E r in1 in2 in3 = .ok (.round4 r4) →
              ∃ r4', toRound4 E r' in1 in2 in3 = .ok (.round4 r4') ∧ r4'.capGammaCombined = r4.capGammaCombined) ∧
            ∀ re, toRound4 E r in1 in2 in3 = .ok (.error re) →
              ∃ re', toRound4 E r' in1 in2 in3 = .ok (.error re') ∧ re'.hat = re.hat ∧ msgErr E re' = msgErr E re ∧
                ∀ sender x, recvErr E re' sender x = recvErr E re sender x := by
  refine ⟨r.withMessage m', start_withMessage hr m', rfl, fun in1 => ⟨?_, fun in2 => ⟨?_, fun in3 => ?_⟩⟩⟩
  · rw [toRound2_withMessage]
    simp only [Out.map_eq, Out.bind_assoc, Out.bind_ok]
    rfl
  · rw [toRound3_withMessage]
    simp only [Out.map_eq, Out.bind_assoc, Out.bind_ok]
    rfl
  · rw [toRound4_withMessage]
    refine ⟨fun e => ?_, ?_, fun r4 h => ⟨r4.withMessage E m', by rw [h]; rfl, rfl⟩,
      fun re h => ⟨re.withMessage m', by rw [h]; rfl, rfl, rfl, fun _ _ => rfl⟩⟩
    · cases toRound4 E r in1 in2 in3 <;> simp
    · cases toRound4 E r in1 in2 in3 <;> simp

section Two

variable {E : Env q I Ep G} {epidOf : BMap I G → BMap I PublicAux → Ep} {m m' : ZMod q} {keyShare keyShare' : KeyShare I (ZMod q) G}
  {auxInfo auxInfo' : AuxInfo I PaillierKey PublicAux} {me peer : I} {d d' : Draws q I} {r r' : Round1 q I Ep G}
  (hr : start E epidOf m keyShare auxInfo me d = .ok r) (hr' : start E epidOf m' keyShare' auxInfo' peer d' = .ok r')
  (hpub : keyShare'.pub = keyShare.pub) (hne : peer ≠ me) (hme : me ∈ keyShare.pub.keySet) (hpeer : peer ∈ keyShare.pub.keySet)
  {in1 in1' : List (I × Msg1 q G)} {in2 in2' : List (I × Msg2 q I G)} {in3 in3' : List (I × Msg3 q G)} {r3 r3' : Round3 q I Ep G} {r4 r4' : Round4 q I Ep G}
  (h3 : toRound3 E r in1 in2 = .ok r3) (h3' : toRound3 E r' in1' in2' = .ok r3')
  (h4 : toRound4 E r in1 in2 in3 = .ok (.round4 r4)) (h4' : toRound4 E r' in1' in2' in3' = .ok (.round4 r4'))
  (hgot : (peer, r3'.msg) ∈ in3) {broadcast : I → G} {deltas : I → ZMod q}
  (hown : broadcast me = d.gamma • E.C.g) (hown' : broadcast peer = d'.gamma • E.C.g)
  (hin : ∀ a ∈ in2, a.2.echo.capGamma = broadcast a.1) (hin' : ∀ a ∈ in2', a.2.echo.capGamma = broadcast a.1)
  (hdown : deltas me = r3.msg.delta) (hdown' : deltas peer = r3'.msg.delta)
  (hdin : ∀ a ∈ in3, a.2.delta = deltas a.1) (hdin' : ∀ a ∈ in3', a.2.delta = deltas a.1)
  (hk : d'.k ≠ 0) (hG : ∑ i ∈ keyShare.pub.keySet, broadcast i ≠ 0)

include hr hr' hpub hne hme hpeer h3 h3' h4 h4' hgot hown hown' hin hin' hdown hdown' hdin hdin' hk hG

/-- The equation that a party with the message `x` checks about the peer's share -/
private theorem share_equation :
    ∃ delta : ZMod q, delta = ∑ i ∈ keyShare.pub.keySet, deltas i ∧ delta ≠ 0 ∧ r4.capGammaCombined = ∑ i ∈ keyShare.pub.keySet, broadcast i ∧ r4.ctx = r.ctx ∧
      r4.tildeCapDeltas.get? peer = some (delta⁻¹ • r3'.msg.capDelta) ∧ r4.tildeCapSs.get? peer = some (delta⁻¹ • r3'.msg.capS) ∧
      ∀ x : ZMod q, r4'.sigma • (∑ i ∈ keyShare.pub.keySet, broadcast i) ≠ x • delta⁻¹ • r3'.msg.capDelta +
        E.C.xCoordinate q (∑ i ∈ keyShare.pub.keySet, broadcast i) • delta⁻¹ • r3'.msg.capS ↔ x ≠ m' := by
  obtain ⟨_, _, hmsg, hid, hks, hall, hoth, hd, _⟩ := start_eq_ok hr
  obtain ⟨_, _, hmsg', hid', hks', hall', hoth', hd', _⟩ := start_eq_ok hr'
  obtain ⟨r3a, pl, h3a, hctx3, how, hc, hf⟩ := toRound4_ok h4
  obtain ⟨r3b, pl', h3b, hctx3', how', hc', hf'⟩ := toRound4_ok h4'
  rw [h3] at h3a
  rw [h3'] at h3b
  cases h3a
  cases h3b
  have hmem : r.ctx.myId ∉ r.ctx.otherIds := by rw [hid, hoth]; simp
  have hmem' : r'.ctx.myId ∉ r'.ctx.otherIds := by rw [hid', hoth']; simp
  have hall1 : insert r.ctx.myId r.ctx.otherIds = keyShare.pub.keySet := by rw [hid, hoth, Finset.insert_erase hme]
  have hall2 : insert r'.ctx.myId r'.ctx.otherIds = keyShare.pub.keySet := by rw [hid', hoth', hpub, Finset.insert_erase hpeer]
  obtain ⟨nd, ex, ks, -⟩ := collect_eq_ok.1 hc
  obtain ⟨_, _, ks', -⟩ := collect_eq_ok.1 hc'
  obtain ⟨delta, hdelta, hd0, -, -, hctx4, hG4, -, hDs, hSs⟩ := finalize3_round4 how (by rw [ks, hctx3]; exact hmem) hf
  obtain ⟨delta', hdelta', -, -, -, hctx4', hG4', hsig', -, -⟩ := finalize3_round4 how' (by rw [ks', hctx3']; exact hmem') hf'
  have hΓ := toRound3_nonce hmem h3 broadcast (by rw [hid, hd]; exact hown) hin
  have hΓ' := toRound3_nonce hmem' h3' broadcast (by rw [hid', hd']; exact hown') hin'
  rw [hall1] at hΓ
  rw [hall2] at hΓ'
  have e1 := delta_sum hmem hc deltas (by rw [hid]; exact hdown) hdin
  have e2 := delta_sum hmem' hc' deltas (by rw [hid']; exact hdown') hdin'
  rw [hall1, ← hdelta] at e1
  rw [hall2, ← hdelta', ← e1] at e2
  subst e2
  set Γ := ∑ i ∈ keyShare.pub.keySet, broadcast i with hΓdef
  have hjo : peer ∈ r.ctx.otherIds := by rw [hoth]; exact Finset.mem_erase.2 ⟨hne, hpeer⟩
  obtain ⟨m3, p, hm3, hp, hg⟩ := collect_mem hc hjo
  have hm3 : m3 = r3'.msg := by
    have := List.inj_on_of_nodup_map nd hm3 hgot rfl
    exact congrArg Prod.snd this
  subst hm3
  have hpp := recv3_payload hp
  subst hpp
  have hnot : peer ≠ r3.ctx.myId := by rw [hctx3, hid]; exact hne
  have hnot' : peer ≠ r.ctx.myId := by rw [hid]; exact hne
  have hDel : r3'.msg.capDelta = d'.k • Γ := by
    rw [← hΓ', ← hd', ← hctx3']; exact how'.capDelta
  have hS : r3'.msg.capS = r3'.chi • Γ := by
    rw [← hΓ']; exact how'.capS
  have hsig : r4'.sigma = d'.k * delta'⁻¹ * m' + r3'.chi * delta'⁻¹ * E.C.xCoordinate q Γ := by
    rw [hsig', hctx3', hmsg', hd', hΓ']
  have hcomb : r4.capGammaCombined = Γ := by rw [hG4, hΓ]
  refine ⟨delta', e1, hd0, hcomb, by rw [hctx4, hctx3], ?_, ?_, fun x => ?_⟩
  · rw [hDs, BMap.get?_mapVals, BMap.get?_insert, if_neg hnot, hg]; rfl
  · rw [hSs, BMap.get?_mapVals, BMap.get?_insert, if_neg hnot, hg]; rfl
  rw [hDel, hS, hsig]
  have e : (d'.k * delta'⁻¹ * m' + r3'.chi * delta'⁻¹ * E.C.xCoordinate q Γ) • Γ -
      (x • delta'⁻¹ • d'.k • Γ + E.C.xCoordinate q Γ • delta'⁻¹ • r3'.chi • Γ) = ((m' - x) * (d'.k * delta'⁻¹)) • Γ := by
    simp only [smul_smul, ← add_smul, ← sub_smul]
    congr 1
    ring
  rw [not_iff_not, ← sub_eq_zero, e, smul_eq_zero]
  constructor
  · intro h
    have h := h.resolve_right hG
    have := (mul_eq_zero.1 h).resolve_right (mul_ne_zero hk (inv_ne_zero hd0))
    exact (sub_eq_zero.1 this).symm
  · rintro rfl
    left; ring

/-- **C66 (a share for another message is rejected).** Two signers with the same public shares were given the messages `m` and `m'`. Both reach round 4, and the
echo-broadcast values (the nonce points of round 2 and the deltas of round 3) are the same for both. If the peer's nonce share and the combined nonce point are not
zero, then the peer's signature share is accepted exactly if `m = m'`, and rejected as an invalid signature share otherwise. -/
theorem C66_share_rejected :
    recv4 E r4 peer r4'.sigma = if m = m' then .ok r4'.sigma else .err (.protocol .r4InvalidSignatureShare) := by
  obtain ⟨delta, -, -, hcomb, hctx, hD, hS, hcond⟩ := share_equation hr hr' hpub hne hme hpeer h3 h3' h4 h4' hgot hown hown' hin hin' hdown hdown' hdin hdin' hk hG
  obtain ⟨_, _, hmsg, _⟩ := start_eq_ok hr
  unfold recv4 recvGet
  simp only [hD, hS, Out.ofOption_some, Out.bind_ok, hctx, hmsg, hcomb]
  rw [if_congr (hcond m) rfl rfl]
  simp only [ite_not]

/-- **C66 (no signature for either message).** So a signer that receives the share of a peer with another message does not output a signature, whatever else it
receives. -/
theorem C66_no_signature (hm : m ≠ m') (in4 : List (I × ZMod q)) (inErr : List (I × MsgErr I G)) (hgot4 : (peer, r4'.sigma) ∈ in4)
    (sig : RecoverableSignature q) : run E r in1 in2 in3 in4 inErr ≠ .ok sig := by
  intro h
  unfold run at h
  rw [h4, Out.bind_ok] at h
  simp only [last, Out.bind_eq_ok] at h
  obtain ⟨pl, hc, -⟩ := h
  obtain ⟨-, -, -, hall⟩ := collect_eq_ok.1 hc
  obtain ⟨p, hp, -⟩ := hall _ hgot4
  rw [C66_share_rejected hr hr' hpub hne hme hpeer h3 h3' h4 h4' hgot hown hown' hin hin' hdown hdown' hdin hdin' hk hG, if_neg hm] at hp
  cases hp

/-- **C66 fails: the peer is blamed for following the protocol with its message.** Let `echos2` and `echos3` be the echo broadcasts that `me` attaches to its evidence
against the peer. Whoever checks this evidence (with the associated data `a`) accepts it exactly if it was told another message than the peer: neither the signature
shares nor the evidence are bound to a message that both agreed on. -/
theorem C66_evidence_depends_on_message (hkeys : keyShare.pub.keySet = auxInfo.pub.keySet) (r2 r2' : Round2 q I Ep G)
    (h2 : toRound2 E r in1 = .ok r2) (hgot2 : (peer, msg2 r2') ∈ in2)
    (echos2 : BMap I (Echo2 I G)) (he2 : EchosAgainst auxInfo.pub.keySet me peer (msg2 r2).echo (in2.map fun a => (a.1, a.2.echo)) echos2)
    (echos3 : BMap I (ZMod q)) (he3 : EchosAgainst auxInfo.pub.keySet me peer r3.msg.delta (in3.map fun a => (a.1, a.2.delta)) echos3)
    (a : AssocData q I Ep G) :
    evidence4 E a (msg2 r2').echo r3'.msg r4'.sigma echos2 echos3 .r4InvalidSignatureShare = .ok (decide (a.message ≠ m')) := by
  obtain ⟨delta, hdelta, hd0, hcomb, hctx, hD, hS, hcond⟩ := share_equation hr hr' hpub hne hme hpeer h3 h3' h4 h4' hgot hown hown' hin hin' hdown hdown' hdin hdin' hk hG
  obtain ⟨-, -, hmsg, hid, -, -, hothers, hd, -, -⟩ := start_eq_ok hr
  have hmem : r.ctx.myId ∉ r.ctx.otherIds := by rw [hid, hothers]; simp
  have hall1 : insert r.ctx.myId r.ctx.otherIds = keyShare.pub.keySet := by rw [hid, hothers, Finset.insert_erase hme]
  obtain ⟨nd2, ex2, hGam⟩ := toRound3_capGamma hmem h2 h3
  obtain ⟨r3a, pl, h3a, hctx3, how, hc, hf⟩ := toRound4_ok h4
  rw [h3] at h3a
  cases h3a
  obtain ⟨nd3, ex3, ks3, -⟩ := collect_eq_ok.1 hc
  have hGsum := echos_sum he2 (by simpa [Function.comp_def] using nd2)
    (by rw [← hkeys, ← hothers, ← ex2]; simp [Function.comp_def]) (List.mem_map.2 ⟨_, hgot2, rfl⟩) (fun e => e.capGamma)
  have hdsum := echos_sum he3 (by simpa [Function.comp_def] using nd3)
    (by rw [← hkeys, ← hothers, ← ex3]; simp [Function.comp_def]) (List.mem_map.2 ⟨_, hgot, rfl⟩) (fun e => e)
  have hΓ := toRound3_nonce hmem h3 broadcast (by rw [hid, hd]; exact hown) hin
  have hΔ := delta_sum hmem hc deltas (by rw [hid]; exact hdown) hdin
  rw [hall1] at hΓ hΔ
  have e1 : (msg2 r2').echo.capGamma + (echos2.values.map fun e => e.capGamma).sum = ∑ i ∈ keyShare.pub.keySet, broadcast i := by
    rw [← hΓ, hGam]
    simpa [Function.comp_def, msg2] using hGsum
  have e2 : r3'.msg.delta + echos3.values.sum = delta := by
    rw [hdelta, ← hΔ, collect_sum (f := fun p : Payload3 q G => p.delta) (φ := fun m : Msg3 q G => m.delta) hc
      fun a _ p hr => by rw [recv3_payload hr]; rfl]
    simpa [Function.comp_def] using hdsum
  unfold evidence4
  simp only [e1, e2, if_neg hd0]
  rw [decide_eq_decide.2 (hcond a.message)]

end Two

section Examples

attribute [local instance] Toy.fact11 Toy.order11

/-- Party 1 is told the message 5 and party 2 the message 6; with party 3 they sign up to round 4. All hypotheses of the theorems above hold for parties 1 and 2. -/
example : ∃ (info info' : AuxInfo Nat PaillierKey PublicAux) (r r' : Round1 11 Nat Nat (ZMod 11)) (in1 in1' : List (Nat × Msg1 11 (ZMod 11)))
    (in2 in2' : List (Nat × Msg2 11 Nat (ZMod 11))) (in3 in3' : List (Nat × Msg3 11 (ZMod 11))) (r2 r2' : Round2 11 Nat Nat (ZMod 11))
    (r3 r3' : Round3 11 Nat Nat (ZMod 11)) (r4 r4' : Round4 11 Nat Nat (ZMod 11)) (broadcast deltas : Nat → ZMod 11)
    (echos2 : BMap Nat (Echo2 Nat (ZMod 11))) (echos3 : BMap Nat (ZMod 11)),
    start Toy.signEnv (fun _ _ => 7) (5 : ZMod 11) (Toy.signShares 1) info 1 (Toy.signDraws 1) = .ok r ∧
    start Toy.signEnv (fun _ _ => 7) (6 : ZMod 11) (Toy.signShares 2) info' 2 (Toy.signDraws 2) = .ok r' ∧
    (Toy.signShares 2).pub = (Toy.signShares 1).pub ∧ 1 ∈ (Toy.signShares 1).pub.keySet ∧ 2 ∈ (Toy.signShares 1).pub.keySet ∧
    toRound2 Toy.signEnv r in1 = .ok r2 ∧
    toRound3 Toy.signEnv r in1 in2 = .ok r3 ∧ toRound3 Toy.signEnv r' in1' in2' = .ok r3' ∧
    toRound4 Toy.signEnv r in1 in2 in3 = .ok (.round4 r4) ∧ toRound4 Toy.signEnv r' in1' in2' in3' = .ok (.round4 r4') ∧
    (2, msg2 r2') ∈ in2 ∧ (2, r3'.msg) ∈ in3 ∧ broadcast 1 = (Toy.signDraws 1).gamma • Toy.signEnv.C.g ∧ broadcast 2 = (Toy.signDraws 2).gamma • Toy.signEnv.C.g ∧
    (∀ a ∈ in2, a.2.echo.capGamma = broadcast a.1) ∧ (∀ a ∈ in2', a.2.echo.capGamma = broadcast a.1) ∧
    deltas 1 = r3.msg.delta ∧ deltas 2 = r3'.msg.delta ∧ (∀ a ∈ in3, a.2.delta = deltas a.1) ∧ (∀ a ∈ in3', a.2.delta = deltas a.1) ∧
    (Toy.signDraws 2).k ≠ 0 ∧ ∑ i ∈ (Toy.signShares 1).pub.keySet, broadcast i ≠ 0 ∧ (Toy.signShares 1).pub.keySet = info.pub.keySet ∧
    EchosAgainst info.pub.keySet 1 2 (msg2 r2).echo (in2.map fun a => (a.1, a.2.echo)) echos2 ∧
    EchosAgainst info.pub.keySet 1 2 r3.msg.delta (in3.map fun a => (a.1, a.2.delta)) echos3 := by
  obtain ⟨infos, haux, hmod⟩ := Toy.exists_signInfos
  have hd : SigningDrawsValid Toy.signEnv.P Toy.parties (fun i => (infos i).secret.modulus) (fun i => (Toy.ringPedersen i).modulus) Toy.signDraws := by
    rw [funext hmod]; exact Toy.signDraws_valid
  have hst := C41_honest_start Toy.signEnv Toy.signEnv_setting (fun _ _ => 7) 5 6 Toy.parties Toy.signShares Toy.signShares_valid infos Toy.ringPedersen haux Toy.signDraws
  have hst' : ∀ i, ∃ r : Round1 11 Nat Nat (ZMod 11), i ∈ Toy.parties →
      start Toy.signEnv (fun _ _ => 7) (5 : ZMod 11) (Toy.signShares i) (infos i) i (Toy.signDraws i) = .ok r := by
    intro i
    by_cases hi : i ∈ Toy.parties
    · obtain ⟨r, -, hr⟩ := hst i hi
      exact ⟨r, fun _ => hr⟩
    · obtain ⟨r, -, hr⟩ := hst 1 (by decide)
      exact ⟨r, fun h => absurd h hi⟩
  choose r1 hr1 using hst'
  obtain ⟨sig, m1, r2, r3, h1, -, -, h4, -, hrun⟩ := C41_honest_signature Toy.signEnv Toy.signEnv_setting (fun _ _ => 7) 5 6 Toy.parties Toy.signShares Toy.signShares_valid
    infos Toy.ringPedersen haux Toy.signDraws hd r1 hr1 (by decide +kernel) (by decide +kernel) (by decide +kernel) (by decide +kernel) (by decide +kernel)
  obtain ⟨h2, hrun⟩ := hrun (fun i => Toy.arrivals (fun j => m1 j i) i) (fun i _ => Toy.arrivals_fromOthers _ i)
  obtain ⟨h3, hrun⟩ := hrun (fun i => Toy.arrivals (fun j => msg2 (r2 j)) i) (fun i _ => Toy.arrivals_fromOthers _ i)
  obtain ⟨r4, h4, -⟩ := hrun (fun i => Toy.arrivals (fun j => (r3 j).msg) i) (fun i _ => Toy.arrivals_fromOthers _ i)
  have p1 : (1 : Nat) ∈ Toy.parties := by decide
  have p2 : (2 : Nat) ∈ Toy.parties := by decide
  have hks : (Toy.signShares 1).pub.keySet = Toy.parties := Toy.signShares_valid.holders 1 p1
  have hki : (infos 1).pub.keySet = Toy.parties := haux.consistent.holders 1 p1
  have hbc : ∀ i, ∀ a ∈ Toy.arrivals (fun j => msg2 (r2 j)) i, a.2.echo.capGamma = (Toy.signDraws a.1).gamma • Toy.signEnv.C.g := by
    intro i a ha
    obtain ⟨j, hj, rfl⟩ := List.mem_map.1 ha
    have hj' := Finset.mem_of_mem_erase (mem_bsetIter.1 hj)
    obtain ⟨_, _, _, _, hG, _⟩ := toRound2_state Toy.signEnv_setting (h2 j hj')
    obtain ⟨_, _, _, _, _, _, _, hdj, _⟩ := start_eq_ok (hr1 j hj')
    rw [hdj] at hG
    exact hG
  have hdl : ∀ i, ∀ a ∈ Toy.arrivals (fun j => (r3 j).msg) i, a.2.delta = (r3 a.1).msg.delta := by
    intro i a ha
    obtain ⟨j, hj, rfl⟩ := List.mem_map.1 ha
    rfl
  have hag : ∀ {T : Type} (f : Nat → T), EchosAgainst Toy.parties 1 2 (f 1) (Toy.arrivals f 1) (BMap.tabulate (Toy.parties.erase 2) f) := by
    intro T f
    refine ⟨BMap.keySet_tabulate .., by rw [BMap.get?_tabulate, if_pos (by decide)], fun a ha hne => ?_⟩
    obtain ⟨j, hj, rfl⟩ := List.mem_map.1 ha
    have hj' := Finset.mem_of_mem_erase (mem_bsetIter.1 hj)
    rw [BMap.get?_tabulate, if_pos (Finset.mem_erase.2 ⟨hne, hj'⟩)]
  refine ⟨infos 1, infos 2, r1 1, (r1 2).withMessage 6, _, _, _, _, _, _, r2 1, r2 2, r3 1, (r3 2).withMessage 6, r4 1, (r4 2).withMessage Toy.signEnv 6,
    fun i => (Toy.signDraws i).gamma • Toy.signEnv.C.g, fun i => (r3 i).msg.delta, BMap.tabulate (Toy.parties.erase 2) fun i => (msg2 (r2 i)).echo,
    BMap.tabulate (Toy.parties.erase 2) fun i => (r3 i).msg.delta,
    hr1 1 p1, start_withMessage (hr1 2 p2) 6, rfl, by rw [hks]; exact p1, by rw [hks]; exact p2, h2 1 p1, h3 1 p1,
    by rw [toRound3_withMessage, h3 2 p2]; rfl, h4 1 p1, by rw [toRound4_withMessage, h4 2 p2]; rfl,
    Toy.mem_arrivals (by decide) (by decide), Toy.mem_arrivals (f := fun j => (r3 j).msg) (by decide) (by decide), rfl, rfl, hbc 1, hbc 2, rfl, rfl, hdl 1, hdl 2,
    by decide +kernel, by rw [hks]; decide +kernel, by rw [hks, hki], ?_, ?_⟩
  · rw [hki]
    have := hag fun j => (msg2 (r2 j)).echo
    simpa [Toy.arrivals, Function.comp_def] using this
  · rw [hki]
    have := hag fun j => (r3 j).msg.delta
    simpa [Toy.arrivals, Function.comp_def] using this

end Examples

end Synedrion.Props
