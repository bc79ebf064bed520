import Verif.Lemmas.SigningEvidence
import Verif.Lemmas.SigningRun
import Verif.Lemmas.SigningCheat
import Verif.Lemmas.ToySigningRun

/-!
# C45 and C46 for interactive signing: what evidence proves
-/

set_option linter.unusedSectionVars false

namespace Synedrion.Props

open Spec Signing

variable {q : Nat} [Fact q.Prime] {I Ep G : Type} [LinearOrder I] [AddCommGroup G] [Module (ZMod q) G] [DecidableEq G]

/-- The associated data of a signing session with the given inputs -/
def signingData (epidOf : BMap I G → BMap I PublicAux → Ep) (message : ZMod q) (keyShare : KeyShare I (ZMod q) G) (auxInfo : AuxInfo I PaillierKey PublicAux) :
    AssocData q I Ep G := ⟨epidOf keyShare.pub auxInfo.pub, keyShare.pub, auxInfo.pub, message⟩

section Accuse
variable {E : Env q I Ep G} {epidOf : BMap I G → BMap I PublicAux → Ep} {message : ZMod q} {keyShare : KeyShare I (ZMod q) G}
  {auxInfo : AuxInfo I PaillierKey PublicAux} {me : I} {d : Draws q I} {r : Round1 q I Ep G}

private theorem new_keys (hnew : Signing.new keyShare auxInfo = .ok ()) : keyShare.pub.keySet = auxInfo.pub.keySet := by
  unfold Signing.new at hnew
  split at hnew
  · cases hnew
  · split at hnew
    · cases hnew
    · rename_i h; simpa using h

/-- The evidence against `j` for a proof that `me` checked in round 2 -/
private theorem affG_evidence (hnew : Signing.new keyShare auxInfo = .ok ()) (hst : start E epidOf message keyShare auxInfo me d = .ok r)
    (hself : ∀ a, auxInfo.pub.get? me = some a → a.pk = auxInfo.secret.modulus) {in1 : List (I × Msg1 q G)} {r2 : Round2 q I Ep G} (h2 : toRound2 E r in1 = .ok r2)
    {j : I} {echos1 : BMap I (Echo1 G)} (he : EchosAgainst auxInfo.pub.keySet me j r.echo (in1.map fun a => (a.1, a.2.echo)) echos1)
    {id : I} (hid : id ≠ j) {theirs target : PubAux} (ht : r.ctx.pubAux.get? j = some theirs) (htar : r.ctx.pubAux.get? id = some target)
    {p : Payload1 G} (hp : r2.payloads1.get? id = some p) {psis : BMap I (AffGProof q G)} {capDs capFs : BMap I Nat} {psi : AffGProof q G} {w f : Nat} {x : G} {ok : Bool}
    (hpsi : psis.get? id = some psi) (hd : capDs.get? id = some w) (hf : capFs.get? id = some f)
    (hv : (affGVerify E target.pk theirs.pk psi p.capK (.ofWire target.pk w) (.ofWire theirs.pk f) x target.rp (r.ctx.epid, j) : Out (RecvErr (Err I)) _) = .ok ok) :
    evidenceAffG E (signingData epidOf message keyShare auxInfo) j id echos1 (.ok x) psis capDs capFs = .ok (!ok) := by
  obtain ⟨-, -, -, hme, -, -, hothers, -, hep, hkey⟩ := start_eq_ok hst
  obtain ⟨hks, hpre⟩ := start_pubAux hst
  obtain ⟨-, nd, ex, hown, hoth⟩ := toRound2_payloads h2
  obtain ⟨aj, haj, hbj⟩ := hpre _ _ ht
  obtain ⟨ai, hai, hbi⟩ := hpre _ _ htar
  obtain ⟨-, he1, he2⟩ := he
  have hkeys := new_keys hnew
  obtain ⟨e, hecho, hcapK⟩ : ∃ e : Echo1 G, echos1.get? id = some e ∧ p.capK = .ofWire target.pk e.capK := by
    by_cases hidme : id = me
    · subst hidme
      rw [hme] at hown
      rw [hown] at hp
      cases hp
      refine ⟨_, he1, ?_⟩
      have : target.pk = r.ctx.key.modulus := by rw [(precompute_ok hbi).1, hself _ hai, hkey]
      rw [this]; rfl
    · have hmem : id ∈ r.ctx.otherIds := by
        rw [hothers, Finset.mem_erase, hkeys, BMap.mem_keySet, BMap.mem_keys_iff]
        exact ⟨hidme, _, hai⟩
      obtain ⟨m, b, hm, hb, hg⟩ := hoth id hmem (by rw [hme]; exact hidme)
      rw [htar] at hb
      cases hb
      rw [hp] at hg
      cases hg
      exact ⟨m.echo, he2 (id, m.echo) (List.mem_map.2 ⟨_, hm, rfl⟩) hid, rfl⟩
  rw [hcapK, hep] at hv
  exact evidenceAffG_eq hecho hai haj hbi hbj hd hf hpsi (Out.eq_ok_of_cast (affGVerify_cast ..) hv)

/-- **C45 (signing, round 2; part).** Whatever the other parties send: if a message of round 2 is rejected with an error other than the one about the second
multiplication, then the evidence for it is accepted by everyone who has the same inputs; and a message that was accepted cannot be used as such evidence.
Missing: `R2AffGHatPsiFailed`, for which it is false (`C46_signing_hat_framing`). -/
theorem C45_signing_round2_partial (hnew : Signing.new keyShare auxInfo = .ok ()) (hst : start E epidOf message keyShare auxInfo me d = .ok r)
    (hself : ∀ a, auxInfo.pub.get? me = some a → a.pk = auxInfo.secret.modulus) (in1 : List (I × Msg1 q G)) (r2 : Round2 q I Ep G) (h2 : toRound2 E r in1 = .ok r2)
    (j : I) (m1 : Msg1 q G) (hj : (j, m1) ∈ in1) (m2 : Msg2 q I G) (echos1 : BMap I (Echo1 G))
    (he : EchosAgainst auxInfo.pub.keySet me j r.echo (in1.map fun a => (a.1, a.2.echo)) echos1) :
    (∀ e, recv2 E r2 j m2 = .err (.protocol e) → (∀ k, e ≠ .r2AffGHatPsiFailed k) →
      evidence2 E (signingData epidOf message keyShare auxInfo) j m1.echo m2 echos1 e = .ok true) ∧
    ((∃ p, recv2 E r2 j m2 = .ok p) → ∀ e, (∀ k, e ≠ .r2AffGHatPsiFailed k) →
      evidence2 E (signingData epidOf message keyShare auxInfo) j m1.echo m2 echos1 e ≠ .ok true) := by
  obtain ⟨-, -, -, hme, hkshare, hall, hothers, -, hep, hkey⟩ := start_eq_ok hst
  obtain ⟨hctx, nd, ex, hown, hoth⟩ := toRound2_payloads h2
  have hkeys := new_keys hnew
  have hjo : j ∈ r.ctx.otherIds := by rw [← ex, List.mem_toFinset]; exact List.mem_map.2 ⟨_, hj, rfl⟩
  have hjme : j ≠ r.ctx.myId := by rw [hme]; rw [hothers] at hjo; exact Finset.ne_of_mem_erase hjo
  obtain ⟨m1', theirs, hm1', ht, hp1⟩ := hoth j hjo hjme
  have hm1 : m1' = m1 := by
    have := List.inj_on_of_nodup_map nd hm1' hj rfl
    cases this; rfl
  subst hm1
  have hexp : (signingData epidOf message keyShare auxInfo).others j = r.ctx.allIds.erase j := by
    unfold AssocData.others signingData
    rw [hall, hkeys]
  have helog : (m1'.echo.payload theirs.pk).elogPub E.C.g m2.echo.capGamma = ⟨m1'.echo.capB1, m1'.echo.capB2, m1'.echo.capY, m2.echo.capGamma, E.C.g⟩ := rfl
  refine ⟨fun e hr hne => ?_, fun ⟨p, hr⟩ e hne => ?_⟩
  · unfold recv2 at hr
    simp only [hctx] at hr
    rw [show (recvGet r.ctx.pubAux j : Out (RecvErr (Err I)) _) = .ok theirs by simp [recvGet, ht, Out.ofOption_some], Out.bind_ok] at hr
    split at hr
    · rename_i h; cases hr
      simp only [evidence2, hexp]; simpa using h
    split at hr
    · rename_i h; cases hr
      simp only [evidence2, hexp]; simpa using h
    split at hr
    · rename_i h; cases hr
      simp only [evidence2, hexp]; simpa using h
    rename_i hD hF hPsi
    rw [show (recvGet r2.payloads1 j : Out (RecvErr (Err I)) _) = .ok _ by rw [recvGet, hp1, Out.ofOption_some], Out.bind_ok] at hr
    rcases Out.bind_eq_err.1 hr with hr | ⟨dfs, hdfs, hr⟩
    · obtain ⟨id, psi, target, p, w, f, x, rfl, hpsi, htar, hp, hd, hf, hx, hv⟩ := mtaVerify_fails (fun e => by simp) hr
      cases hx
      have hid : id ≠ j := by
        have : id ∈ m2.psis.keySet := by rw [BMap.mem_keySet, BMap.mem_keys_iff]; exact ⟨_, hpsi⟩
        rw [not_not.1 hPsi] at this
        exact Finset.ne_of_mem_erase this
      exact affG_evidence hnew hst hself h2 he hid ht htar hp hpsi hd hf hv
    rcases Out.bind_eq_err.1 hr with hr | ⟨hatDfs, _, hr⟩
    · obtain ⟨id, _, _, _, _, _, _, rfl, _⟩ := mtaVerify_fails (fun e => recvGet_ne_protocol) hr
      exact absurd rfl (hne id)
    split at hr
    · rename_i h; cases hr
      rw [helog, hep] at h
      simp only [evidence2, signingData]
      simpa using h
    · exfalso
      rcases Out.bind_eq_err.1 hr with hr | ⟨_, _, hr⟩
      · exact recvGet_ne_protocol hr
      rcases Out.bind_eq_err.1 hr with hr | ⟨_, _, hr⟩
      · exact decryptCipher_ne_err hr
      rcases Out.bind_eq_err.1 hr with hr | ⟨_, _, hr⟩
      · exact recvGet_ne_protocol hr
      rcases Out.bind_eq_err.1 hr with hr | ⟨_, _, hr⟩
      · exact decryptCipher_ne_err hr
      cases hr
  · unfold recv2 at hr
    simp only [hctx] at hr
    rw [show (recvGet r.ctx.pubAux j : Out (RecvErr (Err I)) _) = .ok theirs by simp [recvGet, ht, Out.ofOption_some], Out.bind_ok] at hr
    split at hr
    · cases hr
    split at hr
    · cases hr
    split at hr
    · cases hr
    rename_i hD hF hPsi
    rw [show (recvGet r2.payloads1 j : Out (RecvErr (Err I)) _) = .ok _ by rw [recvGet, hp1, Out.ofOption_some], Out.bind_ok] at hr
    obtain ⟨dfs, hdfs, hr⟩ := Out.bind_eq_ok.1 hr
    obtain ⟨hatDfs, _, hr⟩ := Out.bind_eq_ok.1 hr
    split at hr
    · cases hr
    rename_i hEl
    cases e with
    | r2WrongIdsD => simp only [evidence2, hexp]; simpa using hD
    | r2WrongIdsF => simp only [evidence2, hexp]; simpa using hF
    | r2WrongIdsPsi => simp only [evidence2, hexp]; simpa using hPsi
    | r2ElogFailed =>
      rw [helog, hep] at hEl
      simp only [evidence2, signingData]
      simpa using hEl
    | r2AffGHatPsiFailed k => exact absurd rfl (hne k)
    | r2AffGPsiFailed id =>
      simp only [evidence2]
      cases hpsi : m2.psis.get? id with
      | none =>
        intro hc
        unfold evidenceAffG at hc
        simp only [Out.bind_eq_ok, Out.ofOption_eq_ok, hpsi] at hc
        obtain ⟨_, _, _, _, _, _, _, _, _, _, _, _, _, _, _, _, _, _, _, h, _⟩ := hc
        cases h
      | some psi =>
        obtain ⟨target, p, w, f, x, htar, hp, hd, hf, hx, hv⟩ := mtaVerify_all hdfs hpsi
        cases hx
        have hid : id ≠ j := by
          have : id ∈ m2.psis.keySet := by rw [BMap.mem_keySet, BMap.mem_keys_iff]; exact ⟨_, hpsi⟩
          rw [not_not.1 hPsi] at this
          exact Finset.ne_of_mem_erase this
        rw [affG_evidence hnew hst hself h2 he hid ht htar hp hpsi hd hf hv]
        simp
    | _ => simp [evidence2]

/-- **C45 (signing, round 4).** If a signature share is rejected, then the evidence for it is accepted by everyone who has the same inputs; if it was accepted,
then the evidence is rejected. -/
theorem C45_signing_round4 (hnew : Signing.new keyShare auxInfo = .ok ()) (hst : start E epidOf message keyShare auxInfo me d = .ok r)
    (in1 : List (I × Msg1 q G)) (in2 : List (I × Msg2 q I G)) (in3 : List (I × Msg3 q G)) (r2 : Round2 q I Ep G) (r3 : Round3 q I Ep G) (r4 : Round4 q I Ep G)
    (h2 : toRound2 E r in1 = .ok r2) (h3 : toRound3 E r in1 in2 = .ok r3) (h4 : toRound4 E r in1 in2 in3 = .ok (.round4 r4))
    (j : I) (m2 : Msg2 q I G) (hj2 : (j, m2) ∈ in2) (m3 : Msg3 q G) (hj3 : (j, m3) ∈ in3) (sigma : ZMod q)
    (echos2 : BMap I (Echo2 I G)) (he2 : EchosAgainst auxInfo.pub.keySet me j (msg2 r2).echo (in2.map fun a => (a.1, a.2.echo)) echos2)
    (echos3 : BMap I (ZMod q)) (he3 : EchosAgainst auxInfo.pub.keySet me j r3.msg.delta (in3.map fun a => (a.1, a.2.delta)) echos3) :
    (∀ e, recv4 E r4 j sigma = .err (.protocol e) →
      evidence4 E (signingData epidOf message keyShare auxInfo) m2.echo m3 sigma echos2 echos3 e = .ok true) ∧
    ((∃ s, recv4 E r4 j sigma = .ok s) → ∀ e,
      evidence4 E (signingData epidOf message keyShare auxInfo) m2.echo m3 sigma echos2 echos3 e ≠ .ok true) := by
  obtain ⟨-, -, hmsg, hme, -, -, hothers, -, -, -⟩ := start_eq_ok hst
  have hkeys := new_keys hnew
  have hmem : r.ctx.myId ∉ r.ctx.otherIds := by rw [hme, hothers]; simp
  obtain ⟨nd2, ex2, hG⟩ := toRound3_capGamma hmem h2 h3
  obtain ⟨r3', pl, h3', hctx, hown, hc, hf⟩ := toRound4_ok h4
  rw [h3] at h3'
  cases h3'
  obtain ⟨nd3, ex3, ks3, -⟩ := collect_eq_ok.1 hc
  obtain ⟨delta, hdelta, hd0, -, -, hctx4, hG4, -, hDs, hSs⟩ := finalize3_round4 hown (by rw [ks3, hctx]; exact hmem) hf
  have recv3_payload : ∀ (a : I × Msg3 q G) p, recv3 E r3 a.1 a.2 = .ok p → p = a.2.payload := by
    intro a p h
    unfold recv3 at h
    obtain ⟨_, _, h⟩ := Out.bind_eq_ok.1 h
    split at h
    · cases h
    · cases h; rfl
  have hGsum := echos_sum he2 (by simpa [Function.comp_def] using nd2)
    (by rw [← hkeys, ← hothers, ← ex2]; simp [Function.comp_def]) (List.mem_map.2 ⟨_, hj2, rfl⟩) (fun e => e.capGamma)
  have hdsum := echos_sum he3 (by simpa [Function.comp_def] using nd3)
    (by rw [← hkeys, ← hothers, ← ex3]; simp [Function.comp_def]) (List.mem_map.2 ⟨_, hj3, rfl⟩) (fun e => e)
  have hjo : j ∈ r.ctx.otherIds := by rw [← ex3, List.mem_toFinset]; exact List.mem_map.2 ⟨_, hj3, rfl⟩
  have hjme : j ≠ r.ctx.myId := fun h => hmem (h ▸ hjo)
  have hev : evidence4 E (signingData epidOf message keyShare auxInfo) m2.echo m3 sigma echos2 echos3 .r4InvalidSignatureShare =
      .ok (decide (sigma • r4.capGammaCombined ≠ message • delta⁻¹ • m3.capDelta + E.C.xCoordinate q r4.capGammaCombined • delta⁻¹ • m3.capS)) := by
    have e1 : m2.echo.capGamma + (echos2.values.map fun e => e.capGamma).sum = r4.capGammaCombined := by
      rw [hG4, hG]
      simpa [Function.comp_def, msg2] using hGsum
    have e2 : m3.delta + echos3.values.sum = delta := by
      rw [hdelta, collect_sum (f := fun p : Payload3 q G => p.delta) (φ := fun m : Msg3 q G => m.delta) hc
        fun a _ p hr => by rw [recv3_payload a p hr]; rfl]
      simpa [Function.comp_def] using hdsum
    unfold evidence4
    simp only [e1, e2, if_neg hd0, signingData]
  obtain ⟨m3', p, hm3', hp, hg⟩ := collect_mem hc hjo
  have hm3 : m3' = m3 := by
    have := List.inj_on_of_nodup_map nd3 hm3' hj3 rfl
    cases this; rfl
  subst hm3
  have hpp := recv3_payload (j, m3') p hp
  subst hpp
  have hrecv : recv4 E r4 j sigma = if sigma • r4.capGammaCombined ≠ message • delta⁻¹ • m3'.capDelta +
      E.C.xCoordinate q r4.capGammaCombined • delta⁻¹ • m3'.capS then .err (.protocol .r4InvalidSignatureShare) else .ok sigma := by
    unfold recv4 recvGet
    have hjme' : j ≠ r3.ctx.myId := by rw [hctx]; exact hjme
    simp only [hDs, hSs, BMap.get?_mapVals, BMap.get?_insert, hg, if_neg hjme', if_neg hjme, Option.map_some, Out.ofOption_some, Out.bind_ok, hctx4, hctx, hmsg]
    rfl
  refine ⟨fun e h => ?_, fun ⟨s, h⟩ e => ?_⟩
  · rw [hrecv] at h
    split at h
    · rename_i hne
      cases h
      rw [hev]; simpa using hne
    · cases h
  · rw [hrecv] at h
    split at h
    · cases h
    · rename_i heq
      cases e with
      | r4InvalidSignatureShare => rw [hev]; simpa using heq
      | _ => simp [evidence4]

/-- **C46 (signing; part).** A party that follows the protocol cannot be blamed, whatever the others do, for wrong ids or a wrong elog proof in round 2 or a wrong
signature share in round 4 (given the echoes of what it received itself). Missing: the errors for which it is false, see the theorems below. -/
theorem C46_signing_no_framing_partial (hnew : Signing.new keyShare auxInfo = .ok ()) (hst : start E epidOf message keyShare auxInfo me d = .ok r)
    (in1 : List (I × Msg1 q G)) (r2 : Round2 q I Ep G) (h2 : toRound2 E r in1 = .ok r2) :
    (∀ echos1, evidence2 E (signingData epidOf message keyShare auxInfo) me r.echo (msg2 r2) echos1 .r2WrongIdsD = .ok false ∧
      evidence2 E (signingData epidOf message keyShare auxInfo) me r.echo (msg2 r2) echos1 .r2WrongIdsF = .ok false ∧
      evidence2 E (signingData epidOf message keyShare auxInfo) me r.echo (msg2 r2) echos1 .r2WrongIdsPsi = .ok false ∧
      evidence2 E (signingData epidOf message keyShare auxInfo) me r.echo (msg2 r2) echos1 .r2ElogFailed = .ok false) ∧
    ∀ (in2 : List (I × Msg2 q I G)) (in3 : List (I × Msg3 q G)) (r3 : Round3 q I Ep G) (r4 : Round4 q I Ep G) (echos2 : BMap I (Echo2 I G)) (echos3 : BMap I (ZMod q)),
      toRound3 E r in1 in2 = .ok r3 → toRound4 E r in1 in2 in3 = .ok (.round4 r4) → echos2.entries.Perm (in2.map fun a => (a.1, a.2.echo)) →
      echos3.entries.Perm (in3.map fun a => (a.1, a.2.delta)) →
      ∀ e, evidence4 E (signingData epidOf message keyShare auxInfo) (msg2 r2).echo r3.msg r4.sigma echos2 echos3 e ≠ .ok true := by
  obtain ⟨-, -, hmsg, hme, -, -, hothers, -, hep, -⟩ := start_eq_ok hst
  have hkeys := new_keys hnew
  obtain ⟨ho, hG2, hpsi⟩ := toRound2_own h2
  have hexp : (signingData epidOf message keyShare auxInfo).others me = r.ctx.otherIds := by
    unfold AssocData.others signingData
    rw [hothers, hkeys]
  refine ⟨fun echos1 => ⟨?_, ?_, ?_, ?_⟩, ?_⟩
  · simp [evidence2, hexp, msg2, BMap.keySet_mapVals, ho]
  · simp [evidence2, hexp, msg2, BMap.keySet_mapVals, ho]
  · simp [evidence2, hexp, msg2, BMap.keySet_mapVals, ho]
  · have hv : r2.psiElog.verify E.elogH E.C.g ((r.echo.payload r.ctx.key.modulus).elogPub E.C.g r2.capGamma) (r.ctx.epid, r.ctx.myId) = true := by
      rw [hpsi]
      apply C26_complete
      rw [hG2]
      unfold start at hst
      split at hst
      · cases hst
      simp only [Out.bind_eq_ok] at hst
      obtain ⟨_, _, _, _, _, _, _, _, _, _, he⟩ := hst
      cases he
      refine ⟨rfl, ?_, rfl⟩
      show d.b • d.y • E.C.g + d.gamma • E.C.g = d.gamma • E.C.g + d.b • d.y • E.C.g
      abel
    rw [hep, hme] at hv
    exact congrArg (fun b => Out.ok (!b)) hv
  · intro in2 in3 r3 r4 echos2 echos3 h3 h4 hp2 hp3 e
    have hmem : r.ctx.myId ∉ r.ctx.otherIds := by rw [hme, hothers]; simp
    obtain ⟨nd2, ex2, hG⟩ := toRound3_capGamma hmem h2 h3
    obtain ⟨r3', pl, h3', hctx, hown, hc, hf⟩ := toRound4_ok h4
    rw [h3] at h3'
    cases h3'
    obtain ⟨nd3, ex3, ks3, -⟩ := collect_eq_ok.1 hc
    obtain ⟨delta, hdelta, hd0, -, -, hctx4, hG4, hsig, -, -⟩ := finalize3_round4 hown (by rw [ks3, hctx]; exact hmem) hf
    have e1 : (msg2 r2).echo.capGamma + (echos2.values.map fun e => e.capGamma).sum = r3.capGammaCombined := by
      have := (hp2.map fun a : I × Echo2 I G => a.2.capGamma).sum_eq
      rw [hG, BMap.values, List.map_map]
      simp only [List.map_map] at this
      exact congrArg (r2.capGamma + ·) this
    have e2 : r3.msg.delta + echos3.values.sum = delta := by
      rw [hdelta, collect_sum (f := fun p : Payload3 q G => p.delta) (φ := fun m : Msg3 q G => m.delta) hc fun a _ p hr => by
        unfold recv3 at hr
        obtain ⟨_, _, hr⟩ := Out.bind_eq_ok.1 hr
        split at hr
        · cases hr
        · cases hr; rfl]
      have := (hp3.map fun a : I × ZMod q => a.2).sum_eq
      rw [BMap.values]
      simp only [List.map_map] at this
      exact congrArg (r3.msg.delta + ·) this
    cases e with
    | r4InvalidSignatureShare =>
      unfold evidence4
      simp only [e1, e2, if_neg hd0, signingData]
      rw [hsig, hown.capDelta, hown.capS, hctx, hmsg]
      have : (r.ctx.d.k * delta⁻¹ * message + r3.chi * delta⁻¹ * E.C.xCoordinate q r3.capGammaCombined) • r3.capGammaCombined =
          message • delta⁻¹ • r.ctx.d.k • r3.capGammaCombined + E.C.xCoordinate q r3.capGammaCombined • delta⁻¹ • r3.chi • r3.capGammaCombined := by
        rw [smul_smul, smul_smul, smul_smul, smul_smul, ← add_smul]
        congr 1
        ring
      simp [this]
    | _ => simp [evidence4]

/-- **C46 fails for `R2AffGHatPsiFailed`.** The evidence check takes the public key share of the party the proof was made for instead of the one of its maker
(src/protocols/interactive_signing.rs:497). So every message of round 2 that a party accepted is also accepted as evidence against its sender, for every other
party with another public share (unless the challenge of that proof is zero). -/
theorem C46_signing_hat_framing (hnew : Signing.new keyShare auxInfo = .ok ()) (hst : start E epidOf message keyShare auxInfo me d = .ok r)
    (hself : ∀ a, auxInfo.pub.get? me = some a → a.pk = auxInfo.secret.modulus) (in1 : List (I × Msg1 q G)) (r2 : Round2 q I Ep G) (h2 : toRound2 E r in1 = .ok r2)
    (j : I) (m1 : Msg1 q G) (hj : (j, m1) ∈ in1) (m2 : Msg2 q I G) (echos1 : BMap I (Echo1 G))
    (he : EchosAgainst auxInfo.pub.keySet me j r.echo (in1.map fun a => (a.1, a.2.echo)) echos1) (p : Payload2 q I G) (hr : recv2 E r2 j m2 = .ok p)
    (id : I) (hid : id ≠ j) (psi : AffGProof q G) (hpsi : m2.hatPsis.get? id = some psi) (hchal : psi.e ≠ 0)
    (hshare : keyShare.pub.get? id ≠ keyShare.pub.get? j) :
    evidence2 E (signingData epidOf message keyShare auxInfo) j m1.echo m2 echos1 (.r2AffGHatPsiFailed id) = .ok true := by
  obtain ⟨-, -, -, hme, hkshare, hall, hothers, -, hep, hkey⟩ := start_eq_ok hst
  obtain ⟨hctx, nd, ex, hown, hoth⟩ := toRound2_payloads h2
  have hkeys := new_keys hnew
  have hjo : j ∈ r.ctx.otherIds := by rw [← ex, List.mem_toFinset]; exact List.mem_map.2 ⟨_, hj, rfl⟩
  have hjme : j ≠ r.ctx.myId := by rw [hme]; rw [hothers] at hjo; exact Finset.ne_of_mem_erase hjo
  obtain ⟨-, theirs, -, ht, -⟩ := hoth j hjo hjme
  unfold recv2 at hr
  simp only [hctx] at hr
  rw [show (recvGet r.ctx.pubAux j : Out (RecvErr (Err I)) _) = .ok theirs by simp [recvGet, ht, Out.ofOption_some], Out.bind_ok] at hr
  split at hr
  · cases hr
  split at hr
  · cases hr
  split at hr
  · cases hr
  obtain ⟨_, _, hr⟩ := Out.bind_eq_ok.1 hr
  obtain ⟨dfs, _, hr⟩ := Out.bind_eq_ok.1 hr
  obtain ⟨hatDfs, hdfs, hr⟩ := Out.bind_eq_ok.1 hr
  obtain ⟨target, p, w, f, x, htar, hp, hd, hf, hx, hv⟩ := mtaVerify_all hdfs hpsi
  have hidAll : id ∈ keyShare.pub.keySet := by
    rw [hkeys, ← (start_pubAux hst).1, BMap.mem_keySet, BMap.mem_keys_iff]; exact ⟨_, htar⟩
  obtain ⟨x', hx'⟩ := BMap.mem_keys_iff.1 (BMap.mem_keySet.1 hidAll)
  simp only [recvGet, Out.ofOption_eq_ok, hkshare] at hx
  have hne : x' ≠ x := by
    rintro rfl
    exact hshare (by rw [hx', hx])
  have := affG_evidence hnew hst hself h2 he hid ht htar hp hpsi hd hf (affGVerify_rejects hv hchal hne)
  simp only [evidence2]
  rw [show (Out.ofOption () ((signingData epidOf message keyShare auxInfo).shares.get? id)) = .ok x' by unfold signingData; rw [hx']; rfl]
  exact this

/-- **C46 fails for `R3ElogFailed`.** The evidence check takes the accused party's own share of `Γ` instead of `Γ` (src/protocols/interactive_signing.rs:576). So the
message of round 3 of a party that follows the protocol is accepted as evidence against it, whatever the others do, unless it has the only non-zero share of
`Γ` or the response in its proof is zero. -/
theorem C46_signing_elog_framing (hst : start E epidOf message keyShare auxInfo me d = .ok r)
    (in1 : List (I × Msg1 q G)) (in2 : List (I × Msg2 q I G)) (r2 : Round2 q I Ep G) (r3 : Round3 q I Ep G) (h2 : toRound2 E r in1 = .ok r2)
    (h3 : toRound3 E r in1 in2 = .ok r3) (hG : r2.capGamma ≠ r3.capGammaCombined) (hu : r3.msg.psiPrime.u ≠ 0) :
    evidence3 E (signingData epidOf message keyShare auxInfo) me r.echo (msg2 r2).echo r3.msg .r3ElogFailed = .ok true := by
  obtain ⟨-, -, -, hme, -, -, -, -, hep, -⟩ := start_eq_ok hst
  obtain ⟨-, hpsi⟩ := toRound3_own h3
  obtain ⟨hctx, hown⟩ := toRound3_ok h3
  have hv : r3.msg.psiPrime.verify E.elogH E.C.g ((r.echo.payload r.ctx.key.modulus).elogPub' (r.ctx.d.k • r3.capGammaCombined) r3.capGammaCombined)
      (r.ctx.epid, r.ctx.myId) = true := by
    rw [hpsi]
    apply C26_complete
    unfold start at hst
    split at hst
    · cases hst
    simp only [Out.bind_eq_ok] at hst
    obtain ⟨_, _, _, _, _, _, _, _, _, _, he⟩ := hst
    cases he
    refine ⟨rfl, ?_, rfl⟩
    show d.a • d.y • E.C.g + d.k • E.C.g = d.k • E.C.g + d.a • d.y • E.C.g
    abel
  rw [hep, hme] at hv
  have := elog_rejects hv hu hG
  unfold evidence3 signingData
  simp only [msg2]
  rw [hown.capDelta, hctx]
  exact congrArg (fun b => Out.ok (!b)) this

/-- **C45 fails for `R3ElogFailed`.** A party can make a message of round 3 that is valid for its own share of `Γ` instead of `Γ`: the others reject it, but their
evidence is not accepted. Here `k` and `a` are the values behind its first message. -/
theorem C45_signing_elog_undetected (hnew : Signing.new keyShare auxInfo = .ok ()) (hst : start E epidOf message keyShare auxInfo me d = .ok r)
    (in1 : List (I × Msg1 q G)) (in2 : List (I × Msg2 q I G)) (r2 : Round2 q I Ep G) (r3 : Round3 q I Ep G) (h2 : toRound2 E r in1 = .ok r2)
    (h3 : toRound3 E r in1 in2 = .ok r3) (j : I) (m1 : Msg1 q G) (hj : (j, m1) ∈ in1) (m2 : Msg2 q I G)
    (k a : ZMod q) (hA1 : m1.echo.capA1 = a • E.C.g) (hA2 : m1.echo.capA2 = k • E.C.g + a • m1.echo.capY)
    (hG : m2.echo.capGamma ≠ r3.capGammaCombined) (alpha m : ZMod q) (m3 : Msg3 q G) (hDelta : m3.capDelta = k • m2.echo.capGamma)
    (hpsi : m3.psiPrime = ElogProof.prove E.elogH E.C.g k a (⟨m1.echo.capA1, m1.echo.capA2, m1.echo.capY, m3.capDelta, m2.echo.capGamma⟩ : ElogPublic G)
      (r.ctx.epid, j) alpha m) (hu : m3.psiPrime.u ≠ 0) :
    recv3 E r3 j m3 = .err (.protocol .r3ElogFailed) ∧ ∀ e, evidence3 E (signingData epidOf message keyShare auxInfo) j m1.echo m2.echo m3 e ≠ .ok true := by
  obtain ⟨-, -, -, hme, -, -, hothers, -, hep, -⟩ := start_eq_ok hst
  obtain ⟨hctx2, nd, ex, -, hoth⟩ := toRound2_payloads h2
  obtain ⟨hctx, -⟩ := toRound3_ok h3
  have hjo : j ∈ r.ctx.otherIds := by rw [← ex, List.mem_toFinset]; exact List.mem_map.2 ⟨_, hj, rfl⟩
  have hjme : j ≠ r.ctx.myId := by rw [hme]; rw [hothers] at hjo; exact Finset.ne_of_mem_erase hjo
  obtain ⟨m1', theirs, hm1', -, hp1⟩ := hoth j hjo hjme
  have hm1 : m1' = m1 := by
    have := List.inj_on_of_nodup_map nd hm1' hj rfl
    cases this; rfl
  subst hm1
  have hv : m3.psiPrime.verify E.elogH E.C.g (⟨m1'.echo.capA1, m1'.echo.capA2, m1'.echo.capY, m3.capDelta, m2.echo.capGamma⟩ : ElogPublic G) (r.ctx.epid, j) = true := by
    rw [hpsi]
    exact C26_complete _ _ _ _ _ _ _ _ ⟨hA1, hA2, hDelta⟩
  constructor
  · unfold recv3
    rw [(toRound3_payloads1 h2 h3).1]
    rw [show (recvGet r2.payloads1 j : Out (RecvErr (Err I)) _) = .ok _ by rw [recvGet, hp1, Out.ofOption_some], Out.bind_ok]
    have hv2 := elog_rejects hv hu (Ne.symm hG)
    rw [hctx]
    have hv3 : m3.psiPrime.verify E.elogH E.C.g ((m1'.echo.payload theirs.pk).elogPub' m3.capDelta r3.capGammaCombined) (r.ctx.epid, j) = false := hv2
    rw [hv3]
    rfl
  · intro e
    cases e with
    | r3ElogFailed =>
      rw [hep] at hv
      unfold evidence3 signingData
      rw [hv]
      simp
    | _ => simp [evidence3]

/-- **C46 fails for `R5DecFailed`.** The evidence check takes the point `Δ` of the accused party where round 5 takes its `δ` times the generator
(src/protocols/interactive_signing.rs:679-687). So every message of round 5 that a party accepted is also accepted as evidence against its sender, if some bit of the
challenge is set and the sender's `δ` times the generator is not its `Δ`, which is the normal case for a party that follows the protocol. -/
theorem C46_signing_dec_framing (hnew : Signing.new keyShare auxInfo = .ok ()) (hst : start E epidOf message keyShare auxInfo me d = .ok r)
    (in1 : List (I × Msg1 q G)) (in2 : List (I × Msg2 q I G)) (in3 : List (I × Msg3 q G)) (r2 : Round2 q I Ep G) (r3 : Round3 q I Ep G) (rErr : ErrRound q I Ep G)
    (h2 : toRound2 E r in1 = .ok r2) (h3 : toRound3 E r in1 in2 = .ok r3) (h4 : toRound4 E r in1 in2 in3 = .ok (.error rErr)) (hhat : rErr.hat = false)
    (hmem : me ∈ keyShare.pub.keySet)
    (j : I) (m1 : Msg1 q G) (hj1 : (j, m1) ∈ in1) (m2 : Msg2 q I G) (hj2 : (j, m2) ∈ in2) (m3 : Msg3 q G) (hj3 : (j, m3) ∈ in3)
    (echos1 : BMap I (Echo1 G)) (echos2 : BMap I (Echo2 I G)) (he2 : EchosAgainst auxInfo.pub.keySet me j (msg2 r2).echo (in2.map fun a => (a.1, a.2.echo)) echos2)
    (m : MsgErr I G) (hr : recvErr E rErr j m = .ok ()) (hbit : true ∈ m.psiStar.e) (hdelta : m3.delta • E.C.g ≠ m3.capDelta) (named : Bool) :
    evidenceErr E named (signingData epidOf message keyShare auxInfo) j m1.echo m2 m3 m echos1 echos2 (.decFailed false) = .ok true := by
  obtain ⟨-, -, -, hme, -, hall, hothers, -, hep, -⟩ := start_eq_ok hst
  have hkeys := new_keys hnew
  obtain ⟨hctx2, nd, ex, -, hoth⟩ := toRound2_payloads h2
  have hjo : j ∈ r.ctx.otherIds := by rw [← ex, List.mem_toFinset]; exact List.mem_map.2 ⟨_, hj1, rfl⟩
  have hjme : j ≠ r.ctx.myId := by rw [hme]; rw [hothers] at hjo; exact Finset.ne_of_mem_erase hjo
  obtain ⟨m1', theirs, hm1', ht, hp1⟩ := hoth j hjo hjme
  have hm1 : m1' = m1 := by
    have := List.inj_on_of_nodup_map nd hm1' hj1 rfl
    cases this; rfl
  subst hm1
  obtain ⟨hpl, hview⟩ := toRound3_payloads1 h2 h3
  obtain ⟨hctx, hKs, hXs, hS, hGen⟩ := toRound4_error_view (by rw [hme, hothers]; simp) h3 h4 hhat m3 hj3
  obtain ⟨hX, hDs, -⟩ := hview j m2 hj2 hjme
  -- the accepted proof
  unfold recvErr at hr
  simp only [hctx] at hr
  rw [show (recvGet r.ctx.pubAux j : Out (RecvErr (Err I)) _) = .ok theirs by simp [recvGet, ht, Out.ofOption_some], Out.bind_ok] at hr
  obtain ⟨capD, -, hr⟩ := Out.bind_eq_ok.1 hr
  rw [show (recvGet rErr.capKs j : Out (RecvErr (Err I)) _) = .ok (.ofWire theirs.pk m1'.echo.capK) by
    rw [recvGet, hKs, hpl, BMap.get?_mapVals, hp1]; rfl, Out.bind_ok,
    show (recvGet rErr.capXs j : Out (RecvErr (Err I)) _) = .ok m2.echo.capGamma by rw [recvGet, hXs, hX]; rfl, Out.bind_ok,
    show (recvGet rErr.capSs j : Out (RecvErr (Err I)) _) = .ok (m3.delta • E.C.g) by rw [recvGet, hS]; rfl, Out.bind_ok] at hr
  rw [show ((Cipher.ofWire theirs.pk m1'.echo.capK).under theirs.pk : Out (RecvErr (Err I)) _) = .ok (ctOfWire theirs.pk m1'.echo.capK) by
    exact dif_pos rfl, Out.bind_ok, hGen] at hr
  obtain ⟨dd, -, hr⟩ := Out.bind_eq_ok.1 hr
  obtain ⟨ok, hv, hr⟩ := Out.bind_eq_ok.1 hr
  have hok : ok = true := by
    by_contra hne
    rw [if_pos hne] at hr
    cases hr
  subst hok
  have hv' : (m.psiStar.verify E.P E.decH E.C.g q (⟨ctOfWire theirs.pk m1'.echo.capK, m2.echo.capGamma, dd, m3.delta • E.C.g, E.C.g, r.ctx.allIds.card⟩ : DecPublic theirs.pk G)
      theirs.rp.rp (r.ctx.epid, j) : Out Unit _) = .ok true := Out.eq_ok_of_cast (DecProof.verify_cast ..) hv
  -- the evidence
  obtain ⟨aj, haj, hbj⟩ := (start_pubAux hst).2 _ _ ht
  have hexp : (signingData epidOf message keyShare auxInfo).others j = r.ctx.allIds.erase j := by
    unfold AssocData.others signingData
    rw [hall, hkeys]
  obtain ⟨nd2, ex2, -⟩ := toRound3_capGamma (by rw [hme, hothers]; simp) h2 h3
  have hjAll : j ∈ r.ctx.allIds := by rw [hall]; rw [hothers] at hjo; exact Finset.mem_of_mem_erase hjo
  obtain ⟨c, hc, hcpk⟩ := evidenceAggregate_ok (pk := theirs.pk) (ids := r.ctx.allIds.erase j)
    (capDs := m2.capDs) (capFs := fun id => (Out.ofOption () (echos2.get? id)).bind fun e => Out.ofOption () (e.capFs.get? j))
    ⟨me, Finset.mem_erase.2 ⟨by rw [← hme]; exact Ne.symm hjme, by rw [hall]; exact hmem⟩⟩
    (fun i hi => by rw [← hDs] at hi; exact BMap.mem_keys_iff.1 (BMap.mem_keySet.1 hi))
    (fun i hi => by
      obtain ⟨hij, hi⟩ := Finset.mem_erase.1 hi
      by_cases him : i = me
      · subst him
        have : j ∈ (msg2 r2).echo.capFs.keySet := by
          simp only [msg2, BMap.keySet_mapVals, (toRound2_own h2).1]; exact hjo
        obtain ⟨w, hw⟩ := BMap.mem_keys_iff.1 (BMap.mem_keySet.1 this)
        exact ⟨w, by rw [he2.2.1, Out.ofOption_some, Out.bind_ok, hw]; rfl⟩
      · have : i ∈ r.ctx.otherIds := by rw [hothers, ← hall]; exact Finset.mem_erase.2 ⟨him, hi⟩
        rw [← ex2, List.mem_toFinset] at this
        obtain ⟨⟨i', mi⟩, hmi, rfl⟩ := List.mem_map.1 this
        obtain ⟨-, -, hF⟩ := hview i' mi hmi (by rw [hme]; exact him)
        have hjF : j ∈ mi.echo.capFs.keySet := by rw [hF]; exact Finset.mem_erase.2 ⟨Ne.symm hij, hjAll⟩
        obtain ⟨w, hw⟩ := BMap.mem_keys_iff.1 (BMap.mem_keySet.1 hjF)
        have := he2.2.2 (i', mi.echo) (List.mem_map.2 ⟨_, hmi, rfl⟩) hij
        exact ⟨w, by rw [this, Out.ofOption_some, Out.bind_ok, hw]; rfl⟩)
  have hcard : (signingData epidOf message keyShare auxInfo).aux.keySet.card = r.ctx.allIds.card := by
    rw [hall, hkeys]; rfl
  simp only [evidenceErr, evidenceDec, hexp, hcard]
  rw [show (signingData epidOf message keyShare auxInfo).auxOf j = .ok aj by unfold AssocData.auxOf signingData; simp only; rw [haj]; rfl, Out.bind_ok, hbj, Out.bind_ok, hc,
    Out.bind_ok, Out.bind_ok]
  obtain ⟨cpk, cval⟩ := c
  simp only at hcpk
  subst hcpk
  rw [show ((⟨theirs.pk, cval⟩ : Cipher).under theirs.pk : Out Unit _) = .ok cval by unfold Cipher.under; rw [dif_pos rfl], Out.bind_ok]
  rw [hep] at hv'
  have := dec_rejects hv' hbit (capD' := cval) (Ne.symm hdelta)
  refine (congrArg (fun x => Out.bind x _) this).trans ?_
  rfl

end Accuse

/-- **C45 fails for four errors of the error rounds.** There is no evidence that is accepted for them: the check looks for messages that are not supplied. -/
theorem C45_signing_no_evidence (E : Env q I Ep G) (named : Bool) (a : AssocData q I Ep G) (guilty : I) (e1 : Echo1 G) (m2 : Msg2 q I G) (m3 : Msg3 q G) (m : MsgErr I G)
    (echos1 : BMap I (Echo1 G)) (echos2 : BMap I (Echo2 I G)) (failedFor : I) :
    evidenceErr E named a guilty e1 m2 m3 m echos1 echos2 (.wrongIdsPsi false) = .err () ∧
    evidenceErr E named a guilty e1 m2 m3 m echos1 echos2 (.wrongIdsPsi true) = .err () ∧
    evidenceErr E named a guilty e1 m2 m3 m echos1 echos2 (.affGStarFailed true failedFor) = .err () ∧
    evidenceErr E true a guilty e1 m2 m3 m echos1 echos2 (.decFailed true) = .err () := ⟨rfl, rfl, rfl, rfl⟩

/-- **C45 fails for `R5AffGStarFailed`.** The check exchanges the two Paillier keys (src/protocols/interactive_signing.rs:735-757): it panics instead of accepting the
evidence, whenever the two parties have different moduli (and all that it looks up is there). Evidence against a party for another one with a different modulus is
never accepted. -/
theorem C45_signing_star_panics (E : Env q I Ep G) (named : Bool) (a : AssocData q I Ep G) (guilty : I) (e1 : Echo1 G) (m2 : Msg2 q I G) (m3 : Msg3 q G) (m : MsgErr I G)
    (echos1 : BMap I (Echo1 G)) (echos2 : BMap I (Echo2 I G)) (failedFor : I) (forAux fromAux : PublicAux) (hfor : a.aux.get? failedFor = some forAux)
    (hfrom : a.aux.get? guilty = some fromAux) (hne : forAux.pk ≠ fromAux.pk) :
    evidenceErr E named a guilty e1 m2 m3 m echos1 echos2 (.affGStarFailed false failedFor) ≠ .ok true ∧
    ∀ (w f : Nat) (r1 : Echo1 G) (r2 : Echo2 I G) (psi : AffGStarProof G), m2.capDs.get? failedFor = some w → echos1.get? failedFor = some r1 → echos2.get? failedFor = some r2 →
      r2.capFs.get? guilty = some f → m.psis.get? failedFor = some psi →
      evidenceErr E named a guilty e1 m2 m3 m echos1 echos2 (.affGStarFailed false failedFor) = .panic := by
  have hstar : ∀ (forPk fromPk : Nat), (publicModulusNew forAux.pk : Out Unit _) = .ok forPk → (publicModulusNew fromAux.pk : Out Unit _) = .ok fromPk → fromPk ≠ forPk := by
    intro forPk fromPk h1 h2
    unfold publicModulusNew at h1 h2
    split at h1
    · split at h2
      · cases h1; cases h2; exact Ne.symm hne
      · cases h2
    · cases h1
  have key : ∀ (forPk fromPk : Nat) (psi : AffGStarProof G) (w : Nat) (capD capY : Cipher) (capX : G) (aux : Ep × I), fromPk ≠ forPk →
      (starVerify E fromPk forPk psi (.ofWire forPk w) capD capY capX aux : Out Unit _) = .panic := by
    intro forPk fromPk psi w capD capY capX aux h
    unfold starVerify Cipher.under
    rw [dif_neg (by simpa [Cipher.ofWire] using Ne.symm h)]
    rfl
  constructor
  · simp only [evidenceErr, evidenceStar, AssocData.auxOf, hfor, hfrom, Out.ofOption_some, Out.bind_ok, ne_eq]
    intro h
    simp only [Out.bind_eq_ok] at h
    obtain ⟨forPk, h1, fromPk, h2, w, -, r1, -, r2, -, f, -, psi, -, ok, hv, -⟩ := h
    rw [key _ _ _ _ _ _ _ _ (hstar _ _ h1 h2)] at hv
    cases hv
  · intro w f r1 r2 psi hw hr1 hr2 hf hpsi
    simp only [evidenceErr, evidenceStar, AssocData.auxOf, hfor, hfrom, hw, hr1, hr2, hf, hpsi, Out.ofOption_some, Out.bind_ok]
    cases h1 : (publicModulusNew forAux.pk : Out Unit _) with
    | panic => rfl
    | err e => unfold publicModulusNew at h1; split at h1 <;> cases h1
    | ok forPk =>
      rw [Out.bind_ok]
      cases h2 : (publicModulusNew fromAux.pk : Out Unit _) with
      | panic => rfl
      | err e => unfold publicModulusNew at h2; split at h2 <;> cases h2
      | ok fromPk =>
        rw [Out.bind_ok, key _ _ _ _ _ _ _ _ (hstar _ _ h1 h2)]
        rfl

section Round1
variable (E : Env q I Ep G) (hE : SigningSetting E) (epidOf : BMap I G → BMap I PublicAux → Ep) (message sk : ZMod q) (ids : Finset I)
  (shares : I → KeyShare I (ZMod q) G) (hshares : SharesKey E.C.g ids shares sk) (infos : I → AuxInfo I PaillierKey PublicAux) (setup : I → RPSetup)
  (haux : UsableAux E.P ids infos setup) (d : I → Draws q I)
  (hd : SigningDrawsValid E.P ids (fun i => (infos i).secret.modulus) (fun i => (setup i).modulus) d)

include haux in
private theorem aux_of {i j : I} (hi : i ∈ ids) (hj : j ∈ ids) :
    (signingData epidOf message (shares j) (infos j)).auxOf i = .ok ⟨(infos i).secret.modulus, (setup i).rp.toWire⟩ ∧
      (precompute ⟨(infos i).secret.modulus, (setup i).rp.toWire⟩ : Out Unit _) = .ok ⟨(infos i).secret.modulus, setup i⟩ := by
  constructor
  · unfold AssocData.auxOf signingData
    rw [haux.consistent.public_agree j hj i hi]
    rfl
  · unfold precompute publicModulusNew
    have hodd : (infos i).secret.modulus % 2 = 1 := odd_of_primes (haux.primes i hi).primes
    simp only
    rw [if_pos hodd, Out.bind_ok]
    refine (congrArg (fun o : Out Unit (RPParams (setup i).modulus) => o.bind fun rp => Out.ok (⟨_, ⟨(setup i).modulus, rp⟩⟩ : PubAux))
      (toPrecomputed_toWire (haux.rpOdd i hi) (setup i).rp)).trans ?_
    rfl

include hE hshares haux hd in
/-- **C46 fails for the errors of round 1.** The evidence check takes the ring-Pedersen parameters of the accused party instead of those of the party that the proofs were
made for (src/protocols/interactive_signing.rs:369-370, 391-392). If the challenge depends on these parameters, then every message of round 1 between two parties
that follow the protocol is accepted by its receiver and is also accepted as evidence against its sender, for both errors. -/
theorem C46_signing_round1_framing (i j : I) (hi : i ∈ ids) (hj : j ∈ ids) (hij : i ≠ j)
    (hchal : ∀ t : EncElgHash G (Ep × I), E.encH { t with setup := (setup i).rp.toWire } ≠ E.encH { t with setup := (setup j).rp.toWire })
    (ri rj : Round1 q I Ep G) (hsti : start E epidOf message (shares i) (infos i) i (d i) = .ok ri) (hstj : start E epidOf message (shares j) (infos j) j (d j) = .ok rj) :
    ∃ m p, msg1 E ri j = .ok m ∧ recv1 E rj.ctx i m = .ok p ∧
      evidence1 E (signingData epidOf message (shares j) (infos j)) i m .r1EncElg0Failed = .ok true ∧
      evidence1 E (signingData epidOf message (shares j) (infos j)) i m .r1EncElg1Failed = .ok true := by
  have good := honest_good E hE epidOf message sk ids shares hshares infos setup haux d hd
  rw [honest_start E hE epidOf message sk ids shares hshares infos setup haux d hi] at hsti
  have hstj' := hstj
  rw [honest_start E hE epidOf message sk ids shares hshares infos setup haux d hj] at hstj'
  cases hsti
  cases hstj'
  obtain ⟨m, hm, hr⟩ := good.sent1 hi hj hij
  refine ⟨m, _, hm, hr, ?_⟩
  obtain ⟨-, -, -, -, -, -, -, -, hep, -⟩ := start_eq_ok hstj
  obtain ⟨ha, hpre⟩ := aux_of E epidOf message ids shares infos setup haux hi hj
  unfold recv1 at hr
  have hgi : (recvGet ((honest E epidOf message ids shares infos setup d).ctx j).pubAux i : Out (RecvErr (Err I)) _) = .ok ⟨(infos i).secret.modulus, setup i⟩ := by
    unfold recvGet Run.ctx Run.pubAux
    rw [BMap.get?_tabulate, if_pos (show i ∈ (honest E epidOf message ids shares infos setup d).ids from hi)]; rfl
  have hgj : (recvGet ((honest E epidOf message ids shares infos setup d).ctx j).pubAux ((honest E epidOf message ids shares infos setup d).ctx j).myId :
      Out (RecvErr (Err I)) _) = .ok ⟨(infos j).secret.modulus, setup j⟩ := by
    unfold recvGet Run.ctx Run.pubAux
    rw [BMap.get?_tabulate, if_pos (show j ∈ (honest E epidOf message ids shares infos setup d).ids from hj)]; rfl
  rw [hgi, hgj, Out.bind_ok, Out.bind_ok] at hr
  obtain ⟨ok0, h0, hr⟩ := Out.bind_eq_ok.1 hr
  have hok0 : ok0 = true := by
    by_contra hne
    rw [if_pos hne] at hr
    cases hr
  subst hok0
  rw [if_neg (by simp)] at hr
  obtain ⟨ok1, h1, hr⟩ := Out.bind_eq_ok.1 hr
  have hok1 : ok1 = true := by
    by_contra hne
    rw [if_pos hne] at hr
    cases hr
  subst hok1
  have hep' : ((honest E epidOf message ids shares infos setup d).ctx j).epid = epidOf (shares j).pub (infos j).pub := hep
  rw [hep'] at h0 h1
  constructor
  · unfold evidence1
    simp only
    rw [ha, Out.bind_ok, hpre, Out.bind_ok]
    refine (congrArg (fun x => Out.bind x _) (encElg_rejects h0 hchal Unit)).trans ?_
    rfl
  · unfold evidence1
    simp only
    rw [ha, Out.bind_ok, hpre, Out.bind_ok]
    refine (congrArg (fun x => Out.bind x _) (encElg_rejects h1 hchal Unit)).trans ?_
    rfl

include hE hshares haux hd in
/-- **C45 fails for the errors of round 1.** A party can make its proofs for its own ring-Pedersen parameters instead of those of the receiver. If the challenge depends
on these parameters, then the receiver rejects the message, but its evidence is not accepted. -/
theorem C45_signing_round1_undetected (i j : I) (hi : i ∈ ids) (hj : j ∈ ids) (hij : i ≠ j)
    (hchal : ∀ t : EncElgHash G (Ep × I), E.encH { t with setup := (setup j).rp.toWire } ≠ E.encH { t with setup := (setup i).rp.toWire })
    (hd0 : EncElgDrawsValid E.P (infos i).secret.modulus (setup i).modulus ((d i).enc0 i)) (hd1 : EncElgDrawsValid E.P (infos i).secret.modulus (setup i).modulus ((d i).enc1 i))
    (ri rj : Round1 q I Ep G) (hsti : start E epidOf message (shares i) (infos i) i (d i) = .ok ri) (hstj : start E epidOf message (shares j) (infos j) j (d j) = .ok rj) :
    ∃ m, recv1 E rj.ctx i m = .err (.protocol .r1EncElg0Failed) ∧
      ∀ e, evidence1 E (signingData epidOf message (shares j) (infos j)) i m e ≠ .ok true := by
  have good := honest_good E hE epidOf message sk ids shares hshares infos setup haux d hd
  obtain ⟨S, hS⟩ : ∃ S, S = honest E epidOf message ids shares infos setup d := ⟨_, rfl⟩
  obtain ⟨-, -, -, -, -, -, -, -, hep, -⟩ := start_eq_ok hstj
  rw [honest_start E hE epidOf message sk ids shares hshares infos setup haux d hi, ← hS] at hsti
  rw [honest_start E hE epidOf message sk ids shares hshares infos setup haux d hj, ← hS] at hstj
  rw [← hS] at good
  cases hsti
  cases hstj
  have hiS : i ∈ S.ids := by rw [hS]; exact hi
  have hjS : j ∈ S.ids := by rw [hS]; exact hj
  obtain ⟨psi0, -, hv0⟩ := good.enc_accepted hiS hiS (S.d i).k (S.d i).rho (good.draws.rho i hiS) (S.d i).a _ rfl (S.echo i).capY (S.echo i).capA1 (S.echo i).capA2
    rfl rfl ((d i).enc0 i) (by rw [hS]; exact hd0) (S.epid, i)
  obtain ⟨psi1, -, hv1⟩ := good.enc_accepted hiS hiS (S.d i).gamma (S.d i).nu (good.draws.nu i hiS) (S.d i).b _ rfl (S.echo i).capY (S.echo i).capB1 (S.echo i).capB2
    rfl rfl ((d i).enc1 i) (by rw [hS]; exact hd1) (S.epid, i)
  refine ⟨⟨S.echo i, psi0, psi1⟩, ?_, ?_⟩
  · unfold recv1
    have hgi : (recvGet (S.ctx j).pubAux i : Out (RecvErr (Err I)) _) = .ok ⟨S.N i, S.setup i⟩ := by
      unfold recvGet Run.ctx Run.pubAux
      rw [BMap.get?_tabulate, if_pos hiS]; rfl
    have hgj : (recvGet (S.ctx j).pubAux (S.ctx j).myId : Out (RecvErr (Err I)) _) = .ok ⟨S.N j, S.setup j⟩ := by
      unfold recvGet Run.ctx Run.pubAux
      rw [BMap.get?_tabulate, if_pos hjS]; rfl
    have hSE : S.E = E := by rw [hS]; rfl
    have hSs : S.setup = setup := by rw [hS]; rfl
    rw [show (S.r1 j).ctx = S.ctx j from rfl, hgj, Out.bind_ok, hgi, Out.bind_ok]
    have h := encElg_rejects (hv0 Unit) (by rw [hSE, hSs]; exact hchal) (setup' := (S.setup j).rp) (RecvErr (Err I))
    rw [hSE] at h
    refine (congrArg (fun x => Out.bind x _) h).trans ?_
    rfl
  · obtain ⟨ha, hpre⟩ := aux_of E epidOf message ids shares infos setup haux hi hj
    have hep' : epidOf (shares j).pub (infos j).pub = S.epid := hep.symm
    intro e
    subst hS
    cases e with
    | r1EncElg0Failed =>
      unfold evidence1
      simp only
      rw [ha, Out.bind_ok, hpre, Out.bind_ok]
      have : (signingData epidOf message (shares j) (infos j)).epid = (honest E epidOf message ids shares infos setup d).epid := hep'
      rw [this]
      intro hc
      have h2 := (congrArg (fun x => Out.bind x fun ok => Out.ok (!ok)) (hv0 Unit)).symm.trans hc
      cases h2
    | r1EncElg1Failed =>
      unfold evidence1
      simp only
      rw [ha, Out.bind_ok, hpre, Out.bind_ok]
      have : (signingData epidOf message (shares j) (infos j)).epid = (honest E epidOf message ids shares infos setup d).epid := hep'
      rw [this]
      intro hc
      have h2 := (congrArg (fun x => Out.bind x fun ok => Out.ok (!ok)) (hv1 Unit)).symm.trans hc
      cases h2
    | _ => simp [evidence1]

end Round1

/-! ### Concrete cases -/

section Examples
attribute [local instance] Toy.fact11 Toy.order11

open Toy (arrivals arrivals_fromOthers mem_arrivals echosOf)

/-- `C46_signing_elog_framing`: the message of round 3 of party 1, which follows the protocol as all others do, is evidence against it -/
example : ∃ (infos : Nat → AuxInfo Nat PaillierKey PublicAux) (r1 : Round1 11 Nat Nat (ZMod 11)) (in1 : List (Nat × Msg1 11 (ZMod 11)))
    (in2 : List (Nat × Msg2 11 Nat (ZMod 11))) (r2 : Round2 11 Nat Nat (ZMod 11)) (r3 : Round3 11 Nat Nat (ZMod 11)),
    start Toy.signEnv (fun _ _ => 7) (5 : ZMod 11) (Toy.signShares 1) (infos 1) 1 (Toy.signDraws 1) = .ok r1 ∧ toRound2 Toy.signEnv r1 in1 = .ok r2 ∧
    toRound3 Toy.signEnv r1 in1 in2 = .ok r3 ∧
    evidence3 Toy.signEnv (signingData (fun _ _ => 7) 5 (Toy.signShares 1) (infos 1)) 1 r1.echo (msg2 r2).echo r3.msg .r3ElogFailed = .ok true := by
  obtain ⟨infos, S, m1, o, -, -, -, good, hE, hids, hd, hsh, -, hst, -, h2, h3⟩ := Toy.signRun
  have h1 : 1 ∈ Toy.parties := by decide
  refine ⟨infos, _, _, _, _, _, hst 1 h1, h2 1 h1, h3 1 h1, C46_signing_elog_framing (hst 1 h1) _ _ _ _ (h2 1 h1) (h3 1 h1) ?_ ?_⟩
  · show (S.d 1).gamma • S.E.C.g ≠ (∑ i ∈ S.ids, (S.d i).gamma) • S.E.C.g
    rw [hd, hE, hids]; decide +kernel
  · show (S.d 1).elogM' + (S.d 1).k * S.E.elogH _ ≠ 0
    rw [hd, hE]
    show (9 : ZMod 11) + (1 : Nat) * ((1 : Nat) + 3 : ZMod 11) ≠ 0
    decide +kernel

private theorem toyEchos {infos : Nat → AuxInfo Nat PaillierKey PublicAux} (haux : UsableAux Toy.signEnv.P Toy.parties infos Toy.ringPedersen) {i j : Nat}
    {own : Echo1 (ZMod 11)} {f : Nat → Msg1 11 (ZMod 11)} (hi : i ∈ Toy.parties) (hij : i ≠ j) :
    EchosAgainst (infos i).pub.keySet i j own ((arrivals f i).map fun a => (a.1, a.2.echo))
      (BMap.tabulate (Toy.parties.erase j) fun k => if k = i then own else (f k).echo) := by
  rw [haux.consistent.holders i hi]
  refine ⟨BMap.keySet_tabulate _ _, by rw [BMap.get?_tabulate, if_pos (Finset.mem_erase.2 ⟨hij, hi⟩), if_pos rfl], ?_⟩
  intro a ha haj
  obtain ⟨b, hb, rfl⟩ := List.mem_map.1 ha
  obtain ⟨k, hk, rfl⟩ := List.mem_map.1 hb
  have hk := mem_bsetIter.1 hk
  rw [BMap.get?_tabulate, if_pos (Finset.mem_erase.2 ⟨haj, Finset.mem_of_mem_erase hk⟩), if_neg (Finset.ne_of_mem_erase hk)]

/-- `C45_signing_round2_partial`: party 2 rejects a message of party 1 without ciphertexts and has evidence for it; the right message is accepted, and is no evidence -/
example : ∃ (infos : Nat → AuxInfo Nat PaillierKey PublicAux) (r1 : Round1 11 Nat Nat (ZMod 11)) (in1 : List (Nat × Msg1 11 (ZMod 11)))
    (r2 : Round2 11 Nat Nat (ZMod 11)) (m1 : Msg1 11 (ZMod 11)) (m2 : Msg2 11 Nat (ZMod 11)) (echos1 : BMap Nat (Echo1 (ZMod 11))) (p : Payload2 11 Nat (ZMod 11)),
    start Toy.signEnv (fun _ _ => 7) (5 : ZMod 11) (Toy.signShares 2) (infos 2) 2 (Toy.signDraws 2) = .ok r1 ∧ toRound2 Toy.signEnv r1 in1 = .ok r2 ∧ (1, m1) ∈ in1 ∧
    recv2 Toy.signEnv r2 1 m2 = .ok p ∧
    evidence2 Toy.signEnv (signingData (fun _ _ => 7) 5 (Toy.signShares 2) (infos 2)) 1 m1.echo m2 echos1 .r2WrongIdsD ≠ .ok true ∧
    recv2 Toy.signEnv r2 1 { m2 with capDs := BMap.empty } = .err (.protocol .r2WrongIdsD) ∧
    evidence2 Toy.signEnv (signingData (fun _ _ => 7) 5 (Toy.signShares 2) (infos 2)) 1 m1.echo { m2 with capDs := BMap.empty } echos1 .r2WrongIdsD = .ok true := by
  obtain ⟨infos, S, m1, o, haux, -, -, good, hE, hids, hd, hsh, ho, hst, -, h2, -⟩ := Toy.signRun
  have hp1 : 1 ∈ Toy.parties := by decide
  have hp2 : 2 ∈ Toy.parties := by decide
  have he := toyEchos haux (own := (S.r1 2).echo) (f := fun j => m1 j 2) hp2 (show 2 ≠ 1 by decide)
  have hr := good.recv2 ho (i := 1) (j := 2) (hids ▸ hp1) (hids ▸ hp2) (by decide)
  rw [hE] at hr
  have hbad : recv2 Toy.signEnv (S.r2 o 2) 1 { msg2 (S.r2 o 1) with capDs := BMap.empty } = .err (.protocol .r2WrongIdsD) := by
    have hg : (recvGet (S.r2 o 2).ctx.pubAux 1 : Out (RecvErr (Err Nat)) _) = .ok ⟨S.N 1, S.setup 1⟩ := by
      unfold recvGet
      rw [show (S.r2 o 2).ctx.pubAux = BMap.tabulate S.ids fun j => ⟨S.N j, S.setup j⟩ from rfl, BMap.get?_tabulate, if_pos (hids ▸ hp1)]; rfl
    unfold recv2
    refine (congrArg (fun x => Out.bind x _) hg).trans ?_
    rw [Out.bind_ok]
    refine if_pos ?_
    rw [show (S.r2 o 2).ctx.allIds = S.ids from rfl, hids]
    show (BMap.empty : BMap Nat Nat).keySet ≠ Toy.parties.erase 1
    decide
  have thm := fun m => C45_signing_round2_partial (Toy.signNew haux hp2) (hst 2 hp2) (Toy.signSelf haux hp2) _ _ (h2 2 hp2) 1 (m1 1 2) (mem_arrivals hp1 (by decide)) m _ he
  exact ⟨infos, _, _, _, _, _, _, _, hst 2 hp2, h2 2 hp2, mem_arrivals hp1 (by decide), hr, (thm _).2 ⟨_, hr⟩ _ (by simp), hbad, (thm _).1 _ hbad (by simp)⟩

/-- `C46_signing_hat_framing`: in the same run the message of party 1 that party 2 accepts is evidence against party 1, for a wrong proof made for party 3 -/
example : ∃ (infos : Nat → AuxInfo Nat PaillierKey PublicAux) (r1 : Round1 11 Nat Nat (ZMod 11)) (in1 : List (Nat × Msg1 11 (ZMod 11)))
    (r2 : Round2 11 Nat Nat (ZMod 11)) (m1 : Msg1 11 (ZMod 11)) (m2 : Msg2 11 Nat (ZMod 11)) (echos1 : BMap Nat (Echo1 (ZMod 11))) (p : Payload2 11 Nat (ZMod 11)),
    start Toy.signEnv (fun _ _ => 7) (5 : ZMod 11) (Toy.signShares 2) (infos 2) 2 (Toy.signDraws 2) = .ok r1 ∧ toRound2 Toy.signEnv r1 in1 = .ok r2 ∧ (1, m1) ∈ in1 ∧
    recv2 Toy.signEnv r2 1 m2 = .ok p ∧
    evidence2 Toy.signEnv (signingData (fun _ _ => 7) 5 (Toy.signShares 2) (infos 2)) 1 m1.echo m2 echos1 (.r2AffGHatPsiFailed 3) = .ok true := by
  obtain ⟨infos, S, m1, o, haux, -, -, good, hE, hids, hd, hsh, ho, hst, -, h2, -⟩ := Toy.signRun
  have hp1 : 1 ∈ Toy.parties := by decide
  have hp2 : 2 ∈ Toy.parties := by decide
  have hp3 : 3 ∈ Toy.parties := by decide
  have hr := good.recv2 ho (i := 1) (j := 2) (hids ▸ hp1) (hids ▸ hp2) (by decide)
  rw [hE] at hr
  have hacc := (ho.hatMta 1 (hids ▸ hp1) 3 (hids ▸ hp3) (by decide)).accepted Unit
  refine ⟨infos, _, _, _, _, _, _, _, hst 2 hp2, h2 2 hp2, mem_arrivals hp1 (by decide), hr,
    C46_signing_hat_framing (Toy.signNew haux hp2) (hst 2 hp2) (Toy.signSelf haux hp2) _ _ (h2 2 hp2) 1 (m1 1 2) (mem_arrivals hp1 (by decide)) _ _
      (toyEchos haux (own := (S.r1 2).echo) (f := fun j => m1 j 2) hp2 (by decide)) _ hr 3 (by decide) (o 1 3).2.psi ?_ ?_ ?_⟩
  · show ((BMap.tabulate (S.ids.erase 1) (o 1)).mapVals fun _ x => x.2.psi).get? 3 = _
    rw [BMap.get?_mapVals, BMap.get?_tabulate, hids, if_pos (by decide)]
    rfl
  · obtain ⟨t, ht, hte⟩ := affGVerify_e hacc
    rw [hte, hE]
    show (t.aux.2 : ZMod 11) + 2 ≠ 0
    rw [ht]
    show ((1 : Nat) : ZMod 11) + 2 ≠ 0
    decide
  · show (BMap.tabulate Toy.parties fun j => (j : ZMod 11) • Toy.signEnv.C.g).get? 3 ≠ (BMap.tabulate Toy.parties fun j => (j : ZMod 11) • Toy.signEnv.C.g).get? 1
    rw [BMap.get?_tabulate, BMap.get?_tabulate, if_pos hp3, if_pos hp1]
    decide +kernel

/-- `C46_signing_round1_framing`, `C45_signing_round1_undetected`: the first message of party 1 to party 2 is accepted and is evidence against party 1; and party 1 can
make one that is rejected, but is no evidence -/
example : ∃ (infos : Nat → AuxInfo Nat PaillierKey PublicAux) (r1 : Nat → Round1 11 Nat Nat (ZMod 11)),
    (∀ i ∈ Toy.parties, start Toy.signEnv (fun _ _ => 7) (5 : ZMod 11) (Toy.signShares i) (infos i) i (Toy.signDraws i) = .ok (r1 i)) ∧
    (∃ m p, msg1 Toy.signEnv (r1 1) 2 = .ok m ∧ recv1 Toy.signEnv (r1 2).ctx 1 m = .ok p ∧
      evidence1 Toy.signEnv (signingData (fun _ _ => 7) 5 (Toy.signShares 2) (infos 2)) 1 m .r1EncElg0Failed = .ok true) ∧
    ∃ m, recv1 Toy.signEnv (r1 2).ctx 1 m = .err (.protocol .r1EncElg0Failed) ∧
      ∀ e, evidence1 Toy.signEnv (signingData (fun _ _ => 7) 5 (Toy.signShares 2) (infos 2)) 1 m e ≠ .ok true := by
  obtain ⟨infos, S, m1, o, haux, hd, hmod, -, -, -, -, -, -, hst, -, -, -⟩ := Toy.signRun
  have hp1 : 1 ∈ Toy.parties := by decide
  have hp2 : 2 ∈ Toy.parties := by decide
  have hchal : ∀ t : EncElgHash (ZMod 11) (Nat × Nat),
      Toy.signEnv.encH { t with setup := (Toy.ringPedersen 1).rp.toWire } ≠ Toy.signEnv.encH { t with setup := (Toy.ringPedersen 2).rp.toWire } := by
    intro t
    show (t.aux.2 : ZMod 11) + ((((4 : ZMod (Toy.primeQ * Toy.primeP)) ^ 2).val : Nat) : ZMod 11) ≠
      (t.aux.2 : ZMod 11) + ((((4 : ZMod (Toy.primeQ * Toy.primeP)) ^ 3).val : Nat) : ZMod 11)
    rw [Ne, add_right_inj]
    decide +kernel
  obtain ⟨m, p, h1, h2, h3, -⟩ := C46_signing_round1_framing Toy.signEnv Toy.signEnv_setting (fun _ _ => 7) 5 6 Toy.parties Toy.signShares Toy.signShares_valid infos
    Toy.ringPedersen haux Toy.signDraws hd 1 2 hp1 hp2 (by decide) hchal _ _ (hst 1 hp1) (hst 2 hp2)
  refine ⟨infos, S.r1, hst, ⟨m, p, h1, h2, h3⟩, ?_⟩
  exact C45_signing_round1_undetected Toy.signEnv Toy.signEnv_setting (fun _ _ => 7) 5 6 Toy.parties Toy.signShares Toy.signShares_valid infos
    Toy.ringPedersen haux Toy.signDraws hd 1 2 hp1 hp2 (by decide) (fun t => (hchal t).symm) (by rw [hmod]; exact Toy.encMasks_valid 1 1)
    (by rw [hmod]; exact Toy.encMasks_valid 2 1) _ _ (hst 1 hp1) (hst 2 hp2)

/-- `C45_signing_round4`: party 2 rejects a signature share of party 1 that is off by one, and has evidence for it; the right share is no evidence -/
example : ∃ (infos : Nat → AuxInfo Nat PaillierKey PublicAux) (r1 : Round1 11 Nat Nat (ZMod 11)) (in1 : List (Nat × Msg1 11 (ZMod 11)))
    (in2 : List (Nat × Msg2 11 Nat (ZMod 11))) (in3 : List (Nat × Msg3 11 (ZMod 11))) (r4 : Round4 11 Nat Nat (ZMod 11)) (m2 : Msg2 11 Nat (ZMod 11))
    (m3 : Msg3 11 (ZMod 11)) (sigma : ZMod 11) (echos2 : BMap Nat (Echo2 Nat (ZMod 11))) (echos3 : BMap Nat (ZMod 11)),
    start Toy.signEnv (fun _ _ => 7) (5 : ZMod 11) (Toy.signShares 2) (infos 2) 2 (Toy.signDraws 2) = .ok r1 ∧ toRound4 Toy.signEnv r1 in1 in2 in3 = .ok (.round4 r4) ∧
    (1, m2) ∈ in2 ∧ (1, m3) ∈ in3 ∧ recv4 Toy.signEnv r4 1 sigma = .ok sigma ∧
    evidence4 Toy.signEnv (signingData (fun _ _ => 7) 5 (Toy.signShares 2) (infos 2)) m2.echo m3 sigma echos2 echos3 .r4InvalidSignatureShare ≠ .ok true ∧
    recv4 Toy.signEnv r4 1 (sigma + 1) = .err (.protocol .r4InvalidSignatureShare) ∧
    evidence4 Toy.signEnv (signingData (fun _ _ => 7) 5 (Toy.signShares 2) (infos 2)) m2.echo m3 (sigma + 1) echos2 echos3 .r4InvalidSignatureShare = .ok true := by
  obtain ⟨infos, S, m1, o, haux, -, -, good, hE, hids, hd, hsh, ho, hst, -, h2, h3⟩ := Toy.signRun
  have hp1 : 1 ∈ Toy.parties := by decide
  have hp2 : 2 ∈ Toy.parties := by decide
  have hG : S.capGammaAll = 9 := by
    show (∑ i ∈ S.ids, (S.d i).gamma) • S.E.C.g = 9
    rw [hids, hd, hE]; decide +kernel
  have hnz : ¬ S.gammaAll * S.kAll = 0 := by
    show ¬ (∑ i ∈ S.ids, (S.d i).gamma) * (∑ i ∈ S.ids, (S.d i).k) = 0
    rw [hids, hd]; decide +kernel
  have h4 : toRound4 Toy.signEnv (S.r1 2) (arrivals (fun j => m1 j 2) 2) (arrivals (fun j => msg2 (S.r2 o j)) 2) (arrivals S.msg3 2) = .ok (.round4 (S.r4 2)) := by
    unfold toRound4
    rw [h3 2 hp2, Out.bind_ok]
    have hc := collect_others (hids ▸ arrivals_fromOthers S.msg3 2) (recv := recv3 S.E (S.r3 o 2)) (pl := fun j => (S.msg3 j).payload)
      (fun j hj hne => Run.recv3_ok hj)
    rw [← hE]
    refine (congrArg (fun x => Out.bind x _) hc).trans ?_
    rw [Out.bind_ok, good.finalize3 (hids ▸ hp2), if_neg hnz]
    rfl
  have hr : recv4 Toy.signEnv (S.r4 2) 1 (S.sigma 1) = .ok (S.sigma 1) := hE ▸ Run.recv4_ok (i := 1) (j := 2) (hids ▸ hp1)
  have hbad : recv4 Toy.signEnv (S.r4 2) 1 (S.sigma 1 + 1) = .err (.protocol .r4InvalidSignatureShare) := by
    unfold recv4 at hr ⊢
    simp only [Out.bind_eq_ok] at hr
    obtain ⟨a, ha, b, hb, hr⟩ := hr
    rw [ha, Out.bind_ok, hb, Out.bind_ok]
    split at hr
    · cases hr
    · rename_i heq
      refine if_pos ?_
      intro hc
      rw [← not_not.1 heq, add_smul, add_eq_left, show (S.r4 2).capGammaCombined = S.capGammaAll from rfl, hG] at hc
      revert hc
      decide
  have he2 : EchosAgainst (infos 2).pub.keySet 2 1 (msg2 (S.r2 o 2)).echo ((arrivals (fun j => msg2 (S.r2 o j)) 2).map fun a => (a.1, a.2.echo))
      (BMap.tabulate (Toy.parties.erase 1) fun k => (msg2 (S.r2 o k)).echo) := by
    rw [haux.consistent.holders 2 hp2]; exact echosOf (fun j => msg2 (S.r2 o j)) (fun m => m.echo) hp2 (by decide)
  have he3 : EchosAgainst (infos 2).pub.keySet 2 1 (S.r3 o 2).msg.delta ((arrivals S.msg3 2).map fun a => (a.1, a.2.delta))
      (BMap.tabulate (Toy.parties.erase 1) fun k => (S.msg3 k).delta) := by
    rw [haux.consistent.holders 2 hp2]; exact echosOf S.msg3 (fun m => m.delta) hp2 (by decide)
  have thm := fun sigma => C45_signing_round4 (Toy.signNew haux hp2) (hst 2 hp2) _ _ _ _ _ _ (h2 2 hp2) (h3 2 hp2) h4 1 (msg2 (S.r2 o 1)) (mem_arrivals hp1 (by decide)) (S.msg3 1)
    (mem_arrivals hp1 (by decide)) sigma _ he2 _ he3
  exact ⟨infos, _, _, _, _, _, _, _, _, _, _, hst 2 hp2, h4, mem_arrivals (f := fun j => msg2 (S.r2 o j)) hp1 (by decide), mem_arrivals hp1 (by decide), hr,
    (thm _).2 ⟨_, hr⟩ _, hbad, (thm _).1 _ hbad⟩

/-- `C46_signing_dec_framing`: party 2 announces a wrong `delta` in round 3, so that party 3 goes to the error round; the message of party 1 there, which follows the
protocol, is accepted by party 3, and is evidence against party 1 -/
example : ∃ (infos : Nat → AuxInfo Nat PaillierKey PublicAux) (r1 : Nat → Round1 11 Nat Nat (ZMod 11)) (in1 : List (Nat × Msg1 11 (ZMod 11)))
    (in2 : List (Nat × Msg2 11 Nat (ZMod 11))) (in3 : List (Nat × Msg3 11 (ZMod 11))) (rErr rErr1 : ErrRound 11 Nat Nat (ZMod 11)) (e1 : Echo1 (ZMod 11)) (m2 : Msg2 11 Nat (ZMod 11))
    (m3 : Msg3 11 (ZMod 11)) (m : MsgErr Nat (ZMod 11)) (echos1 : BMap Nat (Echo1 (ZMod 11))) (echos2 : BMap Nat (Echo2 Nat (ZMod 11))),
    (∀ i ∈ Toy.parties, start Toy.signEnv (fun _ _ => 7) (5 : ZMod 11) (Toy.signShares i) (infos i) i (Toy.signDraws i) = .ok (r1 i)) ∧
    toRound4 Toy.signEnv (r1 3) in1 in2 in3 = .ok (.error rErr) ∧ msgErr Toy.signEnv rErr1 = .ok m ∧ recvErr Toy.signEnv rErr 1 m = .ok () ∧
    evidenceErr Toy.signEnv true (signingData (fun _ _ => 7) 5 (Toy.signShares 3) (infos 3)) 1 e1 m2 m3 m echos1 echos2 (.decFailed false) = .ok true := by
  obtain ⟨infos, haux, hmod⟩ := Toy.exists_signInfos
  have hd : SigningDrawsValid Toy.signEnv.P Toy.parties (fun i => (infos i).secret.modulus) (fun i => (Toy.ringPedersen i).modulus) Toy.signDraws := by
    rw [funext hmod]; exact Toy.signDraws_valid
  have good := honest_good Toy.signEnv Toy.signEnv_setting (fun _ _ => 7) 5 6 Toy.parties Toy.signShares Toy.signShares_valid infos Toy.ringPedersen haux Toy.signDraws hd
  have hst := fun i (hi : i ∈ Toy.parties) => honest_start Toy.signEnv Toy.signEnv_setting (fun _ _ => 7) 5 6 Toy.parties Toy.signShares Toy.signShares_valid infos Toy.ringPedersen
    haux Toy.signDraws hi
  obtain ⟨S, hS⟩ : ∃ S, S = honest Toy.signEnv (fun _ _ => 7) (5 : ZMod 11) Toy.parties Toy.signShares infos Toy.ringPedersen Toy.signDraws := ⟨_, rfl⟩
  rw [← hS] at good
  simp only [← hS] at hst
  have hids : S.ids = Toy.parties := by rw [hS]; rfl
  have hE : S.E = Toy.signEnv := by rw [hS]; rfl
  have hSd : S.d = Toy.signDraws := by rw [hS]; rfl
  obtain ⟨m1, o, ho, hm1, hrounds⟩ := Run.good_rounds good
  have hp1 : 1 ∈ Toy.parties := by decide
  have hp2 : 2 ∈ Toy.parties := by decide
  have hp3 : 3 ∈ Toy.parties := by decide
  -- what is announced
  obtain ⟨delta, hdelta⟩ : ∃ delta : Nat → ZMod 11, delta = fun j => S.delta j + if j = 2 then 4 else 0 := ⟨_, rfl⟩
  have hown : ∀ i, i ≠ 2 → delta i = S.delta i := fun i hi => by rw [hdelta]; simp [hi]
  have hsum : ∑ j ∈ S.ids, delta j ≠ S.gammaAll * S.kAll := by
    rw [hdelta, Finset.sum_add_distrib, S.sum_delta, Finset.sum_ite_eq' S.ids 2, if_pos (hids ▸ hp2)]
    intro h
    exact absurd (by simpa using h) (show (4 : ZMod 11) ≠ 0 by decide)
  obtain ⟨msg, hmsg, hacc⟩ := (claim_believed Toy.signEnv Toy.signEnv_setting (fun _ _ => 7) 5 6 Toy.parties Toy.signShares Toy.signShares_valid infos Toy.ringPedersen haux
    Toy.signDraws hd (by decide +kernel) Toy.fewParties (fun i _ => by rw [hmod, funext hmod]; exact Toy.errorDraws_valid i) hS ho hm1 hrounds hsum (hids ▸ hp1)
    (hown 1 (by decide))).1
  have hr := hacc (S.errRound o delta 3) ⟨rfl, rfl, rfl, rfl, rfl, rfl, rfl, rfl, rfl, rfl⟩
  have harr : ∀ {M : Type} (f : Nat → M) (i : Nat), FromOthers S.ids i f (arrivals f i) := fun f i => hids ▸ arrivals_fromOthers f i
  obtain ⟨h2, h3⟩ := hrounds (fun i => arrivals (fun j => m1 j i) i) (fun i _ => harr _ i)
  have h3 := h3 (fun i => arrivals (fun j => msg2 (S.r2 o j)) i) (fun i _ => harr _ i) 3 (hids ▸ hp3)
  have h2 := h2 3 (hids ▸ hp3)
  have h4 := Run.toRound4_claim (hE ▸ (by decide +kernel)) hsum (hids ▸ hp3) (hown 3 (by decide)) h3 (harr (S.claim delta) 3)
  rw [hE] at h2 h3 h4
  have he2 : EchosAgainst (infos 3).pub.keySet 3 1 (msg2 (S.r2 o 3)).echo ((arrivals (fun j => msg2 (S.r2 o j)) 3).map fun a => (a.1, a.2.echo))
      (BMap.tabulate (Toy.parties.erase 1) fun k => (msg2 (S.r2 o k)).echo) := by
    rw [haux.consistent.holders 3 hp3]; exact echosOf (fun j => msg2 (S.r2 o j)) (fun m => m.echo) hp3 (by decide)
  refine ⟨infos, S.r1, _, _, _, _, _, _, _, _, _, BMap.empty, _, hst, h4, hmsg, hr, C46_signing_dec_framing (Toy.signNew haux hp3) (hst 3 hp3) _ _ _ _ _ _ h2 h3 h4 rfl
    (by rw [Toy.signShares_valid.holders 3 hp3]; exact hp3) 1 (m1 1 3) (mem_arrivals (f := fun j => m1 j 3) hp1 (by decide)) (msg2 (S.r2 o 1))
    (mem_arrivals (f := fun j => msg2 (S.r2 o j)) hp1 (by decide)) (S.claim delta 1) (mem_arrivals hp1 (by decide)) _ _ he2 msg hr ?_ ?_ true⟩
  · obtain ⟨t, ht, hte⟩ := recvErr_e hr
    rw [hte]
    show true ∈ [decide (t.aux.2 % 2 = 0), true]
    simp
  · show delta 1 • Toy.signEnv.C.g ≠ (S.d 1).k • (∑ i ∈ S.ids, (S.d i).gamma) • S.E.C.g
    rw [hown 1 (by decide), hids, hE, hSd]
    have : S.delta 1 = 3 := by
      unfold Run.delta Run.share Run.alpha
      rw [hids, hSd]
      decide +kernel
    rw [this]
    decide +kernel

/-- `C45_signing_star_panics`: party 1 with modulus 35 is accused of a wrong proof for party 2 with modulus 77 -/
example : evidenceErr Toy.signEnv false
    ⟨7, BMap.empty, BMap.ofList [(1, ⟨35, ⟨35, 2, 4⟩⟩), (2, ⟨77, ⟨77, 2, 4⟩⟩), (3, ⟨35, ⟨35, 2, 4⟩⟩)], 5⟩ (1 : Nat)
    (⟨2, 3, 1, 1, 1, 1, 1⟩ : Echo1 (ZMod 11)) ⟨⟨1, BMap.empty, BMap.empty⟩, BMap.ofList [(2, 5), (3, 8)], BMap.empty, ⟨1, 1, 1, 1, 1, 1⟩, BMap.empty, BMap.empty⟩
    ⟨1, 1, ⟨1, 1, 1, 1, 1, 1⟩, 1⟩ ⟨⟨[], [], []⟩, BMap.ofList [(2, ⟨[true], [], []⟩)]⟩ (BMap.ofList [(2, ⟨2, 3, 1, 1, 1, 1, 1⟩)])
    (BMap.ofList [(2, ⟨1, BMap.ofList [(1, 6)], BMap.empty⟩)]) (.affGStarFailed false 2) = .panic :=
  (C45_signing_star_panics Toy.signEnv false _ 1 _ _ _ _ _ _ 2 ⟨77, ⟨77, 2, 4⟩⟩ ⟨35, ⟨35, 2, 4⟩⟩ (by decide) (by decide) (by decide)).2 5 6 ⟨2, 3, 1, 1, 1, 1, 1⟩
    ⟨1, BMap.ofList [(1, 6)], BMap.empty⟩ ⟨[true], [], []⟩ (by decide) (by decide) rfl (by decide) rfl

end Examples

end Synedrion.Props
