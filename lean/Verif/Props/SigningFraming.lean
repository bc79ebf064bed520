import Verif.Props.SigningEvidence
import Verif.Props.SigningBlameEarly

/-!
# C46: a signer that follows the protocol is not framed for its first multiplication proofs
-/

set_option linter.unusedSectionVars false

namespace Synedrion.Props

open Spec Signing

variable {q : Nat} [Fact q.Prime] {I Ep G : Type} [LinearOrder I] [AddCommGroup G] [Module (ZMod q) G] [DecidableEq G]

/-- **C46 (signing, first multiplication; part).** Let `me` follow the protocol with valid inputs and draws, and let the others send it anything in round 1. Evidence that its proof `psi`
for any party `k` is wrong, made of its own messages and of the echo broadcasts of round 1 that it received, is not accepted. Missing: the errors for which it is false, in particular
the second multiplication (`C46_signing_hat_framing`). -/
theorem C46_signing_multiplication_partial (E : Env q I Ep G) (hE : SigningSetting E) (epidOf : BMap I G → BMap I PublicAux → Ep) (message sk : ZMod q) (ids : Finset I)
    (shares : I → KeyShare I (ZMod q) G) (hshares : SharesKey E.C.g ids shares sk) (infos : I → AuxInfo I PaillierKey PublicAux) (setup : I → RPSetup)
    (haux : UsableAux E.P ids infos setup) (d : I → Draws q I)
    (hd : SigningDrawsValid E.P ids (fun i => (infos i).secret.modulus) (fun i => (setup i).modulus) d) (me : I) (hme : me ∈ ids) (hgamma : (d me).gamma ≠ 0)
    (r1 : Round1 q I Ep G) (hs : start E epidOf message (shares me) (infos me) me (d me) = .ok r1)
    (in1 : List (I × Msg1 q G)) (r2 : Round2 q I Ep G) (h2 : toRound2 E r1 in1 = .ok r2)
    (echos1 : BMap I (Echo1 G)) (he : ∀ k e, k ≠ me → echos1.get? k = some e → ∃ m, (k, m) ∈ in1 ∧ m.echo = e) (k : I) :
    evidence2 E (signingData epidOf message (shares me) (infos me)) me r1.echo (msg2 r2) echos1 (.r2AffGPsiFailed k) ≠ .ok true := by
  have good := honest_good E hE epidOf message sk ids shares hshares infos setup haux d hd
  have hol : ∀ j ∈ ids, ∀ c : Ct (infos j).secret.modulus, IsUnit c → ∃ m, (⟨_, c⟩ : Cipher).Holds (infos j).secret.modulus m := by
    intro j hj c hc
    have hP := haux.primes j hj
    obtain ⟨m, -, hco, he⟩ := (C21_randomizer_recovery (ε := Unit) hP.primes _ (haux.secretKey j hj) E.P.uint E.P.modBits (FullSizePrimes.lt hP hE.consistent.2.1.1)
      hE.consistent.2.1.2.2.1).2 c hc
    unfold enc at he
    split at he
    · rename_i hf
      rw [encInner_eq] at he
      exact ⟨m.val, holds_of_encrypts hco (Out.ok.inj he).symm⟩
    · cases he
  have hep : r1.ctx.epid = epidOf (shares me).pub (infos me).pub := (start_eq_ok hs).2.2.2.2.2.2.2.2.1
  obtain ⟨-, hpre⟩ := start_pubAux hs
  obtain rfl : (honest E epidOf message ids shares infos setup d).r1 me = r1 :=
    Out.ok.inj ((honest_start E hE epidOf message sk ids shares hshares infos setup haux d hme).symm.trans hs)
  generalize hS : honest E epidOf message ids shares infos setup d = S at *
  have e1 : S.E = E := by rw [← hS]; rfl
  have e2 : S.ids = ids := by rw [← hS]; rfl
  have e3 : S.d = d := by rw [← hS]; rfl
  have hol' : ∀ j ∈ S.ids, ∀ c : Ct (S.N j), IsUnit c → ∃ m, (⟨S.N j, c⟩ : Cipher).Holds (S.N j) m := by subst hS; exact hol
  clear hol hS hd haux hshares hE hs
  subst e1 e2 e3
  have hat := good.at2 hme h2
  intro hev
  have hev' := hev
  unfold evidence2 evidenceAffG at hev'
  simp only [Out.bind_eq_ok] at hev'
  obtain ⟨e, hecho, _, -, _, -, _, -, _, -, _, -, _, -, w, hw, -⟩ := hev'
  replace hecho := Out.ofOption_eq_ok.1 hecho
  replace hw := Out.ofOption_eq_ok.1 hw
  simp only [msg2, BMap.get?_mapVals, Option.map_eq_some_iff] at hw
  obtain ⟨o, ho, -⟩ := hw
  have hk : k ∈ S.ids.erase me := by
    rw [← hat.outs, BMap.mem_keySet, BMap.mem_keys_iff]; exact ⟨_, ho⟩
  obtain ⟨hkme, hk⟩ := Finset.mem_erase.1 hk
  obtain ⟨m, hm, rfl⟩ := he k e hkme hecho
  obtain ⟨p, hp, hs1, -⟩ := hat.out k o ho
  rw [hat.payload k m hm] at hp
  cases hp
  have hu : IsUnit (ctOfWire (S.N k) m.echo.capK) := by
    have h1 := hs1
    unfold mtaSend at h1
    simp only [Out.bind_eq_ok] at h1
    obtain ⟨_, -, kx, hkx, -⟩ := h1
    exact mulSecret_isUnit (good.pos hk) (signedI_fits good.setting _) (centre_ne_zero hgamma) hkx
  obtain ⟨n, hn⟩ := hol' k hk _ hu
  obtain ⟨h3, h4, hv⟩ := good.mtaSend_accepted hme hk hn (S.d me).gamma (S.d me).mta (good.draws.mta me hme k hk (Ne.symm hkme)) hs1
  have hpa : ∀ {j : I}, j ∈ S.ids → (S.r1 me).ctx.pubAux.get? j = some ⟨S.N j, S.setup j⟩ := by
    intro j hj
    show S.pubAux.get? j = _
    simp only [Run.pubAux, BMap.get?_tabulate, hj, if_true]
  obtain ⟨af, haf, hbf⟩ := hpre k _ (hpa hk)
  obtain ⟨ag, hag, hbg⟩ := hpre me _ (hpa hme)
  have hfalse : evidenceAffG S.E (signingData epidOf message (shares me) (infos me)) me k echos1 (.ok (msg2 r2).echo.capGamma) (msg2 r2).psis (msg2 r2).capDs (msg2 r2).echo.capFs =
      .ok (!true) := by
    refine evidenceAffG_eq (e := m.echo) (af := af) (ag := ag) (d := o.1.capD.toWire) (f := o.1.capF.toWire) (psi := o.1.psi) hecho haf hag hbf hbg
      (by simp [msg2, BMap.get?_mapVals, ho]) (by simp [msg2, BMap.get?_mapVals, ho]) (by simp [msg2, BMap.get?_mapVals, ho]) ?_
    show (affGVerify S.E (S.N k) (S.N me) o.1.psi ⟨S.N k, ctOfWire (S.N k) m.echo.capK⟩ (.ofWire (S.N k) o.1.capD.toWire) (.ofWire (S.N me) o.1.capF.toWire) r2.capGamma (S.setup k)
      (epidOf (shares me).pub (infos me).pub, me) : Out Unit _) = .ok true
    rw [Run.ofWire_toWire' (good.pos hk) h3, Run.ofWire_toWire' (good.pos hme) h4, hat.capGamma, ← hep]
    exact hv Unit
  cases hfalse.symm.trans hev

/-! ### The hypotheses can be met -/

section Examples
attribute [local instance] Toy.fact11 Toy.order11

/-- In the example run, party 1 cannot be framed with its proof for party 3. -/
example : ∃ (infos : Nat → AuxInfo Nat PaillierKey PublicAux) (r1 : Round1 11 Nat Nat (ZMod 11)) (in1 : List (Nat × Msg1 11 (ZMod 11))) (r2 : Round2 11 Nat Nat (ZMod 11))
    (echos1 : BMap Nat (Echo1 (ZMod 11))),
    start Toy.signEnv (fun _ _ => 7) (5 : ZMod 11) (Toy.signShares 1) (infos 1) 1 (Toy.signDraws 1) = .ok r1 ∧ toRound2 Toy.signEnv r1 in1 = .ok r2 ∧ (echos1.get? 3).isSome ∧
    evidence2 Toy.signEnv (signingData (fun _ _ => 7) 5 (Toy.signShares 1) (infos 1)) 1 r1.echo (msg2 r2) echos1 (.r2AffGPsiFailed 3) ≠ .ok true := by
  obtain ⟨infos, S, m1, o, haux, hdv, hmod, good, hE, hids, hd, hsh, ho, hst, -, h2, -⟩ := Toy.signRun
  have hp1 : 1 ∈ Toy.parties := by decide
  refine ⟨infos, _, _, _, BMap.tabulate (Toy.parties.erase 1) fun k => (m1 k 1).echo, hst 1 hp1, h2 1 hp1, by rw [BMap.get?_tabulate]; rfl,
    C46_signing_multiplication_partial Toy.signEnv Toy.signEnv_setting (fun _ _ => 7) 5 6 Toy.parties Toy.signShares Toy.signShares_valid infos Toy.ringPedersen haux Toy.signDraws hdv 1 hp1
      (by decide +kernel) _ (hst 1 hp1) _ _ (h2 1 hp1) _ ?_ 3⟩
  intro k e hk he
  rw [BMap.get?_tabulate] at he
  split at he
  · rename_i hmem
    cases he
    exact ⟨_, List.mem_map.2 ⟨k, mem_bsetIter.2 hmem, rfl⟩, rfl⟩
  · cases he

end Examples

end Synedrion.Props
