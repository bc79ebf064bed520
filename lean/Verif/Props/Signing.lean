import Verif.Lemmas.Signing

/-!
# C42: signing never outputs an invalid signature
-/

set_option linter.unusedSectionVars false

namespace Synedrion.Props

open Synedrion Spec Signing

variable {q : Nat} [Fact q.Prime] {I Ep G : Type} [LinearOrder I] [AddCommGroup G] [Module (ZMod q) G] [DecidableEq G]

/-- **C42 (no invalid signature).** Whatever messages a party receives in the rounds of signing, from whomever and in whatever order: a signature it outputs
is a valid ECDSA signature of the requested message under the group key (the sum of the public shares), is normalized, and its recovery id gives the group
key. -/
theorem C42_output_valid (E : Env q I Ep G) (hC : CurveLaws E.C q) (epidOf : BMap I G → BMap I PublicAux → Ep) (message : ZMod q)
    (keyShare : KeyShare I (ZMod q) G) (auxInfo : AuxInfo I PaillierKey PublicAux) (me : I) (d : Draws q I) (r : Round1 q I Ep G)
    (hr : start E epidOf message keyShare auxInfo me d = .ok r)
    (in1 : List (I × Msg1 q G)) (in2 : List (I × Msg2 q I G)) (in3 : List (I × Msg3 q G)) (in4 : List (I × ZMod q)) (inErr : List (I × MsgErr I G))
    (sig : RecoverableSignature q) (h : run E r in1 in2 in3 in4 inErr = .ok sig) :
    EcdsaValid E.C keyShare.pub.values.sum message sig.r sig.s ∧ LowS sig.s ∧
      recover E.C message sig.r sig.s sig.recoveryId = some keyShare.pub.values.sum := by
  obtain ⟨_, _, hmsg, _, hks, _⟩ := start_eq_ok hr
  unfold run at h
  obtain ⟨a, ha, hlast⟩ := Out.bind_eq_ok.1 h
  obtain ⟨r3, pl3, h3, hctx3, hown, hc3, hf3⟩ := toRound4_ok ha
  cases a with
  | error r4 =>
    simp only [last, Out.bind_eq_ok, finalizeResult_eq_ok, finalizeErr] at hlast
    obtain ⟨_, _, _, _, hh⟩ := hlast
    cases hh
  | round4 r4 =>
    simp only [last, Out.bind_eq_ok, finalizeResult_eq_ok] at hlast
    obtain ⟨pl4, hc4, hf4⟩ := hlast
    have hctx4 : r4.ctx = r3.ctx := by
      unfold finalize3 at hf3
      simp only at hf3
      split at hf3
      · cases hf3
      · split at hf3
        · cases hf3
        · split at hf3
          · cases hf3
          · cases hf3; rfl
    unfold finalize4 at hf4
    have hs := Out.ofOption_eq_ok.1 hf4
    rw [hctx4, hctx3, hmsg, hks] at hs
    obtain ⟨h1, h2, h3, _⟩ := C44_signature_valid E.C hC _ _ _ _ _ hs
    exact ⟨h1, h2, h3⟩

/-- **C42 (a signature is not lost at the last step).** Whatever messages a party receives: if its checks of rounds 1 to 3 passed and it accepts one signature
share from each other party, then the assembled pair satisfies the ECDSA equation, and the party outputs a signature, except in the cases where the nonce's
x coordinate, the assembled `s` or the group key is zero. -/
theorem C42_signature_not_lost (E : Env q I Ep G) (hC : CurveLaws E.C q) (epidOf : BMap I G → BMap I PublicAux → Ep) (message : ZMod q)
    (keyShare : KeyShare I (ZMod q) G) (auxInfo : AuxInfo I PaillierKey PublicAux) (me : I) (d : Draws q I) (r : Round1 q I Ep G)
    (hr : start E epidOf message keyShare auxInfo me d = .ok r)
    (in1 : List (I × Msg1 q G)) (in2 : List (I × Msg2 q I G)) (in3 : List (I × Msg3 q G)) (in4 : List (I × ZMod q)) (inErr : List (I × MsgErr I G))
    (r4 : Round4 q I Ep G) (h3 : toRound4 E r in1 in2 in3 = .ok (.round4 r4))
    (shares : BMap I (ZMod q)) (h4 : collect r4.ctx.otherIds (recv4 E r4) in4 = .ok shares)
    (hx : (E.C.x r4.capGammaCombined : ZMod q) ≠ 0) (hs : shares.values.sum + r4.sigma ≠ 0) (hkey : keyShare.pub.values.sum ≠ 0) :
    EcdsaValid E.C keyShare.pub.values.sum message (E.C.x r4.capGammaCombined : ZMod q) (shares.values.sum + r4.sigma) ∧
      ∃ sig, run E r in1 in2 in3 in4 inErr = .ok sig ∧ sig.r = (E.C.x r4.capGammaCombined : ZMod q) ∧
        (sig.s = shares.values.sum + r4.sigma ∨ sig.s = -(shares.values.sum + r4.sigma)) := by
  obtain ⟨_, _, hmsg, _, hks, _⟩ := start_eq_ok hr
  obtain ⟨hctx4, hkeyeq⟩ := assembled_equation hr h3 h4
  set X := keyShare.pub.values.sum with hX
  set capG := r4.capGammaCombined with hcapG
  set nonce := E.C.xCoordinate q capG with hnonce
  set m := message with hm
  set s := shares.values.sum + r4.sigma with hsdef
  have hrecover : (m * s⁻¹) • E.C.g + (nonce * s⁻¹) • X = capG := by
    have e : (m * s⁻¹) • E.C.g + (nonce * s⁻¹) • X = s⁻¹ • (m • E.C.g + nonce • X) := by module
    rw [e, ← hkeyeq, smul_smul, inv_mul_cancel₀ hs, one_smul]
  have hvalid : EcdsaValid E.C X m nonce s := by
    refine ⟨hx, hs, ?_, ?_⟩
    · rw [hrecover]
      intro h0
      apply hx
      rw [h0, hC.x_zero, Nat.cast_zero]
    · rw [hrecover]; rfl
  refine ⟨hvalid, ?_⟩
  obtain ⟨sig, hsigOk⟩ := C44_valid_accepted E.C hC nonce s X hkey m hvalid
  obtain ⟨_, _, _, e1, e2, _⟩ := C44_signature_valid E.C hC _ _ _ _ _ hsigOk
  refine ⟨sig, ?_, e1, e2⟩
  unfold run
  rw [h3, Out.bind_ok]
  simp only [last]
  rw [h4, Out.bind_ok]
  rw [finalizeResult_eq_ok]
  unfold finalize4
  rw [hctx4, hmsg, hks]
  rw [Out.ofOption_eq_ok]
  exact hsigOk

end Synedrion.Props
