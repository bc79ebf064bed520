import Verif.Props.Signing
import Verif.Props.SigningHonest
import Verif.Lemmas.SigningAgreement
import Verif.Lemmas.SigningReach
import Verif.Lemmas.ToySigningRun

/-!
# C57: signers that finish agree on the signature
-/

set_option linter.unusedSectionVars false

namespace Synedrion.Props

open Synedrion Spec Signing

variable {q : Nat} [Fact q.Prime] {I Ep G : Type} [LinearOrder I] [AddCommGroup G] [Module (ZMod q) G] [DecidableEq G]

/-- What determines the signature a party outputs: the group key, the message and the combined nonce point. -/
theorem run_determined {E : Env q I Ep G} (hC : CurveLaws E.C q) {epidOf : BMap I G → BMap I PublicAux → Ep} {message : ZMod q}
    {keyShare : KeyShare I (ZMod q) G} {auxInfo : AuxInfo I PaillierKey PublicAux} {me : I} {d : Draws q I} {r : Round1 q I Ep G}
    (hr : start E epidOf message keyShare auxInfo me d = .ok r)
    {in1 : List (I × Msg1 q G)} {in2 : List (I × Msg2 q I G)} {in3 : List (I × Msg3 q G)} {in4 : List (I × ZMod q)} {inErr : List (I × MsgErr I G)}
    {sig : RecoverableSignature q} (h : run E r in1 in2 in3 in4 inErr = .ok sig) (bc : I → G) (hown : bc me = d.gamma • E.C.g)
    (hbc : ∀ a ∈ in2, a.2.echo.capGamma = bc a.1) :
    ∃ s : ZMod q, s • (∑ i ∈ insert me keyShare.pub.keySet, bc i) = message • E.C.g +
        (E.C.x (∑ i ∈ insert me keyShare.pub.keySet, bc i) : ZMod q) • keyShare.pub.values.sum ∧
      RecoverableSignature.fromScalars E.C (E.C.x (∑ i ∈ insert me keyShare.pub.keySet, bc i) : ZMod q) s keyShare.pub.values.sum message = some sig := by
  obtain ⟨_, _, hmsg, hid, hks, hall, hoth, hd, _⟩ := start_eq_ok hr
  unfold run at h
  obtain ⟨a, ha, hlast⟩ := Out.bind_eq_ok.1 h
  cases a with
  | error r4 =>
    simp only [last, Out.bind_eq_ok, finalizeResult_eq_ok, finalizeErr] at hlast
    obtain ⟨_, _, _, _, hh⟩ := hlast
    cases hh
  | round4 r4 =>
    simp only [last, Out.bind_eq_ok, finalizeResult_eq_ok] at hlast
    obtain ⟨pl4, hc4, hf4⟩ := hlast
    obtain ⟨hctx4, heq⟩ := assembled_equation hr ha hc4
    obtain ⟨r3, pl3, h3, hctx3, hown3, hc3, hf3⟩ := toRound4_ok ha
    obtain ⟨_, _, ks3, -⟩ := collect_eq_ok.1 hc3
    have hme : r3.ctx.myId ∉ pl3.keySet := by
      rw [ks3, hctx3, hid, hoth]; simp
    obtain ⟨_, -, -, -, -, -, hgam, -⟩ := finalize3_round4 hown3 hme hf3
    have hcap := toRound3_nonce (by rw [hid, hoth]; simp) h3 bc (by rw [hid, hd]; exact hown) hbc
    have hset : insert r.ctx.myId r.ctx.otherIds = insert me keyShare.pub.keySet := by
      rw [hid, hoth]
      ext x
      by_cases hx : x = me <;> simp [hx]
    rw [hset] at hcap
    rw [hgam, hcap] at heq
    unfold finalize4 at hf4
    have hs := Out.ofOption_eq_ok.1 hf4
    rw [hctx4, hmsg, hks, hgam, hcap] at hs
    exact ⟨_, heq, hs⟩

/-- **C57 (agreement on the signature).** Let two holders of the same public shares sign the same message, and let `broadcast` be the nonce points that
everybody saw broadcast in round 2: each of the two sent its own entry and received the other entries, from every other party. If both finish, whatever else
they received in any round, they output the same signature: the same `r`, `s` and recovery id. -/
theorem C57_signature_agreement (E : Env q I Ep G) (hC : CurveLaws E.C q) (epidOf : BMap I G → BMap I PublicAux → Ep) (message : ZMod q)
    (keyShare keyShare' : KeyShare I (ZMod q) G) (hpub : keyShare'.pub = keyShare.pub) (auxInfo auxInfo' : AuxInfo I PaillierKey PublicAux)
    (me me' : I) (hme : me ∈ keyShare.pub.keySet) (hme' : me' ∈ keyShare.pub.keySet) (d d' : Draws q I) (r r' : Round1 q I Ep G)
    (hr : start E epidOf message keyShare auxInfo me d = .ok r) (hr' : start E epidOf message keyShare' auxInfo' me' d' = .ok r')
    (in1 in1' : List (I × Msg1 q G)) (in2 in2' : List (I × Msg2 q I G)) (in3 in3' : List (I × Msg3 q G)) (in4 in4' : List (I × ZMod q))
    (inErr inErr' : List (I × MsgErr I G)) (broadcast : I → G)
    (hown : broadcast me = d.gamma • E.C.g) (hown' : broadcast me' = d'.gamma • E.C.g)
    (hin : ∀ a ∈ in2, a.2.echo.capGamma = broadcast a.1) (hin' : ∀ a ∈ in2', a.2.echo.capGamma = broadcast a.1)
    (sig sig' : RecoverableSignature q) (h : run E r in1 in2 in3 in4 inErr = .ok sig) (h' : run E r' in1' in2' in3' in4' inErr' = .ok sig') :
    sig = sig' := by
  obtain ⟨s, heq, hs⟩ := run_determined hC hr h broadcast hown hin
  obtain ⟨s', heq', hs'⟩ := run_determined hC hr' h' broadcast hown' hin'
  rw [hpub, Finset.insert_eq_of_mem hme'] at heq' hs'
  rw [Finset.insert_eq_of_mem hme] at heq hs
  have hx : (E.C.x (∑ i ∈ keyShare.pub.keySet, broadcast i) : ZMod q) ≠ 0 := by
    obtain ⟨_, _, _, _, _, h0, _⟩ := C44_signature_valid E.C hC _ _ _ _ _ hs
    exact h0
  have hne : ∑ i ∈ keyShare.pub.keySet, broadcast i ≠ 0 := by
    intro h0
    rw [h0, hC.x_zero, Nat.cast_zero] at hx
    exact hx rfl
  have hss : s = s' := by
    have e : (s - s') • ∑ i ∈ keyShare.pub.keySet, broadcast i = 0 := by rw [sub_smul, heq, heq', sub_self]
    exact sub_eq_zero.1 ((smul_eq_zero.1 e).resolve_right hne)
  rw [hss, hs'] at hs
  exact (Option.some.inj hs).symm

/-- **C57 (nobody else has a say).** The signature a party outputs is fixed by its key share, the message, its own nonce share and the nonce points
broadcast in round 2: nothing else that the other parties send can change it. -/
theorem C57_no_influence (E : Env q I Ep G) (hC : CurveLaws E.C q) (epidOf : BMap I G → BMap I PublicAux → Ep) (message : ZMod q)
    (keyShare : KeyShare I (ZMod q) G) (auxInfo : AuxInfo I PaillierKey PublicAux) (me : I) (hme : me ∈ keyShare.pub.keySet) (d d' : Draws q I)
    (hgamma : d'.gamma = d.gamma) (r r' : Round1 q I Ep G)
    (hr : start E epidOf message keyShare auxInfo me d = .ok r) (hr' : start E epidOf message keyShare auxInfo me d' = .ok r')
    (in1 in1' : List (I × Msg1 q G)) (in2 in2' : List (I × Msg2 q I G)) (in3 in3' : List (I × Msg3 q G)) (in4 in4' : List (I × ZMod q))
    (inErr inErr' : List (I × MsgErr I G))
    (hin : ∀ a ∈ in2, ∀ a' ∈ in2', a.1 = a'.1 → a.2.echo.capGamma = a'.2.echo.capGamma)
    (sig sig' : RecoverableSignature q) (h : run E r in1 in2 in3 in4 inErr = .ok sig) (h' : run E r' in1' in2' in3' in4' inErr' = .ok sig') :
    sig = sig' := by
  classical
  -- everyone else sent a message in both runs
  have key : ∀ {d : Draws q I} {r : Round1 q I Ep G} {in1 : List (I × Msg1 q G)} {in2 : List (I × Msg2 q I G)} {in3 in4 inErr sig},
      start E epidOf message keyShare auxInfo me d = .ok r → run E r in1 in2 in3 in4 inErr = .ok sig →
      (in2.map Prod.fst).Nodup ∧ (in2.map Prod.fst).toFinset = keyShare.pub.keySet.erase me := by
    intro d r in1 in2 in3 in4 inErr sig hr h
    obtain ⟨_, _, _, _, _, _, hoth, _⟩ := start_eq_ok hr
    unfold run toRound4 toRound3 at h
    simp only [Out.bind_eq_ok, finalizeResult_eq_ok] at h
    obtain ⟨_, ⟨_, ⟨r2, h2, _, hc, _⟩, _⟩, _⟩ := h
    obtain ⟨nd, hto, _, _⟩ := collect_eq_ok.1 hc
    rw [toRound2_ok h2, hoth] at hto
    exact ⟨nd, hto⟩
  obtain ⟨nd, hto⟩ := key hr h
  obtain ⟨nd', hto'⟩ := key hr' h'
  let bc : I → G := fun i => if i = me then d.gamma • E.C.g else ((BMap.ofList (in2.map fun a => (a.1, a.2.echo.capGamma))).get? i).getD 0
  have hget : ∀ a ∈ in2, bc a.1 = a.2.echo.capGamma := by
    intro a ha
    have hne : a.1 ≠ me := by
      have : a.1 ∈ keyShare.pub.keySet.erase me := by rw [← hto, List.mem_toFinset]; exact List.mem_map.2 ⟨a, ha, rfl⟩
      exact (Finset.mem_erase.1 this).1
    have hn : ((in2.map fun a => (a.1, a.2.echo.capGamma)).map Prod.fst).Nodup := by
      rw [List.map_map]; exact nd
    have : (BMap.ofList (in2.map fun a => (a.1, a.2.echo.capGamma))).get? a.1 = some a.2.echo.capGamma :=
      (BMap.get?_ofList_eq_some hn).2 (List.mem_map.2 ⟨a, ha, rfl⟩)
    simp only [bc, if_neg hne, this, Option.getD_some]
  refine C57_signature_agreement E hC epidOf message keyShare keyShare rfl auxInfo auxInfo me me hme hme d d' r r' hr hr' in1 in1' in2 in2' in3 in3'
    in4 in4' inErr inErr' bc (if_pos rfl) ?_ (fun a ha => (hget a ha).symm) ?_ sig sig' h h'
  · rw [hgamma]; exact if_pos rfl
  · intro a' ha'
    have hmem : a'.1 ∈ (in2.map Prod.fst).toFinset := by
      rw [hto, ← hto', List.mem_toFinset]; exact List.mem_map.2 ⟨a', ha', rfl⟩
    rw [List.mem_toFinset] at hmem
    obtain ⟨a, ha, he⟩ := List.mem_map.1 hmem
    rw [← hin a ha a' ha' he, ← hget a ha, he]

section Examples

attribute [local instance] Toy.fact11 Toy.order11

/-- Three parties sign; the first two meet the hypotheses of `C57_signature_agreement`, with the points broadcast by all three. -/
example : ∃ (infos : Nat → AuxInfo Nat PaillierKey PublicAux) (r1 : Nat → Round1 11 Nat Nat (ZMod 11)) (sig : RecoverableSignature 11)
    (in1 : Nat → List (Nat × Msg1 11 (ZMod 11))) (in2 : Nat → List (Nat × Msg2 11 Nat (ZMod 11))) (in3 : Nat → List (Nat × Msg3 11 (ZMod 11)))
    (in4 : Nat → List (Nat × ZMod 11)) (broadcast : Nat → ZMod 11), sig.r = 2 ∧ (Toy.signShares 2).pub = (Toy.signShares 1).pub ∧
    ∀ i ∈ Toy.parties, start Toy.signEnv (fun _ _ => 7) (5 : ZMod 11) (Toy.signShares i) (infos i) i (Toy.signDraws i) = .ok (r1 i) ∧
      run Toy.signEnv (r1 i) (in1 i) (in2 i) (in3 i) (in4 i) [] = .ok sig ∧
      i ∈ (Toy.signShares 1).pub.keySet ∧ broadcast i = (Toy.signDraws i).gamma • Toy.signEnv.C.g ∧ in2 i ≠ [] ∧
      ∀ a ∈ in2 i, a.2.echo.capGamma = broadcast a.1 := by
  obtain ⟨infos, haux, hmod⟩ := Toy.exists_signInfos
  have hd : SigningDrawsValid Toy.signEnv.P Toy.parties (fun i => (infos i).secret.modulus) (fun i => (Toy.ringPedersen i).modulus) Toy.signDraws := by
    rw [funext hmod]; exact Toy.signDraws_valid
  have hst := C41_honest_start Toy.signEnv Toy.signEnv_setting (fun _ _ => 7) 5 6 Toy.parties Toy.signShares Toy.signShares_valid infos Toy.ringPedersen haux Toy.signDraws
  have hst' : ∀ i, ∃ r : Round1 11 Nat Nat (ZMod 11), i ∈ Toy.parties →
      start Toy.signEnv (fun _ _ => 7) (5 : ZMod 11) (Toy.signShares i) (infos i) i (Toy.signDraws i) = .ok r := by
    intro i
    by_cases hi : i ∈ Toy.parties
    · obtain ⟨r, -, hr⟩ := hst i hi
      exact ⟨r, fun _ => hr⟩
    · obtain ⟨r, -, hr⟩ := hst 1 (by decide)
      exact ⟨r, fun h => absurd h hi⟩
  choose r1 hr1 using hst'
  obtain ⟨sig, m1, r2, r3, h1, -, -, h4, -, hrun⟩ := C41_honest_signature Toy.signEnv Toy.signEnv_setting (fun _ _ => 7) 5 6 Toy.parties Toy.signShares Toy.signShares_valid
    infos Toy.ringPedersen haux Toy.signDraws hd r1 hr1 (by decide +kernel) (by decide +kernel) (by decide +kernel) (by decide +kernel) (by decide +kernel)
  obtain ⟨h2, hrun⟩ := hrun (fun i => Toy.arrivals (fun j => m1 j i) i) (fun i _ => Toy.arrivals_fromOthers _ i)
  obtain ⟨-, hrun⟩ := hrun (fun i => Toy.arrivals (fun j => msg2 (r2 j)) i) (fun i _ => Toy.arrivals_fromOthers _ i)
  obtain ⟨r4, -, hrun⟩ := hrun (fun i => Toy.arrivals (fun j => (r3 j).msg) i) (fun i _ => Toy.arrivals_fromOthers _ i)
  refine ⟨infos, r1, sig, fun i => Toy.arrivals (fun j => m1 j i) i, fun i => Toy.arrivals (fun j => msg2 (r2 j)) i, _,
    fun i => Toy.arrivals (fun j => (r4 j).sigma) i, fun i => (Toy.signDraws i).gamma • Toy.signEnv.C.g, ?_, rfl,
    fun i hi => ⟨hr1 i hi, hrun _ (fun _ => []) (fun i _ => Toy.arrivals_fromOthers _ i) i hi, ?_, rfl, ?_, ?_⟩⟩
  · rw [h4]; decide +kernel
  · rw [Toy.signShares_valid.holders 1 (by decide)]; exact hi
  · simp only [Toy.parties, Finset.mem_insert, Finset.mem_singleton] at hi
    rcases hi with rfl | rfl | rfl
    · exact List.ne_nil_of_mem (Toy.mem_arrivals (j := 2) (by decide) (by decide))
    · exact List.ne_nil_of_mem (Toy.mem_arrivals (j := 1) (by decide) (by decide))
    · exact List.ne_nil_of_mem (Toy.mem_arrivals (j := 1) (by decide) (by decide))
  · intro a ha
    obtain ⟨j, hj, rfl⟩ := List.mem_map.1 ha
    have hj' := Finset.mem_of_mem_erase (mem_bsetIter.1 hj)
    obtain ⟨_, _, _, _, hG, _⟩ := toRound2_state Toy.signEnv_setting (h2 j hj')
    obtain ⟨_, _, _, _, _, _, _, hdj, _⟩ := start_eq_ok (hr1 j hj')
    rw [hdj] at hG
    exact hG

end Examples

end Synedrion.Props
