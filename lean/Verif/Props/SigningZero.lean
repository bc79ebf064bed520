import Verif.Spec.SigningZero
import Verif.Lemmas.SigningZero
import Verif.Props.HashPoints
import Verif.Props.WireFinish
import Verif.Props.WireResults

/-!
# C97: the draws with which signing fails
-/

set_option linter.unusedSectionVars false

namespace Synedrion.Props

open Spec

variable {I G V Ep : Type} [LinearOrder I] [AddCommGroup G] {q : Nat} [Fact q.Prime] [Module (ZMod q) G] [DecidableEq G] {W : WireFormat G V}

/-- **C97.** Two or more signers that follow the protocol finish over serialized messages, under any schedule and with the panics of hashing identity points, if and only if nobody's share of the key is
zero and none of the scalars is zero that belong to the points that they send. -/
theorem C97_signing (hW : FormatValid W q) (E : Signing.Env q I Ep G) (hS : SigningSetting E) (hg : E.C.g ≠ 0) (hP : W.P = E.P) (hE : SigningHashesFit E)
    (epidOf : BMap I G → BMap I PublicAux → Ep) (message sk : ZMod q) (ids : Finset I) (htwo : 2 ≤ ids.card) (shares : I → KeyShare I (ZMod q) G) (hshares : SharesKey E.C.g ids shares sk)
    (infos : I → AuxInfo I PaillierKey PublicAux) (setup : I → RPSetup) (haux : UsableAux E.P ids infos setup) (hfit : ∀ i ∈ ids, AllValues (AuxFits E.P) (infos i).pub)
    (hmod : ∀ i ∈ ids, (infos i).secret.modulus ≠ 0 ∧ (infos i).secret.modulus < 2 ^ E.P.modBits)
    (d : I → Signing.Draws q I) (hd : SigningDrawsValid E.P ids (fun i => (infos i).secret.modulus) (fun i => (setup i).modulus) d)
    (hdf : ∀ i ∈ ids, SigningDrawsFit E.P ((shares i).pub.keySet.erase i) (d i))
    (r1 : I → Signing.Round1 q I Ep G) (hst : ∀ i ∈ ids, Signing.start E epidOf message (shares i) (infos i) i (d i) = .ok (r1 i))
    (hk : ∑ i ∈ ids, (d i).k ≠ 0) (hgamma : ∑ i ∈ ids, (d i).gamma ≠ 0) (hr : (E.C.x ((∑ i ∈ ids, (d i).gamma) • E.C.g) : ZMod q) ≠ 0)
    (hs : message + (E.C.x ((∑ i ∈ ids, (d i).gamma) • E.C.g) : ZMod q) * sk ≠ 0) (hkey : sk • E.C.g ≠ 0) :
    ∃ (init : I → Signing.State q I Ep G) (sig : RecoverableSignature q),
      (∀ i ∈ ids, Signing.begin E (r1 i) = .ok (init i)) ∧ EcdsaValid E.C (sk • E.C.g) message sig.r sig.s ∧ LowS sig.s ∧
      ((overWire (Signing.machine E) W.signingTransport (Signing.hashPanics E.C.g)).AlwaysFinishes ids init (ids.card * (4 * (ids.card + 1))) (fun _ => sig) ↔
        ∀ i ∈ ids, (shares i).secret ≠ 0 ∧ SigningAvoidsZero sk ids d i) := by
  obtain ⟨init, sig, h0, h1, h2, hiff⟩ := C93_signing hW E hS hg hP hE epidOf message sk ids htwo shares hshares infos setup haux hfit hmod d hd hdf r1 hst hk hgamma hr hs hkey
  refine ⟨init, sig, h0, h1, h2, hiff.trans ?_⟩
  rw [Signing.sendsOnly_iff E hS hg epidOf message sk ids htwo shares hshares infos setup haux d hd r1 hst hk hgamma hr hs hkey init h0]
  exact ⟨fun h i hi => ⟨h.2 i hi, h.1 i hi⟩, fun h => ⟨fun i hi => (h i hi).2, fun i hi => (h i hi).1⟩⟩

/-- The same without the panics of hashing: then shares of the key may be zero. -/
theorem C97_signing_serialization (hW : FormatValid W q) (E : Signing.Env q I Ep G) (hS : SigningSetting E) (hg : E.C.g ≠ 0) (hP : W.P = E.P) (hE : SigningHashesFit E)
    (epidOf : BMap I G → BMap I PublicAux → Ep) (message sk : ZMod q) (panics : Panics I (Signing.Message q I G) (Signing.State q I Ep G))
    (hpan : PanicsOnly (Signing.machine E) panics fun m => ¬ signingNoIdentity m) (ids : Finset I) (htwo : 2 ≤ ids.card) (shares : I → KeyShare I (ZMod q) G)
    (hshares : SharesKey E.C.g ids shares sk)
    (infos : I → AuxInfo I PaillierKey PublicAux) (setup : I → RPSetup) (haux : UsableAux E.P ids infos setup) (hfit : ∀ i ∈ ids, AllValues (AuxFits E.P) (infos i).pub)
    (hmod : ∀ i ∈ ids, (infos i).secret.modulus ≠ 0 ∧ (infos i).secret.modulus < 2 ^ E.P.modBits)
    (d : I → Signing.Draws q I) (hd : SigningDrawsValid E.P ids (fun i => (infos i).secret.modulus) (fun i => (setup i).modulus) d)
    (hdf : ∀ i ∈ ids, SigningDrawsFit E.P ((shares i).pub.keySet.erase i) (d i))
    (r1 : I → Signing.Round1 q I Ep G) (hst : ∀ i ∈ ids, Signing.start E epidOf message (shares i) (infos i) i (d i) = .ok (r1 i))
    (hk : ∑ i ∈ ids, (d i).k ≠ 0) (hgamma : ∑ i ∈ ids, (d i).gamma ≠ 0) (hr : (E.C.x ((∑ i ∈ ids, (d i).gamma) • E.C.g) : ZMod q) ≠ 0)
    (hs : message + (E.C.x ((∑ i ∈ ids, (d i).gamma) • E.C.g) : ZMod q) * sk ≠ 0) (hkey : sk • E.C.g ≠ 0) :
    ∃ (init : I → Signing.State q I Ep G) (sig : RecoverableSignature q),
      (∀ i ∈ ids, Signing.begin E (r1 i) = .ok (init i)) ∧ EcdsaValid E.C (sk • E.C.g) message sig.r sig.s ∧ LowS sig.s ∧
      ((overWire (Signing.machine E) W.signingTransport panics).AlwaysFinishes ids init (ids.card * (4 * (ids.card + 1))) (fun _ => sig) ↔
        ∀ i ∈ ids, SigningAvoidsZero sk ids d i) := by
  obtain ⟨init, sig, h0, h1, h2, hiff⟩ := C92_signing hW E hS hP hE epidOf message sk panics hpan ids shares hshares infos setup haux hfit hmod d hd hdf r1 hst hk hgamma hr hs hkey
  exact ⟨init, sig, h0, h1, h2, hiff.trans (Signing.sendsOnly_iff E hS hg epidOf message sk ids htwo shares hshares infos setup haux d hd r1 hst hk hgamma hr hs hkey init h0)⟩

/-! ### Examples -/

section Examples

attribute [local instance] Toy.fact11 Toy.order11

/-- Draws without zeros -/
def signQuietDraws (i : Nat) : Signing.Draws 11 Nat := { Toy.signDraws i with b := 6, enc0 := Toy.encMasks 3, enc1 := Toy.encMasks 3, hatMta := Toy.mtaDraws (2 * i) }

theorem signQuietDraws_valid : SigningDrawsValid Params.test Toy.parties (fun _ => Toy.primeP * Toy.primeQ) (fun i => (Toy.ringPedersen i).modulus) signQuietDraws where
  nu _ _ := Toy.two_coprime
  rho _ _ := Toy.four_coprime
  enc0 _ _ j _ _ := Toy.encMasks_valid 3 j
  enc1 _ _ j _ _ := Toy.encMasks_valid 3 j
  mta i _ j _ _ := Toy.mtaDraws_valid i j
  hatMta i _ j _ _ := Toy.mtaDraws_valid (2 * i) j

theorem signQuietDrawsFit (i : Nat) (others : Finset Nat) : SigningDrawsFit Params.test others (signQuietDraws i) where
  beta j _ := by
    have h : ∀ n : Nat, ((⟨160, (n % 100 : Nat) - (j % 100 : Nat)⟩ : SInt)).WF Params.test.uint := fun n => by
      refine ⟨show 160 < 256 by decide, ?_⟩
      show ((n % 100 : Nat) - (j % 100 : Nat) : Int).natAbs < 2 ^ 160
      omega
    exact ⟨h i, h (2 * i)⟩
  dec := (signDrawsFit i others).dec
  star := (signDrawsFit i others).star

theorem signQuietDraws_avoid : ∀ i ∈ Toy.parties, (Toy.signShares i).secret ≠ 0 ∧ SigningAvoidsZero 6 Toy.parties signQuietDraws i := by
  intro i hi
  refine ⟨?_, ?_, ?_, ?_, ?_, ?_, ?_⟩ <;> revert i <;> decide +kernel

private theorem infosFit {infos : Nat → AuxInfo Nat PaillierKey PublicAux} (haux : UsableAux Toy.signEnv.P Toy.parties infos Toy.ringPedersen)
    (hmod : ∀ i, (infos i).secret.modulus = Toy.primeP * Toy.primeQ) : ∀ i ∈ Toy.parties, AllValues (AuxFits Params.test) (infos i).pub := by
  intro i hi v hv
  obtain ⟨e, he, rfl⟩ := List.mem_map.1 hv
  have h1 : (infos i).pub.get? e.1 = some e.2 := BMap.get?_eq_some_iff.2 he
  have h2 : e.1 ∈ Toy.parties := by
    rw [← haux.consistent.holders i hi, BMap.mem_keySet]
    exact List.mem_map.2 ⟨e, he, rfl⟩
  rw [haux.consistent.public_agree i hi e.1 h2] at h1
  rw [← Option.some.inj h1]
  refine ⟨?_, ?_⟩
  · show (infos e.1).secret.modulus < _
    rw [hmod]
    decide +kernel
  · show Toy.primeQ * Toy.primeP ≤ _
    decide +kernel

/-- Three parties with 256-bit Paillier keys sign over serialized messages, and always finish. -/
theorem signQuietSession : ∃ (infos : Nat → AuxInfo Nat PaillierKey PublicAux) (r1 : Nat → Signing.Round1 11 Nat Nat (ZMod 11)) (init : Nat → Signing.State 11 Nat Nat (ZMod 11))
    (sig : RecoverableSignature 11), UsableAux Toy.signEnv.P Toy.parties infos Toy.ringPedersen ∧ (∀ i ∈ Toy.parties, AllValues (AuxFits Params.test) (infos i).pub) ∧ (∀ i, (infos i).secret.modulus = Toy.primeP * Toy.primeQ) ∧
    (∀ i ∈ Toy.parties, Signing.start Toy.signEnv (fun _ _ => 7) 5 (Toy.signShares i) (infos i) i (signQuietDraws i) = .ok (r1 i)) ∧
    (∀ i ∈ Toy.parties, Signing.begin Toy.signEnv (r1 i) = .ok (init i)) ∧
    (overWire (Signing.machine Toy.signEnv) toyWire.signingTransport (Signing.hashPanics Toy.signEnv.C.g)).AlwaysFinishes Toy.parties init 48 (fun _ => sig) := by
  obtain ⟨infos, haux, hmod⟩ := Toy.exists_signInfos
  have hd : SigningDrawsValid Toy.signEnv.P Toy.parties (fun i => (infos i).secret.modulus) (fun i => (Toy.ringPedersen i).modulus) signQuietDraws := by
    rw [funext hmod]; exact signQuietDraws_valid
  have hst := C41_honest_start Toy.signEnv Toy.signEnv_setting (fun _ _ => 7) 5 6 Toy.parties Toy.signShares Toy.signShares_valid infos Toy.ringPedersen haux signQuietDraws
  have : Nonempty (Signing.Round1 11 Nat Nat (ZMod 11)) := ⟨(hst 1 (by decide)).choose⟩
  obtain ⟨r1, hr1⟩ := exists_fun hst
  obtain ⟨init, sig, h0, -, -, hiff⟩ := C97_signing toyWire_valid Toy.signEnv Toy.signEnv_setting (by decide) rfl signHashesFit (fun _ _ => 7) 5 6 Toy.parties (by decide) Toy.signShares
    Toy.signShares_valid infos Toy.ringPedersen haux (infosFit haux hmod) (fun i _ => by rw [hmod]; exact ⟨by decide +kernel, by decide +kernel⟩) signQuietDraws hd (fun i _ => signQuietDrawsFit i _) r1
    (fun i hi => (hr1 i hi).2) (by decide +kernel) (by decide +kernel) (by decide +kernel) (by decide +kernel) (by decide +kernel)
  exact ⟨infos, r1, init, sig, haux, infosFit haux hmod, hmod, fun i hi => (hr1 i hi).2, h0, hiff.2 signQuietDraws_avoid⟩

/-- They do not always finish with other draws: with those of `Toy.signDraws`, party 2 has `b * y + gamma = 5 * 6 + 3 = 0`. -/
example : ∃ (infos : Nat → AuxInfo Nat PaillierKey PublicAux) (r1 : Nat → Signing.Round1 11 Nat Nat (ZMod 11)) (init : Nat → Signing.State 11 Nat Nat (ZMod 11))
    (sig : RecoverableSignature 11), (∀ i ∈ Toy.parties, Signing.start Toy.signEnv (fun _ _ => 7) 5 (Toy.signShares i) (infos i) i (Toy.signDraws i) = .ok (r1 i)) ∧
    (∀ i ∈ Toy.parties, Signing.begin Toy.signEnv (r1 i) = .ok (init i)) ∧
    ¬ (overWire (Signing.machine Toy.signEnv) toyWire.signingTransport (Signing.hashPanics Toy.signEnv.C.g)).AlwaysFinishes Toy.parties init 48 (fun _ => sig) := by
  obtain ⟨infos, haux, hmod⟩ := Toy.exists_signInfos
  have hd : SigningDrawsValid Toy.signEnv.P Toy.parties (fun i => (infos i).secret.modulus) (fun i => (Toy.ringPedersen i).modulus) Toy.signDraws := by
    rw [funext hmod]; exact Toy.signDraws_valid
  have hst := C41_honest_start Toy.signEnv Toy.signEnv_setting (fun _ _ => 7) 5 6 Toy.parties Toy.signShares Toy.signShares_valid infos Toy.ringPedersen haux Toy.signDraws
  have : Nonempty (Signing.Round1 11 Nat Nat (ZMod 11)) := ⟨(hst 1 (by decide)).choose⟩
  obtain ⟨r1, hr1⟩ := exists_fun hst
  obtain ⟨init, sig, h0, -, -, hiff⟩ := C97_signing toyWire_valid Toy.signEnv Toy.signEnv_setting (by decide) rfl signHashesFit (fun _ _ => 7) 5 6 Toy.parties (by decide) Toy.signShares
    Toy.signShares_valid infos Toy.ringPedersen haux (infosFit haux hmod) (fun i _ => by rw [hmod]; exact ⟨by decide +kernel, by decide +kernel⟩) Toy.signDraws hd (fun i _ => signDrawsFit i _) r1
    (fun i hi => (hr1 i hi).2) (by decide +kernel) (by decide +kernel) (by decide +kernel) (by decide +kernel) (by decide +kernel)
  exact ⟨infos, r1, init, sig, fun i hi => (hr1 i hi).2, h0, fun h => (hiff.1 h 2 (by decide)).2.elgamal.2 (by decide)⟩

/-- The signature of such a session is what `C96_signing` promises. -/
example : ∃ (init : Nat → Signing.State 11 Nat Nat (ZMod 11)) (n : Net Nat (Packet Nat) (Signing.State 11 Nat Nat (ZMod 11)) (WireErr (Signing.Err Nat)) (RecoverableSignature 11))
    (sig : RecoverableSignature 11),
    (overWire (Signing.machine Toy.signEnv) toyWire.signingTransport (Signing.hashPanics Toy.signEnv.C.g)).Reachable (Toy.parties : Set Nat) init n ∧ n.status 2 = .finished sig ∧
    EcdsaValid Toy.signEnv.C (Toy.signShares 2).pub.values.sum 5 sig.r sig.s := by
  obtain ⟨infos, r1, init, sig, -, hfit, hmod, hst, h0, h⟩ := signQuietSession
  obtain ⟨n, hn, hf⟩ := h.exists_finished
  exact ⟨init, n, sig, hn, hf 2 (by decide), (C96_signing toyWire_valid Toy.signEnv Toy.signEnv_setting.laws rfl Toy.signEnv_setting.consistent signHashesFit (fun _ _ => 7) 5 _ (Toy.parties : Set Nat)
    Toy.signShares infos hfit (fun i _ => by rw [hmod]; exact ⟨by decide +kernel, by decide +kernel⟩) signQuietDraws (fun i _ => signQuietDrawsFit i _) r1 hst init h0 n hn 2 (by decide) sig
    (hf 2 (by decide))).1⟩

end Examples

end Synedrion.Props
