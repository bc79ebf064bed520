import Verif.Lemmas.SigningEquivocate
import Verif.Props.SigningError

/-!
# Parties can take part in the rounds about a failure if the first two rounds went well
-/

set_option linter.unusedSectionVars false

namespace Synedrion.Signing

open Spec

variable {q : Nat} [Fact q.Prime] {I Ep G : Type} [LinearOrder I] [AddCommGroup G] [Module (ZMod q) G] [DecidableEq G]

/-- If everybody has followed the protocol in rounds 1 and 2, then a party that comes to a round about a failure can make its message for it, whatever it received in round 3. -/
theorem msgErr_after_honest (E : Env q I Ep G) (hE : SigningSetting E) (epidOf : BMap I G → BMap I PublicAux → Ep) (message sk : ZMod q)
    (ids : Finset I) (shares : I → KeyShare I (ZMod q) G) (hshares : SharesKey E.C.g ids shares sk) (infos : I → AuxInfo I PaillierKey PublicAux) (setup : I → RPSetup)
    (haux : UsableAux E.P ids infos setup) (d : I → Draws q I)
    (hd : SigningDrawsValid E.P ids (fun i => (infos i).secret.modulus) (fun i => (setup i).modulus) d) (c : Nat) (hfew : FewParties E.P ids.card c)
    (hderr : ∀ i ∈ ids, ErrorDrawsValid E (ids.erase i) (infos i).secret.modulus (fun j => (infos j).secret.modulus) c (d i))
    (r1 : I → Round1 q I Ep G) (hst : ∀ i ∈ ids, start E epidOf message (shares i) (infos i) i (d i) = .ok (r1 i))
    (m1 : I → I → Msg1 q G) (hm1 : ∀ i ∈ ids, ∀ j ∈ ids, i ≠ j → msg1 E (r1 i) j = .ok (m1 i j))
    (in1 : I → List (I × Msg1 q G)) (f1 : ∀ i ∈ ids, FromOthers ids i (fun j => m1 j i) (in1 i))
    (r2 : I → Round2 q I Ep G) (h2 : ∀ i ∈ ids, toRound2 E (r1 i) (in1 i) = .ok (r2 i))
    (in2 : I → List (I × Msg2 q I G)) (f2 : ∀ i ∈ ids, FromOthers ids i (fun j => msg2 (r2 j)) (in2 i))
    (i : I) (hi : i ∈ ids) (in3 : List (I × Msg3 q G)) (r : ErrRound q I Ep G) (h4 : toRound4 E (r1 i) (in1 i) (in2 i) in3 = .ok (.error r)) :
    ∃ m, msgErr E r = .ok m := by
  obtain ⟨S, hS⟩ : ∃ S, S = Signing.honest E epidOf message ids shares infos setup d := ⟨_, rfl⟩
  have good : S.Good sk := hS ▸ honest_good E hE epidOf message sk ids shares hshares infos setup haux d hd
  have hr1 : ∀ i ∈ ids, r1 i = S.r1 i := by
    intro i hi
    have h := hst i hi
    rw [honest_start E hE epidOf message sk ids shares hshares infos setup haux d hi] at h
    rw [hS]; exact (Out.ok.inj h).symm
  have hids : S.ids = ids := by rw [hS]; rfl
  have hSE : S.E = E := by rw [hS]; rfl
  have hN : ∀ j, S.N j = (infos j).secret.modulus := by rw [hS]; intro j; rfl
  obtain ⟨m1', o, ho, hm1', hrounds⟩ := Run.good_rounds good
  clear hS
  subst hids hSE
  have e1 : ∀ i ∈ S.ids, ∀ j ∈ S.ids, i ≠ j → m1 i j = m1' i j := by
    intro i hi j hj hij
    have h := hm1 i hi j hj hij
    rw [hr1 i hi, (hm1' i hi j hj hij).sent] at h
    exact (Out.ok.inj h).symm
  obtain ⟨t2, -⟩ := hrounds in1 (fun i hi => fromOthers_congr_ne (f1 i hi) fun j hj hji => e1 j hj i hi hji)
  have e2 : ∀ i ∈ S.ids, r2 i = S.r2 o i := by
    intro i hi
    have h := h2 i hi
    rw [hr1 i hi, t2 i hi] at h
    exact (Out.ok.inj h).symm
  have hkeys : (shares i).pub.keySet = S.ids := hshares.holders i hi
  obtain ⟨m, hm, -⟩ := Props.C51_honest_survives_error_round hE epidOf message (shares i) (infos i) i (d i) (by rw [hkeys]; exact hi) (hshares.public_matches i hi i hi)
    (fun i => ⟨(infos i).secret.p * (infos i).secret.q, (setup i).rp.toWire⟩) (by rw [hkeys]; exact fun j hj => haux.consistent.public_agree i hi j hj) rfl
    (haux.primes i hi) (haux.secretKey i hi) c (by rw [hkeys]; exact hfew) (by rw [hkeys]; exact hderr i hi) (r1 i) (hst i hi) (in1 i) (in2 i) in3
    (fun j m hm => by
      obtain ⟨hj, hji, hm⟩ := ((f1 i hi).2 (j, m)).1 hm
      rw [show m = m1 j i from hm, e1 j hj i hi hji]
      have := (hm1' j hj i hi hji).unit_capK good hj
      rwa [hN] at this)
    (fun j m hm w hw => by
      obtain ⟨hj, hji, hm⟩ := ((f2 i hi).2 (j, m)).1 hm
      rw [show m = msg2 (r2 j) from hm, e2 j hj] at hw
      have := ho.inMtaRange good hj hi hji hw
      rwa [hN] at this) r h4
  exact ⟨m, hm⟩

end Synedrion.Signing
