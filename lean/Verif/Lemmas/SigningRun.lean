import Verif.Lemmas.SigningHonest

/-!
# Runs of interactive signing in which all parties are honest up to the end of round 2
-/

set_option linter.unusedSectionVars false

namespace Synedrion.Signing

open Spec Props

variable {q : Nat} [Fact q.Prime] {I Ep G : Type} [LinearOrder I] [AddCommGroup G] [Module (ZMod q) G] [DecidableEq G]

section
variable (E : Env q I Ep G) (hE : SigningSetting E) (epidOf : BMap I G → BMap I PublicAux → Ep) (message sk : ZMod q) (ids : Finset I)
  (shares : I → KeyShare I (ZMod q) G) (hshares : SharesKey E.C.g ids shares sk) (infos : I → AuxInfo I PaillierKey PublicAux) (setup : I → RPSetup)
  (haux : UsableAux E.P ids infos setup) (d : I → Draws q I)
  (hd : SigningDrawsValid E.P ids (fun i => (infos i).secret.modulus) (fun i => (setup i).modulus) d)

/-- The run of the parties -/
def honest : Run q I Ep G where
  E := E
  message := message
  epid := epidOf (BMap.tabulate ids fun j => (shares j).secret • E.C.g)
    (BMap.tabulate ids fun i => ⟨(infos i).secret.p * (infos i).secret.q, (setup i).rp.toWire⟩)
  ids := ids
  shares := shares
  key := fun i => (infos i).secret
  setup := setup
  d := d

include hE hshares haux hd in
theorem honest_good : (honest E epidOf message ids shares infos setup d).Good sk where
  setting := hE
  keys := hshares
  key i hi := facts_of_new (haux.primes i hi).primes (haux.secretKey i hi)
  size i hi := FullSizePrimes.lt (haux.primes i hi) hE.consistent.2.1.1
  big i hi := by
    have hp := haux.primes i hi
    have hm : E.P.modBits = 2 * E.P.primeBits := hE.consistent.2.1.1
    have hpb := FullSizePrimes.primeBits_pos hp
    show 2 ^ (E.P.modBits - 2) ≤ (infos i).secret.p * (infos i).secret.q
    rw [show E.P.modBits - 2 = (E.P.primeBits - 1) + (E.P.primeBits - 1) by omega, pow_add]
    exact Nat.mul_le_mul hp.lowP hp.lowQ
  rpPos i hi := by have := haux.rpOdd i hi; show 0 < (setup i).modulus; omega
  rpSize := haux.rpSize
  rpValid := haux.rpValid
  draws := hd

include hE hshares haux in
theorem honest_start {i : I} (hi : i ∈ ids) :
    start E epidOf message (shares i) (infos i) i (d i) = .ok ((honest E epidOf message ids shares infos setup d).r1 i) := by
  have hpub : (shares i).pub = BMap.tabulate ids fun j => (shares j).secret • E.C.g :=
    BMap.eq_tabulate_of (hshares.holders i hi) (fun j hj => hshares.public_matches i hi j hj)
  have haux' : (infos i).pub = BMap.tabulate ids fun i => ⟨(infos i).secret.p * (infos i).secret.q, (setup i).rp.toWire⟩ :=
    BMap.eq_tabulate_of (haux.consistent.holders i hi) (fun j hj => haux.consistent.public_agree i hi j hj)
  unfold start
  rw [if_neg (by rw [hshares.owner i hi, haux.consistent.owner i hi]; simp)]
  simp only [signedOfSecret_ok hE, Out.bind_ok]
  rw [hpub, haux', traverse_tabulate_ok (w := fun j => (⟨(infos j).secret.modulus, setup j⟩ : PubAux)), Out.bind_ok, enc_eq (signedI_fits hE _), Out.bind_ok,
    enc_eq (signedI_fits hE _), Out.bind_ok, BMap.keySet_tabulate]
  · rfl
  · intro j hj
    unfold precompute publicModulusNew
    simp only
    rw [if_pos (odd_of_primes (haux.primes j hj).primes), Out.bind_ok]
    refine (congrArg (fun o : Out LocalErr (RPParams (setup j).modulus) => o.bind fun rp => Out.ok (⟨_, ⟨(setup j).modulus, rp⟩⟩ : PubAux))
      (toPrecomputed_toWire (haux.rpOdd j hj) (setup j).rp)).trans ?_
    rfl

end

/-- Rounds 1 and 2 of a run -/
theorem Run.good_rounds {S : Run q I Ep G} {sk : ZMod q} (good : S.Good sk) :
    ∃ (m1 : I → I → Msg1 q G) (o : I → I → MtaOut q G × MtaOut q G), S.BothDone o ∧
      (∀ i ∈ S.ids, ∀ j ∈ S.ids, i ≠ j → S.Sent1 i j (m1 i j)) ∧
      ∀ in1 : I → List (I × Msg1 q G), (∀ i ∈ S.ids, FromOthers S.ids i (fun j => m1 j i) (in1 i)) →
        (∀ i ∈ S.ids, toRound2 S.E (S.r1 i) (in1 i) = .ok (S.r2 o i)) ∧
        ∀ in2 : I → List (I × Msg2 q I G), (∀ i ∈ S.ids, FromOthers S.ids i (fun j => msg2 (S.r2 o j)) (in2 i)) →
          ∀ i ∈ S.ids, toRound3 S.E (S.r1 i) (in1 i) (in2 i) = .ok (S.r3 o i) := by
  -- the messages of round 1
  have hm1 : ∀ i j, ∃ m : Msg1 q G, i ∈ S.ids → j ∈ S.ids → i ≠ j → S.Sent1 i j m := by
    intro i j
    by_cases hij : i ∈ S.ids ∧ j ∈ S.ids ∧ i ≠ j
    · obtain ⟨m, hm⟩ := good.sent1 hij.1 hij.2.1 hij.2.2
      exact ⟨m, fun _ _ _ => hm⟩
    · have p : EncElgProof q G := ⟨0, 0, 0, 0, 0, 0, ⟨0, 0⟩, 0, 0, ⟨0, 0⟩⟩
      exact ⟨⟨⟨0, 0, 0, 0, 0, 0, 0⟩, p, p⟩, fun a b c => absurd ⟨a, b, c⟩ hij⟩
  choose m1 hm1 using hm1
  obtain ⟨o, ho⟩ := good.bothDone
  refine ⟨m1, o, ho, fun i hi j hj hij => hm1 i j hi hj hij, fun in1 h1 => ?_⟩
  have t2 : ∀ i ∈ S.ids, toRound2 S.E (S.r1 i) (in1 i) = .ok (S.r2 o i) := by
    intro i hi
    unfold toRound2
    have hsend : send1 S.E (S.r1 i) = .ok ((bsetIter (S.ids.erase i)).map fun j => (j, m1 i j)) := by
      unfold send1
      refine Out.mapM'_ok_of_forall (g := fun j => (j, m1 i j)) fun j hj => ?_
      obtain ⟨hne, hj⟩ := Finset.mem_erase.1 (mem_bsetIter.1 hj)
      rw [finalizeResult_eq_ok.2 (hm1 i j hi hj (Ne.symm hne)).sent, Out.bind_ok]
    rw [hsend, Out.bind_ok]
    have hc := collect_others (h1 i hi) (recv := recv1 S.E (S.ctx i)) (pl := S.pl1) (fun j hj hne => (hm1 j i hj hi hne).accepted)
    refine (congrArg (fun x => Out.bind x _) hc).trans ?_
    rw [Out.bind_ok]
    exact finalizeResult_eq_ok.2 (good.finalize1 ho hi)
  refine ⟨t2, fun in2 h2 => ?_⟩
  have t3 : ∀ i ∈ S.ids, toRound3 S.E (S.r1 i) (in1 i) (in2 i) = .ok (S.r3 o i) := by
    intro i hi
    unfold toRound3
    rw [t2 i hi, Out.bind_ok]
    have hc := collect_others (h2 i hi) (recv := Signing.recv2 S.E (S.r2 o i)) (pl := fun j => S.pl2 o j i) (fun j hj hne => good.recv2 ho hj hi hne)
    refine (congrArg (fun x => Out.bind x _) hc).trans ?_
    rw [Out.bind_ok]
    exact finalizeResult_eq_ok.2 (Run.finalize2_ok hi)
  exact t3

end Synedrion.Signing
