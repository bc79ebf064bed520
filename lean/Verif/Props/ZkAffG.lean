import Verif.Lemmas.Zk
import Mathlib.Tactic.Module
import Mathlib.Tactic.Abel

/-!
# Properties C28, C29: the proofs of affine operations (aff-g and aff-g*)
-/

set_option linter.unusedSectionVars false

namespace Synedrion.Props
open Spec

variable {ε : Type} {q : Nat} {G Aux : Type} [AddCommGroup G] [Module (ZMod q) G] [DecidableEq G]

/-- The relation proved by aff-g and aff-g* proofs (CGGMP'24, Fig. 25, with the signs of `y` used by the code): for the invertible ciphertext
`C`, `D = C^x · enc₀(-y; rho)`, `Y = enc₁(y; rhoY)`, `X = x g`, `x ∈ ±2^L` and `y ∈ ±2^L'`. -/
structure AffGRelation (P : Params) (N0 N1 : Nat) (g : G) (q : Nat) [Module (ZMod q) G] (pub : AffGPublic N0 N1 G) (x y : Int) (rho rhoY : Nat) : Prop where
  rangeX : InPm P.L x
  rangeY : InPm P.LP y
  capD : ∃ c : (ZMod (N0 ^ 2))ˣ, pub.capC = (c : ZMod (N0 ^ 2)) ∧
    ∃ d, Encrypts N0 (-y) rho d ∧ pub.capD = ((c ^ x : (ZMod (N0 ^ 2))ˣ) : ZMod (N0 ^ 2)) * d
  capY : Encrypts N1 y rhoY pub.capY
  randomizer : Nat.Coprime rho N0
  randomizerY : Nat.Coprime rhoY N1
  capX : pub.capX = (x : ZMod q) • g

/-- The masks the aff-g prover may draw. -/
structure AffGMasksValid (P : Params) (N0 N1 Nh : Nat) (mask : AffGMasks) : Prop where
  alpha : mask.alpha.IsDraw (P.L + P.EPS)
  beta : mask.beta.IsDraw (P.LP + P.EPS)
  r : Nat.Coprime mask.r N0
  rY : Nat.Coprime mask.rY N1
  gamma : mask.gamma.IsScaledDraw (P.L + P.EPS) Nh
  m : mask.m.IsScaledDraw P.L Nh
  delta : mask.delta.IsScaledDraw (P.L + P.EPS) Nh
  mu : mask.mu.IsScaledDraw P.L Nh

/-- What is required of the setting. -/
structure AffGSetting (P : Params) (q N0 N1 : Nat) {Nh : Nat} (setup : RPParams Nh) : Prop where
  consistent : P.SelfConsistent
  order : q < 2 ^ P.numBits
  curve : 0 < P.numBits
  pos0 : 0 < N0
  pos1 : 0 < N1
  hatPos : 0 < Nh
  hatSize : Nh < 2 ^ P.modBits
  bases : setup.Valid

/-- **C28 (honest proofs).** For a true statement the prover does not panic, the responses are the masks plus the secrets times the challenge,
and the verifier returns exactly whether both responses lie in their intervals. -/
theorem C28_honest [NeZero q] {P : Params} (H : AffGHash G Aux → ZMod q) (g : G) {N0 N1 Nh : Nat} (setup : RPParams Nh)
    (hset : AffGSetting P q N0 N1 setup) (x y : SInt) (hx : x.Fits) (hxb : x.bound ≤ P.L) (hy : y.Fits) (hyb : y.bound ≤ P.LP)
    (rho rhoY : Nat) (pub : AffGPublic N0 N1 G) (hrel : AffGRelation P N0 N1 g q pub x.val y.val rho rhoY) (aux : Aux) (mask : AffGMasks)
    (hmask : AffGMasksValid P N0 N1 Nh mask) :
    ∃ prf : AffGProof q G, (AffGProof.prove P H g x y rho rhoY pub setup aux mask : Out ε _) = .ok prf ∧
      prf.z1.val = mask.alpha.val + x.val * prf.e.val ∧ prf.z2.val = mask.beta.val - y.val * prf.e.val ∧
      (prf.verify P H g pub setup aux : Out ε _) =
        .ok (decide (InPm (P.L + P.EPS) (mask.alpha.val + x.val * prf.e.val)) &&
          decide (InPm (P.LP + P.EPS) (mask.beta.val - y.val * prf.e.val))) := by
  obtain ⟨⟨hc0, ⟨hm1, hm2, hm3, hm4, hm5, hm6⟩, hs1, hs2, hs3, hs4, hs5, hs6, hs7⟩, hq, hnb, hN0, hN1, hNh, hNhb, ⟨⟨s, hs⟩, ⟨t, ht⟩⟩⟩ := hset
  obtain ⟨hr1, hr2, ⟨c, hc, d, hd, hD⟩, hY, hρ, hρY, hX⟩ := hrel
  obtain ⟨ha, hb, hrc, hryc, hga, hm, hde, hmu⟩ := hmask
  have hL : 0 < P.L := hnb
  have hLE : 0 < P.L + P.EPS := by omega
  have hLPE : 0 < P.LP + P.EPS := by omega
  have hbl : bitLen Nh ≤ P.modBits := bitLen_le_iff.2 hNhb
  obtain ⟨ur, hur⟩ := natCast_unit_sq hrc
  obtain ⟨ury, hury⟩ := natCast_unit_sq hryc
  obtain ⟨uρ, huρ⟩ := natCast_unit_sq hρ
  obtain ⟨uρy, huρy⟩ := natCast_unit_sq hρY
  have fα := ha.fits hLE
  have fβ := hb.fits hLPE
  have fγ := hga.fits hLE
  have fm := hm.fits hL
  have fδ := hde.fits hLE
  have fμ := hmu.fits hL
  have fy := SInt.neg_fits hy
  have bα : mask.alpha.bound = P.L + P.EPS := ha.1
  have bβ : mask.beta.bound = P.LP + P.EPS := hb.1
  have bγ : mask.gamma.bound = P.L + P.EPS + bitLen Nh := hga.1
  have bm : mask.m.bound = P.L + bitLen Nh := hm.1
  have bδ : mask.delta.bound = P.L + P.EPS + bitLen Nh := hde.1
  have bμ : mask.mu.bound = P.L + bitLen Nh := hmu.1
  have hYu := Encrypts_unit hY huρy
  have hdu := Encrypts_unit hd huρ
  have hDu : pub.capD = ((c ^ x.val * encU N0 (-y.val) uρ : (ZMod (N0 ^ 2))ˣ) : Ct N0) := by rw [hD, hdu]; rfl
  set capA : (ZMod (N0 ^ 2))ˣ := c ^ mask.alpha.val * encU N0 mask.beta.val ur with hcapA
  set capBx := scalarOfSigned q mask.alpha • g with hcapBx
  set capBy : (ZMod (N1 ^ 2))ˣ := encU N1 mask.beta.val ury with hcapBy
  set capE : (ZMod Nh)ˣ := comU s t mask.alpha.val mask.gamma.val with hcapE
  set capS : (ZMod Nh)ˣ := comU s t x.val mask.m.val with hcapS
  set capF : (ZMod Nh)ˣ := comU s t mask.beta.val mask.delta.val with hcapF
  set capT : (ZMod Nh)ˣ := comU s t y.neg.val mask.mu.val with hcapT
  set e := H (affGHash (ctToWire (capA : Ct N0)) capBx (ctToWire (capBy : Ct N1)) (commitmentToWire (capE : ZMod Nh))
    (commitmentToWire (capF : ZMod Nh)) (commitmentToWire (capS : ZMod Nh)) (commitmentToWire (capT : ZMod Nh)) pub setup aux) with he
  have fe : (signedOfScalar P e).Fits := signedOfScalar_fits hq e
  have be : (signedOfScalar P e).bound = P.L := rfl
  have ve : (signedOfScalar P e).val = (e.val : Int) := rfl
  have byneg : y.neg.bound = y.bound := rfl
  obtain ⟨w, hw, hwe⟩ := toMasked_ok (ε := ε) hN0 huρ hur fe
  obtain ⟨wY, hwY, hwYe⟩ := toMasked_ok (ε := ε) hN1 huρy hury (SInt.neg_fits fe)
  have hz1 := SInt.mulAdd_ok (ε := ε) (w := P.uint) (a := mask.alpha) (x := x) (e := signedOfScalar P e) (by rw [be]; omega)
    (by rw [be, bα]; omega)
  have hz2 := SInt.mulAdd_ok (ε := ε) (w := P.uint) (a := mask.beta) (x := y.neg) (e := signedOfScalar P e) (by rw [be, byneg]; omega)
    (by rw [be, bβ, byneg]; omega)
  have hz3 := SInt.mulAdd_ok (ε := ε) (w := P.wide) (a := mask.gamma) (x := mask.m) (e := signedOfScalar P e) (by rw [be, bm]; omega)
    (by rw [be, bm, bγ]; omega)
  have hz4 := SInt.mulAdd_ok (ε := ε) (w := P.wide) (a := mask.delta) (x := mask.mu) (e := signedOfScalar P e) (by rw [be, bμ]; omega)
    (by rw [be, bμ, bδ]; omega)
  have f1 := SInt.mulAdd_fits fα hx fe
  have f2 := SInt.mulAdd_fits fβ fy fe
  have f3 := SInt.mulAdd_fits fγ fm fe
  have f4 := SInt.mulAdd_fits fδ fμ fe
  generalize hzz1 : (⟨max mask.alpha.bound (x.bound + (signedOfScalar P e).bound) + 1,
    mask.alpha.val + x.val * (signedOfScalar P e).val⟩ : SInt) = z1 at hz1 f1
  generalize hzz2 : (⟨max mask.beta.bound (y.neg.bound + (signedOfScalar P e).bound) + 1,
    mask.beta.val + y.neg.val * (signedOfScalar P e).val⟩ : SInt) = z2 at hz2 f2
  generalize hzz3 : (⟨max mask.gamma.bound (mask.m.bound + (signedOfScalar P e).bound) + 1,
    mask.gamma.val + mask.m.val * (signedOfScalar P e).val⟩ : SInt) = z3 at hz3 f3
  generalize hzz4 : (⟨max mask.delta.bound (mask.mu.bound + (signedOfScalar P e).bound) + 1,
    mask.delta.val + mask.mu.val * (signedOfScalar P e).val⟩ : SInt) = z4 at hz4 f4
  have vy : y.neg.val = -y.val := rfl
  have vz1 : z1.val = mask.alpha.val + x.val * e.val := by rw [← hzz1]; rfl
  have vz2 : z2.val = mask.beta.val - y.val * e.val := by
    rw [← hzz2]; change mask.beta.val + -y.val * (e.val : Int) = _; ring
  have vz3 : z3.val = mask.gamma.val + mask.m.val * e.val := by rw [← hzz3]; rfl
  have vz4 : z4.val = mask.delta.val + mask.mu.val * e.val := by rw [← hzz4]; rfl
  refine ⟨⟨e, ctToWire (capA : Ct N0), capBx, ctToWire (capBy : Ct N1), commitmentToWire (capE : ZMod Nh), commitmentToWire (capS : ZMod Nh),
    commitmentToWire (capF : ZMod Nh), commitmentToWire (capT : ZMod Nh), z1, z2, z3, z4, w, wY⟩, ?_, vz1, vz2, ?_⟩
  · unfold AffGProof.prove
    rw [SInt.assertRange_ok hr1, Out.bind_ok, SInt.assertRange_ok hr2, Out.bind_ok, hc, ctMulSecret_unit _ fα, Out.bind_ok, enc_unit fβ hur,
      Out.bind_ok, enc_unit fβ hury, Out.bind_ok, commitSecret_unit hs ht fα fγ, Out.bind_ok, commitSecret_unit hs ht hx fm, Out.bind_ok,
      commitSecret_unit hs ht fβ fδ, Out.bind_ok, commitSecret_unit hs ht fy fμ, Out.bind_ok]
    simp only [SInt.toWide, ctAdd_unit]
    rw [← hcapA, ← hcapBx, ← hcapBy, ← hcapE, ← hcapS, ← hcapF, ← hcapT, ← he, hz1, Out.bind_ok, hz2, Out.bind_ok, hz3, Out.bind_ok,
      hz4, Out.bind_ok, hw, Out.bind_ok, hwY, Out.bind_ok]
  · unfold AffGProof.verify
    simp only []
    rw [← he, decide_eq_true rfl, Out.check_true, SInt.inRange_eq, SInt.inRange_eq, vz1, vz2]
    by_cases hin1 : InPm (P.L + P.EPS) (mask.alpha.val + x.val * e.val)
    · rw [decide_eq_true hin1, Out.check_true, Bool.true_and]
      by_cases hin2 : InPm (P.LP + P.EPS) (mask.beta.val - y.val * e.val)
      · rw [decide_eq_true hin2, Out.check_true, hc, ctMulPublic_unit _ f1, Out.bind_ok, hDu, ctMulPublic_unit _ fe, Out.bind_ok, ctWire hN0,
          hwe, ctAdd_unit, ctAdd_unit]
        have eq1 : c ^ z1.val * encU N0 z2.val (uρ ^ (signedOfScalar P e).val * ur)
            = (c ^ x.val * encU N0 (-y.val) uρ) ^ (signedOfScalar P e).val * capA := by
          rw [hcapA, mul_zpow, encU_zpow, mul_mul_mul_comm, encU_mul, ← zpow_mul, ← zpow_add, vz1, vz2, ve]
          congr 1
          · rw [add_comm]
          · congr 1; ring
        have eq2 : scalarOfSigned q z1 • g = capBx + e • pub.capX := by
          rw [hcapBx, hX]; unfold scalarOfSigned; rw [vz1]
          have : ((mask.alpha.val + x.val * (e.val : Int) : Int) : ZMod q) = (mask.alpha.val : ZMod q) + (x.val : ZMod q) * e := by
            push_cast; simp
          rw [this]; module
        have eq3 : encU N1 z2.val (uρy ^ (signedOfScalar P e).neg.val * ury) = encU N1 y.val uρy ^ (signedOfScalar P e).neg.val * capBy := by
          rw [hcapBy, encU_zpow, encU_mul, vz2]
          change encU N1 _ (uρy ^ (-(e.val : Int)) * ury) = encU N1 (y.val * -(e.val : Int) + _) (uρy ^ (-(e.val : Int)) * ury)
          congr 1; ring
        rw [eq1, decide_eq_true rfl, Out.check_true, decide_eq_true eq2, Out.check_true, hYu, ctMulPublic_unit _ (SInt.neg_fits fe),
          Out.bind_ok, ctWire hN1, hwYe, ctAdd_unit, eq3, decide_eq_true rfl, Out.check_true,
          commitPublic_unit hs ht f1 f3, Out.bind_ok, commitmentWire hNh, commitmentWire hNh, powPublic_unit _ fe, Out.bind_ok, ← Units.val_mul]
        have eq4 : comU s t z1.val z3.val = capE * capS ^ (signedOfScalar P e).val := by
          rw [hcapE, hcapS, comU_zpow, comU_mul, vz1, vz3, ve]
        have eq5 : comU s t z2.val z4.val = capF * capT ^ (signedOfScalar P e).val := by
          rw [hcapF, hcapT, comU_zpow, comU_mul, vz2, vz4, ve, vy]; congr 1; ring
        rw [eq4, decide_eq_true rfl, Out.check_true, commitPublic_unit hs ht f2 f4, Out.bind_ok, commitmentWire hNh, commitmentWire hNh,
          powPublic_unit _ fe, Out.bind_ok, ← Units.val_mul, eq5, decide_eq_true rfl, Out.check_true]
      · rw [decide_eq_false hin2, Out.check_false]
    · rw [decide_eq_false hin1, Out.check_false, Bool.false_and]

/-- **C28 (inner intervals).** If the two masks keep the distances `2^(2L-1)` and `2^(L'+L-1)` from the ends of their intervals then the
honest proof verifies. -/
theorem C28_inner_masks_accepted [NeZero q] {P : Params} (H : AffGHash G Aux → ZMod q) (g : G) {N0 N1 Nh : Nat} (setup : RPParams Nh)
    (hset : AffGSetting P q N0 N1 setup) (x y : SInt) (hx : x.Fits) (hxb : x.bound ≤ P.L) (hy : y.Fits) (hyb : y.bound ≤ P.LP)
    (rho rhoY : Nat) (pub : AffGPublic N0 N1 G) (hrel : AffGRelation P N0 N1 g q pub x.val y.val rho rhoY) (aux : Aux) (mask : AffGMasks)
    (hmask : AffGMasksValid P N0 N1 Nh mask)
    (hinner1 : mask.alpha.val.natAbs + 2 ^ (P.L + P.L - 1) ≤ 2 ^ (P.L + P.EPS - 1))
    (hinner2 : mask.beta.val.natAbs + 2 ^ (P.LP + P.L - 1) ≤ 2 ^ (P.LP + P.EPS - 1)) :
    ((AffGProof.prove P H g x y rho rhoY pub setup aux mask).bind fun prf => prf.verify P H g pub setup aux : Out ε _) = .ok true := by
  obtain ⟨prf, h1, _, _, h2⟩ := C28_honest (ε := ε) H g setup hset x y hx hxb hy hyb rho rhoY pub hrel aux mask hmask
  rw [h1, Out.bind_ok, h2]
  have he : prf.e.val < 2 ^ P.L := lt_trans (ZMod.val_lt _) hset.order
  have hL : 0 < P.L := hset.curve
  have i1 : InPm (P.L + P.EPS) (mask.alpha.val + x.val * prf.e.val) :=
    inPm_add_of_inner (secret_mul_challenge_lt hL hrel.rangeX he) hinner1
  have i2 : InPm (P.LP + P.EPS) (mask.beta.val - y.val * prf.e.val) := by
    rw [sub_eq_add_neg]
    refine inPm_add_of_inner (c := 2 ^ (P.LP + P.L - 1)) ?_ hinner2
    rw [Int.natAbs_neg]
    exact secret_mul_challenge_lt (by unfold Params.LP; omega) hrel.rangeY he
  rw [decide_eq_true i1, decide_eq_true i2]; rfl

/-- **C28 (out of range).** A proof with either response outside its interval is rejected, without a panic, whatever the rest of it. -/
theorem C28_out_of_range_rejected {P : Params} (H : AffGHash G Aux → ZMod q) (g : G) {N0 N1 Nh : Nat} (setup : RPParams Nh)
    (pub : AffGPublic N0 N1 G) (aux : Aux) (prf : AffGProof q G)
    (hout : ¬ InPm (P.L + P.EPS) prf.z1.val ∨ ¬ InPm (P.LP + P.EPS) prf.z2.val) :
    (prf.verify P H g pub setup aux : Out ε _) = .ok false := by
  simp only [AffGProof.verify]
  rw [SInt.inRange_eq, SInt.inRange_eq]
  generalize decide (_ = prf.e) = c
  cases c
  · rfl
  · rw [Out.check_true]
    by_cases h1 : InPm (P.L + P.EPS) prf.z1.val
    · have h2 := hout.resolve_left (not_not.2 h1)
      rw [decide_eq_true h1, decide_eq_false h2]; rfl
    · rw [decide_eq_false h1]; rfl

/-- **C28 (decision).** If the verifier accepts then the challenge is the hash of the whole context, both responses are in range, and all
equations hold. -/
theorem C28_accepted [NeZero q] {P : Params} (H : AffGHash G Aux → ZMod q) (g : G) {N0 N1 Nh : Nat} (setup : RPParams Nh)
    (hq : q < 2 ^ P.numBits) (pub : AffGPublic N0 N1 G) (aux : Aux) (prf : AffGProof q G)
    (h : (prf.verify P H g pub setup aux : Out ε _) = .ok true) :
    prf.e = H ⟨prf.capA, prf.capBx, prf.capBy, prf.capE, prf.capF, prf.capS, prf.capT, N0, N1, pub.capC.val, pub.capD.val, pub.capY.val,
      pub.capX, setup.toWire, aux⟩ ∧
    InPm (P.L + P.EPS) prf.z1.val ∧ InPm (P.LP + P.EPS) prf.z2.val ∧
    (∃ cz, (ctMulPublic pub.capC prf.z1 : Out ε _) = .ok cz ∧ ∃ d, Encrypts N0 prf.z2.val prf.w d ∧
      cz * d = pub.capD ^ prf.e.val * (prf.capA : ZMod (N0 ^ 2))) ∧
    (prf.z1.val : ZMod q) • g = prf.capBx + prf.e • pub.capX ∧
    (∃ ye, (ctMulPublic pub.capY ⟨P.L, -(prf.e.val : Int)⟩ : Out ε _) = .ok ye ∧ Encrypts N1 prf.z2.val prf.wY (ye * (prf.capBy : ZMod (N1 ^ 2)))) ∧
    (setup.commitPublic prf.z1 prf.z3 : Out ε _) = .ok ((prf.capE : ZMod Nh) * (prf.capS : ZMod Nh) ^ prf.e.val) ∧
    (setup.commitPublic prf.z2 prf.z4 : Out ε _) = .ok ((prf.capF : ZMod Nh) * (prf.capT : ZMod Nh) ^ prf.e.val) := by
  simp only [AffGProof.verify] at h
  obtain ⟨h1, h⟩ := Out.check_eq_true.1 h
  obtain ⟨h2, h⟩ := Out.check_eq_true.1 h
  obtain ⟨h3, h⟩ := Out.check_eq_true.1 h
  have h1 := of_decide_eq_true h1
  rw [h1] at h
  have hpow := fun {n : Nat} (a : ZMod n) => powPublic_scalar (ε := ε) hq prf.e a
  obtain ⟨cz, h4, h⟩ := Out.bind_eq_ok.1 h
  unfold ctMulPublic at h
  rw [hpow, Out.bind_ok] at h
  obtain ⟨h5, h⟩ := Out.check_eq_true.1 h
  obtain ⟨h6, h⟩ := Out.check_eq_true.1 h
  obtain ⟨ye, h7, h⟩ := Out.bind_eq_ok.1 h
  obtain ⟨h8, h⟩ := Out.check_eq_true.1 h
  obtain ⟨lhs1, h9, h⟩ := Out.bind_eq_ok.1 h
  rw [hpow, Out.bind_ok] at h
  obtain ⟨h10, h⟩ := Out.check_eq_true.1 h
  obtain ⟨lhs2, h11, h⟩ := Out.bind_eq_ok.1 h
  rw [hpow, Out.bind_ok] at h
  obtain ⟨h12, _⟩ := Out.check_eq_true.1 h
  have h5 := of_decide_eq_true h5
  have h8 := of_decide_eq_true h8
  rw [encPublic_eq] at h5 h8
  refine ⟨h1.symm, of_decide_eq_true h2, of_decide_eq_true h3, ⟨cz, h4, _, rfl, h5⟩, of_decide_eq_true h6, ⟨ye, h7, h8.symm⟩, ?_, ?_⟩
  · rw [h9, of_decide_eq_true h10]; rfl
  · rw [h11, of_decide_eq_true h12]; rfl

/-! ### A concrete case -/

section Examples

private def toySetup : RPParams 77 := ⟨4, 16⟩

private theorem toySetting : AffGSetting Params.test 11 77 35 toySetup :=
  ⟨by decide, by decide, by decide, by decide, by decide, by decide, by decide,
    ⟨IsUnit.of_mul_eq_one (a := (16 : ZMod 77)) 53 (by decide), IsUnit.of_mul_eq_one (a := (4 : ZMod 77)) 58 (by decide)⟩⟩

private def toyC : (ZMod (77 ^ 2))ˣ := encU 77 9 (ZMod.unitOfCoprime 3 (by decide))

private def toyPub : AffGPublic 77 35 (ZMod 11) :=
  ⟨toyC, ((toyC ^ (5 : Int) : (ZMod (77 ^ 2))ˣ) : ZMod (77 ^ 2)) * ((1 + ((-6 : Int) : ZMod (77 ^ 2)) * ((77 : Nat) : ZMod (77 ^ 2))) * ((2 : Nat) : ZMod (77 ^ 2)) ^ 77),
    (1 + ((6 : Int) : ZMod (35 ^ 2)) * ((35 : Nat) : ZMod (35 ^ 2))) * ((2 : Nat) : ZMod (35 ^ 2)) ^ 35, 5⟩

private theorem toyRelation : AffGRelation Params.test 77 35 (1 : ZMod 11) 11 toyPub 5 6 2 2 :=
  ⟨by decide, by decide, ⟨toyC, rfl, _, rfl, rfl⟩, rfl, by decide, by decide, by decide⟩

private def toyMasks : AffGMasks := ⟨⟨96, 12345⟩, ⟨224, -5⟩, 3, 4, ⟨103, 1000⟩, ⟨39, 5⟩, ⟨103, -1000⟩, ⟨39, 77⟩⟩

private theorem toyMasksValid : AffGMasksValid Params.test 77 35 77 toyMasks :=
  ⟨⟨rfl, by decide⟩, ⟨rfl, by decide⟩, by decide, by decide, ⟨rfl, by unfold InPmScaled; decide⟩, ⟨rfl, by unfold InPmScaled; decide⟩,
    ⟨rfl, by unfold InPmScaled; decide⟩, ⟨rfl, by unfold InPmScaled; decide⟩⟩

/-- The hypotheses of the completeness theorems are satisfiable, and the masks are inner ones. -/
example (H : AffGHash (ZMod 11) Nat → ZMod 11) :
    ((AffGProof.prove Params.test H 1 ⟨32, 5⟩ ⟨160, 6⟩ 2 2 toyPub toySetup 8 toyMasks).bind fun prf =>
      prf.verify Params.test H 1 toyPub toySetup 8 : Out Unit _) = .ok true :=
  C28_inner_masks_accepted H 1 toySetup toySetting ⟨32, 5⟩ ⟨160, 6⟩ (by decide) (by decide) (by decide) (by decide) 2 2 toyPub toyRelation 8
    toyMasks toyMasksValid (by decide) (by decide)

end Examples

/-! ## C29 -/

/-- The values the aff-g* prover may draw for one repetition. -/
structure AffGStarEphemeralValid (P : Params) (N0 N1 : Nat) (eph : AffGStarEphemeral) : Prop where
  alpha : eph.alpha.IsDraw (P.L + P.EPS)
  beta : eph.beta.IsDraw (P.LP + P.EPS)
  r : Nat.Coprime eph.r N0
  s : Nat.Coprime eph.s N1

/-- Both responses of a repetition are in their intervals: the mask, plus the secret if the challenge bit is set. -/
def AffGStarInRange (P : Params) (x y : Int) (eph : AffGStarEphemeral) (bit : Bool) : Prop :=
  InPm (P.L + P.EPS) (eph.alpha.val + if bit then x else 0) ∧ InPm (P.LP + P.EPS) (eph.beta.val - if bit then y else 0)

instance (P : Params) (x y : Int) (eph : AffGStarEphemeral) (bit : Bool) : Decidable (AffGStarInRange P x y eph bit) := by
  unfold AffGStarInRange; infer_instance

private theorem star_repetition {P : Params} (hP : P.SelfConsistent) (hnb : 0 < P.numBits) (g : G) {N0 N1 : Nat} (hN0 : 0 < N0) (hN1 : 0 < N1)
    (x y : SInt) (hx : x.Fits) (hxb : x.bound ≤ P.L) (hy : y.Fits) (hyb : y.bound ≤ P.LP)
    (rho rhoY : Nat) (pub : AffGPublic N0 N1 G) (hrel : AffGRelation P N0 N1 g q pub x.val y.val rho rhoY) (eph : AffGStarEphemeral)
    (heph : AffGStarEphemeralValid P N0 N1 eph) :
    ∃ com, (affGStarCommit g pub q eph : Out ε _) = .ok com ∧ ∀ bit, ∃ el, (affGStarRespond P N0 N1 x y rho rhoY eph bit : Out ε _) = .ok el ∧
      (affGStarCheck P g q pub bit com el : Out ε _) = .ok (decide (AffGStarInRange P x.val y.val eph bit)) := by
  obtain ⟨hc0, ⟨hm1, hm2, hm3, hm4, hm5, hm6⟩, hs1, hs2, hs3, hs4, hs5, hs6, hs7⟩ := hP
  obtain ⟨hr1, hr2, ⟨c, hc, d, hd, hD⟩, hY, hρ, hρY, hX⟩ := hrel
  obtain ⟨ha, hb, hrc, hsc⟩ := heph
  have hL : 0 < P.L := hnb
  obtain ⟨ur, hur⟩ := natCast_unit_sq hrc
  obtain ⟨us, hus⟩ := natCast_unit_sq hsc
  obtain ⟨uρ, huρ⟩ := natCast_unit_sq hρ
  obtain ⟨uρy, huρy⟩ := natCast_unit_sq hρY
  have fα := ha.fits (by omega)
  have fβ := hb.fits (by omega)
  have bα : eph.alpha.bound = P.L + P.EPS := ha.1
  have bβ : eph.beta.bound = P.LP + P.EPS := hb.1
  have hYu := Encrypts_unit hY huρy
  have hdu := Encrypts_unit hd huρ
  have hDu : pub.capD = ((c ^ x.val * encU N0 (-y.val) uρ : (ZMod (N0 ^ 2))ˣ) : Ct N0) := by rw [hD, hdu]; rfl
  refine ⟨⟨ctToWire ((c ^ eph.alpha.val * encU N0 eph.beta.val ur : (ZMod (N0 ^ 2))ˣ) : Ct N0), scalarOfSigned q eph.alpha • g,
    ctToWire ((encU N1 eph.beta.val us : (ZMod (N1 ^ 2))ˣ) : Ct N1)⟩, ?_, ?_⟩
  · unfold affGStarCommit
    rw [hc, ctMulSecret_unit _ fα, Out.bind_ok, enc_unit fβ hur, Out.bind_ok, enc_unit fβ hus, Out.bind_ok, ctAdd_unit]
  · intro bit
    obtain ⟨w, hw, hwe⟩ := toMasked_ok (ε := ε) hN0 huρ hur (bitExponent_fits bit)
    obtain ⟨lam, hlam, hlame⟩ := toMasked_ok (ε := ε) hN1 huρy hus (SInt.neg_fits (bitExponent_fits bit))
    -- responses
    obtain ⟨z, hz, vz, fz⟩ : ∃ z, ((if bit then eph.alpha.add P.uint x else .ok eph.alpha) : Out ε _) = .ok z ∧
        z.val = eph.alpha.val + (if bit then x.val else 0) ∧ z.Fits := by
      cases bit
      · exact ⟨eph.alpha, rfl, by simp, fα⟩
      · refine ⟨⟨max eph.alpha.bound x.bound + 1, eph.alpha.val + x.val⟩, ?_, rfl, add_natAbs_lt fα hx⟩
        simp only [if_true]; unfold SInt.add; rw [if_pos (by rw [bα]; omega)]
    obtain ⟨z', hz', vz', fz'⟩ : ∃ z, ((if bit then eph.beta.add P.uint y.neg else .ok eph.beta) : Out ε _) = .ok z ∧
        z.val = eph.beta.val - (if bit then y.val else 0) ∧ z.Fits := by
      cases bit
      · exact ⟨eph.beta, rfl, by simp, fβ⟩
      · refine ⟨⟨max eph.beta.bound y.neg.bound + 1, eph.beta.val + y.neg.val⟩, ?_, by simp [SInt.neg, sub_eq_add_neg],
          add_natAbs_lt fβ (SInt.neg_fits hy)⟩
        have : y.neg.bound = y.bound := rfl
        simp only [if_true]; unfold SInt.add; rw [if_pos (by rw [bβ, this]; omega)]
    refine ⟨⟨z, z', w, lam⟩, ?_, ?_⟩
    · unfold affGStarRespond
      rw [hz, Out.bind_ok, hz', Out.bind_ok, hw, Out.bind_ok, hlam, Out.bind_ok]
    · unfold affGStarCheck
      simp only []
      rw [SInt.inRange_eq, SInt.inRange_eq, vz, vz']
      by_cases hin1 : InPm (P.L + P.EPS) (eph.alpha.val + if bit then x.val else 0)
      swap
      · rw [decide_eq_false hin1, Out.check_false, decide_eq_false (fun h : AffGStarInRange P x.val y.val eph bit => hin1 h.1)]
      by_cases hin2 : InPm (P.LP + P.EPS) (eph.beta.val - if bit then y.val else 0)
      swap
      · rw [decide_eq_true hin1, Out.check_true, decide_eq_false hin2, Out.check_false, decide_eq_false (fun h : AffGStarInRange P x.val y.val eph bit => hin2 h.2)]
      rw [decide_eq_true hin1, Out.check_true, decide_eq_true hin2, Out.check_true, decide_eq_true (show AffGStarInRange P x.val y.val eph bit from ⟨hin1, hin2⟩), hc,
        ctMulPublic_unit _ fz, Out.bind_ok, hwe, hDu, hYu, ctWire hN0, ctWire hN1, hlame, ctAdd_unit, ctAdd_unit]
      cases bit
      · have e1 : c ^ z.val * encU N0 z'.val (uρ ^ (bitExponent false).val * ur) = c ^ eph.alpha.val * encU N0 eph.beta.val ur := by
          rw [vz, vz']; simp [bitExponent]
        have e2 : scalarOfSigned q z = scalarOfSigned q eph.alpha := by unfold scalarOfSigned; rw [vz]; simp
        have e3 : encU N1 z'.val (uρy ^ (bitExponent false).neg.val * us) = encU N1 eph.beta.val us := by
          rw [vz']; simp [bitExponent, SInt.neg]
        simp only [Bool.false_eq_true, if_false]
        rw [e1, decide_eq_true rfl, Out.check_true, e2, decide_eq_true rfl, Out.check_true, Out.bind_ok, e3, decide_eq_true rfl, Out.check_true]
      · have e1 : c ^ z.val * encU N0 z'.val (uρ ^ (bitExponent true).val * ur)
            = c ^ eph.alpha.val * encU N0 eph.beta.val ur * (c ^ x.val * encU N0 (-y.val) uρ) := by
          rw [vz, vz', mul_mul_mul_comm, encU_mul, ← zpow_add]
          simp only [bitExponent, if_true, zpow_one, sub_eq_add_neg]
          rw [mul_comm uρ]
        have e2 : scalarOfSigned q z • g = scalarOfSigned q eph.alpha • g + pub.capX := by
          unfold scalarOfSigned; rw [vz, hX]; push_cast; simp only [if_true]; module
        have e3 : encU N1 z'.val (uρy ^ (bitExponent true).neg.val * us) = encU N1 eph.beta.val us * (encU N1 y.val uρy)⁻¹ := by
          rw [vz', ← zpow_neg_one, encU_zpow, encU_mul]
          simp only [bitExponent, SInt.neg, if_true]
          rw [mul_comm us]; congr 1; ring
        simp only [if_true]
        rw [e1, decide_eq_true rfl, Out.check_true, e2, decide_eq_true rfl, Out.check_true, ctSub_unit, Out.bind_ok, e3, decide_eq_true rfl,
          Out.check_true]

/-- **C29 (honest proofs).** For a true statement and one set of masks per challenge bit the prover does not panic, and the verifier returns
exactly whether the responses of all repetitions lie in their intervals. -/
theorem C29_honest {P : Params} (hP : P.SelfConsistent) (hnb : 0 < P.numBits) (H : AffGStarHash G Aux → List Bool) (g : G) {N0 N1 : Nat}
    (hN0 : 0 < N0) (hN1 : 0 < N1)
    (x y : SInt) (hx : x.Fits) (hxb : x.bound ≤ P.L) (hy : y.Fits) (hyb : y.bound ≤ P.LP)
    (rho rhoY : Nat) (pub : AffGPublic N0 N1 G) (hrel : AffGRelation P N0 N1 g q pub x.val y.val rho rhoY) (aux : Aux)
    (ephs : List AffGStarEphemeral) (hephs : ∀ eph ∈ ephs, AffGStarEphemeralValid P N0 N1 eph) (hlen : ∀ t, (H t).length = ephs.length) :
    ∃ prf : AffGStarProof G, (AffGStarProof.prove P H g q x y rho rhoY pub aux ephs : Out ε _) = .ok prf ∧
      (prf.verify P H g q pub aux : Out ε _) = .ok (decide (∀ x' ∈ ephs.zip prf.e, AffGStarInRange P x.val y.val x'.1 x'.2)) := by
  have hrep : ∀ eph, ∃ com, eph ∈ ephs → (affGStarCommit g pub q eph : Out ε _) = .ok com ∧ ∀ bit, ∃ el,
      (affGStarRespond P N0 N1 x y rho rhoY eph bit : Out ε _) = .ok el ∧
      (affGStarCheck P g q pub bit com el : Out ε _) = .ok (decide (AffGStarInRange P x.val y.val eph bit)) := by
    intro eph
    by_cases h : eph ∈ ephs
    · obtain ⟨com, h1⟩ := star_repetition (ε := ε) hP hnb g hN0 hN1 x y hx hxb hy hyb rho rhoY pub hrel eph (hephs eph h)
      exact ⟨com, fun _ => h1⟩
    · exact ⟨⟨0, 0, 0⟩, fun h' => absurd h' h⟩
  choose comF hcom using hrep
  have hel : ∀ x' : AffGStarEphemeral × Bool, ∃ el, x'.1 ∈ ephs → (affGStarRespond P N0 N1 x y rho rhoY x'.1 x'.2 : Out ε _) = .ok el ∧
      (affGStarCheck P g q pub x'.2 (comF x'.1) el : Out ε _) = .ok (decide (AffGStarInRange P x.val y.val x'.1 x'.2)) := by
    rintro ⟨eph, bit⟩
    by_cases h : eph ∈ ephs
    · obtain ⟨el, h1⟩ := (hcom eph h).2 bit
      exact ⟨el, fun _ => h1⟩
    · exact ⟨⟨⟨0, 0⟩, ⟨0, 0⟩, 0, 0⟩, fun h' => absurd h' h⟩
  choose elF helF using hel
  set e := H (affGStarHash (ephs.map comF) pub aux) with he
  have hmem : ∀ x' ∈ ephs.zip e, x'.1 ∈ ephs := fun x' hx' => (List.of_mem_zip (a := x'.1) (b := x'.2) hx').1
  refine ⟨⟨e, ephs.map comF, (ephs.zip e).map elF⟩, ?_, ?_⟩
  · unfold AffGStarProof.prove
    rw [SInt.assertRange_ok hrel.rangeX, Out.bind_ok, SInt.assertRange_ok hrel.rangeY, Out.bind_ok,
      Out.mapM'_ok_of_forall (g := comF) (fun eph h => (hcom eph h).1), Out.bind_ok]
    simp only []
    rw [← he, Out.mapM'_ok_of_forall (g := elF) (fun x' h => (helF x' (hmem x' h)).1), Out.bind_ok]
  · unfold AffGStarProof.verify
    simp only []
    have hl : e.length = ephs.length := hlen _
    rw [← he, decide_eq_true rfl, Out.check_true, decide_eq_true (by simp [hl]), Out.check_true, zip_map_zip _ _ _ _ hl,
      Out.allM_map, Out.allM_ok_decide (p := fun x' : AffGStarEphemeral × Bool => AffGStarInRange P x.val y.val x'.1 x'.2)
        (fun x' h => (helF x' (hmem x' h)).2)]

section Examples29

private def toyEphs : List AffGStarEphemeral := [⟨⟨96, 12345⟩, ⟨224, -5⟩, 3, 4⟩, ⟨⟨96, -7⟩, ⟨224, 11⟩, 5, 6⟩]

/-- The hypotheses of `C29_honest` are satisfiable; both repetitions are in range, so the proof is accepted. -/
example : ∃ prf : AffGStarProof (ZMod 11),
    (AffGStarProof.prove Params.test (fun _ : AffGStarHash (ZMod 11) Nat => [true, false]) 1 11 ⟨32, 5⟩ ⟨160, 6⟩ 2 2 toyPub 8 toyEphs : Out Unit _) = .ok prf ∧
      (prf.verify Params.test (fun _ => [true, false]) 1 11 toyPub 8 : Out Unit _) = .ok true := by
  obtain ⟨prf, h1, h2⟩ := C29_honest (ε := Unit) (P := Params.test) (by decide) (by decide) (fun _ : AffGStarHash (ZMod 11) Nat => [true, false]) (1 : ZMod 11)
    (by decide) (by decide) ⟨32, 5⟩ ⟨160, 6⟩ (by decide) (by decide) (by decide) (by decide) 2 2 toyPub toyRelation 8 toyEphs
    (by intro eph h; simp only [toyEphs, List.mem_cons, List.not_mem_nil, or_false] at h
        rcases h with rfl | rfl <;> exact ⟨⟨rfl, by decide⟩, ⟨rfl, by decide⟩, by decide, by decide⟩) (fun _ => rfl)
  refine ⟨prf, h1, ?_⟩
  rw [h2]
  refine congrArg Out.ok (decide_eq_true ?_)
  have h3 := h2
  have he : prf.e = [true, false] := by
    unfold AffGStarProof.prove at h1
    obtain ⟨_, _, h1⟩ := Out.bind_eq_ok.1 h1
    obtain ⟨_, _, h1⟩ := Out.bind_eq_ok.1 h1
    obtain ⟨_, _, h1⟩ := Out.bind_eq_ok.1 h1
    obtain ⟨_, _, h1⟩ := Out.bind_eq_ok.1 h1
    cases h1; rfl
  rw [he]
  intro x' hx'
  simp only [toyEphs, List.zip_cons_cons, List.zip_nil_left, List.mem_cons, List.not_mem_nil, or_false] at hx'
  rcases hx' with rfl | rfl <;> decide

end Examples29

/-- **C29 (wrong counts).** A proof with any other number of commitments or responses than challenge bits is rejected. -/
theorem C29_wrong_count_rejected {P : Params} (H : AffGStarHash G Aux → List Bool) (g : G) {N0 N1 : Nat} (pub : AffGPublic N0 N1 G) (aux : Aux)
    (prf : AffGStarProof G) (n : Nat) (hlen : ∀ t, (H t).length = n) (hbad : prf.commitments.length ≠ n ∨ prf.elements.length ≠ n) :
    (prf.verify P H g q pub aux : Out ε _) = .ok false := by
  simp only [AffGStarProof.verify]
  by_cases hc : H (affGStarHash prf.commitments pub aux) = prf.e
  · rw [decide_eq_true hc, Out.check_true, decide_eq_false, Out.check_false]
    rw [not_not, hlen]
    exact hbad.imp Ne.symm Ne.symm
  · rw [decide_eq_false hc, Out.check_false]

/-- **C29 (decision).** If the verifier accepts then the challenge is the hash of the context, the counts match, and every repetition is
answered in range and satisfies the three equations for its bit. -/
theorem C29_accepted {P : Params} (H : AffGStarHash G Aux → List Bool) (g : G) {N0 N1 : Nat} (pub : AffGPublic N0 N1 G) (aux : Aux)
    (prf : AffGStarProof G) (h : (prf.verify P H g q pub aux : Out ε _) = .ok true) :
    prf.e = H (affGStarHash prf.commitments pub aux) ∧ prf.commitments.length = prf.e.length ∧ prf.elements.length = prf.e.length ∧
    ∀ (i : Nat) (bit : Bool) (com : AffGStarCommitment G) (el : AffGStarElement),
      prf.e[i]? = some bit → prf.commitments[i]? = some com → prf.elements[i]? = some el →
      InPm (P.L + P.EPS) el.z.val ∧ InPm (P.LP + P.EPS) el.zPrime.val ∧
      (∃ cz, (ctMulPublic pub.capC el.z : Out ε _) = .ok cz ∧ ∃ d, Encrypts N0 el.zPrime.val el.w d ∧
        cz * d = (com.capA : ZMod (N0 ^ 2)) * if bit then pub.capD else 1) ∧
      (el.z.val : ZMod q) • g = com.capR + (if bit then pub.capX else 0) ∧
      (if bit = true then ∃ yinv, (ctNeg pub.capY : Out ε _) = .ok yinv ∧ Encrypts N1 el.zPrime.val el.lambda ((com.capB : ZMod (N1 ^ 2)) * yinv)
        else Encrypts N1 el.zPrime.val el.lambda (com.capB : ZMod (N1 ^ 2))) := by
  simp only [AffGStarProof.verify] at h
  obtain ⟨h1, h⟩ := Out.check_eq_true.1 h
  obtain ⟨h2, h⟩ := Out.check_eq_true.1 h
  have h1 := of_decide_eq_true h1
  have h2 := of_decide_eq_true h2
  rw [h1] at h h2
  push Not at h2
  refine ⟨h1.symm, h2.1.symm, h2.2.symm, ?_⟩
  intro i bit com el hb hc he
  rw [Out.allM_eq_true] at h
  have hmem : ((bit, com), el) ∈ (prf.e.zip prf.commitments).zip prf.elements := by
    rw [List.mem_iff_getElem?]
    refine ⟨i, ?_⟩
    simp [List.getElem?_zip_eq_some, hb, hc, he]
  have h3 := h _ hmem
  simp only [affGStarCheck] at h3
  obtain ⟨r1, h3⟩ := Out.check_eq_true.1 h3
  obtain ⟨r2, h3⟩ := Out.check_eq_true.1 h3
  obtain ⟨cz, r3, h3⟩ := Out.bind_eq_ok.1 h3
  obtain ⟨r4, h3⟩ := Out.check_eq_true.1 h3
  obtain ⟨r5, h3⟩ := Out.check_eq_true.1 h3
  obtain ⟨rhs, r6, h3⟩ := Out.bind_eq_ok.1 h3
  obtain ⟨r7, _⟩ := Out.check_eq_true.1 h3
  have r4 := of_decide_eq_true r4
  have r5 := of_decide_eq_true r5
  have r10 := of_decide_eq_true r7
  rw [encPublic_eq] at r4 r10
  clear r7
  refine ⟨of_decide_eq_true r1, of_decide_eq_true r2, ⟨cz, r3, _, rfl, ?_⟩, ?_, ?_⟩
  · cases bit
    · simp only [Bool.false_eq_true, if_false] at r4 ⊢; rw [mul_one]; exact r4
    · exact r4
  · cases bit
    · simp only [Bool.false_eq_true, if_false] at r5 ⊢; rw [add_zero]; exact r5
    · exact r5
  · cases bit
    · simp only [Bool.false_eq_true, if_false] at r6 ⊢
      cases r6; exact r10.symm
    · simp only [if_true] at r6 ⊢
      unfold ctSub at r6
      obtain ⟨yinv, r8, r9⟩ := Out.bind_eq_ok.1 r6
      cases r9
      exact ⟨yinv, r8, r10.symm⟩

end Synedrion.Props
