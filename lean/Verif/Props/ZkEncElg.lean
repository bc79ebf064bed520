import Verif.Lemmas.Zk
import Verif.Lemmas.Toy
import Mathlib.Tactic.Module
import Mathlib.Tactic.Abel
import Mathlib.Tactic.NormNum.Prime

/-!
# Property C27: the range encryption proof (enc-elg)
-/

set_option linter.unusedSectionVars false

namespace Synedrion.Props
open Spec

variable {ε : Type} {q : Nat} {G Aux : Type} [AddCommGroup G] [Module (ZMod q) G] [DecidableEq G]

/-- The relation proved by enc-elg proofs (CGGMP'24, Fig. 24): `C` encrypts `x ∈ ±2^L` and `(A, B, X) = (A, b g, x g + b A)`. -/
structure EncElgRelation (L N0 : Nat) (g : G) (pub : EncElgPublic N0 G) (x : Int) (rho : Nat) (b : ZMod q) : Prop where
  range : InPm L x
  encrypts : Encrypts N0 x rho pub.capC
  randomizer : Nat.Coprime rho N0
  capB : pub.capB = b • g
  capX : pub.capX = (x : ZMod q) • g + b • pub.capA

/-- The masks the prover may draw. -/
structure EncElgMasksValid (P : Params) (N0 Nh : Nat) (mask : EncElgMasks q) : Prop where
  alpha : mask.alpha.IsDraw (P.L + P.EPS)
  mu : mask.mu.IsScaledDraw P.L Nh
  gamma : mask.gamma.IsScaledDraw (P.L + P.EPS) Nh
  r : Nat.Coprime mask.r N0

/-- What is required of the setting: consistent parameters, a challenge that fits its bound, non-trivial moduli of the right size, invertible
ring-Pedersen bases. -/
structure EncElgSetting (P : Params) (q N0 : Nat) {Nh : Nat} (setup : RPParams Nh) : Prop where
  consistent : P.SelfConsistent
  order : q < 2 ^ P.numBits
  curve : 0 < P.numBits
  pos : 0 < N0
  hatPos : 0 < Nh
  hatSize : Nh < 2 ^ P.modBits
  bases : setup.Valid

/-- **C27 (honest proofs).** For a true statement the prover does not panic; the first response is the mask plus the secret times the
challenge; and the verifier returns exactly whether this response lies in `±2^(L+EPS)`. -/
theorem C27_honest [NeZero q] {P : Params} (H : EncElgHash G Aux → ZMod q) (g : G) {N0 Nh : Nat} (setup : RPParams Nh)
    (hset : EncElgSetting P q N0 setup) (x : SInt) (hx : x.Fits) (hxb : x.bound ≤ P.L) (rho : Nat) (b : ZMod q) (pub : EncElgPublic N0 G)
    (hrel : EncElgRelation P.L N0 g pub x.val rho b) (aux : Aux) (mask : EncElgMasks q) (hmask : EncElgMasksValid P N0 Nh mask) :
    ∃ prf : EncElgProof q G, (EncElgProof.prove P H g x rho b pub setup aux mask : Out ε _) = .ok prf ∧
      prf.z1.val = mask.alpha.val + x.val * prf.e.val ∧
      (prf.verify P H g pub setup aux : Out ε _) = .ok (decide (InPm (P.L + P.EPS) (mask.alpha.val + x.val * prf.e.val))) := by
  obtain ⟨⟨hc0, ⟨hm1, hm2, hm3, hm4, hm5, hm6⟩, hs1, hs2, hs3, hs4, hs5, hs6, hs7⟩, hq, hnb, hN0, hNh, hNhb, ⟨⟨s, hs⟩, ⟨t, ht⟩⟩⟩ := hset
  obtain ⟨hr1, hr2, hr3, hr4, hr5⟩ := hrel
  obtain ⟨ha, hmu, hga, hrc⟩ := hmask
  have hL : 0 < P.L := hnb
  have hLE : 0 < P.L + P.EPS := by omega
  have hbl : bitLen Nh ≤ P.modBits := bitLen_le_iff.2 hNhb
  have hLdef : P.L = P.numBits := rfl
  obtain ⟨ur, hur⟩ := natCast_unit_sq hrc
  obtain ⟨uρ, huρ⟩ := natCast_unit_sq hr3
  have fα := ha.fits hLE
  have fμ := hmu.fits hL
  have fγ := hga.fits hLE
  have bα : mask.alpha.bound = P.L + P.EPS := ha.1
  have bμ : mask.mu.bound = P.L + bitLen Nh := hmu.1
  have bγ : mask.gamma.bound = P.L + P.EPS + bitLen Nh := hga.1
  have hC := Encrypts_unit hr2 huρ
  -- the prover
  set capS : (ZMod Nh)ˣ := comU s t x.val mask.mu.val with hcapS
  set capD : (ZMod (N0 ^ 2))ˣ := encU N0 mask.alpha.val ur with hcapD
  set capT : (ZMod Nh)ˣ := comU s t mask.alpha.val mask.gamma.val with hcapT
  set capY := mask.beta • pub.capA + scalarOfSigned q mask.alpha • g with hcapY
  set capZ := mask.beta • g with hcapZ
  set e := H (encElgHash (commitmentToWire (capS : ZMod Nh)) (ctToWire (capD : Ct N0)) capY capZ (commitmentToWire (capT : ZMod Nh)) pub setup aux)
    with he
  have fe : (signedOfScalar P e).Fits := signedOfScalar_fits hq e
  have be : (signedOfScalar P e).bound = P.L := rfl
  have ve : (signedOfScalar P e).val = (e.val : Int) := rfl
  obtain ⟨z2, hz2, hz2e⟩ := toMasked_ok (ε := ε) hN0 huρ hur fe
  have hz1 := SInt.mulAdd_ok (ε := ε) (w := P.uint) (a := mask.alpha) (x := x) (e := signedOfScalar P e) (by rw [be]; omega)
    (by rw [be, bα]; omega)
  have hz3 := SInt.mulAdd_ok (ε := ε) (w := P.wide) (a := mask.gamma) (x := mask.mu) (e := signedOfScalar P e) (by rw [be, bμ]; omega)
    (by rw [be, bμ, bγ]; omega)
  have f1 := SInt.mulAdd_fits fα hx fe
  have f3 := SInt.mulAdd_fits fγ fμ fe
  generalize hzz1 : (⟨max mask.alpha.bound (x.bound + (signedOfScalar P e).bound) + 1,
    mask.alpha.val + x.val * (signedOfScalar P e).val⟩ : SInt) = z1 at hz1 f1
  generalize hzz3 : (⟨max mask.gamma.bound (mask.mu.bound + (signedOfScalar P e).bound) + 1,
    mask.gamma.val + mask.mu.val * (signedOfScalar P e).val⟩ : SInt) = z3 at hz3 f3
  have vz1 : z1.val = mask.alpha.val + x.val * e.val := by rw [← hzz1]; rfl
  have vz3 : z3.val = mask.gamma.val + mask.mu.val * e.val := by rw [← hzz3]; rfl
  refine ⟨⟨e, commitmentToWire (capS : ZMod Nh), ctToWire (capD : Ct N0), capY, capZ, commitmentToWire (capT : ZMod Nh), z1,
    mask.beta + b * e, z2, z3⟩, ?_, vz1, ?_⟩
  · unfold EncElgProof.prove
    rw [SInt.assertRange_ok hr1, Out.bind_ok, commitSecret_unit hs ht hx fμ, Out.bind_ok, enc_unit fα hur, Out.bind_ok,
      commitSecret_unit hs ht fα fγ, Out.bind_ok]
    simp only [SInt.toWide]
    rw [← hcapS, ← hcapD, ← hcapT, ← hcapY, ← hcapZ, ← he, hz1, Out.bind_ok, hz2, Out.bind_ok, hz3, Out.bind_ok]
  · unfold EncElgProof.verify
    simp only []
    rw [← he, decide_eq_true rfl, Out.check_true, SInt.inRange_eq, vz1]
    by_cases hin : InPm (P.L + P.EPS) (mask.alpha.val + x.val * e.val)
    · rw [decide_eq_true hin, Out.check_true, hC, ctMulPublic_unit _ fe, Out.bind_ok, ctWire hN0, hz2e, ctAdd_unit]
      have eq1 : encU N0 z1.val (uρ ^ (signedOfScalar P e).val * ur) = capD * encU N0 x.val uρ ^ (signedOfScalar P e).val := by
        rw [hcapD, encU_zpow, encU_mul, vz1, mul_comm ur, ve]
      have eq2 : (mask.beta + b * e) • pub.capA + scalarOfSigned q z1 • g = capY + e • pub.capX := by
        rw [hcapY, hr5]; unfold scalarOfSigned; rw [vz1]
        have : ((mask.alpha.val + x.val * (e.val : Int) : Int) : ZMod q) = (mask.alpha.val : ZMod q) + (x.val : ZMod q) * e := by
          push_cast; simp
        rw [this]; module
      have eq3 : (mask.beta + b * e) • g = capZ + e • pub.capB := by rw [hcapZ, hr4]; module
      rw [eq1, decide_eq_true rfl, Out.check_true, decide_eq_true eq2, Out.check_true, decide_eq_true eq3, Out.check_true,
        commitPublic_unit hs ht f1 f3, Out.bind_ok, commitmentWire hNh, commitmentWire hNh, powPublic_unit _ fe, Out.bind_ok, ← Units.val_mul]
      have eq4 : comU s t z1.val z3.val = capT * capS ^ (signedOfScalar P e).val := by
        rw [hcapT, hcapS, comU_zpow, comU_mul, vz1, vz3, ve]
      rw [eq4, decide_eq_true rfl, Out.check_true]
    · rw [decide_eq_false hin, Out.check_false]

/-- **C27 (inner interval).** If the mask is at least `2^(2L-1)` away from the ends of its interval then the honest proof verifies. -/
theorem C27_inner_mask_accepted [NeZero q] {P : Params} (H : EncElgHash G Aux → ZMod q) (g : G) {N0 Nh : Nat} (setup : RPParams Nh)
    (hset : EncElgSetting P q N0 setup) (x : SInt) (hx : x.Fits) (hxb : x.bound ≤ P.L) (rho : Nat) (b : ZMod q) (pub : EncElgPublic N0 G)
    (hrel : EncElgRelation P.L N0 g pub x.val rho b) (aux : Aux) (mask : EncElgMasks q) (hmask : EncElgMasksValid P N0 Nh mask)
    (hinner : mask.alpha.val.natAbs + 2 ^ (2 * P.L - 1) ≤ 2 ^ (P.L + P.EPS - 1)) :
    ((EncElgProof.prove P H g x rho b pub setup aux mask).bind fun prf => prf.verify P H g pub setup aux : Out ε _) = .ok true := by
  obtain ⟨prf, h1, _, h2⟩ := C27_honest (ε := ε) H g setup hset x hx hxb rho b pub hrel aux mask hmask
  rw [h1, Out.bind_ok, h2]
  refine congrArg Out.ok (decide_eq_true (inPm_add_of_inner (c := 2 ^ (2 * P.L - 1)) ?_ hinner))
  have he : prf.e.val < 2 ^ P.L := lt_trans (ZMod.val_lt _) hset.order
  obtain ⟨r1, r2⟩ := hrel.range
  have hL : 0 < P.L := hset.curve
  have hx' : x.val.natAbs ≤ 2 ^ (P.L - 1) := by
    have hc : (((2 : Nat) ^ (P.L - 1) : Nat) : Int) = (2 : Int) ^ (P.L - 1) := by push_cast; rfl
    rw [← hc] at r1 r2
    generalize (2 : Nat) ^ (P.L - 1) = n at *
    omega
  rw [Int.natAbs_mul, Int.natAbs_natCast]
  have : 2 ^ (2 * P.L - 1) = 2 ^ (P.L - 1) * 2 ^ P.L := by rw [← pow_add]; congr 1; omega
  rw [this]
  exact lt_of_le_of_lt (Nat.mul_le_mul_right _ hx') (Nat.mul_lt_mul_of_pos_left he (by positivity))

/-- **C27 (decision).** Whatever the proof and the statement: if the verifier accepts then the challenge is the hash of the whole context, the
response lies in `±2^(L+EPS)`, and the four equations hold. -/
theorem C27_accepted [NeZero q] {P : Params} (H : EncElgHash G Aux → ZMod q) (g : G) {N0 Nh : Nat} (setup : RPParams Nh)
    (hq : q < 2 ^ P.numBits) (pub : EncElgPublic N0 G) (aux : Aux) (prf : EncElgProof q G)
    (h : (prf.verify P H g pub setup aux : Out ε _) = .ok true) :
    prf.e = H ⟨prf.capS, prf.capD, prf.capY, prf.capZ, prf.capT, N0, pub.capC.val, pub.capA, pub.capB, pub.capX, setup.toWire, aux⟩ ∧
    InPm (P.L + P.EPS) prf.z1.val ∧
    Encrypts N0 prf.z1.val prf.z2 ((prf.capD : ZMod (N0 ^ 2)) * pub.capC ^ prf.e.val) ∧
    prf.w • pub.capA + (prf.z1.val : ZMod q) • g = prf.capY + prf.e • pub.capX ∧
    prf.w • g = prf.capZ + prf.e • pub.capB ∧
    (setup.commitPublic prf.z1 prf.z3 : Out ε _) = .ok ((prf.capT : ZMod Nh) * (prf.capS : ZMod Nh) ^ prf.e.val) := by
  simp only [EncElgProof.verify] at h
  obtain ⟨h1, h⟩ := Out.check_eq_true.1 h
  obtain ⟨h2, h⟩ := Out.check_eq_true.1 h
  have h1 := of_decide_eq_true h1
  have h2 := of_decide_eq_true h2
  rw [h1] at h
  have hpow := fun {n : Nat} (a : ZMod n) => powPublic_scalar (ε := ε) hq prf.e a
  unfold ctMulPublic at h
  rw [hpow, Out.bind_ok] at h
  obtain ⟨h3, h⟩ := Out.check_eq_true.1 h
  obtain ⟨h4, h⟩ := Out.check_eq_true.1 h
  obtain ⟨h5, h⟩ := Out.check_eq_true.1 h
  obtain ⟨lhs, h6, h⟩ := Out.bind_eq_ok.1 h
  rw [hpow, Out.bind_ok] at h
  obtain ⟨h7, _⟩ := Out.check_eq_true.1 h
  have h3 := of_decide_eq_true h3
  have h7 := of_decide_eq_true h7
  refine ⟨h1.symm, h2, ?_, of_decide_eq_true h4, of_decide_eq_true h5, ?_⟩
  · rw [encPublic_eq] at h3
    exact h3.symm
  · rw [h6, h7]; rfl

/-- **C27 (out of range).** A proof whose response is outside `±2^(L+EPS)` is rejected, without a panic, whatever the rest of it. -/
theorem C27_out_of_range_rejected {P : Params} (H : EncElgHash G Aux → ZMod q) (g : G) {N0 Nh : Nat} (setup : RPParams Nh)
    (pub : EncElgPublic N0 G) (aux : Aux) (prf : EncElgProof q G) (hout : ¬ InPm (P.L + P.EPS) prf.z1.val) :
    (prf.verify P H g pub setup aux : Out ε _) = .ok false := by
  simp only [EncElgProof.verify]
  rw [SInt.inRange_eq, decide_eq_false hout]
  generalize decide (_ = prf.e) = c
  cases c <;> rfl

/-! ### A concrete case -/

section Examples

/-- Modulus 77, bases 16 and 4. -/
private def toySetup : RPParams 77 := ⟨4, 16⟩

private def toyPub : EncElgPublic 77 (ZMod 11) := ⟨(1 + ((5 : Int) : ZMod (77 ^ 2)) * ((77 : Nat) : ZMod (77 ^ 2))) * ((2 : Nat) : ZMod (77 ^ 2)) ^ 77, 3, 7, 5 + 7 * 3⟩

private theorem toySetting : EncElgSetting Params.test 11 77 toySetup :=
  ⟨by decide, by decide, by decide, by decide, by decide, by decide,
    ⟨IsUnit.of_mul_eq_one (a := (16 : ZMod 77)) 53 (by decide), IsUnit.of_mul_eq_one (a := (4 : ZMod 77)) 58 (by decide)⟩⟩

private theorem toyRelation : EncElgRelation Params.test.L 77 (1 : ZMod 11) toyPub 5 2 (7 : ZMod 11) :=
  ⟨by decide, rfl, by decide, by decide, by decide⟩

private def toyMasks : EncElgMasks 11 := ⟨⟨96, 12345⟩, ⟨39, -77⟩, 3, 4, ⟨103, 1000⟩⟩

private theorem toyMasksValid : EncElgMasksValid Params.test 77 77 toyMasks :=
  ⟨⟨rfl, by decide⟩, ⟨rfl, by unfold InPmScaled; decide⟩, ⟨rfl, by unfold InPmScaled; decide⟩, by decide⟩

/-- The hypotheses of the completeness theorems are satisfiable, and the mask is an inner one. -/
example (H : EncElgHash (ZMod 11) Nat → ZMod 11) :
    ((EncElgProof.prove Params.test H 1 ⟨32, 5⟩ 2 7 toyPub toySetup 8 toyMasks).bind fun prf =>
      prf.verify Params.test H 1 toyPub toySetup 8 : Out Unit _) = .ok true :=
  C27_inner_mask_accepted H 1 toySetup toySetting ⟨32, 5⟩ (by decide) (by decide) 2 7 toyPub toyRelation 8 toyMasks toyMasksValid (by decide)

end Examples

end Synedrion.Props
