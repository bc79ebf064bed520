import Verif.Lemmas.Zk

/-!
# Property C31: the proof that a modulus has no small factor (fac)
-/

set_option linter.unusedSectionVars false

namespace Synedrion.Props
open Spec

variable {ε : Type} {Aux : Type}

/-- The random values the fac prover may draw. -/
structure FacMasksValid (P : Params) (N0 Nh : Nat) (mask : FacMasks) : Prop where
  alpha : mask.alpha.IsScaledDraw (P.L + P.EPS) (2 ^ (P.primeBits - 2))
  beta : mask.beta.IsScaledDraw (P.L + P.EPS) (2 ^ (P.primeBits - 2))
  mu : mask.mu.IsScaledDraw P.L Nh
  nu : mask.nu.IsScaledDraw P.L Nh
  r : mask.r.IsScaledDraw (P.L + P.EPS) (N0 * Nh)
  x : mask.x.IsScaledDraw (P.L + P.EPS) Nh
  y : mask.y.IsScaledDraw (P.L + P.EPS) Nh

/-- What is required of the setting: both factors have the declared size, the verifier's parameters are well-formed, and the widest integer
type has one bit to spare over what the parameter check demands (see `C35_fac_edge_panics`). -/
structure FacSetting (P : Params) (p q' : Nat) {Nh : Nat} (setup : RPParams Nh) : Prop where
  consistent : P.SelfConsistent
  curve : 0 < P.numBits
  extra : 2 * P.modBits + P.L + P.EPS + 1 < P.extra
  sizeP : p < 2 ^ P.primeBits
  sizeQ : q' < 2 ^ P.primeBits
  hatPos : 0 < Nh
  hatSize : Nh < 2 ^ P.modBits
  bases : setup.Valid

private theorem bitLen_two_pow (k : Nat) : bitLen (2 ^ k) = k + 1 := by
  apply le_antisymm
  · rw [bitLen_le_iff]; exact Nat.pow_lt_pow_right (by norm_num) (by omega)
  · by_contra h
    have : bitLen (2 ^ k) ≤ k := by omega
    rw [bitLen_le_iff] at this; omega

private theorem max_succ_lt {a b w : Nat} (h1 : a + 1 < w) (h2 : b + 1 < w) : max a b + 1 < w := by omega

/-- **C31 (honest proofs).** For a modulus with factors of the declared size and every challenge of `±2^L`, negative ones included, the prover
does not panic, the responses are the masks plus the factors times the challenge and respect their declared bounds, and the verifier returns
exactly whether both responses lie in `±2^(L+EPS+PRIME_BITS-2)`. -/
theorem C31_honest {P : Params} (H : FacHash Aux → SInt) (hH : ∀ t, (H t).IsDraw P.L) {Nh : Nat} (p q' : Nat) (setup : RPParams Nh)
    (hset : FacSetting P p q' setup) (aux : Aux) (mask : FacMasks) (hmask : FacMasksValid P (p * q') Nh mask) :
    ∃ prf : FacProof, (FacProof.prove P H p q' setup aux mask : Out ε _) = .ok prf ∧
      prf.e = H ⟨prf.capP, prf.capQ, prf.capA, prf.capB, prf.capT, p * q', setup.toWire, aux⟩ ∧
      prf.z1.val = mask.alpha.val + p * prf.e.val ∧ prf.z2.val = mask.beta.val + q' * prf.e.val ∧
      (∀ x ∈ [prf.z1, prf.z2, prf.w1, prf.w2, prf.v], x.Fits) ∧
      (prf.verify P H (p * q') setup aux : Out ε _) =
        .ok (decide (InPm (P.L + P.EPS + P.primeBits - 2) (mask.alpha.val + p * prf.e.val)) &&
          decide (InPm (P.L + P.EPS + P.primeBits - 2) (mask.beta.val + q' * prf.e.val))) := by
  obtain ⟨⟨hc0, ⟨hm1, hm2, hm3, hm4, hm5, hm6⟩, hs1, hs2, hs3, hs4, hs5, hs6, hs7⟩, hnb, hext, hp, hq, hNh, hNhb, ⟨⟨s, hs⟩, ⟨t, ht⟩⟩⟩ := hset
  obtain ⟨ha, hb, hmu, hnu, hr, hx, hy⟩ := hmask
  have hL : 0 < P.L := hnb
  have hLE : 0 < P.L + P.EPS := by omega
  have hbl : bitLen Nh ≤ P.modBits := bitLen_le_iff.2 hNhb
  have hN0 : p * q' < 2 ^ P.modBits := by
    rw [hm1, two_mul, pow_add]; exact Nat.mul_lt_mul_of_lt_of_lt hp hq
  have hbl2 : bitLen (p * q' * Nh) ≤ 2 * P.modBits := by
    rw [bitLen_le_iff, two_mul, pow_add]; exact Nat.mul_lt_mul_of_lt_of_lt hN0 hNhb
  have fα := ha.fits hLE
  have fβ := hb.fits hLE
  have fμ := hmu.fits hL
  have fν := hnu.fits hL
  have fr := hr.fits hLE
  have fx := hx.fits hLE
  have fy := hy.fits hLE
  have bα := ha.1
  have bβ := hb.1
  have bμ := hmu.1
  have bν := hnu.1
  have br := hr.1
  have bx := hx.1
  have by' := hy.1
  rw [bitLen_two_pow] at bα bβ
  have hlt : (2 : Nat) ^ P.primeBits ≤ 2 ^ (P.uint - 1) := Nat.pow_le_pow_right (by norm_num) (by omega)
  have hpS : (primeSigned P p : Out ε _) = .ok ⟨P.primeBits, p⟩ := by
    unfold primeSigned; rw [if_pos ⟨by omega, by omega⟩]
  have hqS : (primeSigned P q' : Out ε _) = .ok ⟨P.primeBits, q'⟩ := by
    unfold primeSigned; rw [if_pos ⟨by omega, by omega⟩]
  have hnS : (modulusSigned P (p * q') : Out ε _) = .ok ⟨P.modBits, ((p * q' : Nat) : Int)⟩ := by
    unfold modulusSigned; rw [if_pos ⟨by omega, by omega⟩]
  have fp : SInt.Fits ⟨P.primeBits, (p : Int)⟩ := by unfold SInt.Fits; simpa using hp
  have fq : SInt.Fits ⟨P.primeBits, (q' : Int)⟩ := by unfold SInt.Fits; simpa using hq
  have fn : SInt.Fits ⟨P.modBits, ((p * q' : Nat) : Int)⟩ := by unfold SInt.Fits; rw [Int.natAbs_natCast]; exact hN0
  set capP := comU s t (p : Int) mask.mu.val with hcapP
  set capQ := comU s t (q' : Int) mask.nu.val with hcapQ
  set capA := comU s t mask.alpha.val mask.x.val with hcapA
  set capB := comU s t mask.beta.val mask.y.val with hcapB
  set capT := capQ ^ mask.alpha.val * t ^ mask.r.val with hcapT
  set e := H ⟨commitmentToWire (capP : ZMod Nh), commitmentToWire (capQ : ZMod Nh), commitmentToWire (capA : ZMod Nh),
    commitmentToWire (capB : ZMod Nh), commitmentToWire (capT : ZMod Nh), p * q', setup.toWire, aux⟩ with he
  have hed : e.IsDraw P.L := hH _
  have fe := hed.fits hL
  have be : e.bound = P.L := hed.1
  have hz1 : (((SInt.mul P.uint ⟨P.primeBits, (p : Int)⟩ e).bind fun pe => mask.alpha.add P.wide pe.toWide) : Out ε _) =
      .ok ⟨max mask.alpha.bound (P.primeBits + e.bound) + 1, mask.alpha.val + p * e.val⟩ := by
    unfold SInt.mul; rw [if_pos (by simp only [be]; omega)]; simp only [Out.bind_ok, SInt.toWide]
    unfold SInt.add; rw [if_pos (max_succ_lt (by rw [bα]; omega) (by simp only [be]; omega))]
  have hz2 : (((SInt.mul P.uint ⟨P.primeBits, (q' : Int)⟩ e).bind fun pe => mask.beta.add P.wide pe.toWide) : Out ε _) =
      .ok ⟨max mask.beta.bound (P.primeBits + e.bound) + 1, mask.beta.val + q' * e.val⟩ := by
    unfold SInt.mul; rw [if_pos (by simp only [be]; omega)]; simp only [Out.bind_ok, SInt.toWide]
    unfold SInt.add; rw [if_pos (max_succ_lt (by rw [bβ]; omega) (by simp only [be]; omega))]
  have hw1 := SInt.mulAdd_ok (ε := ε) (w := P.wide) (a := mask.x) (x := mask.mu) (e := e) (by rw [be, bμ]; omega) (max_succ_lt (by rw [bx]; omega) (by rw [be, bμ]; omega))
  have hw2 := SInt.mulAdd_ok (ε := ε) (w := P.wide) (a := mask.y) (x := mask.nu) (e := e) (by rw [be, bν]; omega) (max_succ_lt (by rw [by']; omega) (by rw [be, bν]; omega))
  have hv : (((SInt.mulWide P.wide ⟨P.primeBits, (p : Int)⟩ e).bind fun pe => (pe.mul P.wide mask.nu).bind fun pen => mask.r.sub P.extra pen.toWide) :
      Out ε _) = .ok ⟨max mask.r.bound (P.primeBits + e.bound + mask.nu.bound) + 1, mask.r.val - p * e.val * mask.nu.val⟩ := by
    unfold SInt.mulWide; rw [if_pos (by simp only [be]; omega)]; simp only [Out.bind_ok]
    unfold SInt.mul; rw [if_pos (by simp only [be, bν]; omega)]; simp only [Out.bind_ok, SInt.toWide]
    unfold SInt.sub; rw [if_pos (max_succ_lt (by rw [br]; omega) (by simp only [be, bν]; omega))]
  have f1 := SInt.mulAdd_fits fα fp fe
  have f2 := SInt.mulAdd_fits fβ fq fe
  have f3 := SInt.mulAdd_fits fx fμ fe
  have f4 := SInt.mulAdd_fits fy fν fe
  have f5 : SInt.Fits ⟨max mask.r.bound (P.primeBits + e.bound + mask.nu.bound) + 1, mask.r.val - p * e.val * mask.nu.val⟩ := by
    have := add_natAbs_lt (b := -((p : Int) * e.val * mask.nu.val)) fr
      (by rw [Int.natAbs_neg]; exact mul_natAbs_lt (mul_natAbs_lt fp fe) fν)
    rwa [← sub_eq_add_neg] at this
  refine ⟨⟨e, commitmentToWire (capP : ZMod Nh), commitmentToWire (capQ : ZMod Nh), commitmentToWire (capA : ZMod Nh),
    commitmentToWire (capB : ZMod Nh), commitmentToWire (capT : ZMod Nh), ⟨max mask.alpha.bound (P.primeBits + e.bound) + 1, mask.alpha.val + p * e.val⟩,
    ⟨max mask.beta.bound (P.primeBits + e.bound) + 1, mask.beta.val + q' * e.val⟩, ⟨max mask.x.bound (mask.mu.bound + e.bound) + 1, mask.x.val + mask.mu.val * e.val⟩,
    ⟨max mask.y.bound (mask.nu.bound + e.bound) + 1, mask.y.val + mask.nu.val * e.val⟩, 
    ⟨max mask.r.bound (P.primeBits + e.bound + mask.nu.bound) + 1, mask.r.val - p * e.val * mask.nu.val⟩⟩, ?_, rfl, rfl, rfl, ?_, ?_⟩
  · unfold FacProof.prove
    rw [hpS, Out.bind_ok, hqS, Out.bind_ok, commitSecret_unit hs ht fp fμ, Out.bind_ok, commitSecret_unit hs ht fq fν, Out.bind_ok,
      commitSecret_unit hs ht fα fx, Out.bind_ok, commitSecret_unit hs ht fβ fy, Out.bind_ok, powSecret_unit _ fα, Out.bind_ok]
    unfold RPParams.commitZeroValueSecret
    rw [← ht, powSecret_unit _ fr, Out.bind_ok]
    simp only [← Units.val_mul]
    simp only [← hcapP, ← hcapQ, ← hcapA, ← hcapB, ← hcapT, ← he]
    rw [hz1, Out.bind_ok, hz2, Out.bind_ok]
    simp only [SInt.toWide] at hv ⊢
    rw [hw1, Out.bind_ok, hw2, Out.bind_ok, hv, Out.bind_ok]
  · simp only [List.forall_mem_cons, List.not_mem_nil, false_imp_iff, implies_true, and_true]
    exact ⟨f1, f2, f3, f4, f5⟩
  · simp only [FacProof.verify]
    rw [← he, decide_eq_true rfl, Out.check_true, SInt.inRange_eq, SInt.inRange_eq]
    by_cases hin1 : InPm (P.L + P.EPS + P.primeBits - 2) (mask.alpha.val + p * e.val)
    swap
    · rw [decide_eq_false hin1, Out.check_false, Bool.false_and]
    by_cases hin2 : InPm (P.L + P.EPS + P.primeBits - 2) (mask.beta.val + q' * e.val)
    swap
    · rw [decide_eq_true hin1, Out.check_true, decide_eq_false hin2, Out.check_false, Bool.and_false]
    rw [decide_eq_true hin1, Out.check_true, decide_eq_true hin2, Out.check_true, hnS, Out.bind_ok]
    unfold RPParams.commitZeroRandomizerPublic RPParams.commitZeroValuePublic
    rw [← hs, powPublic_unit _ fn, Out.bind_ok, commitPublic_unit hs ht f1 f3, Out.bind_ok]
    simp only [commitmentWire hNh]
    rw [powPublic_unit _ fe, Out.bind_ok, ← Units.val_mul]
    have eq1 : comU s t (mask.alpha.val + p * e.val) (mask.x.val + mask.mu.val * e.val) = capA * capP ^ e.val := by
      rw [hcapA, hcapP, comU_zpow, comU_mul]
    have eq2 : comU s t (mask.beta.val + q' * e.val) (mask.y.val + mask.nu.val * e.val) = capB * capQ ^ e.val := by
      rw [hcapB, hcapQ, comU_zpow, comU_mul]
    have eq3 : capQ ^ (mask.alpha.val + p * e.val) * t ^ (mask.r.val - p * e.val * mask.nu.val) = capT * (s ^ ((p * q' : Nat) : Int)) ^ e.val := by
      have hQ : capQ ^ ((p : Int) * e.val) = s ^ ((q' : Int) * (p * e.val)) * t ^ (mask.nu.val * (p * e.val)) := by
        rw [hcapQ]; unfold comU; rw [mul_zpow, ← zpow_mul, ← zpow_mul]
      rw [hcapT, zpow_add, hQ, zpow_sub, ← zpow_mul]
      have h1 : (q' : Int) * (p * e.val) = ((p * q' : Nat) : Int) * e.val := by push_cast; ring
      have h2 : mask.nu.val * ((p : Int) * e.val) = p * e.val * mask.nu.val := by ring
      rw [h1, h2]
      have h3 : t ^ ((p : Int) * e.val * mask.nu.val) * (t ^ ((p : Int) * e.val * mask.nu.val))⁻¹ = 1 := mul_inv_cancel _
      calc capQ ^ mask.alpha.val * (s ^ (((p * q' : Nat) : Int) * e.val) * t ^ ((p : Int) * e.val * mask.nu.val)) *
            (t ^ mask.r.val * (t ^ ((p : Int) * e.val * mask.nu.val))⁻¹)
          = capQ ^ mask.alpha.val * t ^ mask.r.val * s ^ (((p * q' : Nat) : Int) * e.val) *
            (t ^ ((p : Int) * e.val * mask.nu.val) * (t ^ ((p : Int) * e.val * mask.nu.val))⁻¹) := by
            generalize s ^ (((p * q' : Nat) : Int) * e.val) = a
            generalize t ^ ((p : Int) * e.val * mask.nu.val) = b
            generalize capQ ^ mask.alpha.val = c
            generalize t ^ mask.r.val = d
            simp only [mul_assoc, mul_comm, mul_left_comm]
        _ = _ := by rw [h3, mul_one]
    rw [eq1, decide_eq_true rfl, Out.check_true, commitPublic_unit hs ht f2 f4, Out.bind_ok, powPublic_unit _ fe, Out.bind_ok, ← Units.val_mul]
    rw [eq2, decide_eq_true rfl, Out.check_true, powPublic_unit _ f1, Out.bind_ok, ← ht, powPublic_unit _ f5, Out.bind_ok,
      powPublic_unit _ fe, Out.bind_ok, ← Units.val_mul, ← Units.val_mul]
    rw [eq3, decide_eq_true rfl, Out.check_true]; rfl

/-- **C31 (inner interval).** If both masks are at least `2^(PRIME_BITS+L-1)` away from the ends of the interval then the honest proof verifies. -/
theorem C31_inner_masks_accepted {P : Params} (H : FacHash Aux → SInt) (hH : ∀ t, (H t).IsDraw P.L) {Nh : Nat} (p q' : Nat) (setup : RPParams Nh)
    (hset : FacSetting P p q' setup) (aux : Aux) (mask : FacMasks) (hmask : FacMasksValid P (p * q') Nh mask)
    (hα : mask.alpha.val.natAbs + 2 ^ (P.primeBits + P.L - 1) ≤ 2 ^ (P.L + P.EPS + P.primeBits - 2 - 1))
    (hβ : mask.beta.val.natAbs + 2 ^ (P.primeBits + P.L - 1) ≤ 2 ^ (P.L + P.EPS + P.primeBits - 2 - 1)) :
    ((FacProof.prove P H p q' setup aux mask).bind fun prf => prf.verify P H (p * q') setup aux : Out ε _) = .ok true := by
  obtain ⟨prf, h1, h4, _, _, _, h2⟩ := C31_honest (ε := ε) H hH p q' setup hset aux mask hmask
  have hed : prf.e.IsDraw P.L := by rw [h4]; exact hH _
  rw [h1, Out.bind_ok, h2]
  have hL : 0 < P.L := hset.curve
  have key : ∀ p : Nat, p < 2 ^ P.primeBits → ((p : Int) * prf.e.val).natAbs < 2 ^ (P.primeBits + P.L - 1) := by
    intro p hp
    have := secret_mul_challenge_lt hL hed.2 hp
    rw [mul_comm, Nat.add_comm]; exact this
  rw [decide_eq_true (inPm_add_of_inner (key p hset.sizeP) hα), decide_eq_true (inPm_add_of_inner (key q' hset.sizeQ) hβ)]; rfl

/-- **C31 (decision).** For a proof whose integers respect their declared bounds and whose commitments to the factors are invertible, the
verifier accepts exactly if the challenge is the hash of the whole context, both responses are in their interval and the three equations
hold. -/
theorem C31_decision {P : Params} (hmw : P.modBits < P.wide) (H : FacHash Aux → SInt) (hH : ∀ t, (H t).Fits) {N0 Nh : Nat} (hN0 : N0 < 2 ^ P.modBits)
    (setup : RPParams Nh) (s t : (ZMod Nh)ˣ) (hs : (s : ZMod Nh) = setup.s) (ht : (t : ZMod Nh) = setup.t) (aux : Aux) (prf : FacProof)
    (hz1 : prf.z1.Fits) (hz2 : prf.z2.Fits) (hw1 : prf.w1.Fits) (hw2 : prf.w2.Fits) (hv : prf.v.Fits)
    (capP capQ : (ZMod Nh)ˣ) (hP : (capP : ZMod Nh) = (prf.capP : ZMod Nh)) (hQ : (capQ : ZMod Nh) = (prf.capQ : ZMod Nh)) :
    (prf.verify P H N0 setup aux : Out ε _) = .ok true ↔
      prf.e = H ⟨prf.capP, prf.capQ, prf.capA, prf.capB, prf.capT, N0, setup.toWire, aux⟩ ∧
      InPm (P.L + P.EPS + P.primeBits - 2) prf.z1.val ∧ InPm (P.L + P.EPS + P.primeBits - 2) prf.z2.val ∧
      ((s ^ prf.z1.val * t ^ prf.w1.val : (ZMod Nh)ˣ) : ZMod Nh) = (prf.capA : ZMod Nh) * (capP ^ prf.e.val : (ZMod Nh)ˣ) ∧
      ((s ^ prf.z2.val * t ^ prf.w2.val : (ZMod Nh)ˣ) : ZMod Nh) = (prf.capB : ZMod Nh) * (capQ ^ prf.e.val : (ZMod Nh)ˣ) ∧
      ((capQ ^ prf.z1.val * t ^ prf.v.val : (ZMod Nh)ˣ) : ZMod Nh) = (prf.capT : ZMod Nh) * ((s ^ N0) ^ prf.e.val : (ZMod Nh)ˣ) := by
  simp only [FacProof.verify]
  set e := H ⟨prf.capP, prf.capQ, prf.capA, prf.capB, prf.capT, N0, setup.toWire, aux⟩ with he
  have fe : e.Fits := hH _
  have fn : SInt.Fits ⟨P.modBits, (N0 : Int)⟩ := by unfold SInt.Fits; rw [Int.natAbs_natCast]; exact hN0
  have hnS : (modulusSigned P N0 : Out ε _) = .ok ⟨P.modBits, (N0 : Int)⟩ := by
    unfold modulusSigned; rw [if_pos ⟨hmw, hN0⟩]
  rw [hnS, Out.bind_ok]
  unfold RPParams.commitZeroRandomizerPublic RPParams.commitZeroValuePublic commitmentOfWire
  rw [← hP, ← hQ]
  simp only [commitPublic_unit hs ht hz1 hw1, commitPublic_unit hs ht hz2 hw2]
  rw [← hs, ← ht]
  simp only [powPublic_unit _ fn, powPublic_unit _ fe, powPublic_unit _ hz1, powPublic_unit _ hv, Out.bind_ok, Out.check_eq_true,
    SInt.inRange_eq, decide_eq_true_eq, zpow_natCast, Units.val_mul, comU]
  constructor
  · rintro ⟨h1, h2, h3, h4, h5, h6, _⟩
    rw [h1] at h4 h5 h6
    exact ⟨h1.symm, h2, h3, h4, h5, h6⟩
  · rintro ⟨h1, h2, h3, h4, h5, h6⟩
    rw [h1] at h4 h5 h6
    exact ⟨h1.symm, h2, h3, h4, h5, h6, trivial⟩

/-- **C31 (out of range).** A proof with a response outside the interval is rejected, without a panic, whatever the rest of it. -/
theorem C31_out_of_range_rejected {P : Params} (H : FacHash Aux → SInt) {N0 Nh : Nat} (setup : RPParams Nh) (aux : Aux) (prf : FacProof)
    (hout : ¬ InPm (P.L + P.EPS + P.primeBits - 2) prf.z1.val ∨ ¬ InPm (P.L + P.EPS + P.primeBits - 2) prf.z2.val) :
    (prf.verify P H N0 setup aux : Out ε _) = .ok false := by
  simp only [FacProof.verify]
  rw [SInt.inRange_eq, SInt.inRange_eq]
  by_cases hc : H ⟨prf.capP, prf.capQ, prf.capA, prf.capB, prf.capT, N0, setup.toWire, aux⟩ = prf.e
  · rw [decide_eq_true hc, Out.check_true]
    by_cases h1 : InPm (P.L + P.EPS + P.primeBits - 2) prf.z1.val
    · rw [decide_eq_true h1, Out.check_true, decide_eq_false (hout.resolve_left (not_not.2 h1)), Out.check_false]
    · rw [decide_eq_false h1, Out.check_false]
  · rw [decide_eq_false hc, Out.check_false]

/-! ### A concrete case -/

section Examples

private def toySetup : RPParams 77 := ⟨4, 16⟩

private theorem toyValid : toySetup.Valid :=
  ⟨IsUnit.of_mul_eq_one (a := (16 : ZMod 77)) 53 (by decide), IsUnit.of_mul_eq_one (a := (4 : ZMod 77)) 58 (by decide)⟩

private theorem toySetting : FacSetting Params.test 7 11 toySetup :=
  ⟨by decide, by decide, by decide, by decide, by decide, by decide, by decide, toyValid⟩

private def toyMasks : FacMasks := ⟨⟨223, 12345⟩, ⟨223, -5⟩, ⟨39, 5⟩, ⟨39, 77⟩, ⟨109, -1000⟩, ⟨103, 1000⟩, ⟨103, -9⟩⟩

private theorem toyMasksValid : FacMasksValid Params.test (7 * 11) 77 toyMasks :=
  ⟨⟨rfl, by unfold InPmScaled; decide⟩, ⟨rfl, by unfold InPmScaled; decide⟩, ⟨rfl, by unfold InPmScaled; decide⟩, ⟨rfl, by unfold InPmScaled; decide⟩,
    ⟨rfl, by unfold InPmScaled; decide⟩, ⟨rfl, by unfold InPmScaled; decide⟩, ⟨rfl, by unfold InPmScaled; decide⟩⟩

/-- The hypotheses are satisfiable, with inner masks and a negative challenge. -/
example : ((FacProof.prove Params.test (fun _ : FacHash Nat => ⟨32, -1234⟩) 7 11 toySetup 8 toyMasks).bind fun prf =>
    prf.verify Params.test (fun _ => ⟨32, -1234⟩) (7 * 11) toySetup 8 : Out Unit _) = .ok true :=
  C31_inner_masks_accepted _ (fun _ => ⟨rfl, by decide⟩) 7 11 toySetup toySetting 8 toyMasks toyMasksValid (by decide) (by decide)

end Examples

end Synedrion.Props
