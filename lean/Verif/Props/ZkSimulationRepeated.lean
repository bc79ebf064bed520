import Verif.Lemmas.ZeroKnowledge
import Verif.Props.ZkAffG
import Verif.Props.ZkDec
import Verif.Props.ZkFac
import Verif.Props.ZkModulus

/-!
# Property C60: proofs reveal nothing beyond their statement, for the proofs with many repetitions and for fac
-/

set_option linter.unusedSectionVars false

namespace Synedrion.Props
open Spec

variable {ε : Type} {q : Nat} {G Aux : Type} [AddCommGroup G] [Module (ZMod q) G] [DecidableEq G]

private theorem half_of_shift (M E : Nat) (hM : 0 < M) : (2 : ℚ) ^ (M - 1) / 2 ^ (M + E) = 1 / 2 / 2 ^ E := by
  obtain ⟨k, rfl⟩ : ∃ k, M = k + 1 := ⟨M - 1, by omega⟩
  rw [Nat.add_sub_cancel, pow_add, pow_succ]
  field_simp

private theorem natAbs_of_inPm {k : Nat} {v : Int} (h : InPm k v) : v.natAbs ≤ 2 ^ (k - 1) := by
  unfold InPm at h
  have : ((2 ^ (k - 1) : Nat) : Int) = (2 : Int) ^ (k - 1) := by push_cast; rfl
  omega

/-- One repetition of aff-g*: the commitment and the response are those of the simulator for the shifted choices. -/
private theorem star_simulated {P : Params} (hP : P.SelfConsistent) (hnb : 0 < P.numBits) (g : G) {N0 N1 : Nat} (hN0 : 0 < N0) (hN1 : 0 < N1)
    (x y : SInt) (hxb : x.bound = P.L) (hyb : y.bound = P.LP) (rho rhoY : Nat) (pub : AffGPublic N0 N1 G)
    (hrel : AffGRelation P N0 N1 g q pub x.val y.val rho rhoY) (bit : Bool) (alpha beta : Int) (r s : Nat)
    (ha : (alpha, beta, r, s) ∈ affGStarChoices P N0 N1) :
    let z := alpha + if bit then x.val else 0
    let z' := beta + if bit then -y.val else 0
    let w := (zpowMod (rho : ZMod N0) (bitExponent bit).val * (r : ZMod N0)).val
    let l := (zpowMod (rhoY : ZMod N1) (bitExponent bit).neg.val * (s : ZMod N1)).val
    (affGStarCommit g pub q (affGStarEphemeral P (alpha, beta, r, s)) : Out ε _) =
      .ok ⟨(zpowMod pub.capC z * encryption N0 z' w * if bit then zpowMod pub.capD (-1) else 1).val, (z : ZMod q) • g - (if bit then pub.capX else 0),
        (encryption N1 z' l * if bit then pub.capY else 1).val⟩ ∧
    (affGStarRespond P N0 N1 x y rho rhoY (affGStarEphemeral P (alpha, beta, r, s)) bit : Out ε _) =
      .ok ⟨⟨if bit then max (P.L + P.EPS) P.L + 1 else P.L + P.EPS, z⟩, ⟨if bit then max (P.LP + P.EPS) P.LP + 1 else P.LP + P.EPS, z'⟩, w, l⟩ := by
  obtain ⟨hc0, ⟨hm1, hm2, hm3, hm4, hm5, hm6⟩, hs1, hs2, hs3, hs4, hs5, hs6, hs7⟩ := hP
  obtain ⟨hr1, hr2, ⟨c, hc, d, hd, hD⟩, hY, hρ, hρY, hX⟩ := hrel
  have hL : 0 < P.L := hnb
  simp only [affGStarChoices, Finset.mem_product] at ha
  obtain ⟨ha1, ha2, ha3, ha4⟩ := ha
  obtain ⟨ur, hur⟩ := natCast_unit_sq (mem_residues.1 ha3).2
  obtain ⟨us, hus⟩ := natCast_unit_sq (mem_residues.1 ha4).2
  obtain ⟨uρ, huρ⟩ := natCast_unit_sq hρ
  obtain ⟨uρy, huρy⟩ := natCast_unit_sq hρY
  have fα := SInt.IsDraw.fits (exp := P.L + P.EPS) (a := ⟨P.L + P.EPS, alpha⟩) (by omega) ⟨rfl, mem_pm.1 ha1⟩
  have fβ := SInt.IsDraw.fits (exp := P.LP + P.EPS) (a := ⟨P.LP + P.EPS, beta⟩) (by omega) ⟨rfl, mem_pm.1 ha2⟩
  have hYu := Encrypts_unit hY huρy
  have hdu := Encrypts_unit hd huρ
  have hDu : pub.capD = ((c ^ x.val * encU N0 (-y.val) uρ : (ZMod (N0 ^ 2))ˣ) : Ct N0) := by rw [hD, hdu]; rfl
  intro z z' w l
  have ew : encryption N0 z' w = ((encU N0 z' (uρ ^ (bitExponent bit).val * ur) : (ZMod (N0 ^ 2))ˣ) : Ct N0) :=
    encryption_masked hN0 huρ hur hρ (bitExponent_fits bit) z'
  have el : encryption N1 z' l = ((encU N1 z' (uρy ^ (bitExponent bit).neg.val * us) : (ZMod (N1 ^ 2))ˣ) : Ct N1) :=
    encryption_masked hN1 huρy hus hρY (SInt.neg_fits (bitExponent_fits bit)) z'
  have hw : (toMasked N0 rho r (bitExponent bit) : Out ε _) = .ok w := toMasked_residue hN0 hρ (bitExponent_fits bit)
  have hl : (toMasked N1 rhoY s (bitExponent bit).neg : Out ε _) = .ok l := toMasked_residue hN1 hρY (SInt.neg_fits (bitExponent_fits bit))
  constructor
  · unfold affGStarCommit affGStarEphemeral
    simp only []
    rw [ew, el, hc, ctMulSecret_unit _ fα, Out.bind_ok, enc_unit fβ hur, Out.bind_ok, enc_unit fβ hus, Out.bind_ok, ctAdd_unit, hDu, hYu, zpowMod_unit,
      zpowMod_unit]
    refine congrArg Out.ok ?_
    simp only [AffGStarCommitment.mk.injEq, ctToWire]
    refine ⟨congrArg ZMod.val ?_, ?_, congrArg ZMod.val ?_⟩
    · cases bit
      · simp [z, z', bitExponent]
      · simp only [if_true, ← Units.val_mul]
        rw [mul_zpow, encU_zpow, mul_mul_mul_comm, ← zpow_mul, ← zpow_add, encU_mul]
        congr 2
        · congr 1; simp [z]
        · congr 1
          · simp [z']
          · simp [bitExponent]
    · simp only [scalarOfSigned, z, hX]
      cases bit
      · simp
      · simp [add_smul]
    · cases bit
      · simp [z', bitExponent, SInt.neg]
      · simp only [if_true, ← Units.val_mul]
        rw [encU_mul]
        congr 2
        · simp [z']
        · simp [bitExponent, SInt.neg]
  · unfold affGStarRespond affGStarEphemeral
    simp only []
    have hz : ((if bit then SInt.add P.uint ⟨P.L + P.EPS, alpha⟩ x else .ok ⟨P.L + P.EPS, alpha⟩) : Out ε _) =
        .ok ⟨if bit then max (P.L + P.EPS) P.L + 1 else P.L + P.EPS, z⟩ := by
      cases bit
      · simp [z]
      · simp only [if_true]; unfold SInt.add; rw [if_pos (by simp only; omega)]; simp [z, hxb]
    have hz' : ((if bit then SInt.add P.uint ⟨P.LP + P.EPS, beta⟩ y.neg else .ok ⟨P.LP + P.EPS, beta⟩) : Out ε _) =
        .ok ⟨if bit then max (P.LP + P.EPS) P.LP + 1 else P.LP + P.EPS, z'⟩ := by
      have hb : y.neg.bound = y.bound := rfl
      cases bit
      · simp [z']
      · simp only [if_true]; unfold SInt.add; rw [if_pos (by simp only [hb]; omega)]; simp [z', hyb, SInt.neg]
    rw [hz, Out.bind_ok, hz', Out.bind_ok, hw, Out.bind_ok, hl, Out.bind_ok]

/-- **C60 (aff-g*).** For any challenge bits the proof that the honest prover sends is distributed as the output of the simulator, up to the distance
`1 / 2^EPS` per repetition. -/
theorem C60_aff_g_star {P : Params} (hP : P.SelfConsistent) (hnb : 0 < P.numBits) (g : G) {N0 N1 k : Nat} (hN0 : 0 < N0) (hN1 : 0 < N1)
    (x y : SInt) (hxb : x.bound = P.L) (hyb : y.bound = P.LP) (rho rhoY : Nat) (pub : AffGPublic N0 N1 G)
    (hrel : AffGRelation P N0 N1 g q pub x.val y.val rho rhoY) (aux : Aux) (e : Fin k → Bool) :
    StatClose ((k : ℚ) * (1 / 2 ^ P.EPS))
      (repeated k (affGStarChoices P N0 N1))
      (fun c => (AffGStarProof.prove P (fun _ => List.ofFn e) g q x y rho rhoY pub aux (List.ofFn fun i => affGStarEphemeral P (c i)) : Out ε _))
      (repeated k (affGStarChoices P N0 N1)) (fun c => .ok (affGStarSim P g q pub e c)) := by
  have hL : 0 < P.L := hnb
  have hLP : 0 < P.LP := Nat.add_pos_right _ hL
  have hr1 := hrel.rangeX
  have hr2 := hrel.rangeY
  refine statClose_repeated
    (fun (i : Fin k) (a : Int × Int × Nat × Nat) => a.1 + (if e i then x.val else 0) ∈ pm (P.L + P.EPS) ∧ a.2.1 + (if e i then -y.val else 0) ∈ pm (P.LP + P.EPS) ∧ True)
    (fun (i : Fin k) (a : Int × Int × Nat × Nat) => (a.1 + (if e i then x.val else 0), a.2.1 + (if e i then -y.val else 0),
      (zpowMod (rho : ZMod N0) (bitExponent (e i)).val * (a.2.2.1 : ZMod N0)).val,
      (zpowMod (rhoY : ZMod N1) (bitExponent (e i)).neg.val * (a.2.2.2 : ZMod N1)).val)) ?_ ?_ ?_ (by positivity) ?_
  · rintro i ⟨alpha, beta, r, s⟩ ha ⟨h1, h2, -⟩
    simp only [affGStarChoices, Finset.mem_product] at ha ⊢
    exact ⟨h1, h2, masked_mem hN0 hrel.randomizer (mem_residues.1 ha.2.2.1).2 _, masked_mem hN1 hrel.randomizerY (mem_residues.1 ha.2.2.2).2 _⟩
  · rintro i ⟨alpha, beta, r, s⟩ ha ⟨alpha', beta', r', s'⟩ ha' h
    simp only [affGStarChoices, Finset.mem_product] at ha ha'
    simp only [Prod.mk.injEq] at h ⊢
    exact ⟨by omega, by omega, masked_inj hN0 hrel.randomizer (mem_residues.1 ha.2.2.1).1 (mem_residues.1 ha'.2.2.1).1 _ h.2.2.1,
      masked_inj hN1 hrel.randomizerY (mem_residues.1 ha.2.2.2).1 (mem_residues.1 ha'.2.2.2).1 _ h.2.2.2⟩
  · intro a ha
    have hrep := fun i => star_simulated (ε := ε) hP hnb g hN0 hN1 x y hxb hyb rho rhoY pub hrel (e i) (a i).1 (a i).2.1 (a i).2.2.1 (a i).2.2.2 (ha i)
    unfold AffGStarProof.prove
    rw [SInt.assertRange_ok hr1, Out.bind_ok, SInt.assertRange_ok hr2, Out.bind_ok, Out.mapM'_ofFn (fun i => (hrep i).1), Out.bind_ok]
    simp only []
    rw [zip_ofFn, Out.mapM'_ofFn (fun i => (hrep i).2), Out.bind_ok]
    rfl
  · intro i
    have m1 : Mostly (1 / 2 / 2 ^ P.EPS) (pm (P.L + P.EPS)) fun v => v + (if e i then x.val else 0) ∈ pm (P.L + P.EPS) := by
      have h := Mostly.pm_shift (exp := P.L + P.EPS) (c := if e i then x.val else 0) (n := 2 ^ (P.L - 1)) (by omega)
        (by split; exacts [natAbs_of_inPm hr1, by simp])
      push_cast at h
      rwa [half_of_shift _ _ hL] at h
    have m2 : Mostly (1 / 2 / 2 ^ P.EPS) (pm (P.LP + P.EPS)) fun v => v + (if e i then -y.val else 0) ∈ pm (P.LP + P.EPS) := by
      have h := Mostly.pm_shift (exp := P.LP + P.EPS) (c := if e i then -y.val else 0) (n := 2 ^ (P.LP - 1)) (by omega)
        (by split; exacts [by rw [Int.natAbs_neg]; exact natAbs_of_inPm hr2, by simp])
      push_cast at h
      rwa [half_of_shift _ _ hLP] at h
    have m := Mostly.cons m1 (Mostly.cons m2 (Mostly.trivial (S := residues N0 ×ˢ residues N1)))
    have hsum : (1 : ℚ) / 2 ^ P.EPS = 1 / 2 / 2 ^ P.EPS + (1 / 2 / 2 ^ P.EPS + 0) := by ring
    rw [hsum]
    exact m

/-- One repetition of dec: the commitment and the response are those of the simulator for the shifted choices. -/
private theorem dec_simulated {P : Params} (hP : P.SelfConsistent) (hnb : 0 < P.numBits) (g : G) {N0 : Nat} (hN0 : 0 < N0) (c : Nat)
    (hwide : P.LP + P.EPS + 1 + c + P.EPS + 1 < P.wide) (x y : SInt) (hxb : x.bound = P.L) (hyb : y.bound ≤ P.LP + P.EPS + 1 + c + P.EPS)
    (rho : Nat) (pub : DecPublic N0 G) (hrel : DecRelation P N0 g q pub c x.val y.val rho) (bit : Bool) (alpha beta : Int) (r : Nat)
    (ha : (alpha, beta, r) ∈ decChoices P (P.LP + P.EPS + 1 + c) N0) :
    let z := alpha + if bit then x.val else 0
    let w := beta + if bit then y.val else 0
    let nu := (zpowMod (rho : ZMod N0) (bitExponent bit).val * (r : ZMod N0)).val
    (decCommit g pub q (decEphemeral P (P.LP + P.EPS + 1 + c) (alpha, beta, r)) : Out ε _) =
      .ok ⟨(zpowMod pub.capK (-z) * encryption N0 w nu * if bit then zpowMod pub.capD (-1) else 1).val,
        (w : ZMod q) • pub.capG - (if bit then pub.capS else 0), (z : ZMod q) • g - (if bit then pub.capX else 0)⟩ ∧
    (decRespond P N0 x y rho (decEphemeral P (P.LP + P.EPS + 1 + c) (alpha, beta, r)) bit : Out ε _) =
      .ok ⟨⟨if bit then max (P.L + P.EPS) P.L + 1 else P.L + P.EPS, z⟩,
        ⟨if bit then max (P.LP + P.EPS + 1 + c + P.EPS) y.bound + 1 else P.LP + P.EPS + 1 + c + P.EPS, w⟩, nu⟩ := by
  obtain ⟨hc0, ⟨hm1, hm2, hm3, hm4, hm5, hm6⟩, hs1, hs2, hs3, hs4, hs5, hs6, hs7⟩ := hP
  obtain ⟨hn, hcl, hr1, hr2, ⟨k, hk, hD⟩, hρ, hX, hS⟩ := hrel
  have hL : 0 < P.L := hnb
  simp only [decChoices, Finset.mem_product] at ha
  obtain ⟨ha1, ha2, ha3⟩ := ha
  obtain ⟨ur, hur⟩ := natCast_unit_sq (mem_residues.1 ha3).2
  obtain ⟨uρ, huρ⟩ := natCast_unit_sq hρ
  have fα := SInt.IsDraw.fits (exp := P.L + P.EPS) (a := ⟨P.L + P.EPS, alpha⟩) (by omega) ⟨rfl, mem_pm.1 ha1⟩
  have fβ := SInt.IsDraw.fits (exp := P.LP + P.EPS + 1 + c + P.EPS) (a := ⟨P.LP + P.EPS + 1 + c + P.EPS, beta⟩) (by omega) ⟨rfl, mem_pm.1 ha2⟩
  have hDu : pub.capD = ((k ^ (-x.val) * encU N0 y.val uρ : (ZMod (N0 ^ 2))ˣ) : Ct N0) := by
    have h1 := Encrypts_unit hD huρ
    rw [Units.val_mul, ← h1, ← mul_assoc, ← Units.val_mul, ← zpow_add, neg_add_cancel, zpow_zero, Units.val_one, one_mul]
  intro z w nu
  have ew : encryption N0 w nu = ((encU N0 w (uρ ^ (bitExponent bit).val * ur) : (ZMod (N0 ^ 2))ˣ) : Ct N0) :=
    encryption_masked hN0 huρ hur hρ (bitExponent_fits bit) w
  have hw : (toMasked N0 rho r (bitExponent bit) : Out ε _) = .ok nu := toMasked_residue hN0 hρ (bitExponent_fits bit)
  constructor
  · unfold decCommit decEphemeral
    simp only []
    rw [ew, hk, ctMulSecret_unit _ (SInt.neg_fits fα), Out.bind_ok, enc_unit fβ hur, Out.bind_ok, ctAdd_unit, hDu, zpowMod_unit, zpowMod_unit]
    refine congrArg Out.ok ?_
    simp only [DecCommitment.mk.injEq, ctToWire]
    refine ⟨congrArg ZMod.val ?_, ?_, ?_⟩
    · cases bit
      · simp [z, w, bitExponent, SInt.neg]
      · simp only [if_true, ← Units.val_mul]
        rw [mul_zpow, encU_zpow, mul_mul_mul_comm, ← zpow_mul, ← zpow_add, encU_mul]
        congr 2
        · congr 1; simp [z, SInt.neg]
        · congr 1
          · simp [w]
          · simp [bitExponent]
    · simp only [scalarOfSigned, w, hS]
      cases bit
      · simp
      · simp [add_smul]
    · simp only [scalarOfSigned, z, hX]
      cases bit
      · simp
      · simp [add_smul]
  · unfold decRespond decEphemeral
    simp only []
    have hz : ((if bit then SInt.add P.uint ⟨P.L + P.EPS, alpha⟩ x else .ok ⟨P.L + P.EPS, alpha⟩) : Out ε _) =
        .ok ⟨if bit then max (P.L + P.EPS) P.L + 1 else P.L + P.EPS, z⟩ := by
      cases bit
      · simp [z]
      · simp only [if_true]; unfold SInt.add; rw [if_pos (by simp only; omega)]; simp [z, hxb]
    have hz' : ((if bit then SInt.add P.wide ⟨P.LP + P.EPS + 1 + c + P.EPS, beta⟩ y.toWide else .ok ⟨P.LP + P.EPS + 1 + c + P.EPS, beta⟩) : Out ε _) =
        .ok ⟨if bit then max (P.LP + P.EPS + 1 + c + P.EPS) y.bound + 1 else P.LP + P.EPS + 1 + c + P.EPS, w⟩ := by
      cases bit
      · simp [w]
      · simp only [if_true]; unfold SInt.add SInt.toWide; rw [if_pos (by simp only; omega)]; simp [w]
    rw [hz, Out.bind_ok, hz', Out.bind_ok, hw, Out.bind_ok]

/-- **C60 (dec).** The same for the decryption proof. -/
theorem C60_dec {P : Params} (hP : P.SelfConsistent) (hnb : 0 < P.numBits) (g : G) {N0 Nh k : Nat} (hN0 : 0 < N0) (c : Nat)
    (hwide : P.LP + P.EPS + 1 + c + P.EPS + 1 < P.wide) (x y : SInt) (hxb : x.bound = P.L) (hyb : y.bound ≤ P.LP + P.EPS + 1 + c + P.EPS)
    (rho : Nat) (pub : DecPublic N0 G) (hrel : DecRelation P N0 g q pub c x.val y.val rho) (setup : RPParams Nh) (aux : Aux) (e : Fin k → Bool) :
    StatClose ((k : ℚ) * (1 / 2 ^ P.EPS))
      (repeated k (decChoices P (P.LP + P.EPS + 1 + c) N0))
      (fun c' => (DecProof.prove P (fun _ => List.ofFn e) g q x y rho pub setup aux
        (List.ofFn fun i => decEphemeral P (P.LP + P.EPS + 1 + c) (c' i)) : Out ε _))
      (repeated k (decChoices P (P.LP + P.EPS + 1 + c) N0)) (fun c' => .ok (decSim P (P.LP + P.EPS + 1 + c) y.bound g q pub e c')) := by
  have hL : 0 < P.L := hnb
  have hr1 := hrel.rangeX
  have hr2 := hrel.rangeY
  refine statClose_repeated
    (fun (i : Fin k) (a : Int × Int × Nat) => a.1 + (if e i then x.val else 0) ∈ pm (P.L + P.EPS) ∧
      a.2.1 + (if e i then y.val else 0) ∈ pm (P.LP + P.EPS + 1 + c + P.EPS) ∧ True)
    (fun (i : Fin k) (a : Int × Int × Nat) => (a.1 + (if e i then x.val else 0), a.2.1 + (if e i then y.val else 0),
      (zpowMod (rho : ZMod N0) (bitExponent (e i)).val * (a.2.2 : ZMod N0)).val)) ?_ ?_ ?_ (by positivity) ?_
  · rintro i ⟨alpha, beta, r⟩ ha ⟨h1, h2, -⟩
    simp only [decChoices, Finset.mem_product] at ha ⊢
    exact ⟨h1, h2, masked_mem hN0 hrel.randomizer (mem_residues.1 ha.2.2).2 _⟩
  · rintro i ⟨alpha, beta, r⟩ ha ⟨alpha', beta', r'⟩ ha' h
    simp only [decChoices, Finset.mem_product] at ha ha'
    simp only [Prod.mk.injEq] at h ⊢
    exact ⟨by omega, by omega, masked_inj hN0 hrel.randomizer (mem_residues.1 ha.2.2).1 (mem_residues.1 ha'.2.2).1 _ h.2.2⟩
  · intro a ha
    have hrep := fun i => dec_simulated (ε := ε) hP hnb g hN0 c hwide x y hxb hyb rho pub hrel (e i) (a i).1 (a i).2.1 (a i).2.2 (ha i)
    unfold DecProof.prove
    rw [SInt.assertRange_ok hr1, Out.bind_ok, ceilLog2_of hrel.parties hrel.width, Out.bind_ok, decYBound, SInt.assertRange_ok hr2, Out.bind_ok,
      Out.mapM'_ofFn (fun i => (hrep i).1), Out.bind_ok]
    simp only []
    rw [zip_ofFn, Out.mapM'_ofFn (fun i => (hrep i).2), Out.bind_ok]
    rfl
  · intro i
    have m1 : Mostly (1 / 2 / 2 ^ P.EPS) (pm (P.L + P.EPS)) fun v => v + (if e i then x.val else 0) ∈ pm (P.L + P.EPS) := by
      have h := Mostly.pm_shift (exp := P.L + P.EPS) (c := if e i then x.val else 0) (n := 2 ^ (P.L - 1)) (by omega)
        (by split; exacts [natAbs_of_inPm hr1, by simp])
      push_cast at h
      rwa [half_of_shift _ _ hL] at h
    have m2 : Mostly (1 / 2 / 2 ^ P.EPS) (pm (P.LP + P.EPS + 1 + c + P.EPS)) fun v =>
        v + (if e i then y.val else 0) ∈ pm (P.LP + P.EPS + 1 + c + P.EPS) := by
      have h := Mostly.pm_shift (exp := P.LP + P.EPS + 1 + c + P.EPS) (c := if e i then y.val else 0) (n := 2 ^ (P.LP + P.EPS + 1 + c - 1)) (by omega)
        (by split; exacts [natAbs_of_inPm hr2, by simp])
      push_cast at h
      rwa [half_of_shift _ _ (by omega)] at h
    have m := Mostly.cons m1 (Mostly.cons m2 (Mostly.trivial (S := residues N0)))
    have hsum : (1 : ℚ) / 2 ^ P.EPS = 1 / 2 / 2 ^ P.EPS + (1 / 2 / 2 ^ P.EPS + 0) := by ring
    rw [hsum]
    exact m

/-- **C60 (prm).** The proof about generated ring-Pedersen parameters is distributed as the output of the simulator, which knows neither the secret
exponent nor the factors of the modulus, up to the distance `(p + q - 1) / (p q)` per repetition: the prover's responses are below the totient, those of the
simulator below the modulus. -/
theorem C60_prm {p q' : Nat} (h : PaillierPrimes p q') {P : Params} (hb : p * q' < 2 ^ P.modBits) (lambda draw : Nat) (hl : lambda < 2 ^ (P.modBits - 2))
    (hd : IsInvertibleDraw (p * q') draw) (aux : Aux) {k : Nat} (e : Fin k → Bool) :
    let setup := RPParams.withSecret (p * q') P.modBits lambda draw
    StatClose ((k : ℚ) * ((p + q' - 1) / (p * q'))) (repeated k (Finset.range ((p - 1) * (q' - 1))))
      (fun a => PrmProof.prove P (fun _ => List.ofFn e) ((p - 1) * (q' - 1)) lambda setup aux (List.ofFn a))
      (repeated k (Finset.range (p * q'))) (fun z => prmSim setup e z) := by
  intro setup
  obtain ⟨hs, ⟨t, ht⟩, _, _⟩ := C24_generated_parameters (p * q') P.modBits lambda draw hl hd
  change setup.s = setup.t ^ lambda at hs
  change (t : ZMod (p * q')) = setup.t at ht
  have hne : NeZero (p * q') := ⟨h.pos.ne'⟩
  have htot : t ^ ((p - 1) * (q' - 1)) = 1 := by rw [← h.totient, ZMod.pow_totient]
  have hpos : 0 < (p - 1) * (q' - 1) := by rw [← h.totient]; exact Nat.totient_pos.2 h.pos
  have hpow : ∀ n, t ^ (n % ((p - 1) * (q' - 1))) = t ^ n := by
    intro n
    conv_rhs => rw [← Nat.div_add_mod n ((p - 1) * (q' - 1)), pow_add, pow_mul, htot, one_pow, one_mul]
  have hsu : setup.s = ((t ^ lambda : (ZMod (p * q'))ˣ) : ZMod (p * q')) := by rw [hs, ← ht, Units.val_pow_eq_pow_val]
  have hz := statClose_repeated (k := k) (S := Finset.range ((p - 1) * (q' - 1)))
    (f := fun a => PrmProof.prove P (fun _ => List.ofFn e) ((p - 1) * (q' - 1)) lambda setup aux (List.ofFn a)) (f' := fun z => prmSim setup e z)
    (fun (_ : Fin k) (_ : Nat) => True) (fun (i : Fin k) (a : Nat) => if e i then (a + lambda) % ((p - 1) * (q' - 1)) else a)
    ?_ ?_ ?_ le_rfl (fun _ => Mostly.trivial)
  · rw [mul_zero] at hz
    have hle : (p - 1) * (q' - 1) ≤ p * q' := Nat.mul_le_mul (Nat.sub_le _ _) (Nat.sub_le _ _)
    have h2 := statClose_repeated_subset (k := k) (S := Finset.range ((p - 1) * (q' - 1))) (S' := Finset.range (p * q')) (fun z => prmSim setup e z)
      (by simpa using hle) (by simpa using hpos)
    have h3 := statClose_trans hz h2
    have hp1 : 1 ≤ p := h.prime_p.one_lt.le
    have hq1 : 1 ≤ q' := h.prime_q.one_lt.le
    have hp0 : (p : ℚ) ≠ 0 := by positivity
    have hq0 : (q' : ℚ) ≠ 0 := by positivity
    have e3 : (0 : ℚ) + k * (1 - ((Finset.range ((p - 1) * (q' - 1))).card : ℚ) / (Finset.range (p * q')).card) = k * ((p + q' - 1) / (p * q')) := by
      rw [Finset.card_range, Finset.card_range, Nat.cast_mul, Nat.cast_mul, Nat.cast_sub hp1, Nat.cast_sub hq1]
      field_simp
      push_cast
      ring
    rwa [e3] at h3
  · intro i a ha _
    rw [Finset.mem_range] at ha ⊢
    split
    · exact Nat.mod_lt _ hpos
    · exact ha
  · intro i a ha a' ha' hh
    rw [Finset.mem_range] at ha ha'
    split at hh
    · have := Nat.ModEq.add_right_cancel' lambda hh
      rwa [Nat.ModEq, Nat.mod_eq_of_lt ha, Nat.mod_eq_of_lt ha'] at this
    · exact hh
  · intro a ha
    have hle : (p - 1) * (q' - 1) ≤ p * q' := Nat.mul_le_mul (Nat.sub_le _ _) (Nat.sub_le _ _)
    simp only [PrmProof.prove, prmSim, zip_ofFn, List.map_ofFn, PrmProof.mk.injEq]
    refine ⟨congrArg List.ofFn ?_, trivial, rfl⟩
    funext i
    have ha' : a i < 2 ^ P.modBits := by have := Finset.mem_range.1 (ha i); omega
    simp only [Function.comp]
    refine congrArg ZMod.val ?_
    unfold powUnsigned
    rw [powBounded_eq _ ha', hsu, ← ht, zpowMod_unit]
    by_cases hei : e i
    · simp only [hei, if_true, ← Units.val_pow_eq_pow_val, ← Units.val_mul]
      rw [hpow, pow_add]
      simp
    · simp [hei]

/-- **C60 (prm, distance).** With primes of at least `2^n`, the distance for prm is at most `2k / 2^n`. -/
theorem C60_prm_distance (p q' n k : Nat) (hp : 2 ^ n ≤ p) (hq : 2 ^ n ≤ q') : (k : ℚ) * ((p + q' - 1) / (p * q')) ≤ 2 * k / 2 ^ n := by
  have h2 : (0 : ℚ) < 2 ^ n := by positivity
  have hp' : (2 : ℚ) ^ n ≤ p := by exact_mod_cast hp
  have hq' : (2 : ℚ) ^ n ≤ q' := by exact_mod_cast hq
  have hp0 : (0 : ℚ) < p := h2.trans_le hp'
  have hq0 : (0 : ℚ) < q' := h2.trans_le hq'
  have h1 : ((p : ℚ) + q' - 1) / (p * q') ≤ 1 / q' + 1 / p := by
    rw [div_add_div _ _ hq0.ne' hp0.ne', div_le_div_iff₀ (by positivity) (by positivity)]
    nlinarith [mul_pos hp0 hq0]
  have h3 : 1 / (q' : ℚ) + 1 / p ≤ 2 / 2 ^ n := by
    have a1 := one_div_le_one_div_of_le h2 hp'
    have a2 := one_div_le_one_div_of_le h2 hq'
    have a3 : (2 : ℚ) / 2 ^ n = 1 / 2 ^ n + 1 / 2 ^ n := by ring
    rw [a3]; linarith
  calc (k : ℚ) * ((p + q' - 1) / (p * q')) ≤ k * (2 / 2 ^ n) := mul_le_mul_of_nonneg_left (h1.trans h3) (by positivity)
    _ = 2 * k / 2 ^ n := by ring

private theorem quarter_of_shift (L E : Nat) (hL : 0 < L) : (2 : ℚ) ^ (2 * L - 2) / 2 ^ (L + E) = 2 ^ L / 4 / 2 ^ E := by
  obtain ⟨k, rfl⟩ : ∃ k, L = k + 1 := ⟨L - 1, by omega⟩
  have : 2 * (k + 1) - 2 = k + k := by omega
  rw [this, pow_add, pow_add, pow_succ]
  field_simp
  ring

private theorem bound_max_succ_lt {a b w : Nat} (h1 : a + 1 < w) (h2 : b + 1 < w) : max a b + 1 < w := by omega

/-- **C60 (fac).** For any challenge the proof that a modulus has no small factor is distributed as the output of the simulator, which is given the modulus but
not its factors, up to the distance `2 / 2^L + 4 / 2^EPS + 3 · 2^L / (4 · 2^EPS)`. -/
theorem C60_fac {P : Params} {Nh : Nat} (p q' : Nat) (setup : RPParams Nh) (hset : FacSetting P p q' setup) (hprime : 2 ≤ P.primeBits) (hq0 : 0 < q')
    (l : Nat) (hl : setup.s = setup.t ^ l) (aux : Aux) (e : SInt) (hed : e.IsDraw P.L) :
    StatClose ((2 : ℚ) / 2 ^ P.L + 4 / 2 ^ P.EPS + 3 * (2 ^ P.L / 4 / 2 ^ P.EPS))
      (facChoices P (p * q') Nh) (fun c => (FacProof.prove P (fun _ => e) p q' setup aux (facMasks P (p * q') Nh c) : Out ε _))
      (facChoices P (p * q') Nh) (fun c => .ok (facSim P (p * q') setup e c)) := by
  obtain ⟨⟨hc0, ⟨hm1, hm2, hm3, hm4, hm5, hm6⟩, hs1, hs2, hs3, hs4, hs5, hs6, hs7⟩, hnb, hext, hp, hq, hNh, hNhb, ⟨⟨s, hs⟩, ⟨t, ht⟩⟩⟩ := hset
  have hL : 0 < P.L := hnb
  have hLE : 0 < P.L + P.EPS := by omega
  have hbl : bitLen Nh ≤ P.modBits := bitLen_le_iff.2 hNhb
  have hN0 : p * q' < 2 ^ P.modBits := by
    rw [hm1, two_mul, pow_add]; exact Nat.mul_lt_mul_of_lt_of_lt hp hq
  have hbl2 : bitLen (p * q' * Nh) ≤ 2 * P.modBits := by
    rw [bitLen_le_iff, two_mul, pow_add]; exact Nat.mul_lt_mul_of_lt_of_lt hN0 hNhb
  have hblS : bitLen (facSqrtN P) ≤ P.primeBits - 1 := by
    rw [bitLen_le_iff]; unfold facSqrtN; exact Nat.pow_lt_pow_right (by norm_num) (by omega)
  have hst : s = t ^ (l : Int) := by
    rw [zpow_natCast]; ext
    rw [Units.val_pow_eq_pow_val, hs, ht, hl]
  obtain ⟨c, hcb, hc⟩ := commitment_hides hNh hst (p : Int)
  obtain ⟨c', hcb', hc'⟩ := commitment_hides hNh hst (q' : Int)
  have be : e.bound = P.L := hed.1
  have fe := hed.fits hL
  have hea : e.val.natAbs ≤ 2 ^ (P.L - 1) := natAbs_of_inPm hed.2
  have hlt : (2 : Nat) ^ P.primeBits ≤ 2 ^ (P.uint - 1) := Nat.pow_le_pow_right (by norm_num) (by omega)
  have hpS : (primeSigned P p : Out ε _) = .ok ⟨P.primeBits, p⟩ := by
    unfold primeSigned; rw [if_pos ⟨by omega, by omega⟩]
  have hqS : (primeSigned P q' : Out ε _) = .ok ⟨P.primeBits, q'⟩ := by
    unfold primeSigned; rw [if_pos ⟨by omega, by omega⟩]
  have fp : SInt.Fits ⟨P.primeBits, (p : Int)⟩ := by unfold SInt.Fits; simpa using hp
  have fq : SInt.Fits ⟨P.primeBits, (q' : Int)⟩ := by unfold SInt.Fits; simpa using hq
  refine statClose_of_matching rfl
    (fun a : Int × Int × Int × Int × Int × Int × Int => a.1 + p * e.val ∈ pmScaled (P.L + P.EPS) (facSqrtN P) ∧
      a.2.1 + q' * e.val ∈ pmScaled (P.L + P.EPS) (facSqrtN P) ∧
      (a.2.2.1 + c ∈ pmScaled P.L Nh ∧ a.2.2.2.1 + a.2.2.1 * e.val ∈ pmScaled (P.L + P.EPS) Nh) ∧
      a.2.2.2.2.1 + c' ∈ pmScaled P.L Nh ∧ (a.2.2.2.2.2.1 + a.2.2.2.2.1 * e.val ∈ pmScaled (P.L + P.EPS) Nh ∧
        a.2.2.2.2.2.2 + -(p * e.val * a.2.2.2.2.1) ∈ pmScaled (P.L + P.EPS) (p * q' * Nh)))
    (fun a : Int × Int × Int × Int × Int × Int × Int => (a.1 + p * e.val, a.2.1 + q' * e.val, a.2.2.1 + c, a.2.2.2.1 + a.2.2.1 * e.val, a.2.2.2.2.1 + c',
      a.2.2.2.2.2.1 + a.2.2.2.2.1 * e.val, a.2.2.2.2.2.2 + -(p * e.val * a.2.2.2.2.1))) ?_ ?_ ?_ (by positivity) ?_
  · rintro ⟨alpha, beta, mu, x, nu, y, r⟩ - ⟨h1, h2, ⟨h3, h4⟩, h5, h6, h7⟩
    simp only [facChoices, Finset.mem_product]
    exact ⟨h1, h2, h3, h4, h5, h6, h7⟩
  · rintro ⟨alpha, beta, mu, x, nu, y, r⟩ - ⟨alpha', beta', mu', x', nu', y', r'⟩ - _ _ h
    simp only [Prod.mk.injEq] at h ⊢
    obtain ⟨h1, h2, h3, h4, h5, h6, h7⟩ := h
    have e3 : mu = mu' := by omega
    have e5 : nu = nu' := by omega
    subst e3 e5
    exact ⟨by omega, by omega, rfl, by omega, rfl, by omega, by omega⟩
  · rintro ⟨alpha, beta, mu, x, nu, y, r⟩ ha -
    simp only [facChoices, Finset.mem_product] at ha
    obtain ⟨ha1, ha2, ha3, ha4, ha5, ha6, ha7⟩ := ha
    have fα := SInt.IsScaledDraw.fits (a := ⟨P.L + P.EPS + bitLen (facSqrtN P), alpha⟩) hLE ⟨rfl, mem_pmScaled.1 ha1⟩
    have fβ := SInt.IsScaledDraw.fits (a := ⟨P.L + P.EPS + bitLen (facSqrtN P), beta⟩) hLE ⟨rfl, mem_pmScaled.1 ha2⟩
    have fμ := SInt.IsScaledDraw.fits (a := ⟨P.L + bitLen Nh, mu⟩) hL ⟨rfl, mem_pmScaled.1 ha3⟩
    have fx := SInt.IsScaledDraw.fits (a := ⟨P.L + P.EPS + bitLen Nh, x⟩) hLE ⟨rfl, mem_pmScaled.1 ha4⟩
    have fν := SInt.IsScaledDraw.fits (a := ⟨P.L + bitLen Nh, nu⟩) hL ⟨rfl, mem_pmScaled.1 ha5⟩
    have fy := SInt.IsScaledDraw.fits (a := ⟨P.L + P.EPS + bitLen Nh, y⟩) hLE ⟨rfl, mem_pmScaled.1 ha6⟩
    have fr := SInt.IsScaledDraw.fits (a := ⟨P.L + P.EPS + bitLen (p * q' * Nh), r⟩) hLE ⟨rfl, mem_pmScaled.1 ha7⟩
    have hz1 : (((SInt.mul P.uint ⟨P.primeBits, (p : Int)⟩ e).bind fun pe => SInt.add P.wide ⟨P.L + P.EPS + bitLen (facSqrtN P), alpha⟩ pe.toWide) : Out ε _) =
        .ok ⟨max (P.L + P.EPS + bitLen (facSqrtN P)) (P.primeBits + P.L) + 1, alpha + p * e.val⟩ := by
      unfold SInt.mul; rw [if_pos (by simp only [be]; omega)]; simp only [Out.bind_ok, SInt.toWide]
      unfold SInt.add; rw [if_pos (bound_max_succ_lt (by simp only; omega) (by simp only [be]; omega))]; simp only [be]
    have hz2 : (((SInt.mul P.uint ⟨P.primeBits, (q' : Int)⟩ e).bind fun pe => SInt.add P.wide ⟨P.L + P.EPS + bitLen (facSqrtN P), beta⟩ pe.toWide) : Out ε _) =
        .ok ⟨max (P.L + P.EPS + bitLen (facSqrtN P)) (P.primeBits + P.L) + 1, beta + q' * e.val⟩ := by
      unfold SInt.mul; rw [if_pos (by simp only [be]; omega)]; simp only [Out.bind_ok, SInt.toWide]
      unfold SInt.add; rw [if_pos (bound_max_succ_lt (by simp only; omega) (by simp only [be]; omega))]; simp only [be]
    have hw1 := SInt.mulAdd_ok (ε := ε) (w := P.wide) (a := ⟨P.L + P.EPS + bitLen Nh, x⟩) (x := ⟨P.L + bitLen Nh, mu⟩) (e := e)
      (by rw [be]; simp only; omega) (bound_max_succ_lt (by simp only; omega) (by rw [be]; simp only; omega))
    have hw2 := SInt.mulAdd_ok (ε := ε) (w := P.wide) (a := ⟨P.L + P.EPS + bitLen Nh, y⟩) (x := ⟨P.L + bitLen Nh, nu⟩) (e := e)
      (by rw [be]; simp only; omega) (bound_max_succ_lt (by simp only; omega) (by rw [be]; simp only; omega))
    have hv : (((SInt.mulWide P.wide ⟨P.primeBits, (p : Int)⟩ e).bind fun pe => (pe.mul P.wide ⟨P.L + bitLen Nh, nu⟩).bind fun pen =>
        SInt.sub P.extra ⟨P.L + P.EPS + bitLen (p * q' * Nh), r⟩ pen.toWide) : Out ε _) =
        .ok ⟨max (P.L + P.EPS + bitLen (p * q' * Nh)) (P.primeBits + P.L + (P.L + bitLen Nh)) + 1, r - p * e.val * nu⟩ := by
      unfold SInt.mulWide; rw [if_pos (by simp only [be]; omega)]; simp only [Out.bind_ok]
      unfold SInt.mul; rw [if_pos (by simp only [be]; omega)]; simp only [Out.bind_ok, SInt.toWide]
      unfold SInt.sub; rw [if_pos (bound_max_succ_lt (by simp only; omega) (by simp only [be]; omega))]; simp only [be]
    unfold FacProof.prove
    simp only [facMasks]
    rw [hpS, Out.bind_ok, hqS, Out.bind_ok, commitSecret_unit hs ht fp fμ, Out.bind_ok, commitSecret_unit hs ht fq fν, Out.bind_ok,
      commitSecret_unit hs ht fα fx, Out.bind_ok, commitSecret_unit hs ht fβ fy, Out.bind_ok, powSecret_unit _ fα, Out.bind_ok]
    unfold RPParams.commitZeroValueSecret
    rw [← ht, powSecret_unit _ fr, Out.bind_ok]
    simp only [← Units.val_mul]
    rw [hz1, Out.bind_ok, hz2, Out.bind_ok]
    simp only [SInt.toWide] at hv ⊢
    rw [hw1, Out.bind_ok, hw2, Out.bind_ok, hv, Out.bind_ok]
    refine congrArg Out.ok ?_
    simp only [facSim, commitmentToWire, commitment_unit hs ht, zpowMod_unit, be, ← Units.val_mul, ← sub_eq_add_neg]
    simp only [FacProof.mk.injEq, true_and, and_true]
    refine ⟨?_, ?_, ?_, ?_, ?_⟩
    · rw [hc]
    · rw [hc']
    · congr 2
      rw [← hc, comU_zpow, comU_mul]
      congr 1 <;> ring
    · congr 2
      rw [← hc', comU_zpow, comU_mul]
      congr 1 <;> ring
    · congr 2
      rw [← hc', comU_zpow, comU_zpow, comU_mul]
      have : t ^ r = comU s t 0 r := by unfold comU; rw [zpow_zero, one_mul]
      rw [this, comU_mul]
      congr 1
      · push_cast; ring
      · ring
  · have hS4 : 2 ^ P.primeBits = 4 * facSqrtN P := by
      unfold facSqrtN
      obtain ⟨j, hj⟩ : ∃ j, P.primeBits = j + 2 := ⟨P.primeBits - 2, by omega⟩
      rw [hj, Nat.add_sub_cancel, pow_add]; ring
    have hL2 : 2 * 2 ^ (P.L - 1) = 2 ^ P.L := by rw [← pow_succ', Nat.sub_add_cancel hL]
    have hb1 : ∀ f : Nat, f < 2 ^ P.primeBits → ((f : Int) * e.val).natAbs ≤ 2 * 2 ^ P.L * facSqrtN P := by
      intro f hf
      rw [Int.natAbs_mul, Int.natAbs_natCast]
      calc f * e.val.natAbs ≤ 2 ^ P.primeBits * 2 ^ (P.L - 1) := Nat.mul_le_mul hf.le hea
        _ = 2 * 2 ^ P.L * facSqrtN P := by rw [hS4, ← hL2]; ring
    have hb2 : ∀ mu ∈ pmScaled P.L Nh, (mu * e.val).natAbs ≤ 2 ^ (2 * P.L - 2) * Nh := by
      intro mu hmu
      rw [Int.natAbs_mul]
      calc mu.natAbs * e.val.natAbs ≤ Nh * 2 ^ (P.L - 1) * 2 ^ (P.L - 1) := Nat.mul_le_mul (natAbs_of_mem_pmScaled hmu) hea
        _ = 2 ^ (2 * P.L - 2) * Nh := by
          have : 2 * P.L - 2 = (P.L - 1) + (P.L - 1) := by omega
          rw [this, pow_add]; ring
    have hb3 : ∀ nu ∈ pmScaled P.L Nh, (-((p : Int) * e.val * nu)).natAbs ≤ 2 ^ (2 * P.L - 2) * (p * q' * Nh) := by
      intro nu hnu
      rw [Int.natAbs_neg, mul_assoc, mul_comm e.val, Int.natAbs_mul, Int.natAbs_natCast]
      calc p * (nu * e.val).natAbs ≤ p * (2 ^ (2 * P.L - 2) * Nh) := Nat.mul_le_mul_left _ (hb2 nu hnu)
        _ ≤ p * (2 ^ (2 * P.L - 2) * Nh) * q' := Nat.le_mul_of_pos_right _ hq0
        _ = 2 ^ (2 * P.L - 2) * (p * q' * Nh) := by ring
    have m1 := Mostly.pmScaled_shift (exp := P.L + P.EPS) (scale := facSqrtN P) (c := (p : Int) * e.val) hLE (hb1 p hp)
    have m2 := Mostly.pmScaled_shift (exp := P.L + P.EPS) (scale := facSqrtN P) (c := (q' : Int) * e.val) hLE (hb1 q' hq)
    have m3 := fun mu (hmu : mu ∈ pmScaled P.L Nh) => Mostly.pmScaled_shift (exp := P.L + P.EPS) (scale := Nh) (c := mu * e.val) hLE (hb2 mu hmu)
    have m4 := Mostly.pmScaled_shift (scale := Nh) (c := c) (n := 1) hL (by simpa using hcb)
    have m5 := Mostly.pmScaled_shift (scale := Nh) (c := c') (n := 1) hL (by simpa using hcb')
    have m6 := fun nu (hnu : nu ∈ pmScaled P.L Nh) => Mostly.pmScaled_shift (exp := P.L + P.EPS) (scale := p * q' * Nh) (c := -((p : Int) * e.val * nu)) hLE (hb3 nu hnu)
    have m := Mostly.cons m1 (Mostly.cons m2 (Mostly.cons₂ m4 m3 (Mostly.dep m5 fun nu hnu => Mostly.cons (m3 nu hnu) (m6 nu hnu))))
    have e1 : (2 : ℚ) * 2 ^ P.L / 2 ^ (P.L + P.EPS) = 2 / 2 ^ P.EPS := by
      rw [pow_add, mul_comm, mul_div_mul_left _ _ (by positivity)]
    have e2 := quarter_of_shift P.L P.EPS hL
    push_cast at m
    rw [e1, e2] at m
    have hsum : (2 : ℚ) / 2 ^ P.L + 4 / 2 ^ P.EPS + 3 * (2 ^ P.L / 4 / 2 ^ P.EPS) = 2 / 2 ^ P.EPS + (2 / 2 ^ P.EPS +
        (1 / 2 ^ P.L + 2 ^ P.L / 4 / 2 ^ P.EPS + (1 / 2 ^ P.L + (2 ^ P.L / 4 / 2 ^ P.EPS + 2 ^ P.L / 4 / 2 ^ P.EPS)))) := by ring
    rw [hsum]
    exact m

/-! ### Concrete cases -/

section Examples

private def toySetup : RPParams 77 := ⟨4, 16⟩

private theorem toyBases : toySetup.Valid :=
  ⟨IsUnit.of_mul_eq_one (a := (16 : ZMod 77)) 53 (by decide), IsUnit.of_mul_eq_one (a := (4 : ZMod 77)) 58 (by decide)⟩

private def toyC : (ZMod (77 ^ 2))ˣ := encU 77 9 (ZMod.unitOfCoprime 3 (by decide))

private def toyAffPub : AffGPublic 77 35 (ZMod 11) :=
  ⟨toyC, ((toyC ^ (5 : Int) : (ZMod (77 ^ 2))ˣ) : ZMod (77 ^ 2)) * ((1 + ((-6 : Int) : ZMod (77 ^ 2)) * ((77 : Nat) : ZMod (77 ^ 2))) * ((2 : Nat) : ZMod (77 ^ 2)) ^ 77),
    (1 + ((6 : Int) : ZMod (35 ^ 2)) * ((35 : Nat) : ZMod (35 ^ 2))) * ((2 : Nat) : ZMod (35 ^ 2)) ^ 35, 5⟩

/-- aff-g* with three repetitions -/
example (e : Fin 3 → Bool) : StatClose (((3 : Nat) : ℚ) * (1 / 2 ^ 64)) (repeated 3 (affGStarChoices Params.test 77 35))
    (fun c => (AffGStarProof.prove Params.test (fun _ => List.ofFn e) (1 : ZMod 11) 11 ⟨32, 5⟩ ⟨160, 6⟩ 2 2 toyAffPub (8 : Nat)
      (List.ofFn fun i => affGStarEphemeral Params.test (c i)) : Out Unit _))
    (repeated 3 (affGStarChoices Params.test 77 35)) (fun c => .ok (affGStarSim Params.test 1 11 toyAffPub e c)) :=
  C60_aff_g_star (by decide) (by decide) 1 (by decide) (by decide) ⟨32, 5⟩ ⟨160, 6⟩ rfl rfl 2 2 toyAffPub
    ⟨by decide, by decide, ⟨toyC, rfl, _, rfl, rfl⟩, rfl, by decide, by decide, by decide⟩ 8 e

private def toyDecPub : DecPublic 77 (ZMod 11) :=
  ⟨toyC, 5, ((toyC ^ (-5 : Int) : (ZMod (77 ^ 2))ˣ) : ZMod (77 ^ 2)) *
    ((1 + ((6 : Int) : ZMod (77 ^ 2)) * ((77 : Nat) : ZMod (77 ^ 2))) * ((2 : Nat) : ZMod (77 ^ 2)) ^ 77), 7, 3, 3⟩

private theorem toyWidth : IsCeilLog2 3 2 := by
  refine ⟨by decide, fun c' h => ?_⟩
  by_contra hlt
  have : c' = 0 ∨ c' = 1 := by omega
  rcases this with rfl | rfl <;> simp at h

private theorem toyDecRelation : DecRelation Params.test 77 (1 : ZMod 11) 11 toyDecPub 2 5 6 2 where
  parties := by decide
  width := toyWidth
  rangeX := by decide
  rangeY := by decide
  capD := by
    refine ⟨toyC, rfl, ?_⟩
    unfold Encrypts toyDecPub
    rw [← mul_assoc, ← Units.val_mul, ← zpow_add, show (5 : Int) + -5 = 0 from rfl, zpow_zero, Units.val_one, one_mul]
  randomizer := by decide
  capX := by decide
  capS := by decide

/-- dec with three repetitions -/
example (e : Fin 3 → Bool) : StatClose (((3 : Nat) : ℚ) * (1 / 2 ^ 64)) (repeated 3 (decChoices Params.test 227 77))
    (fun c => (DecProof.prove Params.test (fun _ => List.ofFn e) (1 : ZMod 11) 11 ⟨32, 5⟩ ⟨160, 6⟩ 2 toyDecPub toySetup (8 : Nat)
      (List.ofFn fun i => decEphemeral Params.test 227 (c i)) : Out Unit _))
    (repeated 3 (decChoices Params.test 227 77)) (fun c => .ok (decSim Params.test 227 160 1 11 toyDecPub e c)) :=
  C60_dec (by decide) (by decide) 1 (by decide) 2 (by decide) ⟨32, 5⟩ ⟨160, 6⟩ rfl (by decide) 2 toyDecPub toyDecRelation toySetup 8 e

/-- prm with three repetitions -/
example (e : Fin 3 → Bool) : StatClose (((3 : Nat) : ℚ) * ((((7 : Nat) : ℚ) + ((11 : Nat) : ℚ) - 1) / (((7 : Nat) : ℚ) * ((11 : Nat) : ℚ))))
    (repeated 3 (Finset.range ((7 - 1) * (11 - 1))))
    (fun a => PrmProof.prove Params.test (fun _ => List.ofFn e) ((7 - 1) * (11 - 1)) 9 (RPParams.withSecret (7 * 11) 256 9 2) (8 : Nat) (List.ofFn a))
    (repeated 3 (Finset.range (7 * 11))) (fun z => prmSim (RPParams.withSecret (7 * 11) 256 9 2) e z) :=
  C60_prm toy_primes (P := Params.test) (by decide) 9 2 (by decide) ⟨by decide, by decide⟩ 8 e

example : StatClose ((2 : ℚ) / 2 ^ 32 + 4 / 2 ^ 64 + 3 * (2 ^ 32 / 4 / 2 ^ 64)) (facChoices Params.test (7 * 11) 77)
    (fun c => (FacProof.prove Params.test (fun _ => ⟨32, -1234⟩) 7 11 toySetup (8 : Nat) (facMasks Params.test (7 * 11) 77 c) : Out Unit _))
    (facChoices Params.test (7 * 11) 77) (fun c => .ok (facSim Params.test (7 * 11) toySetup ⟨32, -1234⟩ c)) :=
  C60_fac 7 11 toySetup ⟨by decide, by decide, by decide, by decide, by decide, by decide, by decide, toyBases⟩ (by decide) (by decide) 2 (by decide) 8
    ⟨32, -1234⟩ ⟨rfl, by decide⟩

end Examples

end Synedrion.Props
