import Verif.Lemmas.ZeroKnowledge
import Verif.Props.ZkEncElg
import Verif.Props.ZkAffG
import Verif.Lemmas.Toy

/-!
# Property C60: proofs reveal nothing beyond their statement

For every challenge the honest prover's messages are distributed as those of a simulator that knows the statement and not the secret: exactly for the proofs over
the curve, up to an explicit statistical distance for the proofs about Paillier ciphertexts.
-/

set_option linter.unusedSectionVars false

namespace Synedrion.Props

open Spec

/-! ## Proofs over the curve -/

section
variable {F G Aux : Type} [Field F] [AddCommGroup G] [Module F G] [DecidableEq F] [DecidableEq G] [Fintype F]

/-- **C60 (sch).** For every challenge `e` and every secret, the commitment and the proof of an honest prover with a uniform mask have exactly the distribution of
simulated ones. -/
theorem C60_sch (g : G) (x e : F) (aux : Aux) :
    StatClose 0 Finset.univ (fun alpha : F => (schCommitment g alpha, SchProof.prove (fun _ => e) alpha x (schCommitment g alpha) (x • g) aux))
      Finset.univ (schSim g (x • g) e) := by
  refine statClose_zero rfl (fun alpha => alpha + x * e) (fun _ _ => Finset.mem_univ _) (fun a _ a' _ h => add_right_cancel h) fun alpha _ => ?_
  simp only [schCommitment, SchProof.prove, schSim, Prod.mk.injEq, and_true]
  module

/-- **C60 (elog).** The same for dlog-with-El-Gamal proofs of true statements. -/
theorem C60_elog (g : G) (y lambda e : F) (pub : ElogPublic G) (hL : pub.capL = lambda • g) (hM : pub.capM = y • g + lambda • pub.capX)
    (hY : pub.capY = y • pub.h) (aux : Aux) :
    StatClose 0 Finset.univ (fun c : F × F => ElogProof.prove (fun _ => e) g y lambda pub aux c.1 c.2) Finset.univ (elogSim g pub e) := by
  refine statClose_zero rfl (fun c => (c.1 + lambda * e, c.2 + y * e)) (fun _ _ => Finset.mem_univ _) ?_ fun c _ => ?_
  · rintro ⟨a, b⟩ _ ⟨a', b'⟩ _ h
    simp only [Prod.mk.injEq] at h ⊢
    exact ⟨add_right_cancel h.1, add_right_cancel h.2⟩
  · simp only [ElogProof.prove, elogSim, hL, hM, hY, ElogProof.mk.injEq, true_and, and_true]
    refine ⟨by module, by module, by module⟩

end

/-! ## Proofs about Paillier ciphertexts -/

section
variable {ε : Type} {q : Nat} {G Aux : Type} [AddCommGroup G] [Module (ZMod q) G] [DecidableEq G]

private theorem half_ratio (M L E : Nat) (hL : 0 < L) : (2 : ℚ) ^ (M + L - 1) / 2 ^ (M + E) = 2 ^ (L - 1) / 2 ^ E := by
  rw [Nat.add_sub_assoc hL, pow_add, pow_add, mul_div_mul_left _ _ (by positivity)]

/-- **C60 (enc-elg).** For every challenge and every witness of a true statement, an honest proof with uniform masks is simulated up to the distance
`2^L / 2^EPS + 1 / 2^L`, if the ring-Pedersen bases generate the same group, as their owner has to prove. -/
theorem C60_enc_elg [NeZero q] {P : Params} (g : G) {N0 Nh : Nat} (setup : RPParams Nh) (hset : EncElgSetting P q N0 setup) (l : Nat)
    (hl : setup.s = setup.t ^ l) (x : SInt) (hx : x.Fits) (hxb : x.bound = P.L) (rho : Nat) (b : ZMod q) (pub : EncElgPublic N0 G)
    (hrel : EncElgRelation P.L N0 g pub x.val rho b) (aux : Aux) (e : ZMod q) :
    StatClose ((2 : ℚ) ^ P.L / 2 ^ P.EPS + 1 / 2 ^ P.L)
      (encElgChoices P q N0 Nh) (fun c => (EncElgProof.prove P (fun _ => e) g x rho b pub setup aux (encElgMasks P Nh c) : Out ε _))
      (encElgChoices P q N0 Nh) (fun c => .ok (encElgSim P g pub setup e c)) := by
  obtain ⟨⟨hc0, ⟨hm1, hm2, hm3, hm4, hm5, hm6⟩, hs1, hs2, hs3, hs4, hs5, hs6, hs7⟩, hq, hnb, hN0, hNh, hNhb, ⟨⟨s, hs⟩, ⟨t, ht⟩⟩⟩ := hset
  obtain ⟨hr1, hr2, hr3, hr4, hr5⟩ := hrel
  have hL : 0 < P.L := hnb
  have hLE : 0 < P.L + P.EPS := by omega
  have hbl : bitLen Nh ≤ P.modBits := bitLen_le_iff.2 hNhb
  have hLdef : P.L = P.numBits := rfl
  obtain ⟨uρ, huρ⟩ := natCast_unit_sq hr3
  have hC := Encrypts_unit hr2 huρ
  have hst : s = t ^ (l : Int) := by
    rw [zpow_natCast]; ext
    rw [Units.val_pow_eq_pow_val, hs, ht, hl]
  obtain ⟨c, hcb, hc⟩ := commitment_hides hNh hst x.val
  have fe : (signedOfScalar P e).Fits := signedOfScalar_fits hq e
  have be : (signedOfScalar P e).bound = P.L := rfl
  have ve : (signedOfScalar P e).val = (e.val : Int) := rfl
  have hev : e.val < 2 ^ P.L := lt_trans (ZMod.val_lt _) hq
  refine statClose_of_matching rfl
    (fun a : Int × Int × Int × Nat × ZMod q => a.1 + x.val * (e.val : Int) ∈ pm (P.L + P.EPS) ∧
      (a.2.1 + c ∈ pmScaled P.L Nh ∧ a.2.2.1 + a.2.1 * (e.val : Int) ∈ pmScaled (P.L + P.EPS) Nh) ∧ True)
    (fun a : Int × Int × Int × Nat × ZMod q => (a.1 + x.val * (e.val : Int), a.2.1 + c, a.2.2.1 + a.2.1 * (e.val : Int), (zpowMod (rho : ZMod N0) (e.val : Int) * (a.2.2.2.1 : ZMod N0)).val,
      a.2.2.2.2 + b * e)) ?_ ?_ ?_ (by positivity) ?_
  · rintro ⟨alpha, mu, gamma, r, beta⟩ ha ⟨h1, ⟨h3, h2⟩, _⟩
    simp only [encElgChoices, Finset.mem_product, Finset.mem_univ, and_true] at ha ⊢
    exact ⟨h1, h3, h2, masked_mem hN0 hr3 (mem_residues.1 ha.2.2.2).2 _⟩
  · rintro ⟨alpha, mu, gamma, r, beta⟩ ha ⟨alpha', mu', gamma', r', beta'⟩ ha' _ _ h
    simp only [encElgChoices, Finset.mem_product, Finset.mem_univ, and_true] at ha ha'
    simp only [Prod.mk.injEq] at h ⊢
    obtain ⟨h1, h2, h3, h4, h5⟩ := h
    have e2 : mu = mu' := by omega
    subst e2
    exact ⟨by omega, rfl, by omega, masked_inj hN0 hr3 (mem_residues.1 ha.2.2.2).1 (mem_residues.1 ha'.2.2.2).1 _ h4, add_right_cancel h5⟩
  · rintro ⟨alpha, mu, gamma, r, beta⟩ ha ⟨h1, ⟨h3, h2⟩, _⟩
    simp only [encElgChoices, Finset.mem_product, Finset.mem_univ, and_true] at ha
    obtain ⟨ha1, ha2, ha3, ha4⟩ := ha
    obtain ⟨ur, hur⟩ := natCast_unit_sq (mem_residues.1 ha4).2
    have dα : (⟨P.L + P.EPS, alpha⟩ : SInt).IsDraw (P.L + P.EPS) := ⟨rfl, mem_pm.1 ha1⟩
    have dμ : (⟨P.L + bitLen Nh, mu⟩ : SInt).IsScaledDraw P.L Nh := ⟨rfl, mem_pmScaled.1 ha2⟩
    have dγ : (⟨P.L + P.EPS + bitLen Nh, gamma⟩ : SInt).IsScaledDraw (P.L + P.EPS) Nh := ⟨rfl, mem_pmScaled.1 ha3⟩
    have fα := dα.fits hLE
    have fμ := dμ.fits hL
    have fγ := dγ.fits hLE
    have hz1 := SInt.mulAdd_ok (ε := ε) (w := P.uint) (a := ⟨P.L + P.EPS, alpha⟩) (x := x) (e := signedOfScalar P e) (by rw [be]; omega)
      (by rw [be]; simp only; omega)
    have hz3 := SInt.mulAdd_ok (ε := ε) (w := P.wide) (a := ⟨P.L + P.EPS + bitLen Nh, gamma⟩) (x := ⟨P.L + bitLen Nh, mu⟩) (e := signedOfScalar P e)
      (by rw [be]; simp only; omega) (by rw [be]; simp only; omega)
    have hz2 := toMasked_residue (ε := ε) hN0 (r := r) hr3 fe
    unfold EncElgProof.prove
    simp only [encElgMasks]
    rw [SInt.assertRange_ok hr1, Out.bind_ok, commitSecret_unit hs ht hx fμ, Out.bind_ok, enc_unit fα hur, Out.bind_ok,
      commitSecret_unit hs ht fα fγ, Out.bind_ok]
    simp only [SInt.toWide]
    rw [hz1, Out.bind_ok, hz2, Out.bind_ok, hz3, Out.bind_ok]
    refine congrArg Out.ok ?_
    simp only [encElgSim, EncElgProof.mk.injEq, commitment_unit hs ht, zpowMod_unit, commitmentToWire, ctToWire, be, ve, hxb, true_and, and_true]
    have eD : encryption N0 (alpha + x.val * e.val) (zpowMod (rho : ZMod N0) (e.val : Int) * (r : ZMod N0)).val * zpowMod pub.capC (-(e.val : Int)) =
        ((encU N0 alpha ur : (ZMod (N0 ^ 2))ˣ) : Ct N0) := by
      have h := encryption_masked hN0 huρ hur hr3 fe (alpha + x.val * e.val)
      rw [ve] at h
      rw [h, hC, zpowMod_unit, ← Units.val_mul, encU_zpow, encU_mul]
      congr 2
      · ring
      · rw [mul_right_comm, ← zpow_add]; simp
    refine ⟨?_, ?_, ?_, ?_, ?_⟩
    · rw [hc]
    · rw [eD]
    · rw [hr5]
      simp only [scalarOfSigned]
      push_cast
      rw [ZMod.natCast_zmod_val]
      module
    · rw [hr4]; module
    · congr 1
      rw [← Units.val_mul, ← hc, comU_zpow, comU_mul]
      congr 2 <;> ring
  · -- the choices outside the matching
    have m1 := Mostly.pm_shift hLE (secret_mul_challenge_lt hL hr1 hev).le
    have m2 := fun mu (hmu : mu ∈ pmScaled P.L Nh) => Mostly.pmScaled_shift hLE (scaled_mul_challenge_le hL hmu hev)
    have m3 := Mostly.pmScaled_shift (scale := Nh) (c := c) (n := 1) hL (by simpa using hcb)
    have m := Mostly.cons m1 (Mostly.cons₂ m3 m2 (Mostly.trivial (S := residues N0 ×ˢ (Finset.univ : Finset (ZMod q)))))
    have hsum := half_ratio P.L P.L P.EPS hL
    push_cast at m
    rw [add_zero, add_left_comm, hsum, ← add_div, ← two_mul, ← pow_succ', Nat.sub_add_cancel hL, add_comm] at m
    exact m

/-- **C60 (aff-g).** The same for the affine-operation proof, up to the distance `2^(L+1) / 2^EPS + 2 / 2^L`. -/
theorem C60_aff_g [NeZero q] {P : Params} (g : G) {N0 N1 Nh : Nat} (setup : RPParams Nh) (hset : AffGSetting P q N0 N1 setup) (l : Nat)
    (hl : setup.s = setup.t ^ l) (x y : SInt) (hx : x.Fits) (hxb : x.bound = P.L) (hy : y.Fits) (hyb : y.bound = P.LP) (rho rhoY : Nat)
    (pub : AffGPublic N0 N1 G) (hrel : AffGRelation P N0 N1 g q pub x.val y.val rho rhoY) (aux : Aux) (e : ZMod q) :
    StatClose ((2 : ℚ) ^ (P.L + 1) / 2 ^ P.EPS + 2 / 2 ^ P.L)
      (affGChoices P N0 N1 Nh) (fun c => (AffGProof.prove P (fun _ => e) g x y rho rhoY pub setup aux (affGMasks P Nh c) : Out ε _))
      (affGChoices P N0 N1 Nh) (fun c => .ok (affGSim P g pub setup e c)) := by
  obtain ⟨⟨hc0, ⟨hm1, hm2, hm3, hm4, hm5, hm6⟩, hs1, hs2, hs3, hs4, hs5, hs6, hs7⟩, hq, hnb, hN0, hN1, hNh, hNhb, ⟨⟨s, hs⟩, ⟨t, ht⟩⟩⟩ := hset
  obtain ⟨hr1, hr2, ⟨cc, hcc, d, hd, hD⟩, hY, hρ, hρY, hX⟩ := hrel
  have hL : 0 < P.L := hnb
  have hLP : 0 < P.LP := by omega
  have hLE : 0 < P.L + P.EPS := by omega
  have hLPE : 0 < P.LP + P.EPS := by omega
  have hbl : bitLen Nh ≤ P.modBits := bitLen_le_iff.2 hNhb
  obtain ⟨uρ, huρ⟩ := natCast_unit_sq hρ
  obtain ⟨uρy, huρy⟩ := natCast_unit_sq hρY
  have hYu := Encrypts_unit hY huρy
  have hdu := Encrypts_unit hd huρ
  have hDu : pub.capD = ((cc ^ x.val * encU N0 (-y.val) uρ : (ZMod (N0 ^ 2))ˣ) : Ct N0) := by rw [hD, hdu]; rfl
  have hst : s = t ^ (l : Int) := by
    rw [zpow_natCast]; ext
    rw [Units.val_pow_eq_pow_val, hs, ht, hl]
  obtain ⟨c, hcb, hc⟩ := commitment_hides hNh hst x.val
  obtain ⟨c', hcb', hc'⟩ := commitment_hides hNh hst (-y.val)
  have fe : (signedOfScalar P e).Fits := signedOfScalar_fits hq e
  have be : (signedOfScalar P e).bound = P.L := rfl
  have ve : (signedOfScalar P e).val = (e.val : Int) := rfl
  have hev : e.val < 2 ^ P.L := lt_trans (ZMod.val_lt _) hq
  have fy := SInt.neg_fits hy
  have byneg : y.neg.bound = y.bound := rfl
  have vy : y.neg.val = -y.val := rfl
  refine statClose_of_matching rfl
    (fun a : Int × Int × Int × Int × Int × Int × Nat × Nat => a.1 + x.val * (e.val : Int) ∈ pm (P.L + P.EPS) ∧
      a.2.1 + -(y.val * (e.val : Int)) ∈ pm (P.LP + P.EPS) ∧
      (a.2.2.1 + c ∈ pmScaled P.L Nh ∧ a.2.2.2.1 + a.2.2.1 * (e.val : Int) ∈ pmScaled (P.L + P.EPS) Nh) ∧
      (a.2.2.2.2.1 + c' ∈ pmScaled P.L Nh ∧ a.2.2.2.2.2.1 + a.2.2.2.2.1 * (e.val : Int) ∈ pmScaled (P.L + P.EPS) Nh) ∧ True)
    (fun a : Int × Int × Int × Int × Int × Int × Nat × Nat => (a.1 + x.val * (e.val : Int), a.2.1 + -(y.val * (e.val : Int)), a.2.2.1 + c,
      a.2.2.2.1 + a.2.2.1 * (e.val : Int), a.2.2.2.2.1 + c', a.2.2.2.2.2.1 + a.2.2.2.2.1 * (e.val : Int),
      (zpowMod (rho : ZMod N0) (e.val : Int) * (a.2.2.2.2.2.2.1 : ZMod N0)).val,
      (zpowMod (rhoY : ZMod N1) (-(e.val : Int)) * (a.2.2.2.2.2.2.2 : ZMod N1)).val)) ?_ ?_ ?_ (by positivity) ?_
  · rintro ⟨alpha, beta, m, gamma, mu, delta, r, rY⟩ ha ⟨h1, h2, ⟨h3, h4⟩, ⟨h5, h6⟩, _⟩
    simp only [affGChoices, Finset.mem_product] at ha ⊢
    obtain ⟨-, -, -, -, -, -, ha7, ha8⟩ := ha
    exact ⟨h1, h2, h3, h4, h5, h6, masked_mem hN0 hρ (mem_residues.1 ha7).2 _, masked_mem hN1 hρY (mem_residues.1 ha8).2 _⟩
  · rintro ⟨alpha, beta, m, gamma, mu, delta, r, rY⟩ ha ⟨alpha', beta', m', gamma', mu', delta', r', rY'⟩ ha' _ _ h
    simp only [affGChoices, Finset.mem_product] at ha ha'
    obtain ⟨-, -, -, -, -, -, ha7, ha8⟩ := ha
    obtain ⟨-, -, -, -, -, -, ha7', ha8'⟩ := ha'
    simp only [Prod.mk.injEq] at h ⊢
    obtain ⟨h1, h2, h3, h4, h5, h6, h7, h8⟩ := h
    have e3 : m = m' := by omega
    have e5 : mu = mu' := by omega
    subst e3 e5
    exact ⟨by omega, by omega, rfl, by omega, rfl, by omega, masked_inj hN0 hρ (mem_residues.1 ha7).1 (mem_residues.1 ha7').1 _ h7,
      masked_inj hN1 hρY (mem_residues.1 ha8).1 (mem_residues.1 ha8').1 _ h8⟩
  · rintro ⟨alpha, beta, m, gamma, mu, delta, r, rY⟩ ha -
    simp only [affGChoices, Finset.mem_product] at ha
    obtain ⟨ha1, ha2, ha3, ha4, ha5, ha6, ha7, ha8⟩ := ha
    obtain ⟨ur, hur⟩ := natCast_unit_sq (mem_residues.1 ha7).2
    obtain ⟨ury, hury⟩ := natCast_unit_sq (mem_residues.1 ha8).2
    have dα : (⟨P.L + P.EPS, alpha⟩ : SInt).IsDraw (P.L + P.EPS) := ⟨rfl, mem_pm.1 ha1⟩
    have dβ : (⟨P.LP + P.EPS, beta⟩ : SInt).IsDraw (P.LP + P.EPS) := ⟨rfl, mem_pm.1 ha2⟩
    have dm : (⟨P.L + bitLen Nh, m⟩ : SInt).IsScaledDraw P.L Nh := ⟨rfl, mem_pmScaled.1 ha3⟩
    have dγ : (⟨P.L + P.EPS + bitLen Nh, gamma⟩ : SInt).IsScaledDraw (P.L + P.EPS) Nh := ⟨rfl, mem_pmScaled.1 ha4⟩
    have dμ : (⟨P.L + bitLen Nh, mu⟩ : SInt).IsScaledDraw P.L Nh := ⟨rfl, mem_pmScaled.1 ha5⟩
    have dδ : (⟨P.L + P.EPS + bitLen Nh, delta⟩ : SInt).IsScaledDraw (P.L + P.EPS) Nh := ⟨rfl, mem_pmScaled.1 ha6⟩
    have fα := dα.fits hLE
    have fβ := dβ.fits hLPE
    have fm := dm.fits hL
    have fγ := dγ.fits hLE
    have fμ := dμ.fits hL
    have fδ := dδ.fits hLE
    have hz1 := SInt.mulAdd_ok (ε := ε) (w := P.uint) (a := ⟨P.L + P.EPS, alpha⟩) (x := x) (e := signedOfScalar P e) (by rw [be]; omega)
      (by rw [be]; simp only; omega)
    have hz2 := SInt.mulAdd_ok (ε := ε) (w := P.uint) (a := ⟨P.LP + P.EPS, beta⟩) (x := y.neg) (e := signedOfScalar P e) (by rw [be, byneg]; omega)
      (by rw [be, byneg]; simp only; omega)
    have hz3 := SInt.mulAdd_ok (ε := ε) (w := P.wide) (a := ⟨P.L + P.EPS + bitLen Nh, gamma⟩) (x := ⟨P.L + bitLen Nh, m⟩) (e := signedOfScalar P e)
      (by rw [be]; simp only; omega) (by rw [be]; simp only; omega)
    have hz4 := SInt.mulAdd_ok (ε := ε) (w := P.wide) (a := ⟨P.L + P.EPS + bitLen Nh, delta⟩) (x := ⟨P.L + bitLen Nh, mu⟩) (e := signedOfScalar P e)
      (by rw [be]; simp only; omega) (by rw [be]; simp only; omega)
    have hw := toMasked_residue (ε := ε) hN0 (r := r) hρ fe
    have hwY := toMasked_residue (ε := ε) hN1 (r := rY) hρY (SInt.neg_fits fe)
    have vne : (signedOfScalar P e).neg.val = -(e.val : Int) := rfl
    rw [ve] at hw
    rw [vne] at hwY
    unfold AffGProof.prove
    simp only [affGMasks]
    rw [SInt.assertRange_ok hr1, Out.bind_ok, SInt.assertRange_ok hr2, Out.bind_ok, hcc, ctMulSecret_unit _ fα, Out.bind_ok, enc_unit fβ hur,
      Out.bind_ok, enc_unit fβ hury, Out.bind_ok, commitSecret_unit hs ht fα fγ, Out.bind_ok, commitSecret_unit hs ht hx fm, Out.bind_ok,
      commitSecret_unit hs ht fβ fδ, Out.bind_ok, commitSecret_unit hs ht fy fμ, Out.bind_ok]
    simp only [SInt.toWide, ctAdd_unit]
    rw [hz1, Out.bind_ok, hz2, Out.bind_ok, hz3, Out.bind_ok, hz4, Out.bind_ok, hw, Out.bind_ok, hwY, Out.bind_ok]
    refine congrArg Out.ok ?_
    have eA : zpowMod pub.capC (alpha + x.val * e.val) *
        encryption N0 (beta + -(y.val * e.val)) (zpowMod (rho : ZMod N0) (e.val : Int) * (r : ZMod N0)).val * zpowMod pub.capD (-(e.val : Int)) =
        ((cc ^ alpha * encU N0 beta ur : (ZMod (N0 ^ 2))ˣ) : Ct N0) := by
      have h := encryption_masked hN0 huρ hur hρ fe (beta + -(y.val * e.val))
      rw [ve] at h
      rw [h, hDu, hcc, zpowMod_unit, zpowMod_unit, ← Units.val_mul, ← Units.val_mul, mul_zpow, encU_zpow, mul_mul_mul_comm, ← zpow_mul, ← zpow_add, encU_mul]
      congr 2
      · congr 1; ring
      · congr 1
        · ring
        · rw [mul_right_comm, ← zpow_add]; simp
    have eB : encryption N1 (beta + -(y.val * e.val)) (zpowMod (rhoY : ZMod N1) (-(e.val : Int)) * (rY : ZMod N1)).val * zpowMod pub.capY (e.val : Int) =
        ((encU N1 beta ury : (ZMod (N1 ^ 2))ˣ) : Ct N1) := by
      have h := encryption_masked hN1 huρy hury hρY (SInt.neg_fits fe) (beta + -(y.val * e.val))
      rw [vne] at h
      rw [h, hYu, zpowMod_unit, ← Units.val_mul, encU_zpow, encU_mul]
      congr 2
      · ring
      · rw [mul_right_comm, ← zpow_add]; simp
    have v2 : beta + y.neg.val * (e.val : Int) = beta + -(y.val * e.val) := by rw [vy]; ring
    simp only [affGSim, AffGProof.mk.injEq, commitmentToWire, ctToWire, be, ve, byneg, hxb, hyb, v2, true_and, and_true, eA, eB]
    simp only [commitment_unit hs ht, zpowMod_unit]
    refine ⟨?_, ?_, ?_, ?_, ?_⟩
    · rw [hX]
      simp only [scalarOfSigned]
      push_cast
      rw [ZMod.natCast_zmod_val]
      module
    · congr 1
      rw [← Units.val_mul, ← hc, comU_zpow, comU_mul]
      congr 2 <;> ring
    · rw [hc]
    · congr 1
      rw [← Units.val_mul, ← hc', comU_zpow, comU_mul]
      congr 2 <;> ring
    · rw [vy, hc']
  · have m1 := Mostly.pm_shift hLE (secret_mul_challenge_lt hL hr1 hev).le
    have m2 := Mostly.pm_shift (c := -(y.val * (e.val : Int))) (n := 2 ^ (P.LP + P.L - 1)) hLPE
      (by rw [Int.natAbs_neg]; exact (secret_mul_challenge_lt hLP hr2 hev).le)
    have m3 := fun mu (hmu : mu ∈ pmScaled P.L Nh) => Mostly.pmScaled_shift hLE (scaled_mul_challenge_le hL hmu hev)
    have m4 := Mostly.pmScaled_shift (scale := Nh) (c := c) (n := 1) hL (by simpa using hcb)
    have m5 := Mostly.pmScaled_shift (scale := Nh) (c := c') (n := 1) hL (by simpa using hcb')
    have m := Mostly.cons m1 (Mostly.cons m2 (Mostly.cons₂ m4 m3 (Mostly.cons₂ m5 m3 (Mostly.trivial (S := residues N0 ×ˢ residues N1)))))
    have e1 := half_ratio P.L P.L P.EPS hL
    have e2 := half_ratio P.LP P.L P.EPS hL
    push_cast at m
    rw [e1, e2] at m
    have hsum : (2 : ℚ) ^ (P.L + 1) / 2 ^ P.EPS + 2 / 2 ^ P.L = 2 ^ (P.L - 1) / 2 ^ P.EPS +
        (2 ^ (P.L - 1) / 2 ^ P.EPS + (1 / 2 ^ P.L + 2 ^ (P.L - 1) / 2 ^ P.EPS + (1 / 2 ^ P.L + 2 ^ (P.L - 1) / 2 ^ P.EPS + 0))) := by
      obtain ⟨k, hk⟩ : ∃ k, P.L = k + 1 := ⟨P.L - 1, by omega⟩
      rw [hk, Nat.add_sub_cancel, pow_succ, pow_succ]
      ring
    rw [hsum]
    exact m

end

/-- **C60 (size of the distances).** For the production parameters the secrets are masked with at least twice as many bits as the challenge has, so the
distances of `C60_enc_elg`, `C60_aff_g` and `C60_fac` are at most `2^-253`, and those of `C60_aff_g_star` and `C60_dec` at most `2^-504` for up to 256 repetitions. -/
theorem C60_production_distances (P : Params) (hP : P = Params.production112 ∨ P = Params.production128) :
    (2 : ℚ) ^ P.L / 2 ^ P.EPS + 1 / 2 ^ P.L ≤ 1 / 2 ^ 253 ∧ (2 : ℚ) ^ (P.L + 1) / 2 ^ P.EPS + 2 / 2 ^ P.L ≤ 1 / 2 ^ 253 ∧
      (2 : ℚ) / 2 ^ P.L + 4 / 2 ^ P.EPS + 3 * (2 ^ P.L / 4 / 2 ^ P.EPS) ≤ 1 / 2 ^ 253 ∧ ∀ k : Nat, k ≤ 256 → (k : ℚ) * (1 / 2 ^ P.EPS) ≤ 1 / 2 ^ 504 := by
  have hL : P.L = 256 := by rcases hP with rfl | rfl <;> rfl
  have hE : 512 ≤ P.EPS := by rcases hP with rfl | rfl <;> decide
  obtain ⟨t, ht⟩ : ∃ t : ℚ, t = 1 / 2 ^ 253 := ⟨_, rfl⟩
  have ht0 : 0 < t := by rw [ht]; positivity
  have h256 : (1 : ℚ) / 2 ^ 256 = t / 8 := by rw [ht]; norm_num
  have h504 : (1 : ℚ) / 2 ^ 504 = 4 * t ^ 2 := by
    rw [ht, div_pow, one_pow, ← pow_mul, show 253 * 2 = 504 + 2 from rfl, pow_add]
    field_simp
    norm_num
  have hu : (1 : ℚ) / 2 ^ P.EPS ≤ t ^ 2 / 64 := by
    have : (1 : ℚ) / 2 ^ 512 = t ^ 2 / 64 := by
      rw [ht, div_pow, one_pow, ← pow_mul, show 512 = 253 * 2 + 6 from rfl, pow_add]
      field_simp
      norm_num
    rw [← this]
    exact one_div_le_one_div_of_le (by positivity) (pow_le_pow_right₀ (by norm_num) hE)
  have hx : (2 : ℚ) ^ 256 * (1 / 2 ^ P.EPS) ≤ t / 8 := by
    have h1 : (2 : ℚ) ^ 256 * t = 8 := by rw [ht]; norm_num
    calc (2 : ℚ) ^ 256 * (1 / 2 ^ P.EPS) ≤ 2 ^ 256 * (t ^ 2 / 64) := mul_le_mul_of_nonneg_left hu (by positivity)
      _ = (2 ^ 256 * t) * (t / 64) := by ring
      _ = t / 8 := by rw [h1]; ring
  have hu0 : (0 : ℚ) ≤ 1 / 2 ^ P.EPS := by positivity
  have hut : (1 : ℚ) / 2 ^ P.EPS ≤ t / 64 := by
    have : t ≤ 1 := by rw [ht]; exact (div_le_one (by positivity)).2 (one_le_pow₀ (by norm_num))
    nlinarith
  have e1 : ∀ a : ℚ, a / 2 ^ P.EPS = a * (1 / 2 ^ P.EPS) := fun a => div_eq_mul_one_div _ _
  have e2 : ∀ a : ℚ, a / 2 ^ 256 = a * (t / 8) := fun a => by rw [div_eq_mul_one_div, h256]
  rw [hL, ← ht, h504, e2, e2, e1 (2 ^ 256), e1 (2 ^ (256 + 1)), e1 4, e1 (2 ^ 256 / 4), pow_succ (2 : ℚ) 256]
  generalize (1 : ℚ) / 2 ^ P.EPS = u at *
  refine ⟨by linarith, by linarith, by linarith, fun k hk => ?_⟩
  have h1 : (k : ℚ) ≤ 256 := by exact_mod_cast hk
  calc (k : ℚ) * u ≤ 256 * (t ^ 2 / 64) := mul_le_mul h1 hu hu0 (by norm_num)
    _ = 4 * t ^ 2 := by ring

/-! ### Concrete cases -/

section Examples

attribute [local instance] Toy.fact11

/-- sch: the secret 5 and the challenge 3 in the group of order 11 -/
example : StatClose 0 Finset.univ (fun alpha : ZMod 11 => (schCommitment (1 : ZMod 11) alpha,
    SchProof.prove (fun _ => 3) alpha 5 (schCommitment (1 : ZMod 11) alpha) ((5 : ZMod 11) • (1 : ZMod 11)) (8 : Nat)))
      Finset.univ (schSim 1 ((5 : ZMod 11) • (1 : ZMod 11)) 3) := C60_sch 1 5 3 8

/-- It is not the case that any two experiments are close: without the mask the proof gives the secret away. -/
example : ¬ StatClose (1 / 2) (Finset.univ : Finset (ZMod 11)) (fun _ : ZMod 11 => SchProof.prove (fun _ => 3) (0 : ZMod 11) 5 (0 : ZMod 11) (5 : ZMod 11) (8 : Nat))
    Finset.univ (fun z : ZMod 11 => (schSim (1 : ZMod 11) (5 : ZMod 11) 3 z).2) := by
  intro h
  have h1 := h (fun p => p.proof = 4)
  revert h1
  decide +kernel

example : StatClose 0 Finset.univ (fun c : ZMod 11 × ZMod 11 => ElogProof.prove (fun _ => 3) (1 : ZMod 11) 5 7 ⟨7, 5 + 7 * 2, 2, 5 * 4, 4⟩ (8 : Nat) c.1 c.2)
    Finset.univ (elogSim 1 ⟨7, 5 + 7 * 2, 2, 5 * 4, 4⟩ 3) := C60_elog 1 5 7 3 _ rfl rfl rfl 8

/-- Modulus 77, bases `s = 16 = t²` and `t = 4` -/
private def toySetup : RPParams 77 := ⟨4, 16⟩

private theorem toyBases : toySetup.Valid :=
  ⟨IsUnit.of_mul_eq_one (a := (16 : ZMod 77)) 53 (by decide), IsUnit.of_mul_eq_one (a := (4 : ZMod 77)) 58 (by decide)⟩

private def toyEncPub : EncElgPublic 77 (ZMod 11) :=
  ⟨(1 + ((5 : Int) : ZMod (77 ^ 2)) * ((77 : Nat) : ZMod (77 ^ 2))) * ((2 : Nat) : ZMod (77 ^ 2)) ^ 77, 3, 7, 5 + 7 * 3⟩

example : StatClose ((2 : ℚ) ^ 32 / 2 ^ 64 + 1 / 2 ^ 32) (encElgChoices Params.test 11 77 77)
    (fun c => (EncElgProof.prove Params.test (fun _ => 3) (1 : ZMod 11) ⟨32, 5⟩ 2 7 toyEncPub toySetup (8 : Nat) (encElgMasks Params.test 77 c) : Out Unit _))
    (encElgChoices Params.test 11 77 77) (fun c => .ok (encElgSim Params.test 1 toyEncPub toySetup 3 c)) :=
  C60_enc_elg 1 toySetup ⟨by decide, by decide, by decide, by decide, by decide, by decide, toyBases⟩ 2 (by decide) ⟨32, 5⟩ (by decide) rfl 2 7 toyEncPub
    ⟨by decide, rfl, by decide, by decide, by decide⟩ 8 3

private def toyC : (ZMod (77 ^ 2))ˣ := encU 77 9 (ZMod.unitOfCoprime 3 (by decide))

private def toyAffPub : AffGPublic 77 35 (ZMod 11) :=
  ⟨toyC, ((toyC ^ (5 : Int) : (ZMod (77 ^ 2))ˣ) : ZMod (77 ^ 2)) * ((1 + ((-6 : Int) : ZMod (77 ^ 2)) * ((77 : Nat) : ZMod (77 ^ 2))) * ((2 : Nat) : ZMod (77 ^ 2)) ^ 77),
    (1 + ((6 : Int) : ZMod (35 ^ 2)) * ((35 : Nat) : ZMod (35 ^ 2))) * ((2 : Nat) : ZMod (35 ^ 2)) ^ 35, 5⟩

example : StatClose ((2 : ℚ) ^ 33 / 2 ^ 64 + 2 / 2 ^ 32) (affGChoices Params.test 77 35 77)
    (fun c => (AffGProof.prove Params.test (fun _ => (3 : ZMod 11)) (1 : ZMod 11) ⟨32, 5⟩ ⟨160, 6⟩ 2 2 toyAffPub toySetup (8 : Nat) (affGMasks Params.test 77 c) : Out Unit _))
    (affGChoices Params.test 77 35 77) (fun c => .ok (affGSim Params.test 1 toyAffPub toySetup (3 : ZMod 11) c)) :=
  C60_aff_g 1 toySetup ⟨by decide, by decide, by decide, by decide, by decide, by decide, by decide, toyBases⟩ 2 (by decide) ⟨32, 5⟩ ⟨160, 6⟩ (by decide) rfl
    (by decide) rfl 2 2 toyAffPub ⟨by decide, by decide, ⟨toyC, rfl, _, rfl, rfl⟩, rfl, by decide, by decide, by decide⟩ 8 3

end Examples

end Synedrion.Props
