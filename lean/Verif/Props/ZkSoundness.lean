import Verif.Props.ZkEncElg
import Verif.Props.ZkAffG
import Verif.Props.ZkDec
import Verif.Spec.KeyExtraction
import Verif.Lemmas.Toy

/-!
# Property C53: accepted proofs tie ciphertexts to the claimed points

The claim is false of the code: no verifier checks that the committed ciphertexts and the masked randomizers are invertible, and with both zero the
Paillier equations read `0 = 0` for every ciphertext. The forgeries below are constructed explicitly. What holds is special soundness for
invertible commitments: two accepted proofs with the same commitments and different challenges determine the plaintext and relate it to the point.
-/

set_option linter.unusedSectionVars false

namespace Synedrion.Props
open Spec

variable {ε : Type} {q : Nat} {G Aux : Type} [AddCommGroup G] [Module (ZMod q) G] [DecidableEq G]

/-! ## Helpers -/

theorem encPublic_zero {N : Nat} (hN : 0 < N) (m : SInt) : encPublic N m 0 = 0 := by
  rw [encPublic_eq, Nat.cast_zero, zero_pow hN.ne', mul_zero]

theorem powPublic_nonneg {n : Nat} (a : ZMod n) {b k : Nat} (hk : k < 2 ^ b) : (powPublic a ⟨b, (k : Int)⟩ : Out ε _) = .ok (a ^ k) := by
  unfold powPublic
  have h0 : ¬ ((k : Int) < 0) := by omega
  simp only [h0, if_false, Int.natAbs_natCast]
  rw [powBounded_eq _ hk]

theorem natInPm {e : Nat} {k : Nat} (hk : k < 2 ^ (e - 1)) : InPm e (k : Int) := by
  have hc : (((2 : Nat) ^ (e - 1) : Nat) : Int) = (2 : Int) ^ (e - 1) := by push_cast; rfl
  unfold InPm; rw [← hc]
  omega

/-! ## The full claims, for reference

`EncElgBinds`, `AffGBinds` and `DecBinds` are what the property asks of an accepted proof: the ciphertexts are related to the points
through some small exponents. -/

/-- The relation an enc-elg proof is meant to establish, with the slack of the range check: `C` decrypts to some `x` in the wider range such that `X`
is `x g + b A` where `B = b g`. -/
def EncElgBinds (P : Params) {N0 : Nat} (g : G) (q : Nat) [Module (ZMod q) G] (pub : EncElgPublic N0 G) : Prop :=
  ∃ (x : Int) (b : ZMod q), InPm (P.L + P.EPS + 1) x ∧ (∃ rho, Nat.Coprime rho N0 ∧ Encrypts N0 x rho pub.capC) ∧ pub.capB = b • g ∧ pub.capX = (x : ZMod q) • g + b • pub.capA

/-- The relation an aff-g (or aff-g*) proof is meant to establish. -/
def AffGBinds (P : Params) {N0 N1 : Nat} (g : G) (q : Nat) [Module (ZMod q) G] (pub : AffGPublic N0 N1 G) : Prop :=
  ∃ (x y : Int), InPm (P.L + P.EPS + 1) x ∧ InPm (P.LP + P.EPS + 1) y ∧ pub.capX = (x : ZMod q) • g ∧
    (∃ cx d rho, (ctMulPublic pub.capC ⟨P.L + P.EPS + 1, x⟩ : Out Empty _) = .ok cx ∧ Nat.Coprime rho N0 ∧ Encrypts N0 (-y) rho d ∧ pub.capD = cx * d) ∧
    ∃ rhoY, Nat.Coprime rhoY N1 ∧ Encrypts N1 y rhoY pub.capY

/-- The relation a dec proof is meant to establish. -/
def DecBinds (P : Params) {N0 : Nat} (g : G) (q : Nat) [Module (ZMod q) G] (pub : DecPublic N0 G) : Prop :=
  ∃ (x y : Int) (c : Nat), IsCeilLog2 pub.numParties c ∧ InPm (P.L + P.EPS + 1) x ∧ InPm (P.LP + P.EPS + 1 + c + P.EPS + 1) y ∧
    pub.capX = (x : ZMod q) • g ∧ pub.capS = (y : ZMod q) • pub.capG ∧
    ∃ kx rho, (ctMulPublic pub.capK ⟨P.L + P.EPS + 1, x⟩ : Out Empty _) = .ok kx ∧ Nat.Coprime rho N0 ∧ Encrypts N0 y rho (kx * pub.capD)

/-! ## Forgeries -/

/-- The forged proof is accepted. -/
theorem encElgForgery_accepted [NeZero q] {P : Params} (hP : P.SelfConsistent) (hnb : 0 < P.numBits) (hq : q < 2 ^ P.numBits)
    (H : EncElgHash G Aux → ZMod q) (g : G) {N0 Nh : Nat} (hN0 : 0 < N0) (hNh : 0 < Nh) (pub : EncElgPublic N0 G) (setup : RPParams Nh) (aux : Aux)
    (x alpha : Nat) (hx : x < 2 ^ P.L) (ha : alpha < 2 ^ P.L) (b beta : ZMod q) (hB : pub.capB = b • g) (hX : pub.capX = (x : ZMod q) • g + b • pub.capA) :
    ((encElgForgery P H g pub setup aux x alpha b beta).verify P H g pub setup aux : Out ε _) = .ok true := by
  obtain ⟨hc0, ⟨hm1, hm2, hm3, hm4, hm5, hm6⟩, hs1, hs2, hs3, hs4, hs5, hs6, hs7⟩ := hP
  have hL : 0 < P.L := hnb
  have hLn : P.L = P.numBits := rfl
  simp only [encElgForgery]
  set capS := (setup.s ^ x).val with hS
  set capT := (setup.s ^ alpha).val with hT
  set capY := beta • pub.capA + (alpha : ZMod q) • g with hY
  set e := H (encElgHash capS 0 capY (beta • g) capT pub setup aux) with he
  have hev : e.val < 2 ^ P.L := lt_trans (ZMod.val_lt _) hq
  have hxe : x * e.val < 2 ^ (P.L + P.L) := by rw [pow_add]; exact Nat.mul_lt_mul_of_lt_of_lt hx hev
  have hz : alpha + x * e.val < 2 ^ (2 * P.L + 1) := by
    have h1 : (2 : Nat) ^ P.L ≤ 2 ^ (P.L + P.L) := Nat.pow_le_pow_right (by norm_num) (by omega)
    have h2 : (2 : Nat) ^ (2 * P.L + 1) = 2 * 2 ^ (P.L + P.L) := by rw [← pow_succ']; congr 1; omega
    omega
  have hz' : alpha + x * e.val < 2 ^ (P.L + P.EPS - 1) := lt_of_lt_of_le hz (Nat.pow_le_pow_right (by norm_num) (by omega))
  simp only [EncElgProof.verify]
  rw [← he, decide_eq_true rfl, Out.check_true, SInt.inRange_eq, decide_eq_true (natInPm hz'), Out.check_true]
  unfold ctMulPublic
  rw [powPublic_scalar hq, Out.bind_ok, encPublic_zero hN0]
  have e1 : (0 : Ct N0) = ctAdd (ctOfWire N0 0) (pub.capC ^ e.val) := by
    unfold ctAdd ctOfWire; rw [Nat.cast_zero]; exact (zero_mul _).symm
  have hcast : scalarOfSigned q ⟨2 * P.L + 1, ((alpha + x * e.val : Nat) : Int)⟩ = (alpha : ZMod q) + x * e := by
    unfold scalarOfSigned; push_cast; simp
  have e2 : (beta + b * e) • pub.capA + scalarOfSigned q ⟨2 * P.L + 1, ((alpha + x * e.val : Nat) : Int)⟩ • g = capY + e • pub.capX := by
    rw [hcast, hY, hX]; module
  have e3 : (beta + b * e) • g = beta • g + e • pub.capB := by rw [hB]; module
  rw [decide_eq_true e1, Out.check_true, decide_eq_true e2, Out.check_true, decide_eq_true e3, Out.check_true]
  unfold RPParams.commitPublic
  have h00 : (powPublic setup.t ⟨0, 0⟩ : Out ε _) = .ok 1 := by
    have := powPublic_nonneg (ε := ε) setup.t (b := 0) (k := 0) (by norm_num)
    simpa using this
  rw [powPublic_nonneg _ hz, Out.bind_ok, h00, Out.bind_ok, Out.bind_ok]
  have hw : ∀ y : ZMod Nh, commitmentOfWire Nh y.val = y := fun y => commitmentWire hNh y
  rw [powPublic_scalar hq, Out.bind_ok, hS, hT, hw, hw]
  have e4 : setup.s ^ (alpha + x * e.val) * 1 = setup.s ^ alpha * (setup.s ^ x) ^ e.val := by
    rw [mul_one, pow_add, pow_mul]
  rw [decide_eq_true e4, Out.check_true]

/-- **C53 (enc-elg, finding).** For every ciphertext `C` whatsoever, and every `B = b g`, `X = x g + b A` with a small non-negative `x` of the forger's
choice, there is an accepted proof. The forger needs no knowledge of the plaintext; the free values `α` and `β` make the points of the proof
arbitrary. -/
theorem C53_enc_elg_forgery [NeZero q] {P : Params} (hP : P.SelfConsistent) (hnb : 0 < P.numBits) (hq : q < 2 ^ P.numBits)
    (H : EncElgHash G Aux → ZMod q) (g : G) {N0 Nh : Nat} (hN0 : 0 < N0) (hNh : 0 < Nh) (setup : RPParams Nh) (aux : Aux) (capC : Ct N0) (capA : G)
    (x alpha : Nat) (hx : x < 2 ^ P.L) (ha : alpha < 2 ^ P.L) (b beta : ZMod q) :
    ∃ prf : EncElgProof q G,
      (prf.verify P H g (⟨capC, capA, b • g, (x : ZMod q) • g + b • capA⟩ : EncElgPublic N0 G) setup aux : Out ε _) = .ok true :=
  ⟨_, encElgForgery_accepted hP hnb hq H g hN0 hNh _ setup aux x alpha hx ha b beta rfl rfl⟩

private theorem powPublic_zero {n : Nat} (a : ZMod n) (b : Nat) : (powPublic a ⟨b, 0⟩ : Out ε _) = .ok 1 := by
  have := powPublic_nonneg (ε := ε) a (b := b) (k := 0) (by positivity)
  simpa using this

/-- **C53 (aff-g, finding).** For all ciphertexts `C` and `D` whatsoever, every invertible `Y`, and `X = x g` for a small non-negative `x`, there is an
accepted proof: the "result of the affine operation" need have nothing to do with `C`, `x` or `Y`. -/
theorem C53_aff_g_forgery [NeZero q] {P : Params} (hP : P.SelfConsistent) (hnb : 0 < P.numBits) (hq : q < 2 ^ P.numBits)
    (H : AffGHash G Aux → ZMod q) (g : G) {N0 N1 Nh : Nat} (hN0 : 0 < N0) (hN1 : 0 < N1) (hNh : 0 < Nh) (setup : RPParams Nh) (aux : Aux)
    (capC capD : Ct N0) (capY : (ZMod (N1 ^ 2))ˣ) (x alpha : Nat) (hx : x < 2 ^ P.L) (ha : alpha < 2 ^ P.L) :
    ∃ prf : AffGProof q G,
      (prf.verify P H g (⟨capC, capD, (capY : ZMod (N1 ^ 2)), (x : ZMod q) • g⟩ : AffGPublic N0 N1 G) setup aux : Out ε _) = .ok true := by
  obtain ⟨hc0, ⟨hm1, hm2, hm3, hm4, hm5, hm6⟩, hs1, hs2, hs3, hs4, hs5, hs6, hs7⟩ := hP
  have hL : 0 < P.L := hnb
  have hLn : P.L = P.numBits := rfl
  have hLk : P.L = P.kappa := rfl
  set pub : AffGPublic N0 N1 G := ⟨capC, capD, (capY : ZMod (N1 ^ 2)), (x : ZMod q) • g⟩ with hpub
  set capS := commitmentToWire (setup.s ^ x) with hS
  set capE := commitmentToWire (setup.s ^ alpha) with hE
  set one := commitmentToWire (1 : ZMod Nh) with hone
  set e := H (affGHash 0 ((alpha : ZMod q) • g) 0 capE one capS one pub setup aux) with he
  have hev : e.val < 2 ^ P.L := lt_trans (ZMod.val_lt _) hq
  have hxe : x * e.val < 2 ^ (P.L + P.L) := by rw [pow_add]; exact Nat.mul_lt_mul_of_lt_of_lt hx hev
  have hz : alpha + x * e.val < 2 ^ (2 * P.L + 1) := by
    have h1 : (2 : Nat) ^ P.L ≤ 2 ^ (P.L + P.L) := Nat.pow_le_pow_right (by norm_num) (by omega)
    have h2 : (2 : Nat) ^ (2 * P.L + 1) = 2 * 2 ^ (P.L + P.L) := by rw [← pow_succ']; congr 1; omega
    omega
  have hz' : alpha + x * e.val < 2 ^ (P.L + P.EPS - 1) := lt_of_lt_of_le hz (Nat.pow_le_pow_right (by norm_num) (by omega))
  refine ⟨⟨e, 0, (alpha : ZMod q) • g, 0, capE, capS, one, one, ⟨2 * P.L + 1, ((alpha + x * e.val : Nat) : Int)⟩, ⟨0, 0⟩, ⟨0, 0⟩, ⟨0, 0⟩, 0, 0⟩, ?_⟩
  simp only [AffGProof.verify]
  have hin0 : InPm (P.LP + P.EPS) 0 := natInPm (k := 0) (by positivity)
  rw [← he, decide_eq_true rfl, Out.check_true, SInt.inRange_eq, decide_eq_true (natInPm hz'), Out.check_true, SInt.inRange_eq,
    decide_eq_true hin0, Out.check_true]
  unfold ctMulPublic
  have fe : (signedOfScalar P e).Fits := signedOfScalar_fits hq e
  have hY : pub.capY = (capY : ZMod (N1 ^ 2)) := rfl
  rw [powPublic_nonneg _ hz, Out.bind_ok, powPublic_scalar hq, Out.bind_ok, encPublic_zero hN0, encPublic_zero hN1, hY,
    powPublic_unit _ (SInt.neg_fits fe), Out.bind_ok]
  have e1 : ctAdd (pub.capC ^ (alpha + x * e.val)) (0 : Ct N0) = ctAdd (pub.capD ^ e.val) (ctOfWire N0 0) := by
    unfold ctAdd ctOfWire; rw [Nat.cast_zero]; exact (mul_zero _).trans (mul_zero _).symm
  have e1' : ∀ a : Ct N1, (0 : Ct N1) = ctAdd a (ctOfWire N1 0) := by
    intro a; unfold ctAdd ctOfWire; rw [Nat.cast_zero]; exact (mul_zero _).symm
  have hcast : scalarOfSigned q ⟨2 * P.L + 1, ((alpha + x * e.val : Nat) : Int)⟩ = (alpha : ZMod q) + x * e := by
    unfold scalarOfSigned; push_cast; simp
  have e2 : scalarOfSigned q ⟨2 * P.L + 1, ((alpha + x * e.val : Nat) : Int)⟩ • g = (alpha : ZMod q) • g + e • pub.capX := by
    rw [hcast, hpub]; module
  rw [decide_eq_true e1, Out.check_true, decide_eq_true e2, Out.check_true, decide_eq_true (e1' _), Out.check_true]
  unfold RPParams.commitPublic
  rw [powPublic_nonneg _ hz, Out.bind_ok, powPublic_zero, Out.bind_ok, Out.bind_ok, powPublic_zero, Out.bind_ok, Out.bind_ok, powPublic_scalar hq,
    Out.bind_ok, powPublic_scalar hq, Out.bind_ok, hS, hE, hone]
  simp only [commitmentWire hNh]
  have e4 : setup.s ^ (alpha + x * e.val) * 1 = setup.s ^ alpha * (setup.s ^ x) ^ e.val := by
    rw [mul_one, pow_add, pow_mul]
  have e5 : (1 : ZMod Nh) * 1 = 1 * 1 ^ e.val := by rw [one_pow]
  rw [decide_eq_true e4, Out.check_true, Out.bind_ok, decide_eq_true e5, Out.check_true]

/-- **C53 (aff-g*, finding).** As for aff-g: every `C`, `D`, invertible `Y` and `X = x g`. -/
theorem C53_aff_g_star_forgery {P : Params} (hP : P.SelfConsistent) (hnb : 0 < P.numBits)
    (H : AffGStarHash G Aux → List Bool) (n : Nat) (hlen : ∀ t, (H t).length = n) (g : G) {N0 N1 : Nat} (hN0 : 0 < N0) (hN1 : 0 < N1) (aux : Aux)
    (capC capD : Ct N0) (capY : (ZMod (N1 ^ 2))ˣ) (x alpha : Nat) (hx : x < 2 ^ P.L) (ha : alpha < 2 ^ P.L) :
    ∃ prf : AffGStarProof G,
      (prf.verify P H g q (⟨capC, capD, (capY : ZMod (N1 ^ 2)), (x : ZMod q) • g⟩ : AffGPublic N0 N1 G) aux : Out ε _) = .ok true := by
  obtain ⟨hc0, ⟨hm1, hm2, hm3, hm4, hm5, hm6⟩, hs1, hs2, hs3, hs4, hs5, hs6, hs7⟩ := hP
  have hL : 0 < P.L := hnb
  set pub : AffGPublic N0 N1 G := ⟨capC, capD, (capY : ZMod (N1 ^ 2)), (x : ZMod q) • g⟩ with hpub
  set coms : List (AffGStarCommitment G) := List.replicate n ⟨0, (alpha : ZMod q) • g, 0⟩ with hcoms
  set e := H (affGStarHash coms pub aux) with he
  set el : Bool → AffGStarElement := fun b => ⟨⟨P.L + 1, ((alpha + if b then x else 0 : Nat) : Int)⟩, ⟨0, 0⟩, 0, 0⟩ with hel
  refine ⟨⟨e, coms, e.map el⟩, ?_⟩
  simp only [AffGStarProof.verify]
  have hlen' : e.length = n := hlen _
  rw [← he, decide_eq_true rfl, Out.check_true, decide_eq_true (by rw [hcoms, List.length_replicate, List.length_map, hlen']; simp),
    Out.check_true, Out.allM_eq_true]
  rintro ⟨⟨bit, com⟩, el'⟩ hmem
  have hcom : com = ⟨0, (alpha : ZMod q) • g, 0⟩ := by
    have h1 := (List.of_mem_zip hmem).1
    have h2 := (List.of_mem_zip h1).2
    rw [hcoms] at h2; exact List.eq_of_mem_replicate h2
  have hel' : el' = el bit := by
    obtain ⟨i, hi, heq⟩ := List.mem_iff_getElem.1 hmem
    simp only [List.getElem_zip, List.getElem_map, Prod.mk.injEq] at heq
    rw [← heq.2, ← heq.1.1]
  subst hcom hel'
  have hz : (alpha + if bit then x else 0 : Nat) < 2 ^ (P.L + 1) := by
    rw [pow_succ]; cases bit <;> simp <;> omega
  have hz' : (alpha + if bit then x else 0 : Nat) < 2 ^ (P.L + P.EPS - 1) := lt_of_lt_of_le hz (Nat.pow_le_pow_right (by norm_num) (by omega))
  have hin0 : InPm (P.LP + P.EPS) 0 := natInPm (k := 0) (by positivity)
  simp only [affGStarCheck, hel]
  rw [SInt.inRange_eq, decide_eq_true (natInPm hz'), Out.check_true, SInt.inRange_eq, decide_eq_true hin0, Out.check_true]
  unfold ctMulPublic
  rw [powPublic_nonneg _ hz, Out.bind_ok, encPublic_zero hN0, encPublic_zero hN1]
  have hw0 : ctOfWire N0 0 = 0 := by unfold ctOfWire; rw [Nat.cast_zero]
  have hw1 : ctOfWire N1 0 = 0 := by unfold ctOfWire; rw [Nat.cast_zero]
  have z0 : ∀ a : Ct N0, ctAdd a 0 = 0 := fun a => mul_zero _
  have z0' : ∀ a : Ct N0, ctAdd 0 a = 0 := fun a => zero_mul _
  rw [hw0, hw1, z0, z0']
  have hsub : (ctSub (0 : Ct N1) pub.capY : Out ε _) = .ok 0 := by
    unfold ctSub ctNeg
    have hY : pub.capY = (capY : ZMod (N1 ^ 2)) := rfl
    rw [hY, invMod?_unit, Out.ofOptionPanic_some, Out.bind_ok]
    exact congrArg Out.ok (zero_mul _)
  have hcast : scalarOfSigned q ⟨P.L + 1, ((alpha + if bit then x else 0 : Nat) : Int)⟩ = (alpha : ZMod q) + if bit then (x : ZMod q) else 0 := by
    unfold scalarOfSigned; cases bit <;> simp
  rw [hcast]
  cases bit
  · simp [Out.check]
  · simp only [if_true]
    rw [hsub, Out.bind_ok]
    have e2 : ((alpha : ZMod q) + (x : ZMod q)) • g = (alpha : ZMod q) • g + pub.capX := by rw [hpub]; module
    rw [decide_eq_true rfl, Out.check_true, decide_eq_true e2, Out.check_true]
    simp [Out.check]

/-- **C53 (dec, finding).** For every `D` whatsoever, every invertible `K`, `X = x g` and `S = y G` for small non-negative `x` and `y` of the forger's
choice, there is an accepted proof. -/
theorem C53_dec_forgery {P : Params} (hP : P.SelfConsistent) (hnb : 0 < P.numBits)
    (H : DecHash G Aux → List Bool) (n : Nat) (hlen : ∀ t, (H t).length = n) (g : G) {N0 Nh : Nat} (hN0 : 0 < N0) (setup : RPParams Nh) (aux : Aux)
    (capD : Ct N0) (capK : (ZMod (N0 ^ 2))ˣ) (capG : G) (parties : Nat) (hparties : 2 ≤ parties)
    (x y alpha : Nat) (hx : x < 2 ^ P.L) (hy : y < 2 ^ P.LP) (ha : alpha < 2 ^ P.L) :
    ∃ prf : DecProof G,
      (prf.verify P H g q (⟨(capK : ZMod (N0 ^ 2)), (x : ZMod q) • g, capD, (y : ZMod q) • capG, capG, parties⟩ : DecPublic N0 G) setup aux : Out ε _)
        = .ok true := by
  obtain ⟨hc0, ⟨hm1, hm2, hm3, hm4, hm5, hm6⟩, hs1, hs2, hs3, hs4, hs5, hs6, hs7⟩ := hP
  have hL : 0 < P.L := hnb
  set pub : DecPublic N0 G := ⟨(capK : ZMod (N0 ^ 2)), (x : ZMod q) • g, capD, (y : ZMod q) • capG, capG, parties⟩ with hpub
  set coms : List (DecCommitment G) := List.replicate n ⟨0, (0 : ZMod q) • capG, (alpha : ZMod q) • g⟩ with hcoms
  set e := H (decHash coms pub setup aux) with he
  set el : Bool → DecElement := fun b => ⟨⟨P.L + 1, ((alpha + if b then x else 0 : Nat) : Int)⟩, ⟨P.LP, ((if b then y else 0 : Nat) : Int)⟩, 0⟩ with hel
  refine ⟨⟨e, coms, e.map el⟩, ?_⟩
  simp only [DecProof.verify]
  have hlen' : e.length = n := hlen _
  rw [← he, decide_eq_true rfl, Out.check_true, decide_eq_true (by rw [hcoms, List.length_replicate, List.length_map, hlen']; simp),
    Out.check_true, Out.allM_eq_true]
  rintro ⟨⟨bit, com⟩, el'⟩ hmem
  have hcom : com = ⟨0, (0 : ZMod q) • capG, (alpha : ZMod q) • g⟩ := by
    have h1 := (List.of_mem_zip hmem).1
    have h2 := (List.of_mem_zip h1).2
    rw [hcoms] at h2; exact List.eq_of_mem_replicate h2
  have hel' : el' = el bit := by
    obtain ⟨i, hi, heq⟩ := List.mem_iff_getElem.1 hmem
    simp only [List.getElem_zip, List.getElem_map, Prod.mk.injEq] at heq
    rw [← heq.2, ← heq.1.1]
  subst hcom hel'
  have hz : (alpha + if bit then x else 0 : Nat) < 2 ^ (P.L + 1) := by
    rw [pow_succ]; cases bit <;> simp <;> omega
  have hz' : (alpha + if bit then x else 0 : Nat) < 2 ^ (P.L + P.EPS - 1) := lt_of_lt_of_le hz (Nat.pow_le_pow_right (by norm_num) (by omega))
  obtain ⟨c, hc, -⟩ := C30_interval_width (ε := ε) parties hparties
  have hy' : (if bit then y else 0 : Nat) < 2 ^ (decYBound P c + P.EPS - 1) := by
    refine lt_of_lt_of_le (b := 2 ^ P.LP) ?_ (Nat.pow_le_pow_right (by norm_num) (by unfold decYBound; omega))
    cases bit
    · simp
    · simpa using hy
  simp only [decCheck, hel]
  have fz : SInt.Fits ⟨P.L + 1, ((alpha + if bit then x else 0 : Nat) : Int)⟩ := by
    unfold SInt.Fits; rw [Int.natAbs_natCast]; exact hz
  have hK : pub.capK = (capK : ZMod (N0 ^ 2)) := rfl
  have hpar : pub.numParties = parties := rfl
  rw [hK, ctMulPublic_unit _ (SInt.neg_fits fz), Out.bind_ok, encPublic_zero hN0, hpar, hc, Out.bind_ok, SInt.inRange_eq, SInt.inRange_eq,
    decide_eq_true (natInPm hz'), Out.check_true, decide_eq_true (natInPm hy'), Out.check_true]
  have hw0 : ctOfWire N0 0 = 0 := by unfold ctOfWire; rw [Nat.cast_zero]
  have z0' : ∀ a : Ct N0, ctAdd 0 a = 0 := fun a => zero_mul _
  rw [hw0, z0', z0']
  have e1 : (0 : Ct N0) = if bit = true then 0 else 0 := by cases bit <;> rfl
  have e2 : scalarOfSigned q ⟨P.L + 1, ((alpha + if bit then x else 0 : Nat) : Int)⟩ • g =
      if bit = true then (alpha : ZMod q) • g + pub.capX else (alpha : ZMod q) • g := by
    unfold scalarOfSigned; cases bit
    · simp
    · simp only [if_true, hpub]; push_cast; module
  have e3 : scalarOfSigned q ⟨P.LP, ((if bit then y else 0 : Nat) : Int)⟩ • pub.capG =
      if bit = true then (0 : ZMod q) • capG + pub.capS else (0 : ZMod q) • capG := by
    unfold scalarOfSigned; cases bit
    · simp
    · simp only [if_true, hpub]; push_cast; module
  rw [decide_eq_true e1, Out.check_true, decide_eq_true e2, Out.check_true, decide_eq_true e3, Out.check_true]

/-! ## The claim is false -/

private theorem enc_congr {N : Nat} (hN : 0 < N) (hcop : Nat.Coprime N (Nat.totient N)) {m m' : Int} {rho rho' : Nat} {c : Ct N}
    (h : Encrypts N m rho c) (h' : Encrypts N m' rho' c) (hr : Nat.Coprime rho N) (hr' : Nat.Coprime rho' N) : m ≡ m' [ZMOD N] := by
  obtain ⟨u, hu⟩ := natCast_unit_sq hr
  obtain ⟨v, hv⟩ := natCast_unit_sq hr'
  refine encU_inj hN hcop (u := u) (v := v) (Units.ext ?_)
  rw [← Encrypts_unit h hu, ← Encrypts_unit h' hv]

private theorem toy_encrypts (m : Int) : Encrypts 77 m 1 (1 + (m : ZMod (77 ^ 2)) * ((77 : Nat) : ZMod (77 ^ 2))) := by
  unfold Encrypts; rw [Nat.cast_one, one_pow, mul_one]

private theorem toy_coprime : Nat.Coprime 77 (Nat.totient 77) := by
  have : Nat.totient 77 = 60 := by decide
  rw [this]; decide

private theorem mod11_of_mod77 {a b : Int} (h : a ≡ b [ZMOD (77 : Nat)]) : (a : ZMod 11) = (b : ZMod 11) :=
  (ZMod.intCast_eq_intCast_iff a b 11).2 (h.of_mul_right 7)

private theorem aff_g_toy {X : ZMod 11} : ¬ AffGBinds Params.test 1 11
    (⟨1, 1 + ((3 : Int) : ZMod (77 ^ 2)) * ((77 : Nat) : ZMod (77 ^ 2)), ((1 : (ZMod (77 ^ 2))ˣ) : ZMod (77 ^ 2)), X⟩ : AffGPublic 77 77 (ZMod 11)) := by
  rintro ⟨x, y, hx, -, -, ⟨cx, d, rho, h3, h4, h5, h6⟩, rhoY, h7, h8⟩
  have hk : cx = 1 := by
    have := ctMulPublic_unit (ε := Empty) (N := 77) (1 : (ZMod (77 ^ 2))ˣ) (e := ⟨Params.test.L + Params.test.EPS + 1, x⟩) (InPm.natAbs_lt (show 0 < Params.test.L + Params.test.EPS + 1 by decide) hx)
    rw [Units.val_one, one_zpow, Units.val_one] at this
    have h3' := h3.symm.trans this
    injection h3'
  rw [hk, one_mul] at h6
  rw [← h6] at h5
  have k1 := mod11_of_mod77 (enc_congr (by decide) toy_coprime h5 (toy_encrypts 3) h4 (by decide))
  have h8' : Encrypts 77 y rhoY (1 + ((0 : Int) : ZMod (77 ^ 2)) * ((77 : Nat) : ZMod (77 ^ 2))) := by
    rw [Int.cast_zero, zero_mul, add_zero]; exact h8
  have k2 := mod11_of_mod77 (enc_congr (by decide) toy_coprime h8' (toy_encrypts 0) h7 (by decide))
  rw [Int.cast_neg, k2] at k1
  revert k1; decide

/-- **C53 (enc-elg, negation).** Whatever the hash function: not every accepted proof ties the ciphertext to the point. The witness is an honest
ciphertext of 5 accepted for the point of 6. -/
theorem C53_enc_elg_not_binding (H : EncElgHash (ZMod 11) Nat → ZMod 11) :
    ¬ ∀ (pub : EncElgPublic 77 (ZMod 11)) (setup : RPParams 77) (prf : EncElgProof 11 (ZMod 11)),
      (prf.verify Params.test H 1 pub setup 0 : Out Empty _) = .ok true → EncElgBinds Params.test 1 11 pub := by
  intro h
  obtain ⟨prf, hprf⟩ := C53_enc_elg_forgery (ε := Empty) (P := Params.test) (by decide) (by decide) (by decide) H 1 (N0 := 77) (Nh := 77) (by decide)
    (by decide) ⟨4, 16⟩ 0 (1 + ((5 : Int) : ZMod (77 ^ 2)) * ((77 : Nat) : ZMod (77 ^ 2))) (0 : ZMod 11) 6 3 (by decide) (by decide) 0 4
  obtain ⟨x, b, -, ⟨rho, h1, h2⟩, -, h4⟩ := h _ _ _ hprf
  have h5 := mod11_of_mod77 (enc_congr (by decide) toy_coprime h2 (toy_encrypts 5) h1 (by decide))
  simp only [smul_eq_mul, mul_one, mul_zero, add_zero, Nat.cast_ofNat] at h4
  rw [← h4] at h5
  revert h5; decide

/-- **C53 (aff-g, negation).** The witness: `C` and `Y` encrypt 0 and `D`, accepted as an affine image of `C`, encrypts 3. -/
theorem C53_aff_g_not_binding (H : AffGHash (ZMod 11) Nat → ZMod 11) :
    ¬ ∀ (pub : AffGPublic 77 77 (ZMod 11)) (setup : RPParams 77) (prf : AffGProof 11 (ZMod 11)),
      (prf.verify Params.test H 1 pub setup 0 : Out Empty _) = .ok true → AffGBinds Params.test 1 11 pub := by
  intro h
  obtain ⟨prf, hprf⟩ := C53_aff_g_forgery (ε := Empty) (P := Params.test) (by decide) (by decide) (by decide) H 1 (N0 := 77) (N1 := 77) (Nh := 77)
    (by decide) (by decide) (by decide) ⟨4, 16⟩ 0 1 (1 + ((3 : Int) : ZMod (77 ^ 2)) * ((77 : Nat) : ZMod (77 ^ 2))) 1 2 5 (by decide) (by decide)
  exact aff_g_toy (h _ _ _ hprf)

/-- **C53 (aff-g*, negation).** The same witness. -/
theorem C53_aff_g_star_not_binding (H : AffGStarHash (ZMod 11) Nat → List Bool) (n : Nat) (hlen : ∀ t, (H t).length = n) :
    ¬ ∀ (pub : AffGPublic 77 77 (ZMod 11)) (prf : AffGStarProof (ZMod 11)),
      (prf.verify Params.test H 1 11 pub 0 : Out Empty _) = .ok true → AffGBinds Params.test 1 11 pub := by
  intro h
  obtain ⟨prf, hprf⟩ := C53_aff_g_star_forgery (q := 11) (ε := Empty) (P := Params.test) (by decide) (by decide) H n hlen 1 (N0 := 77) (N1 := 77)
    (by decide) (by decide) 0 1 (1 + ((3 : Int) : ZMod (77 ^ 2)) * ((77 : Nat) : ZMod (77 ^ 2))) 1 2 5 (by decide) (by decide)
  exact aff_g_toy (h _ _ hprf)

/-- **C53 (dec, negation).** The witness: `K` encrypts 0 and `D` encrypts 3, accepted as decrypting to 0. -/
theorem C53_dec_not_binding (H : DecHash (ZMod 11) Nat → List Bool) (n : Nat) (hlen : ∀ t, (H t).length = n) :
    ¬ ∀ (pub : DecPublic 77 (ZMod 11)) (setup : RPParams 77) (prf : DecProof (ZMod 11)),
      (prf.verify Params.test H 1 11 pub setup 0 : Out Empty _) = .ok true → DecBinds Params.test 1 11 pub := by
  intro h
  obtain ⟨prf, hprf⟩ := C53_dec_forgery (q := 11) (ε := Empty) (P := Params.test) (by decide) (by decide) H n hlen 1 (N0 := 77) (Nh := 77)
    (by decide) ⟨4, 16⟩ 0 (1 + ((3 : Int) : ZMod (77 ^ 2)) * ((77 : Nat) : ZMod (77 ^ 2))) 1 (1 : ZMod 11) 2 (by decide) 2 0 5 (by decide) (by decide)
    (by decide)
  obtain ⟨x, y, c, -, hx, -, -, h2, kx, rho, h3, h4, h5⟩ := h _ _ _ hprf
  have hk : kx = 1 := by
    have := ctMulPublic_unit (ε := Empty) (N := 77) (1 : (ZMod (77 ^ 2))ˣ) (e := ⟨Params.test.L + Params.test.EPS + 1, x⟩) (InPm.natAbs_lt (show 0 < Params.test.L + Params.test.EPS + 1 by decide) hx)
    rw [Units.val_one, one_zpow, Units.val_one] at this
    have h3' := h3.symm.trans this
    injection h3'
  rw [hk, one_mul] at h5
  have h6 := mod11_of_mod77 (enc_congr (by decide) toy_coprime h5 (toy_encrypts 3) h4 (by decide))
  simp only [smul_eq_mul, mul_one, Nat.cast_zero] at h2
  rw [← h2] at h6
  revert h6; decide

/-! ## What does hold -/

private theorem encrypts_of_encU {N : Nat} (hN : 0 < N) {m : Int} {c : Ct N} {ζ : (ZMod (N ^ 2))ˣ} (h : c = ((encU N m ζ : (ZMod (N ^ 2))ˣ) : Ct N)) :
    ∃ rho, Nat.Coprime rho N ∧ Encrypts N m rho c := by
  have : NeZero (N ^ 2) := ⟨by positivity⟩
  refine ⟨(ζ : ZMod (N ^ 2)).val, Nat.Coprime.coprime_dvd_right (Dvd.intro_left _ (by rw [pow_two])) (ZMod.val_coe_unit_coprime ζ), ?_⟩
  rw [h, encU_val]
  unfold Encrypts
  rw [ZMod.natCast_zmod_val]; rfl

private theorem inPm_sub {k : Nat} (hk : 0 < k) {a b : Int} (ha : InPm k a) (hb : InPm k b) : InPm (k + 1) (a - b) := by
  unfold InPm at *
  have : (2 : Int) ^ (k + 1 - 1) = 2 * 2 ^ (k - 1) := by rw [← pow_succ']; congr 1; omega
  rw [this]
  constructor <;> omega

/-- **C53 (enc-elg), partial.** Two accepted proofs with the same commitments and different challenges, for a ciphertext of `m` and an invertible
committed ciphertext: `(B, X) = (b g, x g + b A)` where `b` and `x` are the quotients of the differences, `m Δe ≡ Δz₁` modulo `N₀`, and if `m` is
small compared to `N₀` then `X = m g + b A`. Missing, and false without it: invertibility of the committed ciphertext is assumed. That a small `m`
exists rests on the strong RSA assumption, which is not modelled. -/
theorem C53_enc_elg_partial [Fact q.Prime] {P : Params} (hq : q < 2 ^ P.numBits) (hnb : 0 < P.numBits) (H H' : EncElgHash G Aux → ZMod q) (g : G)
    {N0 Nh : Nat} (hN0 : 0 < N0) (hcop : Nat.Coprime N0 (Nat.totient N0)) (setup : RPParams Nh) (pub : EncElgPublic N0 G) (aux aux' : Aux)
    (prf prf' : EncElgProof q G) (h : (prf.verify P H g pub setup aux : Out ε _) = .ok true)
    (h' : (prf'.verify P H' g pub setup aux' : Out ε _) = .ok true)
    (hD : prf.capD = prf'.capD) (hY : prf.capY = prf'.capY) (hZ : prf.capZ = prf'.capZ) (hne : prf.e ≠ prf'.e)
    (hunit : IsUnit (prf.capD : ZMod (N0 ^ 2))) (m : Int) (rho : Nat) (hrho : Nat.Coprime rho N0) (hC : Encrypts N0 m rho pub.capC) :
    ∃ b : ZMod q, pub.capB = b • g ∧
      pub.capX = (((prf.z1.val - prf'.z1.val : Int) : ZMod q) / (prf.e - prf'.e)) • g + b • pub.capA ∧
      m * ((prf.e.val : Int) - prf'.e.val) ≡ prf.z1.val - prf'.z1.val [ZMOD N0] ∧
      (m.natAbs * 2 ^ P.L + 2 ^ (P.L + P.EPS) ≤ N0 → pub.capX = (m : ZMod q) • g + b • pub.capA) := by
  have : NeZero q := ⟨(Fact.out : q.Prime).ne_zero⟩
  obtain ⟨-, i1, a1, a2, a3, -⟩ := C27_accepted (ε := ε) H g setup hq pub aux prf h
  obtain ⟨-, i1', b1, b2, b3, -⟩ := C27_accepted (ε := ε) H' g setup hq pub aux' prf' h'
  rw [← hD] at b1; rw [← hY] at b2; rw [← hZ] at b3
  have hde : prf.e - prf'.e ≠ 0 := sub_ne_zero.2 hne
  obtain ⟨D, hDu⟩ := hunit
  obtain ⟨uρ, huρ⟩ := natCast_unit_sq hrho
  have hCu := Encrypts_unit hC huρ
  have key : m * ((prf.e.val : Int) - prf'.e.val) ≡ prf.z1.val - prf'.z1.val [ZMOD N0] := by
    rw [← hDu, hCu, ← Units.val_pow_eq_pow_val, ← Units.val_mul] at a1 b1
    obtain ⟨ζ, hζ⟩ := Encrypts.exists_unit hN0 a1
    obtain ⟨ζ', hζ'⟩ := Encrypts.exists_unit hN0 b1
    rw [← zpow_natCast] at hζ hζ'
    exact plaintext_of_two_answers hN0 hcop hζ.symm hζ'.symm rfl
  have e3 : (prf.w - prf'.w) • g = (prf.e - prf'.e) • pub.capB := by
    rw [sub_smul, sub_smul, a3, b3]; abel
  have e2 : (prf.w - prf'.w) • pub.capA + ((prf.z1.val - prf'.z1.val : Int) : ZMod q) • g = (prf.e - prf'.e) • pub.capX := by
    have : (prf.w - prf'.w) • pub.capA + ((prf.z1.val - prf'.z1.val : Int) : ZMod q) • g
        = (prf.w • pub.capA + (prf.z1.val : ZMod q) • g) - (prf'.w • pub.capA + (prf'.z1.val : ZMod q) • g) := by
      push_cast; module
    rw [this, a2, b2, sub_smul]; abel
  have hB : pub.capB = ((prf.w - prf'.w) / (prf.e - prf'.e)) • g := by
    rw [div_eq_inv_mul, mul_smul, e3, smul_smul, inv_mul_cancel₀ hde, one_smul]
  have hX : pub.capX = (((prf.z1.val - prf'.z1.val : Int) : ZMod q) / (prf.e - prf'.e)) • g + ((prf.w - prf'.w) / (prf.e - prf'.e)) • pub.capA := by
    have : pub.capX = (prf.e - prf'.e)⁻¹ • ((prf.e - prf'.e) • pub.capX) := by rw [smul_smul, inv_mul_cancel₀ hde, one_smul]
    rw [this, ← e2, smul_add, smul_smul, smul_smul, div_eq_inv_mul, div_eq_inv_mul]; abel
  refine ⟨_, hB, hX, key, fun hsmall => ?_⟩
  have hL : 0 < P.L := hnb
  have hv : prf.e.val < 2 ^ P.L := lt_trans (ZMod.val_lt _) hq
  have hv' : prf'.e.val < 2 ^ P.L := lt_trans (ZMod.val_lt _) hq
  have hz := InPm.natAbs_lt (by omega) (inPm_sub (by omega) i1 i1')
  have heq : m * ((prf.e.val : Int) - prf'.e.val) = prf.z1.val - prf'.z1.val := by
    have h1 : (m * ((prf.e.val : Int) - prf'.e.val)).natAbs ≤ m.natAbs * 2 ^ P.L := by
      rw [Int.natAbs_mul]; exact Nat.mul_le_mul_left _ (by omega)
    have h2 : (prf.z1.val - prf'.z1.val).natAbs < 2 ^ (P.L + P.EPS) := by
      obtain ⟨c1, c2⟩ := i1
      obtain ⟨c3, c4⟩ := i1'
      have hc : (((2 : Nat) ^ (P.L + P.EPS) : Nat) : Int) = 2 * (2 : Int) ^ (P.L + P.EPS - 1) := by
        push_cast; rw [← pow_succ']; congr 1; omega
      generalize (2 : Nat) ^ (P.L + P.EPS) = n at *
      generalize (2 : Int) ^ (P.L + P.EPS - 1) = k at *
      omega
    have hdvd := Int.modEq_iff_dvd.1 key
    have hlt : (prf.z1.val - prf'.z1.val - m * ((prf.e.val : Int) - prf'.e.val)).natAbs < N0 := by
      have := Int.natAbs_sub_le (prf.z1.val - prf'.z1.val) (m * ((prf.e.val : Int) - prf'.e.val))
      omega
    have := Int.eq_zero_of_abs_lt_dvd hdvd (by rw [Int.abs_eq_natAbs]; exact_mod_cast hlt)
    linarith
  rw [hX, ← heq]
  congr 2
  push_cast
  rw [ZMod.natCast_zmod_val, ZMod.natCast_zmod_val, mul_div_assoc, div_self hde, mul_one]

/-- **C53 (aff-g), partial.** Two accepted proofs with the same invertible commitments and different challenges, for ciphertexts `C`, `D`, `Y` of `c`,
`d`, `y`: `X = (Δz₁/Δe) g`, `d Δe ≡ c Δz₁ + Δz₂` modulo `N₀` and `y Δe ≡ -Δz₂` modulo `N₁`. Missing: as for enc-elg. -/
theorem C53_aff_g_partial [Fact q.Prime] {P : Params} (hq : q < 2 ^ P.numBits) (H H' : AffGHash G Aux → ZMod q) (g : G)
    {N0 N1 Nh : Nat} (hN0 : 0 < N0) (hN1 : 0 < N1) (hcop0 : Nat.Coprime N0 (Nat.totient N0)) (hcop1 : Nat.Coprime N1 (Nat.totient N1))
    (setup : RPParams Nh) (pub : AffGPublic N0 N1 G) (aux aux' : Aux) (prf prf' : AffGProof q G)
    (h : (prf.verify P H g pub setup aux : Out ε _) = .ok true) (h' : (prf'.verify P H' g pub setup aux' : Out ε _) = .ok true)
    (hA : prf.capA = prf'.capA) (hBx : prf.capBx = prf'.capBx) (hBy : prf.capBy = prf'.capBy) (hne : prf.e ≠ prf'.e)
    (hfit : prf.z1.Fits) (hfit' : prf'.z1.Fits)
    (hunitA : IsUnit (prf.capA : ZMod (N0 ^ 2))) (hunitB : IsUnit (prf.capBy : ZMod (N1 ^ 2)))
    (c d y : Int) (rc rd ry : Nat) (hrc : Nat.Coprime rc N0) (hrd : Nat.Coprime rd N0) (hry : Nat.Coprime ry N1)
    (hC : Encrypts N0 c rc pub.capC) (hD : Encrypts N0 d rd pub.capD) (hY : Encrypts N1 y ry pub.capY) :
    pub.capX = (((prf.z1.val - prf'.z1.val : Int) : ZMod q) / (prf.e - prf'.e)) • g ∧
    d * ((prf.e.val : Int) - prf'.e.val) ≡ c * (prf.z1.val - prf'.z1.val) + (prf.z2.val - prf'.z2.val) [ZMOD N0] ∧
    y * ((prf.e.val : Int) - prf'.e.val) ≡ -(prf.z2.val - prf'.z2.val) [ZMOD N1] := by
  have : NeZero q := ⟨(Fact.out : q.Prime).ne_zero⟩
  obtain ⟨-, -, -, ⟨cz, a1, dd, a2, a3⟩, a4, ⟨ye, a5, a6⟩, -⟩ := C28_accepted (ε := ε) H g setup hq pub aux prf h
  obtain ⟨-, -, -, ⟨cz', b1, dd', b2, b3⟩, b4, ⟨ye', b5, b6⟩, -⟩ := C28_accepted (ε := ε) H' g setup hq pub aux' prf' h'
  rw [← hA] at b3; rw [← hBx] at b4; rw [← hBy] at b6
  have hde : prf.e - prf'.e ≠ 0 := sub_ne_zero.2 hne
  obtain ⟨A, hAu⟩ := hunitA
  obtain ⟨B, hBu⟩ := hunitB
  obtain ⟨uc, huc⟩ := natCast_unit_sq hrc
  obtain ⟨ud, hud⟩ := natCast_unit_sq hrd
  obtain ⟨uy, huy⟩ := natCast_unit_sq hry
  have hCu := Encrypts_unit hC huc
  have hDu := Encrypts_unit hD hud
  have hYu := Encrypts_unit hY huy
  have fe : ∀ e : ZMod q, SInt.Fits ⟨P.L, -(e.val : Int)⟩ := fun e => SInt.neg_fits (signedOfScalar_fits (P := P) hq e)
  refine ⟨?_, ?_, ?_⟩
  · have e2 : ((prf.z1.val - prf'.z1.val : Int) : ZMod q) • g = (prf.e - prf'.e) • pub.capX := by
      push_cast; rw [sub_smul, a4, b4, sub_smul]; abel
    rw [div_eq_inv_mul, mul_smul, e2, smul_smul, inv_mul_cancel₀ hde, one_smul]
  · -- both equations as units
    have step : ∀ (z z2 : SInt) (w : Nat) (e : Nat) (cz dd : Ct N0), z.Fits → (ctMulPublic pub.capC z : Out ε _) = .ok cz → Encrypts N0 z2.val w dd →
        cz * dd = pub.capD ^ e * (prf.capA : ZMod (N0 ^ 2)) →
        ∃ ζ, encU N0 (c * z.val + z2.val) ζ = A * encU N0 d ud ^ (e : Int) := by
      intro z z2 w e cz dd hz k1 k2 k3
      rw [hCu, ctMulPublic_unit _ hz] at k1
      injection k1 with k1
      rw [← k1, ← hAu, hDu, ← Units.val_pow_eq_pow_val, ← Units.val_mul] at k3
      have hdd : dd = (((encU N0 c uc ^ z.val)⁻¹ * (encU N0 d ud ^ e * A) : (ZMod (N0 ^ 2))ˣ) : ZMod (N0 ^ 2)) := by
        rw [Units.val_mul, ← k3, ← mul_assoc, ← Units.val_mul, inv_mul_cancel, Units.val_one, one_mul]
      rw [hdd] at k2
      obtain ⟨ζ, hζ⟩ := Encrypts.exists_unit hN0 k2
      refine ⟨uc ^ z.val * ζ, ?_⟩
      rw [← encU_mul, ← encU_zpow, ← hζ, mul_inv_cancel_left, zpow_natCast, mul_comm]
    obtain ⟨ζ, hζ⟩ := step _ _ _ _ _ _ hfit a1 a2 a3
    obtain ⟨ζ', hζ'⟩ := step _ _ _ _ _ _ hfit' b1 b2 b3
    have := plaintext_of_two_answers hN0 hcop0 hζ hζ' rfl
    refine this.trans (by rw [show c * prf.z1.val + prf.z2.val - (c * prf'.z1.val + prf'.z2.val) =
      c * (prf.z1.val - prf'.z1.val) + (prf.z2.val - prf'.z2.val) by ring])
  · have step : ∀ (z2 : SInt) (w : Nat) (e : ZMod q) (ye : Ct N1), (ctMulPublic pub.capY ⟨P.L, -(e.val : Int)⟩ : Out ε _) = .ok ye →
        Encrypts N1 z2.val w (ye * (prf.capBy : ZMod (N1 ^ 2))) → ∃ ζ, encU N1 z2.val ζ = B * encU N1 y uy ^ (-(e.val : Int)) := by
      intro z2 w e ye k1 k2
      rw [hYu, ctMulPublic_unit _ (fe e)] at k1
      injection k1 with k1
      rw [← k1, ← hBu, ← Units.val_mul] at k2
      obtain ⟨ζ, hζ⟩ := Encrypts.exists_unit hN1 k2
      exact ⟨ζ, by rw [← hζ, mul_comm]⟩
    obtain ⟨ζ, hζ⟩ := step _ _ _ _ a5 a6
    obtain ⟨ζ', hζ'⟩ := step _ _ _ _ b5 b6
    have := plaintext_of_two_answers hN1 hcop1 hζ hζ' rfl
    have h2 := this.neg
    refine Int.ModEq.trans ?_ h2
    rw [show y * ((prf.e.val : Int) - prf'.e.val) = -(y * (-(prf.e.val : Int) - -(prf'.e.val : Int))) by ring]

/-- **C53 (aff-g*), partial.** Two accepted proofs with the same commitments whose challenges differ somewhere: if the ciphertexts committed there are
invertible then the statement holds, in full. Missing, and false without it: invertibility of the commitments. -/
theorem C53_aff_g_star_partial {P : Params} (hnb : 0 < P.numBits) (H H' : AffGStarHash G Aux → List Bool) (g : G) {N0 N1 : Nat} (hN0 : 0 < N0)
    (hN1 : 0 < N1) (pub : AffGPublic N0 N1 G) (aux aux' : Aux) (prf prf' : AffGStarProof G)
    (h : (prf.verify P H g q pub aux : Out ε _) = .ok true) (h' : (prf'.verify P H' g q pub aux' : Out ε _) = .ok true)
    (hcom : prf.commitments = prf'.commitments) (i : Nat) (hbit : prf.e[i]? = some false) (hbit' : prf'.e[i]? = some true)
    (com : AffGStarCommitment G) (hci : prf.commitments[i]? = some com)
    (hA : IsUnit (com.capA : ZMod (N0 ^ 2))) (hB : IsUnit (com.capB : ZMod (N1 ^ 2))) (hCu : IsUnit pub.capC) (hDu : IsUnit pub.capD)
    (hfit : ∀ el ∈ prf.elements, el.z.Fits) (hfit' : ∀ el ∈ prf'.elements, el.z.Fits) :
    AffGBinds P g q pub := by
  have : NeZero (N1 ^ 2) := ⟨by positivity⟩
  obtain ⟨-, -, hl, hall⟩ := C29_accepted (ε := ε) H g pub aux prf h
  obtain ⟨-, -, hl', hall'⟩ := C29_accepted (ε := ε) H' g pub aux' prf' h'
  obtain ⟨hi, -⟩ := List.getElem?_eq_some_iff.1 hbit
  obtain ⟨hi', -⟩ := List.getElem?_eq_some_iff.1 hbit'
  have hel := List.getElem?_eq_getElem (l := prf.elements) (i := i) (by omega)
  have hel' := List.getElem?_eq_getElem (l := prf'.elements) (i := i) (by omega)
  obtain ⟨r1, r2, ⟨cz, a1, d, a2, a3⟩, a4, a5⟩ := hall i false com _ hbit hci hel
  obtain ⟨r1', r2', ⟨cz', b1, d', b2, b3⟩, b4, b5⟩ := hall' i true com _ hbit' (by rw [← hcom]; exact hci) hel'
  have f1 := hfit _ (List.getElem_mem (l := prf.elements) (n := i) (by omega))
  have f2 := hfit' _ (List.getElem_mem (l := prf'.elements) (n := i) (by omega))
  generalize prf.elements[i] = el at *
  generalize prf'.elements[i] = el' at *
  obtain ⟨A, hAu⟩ := hA
  obtain ⟨B, hBu⟩ := hB
  obtain ⟨C, hC⟩ := hCu
  obtain ⟨D, hD⟩ := hDu
  simp only [if_true, Bool.false_eq_true, if_false, mul_one, add_zero] at a3 a4 a5 b3 b4 b5
  have hL : 0 < P.L := hnb
  have hLP : P.LP = P.primeBits + P.L := rfl
  rw [← hC, ctMulPublic_unit _ f1] at a1
  rw [← hC, ctMulPublic_unit _ f2] at b1
  injection a1 with a1
  injection b1 with b1
  rw [← a1, ← hAu] at a3
  rw [← b1, ← hAu, ← hD, ← Units.val_mul] at b3
  have hd : d = (((C ^ el.z.val)⁻¹ * A : (ZMod (N0 ^ 2))ˣ) : ZMod (N0 ^ 2)) := by
    rw [Units.val_mul, ← a3, ← mul_assoc, ← Units.val_mul, inv_mul_cancel, Units.val_one, one_mul]
  have hd' : d' = (((C ^ el'.z.val)⁻¹ * (A * D) : (ZMod (N0 ^ 2))ˣ) : ZMod (N0 ^ 2)) := by
    rw [Units.val_mul, ← b3, ← mul_assoc, ← Units.val_mul, inv_mul_cancel, Units.val_one, one_mul]
  rw [hd] at a2; rw [hd'] at b2
  obtain ⟨ζ, hζ⟩ := Encrypts.exists_unit hN0 a2
  obtain ⟨ζ', hζ'⟩ := Encrypts.exists_unit hN0 b2
  obtain ⟨yinv, b6, b7⟩ := b5
  unfold ctNeg at b6
  obtain ⟨Y, hY, hyi⟩ := invMod?_eq_some (Out.ofOptionPanic_eq_ok.1 b6)
  rw [← hBu] at a5 b7
  rw [hyi, ← Units.val_mul] at b7
  obtain ⟨η, hη⟩ := Encrypts.exists_unit hN1 a5
  obtain ⟨η', hη'⟩ := Encrypts.exists_unit hN1 b7
  refine ⟨el'.z.val - el.z.val, el.zPrime.val - el'.zPrime.val, inPm_sub (by omega) r1' r1, inPm_sub (by omega) r2 r2', ?_, ?_, ?_⟩
  · push_cast; rw [sub_smul, b4, a4]; abel
  · obtain ⟨rho, k1, k2⟩ := encrypts_of_encU hN0 (m := -(el.zPrime.val - el'.zPrime.val))
      (c := ((encU N0 (-(el.zPrime.val - el'.zPrime.val)) (ζ' * ζ ^ (-1 : Int)) : (ZMod (N0 ^ 2))ˣ) : Ct N0)) (ζ := ζ' * ζ ^ (-1 : Int)) rfl
    refine ⟨((C ^ (el'.z.val - el.z.val) : (ZMod (N0 ^ 2))ˣ) : Ct N0), _, rho, ?_, k1, k2, ?_⟩
    · rw [← hC]
      exact ctMulPublic_unit C (InPm.natAbs_lt (show 0 < P.L + P.EPS + 1 by omega) (inPm_sub (by omega) r1' r1))
    · rw [← hD]
      refine (congrArg (Units.val) (?_ : D = C ^ (el'.z.val - el.z.val) * encU N0 (-(el.zPrime.val - el'.zPrime.val)) (ζ' * ζ ^ (-1 : Int)))).trans
        (Units.val_mul _ _)
      have : encU N0 (-(el.zPrime.val - el'.zPrime.val)) (ζ' * ζ ^ (-1 : Int)) = encU N0 el'.zPrime.val ζ' * encU N0 el.zPrime.val ζ ^ (-1 : Int) := by
        rw [encU_zpow, encU_mul]; congr 1; ring
      rw [this, ← hζ, ← hζ', zpow_sub, zpow_neg_one, mul_inv_rev, inv_inv]
      calc D = (C ^ el'.z.val * (C ^ el'.z.val)⁻¹) * ((C ^ el.z.val)⁻¹ * C ^ el.z.val) * (A * A⁻¹) * D := by
            rw [mul_inv_cancel, inv_mul_cancel, mul_inv_cancel]; simp
        _ = _ := by
            simp only [mul_assoc, mul_comm, mul_left_comm]
  · refine encrypts_of_encU hN1 (ζ := η * η' ^ (-1 : Int)) ?_
    rw [← hY]
    refine congrArg Units.val ?_
    have : encU N1 (el.zPrime.val - el'.zPrime.val) (η * η' ^ (-1 : Int)) = encU N1 el.zPrime.val η * encU N1 el'.zPrime.val η' ^ (-1 : Int) := by
      rw [encU_zpow, encU_mul]; congr 1; ring
    rw [this, ← hη, ← hη', zpow_neg_one, mul_inv_rev, inv_inv, mul_comm Y, mul_inv_cancel_left]

/-- **C53 (dec), partial.** As for aff-g*: the statement holds in full if the ciphertext committed where the challenges differ is invertible. -/
theorem C53_dec_partial {P : Params} (hnb : 0 < P.numBits) (H H' : DecHash G Aux → List Bool) (g : G) {N0 Nh : Nat} (hN0 : 0 < N0)
    (setup : RPParams Nh) (pub : DecPublic N0 G) (aux aux' : Aux) (prf prf' : DecProof G)
    (h : (prf.verify P H g q pub setup aux : Out ε _) = .ok true) (h' : (prf'.verify P H' g q pub setup aux' : Out ε _) = .ok true)
    (hcom : prf.commitments = prf'.commitments) (i : Nat) (hbit : prf.e[i]? = some false) (hbit' : prf'.e[i]? = some true)
    (com : DecCommitment G) (hci : prf.commitments[i]? = some com)
    (hA : IsUnit (com.capA : ZMod (N0 ^ 2))) (hKu : IsUnit pub.capK) (hDu : IsUnit pub.capD)
    (hfit : ∀ el ∈ prf.elements, el.z.Fits) (hfit' : ∀ el ∈ prf'.elements, el.z.Fits) :
    DecBinds P g q pub := by
  obtain ⟨-, -, hl, hall⟩ := C30_accepted (ε := ε) H g pub setup aux prf h
  obtain ⟨-, -, hl', hall'⟩ := C30_accepted (ε := ε) H' g pub setup aux' prf' h'
  obtain ⟨hi, -⟩ := List.getElem?_eq_some_iff.1 hbit
  obtain ⟨hi', -⟩ := List.getElem?_eq_some_iff.1 hbit'
  have hel := List.getElem?_eq_getElem (l := prf.elements) (i := i) (by omega)
  have hel' := List.getElem?_eq_getElem (l := prf'.elements) (i := i) (by omega)
  obtain ⟨r1, ⟨c, hc, r2⟩, ⟨kz, a1, d, a2, a3⟩, a4, a5⟩ := hall i false com _ hbit hci hel
  obtain ⟨r1', ⟨c', hc', r2'⟩, ⟨kz', b1, d', b2, b3⟩, b4, b5⟩ := hall' i true com _ hbit' (by rw [← hcom]; exact hci) hel'
  have f1 := SInt.neg_fits (hfit _ (List.getElem_mem (l := prf.elements) (n := i) (by omega)))
  have f2 := SInt.neg_fits (hfit' _ (List.getElem_mem (l := prf'.elements) (n := i) (by omega)))
  generalize prf.elements[i] = el at *
  generalize prf'.elements[i] = el' at *
  have hcc : c' = c := le_antisymm (hc'.2 _ hc.1) (hc.2 _ hc'.1)
  subst hcc
  obtain ⟨A, hAu⟩ := hA
  obtain ⟨K, hK⟩ := hKu
  obtain ⟨D, hD⟩ := hDu
  simp only [if_true, Bool.false_eq_true, if_false, mul_one, add_zero] at a3 a4 a5 b3 b4 b5
  have hL : 0 < P.L := hnb
  rw [← hK, ctMulPublic_unit _ f1] at a1
  rw [← hK, ctMulPublic_unit _ f2] at b1
  injection a1 with a1
  injection b1 with b1
  rw [← a1, ← hAu] at a3
  rw [← b1, ← hAu, ← hD, ← Units.val_mul] at b3
  have v1 : el.z.neg.val = -el.z.val := rfl
  have v2 : el'.z.neg.val = -el'.z.val := rfl
  rw [v1] at a3; rw [v2] at b3
  have hd : d = ((A * K ^ el.z.val : (ZMod (N0 ^ 2))ˣ) : ZMod (N0 ^ 2)) := by
    rw [Units.val_mul, ← a3, mul_assoc, ← Units.val_mul, ← zpow_add, neg_add_cancel, zpow_zero, Units.val_one, mul_one]
  have hd' : d' = ((A * D * K ^ el'.z.val : (ZMod (N0 ^ 2))ˣ) : ZMod (N0 ^ 2)) := by
    rw [Units.val_mul, ← b3, mul_assoc, ← Units.val_mul, ← zpow_add, neg_add_cancel, zpow_zero, Units.val_one, mul_one]
  rw [hd] at a2; rw [hd'] at b2
  obtain ⟨ζ, hζ⟩ := Encrypts.exists_unit hN0 a2
  obtain ⟨ζ', hζ'⟩ := Encrypts.exists_unit hN0 b2
  refine ⟨el'.z.val - el.z.val, el'.w.val - el.w.val, c', hc, inPm_sub (by omega) r1' r1, inPm_sub (by omega) r2' r2, ?_, ?_, ?_⟩
  · push_cast; rw [sub_smul, b4, a4]; abel
  · push_cast; rw [sub_smul, b5, a5]; abel
  · obtain ⟨rho, k1, k2⟩ := encrypts_of_encU hN0 (m := el'.w.val - el.w.val)
      (c := ((encU N0 (el'.w.val - el.w.val) (ζ' * ζ ^ (-1 : Int)) : (ZMod (N0 ^ 2))ˣ) : Ct N0)) (ζ := ζ' * ζ ^ (-1 : Int)) rfl
    refine ⟨((K ^ (el'.z.val - el.z.val) : (ZMod (N0 ^ 2))ˣ) : Ct N0), rho, ?_, k1, ?_⟩
    · rw [← hK]
      exact ctMulPublic_unit K (InPm.natAbs_lt (show 0 < P.L + P.EPS + 1 by omega) (inPm_sub (by omega) r1' r1))
    · rw [← hD]
      have heq : K ^ (el'.z.val - el.z.val) * D = encU N0 (el'.w.val - el.w.val) (ζ' * ζ ^ (-1 : Int)) := by
        have : encU N0 (el'.w.val - el.w.val) (ζ' * ζ ^ (-1 : Int)) = encU N0 el'.w.val ζ' * encU N0 el.w.val ζ ^ (-1 : Int) := by
          rw [encU_zpow, encU_mul]; congr 1; ring
        rw [this, ← hζ, ← hζ', zpow_sub, zpow_neg_one, mul_inv_rev]
        calc K ^ el'.z.val * (K ^ el.z.val)⁻¹ * D = (A * A⁻¹) * (K ^ el'.z.val * (K ^ el.z.val)⁻¹ * D) := by rw [mul_inv_cancel, one_mul]
          _ = _ := by simp only [mul_assoc, mul_comm, mul_left_comm]
      have hv := congrArg Units.val heq
      rw [Units.val_mul] at hv
      rw [← hv] at k2
      exact k2

/-! ### Concrete cases: honest proofs answered twice -/

section Examples

attribute [local instance] Toy.fact11

private def setup : RPParams 77 := ⟨4, 16⟩

private def encPub : EncElgPublic 77 (ZMod 11) := ⟨((155 : Nat) : ZMod (77 ^ 2)), 1, 1, 3⟩
private def encPrf (e : ZMod 11) (z : Nat) : EncElgProof 11 (ZMod 11) := ⟨e, 25, 1, 0, 0, 1, ⟨8, z⟩, e, 1, ⟨0, 0⟩⟩

example : ∃ b : ZMod 11, (1 : ZMod 11) = b • 1 ∧ (3 : ZMod 11) = ((2 : Int) : ZMod 11) • 1 + b • 1 := by
  obtain ⟨b, h1, h2, h3, -⟩ := C53_enc_elg_partial (ε := Empty) (P := Params.test) (by decide) (by decide) (fun _ : EncElgHash (ZMod 11) Nat => 3) (fun _ => 5)
    1 (N0 := 77) (by decide) toy_coprime setup encPub 0 0 (encPrf 3 6) (encPrf 5 10) (by decide +kernel) (by decide +kernel) rfl rfl rfl (by decide)
    ⟨1, by rw [Units.val_one]; decide⟩ 2 1 (by decide) (by unfold Encrypts; decide +kernel)
  refine ⟨b, h1, ?_⟩
  rw [show ((2 : Int) : ZMod 11) = (((encPrf 3 6).z1.val - (encPrf 5 10).z1.val : Int) : ZMod 11) / ((encPrf 3 6).e - (encPrf 5 10).e) by decide +kernel]
  exact h2

private def affPub : AffGPublic 77 77 (ZMod 11) :=
  ⟨((155 : Nat) : ZMod (77 ^ 2)), ((155 : Nat) : ZMod (77 ^ 2)), ((309 : Nat) : ZMod (77 ^ 2)), 3⟩
private def affPrf (e : ZMod 11) (z1 : Nat) (z2 : Int) (T : Nat) : AffGProof 11 (ZMod 11) :=
  ⟨e, 1, 0, 1, 1, 15, 1, T, ⟨8, z1⟩, ⟨8, z2⟩, ⟨0, 0⟩, ⟨0, 0⟩, 1, 1⟩

example : 2 * ((3 : Int) - 5) ≡ 2 * (9 - 15) + (-12 - -20) [ZMOD (77 : Nat)] ∧ 4 * ((3 : Int) - 5) ≡ -(-12 - -20) [ZMOD (77 : Nat)] :=
  (C53_aff_g_partial (ε := Empty) (P := Params.test) (by decide) (fun _ : AffGHash (ZMod 11) Nat => 3) (fun _ => 5) 1 (N0 := 77) (N1 := 77) (by decide)
    (by decide) toy_coprime toy_coprime setup affPub 0 0 (affPrf 3 9 (-12) 60) (affPrf 5 15 (-20) 60) (by decide +kernel) (by decide +kernel) rfl rfl rfl
    (by decide) (by decide) (by decide) ⟨1, by rw [Units.val_one]; decide⟩ ⟨1, by rw [Units.val_one]; decide⟩ 2 2 4 1 1 1 (by decide) (by decide)
    (by decide) (by unfold Encrypts; decide +kernel) (by unfold Encrypts; decide +kernel) (by unfold Encrypts; decide +kernel)).2

private def starPrf (b : Bool) (z : Nat) (z2 : Int) : AffGStarProof (ZMod 11) := ⟨[b], [⟨1, 0, 1⟩], [⟨⟨8, z⟩, ⟨8, z2⟩, 1, 1⟩]⟩

example : AffGBinds Params.test 1 11 affPub :=
  C53_aff_g_star_partial (ε := Empty) (P := Params.test) (by decide) (fun _ : AffGStarHash (ZMod 11) Nat => [false]) (fun _ => [true]) 1 (N0 := 77) (N1 := 77)
    (by decide) (by decide) affPub 0 0 (starPrf false 0 0) (starPrf true 3 (-4)) (by decide +kernel) (by decide +kernel) rfl 0 rfl rfl ⟨1, 0, 1⟩ rfl
    ⟨1, by rw [Units.val_one]; decide⟩ ⟨1, by rw [Units.val_one]; decide⟩ (IsUnit.of_mul_eq_one (a := affPub.capC) 5776 (by decide +kernel))
    (IsUnit.of_mul_eq_one (a := affPub.capD) 5776 (by decide +kernel)) (by decide) (by decide)

private def decPub : DecPublic 77 (ZMod 11) := ⟨((155 : Nat) : ZMod (77 ^ 2)), 3, ((5776 : Nat) : ZMod (77 ^ 2)), 8, 2, 2⟩
private def decPrf (b : Bool) (z w : Nat) : DecProof (ZMod 11) := ⟨[b], [⟨1, 0, 0⟩], [⟨⟨8, z⟩, ⟨8, w⟩, 1⟩]⟩

example : DecBinds Params.test 1 11 decPub :=
  C53_dec_partial (ε := Empty) (P := Params.test) (by decide) (fun _ : DecHash (ZMod 11) Nat => [false]) (fun _ => [true]) 1 (N0 := 77)
    (by decide) setup decPub 0 0 (decPrf false 0 0) (decPrf true 3 4) (by decide +kernel) (by decide +kernel) rfl 0 rfl rfl ⟨1, 0, 0⟩ rfl
    ⟨1, by rw [Units.val_one]; decide⟩ (IsUnit.of_mul_eq_one (a := decPub.capK) 5776 (by decide +kernel))
    (IsUnit.of_mul_eq_one (a := decPub.capD) 155 (by decide +kernel)) (by decide) (by decide)

end Examples

end Synedrion.Props
