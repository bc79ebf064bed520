import Verif.Model.ZkPaillier
import Verif.Model.ZkModulus
import Verif.Lemmas.Paillier
import Verif.Lemmas.Signed
import Verif.Spec.Zk

/-! # Lemmas about the zero-knowledge proof models -/

set_option linter.unusedSectionVars false

namespace Synedrion
open Spec

variable {ε : Type} {N : Nat}

/-! ### Integers -/

theorem SInt.inRange_eq (a : SInt) (exp : Nat) : a.inRange exp = decide (InPm exp a.val) := rfl

theorem SInt.assertRange_ok {a : SInt} {exp : Nat} (h : InPm exp a.val) : (a.assertRange exp : Out ε _) = .ok () := by
  unfold SInt.assertRange Out.assert
  rw [SInt.inRange_eq, decide_eq_true h]; rfl

theorem InPm.natAbs_lt {exp : Nat} (h0 : 0 < exp) {v : Int} (h : InPm exp v) : v.natAbs < 2 ^ exp := by
  obtain ⟨h1, h2⟩ := h
  have hp : 2 ^ exp = 2 * 2 ^ (exp - 1) := by rw [← pow_succ']; congr 1; omega
  have hq : (0 : Int) < 2 ^ (exp - 1) := by positivity
  have hc : (((2 : Nat) ^ (exp - 1) : Nat) : Int) = (2 : Int) ^ (exp - 1) := by push_cast; rfl
  rw [hp]
  generalize (2 : Nat) ^ (exp - 1) = n at *
  omega

theorem SInt.IsDraw.fits {exp : Nat} {a : SInt} (h0 : 0 < exp) (h : a.IsDraw exp) : a.Fits := by
  unfold SInt.Fits; rw [h.1]; exact InPm.natAbs_lt h0 h.2

theorem SInt.IsScaledDraw.fits {exp scale : Nat} {a : SInt} (h0 : 0 < exp) (h : a.IsScaledDraw exp scale) : a.Fits := by
  unfold SInt.Fits; rw [h.1]
  obtain ⟨h1, h2⟩ := h.2
  have hs : scale < 2 ^ bitLen scale := bitLen_le_iff.1 le_rfl
  have hp : (2 : Nat) ^ (exp + bitLen scale) = 2 * (2 ^ (exp - 1) * 2 ^ bitLen scale) := by
    rw [← pow_add, ← pow_succ']; congr 1; omega
  have hle : scale * 2 ^ (exp - 1) < 2 ^ (exp - 1) * 2 ^ bitLen scale := by
    rw [Nat.mul_comm]; exact Nat.mul_lt_mul_of_pos_left hs (by positivity)
  have hc : ((scale * 2 ^ (exp - 1) : Nat) : Int) = (scale : Int) * (2 : Int) ^ (exp - 1) := by push_cast; rfl
  rw [hp]
  rw [← hc] at h1 h2
  generalize scale * 2 ^ (exp - 1) = n at *
  generalize 2 ^ (exp - 1) * 2 ^ bitLen scale = m at *
  omega

theorem SInt.neg_fits {a : SInt} (h : a.Fits) : a.neg.Fits := by
  unfold SInt.Fits SInt.neg at *; simpa using h

theorem SInt.mulAdd_ok {w : Nat} {a x e : SInt} (h1 : x.bound + e.bound < w) (h2 : max a.bound (x.bound + e.bound) + 1 < w) :
    (((x.mul w e).bind fun xe => a.add w xe) : Out ε SInt) = .ok ⟨max a.bound (x.bound + e.bound) + 1, a.val + x.val * e.val⟩ := by
  unfold SInt.mul SInt.add
  rw [if_pos h1]; simp only [Out.bind_ok]; rw [if_pos h2]

theorem mul_natAbs_lt {a b : Int} {m n : Nat} (ha : a.natAbs < 2 ^ m) (hb : b.natAbs < 2 ^ n) : (a * b).natAbs < 2 ^ (m + n) := by
  rw [Int.natAbs_mul, pow_add]
  exact Nat.mul_lt_mul_of_lt_of_lt ha hb

theorem add_natAbs_lt {a b : Int} {m n : Nat} (ha : a.natAbs < 2 ^ m) (hb : b.natAbs < 2 ^ n) : (a + b).natAbs < 2 ^ (max m n + 1) := by
  have h1 : (2 : Nat) ^ m ≤ 2 ^ max m n := Nat.pow_le_pow_right (by norm_num) (le_max_left _ _)
  have h2 : (2 : Nat) ^ n ≤ 2 ^ max m n := Nat.pow_le_pow_right (by norm_num) (le_max_right _ _)
  have := Int.natAbs_add_le a b
  rw [pow_succ]; omega

theorem SInt.mulAdd_fits {a x e : SInt} (ha : a.Fits) (hx : x.Fits) (he : e.Fits) :
    SInt.Fits ⟨max a.bound (x.bound + e.bound) + 1, a.val + x.val * e.val⟩ :=
  add_natAbs_lt ha (mul_natAbs_lt hx he)

theorem SInt.mulSub_fits {a x e : SInt} (ha : a.Fits) (hx : x.Fits) (he : e.Fits) :
    SInt.Fits ⟨max a.bound (x.bound + e.bound) + 1, a.val - x.val * e.val⟩ := by
  have := add_natAbs_lt (b := -(x.val * e.val)) ha (by rw [Int.natAbs_neg]; exact mul_natAbs_lt hx he)
  rwa [← sub_eq_add_neg] at this

theorem signedOfScalar_fits {q : Nat} [NeZero q] {P : Params} (hq : q < 2 ^ P.numBits) (e : ZMod q) : (signedOfScalar P e).Fits := by
  unfold SInt.Fits signedOfScalar
  have := ZMod.val_lt e
  simp only [Int.natAbs_natCast]; omega

@[simp] theorem signedOfScalar_cast {q : Nat} [NeZero q] {P : Params} (e : ZMod q) : (((signedOfScalar P e).val : Int) : ZMod q) = e := by
  simp [signedOfScalar]

/-- A power with a scalar exponent never needs an inverse. -/
theorem powPublic_scalar {q : Nat} [NeZero q] {P : Params} (hq : q < 2 ^ P.numBits) (e : ZMod q) {n : Nat} (a : ZMod n) :
    (powPublic a (signedOfScalar P e) : Out ε _) = .ok (a ^ e.val) := by
  unfold powPublic
  have h0 : ¬ ((signedOfScalar P e).val < 0) := by
    change ¬ ((e.val : Int) < 0); omega
  simp only [h0, if_false]
  rw [powBounded_eq _ (signedOfScalar_fits hq _)]
  rfl

/-- The response with a mask from the inner interval stays in the outer one. -/
theorem inPm_add_of_inner {exp : Nat} {a b : Int} {c : Nat} (hb : b.natAbs < c) (ha : a.natAbs + c ≤ 2 ^ (exp - 1)) : InPm exp (a + b) := by
  unfold InPm
  have hc : (((2 : Nat) ^ (exp - 1) : Nat) : Int) = (2 : Int) ^ (exp - 1) := by push_cast; rfl
  rw [← hc]
  generalize (2 : Nat) ^ (exp - 1) = n at *
  omega

/-- A product of an in-range secret and a challenge is below `2^(exp + L - 1)`. -/
theorem secret_mul_challenge_lt {exp L : Nat} (hexp : 0 < exp) {x : Int} (hx : InPm exp x) {e : Nat} (he : e < 2 ^ L) :
    (x * (e : Int)).natAbs < 2 ^ (exp + L - 1) := by
  obtain ⟨r1, r2⟩ := hx
  have hx' : x.natAbs ≤ 2 ^ (exp - 1) := by
    have hc : (((2 : Nat) ^ (exp - 1) : Nat) : Int) = (2 : Int) ^ (exp - 1) := by push_cast; rfl
    rw [← hc] at r1 r2
    generalize (2 : Nat) ^ (exp - 1) = n at *
    omega
  rw [Int.natAbs_mul, Int.natAbs_natCast]
  have : 2 ^ (exp + L - 1) = 2 ^ (exp - 1) * 2 ^ L := by rw [← pow_add]; congr 1; omega
  rw [this]
  exact lt_of_le_of_lt (Nat.mul_le_mul_right _ hx') (Nat.mul_lt_mul_of_pos_left he (by positivity))

/-! ### Ciphertexts as units -/

/-- The ciphertext of `m` with the randomizer `u`, as a unit. -/
def encU (N : Nat) (m : Int) (u : (ZMod (N ^ 2))ˣ) : (ZMod (N ^ 2))ˣ := oneAddUnit N m * u ^ N

theorem encU_val (m : Int) (u : (ZMod (N ^ 2))ˣ) : ((encU N m u : (ZMod (N ^ 2))ˣ) : Ct N) = oneAdd N m * (u : Ct N) ^ N := by
  simp [encU]

theorem encU_mul (a b : Int) (u v : (ZMod (N ^ 2))ˣ) : encU N a u * encU N b v = encU N (a + b) (u * v) := by
  unfold encU; rw [oneAddUnit_add, mul_pow]; exact mul_mul_mul_comm _ _ _ _

theorem encU_zpow (a k : Int) (u : (ZMod (N ^ 2))ˣ) : encU N a u ^ k = encU N (a * k) (u ^ k) := by
  unfold encU
  rw [mul_zpow, ← oneAddUnit_zpow, mul_comm k a]
  congr 1
  rw [← zpow_natCast, ← zpow_natCast, ← zpow_mul, ← zpow_mul, mul_comm]

theorem Encrypts_unit {m : Int} {rho : Nat} {c : Ct N} (h : Encrypts N m rho c) {u : (ZMod (N ^ 2))ˣ} (hu : (u : Ct N) = (rho : Ct N)) :
    c = ((encU N m u : (ZMod (N ^ 2))ˣ) : Ct N) := by
  rw [encU_val, hu]; exact h

theorem enc_unit {m : SInt} (h : m.Fits) {rho : Nat} {u : (ZMod (N ^ 2))ˣ} (hu : (u : Ct N) = (rho : Ct N)) :
    (enc N m rho : Out ε _) = .ok ((encU N m.val u : (ZMod (N ^ 2))ˣ) : Ct N) := by
  rw [enc_eq h, encU_val, hu]

/-- The plaintext is determined modulo `N` by the ciphertext, when `N` is coprime to its totient. -/
theorem encU_inj (hN : 0 < N) (hcop : Nat.Coprime N (Nat.totient N)) {a b : Int} {u v : (ZMod (N ^ 2))ˣ} (h : encU N a u = encU N b v) :
    a ≡ b [ZMOD N] := by
  have : NeZero (N ^ 2) := ⟨by positivity⟩
  -- the quotient is an `N`-th power
  have h1 : oneAddUnit N (a - b) = (v * u⁻¹) ^ N := by
    have h0 : oneAddUnit N (a - b) = oneAddUnit N a * (oneAddUnit N b)⁻¹ := by rw [sub_eq_add_neg, oneAddUnit_add, oneAddUnit_neg]
    unfold encU at h
    rw [h0, mul_pow, inv_pow]
    calc oneAddUnit N a * (oneAddUnit N b)⁻¹ = (oneAddUnit N a * u ^ N) * (u ^ N)⁻¹ * (oneAddUnit N b)⁻¹ := by group
      _ = (oneAddUnit N b * v ^ N) * (u ^ N)⁻¹ * (oneAddUnit N b)⁻¹ := by rw [h]
      _ = v ^ N * (u ^ N)⁻¹ := by rw [mul_comm (oneAddUnit N b), mul_assoc, mul_assoc, mul_comm (oneAddUnit N b)]; group
  -- raised to the totient it vanishes
  have h2 : ∃ c : Int, (((v * u⁻¹) ^ Nat.totient N : (ZMod (N ^ 2))ˣ) : Ct N) = oneAdd N c := by
    apply exists_oneAdd hN
    have : redN N (((v * u⁻¹) ^ Nat.totient N : (ZMod (N ^ 2))ˣ) : Ct N)
        = ((Units.map (redN N).toMonoidHom (v * u⁻¹) ^ Nat.totient N : (ZMod N)ˣ) : ZMod N) := by
      rw [← map_pow]; rfl
    rw [this, ZMod.pow_totient, Units.val_one]
  obtain ⟨c, hc⟩ := h2
  have h3 : oneAddUnit N (Nat.totient N * (a - b)) = oneAddUnit N (N * c) := by
    rw [oneAddUnit_pow, oneAddUnit_pow, h1, ← pow_mul, Nat.mul_comm N, pow_mul]
    congr 1
    ext; exact hc
  have h4 : oneAdd N (Nat.totient N * (a - b)) = oneAdd N (N * c) := by rw [← oneAddUnit_val, h3, oneAddUnit_val]
  rw [oneAdd_eq_iff hN] at h4
  have h5 : (Nat.totient N : Int) * (a - b) ≡ 0 [ZMOD N] := h4.trans (by rw [Int.modEq_zero_iff_dvd]; exact ⟨c, rfl⟩)
  rw [Int.modEq_zero_iff_dvd] at h5
  have h6 : (N : Int) ∣ a - b := by
    refine (Int.isCoprime_iff_gcd_eq_one.2 ?_).dvd_of_dvd_mul_left h5
    rw [Int.gcd_natCast_natCast]; exact hcop
  exact (Int.modEq_iff_dvd.2 (by rw [← neg_sub]; exact (dvd_neg).2 h6))

/-- A product that encrypts something and is invertible was made with an invertible randomizer. -/
theorem Encrypts.exists_unit (hN : 0 < N) {m : Int} {z : Nat} {c : (ZMod (N ^ 2))ˣ} (h : Encrypts N m z (c : ZMod (N ^ 2))) :
    ∃ ζ : (ZMod (N ^ 2))ˣ, c = encU N m ζ := by
  have hu : IsUnit ((z : ZMod (N ^ 2)) ^ N) := by
    have : IsUnit ((1 + (m : ZMod (N ^ 2)) * (N : ZMod (N ^ 2))) * (z : ZMod (N ^ 2)) ^ N) := by
      rw [← show (c : ZMod (N ^ 2)) = _ from h]; exact c.isUnit
    exact isUnit_of_mul_isUnit_right this
  obtain ⟨ζ, hζ⟩ := (isUnit_pow_iff hN.ne').1 hu
  refine ⟨ζ, ?_⟩
  ext
  rw [encU_val, hζ]; exact h

/-- Two answers about the same commitment fix the plaintext: its product with the difference of the challenges is the difference of the
responses, modulo `N`. -/
theorem plaintext_of_two_answers (hN : 0 < N) (hcop : Nat.Coprime N (Nat.totient N)) {D C : (ZMod (N ^ 2))ˣ} {z z' e e' m : Int}
    {ζ ζ' ρ : (ZMod (N ^ 2))ˣ} (h : encU N z ζ = D * C ^ e) (h' : encU N z' ζ' = D * C ^ e') (hC : C = encU N m ρ) :
    m * (e - e') ≡ z - z' [ZMOD N] := by
  have h1 : encU N (z - z') (ζ * ζ' ^ (-1 : Int)) = encU N (m * (e - e')) (ρ ^ (e - e')) := by
    rw [← encU_zpow, ← hC, zpow_sub]
    have : encU N (z - z') (ζ * ζ' ^ (-1 : Int)) = encU N z ζ * encU N z' ζ' ^ (-1 : Int) := by
      rw [encU_zpow, encU_mul]; congr 1; ring
    rw [this, h, h', zpow_neg_one, mul_inv]
    calc D * C ^ e * (D⁻¹ * (C ^ e')⁻¹) = (D * D⁻¹) * (C ^ e * (C ^ e')⁻¹) := by
          rw [mul_mul_mul_comm]
      _ = C ^ e * (C ^ e')⁻¹ := by rw [mul_inv_cancel, one_mul]
  exact (encU_inj hN hcop h1).symm

theorem toMasked_ok (hN : 0 < N) {rho r : Nat} {u v : (ZMod (N ^ 2))ˣ} (hu : (u : Ct N) = (rho : Ct N)) (hv : (v : Ct N) = (r : Ct N))
    {e : SInt} (he : e.Fits) :
    ∃ z, (toMasked N rho r e : Out ε _) = .ok z ∧ ∀ m : SInt, encPublic N m z = ((encU N m.val (u ^ e.val * v) : (ZMod (N ^ 2))ˣ) : Ct N) := by
  have : NeZero N := ⟨hN.ne'⟩
  have : NeZero (N ^ 2) := ⟨by positivity⟩
  let red : (ZMod (N ^ 2))ˣ →* (ZMod N)ˣ := Units.map (redN N).toMonoidHom
  have hred : ∀ w : (ZMod (N ^ 2))ˣ, ((red w : (ZMod N)ˣ) : ZMod N) = redN N (w : Ct N) := fun w => rfl
  have hu' : (rho : ZMod N) = ((red u : (ZMod N)ˣ) : ZMod N) := by rw [hred, hu, redN_natCast]
  have hv' : (r : ZMod N) = ((red v : (ZMod N)ˣ) : ZMod N) := by rw [hred, hv, redN_natCast]
  refine ⟨(((red u ^ e.val * red v : (ZMod N)ˣ)) : ZMod N).val, ?_, ?_⟩
  · unfold toMasked
    rw [hu', powPublic_unit _ he, Out.bind_ok, hv', ← Units.val_mul]
  · intro m
    rw [encPublic_eq, encU_val]
    refine congrArg (oneAdd N m.val * ·) ?_
    set b := ((u ^ e.val * v : (ZMod (N ^ 2))ˣ) : Ct N) with hb
    have h1 : ((b.val : Nat) : Ct N) = b := ZMod.natCast_zmod_val _
    rw [← h1]
    apply powN_congr
    rw [← ZMod.natCast_eq_natCast_iff, ZMod.natCast_zmod_val, ← map_zpow, ← map_mul, hred, ← redN_natCast, h1]

@[simp] theorem ctWire (hN : 0 < N) (c : Ct N) : ctOfWire N (ctToWire c) = c := by
  have : NeZero (N ^ 2) := ⟨by positivity⟩
  exact ZMod.natCast_zmod_val c

@[simp] theorem commitmentWire (hN : 0 < N) (c : ZMod N) : commitmentOfWire N (commitmentToWire c) = c := by
  have : NeZero N := ⟨hN.ne'⟩
  exact ZMod.natCast_zmod_val c

theorem ctMulPublic_unit (u : (ZMod (N ^ 2))ˣ) {e : SInt} (h : e.Fits) :
    (ctMulPublic (u : Ct N) e : Out ε _) = .ok ((u ^ e.val : (ZMod (N ^ 2))ˣ) : Ct N) := powPublic_unit u h

theorem ctMulSecret_unit (u : (ZMod (N ^ 2))ˣ) {e : SInt} (h : e.Fits) :
    (ctMulSecret (u : Ct N) e : Out ε _) = .ok ((u ^ e.val : (ZMod (N ^ 2))ˣ) : Ct N) := powSecret_unit u h

theorem ctAdd_unit (u v : (ZMod (N ^ 2))ˣ) : ctAdd (u : Ct N) (v : Ct N) = ((u * v : (ZMod (N ^ 2))ˣ) : Ct N) := rfl

theorem ctSub_unit (u v : (ZMod (N ^ 2))ˣ) : (ctSub (u : Ct N) (v : Ct N) : Out ε _) = .ok ((u * v⁻¹ : (ZMod (N ^ 2))ˣ) : Ct N) := by
  unfold ctSub ctNeg
  rw [invMod?_unit, Out.ofOptionPanic_some, Out.bind_ok, ctAdd_unit]

/-! ### Commitments as units -/

/-- The ring-Pedersen commitment with invertible bases. -/
def comU (s t : (ZMod N)ˣ) (a r : Int) : (ZMod N)ˣ := s ^ a * t ^ r

theorem comU_mul (s t : (ZMod N)ˣ) (a b r v : Int) : comU s t a r * comU s t b v = comU s t (a + b) (r + v) := by
  unfold comU; rw [zpow_add, zpow_add]; exact mul_mul_mul_comm _ _ _ _

theorem comU_zpow (s t : (ZMod N)ˣ) (a r k : Int) : comU s t a r ^ k = comU s t (a * k) (r * k) := by
  unfold comU; rw [mul_zpow, zpow_mul, zpow_mul]

/-- Both bases of the parameters are invertible. -/
def RPParams.Valid (rp : RPParams N) : Prop := IsUnit rp.s ∧ IsUnit rp.t

theorem commitSecret_unit {rp : RPParams N} {s t : (ZMod N)ˣ} (hs : (s : ZMod N) = rp.s) (ht : (t : ZMod N) = rp.t) {a r : SInt}
    (ha : a.Fits) (hr : r.Fits) : (rp.commitSecret a r : Out ε _) = .ok ((comU s t a.val r.val : (ZMod N)ˣ) : ZMod N) := by
  unfold RPParams.commitSecret
  rw [← hs, ← ht, powSecret_unit _ ha, Out.bind_ok, powSecret_unit _ hr, Out.bind_ok, ← Units.val_mul]; rfl

theorem commitPublic_unit {rp : RPParams N} {s t : (ZMod N)ˣ} (hs : (s : ZMod N) = rp.s) (ht : (t : ZMod N) = rp.t) {a r : SInt}
    (ha : a.Fits) (hr : r.Fits) : (rp.commitPublic a r : Out ε _) = .ok ((comU s t a.val r.val : (ZMod N)ˣ) : ZMod N) := by
  unfold RPParams.commitPublic
  rw [← hs, ← ht, powPublic_unit _ ha, Out.bind_ok, powPublic_unit _ hr, Out.bind_ok, ← Units.val_mul]; rfl

/-! ### Repetitions -/

theorem bitExponent_fits (b : Bool) : (bitExponent b).Fits := by cases b <;> decide

theorem zip_map_zip {α β γ δ : Type} (as : List α) (bs : List β) (f : α → γ) (h : α × β → δ) (hl : bs.length = as.length) :
    ((bs.zip (as.map f)).zip ((as.zip bs).map h)) = (as.zip bs).map fun x => ((x.2, f x.1), h x) := by
  induction as generalizing bs with
  | nil => cases bs <;> simp_all
  | cons a as ih =>
    cases bs with
    | nil => simp at hl
    | cons b bs =>
      simp only [List.map_cons, List.zip_cons_cons]
      rw [ih bs (by simpa using hl)]

end Synedrion
