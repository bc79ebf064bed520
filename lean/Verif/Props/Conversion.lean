import Verif.Model.Conversion
import Verif.Lemmas.SignedOps

/-!
# Property C07: conversions between scalars and integers
-/

namespace Synedrion.Props
open Spec Conv

variable {ε : Type} {q w W : Nat}

private theorem order_toNat (h : q < 2 ^ w) : (curveOrder w q).toNat = q := by
  unfold curveOrder; rw [BitVec.toNat_ofNat]; exact Nat.mod_eq_of_lt h

private theorem wide_cast (h : q < 2 ^ W) (v : BitVec W) : scalarFromWideUint q v = (v.toNat : ZMod q) := by
  unfold scalarFromWideUint
  rw [order_toNat h, ZMod.natCast_mod]

private theorem sign_cast (x : Int) :
    (if decide (x < 0) then -((x.natAbs : Nat) : ZMod q) else ((x.natAbs : Nat) : ZMod q)) = (x : ZMod q) := by
  rw [show ((x.natAbs : Nat) : ZMod q) = (((x.natAbs : Nat) : Int) : ZMod q) by push_cast; simp]
  by_cases hx : x < 0
  · simp only [hx, decide_true, if_true]
    rw [← Int.cast_neg]; congr 1; omega
  · simp only [hx, decide_false, Bool.false_eq_true, if_false]
    congr 1; omega

/-- **C07 (integer to scalar).** Every conversion from a signed integer returns its residue modulo the curve order; the residue map is
the ring homomorphism `ℤ → ZMod q`, so sums, products and negations of integers become those of scalars. -/
theorem C07_integer_to_scalar_is_residue (hq : q < 2 ^ W) (hw : w ≤ W) (p : PublicSigned w) (s : SecretSigned w)
    (pw : PublicSigned W) (sw : SecretSigned W) :
    scalarFromSigned q W p = (p.value.toInt : ZMod q) ∧
    secretScalarFromSigned q W s = (s.value.toInt : ZMod q) ∧
    scalarFromWideSigned q pw = (pw.value.toInt : ZMod q) ∧
    secretScalarFromWideSigned q sw = (sw.value.toInt : ZMod q) := by
  have hset : ∀ v : BitVec w, (v.setWidth W).toNat = v.toNat := by
    intro v
    rw [BitVec.toNat_setWidth]
    exact Nat.mod_eq_of_lt (lt_of_lt_of_le v.isLt (Nat.pow_le_pow_right (by norm_num) hw))
  refine ⟨?_, ?_, ?_, ?_⟩
  · unfold scalarFromSigned PublicSigned.isNegative
    simp only [wide_cast hq, hset, PublicSigned.abs_toNat, msb_iff_neg, sign_cast]
  · unfold secretScalarFromSigned SecretSigned.isNegative
    simp only [wide_cast hq, hset, SecretSigned.absValue_toNat, msb_iff_neg, sign_cast]
  · unfold scalarFromWideSigned PublicSigned.isNegative
    simp only [wide_cast hq, PublicSigned.abs_toNat, msb_iff_neg, sign_cast]
  · unfold secretScalarFromWideSigned SecretSigned.isNegative
    simp only [wide_cast hq, SecretSigned.absValue_toNat, msb_iff_neg, sign_cast]

/-- **C07 (public scalar to integer).** Never panics when the integer type is wider than the order; returns the representative in
`[0, q)`. -/
theorem C07_public_from_scalar [NeZero q] (hq : bitLen q < w) (x : ZMod q) :
    ∃ s : PublicSigned w, (publicSignedFromScalar w x : Out ε _) = .ok s ∧ s.value.toInt = x.val ∧
      s.bound = bitLen q ∧ Truthful w s.bound s.value := by
  have hqb : q < 2 ^ bitLen q := bitLen_le_iff.1 le_rfl
  have hqw : q < 2 ^ w := lt_trans hqb (Nat.pow_lt_pow_right (by norm_num) hq)
  have hx := ZMod.val_lt x
  have hn : (uintFromScalar w x).toNat = x.val := by
    unfold uintFromScalar; rw [BitVec.toNat_ofNat]; exact Nat.mod_eq_of_lt (by omega)
  have hlt : (uintFromScalar w x).toNat < 2 ^ bitLen q := by omega
  have := signed_of_small hq hlt false
  refine ⟨⟨bitLen q, uintFromScalar w x⟩, ?_, ?_, rfl, by simpa using this.2⟩
  · unfold publicSignedFromScalar PublicSigned.newPositive PublicSigned.newFromAbs
    simp only [order_toNat hqw]
    have := bitLen_le_iff.2 hlt
    rw [if_neg (by omega)]; rfl
  · simpa [hn] using this.1

/-- **C07 (secret scalar to integer).** Never panics; returns the unique representative with `2|v| < q`, in the interval `±2^NUM_BITS`
that the provers assert. -/
theorem C07_secret_from_scalar (hodd : q % 2 = 1) (hq1 : 1 < q) (hq : bitLen q < w) (x : ZMod q) :
    ∃ s : SecretSigned w, (secretSignedFromScalar w (bitLen q) x : Out ε _) = .ok s ∧
      (s.value.toInt : ZMod q) = x ∧ 2 * s.value.toInt.natAbs < q ∧
      (∀ v : Int, (v : ZMod q) = x → 2 * v.natAbs < q → v = s.value.toInt) ∧
      s.bound = bitLen q - 1 ∧ Truthful w s.bound s.value ∧
      (s.assertExponentRange (bitLen q) : Out ε _) = .ok () := by
  have : NeZero q := ⟨by omega⟩
  have hqb : q < 2 ^ bitLen q := bitLen_le_iff.1 le_rfl
  have hbpos : 0 < bitLen q := by
    rcases Nat.eq_zero_or_pos (bitLen q) with h | h
    · rw [h] at hqb; omega
    · exact h
  have hqw : q < 2 ^ w := lt_trans hqb (Nat.pow_lt_pow_right (by norm_num) hq)
  have hx := ZMod.val_lt x
  have hn : (uintFromScalar w x).toNat = x.val := by
    unfold uintFromScalar; rw [BitVec.toNat_ofNat]; exact Nat.mod_eq_of_lt (by omega)
  have ho := order_toNat hqw
  have hhalf : (curveOrder w q >>> 1).toNat = q / 2 := by
    rw [BitVec.toNat_ushiftRight, ho, Nat.shiftRight_eq_div_pow]
  have hpow : 2 ^ bitLen q = 2 * 2 ^ (bitLen q - 1) := by
    conv_lhs => rw [show bitLen q = (bitLen q - 1) + 1 by omega, pow_succ]
    ring
  -- the value selected by the code and its integer meaning
  set val : BitVec w := if decide ((uintFromScalar w x).toNat > (curveOrder w q >>> 1).toNat)
    then -(curveOrder w q - uintFromScalar w x) else uintFromScalar w x with hval
  set v : Int := if q / 2 < x.val then (x.val : Int) - q else x.val with hv
  have habs : 2 * v.natAbs < q := by
    rw [hv]; split <;> omega
  have hvint : val.toInt = v ∧ Truthful w (bitLen q - 1) val := by
    by_cases hc : q / 2 < x.val
    · have hsub : (curveOrder w q - uintFromScalar w x).toNat = q - x.val := by
        rw [BitVec.toNat_sub_of_le, ho, hn]
        rw [BitVec.le_def, ho, hn]; omega
      have hlt : (curveOrder w q - uintFromScalar w x).toNat < 2 ^ (bitLen q - 1) := by omega
      have h := signed_of_small (show bitLen q - 1 < w by omega) hlt true
      have e : val = -(curveOrder w q - uintFromScalar w x) := by
        rw [hval, hn, hhalf]; simp [hc]
      rw [hsub] at h
      rw [e, hv, if_pos hc]
      refine ⟨?_, by simpa using h.2⟩
      have := h.1
      simp only [if_true] at this
      rw [this]; omega
    · have hlt : (uintFromScalar w x).toNat < 2 ^ (bitLen q - 1) := by omega
      have h := signed_of_small (show bitLen q - 1 < w by omega) hlt false
      have e : val = uintFromScalar w x := by
        rw [hval, hn, hhalf]; simp [hc]
      rw [hn] at h
      rw [e, hv, if_neg hc]
      exact ⟨by simpa using h.1, by simpa using h.2⟩
  have hcast : (v : ZMod q) = x := by
    rw [hv]
    split
    · push_cast; simp
    · push_cast; simp
  refine ⟨⟨bitLen q - 1, val⟩, ?_, ?_, ?_, ?_, rfl, hvint.2, ?_⟩
  · unfold secretSignedFromScalar SecretSigned.newModulo
    simp only
    rw [if_neg (by omega), if_neg (by omega), SecretSigned.newFromUnsigned_eq]
    rw [Out.bind_ok, if_pos hvint.2]
    rfl
  · simpa [hvint.1] using hcast
  · simpa [hvint.1] using habs
  · intro u hu hub
    simp only [hvint.1]
    have hd : ((u - v : Int) : ZMod q) = 0 := by push_cast; rw [hu, hcast]; ring
    have hdvd := (ZMod.intCast_zmod_eq_zero_iff_dvd (u - v) q).1 hd
    have hz : u - v = 0 := by
      apply Int.eq_zero_of_abs_lt_dvd hdvd
      rw [abs_lt]; constructor <;> omega
    omega
  · unfold SecretSigned.assertExponentRange SecretSigned.isInExponentRange
    have hs : Truthful w (⟨bitLen q - 1, val⟩ : SecretSigned w).bound (⟨bitLen q - 1, val⟩ : SecretSigned w).value := hvint.2
    rw [SecretSigned.abs_eq hs]
    simp only [Out.bind_ok]
    rw [if_neg (by omega)]
    have hz : (⟨bitLen q - 1, val⟩ : SecretSigned w).absValue &&& -(1#w <<< (bitLen q - 1)) = 0#w := by
      rw [and_neg_shift_eq_zero (by omega), SecretSigned.absValue_toNat]
      exact hvint.2.2
    simp [hz]

/-- **C07 (round trip).** Scalar → integer → scalar is the identity, through the secret and the public path, at both widths. -/
theorem C07_round_trip (hodd : q % 2 = 1) (hq1 : 1 < q) (hq : bitLen q < w) (hw : w ≤ W) (x : ZMod q) :
    (∃ s : SecretSigned w, (secretSignedFromScalar w (bitLen q) x : Out ε _) = .ok s ∧
      secretScalarFromSigned q W s = x) ∧
    (∃ s : PublicSigned w, (publicSignedFromScalar w x : Out ε _) = .ok s ∧ scalarFromSigned q W s = x) := by
  have : NeZero q := ⟨by omega⟩
  have hqb : q < 2 ^ bitLen q := bitLen_le_iff.1 le_rfl
  have hqW : q < 2 ^ W := lt_trans hqb (Nat.pow_lt_pow_right (by norm_num) (by omega))
  have hc := fun p s pw sw => C07_integer_to_scalar_is_residue (q := q) (w := w) hqW hw p s pw sw
  constructor
  · obtain ⟨s, h1, h2, _⟩ := C07_secret_from_scalar (ε := ε) hodd hq1 hq x
    exact ⟨s, h1, by rw [(hc PublicSigned.zero s PublicSigned.zero SecretSigned.zero).2.1, h2]⟩
  · obtain ⟨s, h1, h2, _⟩ := C07_public_from_scalar (ε := ε) hq x
    refine ⟨s, h1, ?_⟩
    rw [(hc s SecretSigned.zero PublicSigned.zero SecretSigned.zero).1, h2]
    simp

/-- Concrete case: `q = 11`, `w = 8`: the scalar 8 is the integer -3, the boundary 5 stays 5 and 6 becomes -5. -/
example : (secretSignedFromScalar 8 (bitLen 11) (8 : ZMod 11) : Out Unit _) = .ok ⟨3, -3#8⟩ ∧
    (secretSignedFromScalar 8 (bitLen 11) (5 : ZMod 11) : Out Unit _) = .ok ⟨3, 5#8⟩ ∧
    (secretSignedFromScalar 8 (bitLen 11) (6 : ZMod 11) : Out Unit _) = .ok ⟨3, -5#8⟩ ∧
    (publicSignedFromScalar 8 (8 : ZMod 11) : Out Unit _) = .ok ⟨4, 8#8⟩ ∧
    secretScalarFromSigned 11 16 (⟨3, -3#8⟩ : SecretSigned 8) = 8 ∧ bitLen 11 < 8 := by decide

end Synedrion.Props
