import Verif.Model.Signed
import Verif.Spec.Ints
import Mathlib.Tactic.Ring
import Mathlib.Tactic.NormNum
import Mathlib.Tactic.Linarith
import Mathlib.Algebra.Order.Ring.Int

namespace Synedrion

variable {ε : Type} {w : Nat}

theorem bitLen_le_iff {n k : Nat} : bitLen n ≤ k ↔ n < 2 ^ k := by
  unfold bitLen
  by_cases h : n = 0
  · simp [h]
  · simp only [h, if_false]
    rw [Nat.succ_le_iff, Nat.log2_lt h]

theorem bitLen_lt_iff {n k : Nat} (hk : 0 < k) : bitLen n < k ↔ n < 2 ^ (k - 1) := by
  rw [← bitLen_le_iff]; omega

/-- Two's complement: the magnitude chosen by the sign bit. -/
theorem toNat_abs (v : BitVec w) : (if v.msb then -v else v).toNat = v.toInt.natAbs := by
  by_cases hw : w = 0
  · subst hw; simp [BitVec.eq_nil v]
  · have hlt := v.isLt
    rw [BitVec.toInt_eq_msb_cond]
    cases hm : v.msb with
    | false => simp
    | true =>
      have := (BitVec.msb_eq_true_iff_two_mul_ge).1 hm
      have hpos : 0 < 2 ^ w := Nat.two_pow_pos w
      simp only [if_true, BitVec.toNat_neg]
      rw [Nat.mod_eq_of_lt (by omega)]
      generalize 2 ^ w = p at *
      omega

theorem toInt_bounds (hw : 0 < w) (v : BitVec w) : -2 ^ (w - 1) ≤ v.toInt ∧ v.toInt < 2 ^ (w - 1) := by
  obtain ⟨n, rfl⟩ : ∃ n, w = n + 1 := ⟨w - 1, by omega⟩
  have h1 := BitVec.le_toInt v
  have h2 := BitVec.toInt_lt (x := v)
  simpa using ⟨h1, h2⟩

theorem pow_pred_mul_two (hw : 0 < w) : (2 : Int) ^ w = 2 * 2 ^ (w - 1) := by
  obtain ⟨n, rfl⟩ : ∃ n, w = n + 1 := ⟨w - 1, by omega⟩
  simp [pow_succ, mul_comm]

theorem pow_le_pow_int {a b : Nat} (h : a ≤ b) : (2 : Int) ^ a ≤ 2 ^ b :=
  pow_le_pow_right₀ (by norm_num) h

theorem pow_pos_int (a : Nat) : (0 : Int) < 2 ^ a := by positivity

/-- `bmod` by `2^w` does nothing on numbers that fit. -/
theorem bmod_eq_self (hw : 0 < w) {x : Int} (h1 : -2 ^ (w - 1) ≤ x) (h2 : x < 2 ^ (w - 1)) :
    Int.bmod x (2 ^ w) = x := by
  have := pow_pred_mul_two hw
  rw [Int.bmod_eq_of_le_mul_two] <;> push_cast <;> omega

theorem natAbs_lt_pow {x : Int} {b : Nat} : x.natAbs < 2 ^ b ↔ -2 ^ b < x ∧ x < 2 ^ b := by
  have : ((2 ^ b : Nat) : Int) = 2 ^ b := by push_cast; rfl
  omega

/-- The bit `and` with the negated power tests for being below the power. -/
theorem and_neg_shift_eq_zero {k : Nat} (_hk : k < w) (x : BitVec w) :
    (x &&& (-(1#w <<< k)) = 0#w) ↔ x.toNat < 2 ^ k := by
  have hneg : -(1#w <<< k) = BitVec.allOnes w <<< k := by
    rw [BitVec.shiftLeft_eq_mul_twoPow, BitVec.shiftLeft_eq_mul_twoPow, ← BitVec.neg_one_eq_allOnes,
      BitVec.neg_mul]
  rw [hneg]
  constructor
  · intro h
    apply Nat.lt_pow_two_of_testBit
    intro i hi
    by_cases hiw : i < w
    · have := congrArg (fun v => BitVec.getLsbD v i) h
      simp only [BitVec.getLsbD_and, BitVec.getLsbD_shiftLeft, BitVec.getLsbD_allOnes,
        BitVec.getLsbD_zero, hiw, Nat.not_lt.2 hi, show i - k < w by omega, decide_true, decide_false,
        Bool.not_false, Bool.and_true] at this
      exact this
    · have hlt : x.toNat < 2 ^ i := lt_of_lt_of_le x.isLt (Nat.pow_le_pow_right (by norm_num) (by omega))
      exact Nat.testBit_lt_two_pow hlt
  · intro h
    apply BitVec.eq_of_getLsbD_eq
    intro i hi
    simp only [BitVec.getLsbD_and, BitVec.getLsbD_shiftLeft, BitVec.getLsbD_allOnes, BitVec.getLsbD_zero]
    by_cases hik : i < k
    · simp [hik]
    · have : x.getLsbD i = false := by
        rw [BitVec.getLsbD]
        exact Nat.testBit_lt_two_pow (lt_of_lt_of_le h (Nat.pow_le_pow_right (by norm_num) (by omega)))
      simp [this]

theorem toNat_one_shift {k : Nat} (hk : k < w) : (1#w <<< k).toNat = 2 ^ k := by
  have h1 : (1 : Nat) % 2 ^ w = 1 := Nat.mod_eq_of_lt (Nat.one_lt_two_pow (by omega))
  rw [BitVec.toNat_shiftLeft, BitVec.toNat_ofNat, h1, Nat.shiftLeft_eq, one_mul]
  exact Nat.mod_eq_of_lt (Nat.pow_lt_pow_right (by norm_num) hk)

end Synedrion
