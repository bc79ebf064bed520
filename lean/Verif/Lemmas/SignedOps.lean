import Verif.Lemmas.Signed
import Verif.Model.SInt
import Verif.Spec.SignedExpr

namespace Synedrion
open Spec

variable {ε : Type} {w : Nat}

theorem Spec.Truthful.pos {b : Nat} {v : BitVec w} (h : Truthful w b v) : 0 < w := lt_of_le_of_lt (Nat.zero_le _) h.1

theorem Spec.Truthful.lt {b : Nat} {v : BitVec w} (h : Truthful w b v) : -2 ^ b < v.toInt ∧ v.toInt < 2 ^ b :=
  natAbs_lt_pow.1 h.2

theorem toInt_eq_of_fits (hw : 0 < w) {v : BitVec w} {x : Int} {b : Nat}
    (hv : v.toInt = Int.bmod x (2 ^ w)) (hb : b < w) (hx : x.natAbs < 2 ^ b) :
    v.toInt = x := by
  rw [hv]
  have h1 := natAbs_lt_pow.1 hx
  have h2 := pow_le_pow_int (show b ≤ w - 1 by omega)
  exact bmod_eq_self hw (by linarith [h1.1]) (by linarith [h1.2])

theorem truthful_of_fits {v : BitVec w} {x : Int} {b : Nat}
    (hv : v.toInt = Int.bmod x (2 ^ w)) (hb : b < w) (hx : x.natAbs < 2 ^ b) :
    v.toInt = x ∧ Truthful w b v := by
  have h := toInt_eq_of_fits (by omega) hv hb hx
  exact ⟨h, hb, by rw [h]; exact hx⟩

theorem natAbs_add_lt {x y : Int} {a b : Nat} (hx : x.natAbs < 2 ^ a) (hy : y.natAbs < 2 ^ b) :
    (x + y).natAbs < 2 ^ (max a b + 1) := by
  have h1 : 2 ^ a ≤ 2 ^ max a b := Nat.pow_le_pow_right (by norm_num) (le_max_left _ _)
  have h2 : 2 ^ b ≤ 2 ^ max a b := Nat.pow_le_pow_right (by norm_num) (le_max_right _ _)
  have := Int.natAbs_add_le x y
  rw [pow_succ]; omega

theorem natAbs_sub_lt {x y : Int} {a b : Nat} (hx : x.natAbs < 2 ^ a) (hy : y.natAbs < 2 ^ b) :
    (x - y).natAbs < 2 ^ (max a b + 1) := by
  have := natAbs_add_lt (x := x) (y := -y) hx (by simpa using hy)
  simpa [sub_eq_add_neg] using this

theorem natAbs_mul_lt {x y : Int} {a b : Nat} (hx : x.natAbs < 2 ^ a) (hy : y.natAbs < 2 ^ b) :
    (x * y).natAbs < 2 ^ (a + b) := by
  rw [Int.natAbs_mul, pow_add]
  exact Nat.mul_lt_mul'' hx hy

theorem add_exact {a b : Nat} {x y : BitVec w} (hx : Truthful w a x) (hy : Truthful w b y)
    (h : max a b + 1 < w) : (x + y).toInt = x.toInt + y.toInt ∧ Truthful w (max a b + 1) (x + y) :=
  truthful_of_fits (BitVec.toInt_add x y) h (natAbs_add_lt hx.2 hy.2)

theorem sub_exact {a b : Nat} {x y : BitVec w} (hx : Truthful w a x) (hy : Truthful w b y)
    (h : max a b + 1 < w) : (x - y).toInt = x.toInt - y.toInt ∧ Truthful w (max a b + 1) (x - y) :=
  truthful_of_fits BitVec.toInt_sub h (natAbs_sub_lt hx.2 hy.2)

theorem mul_exact {a b : Nat} {x y : BitVec w} (hx : Truthful w a x) (hy : Truthful w b y)
    (h : a + b < w) : (x * y).toInt = x.toInt * y.toInt ∧ Truthful w (a + b) (x * y) :=
  truthful_of_fits (BitVec.toInt_mul x y) h (natAbs_mul_lt hx.2 hy.2)

theorem neg_exact {a : Nat} {x : BitVec w} (hx : Truthful w a x) :
    (-x).toInt = -x.toInt ∧ Truthful w a (-x) :=
  truthful_of_fits BitVec.toInt_neg hx.1 (by simpa using hx.2)

theorem zero_truthful (hw : 0 < w) : Truthful w 0 (0#w) := by
  refine ⟨hw, ?_⟩; simp

theorem SecretSigned.absValue_toNat (s : SecretSigned w) : s.absValue.toNat = s.value.toInt.natAbs :=
  toNat_abs s.value

theorem PublicSigned.abs_toNat (s : PublicSigned w) : s.abs.toNat = s.value.toInt.natAbs := by
  have := toNat_abs s.value
  unfold PublicSigned.abs PublicSigned.isNegative PublicSigned.neg
  simpa using this

theorem SecretSigned.newFromUnsigned_eq (v : BitVec w) (b : Nat) :
    SecretSigned.newFromUnsigned v b = if Truthful w b v then some ⟨b, v⟩ else none := by
  unfold SecretSigned.newFromUnsigned Truthful
  simp only [toNat_abs, bitLen_le_iff]

theorem PublicSigned.newFromUnsigned_eq (v : BitVec w) (b : Nat) :
    PublicSigned.newFromUnsigned v b = if Truthful w b v then some ⟨b, v⟩ else none := by
  unfold PublicSigned.newFromUnsigned
  simp only [PublicSigned.abs_toNat]
  have := bitLen_le_iff (n := v.toInt.natAbs) (k := b)
  by_cases h : Truthful w b v
  · rw [if_pos h, if_neg]
    have := this.2 h.2
    have := h.1
    omega
  · rw [if_neg h, if_pos]
    by_contra hc
    exact h ⟨by omega, this.1 (by omega)⟩

/-- A magnitude below `2^b`, `b < w`, read as a non-negative number. -/
theorem toInt_of_small {v : BitVec w} {b : Nat} (hb : b < w) (hv : v.toNat < 2 ^ b) :
    v.toInt = v.toNat := by
  apply BitVec.toInt_eq_toNat_of_lt
  have : 2 ^ b ≤ 2 ^ (w - 1) := Nat.pow_le_pow_right (by norm_num) (by omega)
  have h2 : 2 ^ w = 2 * 2 ^ (w - 1) := by
    conv_lhs => rw [show w = (w - 1) + 1 by omega, pow_succ]
    ring
  omega

theorem signed_of_small {v : BitVec w} {b : Nat} (hb : b < w) (hv : v.toNat < 2 ^ b) (neg : Bool) :
    (if neg then -v else v).toInt = (if neg then -(v.toNat : Int) else v.toNat) ∧
    Truthful w b (if neg then -v else v) := by
  have h1 := toInt_of_small hb hv
  have ht : Truthful w b v := ⟨hb, by rw [h1]; simpa using hv⟩
  cases neg with
  | false => exact ⟨by simpa using h1, by simpa using ht⟩
  | true => exact ⟨by simpa [h1] using (neg_exact ht).1, by simpa using (neg_exact ht).2⟩

theorem msb_iff_neg (v : BitVec w) : v.msb = decide (v.toInt < 0) := by
  rw [BitVec.msb_eq_toInt]

theorem sign_abs (x : Int) : (if decide (x < 0) then -(x.natAbs : Int) else x.natAbs) = x := by
  by_cases h : x < 0
  · simp only [h, decide_true, if_true]; omega
  · simp only [h, decide_false, Bool.false_eq_true, if_false]; omega

theorem SecretSigned.toWide_eq {s : SecretSigned w} (hs : Truthful w s.bound s.value) {W : Nat} (hW : w ≤ W) :
    ∃ r : SecretSigned W, (s.toWide W : Out ε _) = .ok r ∧ r.bound = s.bound ∧ r.value.toInt = s.value.toInt ∧
      Truthful W r.bound r.value := by
  have h0 : s.bound < W := lt_of_lt_of_le hs.1 hW
  have habs := s.absValue_toNat
  have hlt : (s.absValue.setWidth W).toNat < 2 ^ s.bound := by
    rw [BitVec.toNat_setWidth, habs]
    exact lt_of_le_of_lt (Nat.mod_le _ _) hs.2
  have hnat : (s.absValue.setWidth W).toNat = s.value.toInt.natAbs := by
    rw [BitVec.toNat_setWidth, habs]
    apply Nat.mod_eq_of_lt
    exact lt_of_lt_of_le hs.2 (Nat.pow_le_pow_right (by norm_num) (by omega))
  obtain ⟨h2, h3⟩ := signed_of_small h0 hlt s.isNegative
  refine ⟨⟨s.bound, if s.isNegative then -s.absValue.setWidth W else s.absValue.setWidth W⟩, ?_, rfl, ?_, h3⟩
  · unfold SecretSigned.toWide SecretSigned.newFromAbs
    rw [SecretSigned.newFromUnsigned_eq, if_pos h3]; rfl
  · rw [h2, hnat]
    unfold SecretSigned.isNegative
    rw [msb_iff_neg]
    exact sign_abs _

theorem PublicSigned.toWide_eq {s : PublicSigned w} (hs : Truthful w s.bound s.value) {W : Nat} (hW : w ≤ W) :
    ∃ r : PublicSigned W, (s.toWide W : Out ε _) = .ok r ∧ r.bound = s.bound ∧ r.value.toInt = s.value.toInt ∧
      Truthful W r.bound r.value := by
  have h0 : s.bound < W := lt_of_lt_of_le hs.1 hW
  have habs := s.abs_toNat
  have hlt : (s.abs.setWidth W).toNat < 2 ^ s.bound := by
    rw [BitVec.toNat_setWidth, habs]
    exact lt_of_le_of_lt (Nat.mod_le _ _) hs.2
  have hnat : (s.abs.setWidth W).toNat = s.value.toInt.natAbs := by
    rw [BitVec.toNat_setWidth, habs]
    apply Nat.mod_eq_of_lt
    exact lt_of_lt_of_le hs.2 (Nat.pow_le_pow_right (by norm_num) (by omega))
  obtain ⟨h2, h3⟩ := signed_of_small h0 hlt s.isNegative
  refine ⟨⟨s.bound, if s.isNegative then -s.abs.setWidth W else s.abs.setWidth W⟩, ?_, rfl, ?_, h3⟩
  · unfold PublicSigned.toWide PublicSigned.newFromAbs
    rw [if_neg]
    · rfl
    · have := bitLen_le_iff.2 hlt
      omega
  · rw [h2, hnat]
    unfold PublicSigned.isNegative
    rw [msb_iff_neg]
    exact sign_abs _

theorem sign_mul (x y : Int) :
    (if (decide (x < 0) ^^ decide (y < 0)) then -((x.natAbs * y.natAbs : Nat) : Int) else (x.natAbs * y.natAbs : Nat)) = x * y := by
  rcases lt_or_ge x 0 with hx | hx <;> rcases lt_or_ge y 0 with hy | hy
  · have h1 : (x.natAbs : Int) = -x := by omega
    have h2 : (y.natAbs : Int) = -y := by omega
    simp only [hx, hy, decide_true, Bool.xor_self, Bool.false_eq_true, if_false]; push_cast; simp only [Int.natCast_natAbs] at *; rw [h1, h2]; ring
  · have h1 : (x.natAbs : Int) = -x := by omega
    have h2 : (y.natAbs : Int) = y := by omega
    simp only [hx, not_lt.2 hy, decide_true, decide_false, Bool.xor_false, if_true]; push_cast; simp only [Int.natCast_natAbs] at *; rw [h1, h2]; ring
  · have h1 : (x.natAbs : Int) = x := by omega
    have h2 : (y.natAbs : Int) = -y := by omega
    simp only [not_lt.2 hx, hy, decide_true, decide_false, Bool.false_xor, if_true]; push_cast; simp only [Int.natCast_natAbs] at *; rw [h1, h2]; ring
  · have h1 : (x.natAbs : Int) = x := by omega
    have h2 : (y.natAbs : Int) = y := by omega
    simp only [not_lt.2 hx, not_lt.2 hy, decide_false, Bool.xor_self, Bool.false_eq_true, if_false]; push_cast; simp only [Int.natCast_natAbs] at *; rw [h1, h2]

theorem SecretSigned.mulWidePublic_eq {w₁ w₂ : Nat} {s : SecretSigned w₁} {p : PublicSigned w₂}
    (hs : Truthful w₁ s.bound s.value) (hp : Truthful w₂ p.bound p.value) :
    ∃ r : SecretSigned (w₁ + w₂), (s.mulWidePublic p : Out ε _) = .ok r ∧ r.bound = s.bound + p.bound ∧
      r.value.toInt = s.value.toInt * p.value.toInt ∧ Truthful (w₁ + w₂) r.bound r.value := by
  have h0 : s.bound + p.bound < w₁ + w₂ := Nat.add_lt_add hs.1 hp.1
  have ha := s.absValue_toNat
  have hb := p.abs_toNat
  have hnat : (s.absValue.setWidth (w₁ + w₂) * p.abs.setWidth (w₁ + w₂)).toNat =
      s.value.toInt.natAbs * p.value.toInt.natAbs := by
    have l1 : s.value.toInt.natAbs < 2 ^ w₁ := lt_of_lt_of_le hs.2 (Nat.pow_le_pow_right (by norm_num) hs.1.le)
    have l2 : p.value.toInt.natAbs < 2 ^ w₂ := lt_of_lt_of_le hp.2 (Nat.pow_le_pow_right (by norm_num) hp.1.le)
    have e1 : 2 ^ w₁ ≤ 2 ^ (w₁ + w₂) := Nat.pow_le_pow_right (by norm_num) (by omega)
    have e2 : 2 ^ w₂ ≤ 2 ^ (w₁ + w₂) := Nat.pow_le_pow_right (by norm_num) (by omega)
    rw [BitVec.toNat_mul, BitVec.toNat_setWidth, BitVec.toNat_setWidth, ha, hb,
      Nat.mod_eq_of_lt (lt_of_lt_of_le l1 e1), Nat.mod_eq_of_lt (lt_of_lt_of_le l2 e2)]
    apply Nat.mod_eq_of_lt
    rw [pow_add]
    exact Nat.mul_lt_mul'' l1 l2
  have hlt : (s.absValue.setWidth (w₁ + w₂) * p.abs.setWidth (w₁ + w₂)).toNat < 2 ^ (s.bound + p.bound) := by
    rw [hnat, pow_add]
    exact Nat.mul_lt_mul'' hs.2 hp.2
  obtain ⟨h2, h3⟩ := signed_of_small h0 hlt (s.isNegative ^^ p.isNegative)
  refine ⟨⟨s.bound + p.bound, if s.isNegative ^^ p.isNegative then -(s.absValue.setWidth (w₁ + w₂) * p.abs.setWidth (w₁ + w₂))
      else s.absValue.setWidth (w₁ + w₂) * p.abs.setWidth (w₁ + w₂)⟩, ?_, rfl, ?_, h3⟩
  · unfold SecretSigned.mulWidePublic SecretSigned.newFromAbs
    simp only
    rw [SecretSigned.newFromUnsigned_eq, if_pos h3]; rfl
  · rw [h2, hnat]
    unfold SecretSigned.isNegative PublicSigned.isNegative
    rw [msb_iff_neg, msb_iff_neg]
    exact sign_mul _ _

theorem SecretSigned.abs_eq {s : SecretSigned w} (hs : Truthful w s.bound s.value) :
    (s.abs : Out ε _) = .ok ⟨s.bound, s.absValue⟩ := by
  unfold SecretSigned.abs SecretUnsigned.new
  rw [if_pos]
  · rfl
  · refine ⟨hs.1.le, ?_⟩
    rw [bitLen_le_iff, s.absValue_toNat]
    exact hs.2

theorem draw_sub_shift (exp : Nat) (h1 : 1 ≤ exp) (h2 : exp < w) (draw : BitVec w) (hd : draw.toNat < 2 ^ exp) :
    (draw - ((1#w <<< (exp - 1)) - 1#w)).toInt = (draw.toNat : Int) - 2 ^ (exp - 1) + 1 ∧
      Truthful w exp (draw - ((1#w <<< (exp - 1)) - 1#w)) := by
  have e0 : (2 : Nat) ^ exp = 2 * 2 ^ (exp - 1) := by
    obtain ⟨n, rfl⟩ : ∃ n, exp = n + 1 := ⟨exp - 1, by omega⟩
    simp [pow_succ, mul_comm]
  have hpos : 0 < 2 ^ (exp - 1) := Nat.two_pow_pos _
  have hone : (1#w).toNat = 1 := by
    rw [BitVec.toNat_ofNat]; exact Nat.mod_eq_of_lt (Nat.one_lt_two_pow (by omega))
  have hsh : ((1#w <<< (exp - 1)) - 1#w).toNat = 2 ^ (exp - 1) - 1 := by
    rw [BitVec.toNat_sub_of_le, toNat_one_shift (by omega), hone]
    rw [BitVec.le_def, hone, toNat_one_shift (by omega)]; omega
  have hsi : ((1#w <<< (exp - 1)) - 1#w).toInt = 2 ^ (exp - 1) - 1 := by
    rw [toInt_of_small h2 (by rw [hsh]; omega), hsh]
    push_cast [hpos]; rfl
  have hdi := toInt_of_small h2 hd
  have e0i : (2 : Int) ^ exp = 2 * 2 ^ (exp - 1) := by exact_mod_cast e0
  have hfit : (draw.toInt - ((1#w <<< (exp - 1)) - 1#w).toInt).natAbs < 2 ^ exp := by
    rw [natAbs_lt_pow, hsi, hdi]
    have h3 : (0 : Int) ≤ draw.toNat := by omega
    have h4 : (draw.toNat : Int) < 2 ^ exp := by exact_mod_cast hd
    have h5 : (0 : Int) < 2 ^ (exp - 1) := by positivity
    constructor <;> linarith
  obtain ⟨h6, h7⟩ := truthful_of_fits BitVec.toInt_sub h2 hfit
  refine ⟨?_, h7⟩
  rw [h6, hsi, hdi]; ring

end Synedrion
