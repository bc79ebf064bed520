import Verif.Lemmas.Timing
import Verif.Lemmas.Paillier

/-!
# The operations with their steps written down have the same results
-/

namespace Synedrion.Timing

open Timed Spec

variable {ε α β : Type} {w W : Nat}

@[simp] theorem prim_out (name : String) (sizes : List Nat) (a : α) : (Timed.prim name sizes a : Timed ε α).out = .ok a := rfl
@[simp] theorem vartime_out (name : String) (operands : List Nat) (a : α) : (Timed.vartime name operands a : Timed ε α).out = .ok a := rfl
@[simp] theorem branch_out (b : Bool) : (Timed.branch b : Timed ε Bool).out = .ok b := rfl
@[simp] theorem expect_out (o : Option α) : (Timed.expect o : Timed ε α).out = Out.ofOptionPanic o := rfl
@[simp] theorem assert_out (b : Bool) : (Timed.assert b : Timed ε Unit).out = Out.assert b := rfl
@[simp] theorem pure_out (a : α) : (pure a : Timed ε α).out = .ok a := rfl

theorem isNegative_out (s : SecretSigned w) : (isNegative s : Timed ε Bool).out = .ok s.isNegative := rfl

theorem absValue_out (s : SecretSigned w) : (absValue s : Timed ε _).out = .ok s.absValue := rfl

theorem unsignedNew_out (v : BitVec w) (b : Nat) : (unsignedNew v b : Timed ε _).out = .ok (SecretUnsigned.new v b) := by
  unfold unsignedNew SecretUnsigned.new
  simp only [bind_out, prim_out, Out.bind_ok, pure_out, Bool.and_eq_true, decide_eq_true_eq]

theorem abs_out (s : SecretSigned w) : (abs s : Timed ε _).out = s.abs := by
  unfold abs SecretSigned.abs
  simp only [bind_out, absValue_out, Out.bind_ok, unsignedNew_out, expect_out]

theorem newPositive_out (v : BitVec w) (b : Nat) : (newPositive v b : Timed ε _).out = .ok (SecretSigned.newPositive v b) := by
  unfold newPositive SecretSigned.newPositive
  simp only [bind_out, prim_out, Out.bind_ok, pure_out, isNegative_out, Bool.and_eq_true, decide_eq_true_eq, Bool.not_eq_true']

theorem newFromUnsigned_out (v : BitVec w) (b : Nat) : (newFromUnsigned v b : Timed ε _).out = .ok (SecretSigned.newFromUnsigned v b) := by
  unfold newFromUnsigned SecretSigned.newFromUnsigned
  simp only [bind_out, prim_out, Out.bind_ok, pure_out, absValue_out, Bool.and_eq_true, decide_eq_true_eq]
  rfl

theorem newFromAbs_out (v : BitVec w) (b : Nat) (c : Bool) : (newFromAbs v b c : Timed ε _).out = .ok (SecretSigned.newFromAbs v b c) := by
  unfold newFromAbs SecretSigned.newFromAbs select
  simp only [bind_out, prim_out, Out.bind_ok, newFromUnsigned_out]

theorem newModulo_out (v m : BitVec w) (b : Nat) : (newModulo v m b : Timed ε _).out = SecretSigned.newModulo v m b := by
  unfold newModulo SecretSigned.newModulo select
  simp only [bind_out, prim_out, vartime_out, Out.bind_ok, newFromUnsigned_out, assert_out, Out.assert, decide_eq_true_eq]
  by_cases h1 : m.toNat < v.toNat
  · rw [if_neg (Nat.not_le.2 h1), if_pos h1]; rfl
  · rw [if_pos (Nat.not_lt.1 h1), if_neg h1]
    by_cases h2 : b = 0
    · rw [if_neg (by simpa using h2), if_pos h2]; rfl
    · rw [if_pos (by simpa using h2), if_neg h2]; rfl

theorem isInExponentRange_out (s : SecretSigned w) (exp : Nat) : (isInExponentRange s exp : Timed ε _).out = s.isInExponentRange exp := by
  unfold isInExponentRange SecretSigned.isInExponentRange
  simp only [bind_out, prim_out, Out.bind_ok, abs_out, assert_out, Out.assert, decide_eq_true_eq, isNegative_out, pure_out]
  refine congrArg (Out.bind s.abs) (funext fun a => ?_)
  by_cases h : exp = 0
  · rw [if_neg (by simpa using h), if_pos h]; rfl
  · rw [if_pos (by simpa using h), if_neg h]; rfl

theorem assertExponentRange_out (s : SecretSigned w) (exp : Nat) : (assertExponentRange s exp : Timed ε _).out = s.assertExponentRange exp := by
  unfold assertExponentRange SecretSigned.assertExponentRange
  simp only [bind_out, isInExponentRange_out, assert_out]

theorem ensureExponentRange_out (s : SecretSigned w) (exp : Nat) : (ensureExponentRange s exp : Timed ε _).out = s.ensureExponentRange exp := by
  unfold ensureExponentRange SecretSigned.ensureExponentRange
  simp only [bind_out, prim_out, Out.bind_ok, isInExponentRange_out, pure_out]

theorem toWide_out (s : SecretSigned w) : (toWide W s : Timed ε _).out = s.toWide W := by
  unfold toWide SecretSigned.toWide
  simp only [bind_out, prim_out, Out.bind_ok, absValue_out, isNegative_out, newFromAbs_out, expect_out]

theorem publicAbs_out (s : PublicSigned w) : (publicAbs s : Timed ε _).out = .ok s.abs := by
  unfold publicAbs PublicSigned.abs
  simp only [bind_out, branch_out, Out.bind_ok]
  cases s.isNegative <;> rfl

theorem mulWidePublic_out {w₁ w₂ : Nat} (s : SecretSigned w₁) (r : PublicSigned w₂) : (mulWidePublic s r : Timed ε _).out = s.mulWidePublic r := by
  unfold mulWidePublic SecretSigned.mulWidePublic
  simp only [bind_out, prim_out, Out.bind_ok, absValue_out, isNegative_out, publicAbs_out, newFromAbs_out, expect_out]

theorem checked_out (bounds : List Nat) (b : Nat) (op : String) (v : BitVec w) :
    (checked bounds b op v : Timed ε _).out = Out.ofOptionPanic (if b < w then some ⟨b, v⟩ else none) := by
  unfold checked
  simp only [bind_out, prim_out, vartime_out, Out.bind_ok, expect_out, decide_eq_true_eq]

theorem neg_out (a : SecretSigned w) : (neg a : Timed ε _).out = .ok a.neg := rfl
theorem add_out (a b : SecretSigned w) : (add a b : Timed ε _).out = a.add b := checked_out _ _ _ _
theorem sub_out (a b : SecretSigned w) : (sub a b : Timed ε _).out = a.sub b := checked_out _ _ _ _
theorem mul_out (a b : SecretSigned w) : (mul a b : Timed ε _).out = a.mul b := checked_out _ _ _ _
theorem addPublic_out (a : SecretSigned w) (b : PublicSigned w) : (addPublic a b : Timed ε _).out = a.addPublic b := checked_out _ _ _ _
theorem mulPublic_out (a : SecretSigned w) (b : PublicSigned w) : (mulPublic a b : Timed ε _).out = a.mulPublic b := checked_out _ _ _ _

/-! ## Exponentiation and encryption -/

theorem abs_eq_ok {e : SecretSigned w} (he : Truthful w e.bound e.value) : (e.abs : Out ε _) = .ok ⟨e.bound, e.absValue⟩ := by
  unfold SecretSigned.abs SecretUnsigned.new
  rw [if_pos ⟨he.1.le, by rw [bitLen_le_iff, SecretSigned.absValue_toNat]; exact he.2⟩]
  rfl

theorem isNegative_eq (s : SecretSigned w) : s.isNegative = decide (s.value.toInt < 0) := by
  unfold SecretSigned.isNegative
  rw [BitVec.msb_eq_toInt]

theorem powSecret_out {m n : Nat} (a : ZMod n) {e : SecretSigned w} (he : Truthful w e.bound e.value) :
    (powSecret m a e : Timed ε _).out = Synedrion.powSecret a e.toSInt := by
  unfold powSecret Synedrion.powSecret select
  simp only [bind_out, abs_out, abs_eq_ok he, prim_out, Out.bind_ok, expect_out, isNegative_out, SecretSigned.toSInt, SecretSigned.absValue_toNat,
    isNegative_eq, decide_eq_true_eq]
  exact (if_pos he.2).symm

theorem powUnsigned_out {m n : Nat} (a : ZMod n) (e : SecretUnsigned w) :
    (powUnsigned m a e : Timed ε _).out = .ok (Synedrion.powUnsigned a e.value.toNat e.bound) := rfl

theorem powPublic_out {m n : Nat} (a : ZMod n) (e : PublicSigned w) :
    (powPublic m a e : Timed ε _).out = Synedrion.powPublic a e.toSInt := by
  have hneg : e.isNegative = decide (e.value.toInt < 0) := BitVec.msb_eq_toInt
  unfold powPublic Synedrion.powPublic
  simp only [bind_out, publicAbs_out, prim_out, Out.bind_ok, branch_out, PublicSigned.toSInt, PublicSigned.abs_toNat, hneg]
  by_cases h : e.value.toInt < 0
  · simp only [h, decide_true, if_true, bind_out, prim_out, Out.bind_ok, expect_out]
  · simp only [h, decide_false, if_false, Bool.false_eq_true, pure_out]

theorem commitSecret_out {m N : Nat} (rp : RPParams N) {w₁ w₂ : Nat} {v : SecretSigned w₁} {r : SecretSigned w₂}
    (hv : Truthful w₁ v.bound v.value) (hr : Truthful w₂ r.bound r.value) :
    (commitSecret m rp v r : Timed ε _).out = rp.commitSecret v.toSInt r.toSInt := by
  unfold commitSecret RPParams.commitSecret
  simp only [bind_out, powSecret_out _ hv, powSecret_out _ hr, prim_out]

theorem encInner_out {N : Nat} (a : SecretUnsigned W) (r : Nat) (c : Bool) :
    (encInner w N a r c : Timed ε _).out = .ok (Synedrion.encInner N a.value.toNat r c) := rfl

theorem enc_out {N : Nat} (hW : w ≤ W) {a : SecretSigned w} (ha : Truthful w a.bound a.value) (r : Nat) :
    (enc W N a r : Timed ε _).out = Synedrion.enc N a.toSInt r := by
  have hlt : a.value.toInt.natAbs < 2 ^ W := by
    rw [← SecretSigned.absValue_toNat]; exact lt_of_lt_of_le a.absValue.isLt (Nat.pow_le_pow_right (by norm_num) hW)
  unfold enc Synedrion.enc
  simp only [bind_out, abs_out, abs_eq_ok ha, prim_out, Out.bind_ok, isNegative_out, encInner_out, SecretUnsigned.toWide, BitVec.toNat_setWidth,
    Nat.mod_eq_of_lt hlt, SecretSigned.toSInt, SecretSigned.absValue_toNat, isNegative_eq]
  exact (if_pos ha.2).symm

theorem encWide_out {N : Nat} {a : SecretSigned W} (ha : Truthful W a.bound a.value) (r : Nat) :
    (encWide w N a r : Timed ε _).out = Synedrion.enc N a.toSInt r := by
  unfold encWide Synedrion.enc
  simp only [bind_out, abs_out, abs_eq_ok ha, Out.bind_ok, isNegative_out, encInner_out, SecretSigned.toSInt, SecretSigned.absValue_toNat,
    isNegative_eq]
  exact (if_pos ha.2).symm

theorem tryFromWide_out (x : Nat) : (tryFromWide w x : Timed ε _).out = .ok (if x < 2 ^ w then some x else none) := by
  unfold tryFromWide
  simp only [bind_out, vartime_out, Out.bind_ok, branch_out, pure_out, decide_eq_true_eq]
  by_cases h : x < 2 ^ w
  · rw [if_pos h, if_neg (by rw [Nat.not_lt]; exact bitLen_le_iff.2 h)]
  · rw [if_neg h, if_pos (by rw [gt_iff_lt, ← Nat.not_le]; exact fun h' => h (bitLen_le_iff.1 h'))]

/-- The bit-level `new_modulo` computes what the integer-level one does. -/
theorem newModulo_refines {v m b : Nat} (hv : v < 2 ^ w) (hm : m < 2 ^ w) :
    ((SecretSigned.newModulo (BitVec.ofNat w v) (BitVec.ofNat w m) b : Out ε _).bind Out.ofOptionPanic).bind (fun s => .ok s.toSInt)
      = SInt.newModulo w v m b := by
  unfold SecretSigned.newModulo SInt.newModulo
  simp only [BitVec.toNat_ushiftRight, BitVec.toNat_ofNat, Nat.mod_eq_of_lt hv, Nat.mod_eq_of_lt hm, SecretSigned.newFromUnsigned_eq, Nat.shiftRight_succ,
    Nat.shiftRight_zero, decide_eq_true_eq]
  by_cases h1 : m < v
  · simp only [h1, if_true, Out.bind_panic]
  · by_cases h2 : b = 0
    · simp only [h1, h2, if_true, if_false, Out.bind_panic]
    · simp only [h1, h2, if_false, Out.bind_ok]
      have hpos : 0 < 2 ^ w := Nat.two_pow_pos w
      have key : (if v > m / 2 then -(BitVec.ofNat w m - BitVec.ofNat w v) else BitVec.ofNat w v).toInt
          = if v > m / 2 then (v : Int) - m else v := by
        by_cases hw : w = 0
        · subst hw
          have : v = 0 := by simpa using hv
          have : m = 0 := by simpa using hm
          subst_vars
          rfl
        · have hhalf := pow_pred_mul_two (w := w) (by omega)
          have hm' : (m : Int) < 2 ^ w := by exact_mod_cast hm
          by_cases h3 : v > m / 2
          · rw [if_pos h3, if_pos h3]
            have : -(BitVec.ofNat w m - BitVec.ofNat w v) = BitVec.ofInt w ((v : Int) - m) := by
              rw [Int.sub_eq_add_neg, BitVec.ofInt_add, BitVec.ofInt_neg, BitVec.ofInt_natCast, BitVec.ofInt_natCast, BitVec.neg_sub, BitVec.add_comm]
            rw [this, BitVec.toInt_ofInt]
            have h := bmod_eq_self (w := w) (x := (v : Int) - m) (by omega) (by omega) (by omega)
            exact_mod_cast h
          · have h := bmod_eq_self (w := w) (x := (v : Int)) (by omega) (by omega) (by omega)
            rw [if_neg h3, if_neg h3, BitVec.toInt_eq_toNat_bmod, BitVec.toNat_ofNat, Nat.mod_eq_of_lt hv]
            exact_mod_cast h
      unfold Truthful
      simp only [key]
      by_cases h4 : b - 1 < w ∧ (if v > m / 2 then (v : Int) - m else v).natAbs < 2 ^ (b - 1)
      · rw [if_pos h4, if_pos h4]
        simp only [Out.ofOptionPanic, Out.bind_ok, SecretSigned.toSInt, key]
      · rw [if_neg h4, if_neg h4]
        rfl

theorem decrypt_out {p q modulusBits : Nat} {sk : SecretKey p q} (ht : sk.totient < 2 ^ w) (hN : p * q < 2 ^ w) (hN0 : 0 < p * q) (hW : w ≤ W)
    (hb : modulusBits ≤ w) (c : Ct (p * q)) :
    (decrypt w W modulusBits sk c : Timed ε _).out = Synedrion.decrypt w modulusBits sk c := by
  have : NeZero (p * q) := ⟨hN0.ne'⟩
  have htW : sk.totient < 2 ^ W := lt_of_lt_of_le ht (Nat.pow_le_pow_right (by norm_num) hW)
  unfold decrypt Synedrion.decrypt
  simp only [bind_out, unsignedNew_out, Out.bind_ok, expect_out, prim_out, powUnsigned_out, tryFromWide_out, newModulo_out, pure_out,
    SecretUnsigned.new, BitVec.toNat_ofNat, Nat.mod_eq_of_lt ht, bitLen_le_iff]
  by_cases h1 : sk.totient < 2 ^ modulusBits
  · simp only [h1, hb, and_self, if_true, Out.ofOptionPanic, Out.bind_ok, SecretUnsigned.toWide, BitVec.toNat_setWidth, BitVec.toNat_ofNat,
      Nat.mod_eq_of_lt ht, Nat.mod_eq_of_lt htW, Out.assert, decide_eq_true_eq]
    generalize hx : (Synedrion.powUnsigned c sk.totient modulusBits - 1).val / (p * q) = x
    by_cases h2 : x < 2 ^ w
    · simp only [h2, if_true, Out.bind_ok]
      rw [← newModulo_refines (lt_trans (ZMod.val_lt _) hN) hN]
      generalize (SecretSigned.newModulo _ _ _ : Out ε _) = o
      cases o with
      | ok o => cases o <;> rfl
      | err _ => rfl
      | panic => rfl
    · simp only [h2, if_false, Out.bind_panic]
  · simp only [h1, and_false, if_false, Out.ofOptionPanic, Out.bind_panic]

theorem deriveRandomizer_out {p q modulusBits : Nat} {sk : SecretKey p q} (hs : sk.invModulus < 2 ^ w) (hN : p * q < 2 ^ w) (hN0 : 0 < p * q)
    (c : Ct (p * q)) :
    (deriveRandomizer w W modulusBits sk c : Timed ε _).out = .ok (Synedrion.deriveRandomizer modulusBits sk c) := by
  unfold deriveRandomizer Synedrion.deriveRandomizer
  have hx : c.val % (p * q) < 2 ^ w := lt_trans (Nat.mod_lt _ hN0) hN
  simp only [bind_out, prim_out, Out.bind_ok, tryFromWide_out, hx, if_true, expect_out, Out.ofOptionPanic, powUnsigned_out, BitVec.toNat_ofNat,
    Nat.mod_eq_of_lt hs]

theorem secretScalarFromWideUint_out {q : Nat} (v : BitVec W) : (secretScalarFromWideUint q v : Timed ε _).out = .ok (Conv.scalarFromWideUint q v) := rfl

theorem secretScalarFromSigned_out {q : Nat} (s : SecretSigned w) :
    (secretScalarFromSigned q W s : Timed ε _).out = .ok (Conv.secretScalarFromSigned q W s) := rfl

theorem secretSignedFromScalar_out {q numBits : Nat} (x : ZMod q) :
    (secretSignedFromScalar w numBits x : Timed ε _).out = Conv.secretSignedFromScalar w numBits x := by
  unfold secretSignedFromScalar Conv.secretSignedFromScalar
  simp only [bind_out, prim_out, Out.bind_ok, newModulo_out]
  rfl

theorem sqrtPart_out {h primeBits p : Nat} (x : ZMod p) : (sqrtPart h primeBits x : Timed ε _).out = .ok (Synedrion.sqrtPart primeBits x) := by
  unfold sqrtPart Synedrion.sqrtPart
  simp only [bind_out, prim_out, vartime_out, branch_out, Out.bind_ok, pure_out, decide_eq_true_eq]

theorem rnsSqrt_out {h primeBits p q : Nat} (x : ZMod p × ZMod q) : (rnsSqrt h primeBits x : Timed ε _).out = .ok (Synedrion.rnsSqrt primeBits x) := by
  unfold rnsSqrt Synedrion.rnsSqrt
  simp only [bind_out, branch_out, Out.bind_ok, pure_out, sqrtPart_out]
  cases Synedrion.sqrtPart primeBits x.1 <;> cases Synedrion.sqrtPart primeBits x.2 <;> rfl

theorem rnsSplit_out {h p q : Nat} (hp0 : 0 < p) (hq0 : 0 < q) (hp : p < 2 ^ h) (hq : q < 2 ^ h) (x : Nat) :
    (rnsSplit w h p q x : Timed ε _).out = .ok (Synedrion.rnsSplit p q x) := by
  unfold rnsSplit Synedrion.rnsSplit
  have h1 : x % p < 2 ^ h := lt_trans (Nat.mod_lt _ hp0) hp
  have h2 : x % q < 2 ^ h := lt_trans (Nat.mod_lt _ hq0) hq
  simp only [bind_out, prim_out, Out.bind_ok, pure_out, tryFromWide_out, h1, h2, if_true, expect_out, Out.ofOptionPanic]

/-! ## What the steps of a decryption tell -/

/-- Equal steps at the beginning can be left off. -/
theorem bind_steps_iff {x y : Timed ε α} {a b : α} (hx : x.out = .ok a) (hy : y.out = .ok b) (h : x.steps = y.steps) (f g : α → Timed ε β) :
    ((x >>= f).steps = (y >>= g).steps ↔ (f a).steps = (g b).steps) := by
  rw [bind_of_ok hx, bind_of_ok hy, h]
  exact List.append_right_inj _

/-- The number that a decryption reads the bit length of -/
def quotient {p q : Nat} (modulusBits : Nat) (sk : SecretKey p q) (c : Ct (p * q)) : Nat :=
  (Synedrion.powUnsigned c sk.totient modulusBits - 1).val / (p * q)

theorem decrypt_steps_iff {p q modulusBits : Nat} {sk : SecretKey p q} (ht : sk.totient < 2 ^ w) (hW : w ≤ W) {c d : Ct (p * q)} {m n : SInt}
    (hc : (decrypt w W modulusBits sk c : Timed ε _).out = .ok m) (hd : (decrypt w W modulusBits sk d : Timed ε _).out = .ok n) :
    ((decrypt w W modulusBits sk c : Timed ε _).steps = (decrypt w W modulusBits sk d : Timed ε _).steps ↔
      bitLen (quotient modulusBits sk c) = bitLen (quotient modulusBits sk d)) := by
  have htW : sk.totient < 2 ^ W := lt_of_lt_of_le ht (Nat.pow_le_pow_right (by norm_num) hW)
  unfold decrypt at hc hd ⊢
  rw [bind_out] at hc hd
  obtain ⟨o, ho, hc⟩ := Out.bind_eq_ok.1 hc
  obtain ⟨o', ho', hd⟩ := Out.bind_eq_ok.1 hd
  rw [ho] at ho'
  obtain rfl := Out.ok.inj ho'
  refine (bind_steps_iff ho ho rfl _ _).trans ?_
  rw [bind_out] at hc hd
  obtain ⟨u, hu, hc⟩ := Out.bind_eq_ok.1 hc
  obtain ⟨u', hu', hd⟩ := Out.bind_eq_ok.1 hd
  rw [hu] at hu'
  obtain rfl := Out.ok.inj hu'
  refine (bind_steps_iff hu hu rfl _ _).trans ?_
  have hou : u = ⟨modulusBits, BitVec.ofNat w sk.totient⟩ := by
    rw [unsignedNew_out] at ho
    unfold SecretUnsigned.new at ho
    split at ho
    · obtain rfl := Out.ok.inj ho
      exact (Out.ok.inj hu).symm
    · obtain rfl := Out.ok.inj ho
      cases hu
  subst hou
  have hq : ∀ e : Ct (p * q), (powBounded e ((⟨modulusBits, BitVec.ofNat w sk.totient⟩ : SecretUnsigned w).toWide W).value.toNat
      ((⟨modulusBits, BitVec.ofNat w sk.totient⟩ : SecretUnsigned w).toWide W).bound - 1).val / (p * q) = quotient modulusBits sk e := by
    intro e
    unfold quotient Synedrion.powUnsigned
    simp only [SecretUnsigned.toWide, BitVec.toNat_setWidth, BitVec.toNat_ofNat, Nat.mod_eq_of_lt ht, Nat.mod_eq_of_lt htW]
  rw [bind_out, prim_out, Out.bind_ok, bind_out, powUnsigned, prim_out, Out.bind_ok, bind_out, prim_out, Out.bind_ok, bind_out, prim_out,
    Out.bind_ok, hq] at hc hd
  refine (bind_steps_iff (prim_out _ _ _) (prim_out _ _ _) (by rfl) _ _).trans ?_
  refine (bind_steps_iff (powUnsigned_out _ _) (powUnsigned_out _ _) (by rfl) _ _).trans ?_
  refine (bind_steps_iff (prim_out _ _ _) (prim_out _ _ _) (by rfl) _ _).trans ?_
  refine (bind_steps_iff (prim_out _ _ _) (prim_out _ _ _) (by rfl) _ _).trans ?_
  unfold Synedrion.powUnsigned
  rw [hq, hq]
  generalize quotient modulusBits sk c = x at hc ⊢
  generalize quotient modulusBits sk d = y at hd ⊢
  rw [bind_out, tryFromWide_out, Out.bind_ok] at hc hd
  rw [bind_of_ok (tryFromWide_out x), bind_of_ok (tryFromWide_out y)]
  have hs : ∀ z, (tryFromWide w z : Timed ε _).steps = [.vartime "bits_vartime" [bitLen z], .branch (decide (bitLen z > w))] := fun _ => rfl
  constructor
  · intro h
    have := (List.append_inj h (by rfl)).1
    rw [hs, hs] at this
    injection this with h1
    injection h1 with _ h2
    injection h2
  · intro h
    have h1 : (tryFromWide w x : Timed ε _).steps = (tryFromWide w y : Timed ε _).steps := by
      rw [hs, hs, h]
    rw [h1]
    refine congrArg ((tryFromWide w y : Timed ε _).steps ++ ·) ?_
    refine (Rel.same (R := Any) ?_) m n hc hd
    exact (Rel.expect (R := Any) fun _ _ _ _ => trivial).bind fun _ _ _ => (Rel.prim (R := Any) trivial).bind fun _ _ _ =>
      (Rel.prim (R := Any) trivial).bind fun _ _ _ => (newModulo_rel _ _ _ _).bind fun _ _ h => (Rel.expect h).bind fun _ _ _ => Rel.pure trivial

/-- The number in question is `φ(N)` times the plaintext, modulo `N`. -/
theorem quotient_eq {p q modulusBits : Nat} {sk : SecretKey p q} (hk : KeyFacts sk) (hb : p * q < 2 ^ modulusBits) (hw : modulusBits ≤ w)
    {c : Ct (p * q)} {m : SInt} (hc : (Synedrion.decrypt w modulusBits sk c : Out ε _) = .ok m) :
    (quotient modulusBits sk c : Int) = (sk.totient * m.val) % (p * q : Nat) := by
  have hpos := hk.primes.pos
  have : NeZero (p * q) := ⟨hpos.ne'⟩
  unfold Synedrion.decrypt at hc
  split at hc
  · obtain ⟨_, _, hc⟩ := Out.bind_eq_ok.1 hc
    change SInt.newModulo w (((quotient modulusBits sk c : Nat) : ZMod (p * q)) * sk.invTotient).val (p * q) modulusBits = _ at hc
    have hlt : quotient modulusBits sk c < p * q := by
      unfold quotient
      have : NeZero ((p * q) ^ 2) := ⟨(Nat.pow_pos hpos).ne'⟩
      rw [Nat.div_lt_iff_lt_mul hpos, ← pow_two]
      exact ZMod.val_lt _
    obtain ⟨v, hv, hcen⟩ := newModulo_ok (ε := ε) (w := w) (bits := modulusBits) hk.primes.odd
      (ZMod.val_lt (((quotient modulusBits sk c : Nat) : ZMod (p * q)) * sk.invTotient)) hb hw
    rw [hv] at hc
    obtain rfl := Out.ok.inj hc
    have h1 : (v : ZMod (p * q)) = ((quotient modulusBits sk c : Nat) : ZMod (p * q)) * sk.invTotient := by
      have := (ZMod.intCast_eq_intCast_iff _ _ _).2 hcen.1
      rw [this, Int.cast_natCast, ZMod.natCast_zmod_val]
    have h2 : ((quotient modulusBits sk c : Int) : ZMod (p * q)) = ((sk.totient * v : Int) : ZMod (p * q)) := by
      push_cast
      rw [h1, mul_left_comm, hk.invTotient, mul_one]
    have h3 := (ZMod.intCast_eq_intCast_iff _ _ _).1 h2
    rw [← h3, Int.emod_eq_of_lt (Int.natCast_nonneg _) (by exact_mod_cast hlt)]
  · cases hc

end Synedrion.Timing
