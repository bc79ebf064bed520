import Verif.Lemmas.TimingResults
import Verif.Props.Paillier

/-!
# Property C79: what an observer of the running time learns about secrets

The full claim, that the steps of no operation depend on a secret, is false: `C79_decrypt_steps`, `C79_scalar_conversion_steps`,
`C79_square_root_steps` and `C79_key_load_steps` say exactly what four operations give away. The theorems ending in `_partial` are the operations for
which it holds.
-/

set_option linter.unusedSectionVars false

namespace Synedrion.Props
open Spec

variable {ε : Type} {w W : Nat}

/-! ## Operations whose steps do not depend on secrets -/

/-- **C79.** Two runs of a program that adds, subtracts, negates and multiplies secret numbers, combines them with public numbers and checks their
ranges, on secrets with the same public bounds, go through the same steps. -/
theorem C79_arithmetic_partial (prog : SecretProg w) (s t : Nat → SecretSigned w) (h : ∀ i, (s i).bound = (t i).bound) :
    SameSteps (prog.run s : Timed ε _) (prog.run t) := (Timing.run_rel prog h).same

/-- **C79.** Making a secret number out of an unsigned one, reducing one modulo a public modulus into the symmetric range, converting a scalar,
checking a range, widening and multiplying into a wider type take the same steps for any two secrets (with the same bounds). -/
theorem C79_conversions_partial :
    (∀ (u v : BitVec w) (b : Nat), SameSteps (Timing.newPositive u b : Timed ε _) (Timing.newPositive v b)) ∧
    (∀ (u v : BitVec w) (b : Nat), SameSteps (Timing.newFromUnsigned u b : Timed ε _) (Timing.newFromUnsigned v b)) ∧
    (∀ (u v : BitVec w) (b : Nat) (c d : Bool), SameSteps (Timing.newFromAbs u b c : Timed ε _) (Timing.newFromAbs v b d)) ∧
    (∀ (u v modulus : BitVec w) (b : Nat), SameSteps (Timing.newModulo u modulus b : Timed ε _) (Timing.newModulo v modulus b)) ∧
    (∀ (q numBits : Nat) (x y : ZMod q),
      SameSteps (Timing.secretSignedFromScalar w numBits x : Timed ε _) (Timing.secretSignedFromScalar w numBits y)) ∧
    (∀ (s t : SecretSigned w), s.bound = t.bound →
      SameSteps (Timing.abs s : Timed ε _) (Timing.abs t) ∧
      SameSteps (Timing.toWide W s : Timed ε _) (Timing.toWide W t) ∧
      (∀ exp, SameSteps (Timing.assertExponentRange s exp : Timed ε _) (Timing.assertExponentRange t exp)) ∧
      (∀ exp, SameSteps (Timing.ensureExponentRange s exp : Timed ε _) (Timing.ensureExponentRange t exp)) ∧
      (∀ r : PublicSigned W, SameSteps (Timing.mulWidePublic s r : Timed ε _) (Timing.mulWidePublic t r))) :=
  ⟨fun u v b => (Timing.newPositive_rel u v b).same, fun u v b => (Timing.newFromUnsigned_rel u v b).same,
    fun u v b c d => (Timing.newFromAbs_rel u v b c d).same, fun u v m b => (Timing.newModulo_rel u v m b).same,
    fun _ _ x y => (Timing.secretSignedFromScalar_rel x y).same,
    fun s t h => ⟨(Timing.abs_rel s t h).same, (Timing.toWide_rel s t h).same, fun exp => (Timing.assertExponentRange_rel s t h exp).same,
      fun exp => (Timing.ensureExponentRange_rel s t h exp).same, fun r => (Timing.mulWidePublic_rel s t h r).same⟩⟩

/-- **C79.** Raising a number, secret or not, to a secret power takes the same steps for any two secret exponents of the same bound, and so does
committing to a secret. -/
theorem C79_exponentiation_partial {n N : Nat} (m : Nat) :
    (∀ (a b : ZMod n) (e f : SecretSigned w), e.bound = f.bound → SameSteps (Timing.powSecret m a e : Timed ε _) (Timing.powSecret m b f)) ∧
    (∀ (a b : ZMod n) (e f : SecretUnsigned w), e.bound = f.bound → SameSteps (Timing.powUnsigned m a e : Timed ε _) (Timing.powUnsigned m b f)) ∧
    (∀ (rp : RPParams N) (v v' : SecretSigned w) (r r' : SecretSigned W), v.bound = v'.bound → r.bound = r'.bound →
      SameSteps (Timing.commitSecret m rp v r : Timed ε _) (Timing.commitSecret m rp v' r')) :=
  ⟨fun a b e f h => (Timing.powSecret_rel a b e f h).same, fun a b e f h => by unfold Timing.powUnsigned; rw [h]; exact fun _ _ _ _ => rfl,
    fun rp v v' r r' hv hr => (Timing.commitSecret_rel rp v v' r r' hv hr).same⟩

/-- **C79.** Encryption takes the same steps for any two plaintexts of the same bound and any two randomizers. -/
theorem C79_encryption_partial {N : Nat} :
    (∀ (a b : SecretSigned w) (r s : Nat), a.bound = b.bound → SameSteps (Timing.enc W N a r : Timed ε _) (Timing.enc W N b s)) ∧
    (∀ (a b : SecretSigned W) (r s : Nat), a.bound = b.bound → SameSteps (Timing.encWide w N a r : Timed ε _) (Timing.encWide w N b s)) :=
  ⟨fun a b r s h => (Timing.enc_rel a b h r s).same, fun a b r s h => (Timing.encWide_rel a b h r s).same⟩

/-- **C79.** Recovering the randomizer of a ciphertext takes the same steps whatever the precomputed values of the key are. -/
theorem C79_derive_randomizer_partial {p q : Nat} (bits : Nat) (sk sk' : SecretKey p q) (c : Ct (p * q)) :
    SameSteps (Timing.deriveRandomizer w W bits sk c : Timed ε _) (Timing.deriveRandomizer w W bits sk' c) :=
  (Timing.deriveRandomizer_rel sk sk' c).same

/-! ## Operations whose steps tell something -/

section
variable {p q : Nat}

/-- The widths of the numbers that a key of a given size is used with. -/
structure KeyWidths (p q bits w W : Nat) : Prop where
  modulus : p * q < 2 ^ bits
  uint : bits ≤ w
  wide : w ≤ W

theorem KeyWidths.totient {bits : Nat} (hw : KeyWidths p q bits w W) {sk : SecretKey p q} (hk : KeyFacts sk) : sk.totient < 2 ^ w := by
  rw [hk.totient]
  exact lt_of_le_of_lt (Nat.mul_le_mul (Nat.sub_le _ _) (Nat.sub_le _ _)) (lt_of_lt_of_le hw.modulus (Nat.pow_le_pow_right (by norm_num) hw.uint))

/-- **C79 is false.** The steps of a decryption tell the bit length of `φ(N) · m mod N`, where `m` is the plaintext, and nothing else: two
ciphertexts are decrypted in the same steps if and only if these bit lengths are the same. -/
theorem C79_decrypt_steps (h : PaillierPrimes p q) (sk : SecretKey p q) (hsk : (SecretKey.new p q : Out ε _) = .ok sk) {bits : Nat}
    (hw : KeyWidths p q bits w W) (c d : Ct (p * q)) (m n : SInt) (hc : (Timing.decrypt w W bits sk c : Timed ε _).out = .ok m)
    (hd : (Timing.decrypt w W bits sk d : Timed ε _).out = .ok n) :
    (Timing.decrypt w W bits sk c : Timed ε _).steps = (Timing.decrypt w W bits sk d : Timed ε _).steps ↔
      bitLen (((p - 1) * (q - 1) : Nat) * m.val % (p * q : Nat)).toNat = bitLen (((p - 1) * (q - 1) : Nat) * n.val % (p * q : Nat)).toNat := by
  have hk := facts_of_new h hsk
  have ht := hw.totient hk
  have hN : p * q < 2 ^ w := lt_of_lt_of_le hw.modulus (Nat.pow_le_pow_right (by norm_num) hw.uint)
  rw [Timing.decrypt_steps_iff ht hw.wide hc hd]
  rw [Timing.decrypt_out ht hN h.pos hw.wide hw.uint] at hc hd
  have h1 := Timing.quotient_eq hk hw.modulus hw.uint hc
  have h2 := Timing.quotient_eq hk hw.modulus hw.uint hd
  rw [hk.totient] at h1 h2
  rw [← h1, ← h2, Int.toNat_natCast, Int.toNat_natCast]

/-- In particular an observer of the running time can tell whether the plaintext is zero. -/
theorem C79_decrypt_tells_zero (h : PaillierPrimes p q) (sk : SecretKey p q) (hsk : (SecretKey.new p q : Out ε _) = .ok sk) {bits : Nat}
    (hw : KeyWidths p q bits w W) (c d : Ct (p * q)) (m n : SInt) (hc : (Timing.decrypt w W bits sk c : Timed ε _).out = .ok m)
    (hd : (Timing.decrypt w W bits sk d : Timed ε _).out = .ok n) (hm : m.val = 0) :
    (Timing.decrypt w W bits sk c : Timed ε _).steps = (Timing.decrypt w W bits sk d : Timed ε _).steps ↔ n.val = 0 := by
  have hk := facts_of_new h hsk
  have ht := hw.totient hk
  have hN : p * q < 2 ^ w := lt_of_lt_of_le hw.modulus (Nat.pow_le_pow_right (by norm_num) hw.uint)
  have hpos := h.pos
  have : NeZero (p * q) := ⟨hpos.ne'⟩
  rw [Timing.decrypt_steps_iff ht hw.wide hc hd]
  rw [Timing.decrypt_out ht hN hpos hw.wide hw.uint] at hc hd
  have h1 := Timing.quotient_eq hk hw.modulus hw.uint hc
  have h2 := Timing.quotient_eq hk hw.modulus hw.uint hd
  rw [hm, mul_zero, Int.zero_emod] at h1
  have h1' : Timing.quotient bits sk c = 0 := by exact_mod_cast h1
  have h0 : ∀ x, bitLen 0 = bitLen x ↔ x = 0 := by
    intro x
    constructor
    · intro hx
      have : bitLen x ≤ 0 := by rw [← hx]; decide
      have := bitLen_le_iff.1 this
      omega
    · rintro rfl; rfl
  rw [h1', h0]
  constructor
  · intro hq
    rw [hq] at h2
    -- the centred representative of a multiple of `N` is zero
    obtain ⟨v, hv, hcen⟩ : ∃ v : Int, n.val = v ∧ 2 * |v| < (p * q : Nat) := by
      unfold decrypt at hd
      split at hd
      · obtain ⟨_, _, hd⟩ := Out.bind_eq_ok.1 hd
        obtain ⟨v, hv, hcen⟩ := newModulo_ok (ε := ε) (w := w) (bits := bits) h.odd
          (ZMod.val_lt ((((powUnsigned d sk.totient bits - 1).val / (p * q) : Nat) : ZMod (p * q)) * sk.invTotient)) hw.modulus hw.uint
        rw [hv] at hd
        exact ⟨v, by rw [← Out.ok.inj hd], hcen.2⟩
      · cases hd
    rw [hv] at h2 ⊢
    have hcop : IsCoprime ((p * q : Nat) : Int) (sk.totient : Int) := by
      rw [hk.totient]; exact Nat.isCoprime_iff_coprime.2 h.coprime
    have hdvd : ((p * q : Nat) : Int) ∣ v := hcop.dvd_of_dvd_mul_left (Int.dvd_of_emod_eq_zero h2.symm)
    obtain ⟨k, rfl⟩ := hdvd
    rcases eq_or_ne k 0 with rfl | hk0
    · simp
    · exfalso
      have : 1 ≤ |k| := Int.one_le_abs hk0
      rw [abs_mul, abs_of_nonneg (by omega : (0 : Int) ≤ ((p * q : Nat) : Int))] at hcen
      have h3 : ((p * q : Nat) : Int) * 1 ≤ (p * q : Nat) * |k| := Int.mul_le_mul_of_nonneg_left this (by omega)
      omega
  · intro hn
    rw [hn, mul_zero, Int.zero_emod] at h2
    exact_mod_cast h2

/-- For a negative plaintext of small magnitude it is the bit length of `(p + q - 1) · |m|`. -/
theorem C79_decrypt_tells_size (h : PaillierPrimes p q) (m : Int) (hm : m < 0) (hs : (p + q - 1) * m.natAbs < p * q) :
    (((p - 1) * (q - 1) : Nat) * m % (p * q : Nat)).toNat = (p + q - 1) * m.natAbs := by
  have hp := h.prime_p.two_le
  have hq := h.prime_q.two_le
  obtain ⟨a, rfl⟩ : ∃ a, p = a + 1 := ⟨p - 1, by omega⟩
  obtain ⟨b, rfl⟩ : ∃ b, q = b + 1 := ⟨q - 1, by omega⟩
  obtain ⟨k, hk⟩ : ∃ k : Nat, m = -(k : Int) := ⟨m.natAbs, by omega⟩
  subst hk
  simp only [Int.natAbs_neg, Int.natAbs_natCast, Nat.add_sub_cancel] at hs ⊢
  have e1 : a + 1 + (b + 1) - 1 = a + b + 1 := by omega
  rw [e1] at hs ⊢
  have e2 : ((a * b : Nat) : Int) * -(k : Int) = (((a + b + 1) * k : Nat) : Int) + (((a + 1) * (b + 1) : Nat) : Int) * -(k : Int) := by
    push_cast; ring
  rw [e2, Int.add_mul_emod_self_left, ← Int.natCast_emod, Int.toNat_natCast, Nat.mod_eq_of_lt hs]

/-- **C79 is false.** Converting a secret number to a scalar calls a variable-time function with the result: two conversions take the same steps
only if the numbers have the same magnitude modulo the group order. -/
theorem C79_scalar_conversion_steps {q : Nat} (s t : SecretSigned w) :
    (Timing.secretScalarFromSigned q W s : Timed ε _).steps = (Timing.secretScalarFromSigned q W t : Timed ε _).steps ↔
      (s.absValue.setWidth W).toNat % (BitVec.ofNat W q).toNat = (t.absValue.setWidth W).toNat % (BitVec.ofNat W q).toNat := by
  have hs : ∀ v : SecretSigned w, (Timing.secretScalarFromSigned q W v : Timed ε _).steps = [.prim "wrapping_neg" [w], .vartime "bit_vartime" [w - 1],
      .prim "conditional_select" [w], .prim "to_wide" [w, W], .prim "rem" [W],
      .vartime "from_repr_vartime" [(v.absValue.setWidth W).toNat % (BitVec.ofNat W q).toNat], .branch true, .prim "scalar_neg" [],
      .vartime "bit_vartime" [w - 1], .prim "conditional_select" [0]] := fun _ => rfl
  rw [hs, hs]
  simp only [List.cons.injEq, true_and, and_true, Step.vartime.injEq]

/-- **C79 is false.** The square root modulo one of the secret primes takes the same steps for two numbers only if both have a square root there, or
neither: it tells whether a number is a square modulo each of the primes, not just modulo their product. -/
theorem C79_square_root_steps {p h bits : Nat} (hp : Nat.Prime p) (h3 : p % 4 = 3) (hb : p < 2 ^ bits) (x y : ZMod p) :
    (Timing.sqrtPart h bits x : Timed ε _).steps = (Timing.sqrtPart h bits y : Timed ε _).steps ↔ (IsSquare x ↔ IsSquare y) := by
  have hs : ∀ z : ZMod p, (Timing.sqrtPart h bits z : Timed ε _).steps = [.vartime "wrapping_shr_vartime" [2], .prim "wrapping_add" [h],
      .prim "pow_bounded_exp" [h, h, bits - 1], .prim "square" [h],
      .branch (decide (powBounded z (p / 4 + 1) (bits - 1) * powBounded z (p / 4 + 1) (bits - 1) = z))] := fun _ => rfl
  have hsq : ∀ z : ZMod p, powBounded z (p / 4 + 1) (bits - 1) * powBounded z (p / 4 + 1) (bits - 1) = z ↔ IsSquare z := by
    intro z
    rw [← (sqrtPart_spec hp h3 hb z).1]
    unfold sqrtPart
    by_cases hz : powBounded z (p / 4 + 1) (bits - 1) * powBounded z (p / 4 + 1) (bits - 1) = z <;> simp [hz]
  rw [hs, hs]
  simp only [List.cons.injEq, true_and, and_true, Step.branch.injEq, decide_eq_decide, hsq]

/-- **C79 is false.** Loading a key calls a variable-time function with each of its primes, so that two keys are loaded in the same steps only if
they are the same: even two keys with the same public part, that differ in the order of the primes, can be told apart. -/
theorem C79_key_load_steps {p q p' q' : Nat} (hp : p % 2 = 1) (hq : q % 2 = 1) (hp' : p' % 2 = 1) (hq' : q' % 2 = 1) :
    (Timing.keyParams p q : Timed ε _).steps = (Timing.keyParams p' q' : Timed ε _).steps ↔ p = p' ∧ q = q' := by
  have hs : ∀ {a b : Nat}, a % 2 = 1 → b % 2 = 1 → (Timing.keyParams a b : Timed ε _).steps =
      [.branch true, .vartime "new_params_vartime" [a], .branch true, .vartime "new_params_vartime" [b]] := by
    intro a b ha hb
    unfold Timing.keyParams
    simp only [ha, hb, if_true]
    rfl
  rw [hs hp hq, hs hp' hq']
  simp

end

/-! ## The instrumented operations compute what the models do -/

/-- **C79.** The operations with their steps written down have the same results as those of the other models: on signed integers exactly, on
exponents and plaintexts within their declared bounds, and on Paillier keys that fit the widths in use. -/
theorem C79_results :
    (∀ s : SecretSigned w, (Timing.abs s : Timed ε _).out = s.abs ∧ (Timing.neg s : Timed ε _).out = .ok s.neg ∧
      (∀ t, (Timing.add s t : Timed ε _).out = s.add t ∧ (Timing.sub s t : Timed ε _).out = s.sub t ∧
        (Timing.mul s t : Timed ε _).out = s.mul t) ∧
      (∀ t, (Timing.addPublic s t : Timed ε _).out = s.addPublic t ∧ (Timing.mulPublic s t : Timed ε _).out = s.mulPublic t) ∧
      (∀ exp, (Timing.assertExponentRange s exp : Timed ε _).out = s.assertExponentRange exp ∧
        (Timing.ensureExponentRange s exp : Timed ε _).out = s.ensureExponentRange exp) ∧
      (Timing.toWide W s : Timed ε _).out = s.toWide W ∧
      (∀ r : PublicSigned W, (Timing.mulWidePublic s r : Timed ε _).out = s.mulWidePublic r) ∧
      (∀ q, (Timing.secretScalarFromSigned q W s : Timed ε _).out = .ok (Conv.secretScalarFromSigned q W s))) ∧
    (∀ (v m : BitVec w) (b : Nat), (Timing.newModulo v m b : Timed ε _).out = SecretSigned.newModulo v m b ∧
      (Timing.newPositive v b : Timed ε _).out = .ok (SecretSigned.newPositive v b) ∧
      (Timing.newFromUnsigned v b : Timed ε _).out = .ok (SecretSigned.newFromUnsigned v b) ∧
      (∀ c, (Timing.newFromAbs v b c : Timed ε _).out = .ok (SecretSigned.newFromAbs v b c))) ∧
    (∀ (q numBits : Nat) (x : ZMod q), (Timing.secretSignedFromScalar w numBits x : Timed ε _).out = Conv.secretSignedFromScalar w numBits x) ∧
    (∀ (m n : Nat) (a : ZMod n) (e : SecretSigned w), Truthful w e.bound e.value →
      (Timing.powSecret m a e : Timed ε _).out = powSecret a e.toSInt) ∧
    (∀ (m N : Nat) (rp : RPParams N) (v : SecretSigned w) (r : SecretSigned W), Truthful w v.bound v.value → Truthful W r.bound r.value →
      (Timing.commitSecret m rp v r : Timed ε _).out = rp.commitSecret v.toSInt r.toSInt) ∧
    (∀ (N : Nat) (a : SecretSigned w) (r : Nat), w ≤ W → Truthful w a.bound a.value → (Timing.enc W N a r : Timed ε _).out = enc N a.toSInt r) ∧
    (∀ (N : Nat) (a : SecretSigned W) (r : Nat), Truthful W a.bound a.value → (Timing.encWide w N a r : Timed ε _).out = enc N a.toSInt r) ∧
    (∀ (p q bits : Nat) (sk : SecretKey p q) (c : Ct (p * q)), KeyFacts sk → KeyWidths p q bits w W →
      (Timing.decrypt w W bits sk c : Timed ε _).out = decrypt w bits sk c ∧
      (Timing.deriveRandomizer w W bits sk c : Timed ε _).out = .ok (deriveRandomizer bits sk c)) ∧
    (∀ (p q h bits : Nat), 0 < p → 0 < q → p < 2 ^ h → q < 2 ^ h →
      (∀ x, (Timing.rnsSplit w h p q x : Timed ε _).out = .ok (rnsSplit p q x)) ∧
      (∀ x : ZMod p × ZMod q, (Timing.rnsSqrt h bits x : Timed ε _).out = .ok (rnsSqrt bits x))) := by
  refine ⟨fun s => ⟨Timing.abs_out s, Timing.neg_out s, fun t => ⟨Timing.add_out s t, Timing.sub_out s t, Timing.mul_out s t⟩,
    fun t => ⟨Timing.addPublic_out s t, Timing.mulPublic_out s t⟩,
    fun exp => ⟨Timing.assertExponentRange_out s exp, Timing.ensureExponentRange_out s exp⟩, Timing.toWide_out s,
    fun r => Timing.mulWidePublic_out s r, fun q => Timing.secretScalarFromSigned_out s⟩,
    fun v m b => ⟨Timing.newModulo_out v m b, Timing.newPositive_out v b, Timing.newFromUnsigned_out v b, fun c => Timing.newFromAbs_out v b c⟩,
    fun q n x => Timing.secretSignedFromScalar_out x, fun m n a e he => Timing.powSecret_out a he,
    fun m N rp v r hv hr => Timing.commitSecret_out rp hv hr, fun N a r hW ha => Timing.enc_out hW ha r, fun N a r ha => Timing.encWide_out ha r,
    fun p q bits sk c hk hw => ?_, fun p q h bits hp0 hq0 hp hq => ⟨fun x => Timing.rnsSplit_out hp0 hq0 hp hq x, fun x => Timing.rnsSqrt_out x⟩⟩
  have hN : p * q < 2 ^ w := lt_of_lt_of_le hw.modulus (Nat.pow_le_pow_right (by norm_num) hw.uint)
  exact ⟨Timing.decrypt_out (hw.totient hk) hN hk.primes.pos hw.wide hw.uint c,
    Timing.deriveRandomizer_out (lt_trans hk.invModulus_lt (hw.totient hk)) hN hk.primes.pos c⟩

/-! ## Concrete cases -/

/-- A program that reads two secrets, run on 3, −5 and on −7, −1: the hypothesis holds, both runs succeed, and the results are different. -/
example :
    let prog : SecretProg 8 := .inRange 4 (.add (.var 0) (.neg (.var 1)))
    let s : Nat → SecretSigned 8 := fun i => if i = 0 then ⟨3, 3#8⟩ else ⟨3, BitVec.ofInt 8 (-5)⟩
    let t : Nat → SecretSigned 8 := fun i => if i = 0 then ⟨3, BitVec.ofInt 8 (-7)⟩ else ⟨3, BitVec.ofInt 8 (-1)⟩
    (∀ i, (s i).bound = (t i).bound) ∧ (prog.run s : Timed Unit _).out = .ok ⟨4, 8#8⟩ ∧
      (prog.run t : Timed Unit _).out = .ok ⟨4, BitVec.ofInt 8 (-6)⟩ := by
  refine ⟨?_, ?_, ?_⟩
  · intro i; by_cases h : i = 0 <;> simp [h]
  · decide +kernel
  · decide +kernel

/-- With a public exponent the steps do depend on the sign. -/
example : (Timing.powPublic 8 (4 : ZMod 77) (⟨3, 3#8⟩ : PublicSigned 8) : Timed Unit _).steps.length = 3 ∧
    (Timing.powPublic 8 (4 : ZMod 77) (⟨3, BitVec.ofInt 8 (-3)⟩ : PublicSigned 8) : Timed Unit _).steps.length = 6 := by decide +kernel

/-- Truthful exponents of the same bound and different signs: both powers exist. -/
example : (Timing.powSecret 8 (4 : ZMod 77) (⟨3, 3#8⟩ : SecretSigned 8) : Timed Unit _).out = .ok 64 ∧
    (Timing.powSecret 8 (4 : ZMod 77) (⟨3, BitVec.ofInt 8 (-3)⟩ : SecretSigned 8) : Timed Unit _).out = .ok 71 := by decide +kernel

/-- Two plaintexts and randomizers: both encryptions succeed. -/
example : (Timing.enc 16 77 (⟨6, BitVec.ofInt 8 (-30)⟩ : SecretSigned 8) 5 : Timed Unit _).out.isOk ∧
    (Timing.enc 16 77 (⟨6, 3#8⟩ : SecretSigned 8) 9 : Timed Unit _).out.isOk := by decide +kernel

/-- The widths fit a key with the primes 7 and 11. -/
example : KeyWidths 7 11 7 8 16 := ⟨by norm_num, by norm_num, by norm_num⟩

/-- **C79 is false** of decryption: under the key with the primes 7 and 11 the encryptions of 0 and −1 take different steps, and so do those of −1
and −3, while those of 1 and 2 take the same. -/
theorem C79_decrypt_leaks :
    let run := fun m : Int => ((SecretKey.new 7 11).bind fun sk => (enc 77 ⟨6, m⟩ 5).bind fun c =>
      (Timing.decrypt 8 16 7 sk c).out.bind fun n => .ok (n.val, (Timing.decrypt 8 16 7 sk c : Timed Unit _).steps) : Out Unit (Int × List Step))
    (∀ m ∈ [0, -1, -3, 1, 2], ∃ l, run m = .ok (m, l)) ∧ run 0 ≠ (run (-1)).bind (fun r => .ok (0, r.2)) ∧
      run (-1) ≠ (run (-3)).bind (fun r => .ok (-1, r.2)) ∧ run 1 = (run 2).bind (fun r => .ok (1, r.2)) := by
  have h : ∀ o : Out Unit (Int × List Step), ∀ m : Int, (o.bind fun r => .ok r.1) = .ok m → ∃ l, o = .ok (m, l) := by
    intro o m h
    obtain ⟨r, hr, hm⟩ := Out.bind_eq_ok.1 h
    exact ⟨r.2, by rw [hr, ← Out.ok.inj hm]⟩
  refine ⟨?_, ?_, ?_, ?_⟩
  · intro m hm
    apply h
    revert m
    decide +kernel
  all_goals decide +kernel

/-- Modulo 7 the number 2 is a square and 3 is not; loading 7, 11 and loading 11, 7 differ. -/
example : (Timing.sqrtPart 4 3 (2 : ZMod 7) : Timed Unit _).steps ≠ (Timing.sqrtPart 4 3 (3 : ZMod 7) : Timed Unit _).steps ∧
    (Timing.keyParams 7 11 : Timed Unit _).steps ≠ (Timing.keyParams 11 7 : Timed Unit _).steps ∧
    (Timing.secretScalarFromSigned 11 8 (⟨3, 3#8⟩ : SecretSigned 8) : Timed Unit _).steps ≠
      (Timing.secretScalarFromSigned 11 8 (⟨3, 4#8⟩ : SecretSigned 8) : Timed Unit _).steps := by decide +kernel

end Synedrion.Props
