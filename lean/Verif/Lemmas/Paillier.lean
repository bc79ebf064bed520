import Verif.Model.Paillier
import Verif.Spec.Residues
import Verif.Spec.Ints
import Mathlib.Data.ZMod.Units
import Mathlib.FieldTheory.Finite.Basic
import Mathlib.Tactic.Ring
import Mathlib.Tactic.LinearCombination

/-!
# Lemmas about modular exponentiation and Paillier encryption
-/

set_option linter.unusedSectionVars false

namespace Synedrion
open Spec

variable {ε : Type}

/-- The declared bound of an integer is truthful (no width involved). -/
def SInt.Fits (e : SInt) : Prop := e.val.natAbs < 2 ^ e.bound

instance (e : SInt) : Decidable e.Fits := by unfold SInt.Fits; infer_instance

theorem invMod?_unit {n : Nat} (u : (ZMod n)ˣ) : invMod? (u : ZMod n) = some ((u⁻¹ : (ZMod n)ˣ) : ZMod n) := by
  unfold invMod?
  have : Nat.gcd (u : ZMod n).val n = 1 := by
    have := ZMod.val_coe_unit_coprime u
    exact this
  rw [if_pos this, ZMod.inv_coe_unit]

theorem invMod?_eq_some {n : Nat} [NeZero n] {a b : ZMod n} (h : invMod? a = some b) :
    ∃ u : (ZMod n)ˣ, (u : ZMod n) = a ∧ b = ((u⁻¹ : (ZMod n)ˣ) : ZMod n) := by
  unfold invMod? at h
  split at h
  · rename_i hg
    refine ⟨ZMod.unitOfCoprime a.val hg, by simp, ?_⟩
    rw [← ZMod.inv_coe_unit]
    cases h
    simp
  · cases h

theorem invMod?_isSome {n : Nat} [NeZero n] {a : ZMod n} : (invMod? a).isSome ↔ IsUnit a := by
  constructor
  · intro h
    obtain ⟨b, hb⟩ := Option.isSome_iff_exists.1 h
    obtain ⟨u, hu, _⟩ := invMod?_eq_some hb
    exact ⟨u, hu⟩
  · rintro ⟨u, rfl⟩
    rw [invMod?_unit]; rfl

theorem powBounded_eq {n : Nat} (a : ZMod n) {e b : Nat} (h : e < 2 ^ b) : powBounded a e b = a ^ e := by
  unfold powBounded; rw [Nat.mod_eq_of_lt h]

theorem zpow_natAbs_nonneg {α : Type} [Group α] (u : α) {e : Int} (h : 0 ≤ e) : u ^ e.natAbs = u ^ e := by
  rw [← zpow_natCast, Int.natCast_natAbs, abs_of_nonneg h]

theorem zpow_natAbs_neg {α : Type} [Group α] (u : α) {e : Int} (h : e < 0) : (u ^ e.natAbs)⁻¹ = u ^ e := by
  rw [← zpow_natCast, Int.natCast_natAbs, abs_of_neg h, zpow_neg, inv_inv]

theorem powSecret_unit {n : Nat} (u : (ZMod n)ˣ) {e : SInt} (h : e.Fits) :
    (powSecret (u : ZMod n) e : Out ε _) = .ok ((u ^ e.val : (ZMod n)ˣ) : ZMod n) := by
  unfold powSecret
  have h' : e.val.natAbs < 2 ^ e.bound := h
  rw [if_pos h', powBounded_eq _ h]
  have : (u : ZMod n) ^ e.val.natAbs = ((u ^ e.val.natAbs : (ZMod n)ˣ) : ZMod n) := by push_cast; rfl
  rw [this]
  simp only [invMod?_unit, Out.ofOptionPanic_some, Out.bind_ok]
  split
  · rename_i hn; rw [zpow_natAbs_neg u hn]
  · rename_i hn; rw [zpow_natAbs_nonneg u (not_lt.1 hn)]

theorem powPublic_unit {n : Nat} (u : (ZMod n)ˣ) {e : SInt} (h : e.Fits) :
    (powPublic (u : ZMod n) e : Out ε _) = .ok ((u ^ e.val : (ZMod n)ˣ) : ZMod n) := by
  unfold powPublic
  rw [powBounded_eq _ h]
  have : (u : ZMod n) ^ e.val.natAbs = ((u ^ e.val.natAbs : (ZMod n)ˣ) : ZMod n) := by push_cast; rfl
  rw [this]
  simp only [invMod?_unit, Out.ofOptionPanic_some]
  split
  · rename_i hn; rw [zpow_natAbs_neg u hn]
  · rename_i hn; rw [zpow_natAbs_nonneg u (not_lt.1 hn)]

/-! ### The structure of encryption -/

section
variable {N : Nat}

theorem nu_sq : (N : Ct N) * (N : Ct N) = 0 := by
  have : ((N ^ 2 : Nat) : ZMod (N ^ 2)) = 0 := ZMod.natCast_self _
  rw [← this]; push_cast; ring

/-- `1 + mN` -/
def oneAdd (N : Nat) (m : Int) : Ct N := 1 + (m : Ct N) * (N : Ct N)

theorem oneAdd_mul (a b : Int) : oneAdd N a * oneAdd N b = oneAdd N (a + b) := by
  unfold oneAdd
  have := nu_sq (N := N)
  push_cast
  linear_combination (a : Ct N) * (b : Ct N) * this

@[simp] theorem oneAdd_zero : oneAdd N 0 = 1 := by simp [oneAdd]

/-- `1 + mN` as a unit -/
def oneAddUnit (N : Nat) (m : Int) : (ZMod (N ^ 2))ˣ :=
  ⟨oneAdd N m, oneAdd N (-m), by rw [oneAdd_mul]; simp, by rw [oneAdd_mul]; simp⟩

@[simp] theorem oneAddUnit_val (m : Int) : ((oneAddUnit N m : (ZMod (N ^ 2))ˣ) : ZMod (N ^ 2)) = oneAdd N m := rfl

theorem oneAddUnit_add (a b : Int) : oneAddUnit N (a + b) = oneAddUnit N a * oneAddUnit N b := by
  ext; simp [oneAdd_mul]

theorem oneAddUnit_neg (a : Int) : oneAddUnit N (-a) = (oneAddUnit N a)⁻¹ := by
  rw [eq_inv_iff_mul_eq_one, ← oneAddUnit_add]; ext; simp

theorem oneAddUnit_pow (a : Int) (k : Nat) : oneAddUnit N (k * a) = oneAddUnit N a ^ k := by
  induction k with
  | zero => ext; simp
  | succ k ih =>
    have : ((k + 1 : Nat) : Int) * a = k * a + a := by push_cast; ring
    rw [this, oneAddUnit_add, ih, ← pow_succ]

theorem oneAddUnit_zpow (a k : Int) : oneAddUnit N (k * a) = oneAddUnit N a ^ k := by
  cases k with
  | ofNat k => simpa using oneAddUnit_pow a k
  | negSucc k =>
    have : Int.negSucc k * a = -(((k + 1 : Nat) : Int) * a) := by rw [Int.negSucc_eq]; push_cast; ring
    rw [this, oneAddUnit_neg, oneAddUnit_pow, zpow_negSucc]

/-- Plaintexts are the same modulo `N` iff their factors agree. -/
theorem oneAdd_eq_iff (hN : 0 < N) (a b : Int) : oneAdd N a = oneAdd N b ↔ a ≡ b [ZMOD N] := by
  unfold oneAdd
  rw [add_right_inj]
  have h1 : ∀ a : Int, (a : Ct N) * (N : Ct N) = ((a * N : Int) : Ct N) := by intro a; push_cast; rfl
  rw [h1, h1, ZMod.intCast_eq_intCast_iff]
  push_cast
  rw [pow_two]
  constructor
  · intro h
    exact Int.ModEq.mul_right_cancel' (by exact_mod_cast hN.ne') h
  · intro h
    exact Int.ModEq.mul_right' h

theorem encInner_eq (m : Int) (rho : Nat) :
    encInner N m.natAbs rho (decide (m < 0)) = oneAdd N m * (rho : Ct N) ^ N := by
  unfold encInner oneAdd
  have hz : (m : Ct N) = if m < 0 then -(m.natAbs : Ct N) else (m.natAbs : Ct N) := by
    have : (m : Ct N) = ((if m < 0 then -(m.natAbs : Int) else (m.natAbs : Int) : Int) : Ct N) := by
      congr 1; split <;> omega
    rw [this]; split <;> simp
  rw [hz]
  by_cases h : m < 0 <;> simp [h] <;> ring

theorem enc_eq {m : SInt} (h : m.Fits) (rho : Nat) :
    (enc N m rho : Out ε _) = .ok (oneAdd N m.val * (rho : Ct N) ^ N) := by
  unfold enc
  have h' : m.val.natAbs < 2 ^ m.bound := h
  rw [if_pos h', encInner_eq]

theorem encPublic_eq (m : SInt) (rho : Nat) : encPublic N m rho = oneAdd N m.val * (rho : Ct N) ^ N := encInner_eq _ _

/-- The `N`-th power modulo `N²` depends only on the residue modulo `N`. -/
theorem powN_congr {a b : Nat} (h : a ≡ b [MOD N]) : (a : Ct N) ^ N = (b : Ct N) ^ N := by
  have hb : (b : Ct N) ^ N = ((b % N : Nat) : Ct N) ^ N ∧ (a : Ct N) ^ N = ((a % N : Nat) : Ct N) ^ N := by
    have key : ∀ x : Nat, (x : Ct N) ^ N = ((x % N : Nat) : Ct N) ^ N := by
      intro x
      obtain ⟨k, hk⟩ : ∃ k, x = x % N + N * k := ⟨x / N, (Nat.mod_add_div x N).symm⟩
      conv_lhs => rw [hk]
      push_cast
      rw [add_pow_of_nu]
    exact ⟨key b, key a⟩
  rw [hb.1, hb.2, h]
where
  add_pow_of_nu {x k : Ct N} : (x + (N : Ct N) * k) ^ N = x ^ N := by
    have key : ∀ n : Nat, (x + (N : Ct N) * k) ^ n = x ^ n + (n : Ct N) * ((N : Ct N) * k) * x ^ (n - 1) := by
      intro n
      induction n with
      | zero => simp
      | succ n ih =>
        rw [pow_succ, ih]
        cases n with
        | zero => simp
        | succ n =>
          have := nu_sq (N := N)
          simp only [Nat.add_sub_cancel]
          push_cast
          linear_combination ((n : Ct N) + 1) * k * k * x ^ n * this
    rw [key N]
    have := nu_sq (N := N)
    linear_combination k * x ^ (N - 1) * this

theorem val_oneAdd_sub_one (hN : 0 < N) (a : Int) : (((oneAdd N a - 1).val / N : Nat) : Int) = a % N := by
  have h1 : oneAdd N a - 1 = ((a * N : Int) : ZMod (N ^ 2)) := by unfold oneAdd; push_cast; ring
  have hN2 : 0 < N ^ 2 := by positivity
  have : NeZero (N ^ 2) := ⟨hN2.ne'⟩
  have h2 : (((oneAdd N a - 1).val : Nat) : Int) = (a % N) * N := by
    rw [h1, ZMod.val_intCast]
    push_cast
    rw [pow_two, mul_comm a, Int.mul_emod_mul_of_pos _ _ (by exact_mod_cast hN), mul_comm]
  push_cast
  rw [h2, Int.mul_ediv_cancel _ (by exact_mod_cast hN.ne')]

/-- Reduction modulo `N`. -/
def redN (N : Nat) : ZMod (N ^ 2) →+* ZMod N := ZMod.castHom (Dvd.intro_left N (by ring)) (ZMod N)

theorem redN_natCast (a : Nat) : redN N (a : ZMod (N ^ 2)) = (a : ZMod N) := by simp [redN]
theorem redN_intCast (a : Int) : redN N (a : ZMod (N ^ 2)) = (a : ZMod N) := by simp [redN]

theorem redN_oneAdd (a : Int) : redN N (oneAdd N a) = 1 := by
  simp [oneAdd, redN]

theorem exists_oneAdd (hN : 0 < N) {y : Ct N} (h : redN N y = 1) : ∃ a : Int, y = oneAdd N a := by
  have hN2 : NeZero (N ^ 2) := ⟨by positivity⟩
  have h0 : redN N (y - 1) = 0 := by rw [map_sub, h, map_one, sub_self]
  have h1 : (((y - 1).val : Nat) : ZMod (N ^ 2)) = y - 1 := ZMod.natCast_zmod_val _
  rw [← h1, redN_natCast, ZMod.natCast_eq_zero_iff] at h0
  obtain ⟨k, hk⟩ := h0
  refine ⟨k, ?_⟩
  have : y = 1 + (y - 1) := by ring
  rw [this, ← h1, hk]
  unfold oneAdd; push_cast; ring

end

/-! ### Decryption -/

theorem newModulo_ok {w bits pos N : Nat} (hodd : N % 2 = 1) (hpos : pos < N) (hb : N < 2 ^ bits) (hw : bits ≤ w) :
    ∃ v : Int, (SInt.newModulo w pos N bits : Out ε _) = .ok ⟨bits - 1, v⟩ ∧ Centred N pos v := by
  have hb1 : 1 ≤ bits := by
    rcases Nat.eq_zero_or_pos bits with h | h
    · subst h; omega
    · exact h
  have h2 : 2 ^ bits = 2 * 2 ^ (bits - 1) := by rw [← pow_succ']; congr 1; omega
  generalize 2 ^ (bits - 1) = P at h2
  unfold SInt.newModulo
  rw [if_neg (by omega), if_neg (by omega)]
  refine ⟨if pos > N / 2 then (pos : Int) - N else pos, ?_, ?_⟩
  · simp only
    rw [if_pos]
    refine ⟨by omega, ?_⟩
    have hP : (2 : Nat) ^ (bits - 1) = P := by
      have : 2 ^ bits = 2 * 2 ^ (bits - 1) := by rw [← pow_succ']; congr 1; omega
      omega
    rw [hP]
    split <;> omega
  · unfold Centred
    split
    · refine ⟨?_, by rw [abs_of_neg (by omega)]; omega⟩
      exact (Int.modEq_iff_dvd.2 ⟨1, by ring⟩)
    · refine ⟨Int.ModEq.refl _, by rw [abs_of_nonneg (by omega)]; omega⟩

/-- What a successfully built secret key contains. -/
structure KeyFacts {p q : Nat} (sk : SecretKey p q) : Prop where
  primes : PaillierPrimes p q
  totient : sk.totient = (p - 1) * (q - 1)
  invTotient : (sk.totient : ZMod (p * q)) * sk.invTotient = 1
  invModulus : p * q * sk.invModulus ≡ 1 [MOD sk.totient]
  invModulus_lt : sk.invModulus < sk.totient
  invPModQ : (p : ZMod q) * sk.invPModQ = 1
  constant_p : ZMod.castHom (Dvd.intro q rfl) (ZMod p) sk.nonsquareConstant = -1
  constant_q : ZMod.castHom (Dvd.intro_left p rfl) (ZMod q) sk.nonsquareConstant = 1

theorem Spec.PaillierPrimes.pos {p q : Nat} (h : PaillierPrimes p q) : 0 < p * q := Nat.mul_pos h.prime_p.pos h.prime_q.pos
theorem Spec.PaillierPrimes.odd {p q : Nat} (h : PaillierPrimes p q) : (p * q) % 2 = 1 := by
  rw [Nat.mul_mod, h.odd_p, h.odd_q]
theorem Spec.PaillierPrimes.totient {p q : Nat} (h : PaillierPrimes p q) : Nat.totient (p * q) = (p - 1) * (q - 1) := by
  rw [Nat.totient_mul ((Nat.coprime_primes h.prime_p h.prime_q).2 h.ne), Nat.totient_prime h.prime_p, Nat.totient_prime h.prime_q]
theorem Spec.PaillierPrimes.totient_gt {p q : Nat} (h : PaillierPrimes p q) : 1 < (p - 1) * (q - 1) := by
  have h1 := h.prime_p.two_le; have h2 := h.prime_q.two_le
  have h3 := h.odd_p; have h4 := h.odd_q
  have : 2 * 2 ≤ (p - 1) * (q - 1) := Nat.mul_le_mul (by omega) (by omega)
  omega

theorem SecretKey.new_ok {p q : Nat} (h : PaillierPrimes p q) :
    ∃ sk : SecretKey p q, (SecretKey.new p q : Out ε _) = .ok sk ∧ KeyFacts sk := by
  have hp := h.prime_p.pos; have hq := h.prime_q.pos
  have : NeZero (p * q) := ⟨h.pos.ne'⟩
  have : NeZero q := ⟨hq.ne'⟩
  have htg := h.totient_gt
  have hcop := h.coprime
  obtain ⟨tot, htot⟩ : ∃ tot, tot = (p - 1) * (q - 1) := ⟨_, rfl⟩
  rw [← htot] at htg hcop
  have : NeZero tot := ⟨by omega⟩
  have hpq : Nat.Coprime p q := (Nat.coprime_primes h.prime_p h.prime_q).2 h.ne
  set u1 := ZMod.unitOfCoprime tot hcop.symm with hu1
  set u2 := ZMod.unitOfCoprime (p * q) hcop with hu2
  set u3 := ZMod.unitOfCoprime p hpq with hu3
  have e1 : invMod? (tot : ZMod (p * q)) = some ((u1⁻¹ : (ZMod (p * q))ˣ) : ZMod (p * q)) := by
    rw [← invMod?_unit u1]; simp [hu1]
  have e2 : invMod? ((p * q : Nat) : ZMod tot) = some ((u2⁻¹ : (ZMod tot)ˣ) : ZMod tot) := by
    rw [← invMod?_unit u2]; simp [hu2]
  have e3 : invMod? (p : ZMod q) = some ((u3⁻¹ : (ZMod q)ˣ) : ZMod q) := by
    rw [← invMod?_unit u3]; simp [hu3]
  have hinv3 : (p : ZMod q) * ((u3⁻¹ : (ZMod q)ˣ) : ZMod q) = 1 := by
    have : (p : ZMod q) = (u3 : ZMod q) := by simp [hu3]
    rw [this, Units.mul_inv]
  refine ⟨⟨tot, ((u1⁻¹ : (ZMod (p * q))ˣ) : ZMod (p * q)), ((u2⁻¹ : (ZMod tot)ˣ) : ZMod tot).val, ((u3⁻¹ : (ZMod q)ˣ) : ZMod q),
    (((((u3⁻¹ : (ZMod q)ˣ) : ZMod q) + ((u3⁻¹ : (ZMod q)ˣ) : ZMod q) - 1).val * p + p - 1 : Nat) : ZMod (p * q))⟩, ?_, ?_⟩
  · clear_value u1 u2 u3
    subst htot
    unfold SecretKey.new publicModulusNew
    rw [if_neg (by omega), if_pos h.odd]
    simp only [Out.bind_ok, e1, e2, e3, Out.ofOptionPanic_some]
    rw [decide_eq_true (by omega), Out.assert_true, Out.bind_ok]
  · refine ⟨h, htot, ?_, ?_, ?_, hinv3, ?_, ?_⟩
    · have : (tot : ZMod (p * q)) = (u1 : ZMod (p * q)) := by simp [hu1]
      simp only
      rw [this, Units.mul_inv]
    · rw [← ZMod.natCast_eq_natCast_iff]
      push_cast
      rw [ZMod.natCast_zmod_val]
      have : ((p : ZMod tot) * (q : ZMod tot)) = (u2 : ZMod tot) := by simp [hu2]
      rw [this, Units.mul_inv]
    · exact ZMod.val_lt _
    · simp only [map_natCast]
      rw [show ∀ t, t * p + p - 1 = t * p + (p - 1) from fun t => by omega]
      push_cast
      rw [Nat.cast_sub hp]
      simp
    · simp only [map_natCast]
      rw [show ∀ t, t * p + p - 1 = t * p + (p - 1) from fun t => by omega]
      push_cast
      rw [Nat.cast_sub hp, ZMod.natCast_zmod_val]
      push_cast
      linear_combination 2 * hinv3

theorem decrypt_spec {p q w bits : Nat} {sk : SecretKey p q} (hk : KeyFacts sk) (hb : p * q < 2 ^ bits) (hw : bits ≤ w)
    {c : Ct (p * q)} {m : Int} (hc : c ^ sk.totient = oneAdd (p * q) (m * sk.totient)) :
    ∃ v : Int, (decrypt w bits sk c : Out ε _) = .ok ⟨bits - 1, v⟩ ∧ Centred (p * q) m v := by
  have hpos := hk.primes.pos
  have : NeZero (p * q) := ⟨hpos.ne'⟩
  have htle : sk.totient < 2 ^ bits := by
    rw [hk.totient]
    refine lt_of_le_of_lt ?_ hb
    exact Nat.mul_le_mul (Nat.sub_le _ _) (Nat.sub_le _ _)
  unfold decrypt powUnsigned
  rw [if_pos htle, powBounded_eq _ htle, hc]
  have hx := val_oneAdd_sub_one hpos (m * sk.totient)
  set x := (oneAdd (p * q) (m * sk.totient) - 1).val / (p * q) with hxdef
  have hxlt : x < p * q := by
    have : (x : Int) < (p * q : Nat) := by
      rw [hx]; exact Int.emod_lt_of_pos _ (by exact_mod_cast hpos)
    exact_mod_cast this
  have hxw : x < 2 ^ w := lt_of_lt_of_le (lt_trans hxlt hb) (Nat.pow_le_pow_right (by norm_num) hw)
  simp only
  rw [decide_eq_true hxw, Out.assert_true, Out.bind_ok]
  obtain ⟨v, hv, hcen⟩ := newModulo_ok (ε := ε) (w := w) (bits := bits) hk.primes.odd
    (ZMod.val_lt ((x : ZMod (p * q)) * sk.invTotient)) hb hw
  refine ⟨v, hv, hcen.1.trans ?_, hcen.2⟩
  rw [← ZMod.intCast_eq_intCast_iff, Int.cast_natCast, ZMod.natCast_zmod_val]
  have hxz : (x : ZMod (p * q)) = (m : ZMod (p * q)) * (sk.totient : ZMod (p * q)) := by
    have : ((x : Int) : ZMod (p * q)) = ((m * sk.totient : Int) : ZMod (p * q)) := by
      rw [hx, ZMod.intCast_mod]
    push_cast at this
    exact this
  rw [hxz, mul_assoc, hk.invTotient, mul_one]

/-- Every unit raised to `φ(N)` has the form `1 + xN`. -/
theorem pow_totient_unit {p q : Nat} {sk : SecretKey p q} (hk : KeyFacts sk) (u : (ZMod ((p * q) ^ 2))ˣ) :
    ∃ a : Int, (u : Ct (p * q)) ^ sk.totient = oneAdd (p * q) (a * sk.totient) := by
  have hpos := hk.primes.pos
  have h1 : redN (p * q) ((u : Ct (p * q)) ^ sk.totient) = 1 := by
    rw [map_pow]
    have : redN (p * q) (u : Ct (p * q)) = ((Units.map (redN (p * q)).toMonoidHom u : (ZMod (p * q))ˣ) : ZMod (p * q)) := rfl
    rw [this, hk.totient, ← hk.primes.totient, ← Units.val_pow_eq_pow_val, ZMod.pow_totient, Units.val_one]
  obtain ⟨x, hx⟩ := exists_oneAdd hpos h1
  refine ⟨x * (sk.invTotient.val : Int), ?_⟩
  rw [hx, oneAdd_eq_iff hpos, ← ZMod.intCast_eq_intCast_iff]
  push_cast
  have : NeZero (p * q) := ⟨hpos.ne'⟩
  rw [ZMod.natCast_zmod_val]
  linear_combination -(x : ZMod (p * q)) * hk.invTotient

/-- The `N`-th power of a unit disappears under `φ(N)`. -/
theorem powN_pow_totient {p q : Nat} {sk : SecretKey p q} (hk : KeyFacts sk) (u : (ZMod ((p * q) ^ 2))ˣ) :
    ((u : Ct (p * q)) ^ (p * q)) ^ sk.totient = 1 := by
  obtain ⟨a, ha⟩ := pow_totient_unit hk u
  rw [← pow_mul, Nat.mul_comm _ sk.totient, pow_mul, ha, ← oneAddUnit_val, ← Units.val_pow_eq_pow_val, ← oneAddUnit_pow, oneAddUnit_val,
    ← oneAdd_zero (N := p * q), oneAdd_eq_iff hk.primes.pos]
  rw [Int.modEq_zero_iff_dvd]
  exact ⟨a * sk.totient, by push_cast; ring⟩

theorem natCast_unit_sq {N rho : Nat} (h : Nat.Coprime rho N) : ∃ u : (ZMod (N ^ 2))ˣ, (u : ZMod (N ^ 2)) = (rho : ZMod (N ^ 2)) :=
  ⟨ZMod.unitOfCoprime rho (Nat.Coprime.pow_right 2 h), by simp⟩

theorem unit_pow_inv {p q : Nat} {sk : SecretKey p q} (hk : KeyFacts sk) (r : (ZMod (p * q))ˣ) :
    r ^ (p * q * sk.invModulus) = r := by
  obtain ⟨k, hk'⟩ : ∃ k, p * q * sk.invModulus = 1 + k * sk.totient := by
    have h1 := hk.invModulus
    have hge : 1 ≤ p * q * sk.invModulus := by
      rcases Nat.eq_zero_or_pos (p * q * sk.invModulus) with h0 | h0
      · rw [h0] at h1
        have htg := hk.primes.totient_gt
        rw [← hk.totient] at htg
        have h2 : 0 % sk.totient = 1 % sk.totient := h1
        rw [Nat.zero_mod, Nat.mod_eq_of_lt htg] at h2
        omega
      · exact h0
    obtain ⟨k, hk'⟩ := (Nat.modEq_iff_dvd' hge).1 h1.symm
    exact ⟨k, by rw [mul_comm k]; omega⟩
  rw [hk', pow_add, pow_one, mul_comm k, pow_mul, hk.totient, ← hk.primes.totient, ZMod.pow_totient, one_pow, mul_one]

/-- A ciphertext is a unit modulo `N²`; every unit arises as `(1 + mN) r^N` with `r` recovered by the key holder. -/
theorem derive_spec {p q bits : Nat} {sk : SecretKey p q} (hk : KeyFacts sk) (hb : p * q < 2 ^ bits) (c : Ct (p * q))
    (r : (ZMod (p * q))ˣ) (hr : redN (p * q) c = (r : ZMod (p * q)) ^ (p * q)) :
    deriveRandomizer bits sk c = (r : ZMod (p * q)).val := by
  have hpos := hk.primes.pos
  have : NeZero (p * q) := ⟨hpos.ne'⟩
  have : NeZero ((p * q) ^ 2) := ⟨by positivity⟩
  have hlt : sk.invModulus < 2 ^ bits := by
    refine lt_trans hk.invModulus_lt (lt_of_le_of_lt ?_ hb)
    rw [hk.totient]
    exact Nat.mul_le_mul (Nat.sub_le _ _) (Nat.sub_le _ _)
  unfold deriveRandomizer powUnsigned
  simp only
  rw [powBounded_eq _ hlt, ZMod.natCast_mod, ← redN_natCast, ZMod.natCast_zmod_val, hr, ← pow_mul]
  rw [← Units.val_pow_eq_pow_val, unit_pow_inv hk]

end Synedrion
