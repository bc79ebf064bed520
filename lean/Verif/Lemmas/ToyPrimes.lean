import Mathlib.NumberTheory.LucasPrimality
import Mathlib.Tactic.NormNum.Prime
import Verif.Spec.Residues

/-!
# Two 128-bit primes for concrete cases

Primes of the size of the crate's test parameters, so that the hypotheses of the protocol theorems can be met by a concrete case.
-/

namespace Synedrion.Toy

/-- `2 * 3^21 * 5^40 + 1` -/
def primeP : Nat := 190272716336039593443274497985839843751
/-- `2 * 3^46 * 5^23 + 1` -/
def primeQ : Nat := 211308911315262343786454200744628906251

/-- Modular exponentiation by squaring, `n` steps. -/
private def powMod (m : Nat) : Nat → Nat → Nat → Nat
  | 0, _, _ => 1 % m
  | n + 1, a, e => if e = 0 then 1 % m else if e % 2 = 0 then powMod m n (a * a % m) (e / 2) else a * powMod m n (a * a % m) (e / 2) % m

private theorem powMod_eq (m n a e : Nat) (h : e < 2 ^ n) : powMod m n a e = a ^ e % m := by
  induction n generalizing a e with
  | zero => have : e = 0 := by omega
            subst this; rfl
  | succ n ih =>
    unfold powMod
    by_cases h0 : e = 0
    · subst h0; rfl
    rw [if_neg h0, ih _ _ (by rw [pow_succ] at h; omega), ← Nat.pow_mod, ← pow_two, ← pow_mul]
    by_cases h1 : e % 2 = 0
    · rw [if_pos h1, show 2 * (e / 2) = e by omega]
    · rw [if_neg h1, Nat.mul_mod, Nat.mod_mod, ← Nat.mul_mod, ← pow_succ', show 2 * (e / 2) + 1 = e by omega]

private theorem pow_iff {p : Nat} (a e : Nat) (hp : 1 < p) : ((a : ZMod p) ^ e = 1) ↔ powMod p (e + 1).log2.succ a e = 1 := by
  rw [powMod_eq _ _ _ _ (lt_trans (Nat.lt_succ_self e) (Nat.lt_log2_self)), ← Nat.cast_pow, show (1 : ZMod p) = ((1 : Nat) : ZMod p) by simp, ZMod.natCast_eq_natCast_iff, Nat.ModEq, Nat.mod_eq_of_lt hp]

private theorem dvd_cases {a b q : Nat} (hq : q.Prime) (h : q ∣ 2 * 3 ^ a * 5 ^ b) : q = 2 ∨ q = 3 ∨ q = 5 := by
  rcases hq.dvd_mul.1 h with h | h
  · rcases hq.dvd_mul.1 h with h | h
    · exact .inl ((Nat.prime_dvd_prime_iff_eq hq Nat.prime_two).1 h)
    · exact .inr (.inl ((Nat.prime_dvd_prime_iff_eq hq Nat.prime_three).1 (hq.dvd_of_dvd_pow h)))
  · exact .inr (.inr ((Nat.prime_dvd_prime_iff_eq hq Nat.prime_five).1 (hq.dvd_of_dvd_pow h)))

theorem prime_primeP : primeP.Prime := by
  refine lucas_primality primeP ((7 : Nat) : ZMod primeP) ?_ ?_
  · rw [pow_iff _ _ (by decide)]; decide +kernel
  · intro q hq hd
    have : primeP - 1 = 2 * 3 ^ 21 * 5 ^ 40 := by decide
    rw [this] at hd
    rw [Ne, pow_iff _ _ (by decide)]
    rcases dvd_cases hq hd with rfl | rfl | rfl <;> decide +kernel

theorem prime_primeQ : primeQ.Prime := by
  refine lucas_primality primeQ ((2 : Nat) : ZMod primeQ) ?_ ?_
  · rw [pow_iff _ _ (by decide)]; decide +kernel
  · intro q hq hd
    have : primeQ - 1 = 2 * 3 ^ 46 * 5 ^ 23 := by decide
    rw [this] at hd
    rw [Ne, pow_iff _ _ (by decide)]
    rcases dvd_cases hq hd with rfl | rfl | rfl <;> decide +kernel

theorem primes : Spec.PaillierPrimes primeP primeQ where
  prime_p := prime_primeP
  prime_q := prime_primeQ
  ne := by decide
  odd_p := by decide
  odd_q := by decide
  coprime := by decide +kernel

end Synedrion.Toy
