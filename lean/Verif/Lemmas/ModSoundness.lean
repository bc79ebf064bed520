import Mathlib.GroupTheory.Perm.Cycle.Type
import Mathlib.GroupTheory.Index
import Mathlib.Data.ZMod.Basic
import Mathlib.Data.ZMod.Units
import Mathlib.FieldTheory.Finite.Basic
import Mathlib.NumberTheory.LegendreSymbol.Basic
import Mathlib.Data.Set.Card
import Mathlib.Data.Nat.Squarefree
import Mathlib.RingTheory.Coprime.Lemmas

/-!
# Counting answerable challenges

Helper facts for the soundness of the mod proof: how many residues are powers.
-/

namespace Synedrion

/-- At most `|C| / k` of a finite commutative group lies in `C` times the `n`-th powers, if there are at least `k` solutions of `x^n = 1`. -/
theorem ncard_cosets_of_powers {U : Type} [CommGroup U] [Finite U] (n k : Nat) (hk : k ≤ Nat.card {x : U // x ^ n = 1}) (C S : Set U)
    (hS : ∀ y ∈ S, ∃ c ∈ C, ∃ x, y = c * x ^ n) : k * S.ncard ≤ C.ncard * Nat.card U := by
  have h1 : S ⊆ (fun z : U × U => z.1 * z.2) '' (C ×ˢ ((powMonoidHom n : U →* U).range : Set U)) := by
    intro y hy
    obtain ⟨c, hc, x, rfl⟩ := hS y hy
    exact ⟨(c, x ^ n), ⟨hc, ⟨x, rfl⟩⟩, rfl⟩
  have h2 : S.ncard ≤ C.ncard * Nat.card (powMonoidHom n : U →* U).range := by
    refine (Set.ncard_le_ncard h1 (Set.toFinite _)).trans ((Set.ncard_image_le (Set.toFinite _)).trans ?_)
    rw [Set.ncard_prod]; rfl
  have h3 := Subgroup.card_mul_index (powMonoidHom n : U →* U).ker
  rw [Subgroup.index_ker] at h3
  have h4 : Nat.card (powMonoidHom n : U →* U).ker = Nat.card {x : U // x ^ n = 1} := by
    apply Nat.card_congr
    exact Equiv.subtypeEquivRight (fun x => by rw [MonoidHom.mem_ker]; rfl)
  rw [h4] at h3
  calc k * S.ncard ≤ Nat.card {x : U // x ^ n = 1} * (C.ncard * Nat.card (powMonoidHom n : U →* U).range) := Nat.mul_le_mul hk h2
    _ = C.ncard * (Nat.card {x : U // x ^ n = 1} * Nat.card (powMonoidHom n : U →* U).range) := by ring
    _ = _ := by rw [h3]

theorem two_le_card_of_ne {α : Type} [Finite α] {a b : α} (h : a ≠ b) : 2 ≤ Nat.card α := by
  have : Nontrivial α := ⟨a, b, h⟩
  exact Finite.one_lt_card

/-- If a prime divides both `N` and the order of the group then `x^N = 1` has a non-trivial solution. -/
theorem two_le_roots_of_prime_dvd {U : Type} [CommGroup U] [Finite U] {N r : Nat} (hr : r.Prime) (h1 : r ∣ N) (h2 : r ∣ Nat.card U) :
    2 ≤ Nat.card {x : U // x ^ N = 1} := by
  have : Fact r.Prime := ⟨hr⟩
  obtain ⟨u, hu⟩ := exists_prime_orderOf_dvd_card' r h2
  have hne : (⟨1, one_pow N⟩ : {x : U // x ^ N = 1}) ≠ ⟨u, by rw [← orderOf_dvd_iff_pow_eq_one, hu]; exact h1⟩ := by
    intro h
    have : (1 : U) = u := congrArg Subtype.val h
    rw [← this, orderOf_one] at hu
    exact hr.one_lt.ne hu
  exact two_le_card_of_ne hne

theorem card_roots_prod {U V : Type} [CommGroup U] [CommGroup V] (n : Nat) :
    Nat.card {x : U × V // x ^ n = 1} = Nat.card {x : U // x ^ n = 1} * Nat.card {x : V // x ^ n = 1} := by
  rw [← Nat.card_prod]
  apply Nat.card_congr
  exact
    { toFun := fun x => (⟨x.1.1, congrArg Prod.fst x.2⟩, ⟨x.1.2, congrArg Prod.snd x.2⟩)
      invFun := fun x => ⟨(x.1.1, x.2.1), Prod.ext x.1.2 x.2.2⟩
      left_inv := fun _ => rfl
      right_inv := fun _ => rfl }

theorem card_roots_congr {U V : Type} [CommGroup U] [CommGroup V] (e : U ≃* V) (n : Nat) :
    Nat.card {x : U // x ^ n = 1} = Nat.card {x : V // x ^ n = 1} := by
  apply Nat.card_congr
  exact e.toEquiv.subtypeEquiv (fun x => by
    change x ^ n = 1 ↔ (e x) ^ n = 1
    rw [← map_pow, MulEquiv.map_eq_one_iff])

/-- Solutions of `x^4 = 1` modulo a product of coprime numbers. -/
theorem card_roots_mul {a b : Nat} (hab : Nat.Coprime a b) :
    Nat.card {x : (ZMod (a * b))ˣ // x ^ 4 = 1} = Nat.card {x : (ZMod a)ˣ // x ^ 4 = 1} * Nat.card {x : (ZMod b)ˣ // x ^ 4 = 1} := by
  rw [← card_roots_prod]
  exact card_roots_congr ((Units.mapEquiv (ZMod.chineseRemainder hab).toMulEquiv).trans MulEquiv.prodUnits) 4

theorem neg_one_ne_one_unit {m : Nat} (hm : 2 < m) : (-1 : (ZMod m)ˣ) ≠ 1 := by
  intro h
  have h1 := congrArg Units.val h
  rw [Units.val_neg, Units.val_one] at h1
  have : Fact (2 < m) := ⟨hm⟩
  exact ZMod.neg_one_ne_one h1

theorem two_le_roots {m : Nat} (hm : 2 < m) : 2 ≤ Nat.card {x : (ZMod m)ˣ // x ^ 4 = 1} := by
  have : NeZero m := ⟨by omega⟩
  have hne : (⟨-1, by rw [show 4 = 2 * 2 from rfl, pow_mul]; simp⟩ : {x : (ZMod m)ˣ // x ^ 4 = 1}) ≠ ⟨1, one_pow 4⟩ := by
    intro h
    exact neg_one_ne_one_unit hm (congrArg Subtype.val h)
  exact two_le_card_of_ne hne

theorem four_le_roots {r : Nat} (hr : r.Prime) (h1 : r % 4 = 1) : 4 ≤ Nat.card {x : (ZMod r)ˣ // x ^ 4 = 1} := by
  have : Fact r.Prime := ⟨hr⟩
  have hr2 : 2 < r := by have := hr.two_le; omega
  have : NeZero r := ⟨by omega⟩
  obtain ⟨i, hi⟩ := (ZMod.exists_sq_eq_neg_one_iff (p := r)).2 (by omega)
  have hiu : i ≠ 0 := by rintro rfl; simp at hi
  set u := Units.mk0 i hiu with hu
  have hu2 : u * u = -1 := by ext; rw [Units.val_mul, Units.val_neg, Units.val_one]; exact hi.symm
  have hn1 := neg_one_ne_one_unit hr2
  have hu4 : u ^ 4 = 1 := by rw [show 4 = 2 * 2 from rfl, pow_mul, pow_two u, hu2]; simp
  have hnu4 : (-u) ^ 4 = 1 := by rw [show 4 = 2 * 2 from rfl, pow_mul, pow_two (-u), neg_mul_neg, hu2]; simp
  have hm4 : (-1 : (ZMod r)ˣ) ^ 4 = 1 := by rw [show 4 = 2 * 2 from rfl, pow_mul]; simp
  have hu1 : u ≠ 1 := by intro h; rw [h, one_mul] at hu2; exact hn1 hu2.symm
  have hum : u ≠ -1 := by intro h; rw [h, neg_mul_neg, one_mul] at hu2; exact hn1 hu2.symm
  let f : Fin 4 → {x : (ZMod r)ˣ // x ^ 4 = 1} := ![⟨1, one_pow 4⟩, ⟨-1, hm4⟩, ⟨u, hu4⟩, ⟨-u, hnu4⟩]
  have hne2 : u ≠ -u := by
    intro h
    have h2 : u * u = -u * u := by rw [← h]
    rw [neg_mul, hu2, neg_neg] at h2; exact hn1 h2
  have hnu1 : -u ≠ 1 := fun h => hum (by rw [← h, neg_neg])
  have hf : Function.Injective f := by
    intro a b hab
    have hab' := congrArg Subtype.val hab
    fin_cases a <;> fin_cases b <;> simp only [f] at hab' <;> first | rfl | (exfalso; simp at hab'; first | exact hn1 hab' | exact hn1 hab'.symm | exact hu1 hab' | exact hu1 hab'.symm | exact hum hab' | exact hum hab'.symm | exact hne2 hab' | exact hne2 hab'.symm | exact hnu1 hab' | exact hnu1 hab'.symm)
  have := Nat.card_le_card_of_injective f hf
  simpa using this

/-- An odd composite number coprime to its totient that is not a product of two distinct primes congruent to 3 modulo 4 has at least eight
fourth roots of unity. -/
theorem eight_le_roots {N : Nat} (hodd : N % 2 = 1) (h1 : 1 < N) (hnp : ¬ N.Prime) (hcop : Nat.Coprime N (Nat.totient N))
    (hnot : ¬ ∃ p q, p.Prime ∧ q.Prime ∧ p ≠ q ∧ p % 4 = 3 ∧ q % 4 = 3 ∧ N = p * q) :
    8 ≤ Nat.card {x : (ZMod N)ˣ // x ^ 4 = 1} := by
  have hsq : ∀ r m, r.Prime → N = r * m → Nat.Coprime r m := by
    intro r m hr hN
    rw [hr.coprime_iff_not_dvd]
    rintro ⟨k, rfl⟩
    have h2 : r ∣ Nat.totient N := by
      rw [hN, Nat.totient_mul_of_prime_of_dvd hr (Dvd.intro _ rfl)]
      exact Dvd.intro _ rfl
    have h3 : r ∣ N := ⟨_, hN⟩
    exact hr.one_lt.ne' (Nat.dvd_one.1 (hcop ▸ Nat.dvd_gcd h3 h2))
  -- a first prime factor
  obtain ⟨r, hr, m, hm⟩ := Nat.exists_prime_and_dvd h1.ne'
  have hcr := hsq r m hr hm
  have hoddOf : ∀ d, d ∣ N → d % 2 = 1 := by
    rintro d ⟨k, rfl⟩
    by_contra h
    have : d % 2 = 0 := by omega
    rw [Nat.mul_mod, this, zero_mul] at hodd; simp at hodd
  have hr2 : 2 < r := by
    have := hr.two_le
    have := hoddOf r ⟨m, hm⟩
    omega
  have hm1 : m ≠ 1 := by rintro rfl; rw [mul_one] at hm; exact hnp (hm ▸ hr)
  obtain ⟨r', hr', m', hm'⟩ := Nat.exists_prime_and_dvd hm1
  have hN' : N = r' * (r * m') := by rw [hm, hm']; ring
  have hcr' := hsq r' (r * m') hr' hN'
  have hr2' : 2 < r' := by
    have := hr'.two_le
    have := hoddOf r' ⟨_, hN'⟩
    omega
  have hcm : Nat.Coprime r m' := by rw [hm'] at hcr; exact hcr.coprime_mul_left_right
  rw [hN', card_roots_mul hcr', card_roots_mul hcm]
  have a1 := two_le_roots hr2
  have a2 := two_le_roots hr2'
  by_cases hm1' : m' = 1
  · subst hm1'
    have hN2 : N = r * r' := by rw [hN']; ring
    have hne : r ≠ r' := by
      rintro rfl
      rw [mul_one] at hcr'
      exact hr.one_lt.ne' ((Nat.coprime_self r).1 hcr')
    have a3 : 1 ≤ Nat.card {x : (ZMod 1)ˣ // x ^ 4 = 1} := by
      have : Nonempty {x : (ZMod 1)ˣ // x ^ 4 = 1} := ⟨⟨1, one_pow 4⟩⟩
      exact Nat.card_pos
    have hor : r % 4 = 1 ∨ r' % 4 = 1 := by
      by_contra hcon
      push Not at hcon
      have := hoddOf r ⟨_, hN2⟩
      have := hoddOf r' ⟨_, hN'⟩
      exact hnot ⟨r, r', hr, hr', hne, by omega, by omega, hN2⟩
    rcases hor with h | h
    · have := four_le_roots hr h
      calc 8 = 2 * (4 * 1) := rfl
        _ ≤ _ := Nat.mul_le_mul a2 (Nat.mul_le_mul this a3)
    · have := four_le_roots hr' h
      calc 8 = 4 * (2 * 1) := rfl
        _ ≤ _ := Nat.mul_le_mul this (Nat.mul_le_mul a1 a3)
  · have hm2 : 2 < m' := by
      have h2 := hoddOf m' ⟨r' * r, by rw [hN']; ring⟩
      omega
    have a3 := two_le_roots hm2
    calc 8 = 2 * (2 * 2) := rfl
      _ ≤ _ := Nat.mul_le_mul a2 (Nat.mul_le_mul a1 a3)

end Synedrion
