import Verif.Spec.SecretRns
import Verif.Lemmas.SecretKeys

/-!
# Helper lemmas about numbers modulo both primes, in memory
-/

namespace Synedrion.SecretRns

open Spec Spec.KeyMemory SecretBox SecretBounded SecretKeys Function

variable {m₀ : Mem Nat} {base : Plain Nat} {l : List (Nat × Nat)} {g : List Nat} {α β : Type}

theorem ex_nonzeroOf (i : Nat) {p v : Nat} (hi : l[i]? = some (p, v)) : Ex m₀ base (nonzeroOf p) l g fun r l' g' => l' = (r, v) :: l ∧ g' = g := by
  refine ex_initWith ((ex_copy i hi).bind fun w _ _ h => ?_)
  obtain ⟨rfl, rfl⟩ := h
  refine (ex_expose 0 rfl).bind fun _ _ _ h => ?_
  obtain ⟨⟨rfl, rfl⟩, rfl⟩ := h
  refine (ex_wipe 0 rfl).bind fun _ _ _ h => ?_
  obtain ⟨rfl, rfl⟩ := h
  exact .pure ⟨⟨rfl, rfl⟩, rfl⟩

theorem ex_split {p q : Nat} {k : Key} {sk : SecretKey p q} {elem : Nat} :
    Ex m₀ base (split k elem) (keyCells k sk) g fun r l' g' =>
      l' = (r.2, elem % q % q) :: (r.1, elem % p % p) :: keyCells k sk ∧ g' = elem % p :: elem % q :: elem % q :: elem % p :: g := by
  refine (ex_nonzeroOf 7 rfl).bind fun _ _ _ h => ?_
  obtain ⟨rfl, rfl⟩ := h
  refine (ex_expose 0 rfl).bind fun _ _ _ h => ?_
  obtain ⟨⟨rfl, rfl⟩, rfl⟩ := h
  refine (ex_alloc _).bind fun _ _ _ h => ?_
  obtain ⟨rfl, rfl⟩ := h
  refine (ex_wipe 1 rfl).bind fun _ _ _ h => ?_
  obtain ⟨rfl, rfl⟩ := h
  refine (ex_nonzeroOf 9 rfl).bind fun _ _ _ h => ?_
  obtain ⟨rfl, rfl⟩ := h
  refine (ex_expose 0 rfl).bind fun _ _ _ h => ?_
  obtain ⟨⟨rfl, rfl⟩, rfl⟩ := h
  refine (ex_alloc _).bind fun _ _ _ h => ?_
  obtain ⟨rfl, rfl⟩ := h
  refine (ex_wipe 1 rfl).bind fun _ _ _ h => ?_
  obtain ⟨rfl, rfl⟩ := h
  refine (ex_expose 1 rfl).bind fun _ _ _ h => ?_
  obtain ⟨⟨rfl, rfl⟩, rfl⟩ := h
  refine (ex_alloc _).bind fun _ _ _ h => ?_
  obtain ⟨rfl, rfl⟩ := h
  refine (ex_expose 1 rfl).bind fun _ _ _ h => ?_
  obtain ⟨⟨rfl, rfl⟩, rfl⟩ := h
  refine (ex_alloc _).bind fun _ _ _ h => ?_
  obtain ⟨rfl, rfl⟩ := h
  refine (ex_expose 9 rfl).bind fun _ _ _ h => ?_
  obtain ⟨⟨rfl, rfl⟩, rfl⟩ := h
  refine (ex_expose 1 rfl).bind fun _ _ _ h => ?_
  obtain ⟨⟨rfl, rfl⟩, rfl⟩ := h
  refine (ex_alloc _).bind fun _ _ _ h => ?_
  obtain ⟨rfl, rfl⟩ := h
  refine (ex_forget 2 rfl).bind fun _ _ _ h => ?_
  obtain ⟨rfl, rfl⟩ := h
  refine (ex_expose 8 rfl).bind fun _ _ _ h => ?_
  obtain ⟨⟨rfl, rfl⟩, rfl⟩ := h
  refine (ex_expose 1 rfl).bind fun _ _ _ h => ?_
  obtain ⟨⟨rfl, rfl⟩, rfl⟩ := h
  refine (ex_alloc _).bind fun _ _ _ h => ?_
  obtain ⟨rfl, rfl⟩ := h
  refine (ex_forget 2 rfl).bind fun _ _ _ h => ?_
  obtain ⟨rfl, rfl⟩ := h
  refine (ex_forget 2 rfl).bind fun _ _ _ h => ?_
  obtain ⟨rfl, rfl⟩ := h
  refine (ex_forget 2 rfl).bind fun _ _ _ h => ?_
  obtain ⟨rfl, rfl⟩ := h
  exact .pure ⟨rfl, rfl⟩

theorem ex_sqrtPart (i : Nat) {n a primeBits : Nat} {x : ZMod n} (hn : n ≠ 0) (hi : l[i]? = some (a, n)) :
    Ex m₀ base (sqrtPart primeBits a x) l g fun r l' g' =>
      if candidate primeBits x * candidate primeBits x = x then ∃ c, r = some c ∧ l' = (c, (candidate primeBits x).val) :: l ∧ g' = (candidate primeBits x * candidate primeBits x).val :: g
      else r = none ∧ l' = l ∧ g' = (candidate primeBits x).val :: (candidate primeBits x * candidate primeBits x).val :: g := by
  have : NeZero n := ⟨hn⟩
  refine (ex_box₁ (f := fun v => v / 4 + 1) i hi).bind fun w _ _ h => ?_
  obtain ⟨rfl, rfl⟩ := h
  refine (ex_expose 0 rfl).bind fun _ _ _ h => ?_
  obtain ⟨⟨rfl, rfl⟩, rfl⟩ := h
  refine (ex_alloc _).bind fun c _ _ h => ?_
  obtain ⟨rfl, rfl⟩ := h
  refine (ex_expose 0 rfl).bind fun _ _ _ h => ?_
  obtain ⟨⟨rfl, rfl⟩, rfl⟩ := h
  refine (ex_expose 0 rfl).bind fun _ _ _ h => ?_
  obtain ⟨⟨rfl, rfl⟩, rfl⟩ := h
  refine (ex_alloc _).bind fun _ _ _ h => ?_
  obtain ⟨rfl, rfl⟩ := h
  refine (ex_expose 0 rfl).bind fun _ _ _ h => ?_
  obtain ⟨⟨rfl, rfl⟩, rfl⟩ := h
  refine (ex_forget 0 rfl).bind fun _ _ _ h => ?_
  obtain ⟨rfl, rfl⟩ := h
  rw [ZMod.natCast_zmod_val, ZMod.natCast_zmod_val]
  have e : powBounded x (n / 4 + 1) (primeBits - 1) = candidate primeBits x := rfl
  rw [e]
  by_cases hc : candidate primeBits x * candidate primeBits x = x
  · rw [if_pos hc]
    simp only [if_pos hc]
    refine (ex_wipe 1 rfl).bind fun _ _ _ h => ?_
    obtain ⟨rfl, rfl⟩ := h
    exact .pure ⟨c, rfl, rfl, rfl⟩
  · rw [if_neg hc]
    simp only [if_neg hc]
    refine (ex_forget 0 rfl).bind fun _ _ _ h => ?_
    obtain ⟨rfl, rfl⟩ := h
    refine (ex_wipe 0 rfl).bind fun _ _ _ h => ?_
    obtain ⟨rfl, rfl⟩ := h
    exact .pure ⟨rfl, rfl, rfl⟩

theorem ex_sqrt {p q primeBits : Nat} {k : Key} {sk : SecretKey p q} {rns : ZMod p × ZMod q} (hp : p ≠ 0) (hq : q ≠ 0) :
    Ex m₀ base (sqrt k primeBits rns) (keyCells k sk) g fun r l' g' =>
      match rnsSqrt primeBits rns with
      | some y => ∃ a b, r = some (a, b) ∧ l' = (b, y.2.val) :: (a, y.1.val) :: keyCells k sk ∧ ∀ u, u ∈ g' ↔ u = rns.1.val ∨ u = rns.2.val ∨ u ∈ g
      | none => r = none ∧ l' = keyCells k sk ∧ ∀ u, u ∈ g' ↔ u = (candidate primeBits rns.1).val ∨ u = (candidate primeBits rns.2).val ∨
          u = (candidate primeBits rns.1 * candidate primeBits rns.1).val ∨ u = (candidate primeBits rns.2 * candidate primeBits rns.2).val ∨ u ∈ g := by
  refine (ex_sqrtPart 7 hp rfl).bind fun pRes _ _ h => ?_
  by_cases h1 : candidate primeBits rns.1 * candidate primeBits rns.1 = rns.1
  · have e1 : Synedrion.sqrtPart primeBits rns.1 = some (candidate primeBits rns.1) := if_pos h1
    rw [if_pos h1] at h
    obtain ⟨a, rfl, rfl, rfl⟩ := h
    refine (ex_sqrtPart 9 hq rfl).bind fun qRes _ _ h => ?_
    by_cases h2 : candidate primeBits rns.2 * candidate primeBits rns.2 = rns.2
    · have e2 : Synedrion.sqrtPart primeBits rns.2 = some (candidate primeBits rns.2) := if_pos h2
      rw [if_pos h2] at h
      obtain ⟨b, rfl, rfl, rfl⟩ := h
      have e : rnsSqrt primeBits rns = some (candidate primeBits rns.1, candidate primeBits rns.2) := by simp only [rnsSqrt, e1, e2]
      refine .pure ?_
      rw [e]
      refine ⟨a, b, rfl, rfl, fun u => ?_⟩
      rw [h1, h2]
      simp only [List.mem_cons]
      tauto
    · have e2 : Synedrion.sqrtPart primeBits rns.2 = none := if_neg h2
      rw [if_neg h2] at h
      obtain ⟨rfl, rfl, rfl⟩ := h
      refine (ex_forget 0 rfl).bind fun _ _ _ h => ?_
      obtain ⟨rfl, rfl⟩ := h
      have e : rnsSqrt primeBits rns = none := by simp only [rnsSqrt, e1, e2]
      refine .pure ?_
      rw [e]
      refine ⟨rfl, rfl, fun u => ?_⟩
      simp only [List.mem_cons]
      tauto
  · have e1 : Synedrion.sqrtPart primeBits rns.1 = none := if_neg h1
    rw [if_neg h1] at h
    obtain ⟨rfl, rfl, rfl⟩ := h
    refine (ex_sqrtPart 8 hq rfl).bind fun qRes _ _ h => ?_
    by_cases h2 : candidate primeBits rns.2 * candidate primeBits rns.2 = rns.2
    · have e2 : Synedrion.sqrtPart primeBits rns.2 = some (candidate primeBits rns.2) := if_pos h2
      rw [if_pos h2] at h
      obtain ⟨b, rfl, rfl, rfl⟩ := h
      refine (Ex.pure (r := ()) (post := fun _ l' g' => l' = (b, (candidate primeBits rns.2).val) :: keyCells k sk ∧ g' = _) ⟨rfl, rfl⟩).bind fun _ _ _ h => ?_
      obtain ⟨rfl, rfl⟩ := h
      refine (ex_forget 0 rfl).bind fun _ _ _ h => ?_
      obtain ⟨rfl, rfl⟩ := h
      have e : rnsSqrt primeBits rns = none := by simp only [rnsSqrt, e1, e2]
      refine .pure ?_
      rw [e]
      refine ⟨rfl, rfl, fun u => ?_⟩
      simp only [List.mem_cons]
      tauto
    · have e2 : Synedrion.sqrtPart primeBits rns.2 = none := if_neg h2
      rw [if_neg h2] at h
      obtain ⟨rfl, rfl, rfl⟩ := h
      have e : rnsSqrt primeBits rns = none := by simp only [rnsSqrt, e1, e2]
      refine .pure ?_
      rw [e]
      refine ⟨rfl, rfl, fun u => ?_⟩
      simp only [List.mem_cons]
      tauto

theorem ex_join {p q : Nat} {k : Key} {sk : SecretKey p q} {rns : ZMod p × ZMod q} (hq : q ≠ 0) :
    Ex m₀ base (join k rns) (keyCells k sk) g fun r l' g' =>
      (r = rnsJoin sk rns ∧ l' = keyCells k sk) ∧ g' = rns.1.val :: digit sk rns.1 rns.2 :: rns.1.val :: p * digit sk rns.1 rns.2 :: digit sk rns.1 rns.2 :: (rns.2 - (rns.1.val : ZMod q)).val ::
        rns.1.val % q :: rns.2.val :: rns.1.val :: g := by
  have : NeZero q := ⟨hq⟩
  refine (ex_alloc _).bind fun _ _ _ h => ?_
  obtain ⟨rfl, rfl⟩ := h
  refine (ex_expose 0 rfl).bind fun _ _ _ h => ?_
  obtain ⟨⟨rfl, rfl⟩, rfl⟩ := h
  refine (ex_alloc _).bind fun _ _ _ h => ?_
  obtain ⟨rfl, rfl⟩ := h
  refine (ex_expose 0 rfl).bind fun _ _ _ h => ?_
  obtain ⟨⟨rfl, rfl⟩, rfl⟩ := h
  refine (ex_expose 6 rfl).bind fun _ _ _ h => ?_
  obtain ⟨⟨rfl, rfl⟩, rfl⟩ := h
  refine (ex_alloc _).bind fun _ _ _ h => ?_
  obtain ⟨rfl, rfl⟩ := h
  refine (ex_forget 1 rfl).bind fun _ _ _ h => ?_
  obtain ⟨rfl, rfl⟩ := h
  refine (ex_alloc _).bind fun _ _ _ h => ?_
  obtain ⟨rfl, rfl⟩ := h
  refine (ex_expose 0 rfl).bind fun _ _ _ h => ?_
  obtain ⟨⟨rfl, rfl⟩, rfl⟩ := h
  refine (ex_expose 1 rfl).bind fun _ _ _ h => ?_
  obtain ⟨⟨rfl, rfl⟩, rfl⟩ := h
  refine (ex_alloc _).bind fun _ _ _ h => ?_
  obtain ⟨rfl, rfl⟩ := h
  refine (ex_forget 1 rfl).bind fun _ _ _ h => ?_
  obtain ⟨rfl, rfl⟩ := h
  refine (ex_forget 1 rfl).bind fun _ _ _ h => ?_
  obtain ⟨rfl, rfl⟩ := h
  refine (ex_expose 0 rfl).bind fun _ _ _ h => ?_
  obtain ⟨⟨rfl, rfl⟩, rfl⟩ := h
  refine (ex_expose 3 rfl).bind fun _ _ _ h => ?_
  obtain ⟨⟨rfl, rfl⟩, rfl⟩ := h
  refine (ex_alloc _).bind fun _ _ _ h => ?_
  obtain ⟨rfl, rfl⟩ := h
  refine (ex_forget 1 rfl).bind fun _ _ _ h => ?_
  obtain ⟨rfl, rfl⟩ := h
  refine (ex_expose 0 rfl).bind fun _ _ _ h => ?_
  obtain ⟨⟨rfl, rfl⟩, rfl⟩ := h
  refine (ex_alloc _).bind fun _ _ _ h => ?_
  obtain ⟨rfl, rfl⟩ := h
  refine (ex_forget 1 rfl).bind fun _ _ _ h => ?_
  obtain ⟨rfl, rfl⟩ := h
  refine (ex_expose 1 rfl).bind fun _ _ _ h => ?_
  obtain ⟨⟨rfl, rfl⟩, rfl⟩ := h
  refine (ex_alloc _).bind fun _ _ _ h => ?_
  obtain ⟨rfl, rfl⟩ := h
  refine (ex_expose 10 rfl).bind fun _ _ _ h => ?_
  obtain ⟨⟨rfl, rfl⟩, rfl⟩ := h
  refine (ex_expose 1 rfl).bind fun _ _ _ h => ?_
  obtain ⟨⟨rfl, rfl⟩, rfl⟩ := h
  refine (ex_alloc _).bind fun _ _ _ h => ?_
  obtain ⟨rfl, rfl⟩ := h
  refine (ex_expose 1 rfl).bind fun _ _ _ h => ?_
  obtain ⟨⟨rfl, rfl⟩, rfl⟩ := h
  refine (ex_expose 0 rfl).bind fun _ _ _ h => ?_
  obtain ⟨⟨rfl, rfl⟩, rfl⟩ := h
  refine (ex_forget 0 rfl).bind fun _ _ _ h => ?_
  obtain ⟨rfl, rfl⟩ := h
  refine (ex_forget 0 rfl).bind fun _ _ _ h => ?_
  obtain ⟨rfl, rfl⟩ := h
  refine (ex_forget 0 rfl).bind fun _ _ _ h => ?_
  obtain ⟨rfl, rfl⟩ := h
  refine (ex_forget 0 rfl).bind fun _ _ _ h => ?_
  obtain ⟨rfl, rfl⟩ := h
  refine .pure ⟨⟨?_, rfl⟩, ?_⟩
  · simp only [rnsJoin, ZMod.natCast_zmod_val, ZMod.natCast_mod]
  · simp only [digit, ZMod.natCast_zmod_val, ZMod.natCast_mod]

/-- A number below `q`, times `p`, has only `p` in common with `p * q`. -/
theorem gcd_mul_digit {p q x : Nat} (hq : q.Prime) (h0 : x ≠ 0) (hx : x < q) : Nat.gcd (p * x) (p * q) = p := by
  rw [Nat.gcd_mul_left, Nat.Coprime.gcd_eq_one (Nat.coprime_of_lt_prime h0 hx hq).symm, mul_one]

end Synedrion.SecretRns
