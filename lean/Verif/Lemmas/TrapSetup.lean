import Verif.Spec.TrapSetup
import Verif.Lemmas.Zk
import Verif.Lemmas.AuxGen

/-!
# Helper lemmas: commitments with parameters that hide nothing
-/

set_option linter.unusedSectionVars false

namespace Synedrion

open Spec

variable {ε : Type}

theorem trap_units (m : Nat) : ∃ s : (ZMod (m ^ 2))ˣ, (s : ZMod (m ^ 2)) = (trapSetup m).rp.s ∧
    ∀ x : Int, ((s ^ x : (ZMod (m ^ 2))ˣ) : ZMod (m ^ 2)) = 1 + (x : ZMod (m ^ 2)) * (m : ZMod (m ^ 2)) := by
  refine ⟨encU m 1 1, ?_, fun x => ?_⟩
  · rw [encU_val]
    show (1 + ((1 : Int) : ZMod (m ^ 2)) * (m : ZMod (m ^ 2))) * _ = 1 + (m : ZMod (m ^ 2))
    simp
  · rw [encU_zpow, one_zpow, one_mul, encU_val]
    show (1 + (x : ZMod (m ^ 2)) * (m : ZMod (m ^ 2))) * _ = _
    simp

theorem trap_valid (m : Nat) : (trapSetup m).rp.Valid := by
  obtain ⟨s, hs, -⟩ := trap_units m
  exact ⟨⟨s, hs⟩, isUnit_one⟩

/-- A commitment is read. -/
theorem trap_commit {m : Nat} (hm : 1 < m) {x r : SInt} (hx : x.Fits) (hr : r.Fits) :
    ∃ c, ((trapSetup m).rp.commitSecret x r : Out ε _) = .ok c ∧ (readCommitted m (commitmentToWire c) : Int) = x.val % m := by
  obtain ⟨s, hs, hpow⟩ := trap_units m
  refine ⟨_, commitSecret_unit (t := 1) hs rfl hx hr, ?_⟩
  have hc : ((comU s 1 x.val r.val : (ZMod (m ^ 2))ˣ) : ZMod (m ^ 2)) = 1 + (x.val : ZMod (m ^ 2)) * (m : ZMod (m ^ 2)) := by
    unfold comU; rw [one_zpow, mul_one, hpow]
  show (readCommitted m (ZMod.val (n := m ^ 2) ((comU s 1 x.val r.val : (ZMod (m ^ 2))ˣ) : ZMod (m ^ 2))) : Int) = _
  rw [hc]
  obtain ⟨n, hn⟩ : ∃ n : Nat, x.val % m = n := ⟨(x.val % m).toNat, (Int.toNat_of_nonneg (Int.emod_nonneg _ (by omega))).symm⟩
  have hlt : n < m := by have := Int.emod_lt_of_pos x.val (b := (m : Int)) (by omega); omega
  have hrep : (1 + (x.val : ZMod (m ^ 2)) * (m : ZMod (m ^ 2))) = ((1 + n * m : Nat) : ZMod (m ^ 2)) := by
    have h1 : x.val = m * (x.val / m) + n := by rw [← hn]; exact (Int.mul_ediv_add_emod _ _).symm
    have h2 : (m : ZMod (m ^ 2)) * (m : ZMod (m ^ 2)) = 0 := by
      rw [← Nat.cast_mul, ← pow_two]; exact ZMod.natCast_self _
    rw [h1]
    push_cast
    linear_combination ((x.val / m : Int) : ZMod (m ^ 2)) * h2
  have hsmall : 1 + n * m < m ^ 2 := by
    have : (n + 1) * m ≤ m * m := Nat.mul_le_mul_right m hlt
    nlinarith
  rw [hrep, ZMod.val_natCast, Nat.mod_eq_of_lt hsmall, hn]
  unfold readCommitted
  rw [Nat.add_sub_cancel_left, Nat.mul_div_cancel _ (by omega)]

theorem readPositive_eq {m c p : Nat} (hp0 : 0 < p) (hp : p ≤ m) (h : (readCommitted m c : Int) = (p : Int) % m) : readPositive m c = p := by
  unfold readPositive
  have h' : readCommitted m c = p % m := by exact_mod_cast h
  rw [h']
  rcases hp.lt_or_eq with h1 | rfl
  · rw [Nat.mod_eq_of_lt h1, if_neg (by omega)]
  · rw [Nat.mod_self, if_pos rfl]

theorem readScalar_eq {m q c : Nat} {x : Int} (hx : 2 * |x| < m) (h : (readCommitted m c : Int) = x % m) : readScalar m q c = (x : ZMod q) := by
  unfold readScalar
  rcases le_or_gt 0 x with h0 | h0
  · rw [abs_of_nonneg h0] at hx
    rw [Int.emod_eq_of_lt h0 (by omega)] at h
    rw [if_pos (by omega), ← h]; simp
  · rw [abs_of_neg h0] at hx
    have h1 : x % m = x + m := by
      rw [← Int.add_emod_right, Int.emod_eq_of_lt (by omega) (by omega)]
    rw [h1] at h
    rw [if_neg (by omega)]
    have h2 : x = (readCommitted m c : Int) - m := by omega
    rw [h2]; push_cast; ring

/-! ### What the proofs commit to -/

theorem FacProof.prove_commitments {Aux : Type} {P : Params} {H : FacHash Aux → SInt} {Nh p q' : Nat} {setup : RPParams Nh} {aux : Aux} {mask : FacMasks} {prf : FacProof}
    (h : (FacProof.prove P H p q' setup aux mask : Out ε _) = .ok prf) :
    ∃ pS qS cP cQ, (primeSigned P p : Out ε _) = .ok pS ∧ (primeSigned P q' : Out ε _) = .ok qS ∧ (setup.commitSecret pS mask.mu : Out ε _) = .ok cP ∧
      (setup.commitSecret qS mask.nu : Out ε _) = .ok cQ ∧ prf.capP = commitmentToWire cP ∧ prf.capQ = commitmentToWire cQ := by
  simp only [FacProof.prove, Out.bind_eq_ok] at h
  obtain ⟨pS, h1, qS, h2, cP, h3, cQ, h4, h⟩ := h
  refine ⟨pS, qS, cP, cQ, h1, h2, h3, h4, ?_⟩
  obtain ⟨_, _, _, _, _, _, _, _, _, _, _, _, _, _, _, _, _, _, h⟩ := h
  cases h
  exact ⟨rfl, rfl⟩

end Synedrion
