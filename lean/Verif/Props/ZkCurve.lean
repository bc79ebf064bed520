import Verif.Model.ZkCurve
import Verif.Lemmas.Toy
import Mathlib.Tactic.LinearCombination
import Mathlib.Tactic.Module
import Mathlib.Tactic.Abel
import Mathlib.Algebra.Module.Basic

/-!
# Properties C25, C26: Schnorr proofs and dlog-with-El-Gamal proofs
-/

set_option linter.unusedSectionVars false

namespace Synedrion.Props

variable {F G Aux : Type} [Field F] [AddCommGroup G] [Module F G] [DecidableEq F] [DecidableEq G]

/-! ## C25 -/

/-- **C25 (completeness).** A proof made with the secret of `X = x g` and the commitment secret of `A = alpha g` verifies, whatever the hash. -/
theorem C25_complete (H : SchHash G Aux → F) (g : G) (alpha x : F) (aux : Aux) :
    (SchProof.prove H alpha x (schCommitment g alpha) (x • g) aux).verify H g (schCommitment g alpha) (x • g) aux = true := by
  simp only [SchProof.verify, SchProof.prove, schCommitment, decide_true, Bool.true_and]
  refine decide_eq_true ?_
  module

/-- **C25 (decision).** Verification accepts exactly when the challenge in the proof is the hash of the context and `A + e X = z g`. -/
theorem C25_accepts_iff (H : SchHash G Aux → F) (g : G) (prf : SchProof F) (capA capX : G) (aux : Aux) :
    prf.verify H g capA capX aux = true ↔
      prf.challenge = H ⟨aux, capX, capA⟩ ∧ capA + prf.challenge • capX = prf.proof • g := by
  simp only [SchProof.verify, Bool.and_eq_true, decide_eq_true_eq]
  constructor
  · rintro ⟨h1, h2⟩; exact ⟨h1.symm, by rw [← h1]; exact h2⟩
  · rintro ⟨h1, h2⟩; exact ⟨h1.symm, by rw [← h1]; exact h2⟩

/-- **C25 (special soundness).** Two accepted proofs for the same commitment and statement with different challenges (under whatever hash
functions) give the discrete logarithm of `X`. -/
theorem C25_special_soundness (H H' : SchHash G Aux → F) (g : G) (prf prf' : SchProof F) (capA capX : G) (aux aux' : Aux)
    (h : prf.verify H g capA capX aux = true) (h' : prf'.verify H' g capA capX aux' = true) (hne : prf.challenge ≠ prf'.challenge) :
    capX = ((prf.proof - prf'.proof) / (prf.challenge - prf'.challenge)) • g := by
  obtain ⟨_, e1⟩ := (C25_accepts_iff ..).1 h
  obtain ⟨_, e2⟩ := (C25_accepts_iff ..).1 h'
  have hd : prf.challenge - prf'.challenge ≠ 0 := sub_ne_zero.2 hne
  have : (prf.challenge - prf'.challenge) • capX = (prf.proof - prf'.proof) • g := by
    rw [sub_smul, sub_smul, ← e1, ← e2]; abel
  rw [div_eq_inv_mul, mul_smul, ← this, smul_smul, inv_mul_cancel₀ hd, one_smul]

section Examples
attribute [local instance] Toy.fact11

/-- A toy hash on `ZMod 11`. -/
private def toyHash : SchHash (ZMod 11) Nat → ZMod 11 := fun h => 3 * h.capX + 5 * h.commitment + h.aux

private def toyA : ZMod 11 := schCommitment (1 : ZMod 11) (4 : ZMod 11)
private def toyProof : SchProof (ZMod 11) := SchProof.prove toyHash 4 7 toyA 7 9
private def toyProof' : SchProof (ZMod 11) := SchProof.prove (fun h => toyHash h + 1) 4 7 toyA 7 9

example : toyProof.verify toyHash 1 toyA 7 9 = true := by decide +kernel

/-- The verifier does reject: the same proof for another statement. -/
example : toyProof.verify toyHash 1 toyA 8 9 = false := by decide +kernel

/-- Two answers with different hash functions recover the secret 7. -/
example : toyProof'.verify (fun h => toyHash h + 1) 1 toyA 7 9 = true ∧ toyProof.challenge ≠ toyProof'.challenge ∧
    (toyProof.proof - toyProof'.proof) / (toyProof.challenge - toyProof'.challenge) = (7 : ZMod 11) := by
  decide +kernel
end Examples

/-! ## C26 -/

/-- The relation proved by elog proofs (CGGMP'24, Fig. 23): `L = lambda g`, `M = y g + lambda X`, `Y = y h`. -/
def ElogRelation (g : G) (pub : ElogPublic G) (y lambda : F) : Prop :=
  pub.capL = lambda • g ∧ pub.capM = y • g + lambda • pub.capX ∧ pub.capY = y • pub.h

/-- **C26 (decision).** Verification accepts exactly when the challenge matches and the three equations hold. -/
theorem C26_accepts_iff (H : ElogHash G Aux → F) (g : G) (prf : ElogProof F G) (pub : ElogPublic G) (aux : Aux) :
    prf.verify H g pub aux = true ↔
      prf.e = H ⟨prf.capA, prf.capN, prf.capB, pub.capL, pub.capM, pub.capX, pub.capY, pub.h, aux⟩ ∧
      prf.z • g = prf.capA + prf.e • pub.capL ∧
      prf.u • g + prf.z • pub.capX = prf.capN + prf.e • pub.capM ∧
      prf.u • pub.h = prf.capB + prf.e • pub.capY := by
  simp only [ElogProof.verify]
  constructor
  · intro h
    split_ifs at h with a b c d
    rw [not_not] at a b c d
    exact ⟨a.symm, a ▸ b, a ▸ c, a ▸ d⟩
  · rintro ⟨a, b, c, d⟩
    rw [if_neg (by rw [not_not]; exact a.symm), ← a, if_neg (by rw [not_not]; exact b), if_neg (by rw [not_not]; exact c),
      if_neg (by rw [not_not]; exact d)]

/-- **C26 (completeness).** An honest proof of a true statement verifies, for all masks and hash functions. -/
theorem C26_complete (H : ElogHash G Aux → F) (g : G) (pub : ElogPublic G) (y lambda : F) (aux : Aux) (alpha m : F)
    (hrel : ElogRelation g pub y lambda) : (ElogProof.prove H g y lambda pub aux alpha m).verify H g pub aux = true := by
  obtain ⟨h1, h2, h3⟩ := hrel
  rw [C26_accepts_iff]
  refine ⟨rfl, ?_, ?_, ?_⟩
  · simp only [ElogProof.prove]; rw [h1]; module
  · simp only [ElogProof.prove]; rw [h2]; module
  · simp only [ElogProof.prove]; rw [h3]; module

/-- **C26 (special soundness).** Two accepted proofs with the same commitments for the same statement and different challenges yield
`(y, lambda)` satisfying the relation. -/
theorem C26_special_soundness (H H' : ElogHash G Aux → F) (g : G) (prf prf' : ElogProof F G) (pub : ElogPublic G) (aux aux' : Aux)
    (h : prf.verify H g pub aux = true) (h' : prf'.verify H' g pub aux' = true)
    (hA : prf.capA = prf'.capA) (hN : prf.capN = prf'.capN) (hB : prf.capB = prf'.capB) (hne : prf.e ≠ prf'.e) :
    ElogRelation g pub ((prf.u - prf'.u) / (prf.e - prf'.e)) ((prf.z - prf'.z) / (prf.e - prf'.e)) := by
  obtain ⟨_, a1, b1, c1⟩ := (C26_accepts_iff ..).1 h
  obtain ⟨_, a2, b2, c2⟩ := (C26_accepts_iff ..).1 h'
  have hd : prf.e - prf'.e ≠ 0 := sub_ne_zero.2 hne
  have solve : ∀ {X Y : G}, (prf.e - prf'.e) • X = Y → X = (prf.e - prf'.e)⁻¹ • Y := by
    intro X Y h; rw [← h, smul_smul, inv_mul_cancel₀ hd, one_smul]
  refine ⟨?_, ?_, ?_⟩
  · rw [div_eq_inv_mul, mul_smul]
    apply solve
    rw [sub_smul, sub_smul, a1, a2, hA]; abel
  · rw [div_eq_inv_mul, div_eq_inv_mul, mul_smul, mul_smul, ← smul_add]
    apply solve
    have : (prf.u - prf'.u) • g + (prf.z - prf'.z) • pub.capX
        = (prf.u • g + prf.z • pub.capX) - (prf'.u • g + prf'.z • pub.capX) := by module
    rw [this, b1, b2, hN, sub_smul]; abel
  · rw [div_eq_inv_mul, mul_smul]
    apply solve
    rw [sub_smul, sub_smul, c1, c2, hB]; abel

section Examples
attribute [local instance] Toy.fact11

private def toyElog : ElogPublic (ZMod 11) := ⟨5, 3 + 5 * 4, 4, 3 * 6, 6⟩

example : ElogRelation (F := ZMod 11) (1 : ZMod 11) toyElog 3 5 := by unfold ElogRelation toyElog; decide +kernel

private def toyElogHash : ElogHash (ZMod 11) Nat → ZMod 11 := fun h => h.capA + 2 * h.capN + 3 * h.capB + h.capL + h.capY + h.aux

example : (ElogProof.prove toyElogHash (1 : ZMod 11) 3 5 toyElog 1 2 9).verify toyElogHash 1 toyElog 1 = true := by decide +kernel
example : (ElogProof.prove toyElogHash (1 : ZMod 11) 3 6 toyElog 1 2 9).verify toyElogHash 1 toyElog 1 = false := by decide +kernel
end Examples

end Synedrion.Props
