import Verif.Spec.ZeroKnowledge
import Mathlib.NumberTheory.LegendreSymbol.JacobiSymbol

/-!
# Specification: the simulator of the proof about Paillier-Blum moduli
-/

namespace Synedrion.Spec

/-- The invertible residues modulo `N` with Jacobi symbol −1. -/
def jacobiMinus (N : Nat) : Finset Nat := (residues N).filter fun v => jacobiSym (v : Int) N = -1

/-- The choices of the mod simulator: a residue with Jacobi symbol −1, and for each challenge the sign, the factor and a residue. -/
def modSimChoices (N k : Nat) : Finset (Nat × (Fin k → Bool × Bool × Nat)) := jacobiMinus N ×ˢ repeated k (Finset.univ ×ˢ Finset.univ ×ˢ residues N)

/-- The `N`-th root of a challenge that the mod simulator can answer, from its choices. -/
def modSimRoot (N v : Nat) (c : Bool × Bool × Nat) : ZMod N :=
  (if c.1 then -1 else 1) * (if c.2.1 then (v : ZMod N)⁻¹ else 1) * (c.2.2 : ZMod N) ^ 8

/-- mod: here the challenges are part of the transcript. The simulator knows neither the factors nor how to find roots. -/
def modSim (N : Nat) {k : Nat} (c : Nat × (Fin k → Bool × Bool × Nat)) : ModProof where
  commitment := ((c.1 : ZMod N) ^ N).val
  challenge := List.ofFn fun i => (modSimRoot N c.1 (c.2 i) ^ N).val
  proof := List.ofFn fun i => ⟨((((c.2 i).2.2 : ZMod N) ^ 2) ^ N).val, (c.2 i).1, (c.2 i).2.1, (modSimRoot N c.1 (c.2 i)).val⟩

end Synedrion.Spec
