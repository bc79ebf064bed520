import Mathlib.Data.ZMod.Units
import Mathlib.Algebra.Module.Defs
import Verif.Spec.Ints

/-!
# Specification: the statements proved in zero knowledge
-/

namespace Synedrion.Spec

/-- `c` is the Paillier ciphertext of `m` with the randomizer `rho` modulo `N`: `(1 + N)^m rho^N = (1 + m N) rho^N` in `ℤ/N²`. -/
def Encrypts (N : Nat) (m : Int) (rho : Nat) (c : ZMod (N ^ 2)) : Prop :=
  c = (1 + (m : ZMod (N ^ 2)) * (N : ZMod (N ^ 2))) * (rho : ZMod (N ^ 2)) ^ N

end Synedrion.Spec
