/-!
# Specification: integers and the paper's intervals
-/

namespace Synedrion.Spec

/-- The interval the paper writes `±2^exp`: `[-2^(exp-1)+1, 2^(exp-1)]` (CGGMP'24, Section 3). -/
def InPm (exp : Nat) (v : Int) : Prop :=
  -(2 : Int) ^ (exp - 1) + 1 ≤ v ∧ v ≤ 2 ^ (exp - 1)

instance (exp : Nat) (v : Int) : Decidable (InPm exp v) := by unfold InPm; infer_instance

/-- The scaled interval `±s·2^exp`, shifted by one like the unscaled one. -/
def InPmScaled (exp scale : Nat) (v : Int) : Prop :=
  -((scale : Int) * 2 ^ (exp - 1)) + 1 ≤ v ∧ v ≤ (scale : Int) * 2 ^ (exp - 1)

end Synedrion.Spec
