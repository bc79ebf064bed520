import Mathlib.Data.ZMod.Basic
import Mathlib.Algebra.Field.ZMod

/-!
# A small field for the concrete cases beside the theorems

`ZMod 11`, ordered by representative. Enabled locally where examples need it.
-/

namespace Synedrion.Toy

theorem fact11 : Fact (Nat.Prime 11) := ⟨by decide⟩

/-- The order by representatives. -/
@[instance_reducible] def order11 : LinearOrder (ZMod 11) := inferInstanceAs (LinearOrder (Fin 11))

end Synedrion.Toy
