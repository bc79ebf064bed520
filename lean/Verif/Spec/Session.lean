import Mathlib.Data.List.Perm.Basic
import Mathlib.Data.Finset.Basic

/-!
# Deliveries of messages and joint random strings
-/

namespace Synedrion.Spec

/-- `arrivals` are the messages `msg j` of all parties `j` of `ids` other than `i`, each once, in some order. -/
def FromOthers {I M : Type} (ids : Finset I) (i : I) (msg : I → M) (arrivals : List (I × M)) : Prop :=
  (arrivals.map Prod.fst).Nodup ∧ ∀ a : I × M, a ∈ arrivals ↔ a.1 ∈ ids ∧ a.1 ≠ i ∧ a.2 = msg a.1

/-- `r` is the joint value of the contributions `l`: all have its length, and each of its bits is the parity of the contributed bits. The order of the
contributions does not matter. -/
def JointBits (l : List (List Bool)) (r : List Bool) : Prop :=
  (∀ x ∈ l, x.length = r.length) ∧
    ∀ k < r.length, r[k]? = some (decide (l.countP (fun x => decide (x[k]? = some true)) % 2 = 1))

end Synedrion.Spec
