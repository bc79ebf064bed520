import Verif.Model.Rounds
import Verif.Model.Signing

/-!
# Specification: consistent declarations of rounds
-/

namespace Synedrion.Spec

open Rounds

/-- The relations between the declared rounds: the entry round has no parents, is declared and all ids differ; children and parents are mutual; a round either produces the result or has
children or neither, but not both. -/
structure RoundGraph (w : Wiring) : Prop where
  entry : ∃ t ∈ w.transitions, t.id = w.entry ∧ t.parents = ∅
  distinct : w.roundIds.Nodup
  twoSided : ∀ a ∈ w.transitions, ∀ b ∈ w.transitions, b.id ∈ a.children ↔ a.id ∈ b.parents
  closed : ∀ a ∈ w.transitions, (∀ n ∈ a.children, n ∈ w.roundIds) ∧ (∀ n ∈ a.parents, n ∈ w.roundIds) ∧ ∀ n ∈ a.siblings, n ∈ w.roundIds
  result : ∀ a ∈ w.transitions, a.mayProduceResult = true → a.children = ∅

section
open Signing
variable {q : Nat} {I Ep G : Type} [LinearOrder I]

/-- The id of the round that follows round 3 of signing: src/protocols/interactive_signing.rs:1932-1990 go on with `Round5`, `Round6` and `Round4`. -/
def after3Id : After3 q I Ep G → Nat
  | .round4 _ => 4
  | .error r => if r.hat then 6 else 5

end

end Synedrion.Spec
