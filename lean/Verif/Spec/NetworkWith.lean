import Verif.Spec.Network

/-!
# Executions with restricted messages
-/

namespace Synedrion.Spec.Machine

variable {I M S E R : Type} [DecidableEq I]

/-- The states an execution can get to if every message that is received is an allowed one (`allowed i j m`: the message `m` to `i` from `j`). The steps are those of `Step`. -/
inductive ReachableWith (P : Machine I M S E R) (honest : Set I) (allowed : I → I → M → Prop) (init : I → S) : Net I M S E R → Prop where
  | start : ReachableWith P honest allowed init (P.start init)
  | receive {n : Net I M S E R} {i : I} {s : S} {got : List (I × M)} {j : I} {m : M} : ReachableWith P honest allowed init n → i ∈ honest → n.status i = .running s got →
      j ∈ P.expected s → j ∉ got.map Prod.fst → (j ∈ honest → P.Sent n j i (P.round s) m) → allowed i j m →
      ReachableWith P honest allowed init { n with status := Function.update n.status i (P.received s got j m) }
  | advance {n : Net I M S E R} {i : I} {s : S} {got : List (I × M)} : ReachableWith P honest allowed init n → i ∈ honest → n.status i = .running s got →
      (got.map Prod.fst).toFinset = P.expected s →
      ReachableWith P honest allowed init ⟨Function.update n.status i (P.advanced s got), Function.update n.begun i (n.begun i ++ fresh (P.advanced s got)),
        Function.update n.past i (n.past i ++ [(s, got)])⟩
  | crash {n : Net I M S E R} {i : I} {s : S} {got : List (I × M)} : ReachableWith P honest allowed init n → i ∈ honest → n.status i = .running s got →
      ReachableWith P honest allowed init { n with status := Function.update n.status i .crashed }

end Synedrion.Spec.Machine
