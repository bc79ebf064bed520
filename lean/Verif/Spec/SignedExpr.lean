import Verif.Model.Signed

/-!
# Specification: arithmetic expressions over signed integers and their meaning in ℤ
-/

namespace Synedrion.Spec

/-- "The declared bit bound is truthful": the bound fits the type and `|value| < 2^bound`, where the value is read in
two's complement. -/
def Truthful (w bound : Nat) (value : BitVec w) : Prop :=
  bound < w ∧ value.toInt.natAbs < 2 ^ bound

instance (w bound : Nat) (value : BitVec w) : Decidable (Truthful w bound value) := by
  unfold Truthful; infer_instance

/-- Expressions a caller can build from secret and public signed integers. The index is the bit width of the result. -/
inductive SExpr : Nat → Type where
  | lit {w} (s : SecretSigned w) : SExpr w
  | zero {w} : SExpr (w + 1)
  | neg {w} (a : SExpr w) : SExpr w
  | add {w} (a b : SExpr w) : SExpr w
  | sub {w} (a b : SExpr w) : SExpr w
  | mul {w} (a b : SExpr w) : SExpr w
  | addPub {w} (a : SExpr w) (p : PublicSigned w) : SExpr w
  | mulPub {w} (a : SExpr w) (p : PublicSigned w) : SExpr w
  | mulWide {w₁ w₂} (a : SExpr w₁) (p : PublicSigned w₂) : SExpr (w₁ + w₂)
  | widen {w} (W : Nat) (h : w ≤ W) (a : SExpr w) : SExpr W

namespace SExpr

/-- All integers the expression starts from carry truthful bounds. -/
def LeavesTruthful : {w : Nat} → SExpr w → Prop
  | w, lit s => Truthful w s.bound s.value
  | _, zero => True
  | _, neg a => a.LeavesTruthful
  | _, add a b => a.LeavesTruthful ∧ b.LeavesTruthful
  | _, sub a b => a.LeavesTruthful ∧ b.LeavesTruthful
  | _, mul a b => a.LeavesTruthful ∧ b.LeavesTruthful
  | w, addPub a p => a.LeavesTruthful ∧ Truthful w p.bound p.value
  | w, mulPub a p => a.LeavesTruthful ∧ Truthful w p.bound p.value
  | _, @mulWide _ w₂ a p => a.LeavesTruthful ∧ Truthful w₂ p.bound p.value
  | _, widen _ _ a => a.LeavesTruthful

/-- The meaning over the integers. -/
def denote : {w : Nat} → SExpr w → Int
  | _, lit s => s.value.toInt
  | _, zero => 0
  | _, neg a => -a.denote
  | _, add a b => a.denote + b.denote
  | _, sub a b => a.denote - b.denote
  | _, mul a b => a.denote * b.denote
  | _, addPub a p => a.denote + p.value.toInt
  | _, mulPub a p => a.denote * p.value.toInt
  | _, mulWide a p => a.denote * p.value.toInt
  | _, widen _ _ a => a.denote

/-- Running the expression with the library's operations. -/
def run {ε : Type} : {w : Nat} → SExpr w → Out ε (SecretSigned w)
  | _, lit s => .ok s
  | _, zero => .ok SecretSigned.zero
  | _, neg a => a.run.bind fun x => .ok x.neg
  | _, add a b => a.run.bind fun x => b.run.bind fun y => x.add y
  | _, sub a b => a.run.bind fun x => b.run.bind fun y => x.sub y
  | _, mul a b => a.run.bind fun x => b.run.bind fun y => x.mul y
  | _, addPub a p => a.run.bind fun x => x.addPublic p
  | _, mulPub a p => a.run.bind fun x => x.mulPublic p
  | _, mulWide a p => a.run.bind fun x => x.mulWidePublic p
  | _, widen W _ a => a.run.bind fun x => x.toWide W

end SExpr
end Synedrion.Spec
