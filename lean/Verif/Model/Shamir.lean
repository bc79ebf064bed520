import Verif.Model.Out
import Verif.Model.BMap
import Mathlib.Algebra.Module.Defs
import Mathlib.Algebra.Field.Defs
import Mathlib.Algebra.BigOperators.Group.List.Basic

/-!
# Shamir secret sharing (`src/tools/sss.rs`) and additive splitting (`src/curve/arithmetic.rs`)

`F` is the scalar field, ordered as the code orders scalars (by some total order); `C` is the type of coefficients, an `F`-module
(scalars or curve points); `g` is the generator.  `Secret<_>` is transparent.
-/

namespace Synedrion.Shamir

variable {ε : Type} {F : Type} [Field F] [LinearOrder F] {C : Type} [AddCommGroup C] [Module F C]

/-- `ShareId::new`, src/tools/sss.rs:17-24 -/
def shareId (F : Type) [Field F] (idx : Nat) : F := (idx : F)

/-- `shamir_evaluation_points`, src/tools/sss.rs:26-35: the points 1, 2, …, n. -/
def evaluationPoints (F : Type) [Field F] (numShares : Nat) : List F :=
  (List.range numShares).map fun i => shareId F (i + 1)

/-- The Horner loop shared by `evaluate_polynomial` (src/tools/sss.rs:46-50) and `Polynomial::evaluate`
(src/tools/sss.rs:72-76): `split_last`, then fold from the end. Panics on an empty list. -/
def horner (coeffs : List C) (x : F) : Out ε C :=
  match coeffs.reverse with
  | [] => .panic
  | acc :: rest => .ok (rest.foldl (fun acc coeff => x • acc + coeff) acc)

/-- `evaluate_polynomial`, src/tools/sss.rs:37-51, with its assertion `coeffs.len() > 1`. -/
def evaluatePolynomial (coeffs : List C) (x : F) : Out ε C :=
  (Out.assert (decide (coeffs.length > 1))).bind fun _ => horner coeffs x

/-- `Polynomial::random`, src/tools/sss.rs:60-67. `draw i` is the i-th draw of `Scalar::random_nonzero`. -/
def randomPolynomial (coeff0 : F) (degree : Nat) (draw : Nat → F) : List F :=
  coeff0 :: (List.range (degree - 1)).map draw

/-- `Polynomial::evaluate`, src/tools/sss.rs:69-77 -/
def evaluate (coeffs : List F) (x : F) : Out ε F := horner coeffs x

/-- `Polynomial::public`, src/tools/sss.rs:79-86 -/
def publicPolynomial (g : C) (coeffs : List F) : List C := coeffs.map fun c => c • g

/-- `PublicPolynomial::evaluate`, src/tools/sss.rs:97-99 -/
def publicEvaluate (coeffs : List C) (x : F) : Out ε C := evaluatePolynomial coeffs x

/-- `PublicPolynomial::coeff0`, src/tools/sss.rs:101-105 -/
def coeff0 (coeffs : List C) : Option C := coeffs.head?

/-- `shamir_split`, src/tools/sss.rs:108-119 -/
def split (secret : F) (threshold : Nat) (indices : List F) (draw : Nat → F) : Out ε (BMap F F) :=
  let polynomial := randomPolynomial secret threshold draw
  (Out.mapM' (fun idx => (evaluate polynomial idx).bind fun v => .ok (idx, v)) indices).bind fun l => .ok (BMap.ofList l)

/-- `interpolation_coeff`, src/tools/sss.rs:121-136. Inverting zero panics. -/
def interpolationCoeff (shareIds : List F) (shareId : F) : Out ε F :=
  (Out.mapM' (fun id => if id - shareId = 0 then .panic else .ok (id * (id - shareId)⁻¹))
    (shareIds.filter fun id => id ≠ shareId)).bind fun l => .ok l.prod

/-- `shamir_join_scalars`, src/tools/sss.rs:138-149 -/
def joinScalars (pairs : BMap F F) : Out ε F :=
  (Out.mapM' (fun p : F × F => (interpolationCoeff pairs.keys p.1).bind fun c => .ok (p.2 * c)) pairs.entries).bind
    fun l => .ok l.sum

/-- `shamir_join_points`, src/tools/sss.rs:151-159 -/
def joinPoints (pairs : BMap F C) : Out ε C :=
  (Out.mapM' (fun p : F × C => (interpolationCoeff pairs.keys p.1).bind fun c => .ok (c • p.2)) pairs.entries).bind
    fun l => .ok l.sum

/-- `secret_split`, src/curve/arithmetic.rs:158-174. `draw i` is the i-th draw of `Scalar::random_nonzero`.
`num - 1` underflows for `num = 0` (a panic in debug builds, an allocation failure otherwise). -/
def secretSplit (scalar : F) (num : Nat) (draw : Nat → F) : Out ε (List F) :=
  if num = 1 then .ok [scalar]
  else if num = 0 then .panic
  else
    let parts := (List.range (num - 1)).map draw
    .ok (parts ++ [scalar - parts.sum])

end Synedrion.Shamir
