import Verif.Model.Timing

/-!
# Specification for C79: running time and secrets

Two computations look the same to an observer of the running time if, when both succeed, they go through the same steps. (A failure is a panic,
which anybody can see.)
-/

namespace Synedrion.Spec

/-- Both computations, if they succeed, go through the same steps. -/
def SameSteps {ε α β : Type} (x : Timed ε α) (y : Timed ε β) : Prop := ∀ a b, x.out = .ok a → y.out = .ok b → x.steps = y.steps

/-- A program that calculates with secret numbers of one width, given as variables, and with public numbers. -/
inductive SecretProg (w : Nat) where
  | var (i : Nat)
  | neg (a : SecretProg w)
  | add (a b : SecretProg w)
  | sub (a b : SecretProg w)
  | mul (a b : SecretProg w)
  | addPublic (a : SecretProg w) (b : PublicSigned w)
  | mulPublic (a : SecretProg w) (b : PublicSigned w)
  /-- `assert_exponent_range`, and on with the number -/
  | inRange (exp : Nat) (a : SecretProg w)

/-- Running a program on given secrets -/
def SecretProg.run {ε : Type} {w : Nat} (secrets : Nat → SecretSigned w) : SecretProg w → Timed ε (SecretSigned w)
  | .var i => pure (secrets i)
  | .neg a => do Timing.neg (← a.run secrets)
  | .add a b => do Timing.add (← a.run secrets) (← b.run secrets)
  | .sub a b => do Timing.sub (← a.run secrets) (← b.run secrets)
  | .mul a b => do Timing.mul (← a.run secrets) (← b.run secrets)
  | .addPublic a b => do Timing.addPublic (← a.run secrets) b
  | .mulPublic a b => do Timing.mulPublic (← a.run secrets) b
  | .inRange exp a => do
    let v ← a.run secrets
    Timing.assertExponentRange v exp
    return v

end Synedrion.Spec
