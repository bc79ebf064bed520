import Verif.Model.DebugOutput

/-!
# What debugging output shows
-/

namespace Synedrion.Spec

/-- What is printed is determined by the given part of the printed value: two values that agree in that part print the same. -/
def ShowsOnly {α β γ : Type} (print : α → β) (part : α → γ) : Prop := ∀ a b, part a = part b → print a = print b

/-- Printed Montgomery parameters show their modulus. (In `crypto-bigint` the type derives `Debug`, and the modulus is one of its fields.) -/
def ParamsShown {I F G S V : Type} (pr : Printers I F G S V) : Prop := Function.Injective pr.params

/-- The field at the end of a path of field names -/
def Field {V : Type} : List String → Dbg V → Option (Dbg V)
  | [], d => some d
  | name :: path, .node _ fields => (fields.find? fun f => f.1 == name).bind fun f => Field path f.2
  | _ :: _, _ => none

/-- The public part of a threshold key share: everything but the secret share -/
def publicThreshold {I F G : Type} [LinearOrder I] (k : ThresholdKeyShare I F G) : I × Nat × BMap I F × BMap I G :=
  (k.owner, k.threshold, k.shareIds, k.publicShares)

/-- The public part of the state of an old holder during resharing: everything but the coefficients of its polynomial -/
def publicOld {F G : Type} (o : KeyResharing.OldData F G) : F × Nat × List G := (o.shareId, o.polynomial.length, o.publicPolynomial)

end Synedrion.Spec
