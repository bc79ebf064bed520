import Verif.Model.SecretBounded

/-!
# What operations on bounded secrets do, without memory

The results are those of `Model/Signed`, where a bounded secret is just a bound and a value.
-/

namespace Synedrion.Spec.BoundedOp

open SecretBox SecretBounded

/-- A secret that exists, of one of the three types -/
inductive Held where
  | raw {w : Nat} (v : BitVec w)
  | unsigned {w : Nat} (x : SecretUnsigned w)
  | signed {w : Nat} (x : SecretSigned w)

/-- Its bound -/
def Held.bound : Held → Nat
  | .raw _ => 0
  | .unsigned x => x.bound
  | .signed x => x.bound

/-- Its bits, as a number -/
def Held.value : Held → Nat
  | .raw v => v.toNat
  | .unsigned x => x.value.toNat
  | .signed x => x.value.toNat

/-- The secrets that exist -/
abbrev Live := Nat → Option Held

/-- An operation that may fail, and otherwise gives a secret -/
def new {α : Type} (f : α → Held) (o : Out Unit α) : Out Unit (Option Held) := o.bind fun x => .ok (some (f x))

/-- The operation may be called (its secrets exist, are of the right types, and are not given away twice or while they are used), and this is what it gives. -/
inductive Means (live : Live) : Op → Out Unit (Option Held) → Prop
  | box {w} (v : BitVec w) : Means live (.box w v) (.ok (some (.raw v)))
  | drop {a h} : live a = some h → Means live (.drop a) (.ok none)
  | clone {a h} : live a = some h → Means live (.clone ⟨h.bound, a⟩) (.ok (some h))
  | unsignedNew {w a bound} {v : BitVec w} : live a = some (.raw v) → Means live (.unsignedNew w a bound) (new .unsigned (.ofOption () (SecretUnsigned.new v bound)))
  | addMod {w a b m} {x y : SecretUnsigned w} {n : BitVec w} : live a = some (.unsigned x) → live b = some (.unsigned y) → live m = some (.raw n) →
      Means live (.addMod w ⟨x.bound, a⟩ ⟨y.bound, b⟩ m) (.ok (some (.unsigned (x.addMod y n))))
  | bitAnd {w a} {x : SecretUnsigned w} {mask} : live a = some (.unsigned x) → Means live (.bitAnd w ⟨x.bound, a⟩ mask) (.ok (some (.unsigned (w := w) ⟨x.bound, x.value &&& mask⟩)))
  | unsignedToWide {w W a} {x : SecretUnsigned w} : live a = some (.unsigned x) → Means live (.unsignedToWide w W ⟨x.bound, a⟩) (.ok (some (.unsigned (x.toWide W))))
  | newPositive {w a bound} {v : BitVec w} : live a = some (.raw v) → Means live (.newPositive w a bound) (new .signed (.ofOption () (SecretSigned.newPositive v bound)))
  | newFromUnsigned {w a bound} {v : BitVec w} : live a = some (.raw v) → Means live (.newFromUnsigned w a bound) (new .signed (.ofOption () (SecretSigned.newFromUnsigned v bound)))
  | newModulo {w a modulus bits} {v : BitVec w} : live a = some (.raw v) →
      Means live (.newModulo w a modulus bits) (new .signed ((SecretSigned.newModulo v modulus bits).bind (.ofOption ())))
  | zero {w} : Means live (.zero w) (.ok (some (.signed (SecretSigned.zero (w := w)))))
  | neg {w a} {x : SecretSigned w} : live a = some (.signed x) → Means live (.neg w ⟨x.bound, a⟩) (.ok (some (.signed x.neg)))
  | negOwned {w a} {x : SecretSigned w} : live a = some (.signed x) → Means live (.negOwned w ⟨x.bound, a⟩) (.ok (some (.signed x.neg)))
  | absValue {w a} {x : SecretSigned w} : live a = some (.signed x) → Means live (.absValue w ⟨x.bound, a⟩) (.ok (some (.raw x.absValue)))
  | abs {w a} {x : SecretSigned w} : live a = some (.signed x) → Means live (.abs w ⟨x.bound, a⟩) (new .unsigned x.abs)
  | assertRange {w a exp} {x : SecretSigned w} : live a = some (.signed x) → Means live (.assertRange w ⟨x.bound, a⟩ exp) ((x.assertExponentRange exp).bind fun _ => .ok none)
  | ensureRange {w a exp} {x : SecretSigned w} : live a = some (.signed x) →
      Means live (.ensureRange w ⟨x.bound, a⟩ exp) (new .signed ((x.ensureExponentRange exp).bind (.ofOption ())))
  | toWide {w W a} {x : SecretSigned w} : live a = some (.signed x) → Means live (.toWide w W ⟨x.bound, a⟩) (new .signed (x.toWide W))
  | mulWidePublic {w₁ w₂ a} {x : SecretSigned w₁} {p : PublicSigned w₂} : live a = some (.signed x) → Means live (.mulWidePublic w₁ ⟨x.bound, a⟩ p) (new .signed (x.mulWidePublic p))
  | checkedAdd {w a b} {x y : SecretSigned w} : live a = some (.signed x) → live b = some (.signed y) →
      Means live (.checkedAdd w ⟨x.bound, a⟩ ⟨y.bound, b⟩) (new .signed (.ofOption () (x.checkedAdd y)))
  | checkedAddPublic {w a} {x : SecretSigned w} {p} : live a = some (.signed x) → Means live (.checkedAddPublic w ⟨x.bound, a⟩ p) (new .signed (.ofOption () (x.checkedAddPublic p)))
  | checkedSub {w a b} {x y : SecretSigned w} : live a = some (.signed x) → live b = some (.signed y) →
      Means live (.checkedSub w ⟨x.bound, a⟩ ⟨y.bound, b⟩) (new .signed (.ofOption () (x.checkedSub y)))
  | checkedMul {w a b} {x y : SecretSigned w} : live a = some (.signed x) → live b = some (.signed y) →
      Means live (.checkedMul w ⟨x.bound, a⟩ ⟨y.bound, b⟩) (new .signed (.ofOption () (x.checkedMul y)))
  | checkedMulPublic {w a} {x : SecretSigned w} {p} : live a = some (.signed x) → Means live (.checkedMulPublic w ⟨x.bound, a⟩ p) (new .signed (.ofOption () (x.checkedMulPublic p)))
  | add {w a b} {x y : SecretSigned w} : live a = some (.signed x) → live b = some (.signed y) → a ≠ b → Means live (.add w ⟨x.bound, a⟩ ⟨y.bound, b⟩) (new .signed (x.add y))
  | addRef {w a b} {x y : SecretSigned w} : live a = some (.signed x) → live b = some (.signed y) → a ≠ b → Means live (.addRef w ⟨x.bound, a⟩ ⟨y.bound, b⟩) (new .signed (x.add y))
  | sub {w a b} {x y : SecretSigned w} : live a = some (.signed x) → live b = some (.signed y) → a ≠ b → Means live (.sub w ⟨x.bound, a⟩ ⟨y.bound, b⟩) (new .signed (x.sub y))
  | mul {w a b} {x y : SecretSigned w} : live a = some (.signed x) → live b = some (.signed y) → a ≠ b → Means live (.mul w ⟨x.bound, a⟩ ⟨y.bound, b⟩) (new .signed (x.mul y))
  | mulRef {w a b} {x y : SecretSigned w} : live a = some (.signed x) → live b = some (.signed y) → a ≠ b → Means live (.mulRef w ⟨x.bound, a⟩ ⟨y.bound, b⟩) (new .signed (x.mul y))
  | addPublic {w a} {x : SecretSigned w} {p} : live a = some (.signed x) → Means live (.addPublic w ⟨x.bound, a⟩ p) (new .signed (x.addPublic p))
  | refMulPublic {w a} {x : SecretSigned w} {p} : live a = some (.signed x) → Means live (.refMulPublic w ⟨x.bound, a⟩ p) (new .signed (x.mulPublic p))
  | mulPublic {w a} {x : SecretSigned w} {p} : live a = some (.signed x) → Means live (.mulPublic w ⟨x.bound, a⟩ p) (new .signed (x.mulPublic p))
  | sum {w} {l : List (Nat × SecretSigned w)} : (∀ p ∈ l, live p.1 = some (.signed p.2)) →
      Means live (.sum w (l.map fun p => ⟨p.2.bound, p.1⟩)) (new .signed (SecretSigned.sum (l.map Prod.snd)))
  | random {w exp draw} : Means live (.random w exp draw) (new .signed (SecretSigned.randomInExponentRange exp draw))
  | randomScaled {w v W exp} {scale : BitVec v} {draw} : Means live (.randomScaled w W exp scale draw) (new .signed (SecretSigned.randomInExponentRangeScaled w W exp scale draw))

/-- An operation ended as it should: with a secret that has the right bound, with nothing, with none, or with a panic. -/
def Agree : Out Unit (Option Handle) → Out Unit (Option Held) → Prop
  | .ok (some h), .ok (some x) => h.bound = x.bound
  | .ok none, .ok none => True
  | .err _, .err _ => True
  | .panic, .panic => True
  | _, _ => False

/-- The secrets after an operation: what was given to it is gone, and the new secret is there. -/
def after (live : Live) (moved : List Nat) (r : Out Unit (Option Handle)) (o : Out Unit (Option Held)) : Live := fun b =>
  match r, o with
  | .ok (some h), .ok (some x) => if b = h.box then some x else if b ∈ moved then none else live b
  | _, _ => if b ∈ moved then none else live b

/-- Some sequence of operations of the kind `kind` leads to this memory, and to these secrets. Operations that fail or panic are part of it. -/
inductive Reached (kind : Op → Prop) : Mem Nat → Live → Prop
  | start : Reached kind [] fun _ => none
  | step (m live op o r m') : Reached kind m live → kind op → Means live op o → op.run m = some (r, m') → Reached kind m' (after live op.moved r o)

/-- The operations that do not keep a secret outside of a box -/
def Careful : Op → Prop
  | .bitAnd .. | .newModulo .. | .assertRange .. | .ensureRange .. => False
  | _ => True

end Synedrion.Spec.BoundedOp
