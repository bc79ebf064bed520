import Verif.Model.Shamir
import Verif.Spec.ZeroKnowledge

/-!
# Specification: shares from before and after a refresh or resharing

An adversary that moves from party to party over time sees shares of different parties in different periods. The experiments below describe what it sees; all
random values are those the library draws, uniformly among the non-zero scalars.
-/

namespace Synedrion.Spec

open Shamir

variable {I F : Type} [LinearOrder I] [Field F] [LinearOrder F]

/-- The value of a computation that succeeds. -/
def valueOf {α : Type} (default : α) (o : Out Unit α) : α :=
  match o with
  | .ok a => a
  | _ => default

/-- A finite list of draws as the source of draws of the library. -/
def drawsOf {n : Nat} (c : Fin n → F) : Nat → F := fun i => if h : i < n then c ⟨i, h⟩ else 0

/-- All choices of a family of non-zero scalars. -/
def nonZeroDraws (ι F : Type) [Fintype ι] [DecidableEq ι] [Fintype F] [Field F] [DecidableEq F] : Finset (ι → F) := Fintype.piFinset fun _ => Finset.univ.erase 0

/-! ### Refresh -/

/-- The part of `secret` that party `i` gets when it is split among `ids`, in the order of the ids. -/
def part (ids : Finset I) (secret : F) (c : Fin (ids.card - 1) → F) (i : I) : F :=
  ((BMap.ofList ((bsetIter ids).zip (valueOf [] (secretSplit secret ids.card (drawsOf c))))).get? i).getD 0

/-- The draws of a history of `k` refreshes: `none` is the dealing of the key, `some (e, j)` is the contribution of party `j` to refresh `e`. -/
abbrev HistoryDraw (ids : Finset I) (k : Nat) : Type := Option (Fin k × {i // i ∈ ids}) × Fin (ids.card - 1)

/-- What party `j` sends to party `i` in refresh `e`: a part of zero. -/
def contribution (ids : Finset I) (k : Nat) (ω : HistoryDraw ids k → F) (e : Fin k) (j : {i // i ∈ ids}) (i : I) : F :=
  part ids 0 (fun p => ω (some (e, j), p)) i

/-- The share of party `i` after `e` refreshes: the dealt one, and all contributions added to it. -/
def shareAfter (ids : Finset I) (k : Nat) (secret : F) (ω : HistoryDraw ids k → F) (e : Nat) (i : I) : F :=
  part ids secret (fun p => ω (none, p)) i + ∑ e' : Fin k, if e'.1 < e then ∑ j, contribution ids k ω e' j i else 0

/-- What the adversary sees: the shares of the parties `holds e` between refreshes `e - 1` and `e`; and, in refresh `e`, everything that the parties `takesPart e` send
and receive. -/
structure Exposure (I : Type) where
  holds : Nat → Finset I
  takesPart : Nat → Finset I

/-- In every period there is a party whose share is not seen, and which is not observed in the refreshes before and after that period. -/
def Exposure.LeavesOne (X : Exposure I) (ids : Finset I) (k : Nat) : Prop :=
  ∃ safe : Nat → I, (∀ e ≤ k, safe e ∈ ids ∧ safe e ∉ X.holds e) ∧ ∀ e < k, safe e ∉ X.takesPart e ∧ safe (e + 1) ∉ X.takesPart e

/-- The values seen in a history of `k` refreshes. -/
def Exposure.seen (X : Exposure I) (ids : Finset I) (k : Nat) (secret : F) (ω : HistoryDraw ids k → F) :
    (Fin (k + 1) → I → F) × (Fin k → {i // i ∈ ids} → I → F) :=
  (fun e i => if i ∈ X.holds e ∧ i ∈ ids then shareAfter ids k secret ω e i else 0,
    fun e j i => if (j.1 ∈ X.takesPart e ∨ i ∈ X.takesPart e) ∧ i ∈ ids then contribution ids k ω e j i else 0)

/-! ### Resharing -/

/-- The draws of a dealing with threshold `t` and of a resharing by the holders of the shares `old` with threshold `t'`. -/
abbrev ReshareDraw (old : Finset F) (t t' : Nat) : Type := Fin (t - 1) ⊕ ({x // x ∈ old} × Fin (t' - 1))

/-- The share with id `x`. -/
def oldShare (old : Finset F) (t t' : Nat) (secret : F) (ω : ReshareDraw old t t' → F) (x : F) : F :=
  valueOf 0 (evaluate (randomPolynomial secret t (drawsOf fun p => ω (.inl p))) x)

/-- What the holder of the share with id `x` sends to the new holder with id `y`. -/
def subshare (old : Finset F) (t t' : Nat) (secret : F) (ω : ReshareDraw old t t' → F) (x : {x // x ∈ old}) (y : F) : F :=
  valueOf 0 (evaluate (randomPolynomial (oldShare old t t' secret ω x) t' (drawsOf fun p => ω (.inr (x, p)))) y)

/-- What an adversary sees that has the old shares `A`, knows all that their holders draw and send, and gets all that is sent to the new holders with the ids `B`. -/
def seenInResharing (old A B : Finset F) (t t' : Nat) (secret : F) (ω : ReshareDraw old t t' → F) :
    ({x // x ∈ old} → F) × ({x // x ∈ old} × Fin (t' - 1) → F) × ({x // x ∈ old} → F → F) :=
  (fun x => if x.1 ∈ A then oldShare old t t' secret ω x else 0, fun xp => if xp.1.1 ∈ A then ω (.inr xp) else 0,
    fun x y => if x.1 ∈ A ∨ y ∈ B then subshare old t t' secret ω x y else 0)

end Synedrion.Spec
