import Verif.Model.Encoding

/-!
# Integers of a fixed number of limbs (`src/uint/traits.rs`)

A `Uint<L>` of `crypto-bigint` is `L` limbs of 64 bits, least significant first. Its own operations (`bits_vartime`, `split_mul`, `from_be_slice`,
`Limb::to_be_bytes`) enter with their documented meaning; the copying of limbs and bytes between integers of different sizes is the code of this library.
-/

namespace Synedrion

/-- `Uint<L>`, by its limbs -/
structure Limbs (L : Nat) where
  limbs : List (BitVec 64)
  length_eq : limbs.length = L

namespace Limbs

/-- The number given by limbs, least significant first -/
def toNat : List (BitVec 64) → Nat
  | [] => 0
  | a :: l => a.toNat + 2 ^ 64 * toNat l

/-- The value of a `Uint<L>` -/
def value {L : Nat} (x : Limbs L) : Nat := toNat x.limbs

/-- The lowest `n` limbs of a number -/
def ofNatList : Nat → Nat → List (BitVec 64)
  | 0, _ => []
  | n + 1, v => BitVec.ofNat 64 v :: ofNatList n (v / 2 ^ 64)

theorem ofNatList_length (n v : Nat) : (ofNatList n v).length = n := by
  induction n generalizing v with
  | zero => rfl
  | succ n ih => simp only [ofNatList, List.length_cons, ih]

/-- The `Uint<L>` with a given value, modulo its size (a contract of `crypto-bigint`) -/
def ofNat (L v : Nat) : Limbs L := ⟨ofNatList L v, ofNatList_length L v⟩

/-- `result[start .. start + src.len()].copy_from_slice(src)`: fails if the range does not fit. -/
def copyInto {α : Type} (start : Nat) (src dst : List α) : Option (List α) :=
  if start + src.length ≤ dst.length then some (dst.take start ++ src ++ dst.drop (start + src.length)) else none

private theorem copyInto_length {α : Type} {start : Nat} {src dst l : List α} (h : copyInto start src dst = some l) : l.length = dst.length := by
  unfold copyInto at h
  split at h
  · cases h
    simp only [List.length_append, List.length_take, List.length_drop]
    omega
  · cases h

/-- `Extendable::to_wide`, src/uint/traits.rs:138-149: the limbs are copied to the low end of zero. `W < L` does not compile. Copying a slice of the
wrong length panics. -/
def toWide {ε : Type} {L : Nat} (W : Nat) (x : Limbs L) : Out ε (Limbs W) :=
  match h : copyInto 0 x.limbs (List.replicate W 0#64) with
  | none => .panic
  | some l => .ok ⟨l, (copyInto_length h).trans List.length_replicate⟩

/-- `Extendable::try_from_wide`, src/uint/traits.rs:151-166 -/
def tryFromWide {ε : Type} {W : Nat} (L : Nat) (x : Limbs W) : Out ε (Option (Limbs L)) :=
  if bitLen x.value > 64 * L then .ok none
  else
    let lo := List.replicate L 0#64
    match h : copyInto 0 (x.limbs.take L) lo with
    | none => .panic
    | some l => .ok (some ⟨l, (copyInto_length h).trans List.length_replicate⟩)

/-- `split_mul` of `crypto-bigint`: the low and the high part of the product -/
def splitMul {L R : Nat} (x : Limbs L) (y : Limbs R) : Limbs L × Limbs R :=
  (ofNat L (x.value * y.value), ofNat R (x.value * y.value / 2 ^ (64 * L)))

/-- `MulWide::mul_wide`, src/uint/traits.rs:176-190. `W != L + R` does not compile. -/
def mulWide {ε : Type} {L R : Nat} (W : Nat) (x : Limbs L) (y : Limbs R) : Out ε (Limbs W) :=
  let (lo, hi) := splitMul x y
  match h : (copyInto 0 lo.limbs (List.replicate W 0#64)) with
  | none => .panic
  | some l =>
    match h' : copyInto L hi.limbs l with
    | none => .panic
    | some l' => .ok ⟨l', (copyInto_length h').trans ((copyInto_length h).trans List.length_replicate)⟩

/-- `BoxedEncoding::to_be_bytes`, src/uint/traits.rs:201-210: the limbs, least significant first, are written to chunks of eight bytes taken from the end. -/
def toBeBytes {L : Nat} (x : Limbs L) : List Byte := x.limbs.foldl (fun written limb => beBytes 8 limb.toNat ++ written) []

/-- `BoxedEncoding::try_from_be_bytes`, src/uint/traits.rs:212-221 -/
def tryFromBeBytes (L : Nat) (bytes : List Byte) : Option (Limbs L) := if bytes.length ≠ 8 * L then none else some (ofNat L (fromBe bytes))

end Limbs

end Synedrion
