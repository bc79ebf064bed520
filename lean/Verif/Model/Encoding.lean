import Verif.Model.Signed

/-!
# Wire encodings and transcript framing

Bytes are `BitVec 8`.  Models `src/uint/public_signed.rs` (`PackedSigned`), `src/uint/public_uint.rs`,
`src/uint/traits.rs` (`BoxedEncoding`), `src/tools/bitvec.rs` and `src/tools/hashing.rs` (`chain_bytes`).
The text-level encodings (hex, base64) and `serde` formats are outside the model.
-/

namespace Synedrion

abbrev Byte := BitVec 8

/-- Big-endian bytes of `v`, `n` of them (`BoxedEncoding::to_be_bytes`, src/uint/traits.rs:201-210).
The limb-by-limb copy is collapsed into base-256 digits. -/
def beBytes : Nat → Nat → List Byte
  | 0, _ => []
  | n + 1, v => beBytes n (v / 256) ++ [BitVec.ofNat 8 v]

/-- `Uint::from_be_slice` (used by src/uint/traits.rs:212-221). -/
def fromBe (l : List Byte) : Nat := l.foldl (fun acc b => acc * 256 + b.toNat) 0

/-- `BoxedEncoding::to_be_bytes` for a `w`-bit integer, src/uint/traits.rs:201-210 -/
def uintToBeBytes {w : Nat} (v : BitVec w) : List Byte := beBytes (w / 8) v.toNat

/-- `BoxedEncoding::try_from_be_bytes`, src/uint/traits.rs:212-221 -/
def uintTryFromBeBytes (w : Nat) (bytes : List Byte) : Option (BitVec w) :=
  if bytes.length ≠ w / 8 then none else some (BitVec.ofNat w (fromBe bytes))

/-- `PackedSigned`, src/uint/public_signed.rs:15-21 -/
structure PackedSigned where
  bound : Nat
  isNegative : Bool
  absBytes : List Byte
  deriving DecidableEq, Repr

/-- `From<PublicSigned> for PackedSigned`, src/uint/public_signed.rs:27-39.  `len - bound_bytes` underflows (panics) when the bound
is larger than the integer. -/
def PublicSigned.pack {ε : Type} {w : Nat} (val : PublicSigned w) : Out ε PackedSigned :=
  let repr := uintToBeBytes val.abs
  let boundBytes := (val.bound + 7) / 8
  if repr.length < boundBytes then .panic
  else .ok ⟨val.bound, val.isNegative, repr.drop (repr.length - boundBytes)⟩

/-- `TryFrom<PackedSigned> for PublicSigned`, src/uint/public_signed.rs:47-66 -/
def PackedSigned.unpack (w : Nat) (val : PackedSigned) : Option (PublicSigned w) :=
  let reprLen := w / 8
  let bytesLen := val.absBytes.length
  if reprLen < bytesLen then none
  else
    let repr := List.replicate (reprLen - bytesLen) 0#8 ++ val.absBytes
    PublicSigned.newFromAbs (BitVec.ofNat w (fromBe repr)) val.bound val.isNegative

/-- `PackedBitVec`, src/tools/bitvec.rs:9-14 -/
structure PackedBitVec where
  bits : Nat
  byteVec : List Byte
  deriving DecidableEq, Repr

/-- The mask of bit `i` in its byte, src/tools/bitvec.rs:38, 65 -/
def bitMask (i : Nat) : Byte := 1#8 <<< (7 - i % 8)

/-- One iteration of the packing loop, src/tools/bitvec.rs:36-42 -/
def packStep (byteVec : List Byte) (i : Nat) (bit : Bool) : List Byte :=
  if bit then byteVec.modify (i / 8) (fun b => b ||| bitMask i) else byteVec

/-- The packing loop: `for (i, bit) in bits.enumerate()`, src/tools/bitvec.rs:36-42 -/
def packLoop (bits : List Bool) (i : Nat) (byteVec : List Byte) : List Byte :=
  match bits with
  | [] => byteVec
  | b :: bs => packLoop bs (i + 1) (packStep byteVec i b)

/-- `From<BitVec> for PackedBitVec`, src/tools/bitvec.rs:29-50.  The length is cast to `u32`. -/
def packBits (bits : List Bool) : PackedBitVec :=
  ⟨bits.length % 2 ^ 32, packLoop bits 0 (List.replicate ((bits.length + 7) / 8) 0#8)⟩

/-- Direct indexing `byte_vec[i]` panics when out of range. -/
def indexByte {ε : Type} (l : List Byte) (i : Nat) : Out ε Byte := Out.ofOptionPanic l[i]?

/-- `BitVec::from_bytes_unchecked`, src/tools/bitvec.rs:55-70 -/
def fromBytesUnchecked {ε : Type} (bits : Nat) (byteVec : List Byte) : Out ε (List Bool) :=
  Out.mapM' (fun i => (indexByte byteVec (i / 8)).bind fun b => .ok (decide (b &&& bitMask i ≠ 0#8)))
    (List.range bits)

/-- `TryFrom<PackedBitVec> for BitVec`, src/tools/bitvec.rs:16-28; `err ()` is the returned error string. -/
def unpackBits (source : PackedBitVec) : Out Unit (List Bool) :=
  if (source.bits + 7) / 8 > source.byteVec.length then .err ()
  else fromBytesUnchecked source.bits source.byteVec

/-- `BitXorAssign`, src/tools/bitvec.rs:91-98 -/
def bitXorAssign {ε : Type} (lhs rhs : List Bool) : Out ε (List Bool) :=
  (Out.assert (decide (lhs.length = rhs.length))).bind fun _ => .ok (List.zipWith (· ^^ ·) lhs rhs)

/-- `chain_bytes`, src/tools/hashing.rs:19-24: the length as a big-endian `u64`, then the bytes. -/
def chainBytes (digest : List Byte) (bytes : List Byte) : List Byte :=
  digest ++ beBytes 8 (bytes.length % 2 ^ 64) ++ bytes

/-- What a hasher created by `new_with_dst` and fed a sequence of byte strings has absorbed,
src/tools/hashing.rs:54-56 and 19-24 (`dst` is the first chunk). -/
def transcript (chunks : List (List Byte)) : List Byte := chunks.foldl chainBytes []

end Synedrion
