import Verif.Model.Encoding
import Verif.Model.KeyInit
import Mathlib.Data.ZMod.Basic

/-!
# Byte representations of curve scalars and points (`src/curve/arithmetic.rs`)

A scalar of a curve of order `q` is an element of `ZMod q`, its representation has `n` bytes (`Curve::Uint` and `FieldBytes` have the same
size for the supported curves). Hex and the `serde` formats around the bytes are outside the model.
-/

namespace Synedrion

variable {ε : Type} {q : Nat}

/-- `Scalar::to_be_bytes`, src/curve/arithmetic.rs:118-121 -/
def scalarToBytes (n : Nat) (x : ZMod q) : List Byte := beBytes n x.val

/-- `Scalar::try_from_be_bytes`, src/curve/arithmetic.rs:131-139: the exact number of bytes, and a value below the order
(`PrimeField::from_repr_vartime`) -/
def scalarTryFromBytes (n q : Nat) (bytes : List Byte) : Option (ZMod q) :=
  if bytes.length ≠ n then none
  else if fromBe bytes < q then some (fromBe bytes : ZMod q) else none

/-- Two consecutive reads of `n` bytes from the XOF and their reduction, src/curve/arithmetic.rs:85-103: the bytes read first are the low half. -/
def wideFromXof (n q : Nat) (first second : List Byte) : Nat := (fromBe second * 2 ^ (8 * n) + fromBe first) % q

/-- `Scalar::from_xof_reader`, src/curve/arithmetic.rs:84-108; `stream` is what the XOF yields. `debug` says whether `debug_assert!` (104) is compiled in. -/
def scalarFromXof (debug : Bool) (n q : Nat) (stream : List Byte) : Out ε (ZMod q) :=
  let reduced := wideFromXof n q (stream.take n) ((stream.drop n).take n)
  (Out.assert (!debug || decide (reduced < q ∧ reduced ≠ 0))).bind fun _ => .ok (reduced : ZMod q)

/-- `Scalar::from_reduced_bytes`, src/curve/arithmetic.rs:110-116: a slice of another length panics in the conversion to an array; the backend subtracts
the order once when the value is not below it. -/
def scalarFromReducedBytes (n q : Nat) (bytes : List Byte) : Out ε (ZMod q) :=
  (Out.assert (decide (bytes.length = n))).bind fun _ =>
  .ok (((if fromBe bytes < q then fromBe bytes else fromBe bytes - q) : Nat) : ZMod q)

/-- The part of the `sec1` and backend crates used by `Point`: `encode` is `to_affine().to_encoded_point(true).as_bytes()`, `decode` is
`EncodedPoint::from_bytes` followed by `from_encoded_point`, `size` is `CompressedPointSize`. -/
structure Sec1 (G : Type) where
  size : Nat
  encode : G → List Byte
  decode : List Byte → Option G

variable {G : Type}

/-- `Point::to_compressed_array` (what is serialized and hashed), src/curve/arithmetic.rs:282-288, 300-307: the `expect` fails when
the encoding has another length than the array. -/
def pointToBytes (S : Sec1 G) (p : G) : Out ε (List Byte) :=
  Out.ofOptionPanic (if (S.encode p).length = S.size then some (S.encode p) else none)

/-- `Point::try_from_compressed_bytes` (used by deserialization), src/curve/arithmetic.rs:272-280, 292-298, 309-316 -/
def pointTryFromBytes (S : Sec1 G) (bytes : List Byte) : Option G := S.decode bytes

namespace KeyInit

variable {I F Sid V : Type} [LinearOrder I] [DecidableEq V]

/-- The two broadcasts of round 2 as they arrive, src/protocols/key_init.rs:369-380: the points are bytes. -/
structure Msg2Bytes where
  rho : List Bool
  capX : List Byte
  capA : List Byte
  u : List Bool

/-- What is hashed by `PublicData::hash`, src/protocols/key_init.rs:209-218 (after the tag): the points in their compressed form -/
structure HashInput (I Sid : Type) where
  sid : Sid
  id : I
  capX : List Byte
  capA : List Byte
  rho : List Bool
  u : List Bool

/-- `PublicData::hash`, src/protocols/key_init.rs:209-218, with the encoding of the points made explicit; `hash` is the digest. -/
def hashData {ε : Type} (S : Sec1 G) (hash : HashInput I Sid → V) (sid : Sid) (id : I) (d : PublicData G) : Out ε V :=
  (pointToBytes S d.capX).bind fun capX =>
  (pointToBytes S d.capA).bind fun capA =>
  .ok (hash ⟨sid, id, capX, capA, d.rho, d.u⟩)

/-- Deserialization of the broadcasts of round 2, src/protocols/key_init.rs:434-438 -/
def Msg2Bytes.decode (S : Sec1 G) (m : Msg2Bytes) : Option (Msg2 G) :=
  (pointTryFromBytes S m.capX).bind fun capX =>
  (pointTryFromBytes S m.capA).bind fun capA =>
  some ⟨m.rho, capX, capA, m.u⟩

/-- Serialization of the broadcasts of round 2, src/protocols/key_init.rs:399-425 -/
def Msg2.encode {ε : Type} (S : Sec1 G) (m : Msg2 G) : Out ε Msg2Bytes :=
  (pointToBytes S m.capX).bind fun capX =>
  (pointToBytes S m.capA).bind fun capA =>
  .ok ⟨m.rho, capX, capA, m.u⟩

/-- What can come out of receiving a message given as bytes: it does not deserialize, or the error of the round -/
inductive WireErr (E : Type) where
  | malformed
  | round (e : RecvErr E)
  deriving DecidableEq, Repr

/-- Round 2 `receive_message` from the bytes on, src/protocols/key_init.rs:427-456 -/
def recv2Bytes [AddCommGroup G] (S : Sec1 G) (hash : HashInput I Sid → V) (r : Round2 I F G Sid V) (sender : I) (m : Msg2Bytes) :
    Out (WireErr Err) (Payload2 G) :=
  (Out.ofOption .malformed (m.decode S)).bind fun m =>
  (Out.ofOption (.round (.localErr .missing)) (r.capVs.get? sender)).bind fun capV =>
  let data : PublicData G := ⟨m.capX, m.capA, m.rho, m.u⟩
  (hashData S hash r.ctx.sid sender data).bind fun v =>
  if v ≠ capV then .err (.round (.protocol .r2HashMismatch)) else .ok ⟨data.capX, data.capA, data.rho⟩

end KeyInit
end Synedrion
