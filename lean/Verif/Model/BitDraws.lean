import Verif.Model.Session

/-!
# Bit strings taken from a generator or from the output of a hash

Models `BitVec::random` and `BitVec::from_xof_reader` (`src/tools/bitvec.rs`). The generator or reader is the sequence of bytes it is going to give; what it has not given yet is returned
along with the result.
-/

namespace Synedrion

/-- `RngCore::fill_bytes` and `XofReader::read` into a buffer of `n` zeros, src/tools/bitvec.rs:74-75 and 85-86. Bytes beyond the end of the sequence stay zero (generators and readers
do not end). -/
def fillBytes (n : Nat) (stream : List Byte) : List Byte × List Byte :=
  (stream.take n ++ (List.replicate n 0#8).drop stream.length, stream.drop n)

/-- `BitVec::random`, src/tools/bitvec.rs:72-77 -/
def bitsRandom {ε : Type} (rng : List Byte) (bits : Nat) : Out ε (List Bool × List Byte) :=
  let (byteVec, rest) := fillBytes ((bits + 7) / 8) rng
  (fromBytesUnchecked bits byteVec).bind fun r => .ok (r, rest)

/-- `BitVec::from_xof_reader`, src/tools/bitvec.rs:83-88 -/
def bitsFromXof {ε : Type} (reader : List Byte) (bits : Nat) : Out ε (List Bool × List Byte) :=
  let (byteVec, rest) := fillBytes ((bits + 7) / 8) reader
  (fromBytesUnchecked bits byteVec).bind fun r => .ok (r, rest)

end Synedrion
