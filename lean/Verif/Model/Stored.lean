import Verif.Model.CurveBytes
import Verif.Model.Signing

/-!
# Storing key shares and auxiliary info (`src/entities/full.rs`, `src/entities/threshold.rs`)

The types derive `Serialize` and `Deserialize`, so they are stored field by field. Scalars, points and integers become byte strings, maps (`SerializableMap` of the `manul`
crate) become the list of their entries. The encoding of the ids, hex, and the format around all this are outside the model.
-/

namespace Synedrion

variable {ε I G : Type} [LinearOrder I] {q : Nat}

/-- A map of points, src/curve/arithmetic.rs:300-307 for the points -/
def storePoints (S : Sec1 G) (m : BMap I G) : Out ε (List (I × List Byte)) :=
  Out.mapM' (fun p : I × G => (pointToBytes S p.2).bind fun b => .ok (p.1, b)) m.entries

/-- The values of a stored map, read one by one; the first that cannot be read is an error. -/
def loadEntries {V W : Type} (f : V → Option W) : List (I × V) → Option (List (I × W))
  | [] => some []
  | (i, v) :: l => (f v).bind fun w => (loadEntries f l).map fun l => (i, w) :: l

/-- A map, src/curve/arithmetic.rs:309-316 for points, src/curve/arithmetic.rs:226-234 for scalars -/
def loadMap {V W : Type} (f : V → Option W) (l : List (I × V)) : Option (BMap I W) := (loadEntries f l).map BMap.ofList

/-- A stored `KeyShare`, src/entities/full.rs:22-37 -/
structure KeyShareBytes (I : Type) where
  owner : I
  secret : List Byte
  pub : List (I × List Byte)

/-- `KeyShare::serialize`, src/entities/full.rs:22-37; `n` is the size of a scalar. -/
def KeyShare.store (n : Nat) (S : Sec1 G) (ks : KeyShare I (ZMod q) G) : Out ε (KeyShareBytes I) :=
  (storePoints S ks.pub).bind fun pub => .ok ⟨ks.owner, scalarToBytes n ks.secret, pub⟩

/-- `KeyShare::deserialize`, src/entities/full.rs:22-37: `KeyShare::new` is not used. -/
def KeyShareBytes.load (n q : Nat) (S : Sec1 G) (b : KeyShareBytes I) : Option (KeyShare I (ZMod q) G) :=
  (scalarTryFromBytes n q b.secret).bind fun secret =>
  (loadMap (pointTryFromBytes S) b.pub).bind fun pub => some ⟨b.owner, secret, pub⟩

/-- `KeyShareChange::serialize`, src/entities/full.rs:104-116 -/
def KeyShareChange.store (n : Nat) (S : Sec1 G) (c : KeyShareChange I (ZMod q) G) : Out ε (KeyShareBytes I) :=
  (storePoints S c.publicShareChanges).bind fun pub => .ok ⟨c.owner, scalarToBytes n c.secretShareChange, pub⟩

/-- `KeyShareChange::deserialize`, src/entities/full.rs:104-116 -/
def KeyShareBytes.loadChange (n q : Nat) (S : Sec1 G) (b : KeyShareBytes I) : Option (KeyShareChange I (ZMod q) G) :=
  (scalarTryFromBytes n q b.secret).bind fun secret =>
  (loadMap (pointTryFromBytes S) b.pub).bind fun pub => some ⟨b.owner, secret, pub⟩

/-- A stored `ThresholdKeyShare`, src/entities/threshold.rs:29-43 -/
structure ThresholdKeyShareBytes (I : Type) where
  owner : I
  threshold : Nat
  secretShare : List Byte
  shareIds : List (I × List Byte)
  publicShares : List (I × List Byte)

/-- `ThresholdKeyShare::serialize`, src/entities/threshold.rs:29-43 -/
def ThresholdKeyShare.store (n : Nat) (S : Sec1 G) (ks : ThresholdKeyShare I (ZMod q) G) : Out ε (ThresholdKeyShareBytes I) :=
  (storePoints S ks.publicShares).bind fun publicShares =>
  .ok ⟨ks.owner, ks.threshold, scalarToBytes n ks.secretShare, ks.shareIds.entries.map fun p => (p.1, scalarToBytes n p.2), publicShares⟩

/-- `ThresholdKeyShare::deserialize`, src/entities/threshold.rs:29-43 -/
def ThresholdKeyShareBytes.load (n q : Nat) (S : Sec1 G) (b : ThresholdKeyShareBytes I) : Option (ThresholdKeyShare I (ZMod q) G) :=
  (scalarTryFromBytes n q b.secretShare).bind fun secretShare =>
  (loadMap (scalarTryFromBytes n q) b.shareIds).bind fun shareIds =>
  (loadMap (pointTryFromBytes S) b.publicShares).bind fun publicShares => some ⟨b.owner, b.threshold, secretShare, shareIds, publicShares⟩

/-- `PublicUint::deserialize` and `Secret::<Uint>::deserialize`, src/uint/public_uint.rs:26-34, src/tools/secret.rs:76-85, src/uint/traits.rs:212-221 -/
def natTryFromBytes (n : Nat) (bytes : List Byte) : Option Nat := if bytes.length ≠ n then none else some (fromBe bytes)

/-- A stored `PublicAuxInfo`, src/entities/full.rs:65-75 -/
structure PublicAuxBytes where
  pk : List Byte
  modulus : List Byte
  baseRandomizer : List Byte
  baseValue : List Byte

/-- `PublicAuxInfo::serialize`, src/entities/full.rs:65-75, src/paillier/keys.rs:298-302, src/paillier/ring_pedersen.rs:160-171; `n` is the size of a modulus. -/
def PublicAux.store (n : Nat) (a : PublicAux) : PublicAuxBytes :=
  ⟨beBytes n a.pk, beBytes n a.rp.modulus, beBytes n a.rp.baseRandomizer, beBytes n a.rp.baseValue⟩

/-- `PublicAuxInfo::deserialize`, src/entities/full.rs:65-75 -/
def PublicAuxBytes.load (n : Nat) (b : PublicAuxBytes) : Option PublicAux :=
  (natTryFromBytes n b.pk).bind fun pk =>
  (natTryFromBytes n b.modulus).bind fun modulus =>
  (natTryFromBytes n b.baseRandomizer).bind fun baseRandomizer =>
  (natTryFromBytes n b.baseValue).bind fun baseValue => some ⟨pk, ⟨modulus, baseRandomizer, baseValue⟩⟩

/-- A stored `AuxInfo`, src/entities/full.rs:40-63 -/
structure AuxInfoBytes (I : Type) where
  owner : I
  p : List Byte
  q : List Byte
  pub : List (I × PublicAuxBytes)

/-- `AuxInfo::serialize`, src/entities/full.rs:40-63, src/paillier/rsa.rs:46-50: of the secret key only the primes are stored; `h` is the size of a prime. -/
def AuxInfo.store (h n : Nat) (a : AuxInfo I PaillierKey PublicAux) : AuxInfoBytes I :=
  ⟨a.owner, beBytes h a.secret.p, beBytes h a.secret.q, a.pub.entries.map fun p => (p.1, p.2.store n)⟩

/-- `AuxInfo::deserialize`, src/entities/full.rs:40-63 -/
def AuxInfoBytes.load (h n : Nat) (b : AuxInfoBytes I) : Option (AuxInfo I (Nat × Nat) PublicAux) :=
  (natTryFromBytes h b.p).bind fun p =>
  (natTryFromBytes h b.q).bind fun q =>
  (loadMap (PublicAuxBytes.load n) b.pub).bind fun pub => some ⟨b.owner, (p, q), pub⟩

/-- The secret part of `AuxInfo::into_precomputed`, src/entities/full.rs:352-357 -/
def AuxInfo.expand (a : AuxInfo I (Nat × Nat) PublicAux) : Out ε (AuxInfo I PaillierKey PublicAux) :=
  (SecretKey.new a.secret.1 a.secret.2).bind fun sk => .ok ⟨a.owner, ⟨a.secret.1, a.secret.2, sk⟩, a.pub⟩

end Synedrion
