import Verif.Model.Encoding
import Verif.Model.Params
import Verif.Model.KeyInit
import Verif.Model.KeyRefresh
import Verif.Model.ZkCurve
import Verif.Model.ZkPaillier
import Verif.Model.ZkModulus

/-!
# What is fed to the hash function

The other models take digests as functions of the hashed values. Here are the bytes. How `serde` writes single values into the hash (crate `hashing_serializer`) is not
part of the repository; the writers of points, integers, bit vectors, ids and of the lengths of sequences are arbitrary. Structures are written field by field, sequences and maps
after their length, both without tags.
-/

namespace Synedrion

/-- A way to write values of a type as bytes, and the values it is used for -/
structure Codec (α : Type) where
  write : α → List Byte
  ok : α → Prop

namespace Codec
variable {α β : Type}

/-- Two fields, one after the other -/
def pair (c : Codec α) (d : Codec β) : Codec (α × β) := ⟨fun x => c.write x.1 ++ d.write x.2, fun x => c.ok x.1 ∧ d.ok x.2⟩

/-- A structure, by its fields -/
def via (c : Codec β) (f : α → β) : Codec α := ⟨fun x => c.write (f x), fun x => c.ok (f x)⟩

/-- A sequence: its length, then the elements -/
def seq (len : Codec Nat) (c : Codec α) : Codec (List α) := ⟨fun l => len.write l.length ++ (l.map c.write).flatten, fun l => len.ok l.length ∧ ∀ x ∈ l, c.ok x⟩

/-- A map: the number of entries, then keys and values -/
def bmap [LinearOrder α] (len : Codec Nat) (c : Codec α) (d : Codec β) : Codec (BMap α β) := (seq len (pair c d)).via BMap.entries

/-- A set: the number of elements, then the elements in increasing order -/
def bset [LinearOrder α] (len : Codec Nat) (c : Codec α) : Codec (Finset α) := (seq len c).via bsetIter

/-- `chain_bytes`, src/tools/hashing.rs:19-24 -/
def framed : Codec (List Byte) := ⟨fun b => beBytes 8 (b.length % 2 ^ 64) ++ b, fun b => b.length < 2 ^ 64⟩

/-- `chain_bytes(&n.to_be_bytes())` for a `u32`, src/params/traits.rs:102-106, src/paillier/params.rs:87 -/
def framed32 : Codec Nat := ⟨fun n => framed.write (beBytes 4 n), fun n => n < 2 ^ 32⟩

end Codec

/-- `to_le_bytes` of an integer of `n` bytes -/
def leBytes : Nat → Nat → List Byte
  | 0, _ => []
  | n + 1, v => BitVec.ofNat 8 v :: leBytes n (v / 256)

/-- The limbs of an integer, least significant first, `word` bytes each -/
def limbsOf (word count v : Nat) : List Nat := (List.range count).map fun i => v / 256 ^ (word * i) % 256 ^ word

/-- How single values are written -/
structure Writers (I G Aux Sid : Type) where
  byte : Codec Byte
  len : Codec Nat
  point : Codec G
  /-- integers of the size of a Paillier modulus -/
  uint : Codec Nat
  /-- integers of twice that size (ciphertexts) -/
  wide : Codec Nat
  bits : Codec (List Bool)
  id : Codec I
  /-- `HashOutput`, used for session ids -/
  sid : Codec Sid
  /-- The auxiliary data of proofs -/
  aux : Codec Aux
  /-- Bytes of a limb (4 or 8 by platform) and number of limbs of the order of the curve -/
  word : Nat
  limbs : Nat

/-- What is hashed of the scheme parameters, src/params/traits.rs:94-107 -/
structure SchemeHashed where
  order : Nat
  /-- The generator as encoded bytes -/
  generator : List Byte
  primeBits : Nat
  secBits : Nat
  kappa : Nat
  L : Nat
  LP : Nat
  EPS : Nat
  deriving DecidableEq

/-- The numbers of a parameter set as they are hashed, src/params/traits.rs:94-107, src/paillier/params.rs:82-88 -/
def Params.hashed (P : Params) (order : Nat) (generator : List Byte) : SchemeHashed := ⟨order, generator, P.primeBits, P.secBits, P.kappa, P.L, P.LP, P.EPS⟩

section
variable {I G Aux Sid : Type} [LinearOrder I]

/-- A byte slice: length and bytes -/
def Writers.slice (W : Writers I G Aux Sid) : Codec (List Byte) := .seq W.len W.byte

/-- The loop over the limbs of the order, src/curve/arithmetic.rs:44-48; an array is written without its length. -/
def Writers.order (W : Writers I G Aux Sid) : Codec Nat :=
  ⟨fun v => ((limbsOf W.word W.limbs v).map fun l => ((leBytes W.word l).map W.byte.write).flatten).flatten, fun v => v < 256 ^ (W.word * W.limbs) ∧ ∀ b, W.byte.ok b⟩

/-- `chain_curve`, src/curve/arithmetic.rs:31-54, and `chain_scheme_params`, src/params/traits.rs:94-107 -/
def Writers.scheme (W : Writers I G Aux Sid) : Codec SchemeHashed :=
  (W.order.pair <| W.slice.pair <| Codec.framed32.pair <| Codec.framed32.pair <| Codec.framed32.pair <| Codec.framed32.pair <| Codec.framed32.pair Codec.framed32).via
    fun p => (p.order, p.generator, p.primeBits, p.secBits, p.kappa, p.L, p.LP, p.EPS)

/-- `RPParamsWire`, src/paillier/ring_pedersen.rs:160-171 -/
def Writers.rp (W : Writers I G Aux Sid) : Codec RPParamsWire := (W.uint.pair <| W.uint.pair W.uint).via fun r => (r.modulus, r.baseRandomizer, r.baseValue)

/-- `PublicAuxInfo`, src/entities/full.rs:65-75 -/
def Writers.pubAux (W : Writers I G Aux Sid) : Codec PublicAux := (W.uint.pair W.rp).via fun a => (a.pk, a.rp)

/-- `PrmProof`, src/zk/prm.rs:62-68 -/
def Writers.prmProof (W : Writers I G Aux Sid) : Codec PrmProof :=
  ((Codec.seq W.len W.uint).pair <| W.bits.pair (Codec.seq W.len W.uint)).via fun p => (p.commitment, p.challenge, p.proof)

/-- The fields of `AuxGen.Hashed`, src/protocols/aux_gen.rs:296-300 -/
def Writers.auxData (W : Writers I G Aux Sid) : Codec AuxGen.Hashed :=
  (W.uint.pair <| W.rp.pair <| W.prmProof.pair <| W.bits.pair W.bits).via fun d => (d.pk, d.rp, d.psi, d.rid, d.u)

/-- `AffGStarProofCommitment`, src/zk/aff_g_star.rs:59-65 -/
def Writers.starCom (W : Writers I G Aux Sid) : Codec (AffGStarCommitment G) := (W.wide.pair <| W.point.pair W.wide).via fun c => (c.capA, c.capR, c.capB)

/-- `DecProofCommitment`, src/zk/dec.rs:76-82 -/
def Writers.decCom (W : Writers I G Aux Sid) : Codec (DecCommitment G) := (W.wide.pair <| W.point.pair W.point).via fun c => (c.capA, c.capB, c.capC)

end

/-- All uses of the hash function, with what is hashed -/
inductive HashInput (I G Aux Sid : Type) [LinearOrder I] where
  | sid (params : SchemeHashed) (sharedRandomness : List Byte) (ids : Finset I)
  | epid (params : SchemeHashed) (sharedRandomness : List Byte) (shares : BMap I G) (aux : BMap I PublicAux)
  | keyInit (sid : Sid) (id : I) (data : KeyInit.PublicData G)
  | auxGen (sid : Sid) (id : I) (data : AuxGen.Hashed)
  | keyRefresh (sid : Sid) (id : I) (data : KeyRefresh.Hashed I G)
  | mask (sid : Sid) (rid : List Bool) (id : I) (point : G)
  | sch (x : SchHash G Aux)
  | elog (x : ElogHash G Aux)
  | encElg (x : EncElgHash G Aux)
  | affG (x : AffGHash G Aux)
  | affGStar (x : AffGStarHash G Aux)
  | dec (x : DecHash G Aux)
  | fac (x : FacHash Aux)
  | mod (x : ModHash Aux)
  | modRng (commitment pk : Nat) (aux : Aux)
  | prm (x : PrmHash Aux)

namespace HashInput
variable {I G Aux Sid : Type} [LinearOrder I]

/-- The bytes of an ASCII string -/
def ascii (l : List Char) : List Byte := l.map fun c => BitVec.ofNat 8 c.toNat

/-- The domain separation tags: src/entities/internal.rs:19, src/protocols/interactive_signing.rs:252, src/protocols/key_init.rs:210, src/protocols/aux_gen.rs:293,
src/protocols/key_refresh.rs:366, 455, 940, 974, `HASH_TAG` in src/zk/*.rs, src/zk/mod_.rs:145 -/
def tag : HashInput I G Aux Sid → List Byte
  | sid .. => ascii ['S', 'I', 'D']
  | epid .. => ascii ['E', 'P', 'I', 'D']
  | keyInit .. => ascii ['K', 'e', 'y', 'I', 'n', 'i', 't']
  | auxGen .. => ascii ['K', 'e', 'y', 'I', 'n', 'i', 't']
  | keyRefresh .. => ascii ['K', 'e', 'y', 'I', 'n', 'i', 't']
  | mask .. => ascii ['K', 'e', 'y', 'R', 'e', 'f', 'r', 'e', 's', 'h', ' ', 'R', 'o', 'u', 'n', 'd', '3']
  | sch _ => ascii ['P', '_', 's', 'c', 'h']
  | elog _ => ascii ['P', '_', 'e', 'l', 'o', 'g']
  | encElg _ => ascii ['P', '_', 'e', 'n', 'c', '_', 'e', 'l', 'g']
  | affG _ => ascii ['P', '_', 'a', 'f', 'f', '_', 'g']
  | affGStar _ => ascii ['P', '_', 'a', 'f', 'f', '_', 'g', '*']
  | dec _ => ascii ['P', '_', 'd', 'e', 'c']
  | fac _ => ascii ['P', '_', 'f', 'a', 'c']
  | mod _ => ascii ['P', '_', 'm', 'o', 'd']
  | modRng .. => ascii ['P', '_', 'm', 'o', 'd', ' ', 'R', 'N', 'G']
  | prm _ => ascii ['P', '_', 'p', 'r', 'm']

/-- What is written after the tag, and which values can be written -/
def body (W : Writers I G Aux Sid) : HashInput I G Aux Sid → List Byte × Prop
  /- src/entities/internal.rs:18-24 -/
  | sid p r ids =>
    let c := W.scheme.pair <| W.slice.pair (Codec.bset W.len W.id)
    let v := (p, r, ids)
    (c.write v, c.ok v)
  /- src/protocols/interactive_signing.rs:248-260 -/
  | epid p r shares aux =>
    let c := W.scheme.pair <| W.slice.pair <| (Codec.bmap W.len W.id W.point).pair (Codec.bmap W.len W.id W.pubAux)
    let v := (p, r, shares, aux)
    (c.write v, c.ok v)
  /- src/protocols/key_init.rs:209-218 -/
  | keyInit s i d =>
    let c := W.sid.pair <| W.id.pair <| W.point.pair <| W.point.pair <| W.bits.pair W.bits
    let v := (s, i, d.capX, d.capA, d.rho, d.u)
    (c.write v, c.ok v)
  /- src/protocols/aux_gen.rs:292-302 -/
  | auxGen s i d =>
    let c := W.sid.pair <| W.id.pair W.auxData
    let v := (s, i, d)
    (c.write v, c.ok v)
  /- src/protocols/key_refresh.rs:453-467 -/
  | keyRefresh s i d =>
    let m := Codec.bmap W.len W.id W.point
    let c := W.sid.pair <| W.id.pair <| m.pair <| m.pair <| m.pair W.auxData
    let v := (s, i, d.capXs, d.capYs, d.capAs, d.base)
    (c.write v, c.ok v)
  /- src/protocols/key_refresh.rs:366-371, 940-945, 974-979 -/
  | mask s rid i p =>
    let c := W.sid.pair <| W.bits.pair <| W.id.pair W.point
    let v := (s, rid, i, p)
    (c.write v, c.ok v)
  /- src/zk/sch.rs:49-53 -/
  | sch x =>
    let c := W.aux.pair <| W.point.pair W.point
    let v := (x.aux, x.capX, x.commitment)
    (c.write v, c.ok v)
  /- src/zk/elog.rs:61-73, 92-104 -/
  | elog x =>
    let c := W.point.pair <| W.point.pair <| W.point.pair <| W.point.pair <| W.point.pair <| W.point.pair <| W.point.pair <| W.point.pair W.aux
    let v := (x.capA, x.capN, x.capB, x.capL, x.capM, x.capX, x.capY, x.h, x.aux)
    (c.write v, c.ok v)
  /- src/zk/enc_elg.rs:85-100, 133-148 -/
  | encElg x =>
    let c := W.uint.pair <| W.wide.pair <| W.point.pair <| W.point.pair <| W.uint.pair <| W.uint.pair <| W.wide.pair <| W.point.pair <| W.point.pair <| W.point.pair <| W.rp.pair W.aux
    let v := (x.capS, x.capD, x.capY, x.capZ, x.capT, x.pk0, x.capC, x.capA, x.capB, x.capX, x.setup, x.aux)
    (c.write v, c.ok v)
  /- src/zk/aff_g.rs:108-126, 175-193 -/
  | affG x =>
    let c := W.wide.pair <| W.point.pair <| W.wide.pair <| W.uint.pair <| W.uint.pair <| W.uint.pair <| W.uint.pair <| W.uint.pair <| W.uint.pair <| W.wide.pair <| W.wide.pair <|
      W.wide.pair <| W.point.pair <| W.rp.pair W.aux
    let v := (x.capA, x.capBx, x.capBy, x.capE, x.capF, x.capS, x.capT, x.pk0, x.pk1, x.capC, x.capD, x.capY, x.capX, x.setup, x.aux)
    (c.write v, c.ok v)
  /- src/zk/aff_g_star.rs:114-125, 180-191 -/
  | affGStar x =>
    let c := (Codec.seq W.len W.starCom).pair <| W.uint.pair <| W.uint.pair <| W.wide.pair <| W.wide.pair <| W.wide.pair <| W.point.pair W.aux
    let v := (x.commitments, x.pk0, x.pk1, x.capC, x.capD, x.capY, x.capX, x.aux)
    (c.write v, c.ok v)
  /- src/zk/dec.rs:135-147, 184-196 -/
  | dec x =>
    let c := (Codec.seq W.len W.decCom).pair <| W.uint.pair <| W.wide.pair <| W.point.pair <| W.wide.pair <| W.point.pair <| W.point.pair <| W.rp.pair W.aux
    let v := (x.commitments, x.pk0, x.capK, x.capX, x.capD, x.capS, x.capG, x.setup, x.aux)
    (c.write v, c.ok v)
  /- src/zk/fac.rs:90-101, 143-154 -/
  | fac x =>
    let c := W.uint.pair <| W.uint.pair <| W.uint.pair <| W.uint.pair <| W.uint.pair <| W.uint.pair <| W.rp.pair W.aux
    let v := (x.capP, x.capQ, x.capA, x.capB, x.capT, x.pk0, x.setup, x.aux)
    (c.write v, c.ok v)
  /- src/zk/mod_.rs:39-43 -/
  | mod x =>
    let c := W.uint.pair <| W.uint.pair W.aux
    let v := (x.pk, x.commitment, x.aux)
    (c.write v, c.ok v)
  /- src/zk/mod_.rs:145-151 -/
  | modRng com pk aux =>
    let c := W.uint.pair <| W.uint.pair W.aux
    let v := (com, pk, aux)
    (c.write v, c.ok v)
  /- src/zk/prm.rs:52-56 -/
  | prm x =>
    let c := (Codec.seq W.len W.uint).pair <| W.rp.pair W.aux
    let v := (x.commitment, x.setup, x.aux)
    (c.write v, c.ok v)

/-- All bytes fed to the hash function: the tag by `Hasher::new_with_dst`, src/tools/hashing.rs:56-58, then the values -/
def stream (W : Writers I G Aux Sid) (x : HashInput I G Aux Sid) : List Byte := Codec.framed.write x.tag ++ (x.body W).1

/-- The values are in the range of the types they have in the code. -/
def Ok (W : Writers I G Aux Sid) (x : HashInput I G Aux Sid) : Prop := (x.body W).2

end HashInput

/-- The number of bytes of `Hasher::finalize`, src/tools/hashing.rs:64-69 -/
def hashOutputBytes (securityBits : Nat) : Nat := (securityBits * 2 + 7) / 8

end Synedrion
