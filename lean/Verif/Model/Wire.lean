import Verif.Model.MessageParts
import Verif.Model.Stored

/-!
# Messages on the wire

The messages of the protocols derive `Serialize` and `Deserialize`. Here they become trees of `serde`'s data model: structures and sequences are lists of trees, newtypes are
transparent, scalars, points and integers are byte strings. Names of fields, hex, base64 and the format below the trees are outside the model.
-/

namespace Synedrion

/-- The data model of `serde`, as far as the messages use it -/
inductive Data (I : Type) where
  | id (i : I)
  | nat (n : Nat)
  | bool (b : Bool)
  | bytes (b : List Byte)
  | seq (l : List (Data I))

/-- How a type is serialized and deserialized -/
structure WireCodec (ε I α : Type) where
  enc : α → Out ε (Data I)
  dec : Data I → Option α

/-- The fields of a structure in the order of their declaration -/
structure Fields (ε I α : Type) where
  enc : α → Out ε (List (Data I))
  dec : List (Data I) → Option α

namespace Fields
variable {ε I α β : Type}

/-- The end of a structure: more fields are an error. -/
def nil : Fields ε I Unit where
  enc _ := .ok []
  dec
    | [] => some ()
    | _ => none

/-- One more field, as in src/protocols/interactive_signing.rs:1097-1106: a missing field is an error. -/
def cons (c : WireCodec ε I α) (f : Fields ε I β) : Fields ε I (α × β) where
  enc x := (c.enc x.1).bind fun d => (f.enc x.2).bind fun l => .ok (d :: l)
  dec
    | [] => none
    | d :: l => (c.dec d).bind fun a => (f.dec l).map fun b => (a, b)

@[inherit_doc] infixr:67 " ;; " => cons

end Fields

namespace WireCodec
variable {ε I α β : Type}

/-- Decoding the elements of a sequence; the first that cannot be read is an error. -/
def decList (f : Data I → Option α) : List (Data I) → Option (List α)
  | [] => some []
  | d :: l => (f d).bind fun a => (decList f l).map fun l => a :: l

/-- Derived `Serialize` and `Deserialize`, as in src/protocols/interactive_signing.rs:1097-1106 -/
def struct (f : Fields ε I β) (get : α → β) (mk : β → α) : WireCodec ε I α where
  enc x := (f.enc (get x)).bind fun l => .ok (.seq l)
  dec
    | .seq l => (f.dec l).map mk
    | _ => none

/-- `Vec` and `Box<[T]>`, as in src/zk/dec.rs:62-68 -/
def list (c : WireCodec ε I α) : WireCodec ε I (List α) where
  enc l := (Out.mapM' c.enc l).bind fun l => .ok (.seq l)
  dec
    | .seq l => decList c.dec l
    | _ => none

/-- One entry of a map -/
def entry (c : WireCodec ε I α) : WireCodec ε I (I × α) where
  enc x := (c.enc x.2).bind fun d => .ok (.seq [.id x.1, d])
  dec
    | .seq [.id i, d] => (c.dec d).map fun v => (i, v)
    | _ => none

/-- `SerializableMap`, as in src/protocols/interactive_signing.rs:1473 -/
def map [LinearOrder I] (c : WireCodec ε I α) : WireCodec ε I (BMap I α) where
  enc m := c.entry.list.enc m.entries
  dec d := (c.entry.list.dec d).map BMap.ofList

/-- `bool`, src/zk/mod_.rs:54-55 -/
def bool : WireCodec ε I Bool where
  enc b := .ok (.bool b)
  dec
    | .bool b => some b
    | _ => none

/-- `u32`, src/uint/public_signed.rs:17, src/tools/bitvec.rs:11 -/
def u32 : WireCodec ε I Nat where
  enc n := .ok (.nat n)
  dec
    | .nat n => if n < 2 ^ 32 then some n else none
    | _ => none

/-- `Box<[u8]>`, src/tools/hashing.rs:73, src/tools/bitvec.rs:12-13, src/uint/public_signed.rs:19-20 -/
def bytes : WireCodec ε I (List Byte) where
  enc b := .ok (.bytes b)
  dec
    | .bytes b => some b
    | _ => none

/-- `PublicUint` of `w` bits, src/uint/public_uint.rs:17-34 -/
def uint (w : Nat) : WireCodec ε I Nat where
  enc n := .ok (.bytes (beBytes (w / 8) n))
  dec
    | .bytes b => natTryFromBytes (w / 8) b
    | _ => none

/-- The fields of `PackedSigned`, src/uint/public_signed.rs:15-21 -/
def packedSigned : WireCodec ε I PackedSigned :=
  struct (u32 ;; bool ;; bytes ;; .nil) (fun p => (p.bound, p.isNegative, p.absBytes, ())) fun (bound, isNegative, absBytes, _) => ⟨bound, isNegative, absBytes⟩

/-- `PublicSigned` of `w` bits, src/uint/public_signed.rs:23-76 -/
def signed (w : Nat) : WireCodec ε I SInt where
  enc a := ((⟨a.bound, BitVec.ofInt w a.val⟩ : PublicSigned w).pack).bind packedSigned.enc
  dec d := ((packedSigned (ε := ε)).dec d).bind fun p => (p.unpack w).map PublicSigned.toSInt

/-- The fields of `PackedBitVec`, src/tools/bitvec.rs:9-14 -/
def packedBits : WireCodec ε I PackedBitVec :=
  struct (u32 ;; bytes ;; .nil) (fun p => (p.bits, p.byteVec, ())) fun (bits, byteVec, _) => ⟨bits, byteVec⟩

/-- `BitVec`, src/tools/bitvec.rs:16-54 -/
def bits : WireCodec ε I (List Bool) where
  enc b := packedBits.enc (packBits b)
  dec d := ((packedBits (ε := ε)).dec d).bind fun p =>
    match unpackBits p with
    | .ok b => some b
    | _ => none

end WireCodec

/-- What the encodings depend on: the sizes of the integers, the size of a scalar in bytes, the encoding of points and that of hash values (`HashOutput`,
src/tools/hashing.rs:72-73) -/
structure WireFormat (G V : Type) where
  P : Params
  scalarSize : Nat
  S : Sec1 G
  digestBytes : V → List Byte
  digestOfBytes : List Byte → V

namespace WireFormat
open WireCodec
variable {ε I G V : Type} [LinearOrder I] {q : Nat} (W : WireFormat G V)

/-- `Scalar`, src/curve/arithmetic.rs:218-234, and `Secret<Scalar>`, src/tools/secret.rs:66-85 -/
def scalar : WireCodec ε I (ZMod q) where
  enc x := .ok (.bytes (scalarToBytes W.scalarSize x))
  dec
    | .bytes b => scalarTryFromBytes W.scalarSize q b
    | _ => none

/-- `Point`, src/curve/arithmetic.rs:300-316 -/
def point : WireCodec ε I G where
  enc x := (pointToBytes W.S x).bind fun b => .ok (.bytes b)
  dec
    | .bytes b => pointTryFromBytes W.S b
    | _ => none

/-- `HashOutput`, src/tools/hashing.rs:72-73: any number of bytes -/
def digest : WireCodec ε I V where
  enc v := .ok (.bytes (W.digestBytes v))
  dec
    | .bytes b => some (W.digestOfBytes b)
    | _ => none

/-- `CiphertextWire`, src/paillier/encryption.rs:70-74 (the marker field carries nothing and is left out) -/
def ciphertext : WireCodec ε I Nat := struct (uint W.P.wide ;; .nil) (fun n => (n, ())) Prod.fst

/-- `RPCommitmentWire`, `MaskedRandomizer` and `PublicModulusWire`, src/paillier/ring_pedersen.rs:214-215, src/paillier/encryption.rs:24-25, src/paillier/rsa.rs:229-230 -/
def residue : WireCodec ε I Nat := uint W.P.uint

/-- `PublicKeyPaillierWire`, src/paillier/keys.rs:298-302 -/
def publicKey : WireCodec ε I Nat := struct (W.residue ;; .nil) (fun n => (n, ())) Prod.fst

/-- `RPParamsWire`, src/paillier/ring_pedersen.rs:160-171 -/
def ringPedersen : WireCodec ε I RPParamsWire :=
  struct (W.residue ;; W.residue ;; W.residue ;; .nil) (fun p => (p.modulus, p.baseRandomizer, p.baseValue, ()))
    fun (modulus, baseRandomizer, baseValue, _) => ⟨modulus, baseRandomizer, baseValue⟩

/-- `SchProof`, src/zk/sch.rs:58-64 -/
def sch : WireCodec ε I (SchProof (ZMod q)) :=
  struct (W.scalar ;; W.scalar ;; .nil) (fun p => (p.challenge, p.proof, ())) fun (challenge, proof, _) => ⟨challenge, proof⟩

/-- `ElogProof`, src/zk/elog.rs:36-45 -/
def elog : WireCodec ε I (ElogProof (ZMod q) G) :=
  struct (W.scalar ;; W.point ;; W.point ;; W.point ;; W.scalar ;; W.scalar ;; .nil) (fun p => (p.e, p.capA, p.capN, p.capB, p.z, p.u, ()))
    fun (e, capA, capN, capB, z, u, _) => ⟨e, capA, capN, capB, z, u⟩

/-- `EncElgProof`, src/zk/enc_elg.rs:45-58 -/
def encElg : WireCodec ε I (EncElgProof q G) :=
  struct (W.scalar ;; W.residue ;; W.ciphertext ;; W.point ;; W.point ;; W.residue ;; signed W.P.uint ;; W.scalar ;; W.residue ;; signed W.P.wide ;; .nil)
    (fun p => (p.e, p.capS, p.capD, p.capY, p.capZ, p.capT, p.z1, p.w, p.z2, p.z3, ()))
    fun (e, capS, capD, capY, capZ, capT, z1, w, z2, z3, _) => ⟨e, capS, capD, capY, capZ, capT, z1, w, z2, z3⟩

/-- `AffGProof`, src/zk/aff_g.rs:50-67 -/
def affG : WireCodec ε I (AffGProof q G) :=
  struct (W.scalar ;; W.ciphertext ;; W.point ;; W.ciphertext ;; W.residue ;; W.residue ;; W.residue ;; W.residue ;; signed W.P.uint ;; signed W.P.uint ;;
      signed W.P.wide ;; signed W.P.wide ;; W.residue ;; W.residue ;; .nil)
    (fun p => (p.e, p.capA, p.capBx, p.capBy, p.capE, p.capS, p.capF, p.capT, p.z1, p.z2, p.z3, p.z4, p.w, p.wY, ()))
    fun (e, capA, capBx, capBy, capE, capS, capF, capT, z1, z2, z3, z4, w, wY, _) => ⟨e, capA, capBx, capBy, capE, capS, capF, capT, z1, z2, z3, z4, w, wY⟩

/-- `AffGStarProofCommitment`, src/zk/aff_g_star.rs:59-65 -/
def affGStarCommitment : WireCodec ε I (AffGStarCommitment G) :=
  struct (W.ciphertext ;; W.point ;; W.ciphertext ;; .nil) (fun p => (p.capA, p.capR, p.capB, ())) fun (capA, capR, capB, _) => ⟨capA, capR, capB⟩

/-- `AffGStarProofElement`, src/zk/aff_g_star.rs:67-73 -/
def affGStarElement : WireCodec ε I AffGStarElement :=
  struct (signed W.P.uint ;; signed W.P.uint ;; W.residue ;; W.residue ;; .nil) (fun p => (p.z, p.zPrime, p.w, p.lambda, ()))
    fun (z, zPrime, w, lambda, _) => ⟨z, zPrime, w, lambda⟩

/-- `AffGStarProof`, src/zk/aff_g_star.rs:75-81 -/
def affGStar : WireCodec ε I (AffGStarProof G) :=
  struct (bits ;; W.affGStarCommitment.list ;; W.affGStarElement.list ;; .nil) (fun p => (p.e, p.commitments, p.elements, ()))
    fun (e, commitments, elements, _) => ⟨e, commitments, elements⟩

/-- `DecProofCommitment`, src/zk/dec.rs:76-82 -/
def decCommitment : WireCodec ε I (DecCommitment G) :=
  struct (W.ciphertext ;; W.point ;; W.point ;; .nil) (fun p => (p.capA, p.capB, p.capC, ())) fun (capA, capB, capC, _) => ⟨capA, capB, capC⟩

/-- `DecProofElement`, src/zk/dec.rs:84-89 -/
def decElement : WireCodec ε I DecElement :=
  struct (signed W.P.uint ;; signed W.P.wide ;; W.residue ;; .nil) (fun p => (p.z, p.w, p.nu, ())) fun (z, w, nu, _) => ⟨z, w, nu⟩

/-- `DecProof`, src/zk/dec.rs:61-68 -/
def decProof : WireCodec ε I (DecProof G) :=
  struct (bits ;; W.decCommitment.list ;; W.decElement.list ;; .nil) (fun p => (p.e, p.commitments, p.elements, ()))
    fun (e, commitments, elements, _) => ⟨e, commitments, elements⟩

/-- `FacProof`, src/zk/fac.rs:26-39 -/
def fac : WireCodec ε I FacProof :=
  struct (signed W.P.uint ;; W.residue ;; W.residue ;; W.residue ;; W.residue ;; W.residue ;; signed W.P.wide ;; signed W.P.wide ;; signed W.P.wide ;;
      signed W.P.wide ;; signed W.P.extra ;; .nil)
    (fun p => (p.e, p.capP, p.capQ, p.capA, p.capB, p.capT, p.z1, p.z2, p.w1, p.w2, p.v, ()))
    fun (e, capP, capQ, capA, capB, capT, z1, z2, w1, w2, v, _) => ⟨e, capP, capQ, capA, capB, capT, z1, z2, w1, w2, v⟩

/-- `PrmProof`, src/zk/prm.rs:37-38, 47-48, 62-68 -/
def prm : WireCodec ε I PrmProof :=
  struct (W.residue.list ;; bits ;; W.residue.list ;; .nil) (fun p => (p.commitment, p.challenge, p.proof, ()))
    fun (commitment, challenge, proof, _) => ⟨commitment, challenge, proof⟩

/-- `ModProofElem`, src/zk/mod_.rs:51-57 -/
def modElem : WireCodec ε I ModElem := struct (W.residue ;; bool ;; bool ;; W.residue ;; .nil) (fun p => (p.x, p.a, p.b, p.z, ())) fun (x, a, b, z, _) => ⟨x, a, b, z⟩

/-- `ModProof`, src/zk/mod_.rs:25-26, 34-35, 68-74 -/
def modProof : WireCodec ε I ModProof :=
  struct (W.residue ;; W.residue.list ;; W.modElem.list ;; .nil) (fun p => (p.commitment, p.challenge, p.proof, ()))
    fun (commitment, challenge, proof, _) => ⟨commitment, challenge, proof⟩

/-- A part that is not sent (`EchoBroadcast::none()` and so on, as in src/protocols/key_init.rs:324-331): nothing is encoded. -/
def nothing : WireCodec ε I Unit := struct .nil id id

/-- The messages of key generation, src/protocols/key_init.rs:300-303, 369-380, 494-497 -/
def keyInit : (p : Part) → (r : Nat) → WireCodec ε I (KeyInit.Parts (ZMod q) G V p r)
  | .echo, 1 => struct (W.digest ;; .nil) (fun v => (v, ())) Prod.fst
  | .echo, 2 => struct (bits ;; .nil) (fun v => (v, ())) Prod.fst
  | .normal, 2 => struct (W.point ;; W.point ;; bits ;; .nil) (fun m => (m.capX, m.capA, m.u, ())) fun (capX, capA, u, _) => ⟨capX, capA, u⟩
  | .normal, 3 => struct (W.sch ;; .nil) (fun v => (v, ())) Prod.fst
  | .echo, 0 | .echo, _ + 3 | .normal, 0 | .normal, 1 | .normal, _ + 4 | .direct, _ => nothing

/-- The messages of auxiliary info generation, src/protocols/aux_gen.rs:402-405, 473-484, 622-631 -/
def auxGen : (p : Part) → (r : Nat) → WireCodec ε I (AuxGen.Parts V p r)
  | .echo, 1 => struct (W.digest ;; .nil) (fun v => (v, ())) Prod.fst
  | .echo, 2 => struct (W.ringPedersen ;; bits ;; .nil) (fun m => (m.rp, m.rid, ())) fun (rp, rid, _) => ⟨rp, rid⟩
  | .normal, 2 => struct (W.publicKey ;; W.prm ;; bits ;; .nil) (fun m => (m.pk, m.psi, m.u, ())) fun (pk, psi, u, _) => ⟨pk, psi, u⟩
  | .normal, 3 => struct (W.modProof ;; .nil) (fun v => (v, ())) Prod.fst
  | .direct, 3 => struct (W.fac ;; .nil) (fun v => (v, ())) Prod.fst
  | .echo, 0 | .echo, _ + 3 | .normal, 0 | .normal, 1 | .normal, _ + 4 | .direct, 0 | .direct, 1 | .direct, 2 | .direct, _ + 4 => nothing

/-- The messages of key refresh, src/protocols/key_refresh.rs:601-604, 672-687, 870-886 -/
def keyRefresh : (p : Part) → (r : Nat) → WireCodec ε I (KeyRefresh.Parts I (ZMod q) G V p r)
  | .echo, 1 => struct (W.digest ;; .nil) (fun v => (v, ())) Prod.fst
  | .echo, 2 => struct (W.ringPedersen ;; W.point.map ;; bits ;; .nil) (fun m => (m.rp, m.capYs, m.rid, ())) fun (rp, capYs, rid, _) => ⟨rp, capYs, rid⟩
  | .normal, 2 => struct (W.point.map ;; W.point.map ;; W.publicKey ;; W.prm ;; bits ;; .nil) (fun m => (m.capXs, m.capAs, m.pk, m.psi, m.u, ()))
      fun (capXs, capAs, pk, psi, u, _) => ⟨capXs, capAs, pk, psi, u⟩
  | .echo, 3 => struct (W.sch.map ;; .nil) (fun v => (v, ())) Prod.fst
  | .normal, 3 => struct (W.modProof ;; .nil) (fun v => (v, ())) Prod.fst
  | .direct, 3 => struct (W.fac ;; W.scalar ;; .nil) (fun m => (m.psi, m.capC, ())) fun (psi, capC, _) => ⟨psi, capC⟩
  | .echo, 0 | .echo, _ + 4 | .normal, 0 | .normal, 1 | .normal, _ + 4 | .direct, 0 | .direct, 1 | .direct, 2 | .direct, _ + 4 => nothing

/-- The broadcast of resharing, src/protocols/key_resharing.rs:268-272 -/
def resharingBroadcast : WireCodec ε I (List G × ZMod q) :=
  struct (W.point.list ;; W.scalar ;; .nil) (fun m => (m.1, m.2, ())) fun (publicPolynomial, oldShareId, _) => (publicPolynomial, oldShareId)

/-- The direct message of resharing, src/protocols/key_resharing.rs:274-278 -/
def resharingDirect : WireCodec ε I (ZMod q) := struct (W.scalar ;; .nil) (fun v => (v, ())) Prod.fst

/-- `Round1EchoBroadcast` of signing, src/protocols/interactive_signing.rs:1096-1106 -/
def signingEcho1 : WireCodec ε I (Signing.Echo1 G) :=
  struct (W.ciphertext ;; W.ciphertext ;; W.point ;; W.point ;; W.point ;; W.point ;; W.point ;; .nil)
    (fun m => (m.capK, m.capG, m.capY, m.capA1, m.capA2, m.capB1, m.capB2, ()))
    fun (capK, capG, capY, capA1, capA2, capB1, capB2, _) => ⟨capK, capG, capY, capA1, capA2, capB1, capB2⟩

/-- `Round2NormalBroadcast` of signing, src/protocols/interactive_signing.rs:1470-1478 -/
def signingNormal2 : WireCodec ε I (Signing.Normal2 q I G) :=
  struct (W.ciphertext.map ;; W.ciphertext.map ;; W.elog ;; W.affG.map ;; W.affG.map ;; .nil)
    (fun m => (m.capDs, m.hatCapDs, m.psiElog, m.psis, m.hatPsis, ()))
    fun (capDs, hatCapDs, psiElog, psis, hatPsis, _) => ⟨capDs, hatCapDs, psiElog, psis, hatPsis⟩

/-- `Round5EchoBroadcast` and `Round6EchoBroadcast`, src/protocols/interactive_signing.rs:2096-2101, 2314-2319 -/
def signingErr : WireCodec ε I (Signing.MsgErr I G) :=
  struct (W.decProof ;; W.affGStar.map ;; .nil) (fun m => (m.psiStar, m.psis, ())) fun (psiStar, psis, _) => ⟨psiStar, psis⟩

/-- The messages of signing, src/protocols/interactive_signing.rs:1096-1113, 1470-1486, 1824-1836, 2000-2004, 2096-2101, 2314-2319 -/
def signing : (p : Part) → (r : Nat) → WireCodec ε I (Signing.Parts q I G p r)
  | .echo, 1 => W.signingEcho1
  | .direct, 1 => struct (W.encElg ;; W.encElg ;; .nil) (fun m => (m.1, m.2, ())) fun (psi0, psi1, _) => (psi0, psi1)
  | .echo, 2 => struct (W.point ;; W.ciphertext.map ;; W.ciphertext.map ;; .nil) (fun m => (m.capGamma, m.capFs, m.hatCapFs, ()))
      fun (capGamma, capFs, hatCapFs, _) => ⟨capGamma, capFs, hatCapFs⟩
  | .normal, 2 => W.signingNormal2
  | .echo, 3 => struct (W.scalar ;; .nil) (fun v => (v, ())) Prod.fst
  | .normal, 3 => struct (W.point ;; W.elog ;; W.point ;; .nil) (fun m => (m.capDelta, m.psiPrime, m.capS, ())) fun (capDelta, psiPrime, capS, _) => ⟨capDelta, psiPrime, capS⟩
  | .normal, 4 => struct (W.scalar ;; .nil) (fun v => (v, ())) Prod.fst
  | .echo, 5 | .echo, 6 | .normal, 5 | .normal, 6 => W.signingErr
  | .echo, 0 | .echo, 4 | .echo, _ + 7 | .normal, 0 | .normal, 1 | .normal, _ + 7 | .direct, 0 | .direct, _ + 2 => nothing

end WireFormat
end Synedrion
