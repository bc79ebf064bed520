import Verif.Model.AuxGen
import Verif.Model.Ecdsa
import Verif.Model.ZkCurve

/-!
# Interactive signing (`src/protocols/interactive_signing.rs`)

`Ep` is the type of epoch ids. All hashes are arbitrary functions of what is hashed; the epoch id is a function of the public shares and the public auxiliary
info (for fixed shared randomness). All values drawn by a party are collected in `Draws`. A loop over the parties that fills several maps at once is modelled
by a loop that fills one map of records. The matrices indexed by pairs (receiver, creator) are kept as maps from the creator to a map from the receiver.
-/

namespace Synedrion

/-! ### Ciphertexts with their key -/

/-- `Ciphertext`, src/paillier/encryption.rs:84-88, with the public key it belongs to -/
structure Cipher where
  pk : Nat
  val : Ct pk

namespace Cipher
variable {ε : Type}

/-- The assertions that a ciphertext belongs to a given key: src/paillier/encryption.rs:206, 239, src/zk/aff_g.rs:79-81, 171-173, src/zk/aff_g_star.rs:92-94,
176-178, src/zk/dec.rs:107-108, src/zk/enc_elg.rs:69, 131 -/
def under (N : Nat) (c : Cipher) : Out ε (Ct N) := if h : c.pk = N then .ok (h ▸ c.val) else .panic

/-- `CiphertextWire::to_precomputed`, src/paillier/encryption.rs:77-82 -/
def ofWire (N : Nat) (wire : Nat) : Cipher := ⟨N, ctOfWire N wire⟩

/-- `Ciphertext::to_wire`, src/paillier/encryption.rs:313-318 -/
def toWire (c : Cipher) : Nat := ctToWire c.val

/-- `Ciphertext::new_with_randomizer`, src/paillier/encryption.rs:166-170 -/
def encrypt (N : Nat) (plaintext : SInt) (randomizer : Nat) : Out ε Cipher := (enc N plaintext randomizer).bind fun c => .ok ⟨N, c⟩

/-- `homomorphic_add`, `homomorphic_add_ref`, src/paillier/encryption.rs:297-311: the keys must be equal. -/
def add (c d : Cipher) : Out ε Cipher := (d.under c.pk).bind fun d => .ok ⟨c.pk, ctAdd c.val d⟩

/-- `homomorphic_mul`, src/paillier/encryption.rs:277-295, by a secret integer -/
def mulSecret (c : Cipher) (k : SInt) : Out ε Cipher := (ctMulSecret c.val k).bind fun r => .ok ⟨c.pk, r⟩

/-- The loop of `sum_non_empty_ref`, src/tools/protocol_shortcuts.rs:162-165 -/
def sumLoop (acc : Cipher) : List (Out ε Cipher) → Out ε Cipher
  | [] => .ok acc
  | c :: cs => c.bind fun c => (acc.add c).bind fun acc => sumLoop acc cs

/-- `sum_non_empty_ref`, src/tools/protocol_shortcuts.rs:155-166; also `sum_non_empty`, 141-151 -/
def sumNonEmpty (emptyErr : ε) : List (Out ε Cipher) → Out ε Cipher
  | [] => .err emptyErr
  | c :: cs => c.bind fun c => sumLoop c cs

end Cipher

/-- The modulus of a secret key: `paillier_sk.public_key()` -/
def PaillierKey.modulus (key : PaillierKey) : Nat := key.p * key.q

/-- `Ciphertext::decrypt`, src/paillier/encryption.rs:205-235 -/
def PaillierKey.decryptCipher {ε : Type} (P : Params) (key : PaillierKey) (c : Cipher) : Out ε SInt :=
  (c.under key.modulus).bind fun c => decrypt P.uint P.modBits key.sk c

/-- `Ciphertext::derive_randomizer`, src/paillier/encryption.rs:238-261 -/
def PaillierKey.randomizerOf {ε : Type} (P : Params) (key : PaillierKey) (c : Cipher) : Out ε Nat :=
  (c.under key.modulus).bind fun c => .ok (deriveRandomizer P.modBits key.sk c)

/-- Filling a map in a loop over a set: `for id in ids.iter() { map.insert(id.clone(), f(id)?) }` -/
def buildMap {ε I V : Type} [LinearOrder I] (s : Finset I) (f : I → Out ε V) : Out ε (BMap I V) :=
  (Out.mapM' (fun id => (f id).bind fun v => .ok (id, v)) (bsetIter s)).bind fun l => .ok (BMap.ofList l)

/-- Filling a map in a loop over another map: `for (id, v) in map.iter() { result.insert(id.clone(), f(id, v)?) }` -/
def BMap.traverse {ε I V W : Type} [LinearOrder I] (m : BMap I V) (f : I → V → Out ε W) : Out ε (BMap I W) :=
  (Out.mapM' (fun e : I × V => (f e.1 e.2).bind fun w => .ok (e.1, w)) m.entries).bind fun l => .ok (BMap.ofList l)

namespace Signing

variable {q : Nat} [Fact q.Prime] {I Ep G : Type} [LinearOrder I] [AddCommGroup G] [Module (ZMod q) G] [DecidableEq G]

/-- The scheme parameters, the curve and the challenge hashes of the proofs with the auxiliary data `(epid, id)` -/
structure Env (q : Nat) (I Ep G : Type) where
  P : Params
  C : Curve G
  encH : EncElgHash G (Ep × I) → ZMod q
  affH : AffGHash G (Ep × I) → ZMod q
  elogH : ElogHash G (Ep × I) → ZMod q
  decH : DecHash G (Ep × I) → List Bool
  starH : AffGStarHash G (Ep × I) → List Bool

/-- `Error`, src/protocols/interactive_signing.rs:162-195. The errors of the rounds 5 and 6 are distinguished by the flag `hat`. -/
inductive Err (I : Type) where
  | r1EncElg0Failed
  | r1EncElg1Failed
  | r2WrongIdsD
  | r2WrongIdsF
  | r2WrongIdsPsi
  | r2AffGPsiFailed (failedFor : I)
  | r2AffGHatPsiFailed (failedFor : I)
  | r2ElogFailed
  | r3ElogFailed
  | r4InvalidSignatureShare
  | decFailed (hat : Bool)
  | wrongIdsPsi (hat : Bool)
  | affGStarFailed (hat : Bool) (failedFor : I)
  deriving DecidableEq

/-- The values drawn for the multiplications with the other parties: `betas`, `rs`, `ss` and the masks of the proofs,
src/protocols/interactive_signing.rs:1306-1342, 1370-1414 -/
structure MtaDraws (I : Type) where
  beta : I → SInt
  r : I → Nat
  s : I → Nat
  masks : I → AffGMasks

/-- The values drawn by a party, src/protocols/interactive_signing.rs:998-1014, 1153-1199, 1287-1342, 1370-1414, 1704,
2164-2204, 2381-2425 -/
structure Draws (q : Nat) (I : Type) where
  k : ZMod q
  gamma : ZMod q
  y : ZMod q
  a : ZMod q
  b : ZMod q
  nu : Nat
  rho : Nat
  enc0 : I → EncElgMasks q
  enc1 : I → EncElgMasks q
  elogAlpha : ZMod q
  elogM : ZMod q
  mta : MtaDraws I
  hatMta : MtaDraws I
  elogAlpha' : ZMod q
  elogM' : ZMod q
  dec : List DecEphemeral
  star : I → List AffGStarEphemeral
  hatDec : List DecEphemeral
  hatStar : I → List AffGStarEphemeral

/-- `PublicAuxInfoPrecomputed`, src/entities/full.rs:93-98 -/
structure PubAux where
  pk : Nat
  rp : RPSetup

/-- The public part of `into_precomputed`, src/entities/full.rs:358-373: it panics on even moduli. -/
def precompute {ε : Type} (a : PublicAux) : Out ε PubAux :=
  (publicModulusNew a.pk).bind fun pk => (a.rp.toPrecomputed).bind fun rp => .ok ⟨pk, ⟨_, rp⟩⟩

/-- `Context`, src/protocols/interactive_signing.rs:1052-1070; the drawn secrets are in `d`. -/
structure Context (q : Nat) (I Ep G : Type) [LinearOrder I] where
  message : ZMod q
  epid : Ep
  myId : I
  otherIds : Finset I
  allIds : Finset I
  keyShare : KeyShare I (ZMod q) G
  key : PaillierKey
  pubAux : BMap I PubAux
  d : Draws q I

/-- `Round1EchoBroadcast`, src/protocols/interactive_signing.rs:1098-1106 -/
structure Echo1 (G : Type) where
  capK : Nat
  capG : Nat
  capY : G
  capA1 : G
  capA2 : G
  capB1 : G
  capB2 : G
  deriving DecidableEq

/-- `Round1`, src/protocols/interactive_signing.rs:1087-1094 -/
structure Round1 (q : Nat) (I Ep G : Type) [LinearOrder I] where
  ctx : Context q I Ep G
  echo : Echo1 G

/-- `InteractiveSigning::new`, src/protocols/interactive_signing.rs:931-958 -/
def new (keyShare : KeyShare I (ZMod q) G) (auxInfo : AuxInfo I PaillierKey PublicAux) : Out LocalErr Unit :=
  if keyShare.owner ≠ auxInfo.owner then .err .ownerMismatch
  else if keyShare.pub.keySet ≠ auxInfo.pub.keySet then .err .partiesMismatch
  else .ok ()

/-- `secret_signed_from_scalar`, src/params/conversion.rs:145-157 -/
def signedOfSecret {ε : Type} (P : Params) (x : ZMod q) : Out ε SInt := SInt.newModulo P.uint x.val q P.numBits

/-- `InteractiveSigning::make_round`, src/protocols/interactive_signing.rs:968-1048; `epidOf` is `Epid::new` with the shared randomness, `message` the reduced
message. The precomputed form of the secret key is part of `PaillierKey`. -/
def start (E : Env q I Ep G) (epidOf : BMap I G → BMap I PublicAux → Ep) (message : ZMod q) (keyShare : KeyShare I (ZMod q) G)
    (auxInfo : AuxInfo I PaillierKey PublicAux) (id : I) (d : Draws q I) : Out LocalErr (Round1 q I Ep G) :=
  if id ≠ keyShare.owner ∨ id ≠ auxInfo.owner then .err .ownerMismatch
  else
    let allIds := keyShare.pub.keySet
    let epid := epidOf keyShare.pub auxInfo.pub
    (auxInfo.pub.traverse fun _ a => precompute a).bind fun pubAux =>
    let pk := auxInfo.secret.modulus
    (signedOfSecret E.P d.gamma).bind fun gamma =>
    (enc pk gamma d.nu).bind fun capG =>
    (signedOfSecret E.P d.k).bind fun k =>
    (enc pk k d.rho).bind fun capK =>
    let g := E.C.g
    let capY := d.y • g
    .ok ⟨⟨message, epid, id, allIds.erase id, allIds, keyShare, auxInfo.secret, pubAux, d⟩,
      ⟨ctToWire capK, ctToWire capG, capY, d.a • g, d.a • capY + d.k • g, d.b • g, d.b • capY + d.gamma • g⟩⟩

/-! ### Round 1 -/

/-- The messages of round 1, src/protocols/interactive_signing.rs:1098-1113 -/
structure Msg1 (q : Nat) (G : Type) where
  echo : Echo1 G
  psi0 : EncElgProof q G
  psi1 : EncElgProof q G

/-- The public inputs of `psi0`, src/protocols/interactive_signing.rs:1162-1168, 1228-1234 -/
def Echo1.pub0 (e : Echo1 G) (pk : Nat) : EncElgPublic pk G := ⟨ctOfWire pk e.capK, e.capY, e.capA1, e.capA2⟩

/-- The public inputs of `psi1`, src/protocols/interactive_signing.rs:1185-1191, 1242-1248 -/
def Echo1.pub1 (e : Echo1 G) (pk : Nat) : EncElgPublic pk G := ⟨ctOfWire pk e.capG, e.capY, e.capB1, e.capB2⟩

/-- `make_echo_broadcast` and `make_direct_message` of round 1, src/protocols/interactive_signing.rs:1136-1205 -/
def msg1 (E : Env q I Ep G) (r : Round1 q I Ep G) (dest : I) : Out LocalErr (Msg1 q G) :=
  let c := r.ctx
  let pk := c.key.modulus
  (signedOfSecret E.P c.d.k).bind fun k =>
  (finGet c.pubAux dest).bind fun target =>
  (EncElgProof.prove E.P E.encH E.C.g k c.d.rho c.d.a (r.echo.pub0 pk) target.rp.rp (c.epid, c.myId) (c.d.enc0 dest)).bind fun psi0 =>
  (signedOfSecret E.P c.d.gamma).bind fun gamma =>
  (EncElgProof.prove E.P E.encH E.C.g gamma c.d.nu c.d.b (r.echo.pub1 pk) target.rp.rp (c.epid, c.myId) (c.d.enc1 dest)).bind fun psi1 =>
  .ok ⟨r.echo, psi0, psi1⟩

/-- `Round1Payload`, src/protocols/interactive_signing.rs:1116-1123 -/
structure Payload1 (G : Type) where
  capK : Cipher
  capY : G
  capA1 : G
  capA2 : G
  capB1 : G
  capB2 : G

/-- The payload made from the echo broadcast, src/protocols/interactive_signing.rs:1255-1262, 1274-1281 -/
def Echo1.payload (e : Echo1 G) (pk : Nat) : Payload1 G := ⟨.ofWire pk e.capK, e.capY, e.capA1, e.capA2, e.capB1, e.capB2⟩

/-- Round 1 `receive_message`, src/protocols/interactive_signing.rs:1207-1263 -/
def recv1 (E : Env q I Ep G) (c : Context q I Ep G) (sender : I) (m : Msg1 q G) : Out (RecvErr (Err I)) (Payload1 G) :=
  (recvGet c.pubAux c.myId).bind fun mine =>
  (recvGet c.pubAux sender).bind fun theirs =>
  let aux := (c.epid, sender)
  (m.psi0.verify E.P E.encH E.C.g (m.echo.pub0 theirs.pk) mine.rp.rp aux).bind fun ok0 =>
  if ¬ ok0 then .err (.protocol .r1EncElg0Failed)
  else (m.psi1.verify E.P E.encH E.C.g (m.echo.pub1 theirs.pk) mine.rp.rp aux).bind fun ok1 =>
    if ¬ ok1 then .err (.protocol .r1EncElg1Failed)
    else .ok (m.echo.payload theirs.pk)

/-- What a party sends to another one to multiply its scalar with the other's `k`: src/protocols/interactive_signing.rs:1368-1388, 1394-1414 -/
structure MtaOut (q : Nat) (G : Type) where
  capD : Cipher
  capF : Cipher
  psi : AffGProof q G

/-- `AffGProof::new` with its assertions about the keys, src/zk/aff_g.rs:70-167 -/
def affGProve {ε : Type} (E : Env q I Ep G) (pk0 pk1 : Nat) (x y : SInt) (rho rhoY : Nat) (capC capD capY : Cipher) (capX : G) (rp : RPSetup) (aux : Ep × I)
    (masks : AffGMasks) : Out ε (AffGProof q G) :=
  (capC.under pk0).bind fun c => (capD.under pk0).bind fun d => (capY.under pk1).bind fun y' =>
  AffGProof.prove E.P E.affH E.C.g x y rho rhoY (⟨c, d, y', capX⟩ : AffGPublic pk0 pk1 G) rp.rp aux masks

/-- `AffGProof::verify` with its assertions about the keys, src/zk/aff_g.rs:170-252 -/
def affGVerify {ε : Type} (E : Env q I Ep G) (pk0 pk1 : Nat) (psi : AffGProof q G) (capC capD capY : Cipher) (capX : G) (rp : RPSetup) (aux : Ep × I) :
    Out ε Bool :=
  (capC.under pk0).bind fun c => (capD.under pk0).bind fun d => (capY.under pk1).bind fun y =>
  psi.verify E.P E.affH E.C.g (⟨c, d, y, capX⟩ : AffGPublic pk0 pk1 G) rp.rp aux

/-- The part of one iteration for one multiplication, src/protocols/interactive_signing.rs:1364-1388 (and 1390-1414): `x` is the scalar multiplied, `capX` its
public counterpart. -/
def mtaSend (E : Env q I Ep G) (c : Context q I Ep G) (target : PubAux) (capK : Cipher) (x : SInt) (capX : G) (d : MtaDraws I) (id : I) :
    Out LocalErr (MtaOut q G) :=
  (Cipher.encrypt c.key.modulus (d.beta id) (d.r id)).bind fun capF =>
  (capK.mulSecret x).bind fun kx =>
  (Cipher.encrypt target.pk (d.beta id).neg (d.s id)).bind fun mask =>
  (kx.add mask).bind fun capD =>
  (affGProve E target.pk c.key.modulus x (d.beta id) (d.s id) (d.r id) capK capD capF capX target.rp (c.epid, c.myId) (d.masks id)).bind fun psi =>
  .ok ⟨capD, capF, psi⟩

/-- `Round2`, src/protocols/interactive_signing.rs:1450-1468; `betas`, `rs`, `ss` are in the draws of the context, `cap_k` is this party's entry in `payloads1`. -/
structure Round2 (q : Nat) (I Ep G : Type) [LinearOrder I] where
  ctx : Context q I Ep G
  payloads1 : BMap I (Payload1 G)
  capGamma : G
  psiElog : ElogProof (ZMod q) G
  outs : BMap I (MtaOut q G × MtaOut q G)

/-- The public inputs of `psi_elog`, src/protocols/interactive_signing.rs:1294-1300, 1643-1649 -/
def Payload1.elogPub (p : Payload1 G) (g capGamma : G) : ElogPublic G := ⟨p.capB1, p.capB2, p.capY, capGamma, g⟩

/-- Round 1 `finalize`, src/protocols/interactive_signing.rs:1265-1446 -/
def finalize1 (E : Env q I Ep G) (r : Round1 q I Ep G) (payloads : BMap I (Payload1 G)) : Out LocalErr (Round2 q I Ep G) :=
  let c := r.ctx
  let mine := r.echo.payload c.key.modulus
  let payloads := payloads.insert c.myId mine
  let capGamma := c.d.gamma • E.C.g
  let psiElog := ElogProof.prove E.elogH E.C.g c.d.gamma c.d.b (mine.elogPub E.C.g capGamma) (c.epid, c.myId) c.d.elogAlpha c.d.elogM
  (signedOfSecret E.P c.d.gamma).bind fun gamma =>
  (signedOfSecret E.P c.keyShare.secret).bind fun x =>
  (finGet c.keyShare.pub c.myId).bind fun capX =>
  (buildMap c.otherIds fun id =>
    (finGet c.pubAux id).bind fun target =>
    (finGet payloads id).bind fun p =>
    (mtaSend E c target p.capK gamma capGamma c.d.mta id).bind fun out =>
    (mtaSend E c target p.capK x capX c.d.hatMta id).bind fun hatOut =>
    .ok (out, hatOut)).bind fun outs =>
  .ok ⟨c, payloads, capGamma, psiElog, outs⟩

/-! ### Round 2 -/

/-- `Round2EchoBroadcast`, src/protocols/interactive_signing.rs:1482-1486 -/
structure Echo2 (I G : Type) [LinearOrder I] where
  capGamma : G
  capFs : BMap I Nat
  hatCapFs : BMap I Nat

/-- `Round2NormalBroadcast` and `Round2EchoBroadcast`, src/protocols/interactive_signing.rs:1472-1486 -/
structure Msg2 (q : Nat) (I G : Type) [LinearOrder I] where
  echo : Echo2 I G
  capDs : BMap I Nat
  hatCapDs : BMap I Nat
  psiElog : ElogProof (ZMod q) G
  psis : BMap I (AffGProof q G)
  hatPsis : BMap I (AffGProof q G)

/-- Round 2 broadcasts, src/protocols/interactive_signing.rs:1509-1539 -/
def msg2 (r : Round2 q I Ep G) : Msg2 q I G where
  echo := ⟨r.capGamma, r.outs.mapVals fun _ o => o.1.capF.toWire, r.outs.mapVals fun _ o => o.2.capF.toWire⟩
  capDs := r.outs.mapVals fun _ o => o.1.capD.toWire
  hatCapDs := r.outs.mapVals fun _ o => o.2.capD.toWire
  psiElog := r.psiElog
  psis := r.outs.mapVals fun _ o => o.1.psi
  hatPsis := r.outs.mapVals fun _ o => o.2.psi

/-- `Round2Payload`, src/protocols/interactive_signing.rs:1488-1496 -/
structure Payload2 (q : Nat) (I G : Type) [LinearOrder I] where
  capGamma : G
  alpha : ZMod q
  hatAlpha : ZMod q
  capDs : BMap I Cipher
  capFs : BMap I Cipher
  hatCapDs : BMap I Cipher
  hatCapFs : BMap I Cipher

/-- One of the loops over the proofs of round 2, src/protocols/interactive_signing.rs:1574-1602 and 1604-1640; the resulting map holds the entries of
`cap_ds` and `cap_fs`. -/
def mtaVerify (E : Env q I Ep G) (c : Context q I Ep G) (payloads1 : BMap I (Payload1 G)) (sender : I) (senderPk : Nat) (capX : Out (RecvErr (Err I)) G)
    (failed : I → Err I) (psis : BMap I (AffGProof q G)) (capDs capFs : BMap I Nat) : Out (RecvErr (Err I)) (BMap I (Cipher × Cipher)) :=
  psis.traverse fun id psi =>
    (recvGet c.pubAux id).bind fun target =>
    (recvGet payloads1 id).bind fun p =>
    (recvGet capDs id).bind fun d =>
    (recvGet capFs id).bind fun f =>
    capX.bind fun capX =>
    let capD := Cipher.ofWire target.pk d
    let capF := Cipher.ofWire senderPk f
    (affGVerify E target.pk senderPk psi p.capK capD capF capX target.rp (c.epid, sender)).bind fun ok =>
    if ¬ ok then .err (.protocol (failed id)) else .ok (capD, capF)

/-- Round 2 `receive_message`, src/protocols/interactive_signing.rs:1541-1674 -/
def recv2 (E : Env q I Ep G) (r : Round2 q I Ep G) (sender : I) (m : Msg2 q I G) : Out (RecvErr (Err I)) (Payload2 q I G) :=
  let c := r.ctx
  (recvGet c.pubAux sender).bind fun theirs =>
  let expectedIds := c.allIds.erase sender
  if m.capDs.keySet ≠ expectedIds then .err (.protocol .r2WrongIdsD)
  else if m.echo.capFs.keySet ≠ expectedIds then .err (.protocol .r2WrongIdsF)
  else if m.psis.keySet ≠ expectedIds then .err (.protocol .r2WrongIdsPsi)
  else
    (recvGet r.payloads1 sender).bind fun p =>
    (mtaVerify E c r.payloads1 sender theirs.pk (.ok m.echo.capGamma) .r2AffGPsiFailed m.psis m.capDs m.echo.capFs).bind fun dfs =>
    (mtaVerify E c r.payloads1 sender theirs.pk (recvGet c.keyShare.pub sender) .r2AffGHatPsiFailed m.hatPsis m.hatCapDs m.echo.hatCapFs).bind fun hatDfs =>
    if ¬ m.psiElog.verify E.elogH E.C.g (p.elogPub E.C.g m.echo.capGamma) (c.epid, sender) then .err (.protocol .r2ElogFailed)
    else
      (recvGet dfs c.myId).bind fun df =>
      (c.key.decryptCipher E.P df.1).bind fun alpha =>
      (recvGet hatDfs c.myId).bind fun hatDf =>
      (c.key.decryptCipher E.P hatDf.1).bind fun hatAlpha =>
      .ok ⟨m.echo.capGamma, scalarOfSigned q alpha, scalarOfSigned q hatAlpha, dfs.mapVals fun _ x => x.1, dfs.mapVals fun _ x => x.2,
        hatDfs.mapVals fun _ x => x.1, hatDfs.mapVals fun _ x => x.2⟩

/-- `Round3EchoBroadcast` and `Round3NormalBroadcast`, src/protocols/interactive_signing.rs:1826-1836 -/
structure Msg3 (q : Nat) (G : Type) where
  delta : ZMod q
  capDelta : G
  psiPrime : ElogProof (ZMod q) G
  capS : G

/-- `Round3`, src/protocols/interactive_signing.rs:1803-1822; the matrices are maps from the creator to a map from the receiver. -/
structure Round3 (q : Nat) (I Ep G : Type) [LinearOrder I] where
  ctx : Context q I Ep G
  capGammaCombined : G
  chi : ZMod q
  payloads1 : BMap I (Payload1 G)
  capGammas : BMap I G
  capDs : BMap I (BMap I Cipher)
  capFs : BMap I (BMap I Cipher)
  hatCapDs : BMap I (BMap I Cipher)
  hatCapFs : BMap I (BMap I Cipher)
  msg : Msg3 q G

/-- The public inputs of `psi_prime`, src/protocols/interactive_signing.rs:1711-1717, 1887-1893 -/
def Payload1.elogPub' (p : Payload1 G) (capDelta capGammaCombined : G) : ElogPublic G := ⟨p.capA1, p.capA2, p.capY, capDelta, capGammaCombined⟩

/-- The sum of the masks of the multiplications, src/protocols/interactive_signing.rs:1693, 1697 -/
def MtaDraws.betaSum (d : MtaDraws I) (q : Nat) (others : Finset I) : ZMod q := ((bsetIter others).map fun id => scalarOfSigned q (d.beta id)).sum

/-- Round 2 `finalize`, src/protocols/interactive_signing.rs:1676-1799 -/
def finalize2 (E : Env q I Ep G) (r : Round2 q I Ep G) (payloads : BMap I (Payload2 q I G)) : Out LocalErr (Round3 q I Ep G) :=
  let c := r.ctx
  let capGammas := (payloads.mapVals fun _ p => p.capGamma).insert c.myId r.capGamma
  let capGammaCombined := capGammas.values.sum
  let capDelta := c.d.k • capGammaCombined
  let x := c.keyShare.secret
  let delta := c.d.gamma * c.d.k + (payloads.values.map fun p => p.alpha).sum + c.d.mta.betaSum q c.otherIds
  let chi := x * c.d.k + (payloads.values.map fun p => p.hatAlpha).sum + c.d.hatMta.betaSum q c.otherIds
  let capS := chi • capGammaCombined
  (finGet r.payloads1 c.myId).bind fun p =>
  let psiPrime := ElogProof.prove E.elogH E.C.g c.d.k c.d.a (p.elogPub' capDelta capGammaCombined) (c.epid, c.myId) c.d.elogAlpha' c.d.elogM'
  .ok {
    ctx := c, capGammaCombined := capGammaCombined, chi := chi, payloads1 := r.payloads1, capGammas := capGammas,
    capDs := (payloads.mapVals fun _ p => p.capDs).insert c.myId (r.outs.mapVals fun _ o => o.1.capD),
    capFs := (payloads.mapVals fun _ p => p.capFs).insert c.myId (r.outs.mapVals fun _ o => o.1.capF),
    hatCapDs := (payloads.mapVals fun _ p => p.hatCapDs).insert c.myId (r.outs.mapVals fun _ o => o.2.capD),
    hatCapFs := (payloads.mapVals fun _ p => p.hatCapFs).insert c.myId (r.outs.mapVals fun _ o => o.2.capF),
    msg := ⟨delta, capDelta, psiPrime, capS⟩ }

/-! ### Round 3 -/

/-- `Round3Payload`, src/protocols/interactive_signing.rs:1838-1842 -/
structure Payload3 (q : Nat) (G : Type) where
  delta : ZMod q
  capDelta : G
  capS : G

/-- The payload made from the message, src/protocols/interactive_signing.rs:1899-1903, 1913-1917 -/
def Msg3.payload (m : Msg3 q G) : Payload3 q G := ⟨m.delta, m.capDelta, m.capS⟩

/-- Round 3 `receive_message`, src/protocols/interactive_signing.rs:1871-1904 -/
def recv3 (E : Env q I Ep G) (r : Round3 q I Ep G) (sender : I) (m : Msg3 q G) : Out (RecvErr (Err I)) (Payload3 q G) :=
  (recvGet r.payloads1 sender).bind fun p =>
  if ¬ m.psiPrime.verify E.elogH E.C.g (p.elogPub' m.capDelta r.capGammaCombined) (r.ctx.epid, sender) then .err (.protocol .r3ElogFailed)
  else .ok m.payload

/-- `Round4`, src/protocols/interactive_signing.rs:1994-1998, with `PresigningData`, 56-65 -/
structure Round4 (q : Nat) (I Ep G : Type) [LinearOrder I] where
  ctx : Context q I Ep G
  capGammaCombined : G
  tildeK : ZMod q
  tildeChi : ZMod q
  tildeCapDeltas : BMap I G
  tildeCapSs : BMap I G
  sigma : ZMod q

/-- `Round5`, src/protocols/interactive_signing.rs:2084-2094, and `Round6`, 2302-2312, which differ in the multiplication they are about. `hat` tells that this is
round 6. For round 5, `capXs` are `cap_gammas`, `capSs` are `deltas` times the generator, `capG` is the generator and `x` is `gamma`. For round 6, `capXs` are the
public key shares, `capSs` are `cap_ss`, `capG` is `cap_gamma_combined` and `x` is the secret key share. -/
structure ErrRound (q : Nat) (I Ep G : Type) [LinearOrder I] where
  hat : Bool
  ctx : Context q I Ep G
  capKs : BMap I Cipher
  capDs : BMap I (BMap I Cipher)
  capFs : BMap I (BMap I Cipher)
  capXs : BMap I G
  capSs : BMap I G
  capG : G
  x : ZMod q
  mta : MtaDraws I
  dec : List DecEphemeral
  star : I → List AffGStarEphemeral

/-- What comes after round 3 -/
inductive After3 (q : Nat) (I Ep G : Type) [LinearOrder I] where
  | round4 (r : Round4 q I Ep G)
  | error (r : ErrRound q I Ep G)

/-- `KeyShare::verifying_key_as_point`, src/entities/full.rs:251-253 -/
def verifyingKeyPoint (share : KeyShare I (ZMod q) G) : G := share.pub.values.sum

/-- Round 3 `finalize`, src/protocols/interactive_signing.rs:1906-1990 -/
def finalize3 (E : Env q I Ep G) (r : Round3 q I Ep G) (payloads : BMap I (Payload3 q G)) : Out LocalErr (After3 q I Ep G) :=
  let c := r.ctx
  let payloads := payloads.insert c.myId r.msg.payload
  let delta := (payloads.values.map fun p => p.delta).sum
  let capDelta := (payloads.values.map fun p => p.capDelta).sum
  let capS := (payloads.values.map fun p => p.capS).sum
  let capX := verifyingKeyPoint c.keyShare
  let capKs := r.payloads1.mapVals fun _ p => p.capK
  if delta • E.C.g ≠ capDelta then
    .ok (.error ⟨false, c, capKs, r.capDs, r.capFs, r.capGammas, payloads.mapVals fun _ p => p.delta • E.C.g, E.C.g, c.d.gamma, c.d.mta, c.d.dec, c.d.star⟩)
  else if capS ≠ delta • capX then
    .ok (.error ⟨true, c, capKs, r.hatCapDs, r.hatCapFs, c.keyShare.pub, payloads.mapVals fun _ p => p.capS, r.capGammaCombined, c.keyShare.secret, c.d.hatMta,
      c.d.hatDec, c.d.hatStar⟩)
  else if delta = 0 then .err .finalCheck
  else
    let tildeK := c.d.k * delta⁻¹
    let tildeChi := r.chi * delta⁻¹
    let nonce := E.C.xCoordinate q r.capGammaCombined
    .ok (.round4 ⟨c, r.capGammaCombined, tildeK, tildeChi, payloads.mapVals fun _ p => delta⁻¹ • p.capDelta, payloads.mapVals fun _ p => delta⁻¹ • p.capS,
      tildeK * c.message + tildeChi * nonce⟩)

/-! ### Round 4 -/

/-- Round 4 `receive_message`, src/protocols/interactive_signing.rs:2029-2056; the message is the signature share. -/
def recv4 (E : Env q I Ep G) (r : Round4 q I Ep G) (sender : I) (sigma : ZMod q) : Out (RecvErr (Err I)) (ZMod q) :=
  let nonce := E.C.xCoordinate q r.capGammaCombined
  (recvGet r.tildeCapDeltas sender).bind fun capDelta =>
  (recvGet r.tildeCapSs sender).bind fun capS =>
  if sigma • r.capGammaCombined ≠ r.ctx.message • capDelta + nonce • capS then .err (.protocol .r4InvalidSignatureShare)
  else .ok sigma

/-- Round 4 `finalize`, src/protocols/interactive_signing.rs:2058-2080 -/
def finalize4 (E : Env q I Ep G) (r : Round4 q I Ep G) (payloads : BMap I (ZMod q)) : Out LocalErr (RecoverableSignature q) :=
  let sigma := payloads.values.sum + r.sigma
  Out.ofOption .finalCheck
    (RecoverableSignature.fromScalars E.C (E.C.xCoordinate q r.capGammaCombined) sigma (verifyingKeyPoint r.ctx.keyShare) r.ctx.message)

/-! ### Rounds 5 and 6 -/

/-- `Round5EchoBroadcast`, src/protocols/interactive_signing.rs:2098-2101, and `Round6EchoBroadcast`, 2316-2319 -/
structure MsgErr (I G : Type) [LinearOrder I] where
  psiStar : DecProof G
  psis : BMap I (AffGStarProof G)

/-- Lookup in a matrix: `map.safe_get(&(id_for, id_by))`, src/tools/protocol_shortcuts.rs:83-86 -/
def matrixGet {ε : Type} (missing : ε) (m : BMap I (BMap I Cipher)) (idFor idBy : I) : Out ε Cipher :=
  (Out.ofOption missing (m.get? idBy)).bind fun row => Out.ofOption missing (row.get? idFor)

/-- The aggregated ciphertext of a party, src/protocols/interactive_signing.rs:2130-2140, 2230-2240, 2348-2358, 2473-2483: the sum of what the others `ids` made
for it and of its own masks. -/
def aggregate {ε : Type} (missing emptyErr : ε) (capDs capFs : BMap I (BMap I Cipher)) (party : I) (ids : Finset I) : Out ε Cipher :=
  (Cipher.sumNonEmpty emptyErr ((bsetIter ids).map fun id => matrixGet missing capDs party id)).bind fun d =>
  (Cipher.sumNonEmpty emptyErr ((bsetIter ids).map fun id => matrixGet missing capFs id party)).bind fun f => d.add f

/-- `AffGStarProof::verify` with its assertions about the keys, src/zk/aff_g_star.rs:175-258 -/
def starVerify {ε : Type} (E : Env q I Ep G) (pk0 pk1 : Nat) (psi : AffGStarProof G) (capC capD capY : Cipher) (capX : G) (aux : Ep × I) : Out ε Bool :=
  (capC.under pk0).bind fun c => (capD.under pk0).bind fun d => (capY.under pk1).bind fun y =>
  psi.verify E.P E.starH E.C.g q (⟨c, d, y, capX⟩ : AffGPublic pk0 pk1 G) aux

/-- `AffGStarProof::new` with its assertions about the keys, src/zk/aff_g_star.rs:84-173 -/
def starProve {ε : Type} (E : Env q I Ep G) (pk0 pk1 : Nat) (x y : SInt) (rho mu : Nat) (capC capD capY : Cipher) (capX : G) (aux : Ep × I)
    (ephs : List AffGStarEphemeral) : Out ε (AffGStarProof G) :=
  (capC.under pk0).bind fun c => (capD.under pk0).bind fun d => (capY.under pk1).bind fun y' =>
  AffGStarProof.prove E.P E.starH E.C.g q x y rho mu (⟨c, d, y', capX⟩ : AffGPublic pk0 pk1 G) aux ephs

/-- One of the aff-g* proofs, src/protocols/interactive_signing.rs:2186-2207, 2402-2444; round 6 also checks it. -/
def starFor (E : Env q I Ep G) (r : ErrRound q I Ep G) (x : SInt) (id : I) : Out LocalErr (AffGStarProof G) :=
  let c := r.ctx
  let pk := c.key.modulus
  let aux := (c.epid, c.myId)
  (finGet c.pubAux id).bind fun target =>
  (finGet r.capKs id).bind fun capK =>
  (matrixGet .missing r.capDs id c.myId).bind fun capD =>
  (matrixGet .missing r.capFs id c.myId).bind fun capF =>
  (finGet r.capXs c.myId).bind fun capX =>
  (starProve E target.pk pk x (r.mta.beta id) (r.mta.s id) (r.mta.r id) capK capD capF capX aux (r.star id)).bind fun psi =>
  if r.hat then (starVerify E target.pk pk psi capK capD capF capX aux).bind fun ok => (Out.assert ok).bind fun _ => .ok psi
  else .ok psi

/-- `make_echo_broadcast` of rounds 5 and 6, src/protocols/interactive_signing.rs:2120-2210, 2338-2453 -/
def msgErr (E : Env q I Ep G) (r : ErrRound q I Ep G) : Out LocalErr (MsgErr I G) :=
  let c := r.ctx
  (finGet c.pubAux c.myId).bind fun mine =>
  (aggregate .missing .emptySum r.capDs r.capFs c.myId c.otherIds).bind fun capD =>
  (finGet r.capKs c.myId).bind fun capK =>
  (signedOfSecret E.P r.x).bind fun x =>
  (capK.mulSecret x).bind fun kx =>
  (kx.add capD).bind fun full =>
  (c.key.randomizerOf E.P full).bind fun rho =>
  (c.key.decryptCipher E.P full).bind fun y =>
  (ceilLog2Parties c.allIds.card).bind fun ceilLog2 =>
  (Out.ofOption .finalCheck (y.ensureRange E.P.uint (decYBound E.P ceilLog2))).bind fun y =>
  (finGet r.capSs c.myId).bind fun capS =>
  (finGet r.capXs c.myId).bind fun capX =>
  (capK.under c.key.modulus).bind fun k =>
  (capD.under c.key.modulus).bind fun d =>
  (DecProof.prove E.P E.decH E.C.g q x y rho ⟨k, capX, d, capS, r.capG, c.allIds.card⟩ mine.rp.rp (c.epid, c.myId) r.dec).bind fun psiStar =>
  (buildMap c.otherIds (starFor E r x)).bind fun psis => .ok ⟨psiStar, psis⟩

/-- Rounds 5 and 6 `receive_message`, src/protocols/interactive_signing.rs:2212-2287, 2455-2532. The verifier of dec does not assert the keys of the
ciphertexts, but multiplies them, src/zk/dec.rs:219-224, which does; here the assertion comes first. -/
def recvErr (E : Env q I Ep G) (r : ErrRound q I Ep G) (sender : I) (m : MsgErr I G) : Out (RecvErr (Err I)) Unit :=
  let c := r.ctx
  let aux := (c.epid, sender)
  let missing : RecvErr (Err I) := .localErr .missing
  (recvGet c.pubAux sender).bind fun theirs =>
  let ids := c.allIds.erase sender
  (aggregate missing (.localErr .emptySum) r.capDs r.capFs sender ids).bind fun capD =>
  (recvGet r.capKs sender).bind fun capK =>
  (recvGet r.capXs sender).bind fun capX =>
  (recvGet r.capSs sender).bind fun capS =>
  (capK.under theirs.pk).bind fun k =>
  (capD.under theirs.pk).bind fun d =>
  (m.psiStar.verify E.P E.decH E.C.g q (⟨k, capX, d, capS, r.capG, c.allIds.card⟩ : DecPublic theirs.pk G) theirs.rp.rp aux).bind fun ok =>
  if ¬ ok then .err (.protocol (.decFailed r.hat))
  else if m.psis.keySet ≠ ids then .err (.protocol (.wrongIdsPsi r.hat))
  else (m.psis.traverse fun id psi =>
    if id = c.myId then .ok ()
    else
      (recvGet c.pubAux id).bind fun target =>
      (recvGet r.capKs id).bind fun capC =>
      (matrixGet missing r.capDs id sender).bind fun capD =>
      (matrixGet missing r.capFs id sender).bind fun capY =>
      (starVerify E target.pk theirs.pk psi capC capD capY capX aux).bind fun ok =>
      if ¬ ok then .err (.protocol (.affGStarFailed r.hat id)) else .ok ()).bind fun _ => .ok ()

/-- Rounds 5 and 6 `finalize`, src/protocols/interactive_signing.rs:2289-2298, 2534-2543 -/
def finalizeErr {α : Type} : Out LocalErr α := .err .finalCheck

/-! ### A whole run -/

/-- All messages of round 1; the session layer makes them, in the order of the destinations, before it processes what arrives. -/
def send1 (E : Env q I Ep G) (r : Round1 q I Ep G) : Out (Abort I (Err I)) (List (I × Msg1 q G)) :=
  Out.mapM' (fun dest => (finalizeResult (msg1 E r dest)).bind fun m => .ok (dest, m)) (bsetIter r.ctx.otherIds)

/-- One party's run up to the start of round 2 -/
def toRound2 (E : Env q I Ep G) (r : Round1 q I Ep G) (in1 : List (I × Msg1 q G)) : Out (Abort I (Err I)) (Round2 q I Ep G) :=
  (send1 E r).bind fun _ =>
  (collect r.ctx.otherIds (recv1 E r.ctx) in1).bind fun payloads => finalizeResult (finalize1 E r payloads)

/-- One party's run up to the start of round 3 -/
def toRound3 (E : Env q I Ep G) (r : Round1 q I Ep G) (in1 : List (I × Msg1 q G)) (in2 : List (I × Msg2 q I G)) :
    Out (Abort I (Err I)) (Round3 q I Ep G) :=
  (toRound2 E r in1).bind fun r =>
  (collect r.ctx.otherIds (recv2 E r) in2).bind fun payloads => finalizeResult (finalize2 E r payloads)

/-- One party's run up to the end of round 3 -/
def toRound4 (E : Env q I Ep G) (r : Round1 q I Ep G) (in1 : List (I × Msg1 q G)) (in2 : List (I × Msg2 q I G)) (in3 : List (I × Msg3 q G)) :
    Out (Abort I (Err I)) (After3 q I Ep G) :=
  (toRound3 E r in1 in2).bind fun r =>
  (collect r.ctx.otherIds (recv3 E r) in3).bind fun payloads => finalizeResult (finalize3 E r payloads)

/-- The last round of a run, given the messages of round 4 and those of round 5 or 6; only the ones of the round that is reached are used. -/
def last (E : Env q I Ep G) (in4 : List (I × ZMod q)) (inErr : List (I × MsgErr I G)) : After3 q I Ep G → Out (Abort I (Err I)) (RecoverableSignature q)
  | .round4 r => (collect r.ctx.otherIds (recv4 E r) in4).bind fun payloads => finalizeResult (finalize4 E r payloads)
  | .error r =>
    (finalizeResult (msgErr E r)).bind fun _ =>
    (collect r.ctx.otherIds (recvErr E r) inErr).bind fun _ => finalizeResult finalizeErr

/-- One party's whole run, given all messages it receives. -/
def run (E : Env q I Ep G) (r : Round1 q I Ep G) (in1 : List (I × Msg1 q G)) (in2 : List (I × Msg2 q I G)) (in3 : List (I × Msg3 q G))
    (in4 : List (I × ZMod q)) (inErr : List (I × MsgErr I G)) : Out (Abort I (Err I)) (RecoverableSignature q) :=
  (toRound4 E r in1 in2 in3).bind fun a => last E in4 inErr a

end Signing
end Synedrion
