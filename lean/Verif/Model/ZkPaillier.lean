import Verif.Model.Paillier
import Verif.Model.Params
import Mathlib.Algebra.Module.Defs

/-!
# Zero-knowledge proofs about Paillier ciphertexts

Models `src/zk/enc_elg.rs`, `src/zk/aff_g.rs`, `src/zk/aff_g_star.rs`, `src/zk/dec.rs` and `src/zk/fac.rs`.

Scalars are `ZMod q`; points are a module over them. An integer becomes a scalar by reduction (property C07 relates this to the limb-level
conversion). The hash is a parameter; its argument lists everything that is hashed, in wire form. Random masks are explicit arguments. Public keys
are moduli in the types, so the assertions that a ciphertext belongs to a key are satisfied by typing.
-/

namespace Synedrion

variable {ε : Type} {q : Nat} {G Aux : Type} [AddCommGroup G] [Module (ZMod q) G] [DecidableEq G]

/-- `public_signed_from_scalar`, src/params/conversion.rs:51-59: the least non-negative representative with the bound `NUM_BITS`
(C07 proves this of the limb-level model). -/
def signedOfScalar (P : Params) (e : ZMod q) : SInt := ⟨P.numBits, (e.val : Int)⟩

/-- `scalar_from_signed`, `secret_scalar_from_signed` and the wide variants, src/params/conversion.rs:79-99, 160-173 -/
def scalarOfSigned (q : Nat) (v : SInt) : ZMod q := (v.val : ZMod q)

/-! ## enc-elg -/

/-- `EncElgPublicInputs`, src/zk/enc_elg.rs:31-42 -/
structure EncElgPublic (N0 : Nat) (G : Type) where
  capC : Ct N0
  capA : G
  capB : G
  capX : G

/-- What is hashed, src/zk/enc_elg.rs:85-100, 133-148 (after the tag `P_enc_elg`) -/
structure EncElgHash (G Aux : Type) where
  capS : Nat
  capD : Nat
  capY : G
  capZ : G
  capT : Nat
  pk0 : Nat
  capC : Nat
  capA : G
  capB : G
  capX : G
  setup : RPParamsWire
  aux : Aux

/-- `EncElgProof`, src/zk/enc_elg.rs:47-58 -/
structure EncElgProof (q : Nat) (G : Type) where
  e : ZMod q
  capS : Nat
  capD : Nat
  capY : G
  capZ : G
  capT : Nat
  z1 : SInt
  w : ZMod q
  z2 : Nat
  z3 : SInt

/-- The random values drawn in `EncElgProof::new`, src/zk/enc_elg.rs:73-77 -/
structure EncElgMasks (q : Nat) where
  alpha : SInt
  mu : SInt
  r : Nat
  beta : ZMod q
  gamma : SInt

/-- The challenge as recomputed from a proof, src/zk/enc_elg.rs:85-104, 133-152 -/
def encElgHash {N0 Nh : Nat} (capS capD : Nat) (capY capZ : G) (capT : Nat) (pub : EncElgPublic N0 G) (setup : RPParams Nh) (aux : Aux) :
    EncElgHash G Aux :=
  ⟨capS, capD, capY, capZ, capT, N0, ctToWire pub.capC, pub.capA, pub.capB, pub.capX, setup.toWire, aux⟩

/-- `EncElgProof::new`, src/zk/enc_elg.rs:61-123 -/
def EncElgProof.prove (P : Params) (H : EncElgHash G Aux → ZMod q) (g : G) {N0 Nh : Nat} (x : SInt) (rho : Nat) (b : ZMod q)
    (pub : EncElgPublic N0 G) (setup : RPParams Nh) (aux : Aux) (mask : EncElgMasks q) : Out ε (EncElgProof q G) :=
  (x.assertRange P.L).bind fun _ =>
  (setup.commitSecret x mask.mu).bind fun capS =>
  (enc N0 mask.alpha mask.r).bind fun capD =>
  let capY := mask.beta • pub.capA + scalarOfSigned q mask.alpha • g
  let capZ := mask.beta • g
  (setup.commitSecret mask.alpha mask.gamma).bind fun capT =>
  let e := H (encElgHash (commitmentToWire capS) (ctToWire capD) capY capZ (commitmentToWire capT) pub setup aux)
  let eSigned := signedOfScalar P e
  ((x.mul P.uint eSigned).bind fun xe => mask.alpha.add P.uint xe).bind fun z1 =>
  let w := mask.beta + b * e
  (toMasked N0 rho mask.r eSigned).bind fun z2 =>
  ((mask.mu.mul P.wide eSigned.toWide).bind fun mue => mask.gamma.add P.wide mue).bind fun z3 =>
  .ok ⟨e, commitmentToWire capS, ctToWire capD, capY, capZ, commitmentToWire capT, z1, w, z2, z3⟩

/-- `EncElgProof::verify`, src/zk/enc_elg.rs:125-190 -/
def EncElgProof.verify (P : Params) (H : EncElgHash G Aux → ZMod q) (g : G) {N0 Nh : Nat} (self : EncElgProof q G)
    (pub : EncElgPublic N0 G) (setup : RPParams Nh) (aux : Aux) : Out ε Bool :=
  let e := H (encElgHash self.capS self.capD self.capY self.capZ self.capT pub setup aux)
  Out.check (decide (e = self.e)) <|
  let eSigned := signedOfScalar P e
  Out.check (self.z1.inRange (P.L + P.EPS)) <|
  (ctMulPublic pub.capC eSigned).bind fun ce =>
  Out.check (decide (encPublic N0 self.z1 self.z2 = ctAdd (ctOfWire N0 self.capD) ce)) <|
  Out.check (decide (self.w • pub.capA + scalarOfSigned q self.z1 • g = self.capY + e • pub.capX)) <|
  Out.check (decide (self.w • g = self.capZ + e • pub.capB)) <|
  (setup.commitPublic self.z1 self.z3).bind fun lhs =>
  (powPublic (commitmentOfWire Nh self.capS) eSigned).bind fun se =>
  Out.check (decide (lhs = commitmentOfWire Nh self.capT * se)) <|
  .ok true

/-! ## aff-g -/

/-- `AffGPublicInputs`, src/zk/aff_g.rs:30-47; also `AffGStarPublicInputs`, src/zk/aff_g_star.rs:33-50 -/
structure AffGPublic (N0 N1 : Nat) (G : Type) where
  capC : Ct N0
  capD : Ct N0
  capY : Ct N1
  capX : G

/-- What is hashed, src/zk/aff_g.rs:108-126, 175-193 (after the tag `P_aff_g`) -/
structure AffGHash (G Aux : Type) where
  capA : Nat
  capBx : G
  capBy : Nat
  capE : Nat
  capF : Nat
  capS : Nat
  capT : Nat
  pk0 : Nat
  pk1 : Nat
  capC : Nat
  capD : Nat
  capY : Nat
  capX : G
  setup : RPParamsWire
  aux : Aux

/-- `AffGProof`, src/zk/aff_g.rs:52-67 -/
structure AffGProof (q : Nat) (G : Type) where
  e : ZMod q
  capA : Nat
  capBx : G
  capBy : Nat
  capE : Nat
  capS : Nat
  capF : Nat
  capT : Nat
  z1 : SInt
  z2 : SInt
  z3 : SInt
  z4 : SInt
  w : Nat
  wY : Nat

/-- The random values drawn in `AffGProof::new`, src/zk/aff_g.rs:85-94 -/
structure AffGMasks where
  alpha : SInt
  beta : SInt
  r : Nat
  rY : Nat
  gamma : SInt
  m : SInt
  delta : SInt
  mu : SInt

/-- The hash argument, src/zk/aff_g.rs:108-126, 175-193 -/
def affGHash {N0 N1 Nh : Nat} (capA : Nat) (capBx : G) (capBy capE capF capS capT : Nat) (pub : AffGPublic N0 N1 G) (setup : RPParams Nh)
    (aux : Aux) : AffGHash G Aux :=
  ⟨capA, capBx, capBy, capE, capF, capS, capT, N0, N1, ctToWire pub.capC, ctToWire pub.capD, ctToWire pub.capY, pub.capX, setup.toWire, aux⟩

/-- `AffGProof::new`, src/zk/aff_g.rs:70-167 -/
def AffGProof.prove (P : Params) (H : AffGHash G Aux → ZMod q) (g : G) {N0 N1 Nh : Nat} (x y : SInt) (rho rhoY : Nat)
    (pub : AffGPublic N0 N1 G) (setup : RPParams Nh) (aux : Aux) (mask : AffGMasks) : Out ε (AffGProof q G) :=
  (x.assertRange P.L).bind fun _ =>
  (y.assertRange P.LP).bind fun _ =>
  (ctMulSecret pub.capC mask.alpha).bind fun ca =>
  (enc N0 mask.beta mask.r).bind fun encBeta =>
  let capA := ctAdd ca encBeta
  let capBx := scalarOfSigned q mask.alpha • g
  (enc N1 mask.beta mask.rY).bind fun capBy =>
  (setup.commitSecret mask.alpha mask.gamma).bind fun capE =>
  (setup.commitSecret x mask.m).bind fun capS =>
  (setup.commitSecret mask.beta mask.delta).bind fun capF =>
  (setup.commitSecret y.neg mask.mu).bind fun capT =>
  let eScalar := H (affGHash (ctToWire capA) capBx (ctToWire capBy) (commitmentToWire capE) (commitmentToWire capF) (commitmentToWire capS)
    (commitmentToWire capT) pub setup aux)
  let e := signedOfScalar P eScalar
  let eWide := e.toWide
  ((x.mul P.uint e).bind fun xe => mask.alpha.add P.uint xe).bind fun z1 =>
  ((y.neg.mul P.uint e).bind fun ye => mask.beta.add P.uint ye).bind fun z2 =>
  ((mask.m.mul P.wide eWide).bind fun me => mask.gamma.add P.wide me).bind fun z3 =>
  ((mask.mu.mul P.wide eWide).bind fun mue => mask.delta.add P.wide mue).bind fun z4 =>
  (toMasked N0 rho mask.r e).bind fun w =>
  (toMasked N1 rhoY mask.rY e.neg).bind fun wY =>
  .ok ⟨eScalar, ctToWire capA, capBx, ctToWire capBy, commitmentToWire capE, commitmentToWire capS, commitmentToWire capF,
    commitmentToWire capT, z1, z2, z3, z4, w, wY⟩

/-- `AffGProof::verify`, src/zk/aff_g.rs:170-252 -/
def AffGProof.verify (P : Params) (H : AffGHash G Aux → ZMod q) (g : G) {N0 N1 Nh : Nat} (self : AffGProof q G)
    (pub : AffGPublic N0 N1 G) (setup : RPParams Nh) (aux : Aux) : Out ε Bool :=
  let eScalar := H (affGHash self.capA self.capBx self.capBy self.capE self.capF self.capS self.capT pub setup aux)
  Out.check (decide (eScalar = self.e)) <|
  let e := signedOfScalar P eScalar
  Out.check (self.z1.inRange (P.L + P.EPS)) <|
  Out.check (self.z2.inRange (P.LP + P.EPS)) <|
  (ctMulPublic pub.capC self.z1).bind fun cz =>
  (ctMulPublic pub.capD e).bind fun de =>
  Out.check (decide (ctAdd cz (encPublic N0 self.z2 self.w) = ctAdd de (ctOfWire N0 self.capA))) <|
  Out.check (decide (scalarOfSigned q self.z1 • g = self.capBx + eScalar • pub.capX)) <|
  (ctMulPublic pub.capY e.neg).bind fun ye =>
  Out.check (decide (encPublic N1 self.z2 self.wY = ctAdd ye (ctOfWire N1 self.capBy))) <|
  (setup.commitPublic self.z1 self.z3).bind fun lhs1 =>
  (powPublic (commitmentOfWire Nh self.capS) e).bind fun se =>
  Out.check (decide (lhs1 = commitmentOfWire Nh self.capE * se)) <|
  (setup.commitPublic self.z2 self.z4).bind fun lhs2 =>
  (powPublic (commitmentOfWire Nh self.capT) e).bind fun te =>
  Out.check (decide (lhs2 = commitmentOfWire Nh self.capF * te)) <|
  .ok true

/-! ## aff-g* -/

/-- `AffGStarProofEphemeral`, src/zk/aff_g_star.rs:52-57 -/
structure AffGStarEphemeral where
  alpha : SInt
  beta : SInt
  r : Nat
  s : Nat

/-- `AffGStarProofCommitment`, src/zk/aff_g_star.rs:59-65 -/
structure AffGStarCommitment (G : Type) where
  capA : Nat
  capR : G
  capB : Nat

/-- `AffGStarProofElement`, src/zk/aff_g_star.rs:67-73 -/
structure AffGStarElement where
  z : SInt
  zPrime : SInt
  w : Nat
  lambda : Nat

/-- `AffGStarProof`, src/zk/aff_g_star.rs:75-81 -/
structure AffGStarProof (G : Type) where
  e : List Bool
  commitments : List (AffGStarCommitment G)
  elements : List AffGStarElement

/-- What is hashed, src/zk/aff_g_star.rs:114-125, 180-191 (after the tag `P_aff_g*`) -/
structure AffGStarHash (G Aux : Type) where
  commitments : List (AffGStarCommitment G)
  pk0 : Nat
  pk1 : Nat
  capC : Nat
  capD : Nat
  capY : Nat
  capX : G
  aux : Aux

/-- The hash argument, src/zk/aff_g_star.rs:114-125, 180-191 -/
def affGStarHash {N0 N1 : Nat} (commitments : List (AffGStarCommitment G)) (pub : AffGPublic N0 N1 G) (aux : Aux) : AffGStarHash G Aux :=
  ⟨commitments, N0, N1, ctToWire pub.capC, ctToWire pub.capD, ctToWire pub.capY, pub.capX, aux⟩

/-- The commitment for one repetition, src/zk/aff_g_star.rs:96-112 -/
def affGStarCommit (g : G) {N0 N1 : Nat} (pub : AffGPublic N0 N1 G) (q : Nat) [Module (ZMod q) G] (eph : AffGStarEphemeral) :
    Out ε (AffGStarCommitment G) :=
  (ctMulSecret pub.capC eph.alpha).bind fun ca =>
  (enc N0 eph.beta eph.r).bind fun encBeta =>
  (enc N1 eph.beta eph.s).bind fun capB =>
  .ok ⟨ctToWire (ctAdd ca encBeta), scalarOfSigned q eph.alpha • g, ctToWire capB⟩

/-- The exponent as a public integer, src/zk/aff_g_star.rs:148-152, src/zk/dec.rs:161-165; `PublicSigned::one()` has the bound 1 and `zero()` the
bound 0, src/uint/public_signed.rs:118-130 -/
def bitExponent (b : Bool) : SInt := if b then ⟨1, 1⟩ else ⟨0, 0⟩

/-- The response for one repetition, src/zk/aff_g_star.rs:130-166 -/
def affGStarRespond (P : Params) (N0 N1 : Nat) (x y : SInt) (rho mu : Nat) (eph : AffGStarEphemeral) (eBit : Bool) : Out ε AffGStarElement :=
  (if eBit then eph.alpha.add P.uint x else .ok eph.alpha).bind fun z =>
  (if eBit then eph.beta.add P.uint y.neg else .ok eph.beta).bind fun zPrime =>
  (toMasked N0 rho eph.r (bitExponent eBit)).bind fun w =>
  (toMasked N1 mu eph.s (bitExponent eBit).neg).bind fun lambda =>
  .ok ⟨z, zPrime, w, lambda⟩

/-- `AffGStarProof::new`, src/zk/aff_g_star.rs:84-173; `ephs` are the `SECURITY_PARAMETER` ephemeral values. -/
def AffGStarProof.prove (P : Params) (H : AffGStarHash G Aux → List Bool) (g : G) {N0 N1 : Nat} (q : Nat) [Module (ZMod q) G] (x y : SInt) (rho mu : Nat)
    (pub : AffGPublic N0 N1 G) (aux : Aux) (ephs : List AffGStarEphemeral) : Out ε (AffGStarProof G) :=
  (x.assertRange P.L).bind fun _ =>
  (y.assertRange P.LP).bind fun _ =>
  (Out.mapM' (affGStarCommit g pub q) ephs).bind fun commitments =>
  let e := H (affGStarHash commitments pub aux)
  (Out.mapM' (fun (x' : AffGStarEphemeral × Bool) => affGStarRespond P N0 N1 x y rho mu x'.1 x'.2) (ephs.zip e)).bind fun elements =>
  .ok ⟨e, commitments, elements⟩

/-- The checks of one repetition, src/zk/aff_g_star.rs:204-256 -/
def affGStarCheck (P : Params) (g : G) (q : Nat) [Module (ZMod q) G] {N0 N1 : Nat} (pub : AffGPublic N0 N1 G) (eBit : Bool)
    (com : AffGStarCommitment G) (el : AffGStarElement) : Out ε Bool :=
  Out.check (el.z.inRange (P.L + P.EPS)) <|
  Out.check (el.zPrime.inRange (P.LP + P.EPS)) <|
  let capA := ctOfWire N0 com.capA
  (ctMulPublic pub.capC el.z).bind fun cz =>
  Out.check (decide (ctAdd cz (encPublic N0 el.zPrime el.w) = if eBit then ctAdd capA pub.capD else capA)) <|
  Out.check (decide (scalarOfSigned q el.z • g = if eBit then com.capR + pub.capX else com.capR)) <|
  let capB := ctOfWire N1 com.capB
  (if eBit then ctSub capB pub.capY else .ok capB).bind fun rhs =>
  Out.check (decide (encPublic N1 el.zPrime el.lambda = rhs)) <|
  .ok true

/-- `AffGStarProof::verify`, src/zk/aff_g_star.rs:175-258 -/
def AffGStarProof.verify (P : Params) (H : AffGStarHash G Aux → List Bool) (g : G) (q : Nat) [Module (ZMod q) G] {N0 N1 : Nat} (self : AffGStarProof G)
    (pub : AffGPublic N0 N1 G) (aux : Aux) : Out ε Bool :=
  let e := H (affGStarHash self.commitments pub aux)
  Out.check (decide (e = self.e)) <|
  Out.check (decide (¬ (e.length ≠ self.commitments.length ∨ e.length ≠ self.elements.length))) <|
  Out.allM (fun (x : (Bool × AffGStarCommitment G) × AffGStarElement) => affGStarCheck P g q pub x.1.1 x.1.2 x.2)
    ((e.zip self.commitments).zip self.elements)

/-! ## dec -/

/-- `DecPublicInputs`, src/zk/dec.rs:37-59 -/
structure DecPublic (N0 : Nat) (G : Type) where
  capK : Ct N0
  capX : G
  capD : Ct N0
  capS : G
  capG : G
  numParties : Nat

/-- `DecProofEphemeral`, src/zk/dec.rs:70-74 -/
structure DecEphemeral where
  alpha : SInt
  beta : SInt
  r : Nat

/-- `DecProofCommitment`, src/zk/dec.rs:76-82 -/
structure DecCommitment (G : Type) where
  capA : Nat
  capB : G
  capC : G

/-- `DecProofElement`, src/zk/dec.rs:84-89 -/
structure DecElement where
  z : SInt
  w : SInt
  nu : Nat

/-- `DecProof`, src/zk/dec.rs:62-68 -/
structure DecProof (G : Type) where
  e : List Bool
  commitments : List (DecCommitment G)
  elements : List DecElement

/-- What is hashed, src/zk/dec.rs:135-147, 184-196 (after the tag `P_dec`). The number of parties is not. -/
structure DecHash (G Aux : Type) where
  commitments : List (DecCommitment G)
  pk0 : Nat
  capK : Nat
  capX : G
  capD : Nat
  capS : G
  capG : G
  setup : RPParamsWire
  aux : Aux

/-- The hash argument, src/zk/dec.rs:135-147, 184-196 -/
def decHash {N0 Nh : Nat} (commitments : List (DecCommitment G)) (pub : DecPublic N0 G) (setup : RPParams Nh) (aux : Aux) : DecHash G Aux :=
  ⟨commitments, N0, ctToWire pub.capK, pub.capX, ctToWire pub.capD, pub.capS, pub.capG, setup.toWire, aux⟩

/-- `(num_parties - 1).ilog2() + 1`, src/zk/dec.rs:103, 257; `ilog2(0)` panics. -/
def ceilLog2Parties (numParties : Nat) : Out ε Nat := if numParties ≤ 1 then .panic else .ok (Nat.log2 (numParties - 1) + 1)

/-- The range exponent of `y`, src/zk/dec.rs:104, 258-260 (without the last `EPS_BOUND`). -/
def decYBound (P : Params) (ceilLog2 : Nat) : Nat := P.LP + P.EPS + 1 + ceilLog2

/-- The commitment for one repetition, src/zk/dec.rs:111-132 -/
def decCommit (g : G) {N0 : Nat} (pub : DecPublic N0 G) (q : Nat) [Module (ZMod q) G] (eph : DecEphemeral) : Out ε (DecCommitment G) :=
  (ctMulSecret pub.capK eph.alpha.neg).bind fun ka =>
  (enc N0 eph.beta eph.r).bind fun encBeta =>
  .ok ⟨ctToWire (ctAdd ka encBeta), scalarOfSigned q eph.beta • pub.capG, scalarOfSigned q eph.alpha • g⟩

/-- The response for one repetition, src/zk/dec.rs:152-174 -/
def decRespond (P : Params) (N0 : Nat) (x y : SInt) (rho : Nat) (eph : DecEphemeral) (eBit : Bool) : Out ε DecElement :=
  (if eBit then eph.alpha.add P.uint x else .ok eph.alpha).bind fun z =>
  (if eBit then eph.beta.add P.wide y.toWide else .ok eph.beta).bind fun w =>
  (toMasked N0 rho eph.r (bitExponent eBit)).bind fun nu =>
  .ok ⟨z, w, nu⟩

/-- `DecProof::new`, src/zk/dec.rs:92-181 -/
def DecProof.prove (P : Params) (H : DecHash G Aux → List Bool) (g : G) (q : Nat) [Module (ZMod q) G] {N0 Nh : Nat} (x y : SInt) (rho : Nat)
    (pub : DecPublic N0 G) (setup : RPParams Nh) (aux : Aux) (ephs : List DecEphemeral) : Out ε (DecProof G) :=
  (x.assertRange P.L).bind fun _ =>
  (ceilLog2Parties pub.numParties).bind fun c =>
  (y.assertRange (decYBound P c)).bind fun _ =>
  (Out.mapM' (decCommit g pub q) ephs).bind fun commitments =>
  let e := H (decHash commitments pub setup aux)
  (Out.mapM' (fun (x' : DecEphemeral × Bool) => decRespond P N0 x y rho x'.1 x'.2) (ephs.zip e)).bind fun elements =>
  .ok ⟨e, commitments, elements⟩

/-- The checks of one repetition, src/zk/dec.rs:209-263 -/
def decCheck (P : Params) (g : G) (q : Nat) [Module (ZMod q) G] {N0 : Nat} (pub : DecPublic N0 G) (eBit : Bool)
    (com : DecCommitment G) (el : DecElement) : Out ε Bool :=
  let capA := ctOfWire N0 com.capA
  (ctMulPublic pub.capK el.z.neg).bind fun kz =>
  Out.check (decide (ctAdd (encPublic N0 el.w el.nu) kz = if eBit then ctAdd capA pub.capD else capA)) <|
  Out.check (decide (scalarOfSigned q el.z • g = if eBit then com.capC + pub.capX else com.capC)) <|
  Out.check (decide (scalarOfSigned q el.w • pub.capG = if eBit then com.capB + pub.capS else com.capB)) <|
  Out.check (el.z.inRange (P.L + P.EPS)) <|
  (ceilLog2Parties pub.numParties).bind fun c =>
  Out.check (el.w.inRange (decYBound P c + P.EPS)) <|
  .ok true

/-- `DecProof::verify`, src/zk/dec.rs:183-267 -/
def DecProof.verify (P : Params) (H : DecHash G Aux → List Bool) (g : G) (q : Nat) [Module (ZMod q) G] {N0 Nh : Nat} (self : DecProof G)
    (pub : DecPublic N0 G) (setup : RPParams Nh) (aux : Aux) : Out ε Bool :=
  let e := H (decHash self.commitments pub setup aux)
  Out.check (decide (e = self.e)) <|
  Out.check (decide (¬ (e.length ≠ self.commitments.length ∨ e.length ≠ self.elements.length))) <|
  Out.allM (fun (x : (Bool × DecCommitment G) × DecElement) => decCheck P g q pub x.1.1 x.1.2 x.2)
    ((e.zip self.commitments).zip self.elements)

/-! ## fac -/

/-- What is hashed, src/zk/fac.rs:90-101, 143-154 (after the tag `P_fac`) -/
structure FacHash (Aux : Type) where
  capP : Nat
  capQ : Nat
  capA : Nat
  capB : Nat
  capT : Nat
  pk0 : Nat
  setup : RPParamsWire
  aux : Aux

/-- `FacProof`, src/zk/fac.rs:25-39 -/
structure FacProof where
  e : SInt
  capP : Nat
  capQ : Nat
  capA : Nat
  capB : Nat
  capT : Nat
  z1 : SInt
  z2 : SInt
  w1 : SInt
  w2 : SInt
  v : SInt

/-- The random values drawn in `FacProof::new`, src/zk/fac.rs:64-78 -/
structure FacMasks where
  alpha : SInt
  beta : SInt
  mu : SInt
  nu : SInt
  r : SInt
  x : SInt
  y : SInt

/-- `sqrt_cap_n`, src/zk/fac.rs:61-62 -/
def facSqrtN (P : Params) : Nat := 2 ^ (P.primeBits - 2)

/-- `SecretSigned::new_positive(..).expect(..)` in `p_signed` and `q_signed`, src/paillier/rsa.rs:175-181, src/uint/secret_signed.rs:36-45 -/
def primeSigned (P : Params) (p : Nat) : Out ε SInt :=
  if P.primeBits < P.uint ∧ p < 2 ^ (P.uint - 1) then .ok ⟨P.primeBits, (p : Int)⟩ else .panic

/-- `PublicModulus::modulus_signed`, src/paillier/rsa.rs:285-289 -/
def modulusSigned (P : Params) (N : Nat) : Out ε SInt :=
  if P.modBits < P.wide ∧ N < 2 ^ P.modBits then .ok ⟨P.modBits, (N : Int)⟩ else .panic

/-- `FacProof::new`, src/zk/fac.rs:42-135; the key is `N0 = p * q'`. -/
def FacProof.prove (P : Params) (H : FacHash Aux → SInt) {Nh : Nat} (p q' : Nat) (setup : RPParams Nh) (aux : Aux) (mask : FacMasks) :
    Out ε FacProof :=
  (primeSigned P p).bind fun pS =>
  (primeSigned P q').bind fun qS =>
  (setup.commitSecret pS mask.mu).bind fun capP =>
  (setup.commitSecret qS mask.nu).bind fun capQ =>
  (setup.commitSecret mask.alpha mask.x).bind fun capA =>
  (setup.commitSecret mask.beta mask.y).bind fun capB =>
  (powSecret capQ mask.alpha).bind fun qa =>
  (setup.commitZeroValueSecret mask.r).bind fun tr =>
  let capT := qa * tr
  let e := H ⟨commitmentToWire capP, commitmentToWire capQ, commitmentToWire capA, commitmentToWire capB, commitmentToWire capT, p * q',
    setup.toWire, aux⟩
  let eWide := e.toWide
  ((pS.mul P.uint e).bind fun pe => mask.alpha.add P.wide pe.toWide).bind fun z1 =>
  ((qS.mul P.uint e).bind fun qe => mask.beta.add P.wide qe.toWide).bind fun z2 =>
  ((mask.mu.mul P.wide eWide).bind fun me => mask.x.add P.wide me).bind fun w1 =>
  ((mask.nu.mul P.wide eWide).bind fun ne => mask.y.add P.wide ne).bind fun w2 =>
  ((pS.mulWide P.wide e).bind fun pe => (pe.mul P.wide mask.nu).bind fun pen => mask.r.sub P.extra pen.toWide).bind fun v =>
  .ok ⟨e, commitmentToWire capP, commitmentToWire capQ, commitmentToWire capA, commitmentToWire capB, commitmentToWire capT, z1, z2, w1, w2, v⟩

/-- `FacProof::verify`, src/zk/fac.rs:137-207 -/
def FacProof.verify (P : Params) (H : FacHash Aux → SInt) {Nh : Nat} (self : FacProof) (N0 : Nat) (setup : RPParams Nh) (aux : Aux) :
    Out ε Bool :=
  let e := H ⟨self.capP, self.capQ, self.capA, self.capB, self.capT, N0, setup.toWire, aux⟩
  Out.check (decide (e = self.e)) <|
  Out.check (self.z1.inRange (P.L + P.EPS + P.primeBits - 2)) <|
  Out.check (self.z2.inRange (P.L + P.EPS + P.primeBits - 2)) <|
  (modulusSigned P N0).bind fun nS =>
  (setup.commitZeroRandomizerPublic nS).bind fun capR =>
  (setup.commitPublic self.z1 self.w1).bind fun lhs1 =>
  (powPublic (commitmentOfWire Nh self.capP) e).bind fun pe =>
  Out.check (decide (lhs1 = commitmentOfWire Nh self.capA * pe)) <|
  (setup.commitPublic self.z2 self.w2).bind fun lhs2 =>
  (powPublic (commitmentOfWire Nh self.capQ) e).bind fun qe =>
  Out.check (decide (lhs2 = commitmentOfWire Nh self.capB * qe)) <|
  (powPublic (commitmentOfWire Nh self.capQ) self.z1).bind fun qz =>
  (setup.commitZeroValuePublic self.v).bind fun tv =>
  (powPublic capR e).bind fun re =>
  Out.check (decide (qz * tv = commitmentOfWire Nh self.capT * re)) <|
  .ok true

end Synedrion
