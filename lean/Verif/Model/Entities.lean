import Verif.Model.Shamir

/-!
# Key shares and auxiliary info (`src/entities/full.rs`, `src/entities/threshold.rs`, `src/curve/bip32.rs`)

`I` is the type of party ids, `F` the scalars, `G` the points, `g` the generator. A verifying key is a non-identity point.
-/

namespace Synedrion

/-- The reasons for which the entity functions return `LocalError` / `bip32::Error`. -/
inductive EntErr where
  | zeroSum | ownerMismatch | countMismatch | missingId | badThreshold | identityKey | notSubset | ownerNotIncluded | crypto
  deriving DecidableEq, Repr

section
variable {I F G : Type} [LinearOrder I] [Field F] [LinearOrder F] [AddCommGroup G] [Module F G] [DecidableEq G]

/-- `Point::to_verifying_key`, src/curve/arithmetic.rs:263-265: `None` for the identity. -/
def toVerifyingKey (p : G) : Option G := if p = 0 then none else some p

/-- `KeyShare`, src/entities/full.rs:24-33 -/
structure KeyShare (I F G : Type) [LinearOrder I] where
  owner : I
  secret : F
  pub : BMap I G
  deriving DecidableEq

/-- `KeyShareChange`, src/entities/full.rs:106-116 -/
structure KeyShareChange (I F G : Type) [LinearOrder I] where
  owner : I
  secretShareChange : F
  publicShareChanges : BMap I G
  deriving DecidableEq

namespace KeyShare

/-- `KeyShare::new`, src/entities/full.rs:162-175 -/
def new (owner : I) (secret : F) (publicShares : BMap I G) : Out EntErr (KeyShare I F G) :=
  if publicShares.values.sum = 0 then .err .zeroSum
  else .ok ⟨owner, secret, publicShares⟩

/-- `KeyShare::update`, src/entities/full.rs:178-215 -/
def update (self : KeyShare I F G) (change : KeyShareChange I F G) : Out EntErr (KeyShare I F G) :=
  if self.owner ≠ change.owner then .err .ownerMismatch
  else if self.pub.size ≠ change.publicShareChanges.size then .err .countMismatch
  else
    let secret := self.secret + change.secretShareChange
    (Out.mapM' (fun p : I × G =>
      (Out.ofOption EntErr.missingId (change.publicShareChanges.get? p.1)).bind fun d => .ok (p.1, p.2 + d))
      self.pub.entries).bind fun l => .ok ⟨self.owner, secret, BMap.ofList l⟩

/-- `KeyShare::new_centralized`, src/entities/full.rs:219-249. `secret` is the signing key if one is given, otherwise a random scalar;
`draw` supplies the random parts. -/
def newCentralized (g : G) (ids : Finset I) (secret : F) (draw : Nat → F) : Out EntErr (BMap I (KeyShare I F G)) :=
  (Shamir.secretSplit secret ids.card draw).bind fun secretShares =>
    let publicShares : BMap I G := BMap.ofList (((bsetIter ids).zip secretShares).map fun p => (p.1, p.2 • g))
    .ok (BMap.ofList (((bsetIter ids).zip secretShares).map fun p => (p.1, ⟨p.1, p.2, publicShares⟩)))

/-- `KeyShare::verifying_key_as_point`, src/entities/full.rs:251-253 -/
def verifyingKeyAsPoint (self : KeyShare I F G) : G := self.pub.values.sum

/-- `KeyShare::verifying_key`, src/entities/full.rs:256-261 -/
def verifyingKey {ε : Type} (self : KeyShare I F G) : Out ε G := Out.ofOptionPanic (toVerifyingKey self.verifyingKeyAsPoint)

/-- `KeyShare::all_parties`, src/entities/full.rs:281-283 -/
def allParties (self : KeyShare I F G) : Finset I := self.pub.keySet

end KeyShare

/-- `ThresholdKeyShare`, src/entities/threshold.rs:31-43. (`threshold: u32` is an unbounded natural here.) -/
structure ThresholdKeyShare (I F G : Type) [LinearOrder I] where
  owner : I
  threshold : Nat
  secretShare : F
  shareIds : BMap I F
  publicShares : BMap I G
  deriving DecidableEq

namespace ThresholdKeyShare

/-- `ThresholdKeyShare::share_id`, src/entities/threshold.rs:51-56 -/
def shareId (self : ThresholdKeyShare I F G) : Out EntErr F := Out.ofOption .missingId (self.shareIds.get? self.owner)

/-- `ThresholdKeyShare::new_centralized`, src/entities/threshold.rs:64-117 -/
def newCentralized (g : G) (ids : Finset I) (threshold : Nat) (secret : F) (draw : Nat → F) :
    Out EntErr (BMap I (ThresholdKeyShare I F G)) :=
  if threshold > ids.card then .err .badThreshold
  else
    (Shamir.split secret threshold (Shamir.evaluationPoints F ids.card) draw).bind fun secretShares =>
    let shareIds : BMap I F := BMap.ofList ((bsetIter ids).zip (Shamir.evaluationPoints F ids.card))
    (Out.mapM' (fun p : I × F =>
      (Out.ofOption EntErr.missingId (secretShares.get? p.2)).bind fun s => .ok (p.1, s • g)) shareIds.entries).bind fun pl =>
    let publicShares : BMap I G := BMap.ofList pl
    (Out.mapM' (fun id : I =>
      (Out.ofOption EntErr.missingId (shareIds.get? id)).bind fun shareId =>
      (Out.ofOption EntErr.missingId (secretShares.get? shareId)).bind fun secretShare =>
      .ok (id, (⟨id, threshold, secretShare, shareIds, publicShares⟩ : ThresholdKeyShare I F G))) (bsetIter ids)).bind fun l =>
    .ok (BMap.ofList l)

/-- `ThresholdKeyShare::verifying_key_as_point`, src/entities/threshold.rs:119-133: joins the first `threshold` entries in
the order of party ids. -/
def verifyingKeyAsPoint (self : ThresholdKeyShare I F G) : Out EntErr G :=
  (Out.mapM' (fun p : I × F =>
    (Out.ofOption EntErr.missingId (self.publicShares.get? p.1)).bind fun s => .ok (p.2, s))
    (self.shareIds.entries.take self.threshold)).bind fun l => Shamir.joinPoints (BMap.ofList l)

/-- `ThresholdKeyShare::verifying_key`, src/entities/threshold.rs:136-140 -/
def verifyingKey (self : ThresholdKeyShare I F G) : Out EntErr G :=
  self.verifyingKeyAsPoint.bind fun p => Out.ofOption .identityKey (toVerifyingKey p)

/-- `ThresholdKeyShare::to_key_share`, src/entities/threshold.rs:145-185. `dbg` says whether debug assertions are compiled in. -/
def toKeyShare (dbg : Bool) (self : ThresholdKeyShare I F G) (ids : Finset I) : Out EntErr (KeyShare I F G) :=
  (Out.assert (!dbg || decide (ids.card = self.threshold))).bind fun _ =>
  (Out.assert (!dbg || decide (self.owner ∈ ids))).bind fun _ =>
  (Out.ofOption EntErr.missingId (self.shareIds.get? self.owner)).bind fun ownerShareId =>
  (Out.mapM' (fun id : I =>
    (Out.ofOption EntErr.missingId (self.shareIds.get? id)).bind fun s => .ok (id, s)) (bsetIter ids)).bind fun sl =>
  let shareIds : BMap I F := BMap.ofList sl
  (Shamir.interpolationCoeff shareIds.values ownerShareId).bind fun c =>
  let secretShare := self.secretShare * c
  (Out.mapM' (fun id : I =>
    (Out.ofOption EntErr.missingId (self.publicShares.get? id)).bind fun publicShare =>
    (Out.ofOption EntErr.missingId (self.shareIds.get? id)).bind fun thisShareId =>
    (Shamir.interpolationCoeff shareIds.values thisShareId).bind fun c => .ok (id, c • publicShare)) (bsetIter ids)).bind fun pl =>
  KeyShare.new self.owner secretShare (BMap.ofList pl)

/-- `Scalar::invert().expect(…)` -/
def invertExpect {ε : Type} (x : F) : Out ε F := if x = 0 then .panic else .ok x⁻¹

/-- `ThresholdKeyShare::from_key_share`, src/entities/threshold.rs:188-227 -/
def fromKeyShare {ε : Type} (ks : KeyShare I F G) : Out ε (ThresholdKeyShare I F G) :=
  let ids := ks.allParties
  let shareIds : BMap I F := BMap.ofList ((bsetIter ids).zip ((List.range ids.card).map fun i => Shamir.shareId F (i + 1)))
  (Out.ofOptionPanic (shareIds.get? ks.owner)).bind fun ownerShareId =>
  (Shamir.interpolationCoeff shareIds.values ownerShareId).bind fun c =>
  (invertExpect c).bind fun cinv =>
  let secretShare := ks.secret * cinv
  (Out.mapM' (fun id : I =>
    (Out.ofOptionPanic (shareIds.get? id)).bind fun shareId =>
    (Out.ofOptionPanic (ks.pub.get? id)).bind fun p =>
    (Shamir.interpolationCoeff shareIds.values shareId).bind fun c =>
    (invertExpect c).bind fun cinv => .ok (id, cinv • p)) (bsetIter ids)).bind fun pl =>
  .ok ⟨ks.owner, ids.card, secretShare, shareIds, BMap.ofList pl⟩

end ThresholdKeyShare

/-! ### BIP-32 derivation

The bodies of `derive_tweak` and `derive_child` are in the `bip32` crate. `deriveTweak` is an arbitrary (possibly failing, e.g. for hardened
indices) function of the public key, chain code and index; `derive_child` adds the tweak, and fails if the tweak or the result is zero.
The conversions `tweakable_pk` etc. are taken to be the identity (the case of secp256k1). -/

/-- `bip32::PublicKey::derive_child` for secp256k1 -/
def deriveChildPublic (g : G) (pk : G) (tweak : F) : Out EntErr G :=
  if tweak = 0 then .err .crypto
  else if pk + tweak • g = 0 then .err .crypto else .ok (pk + tweak • g)

/-- `bip32::PrivateKey::derive_child` for secp256k1 -/
def deriveChildSecret (sk : F) (tweak : F) : Out EntErr F :=
  if tweak = 0 then .err .crypto
  else if sk + tweak = 0 then .err .crypto else .ok (sk + tweak)

/-- The loop of `derive_tweaks`, src/curve/bip32.rs:77-82 -/
def deriveTweaksLoop {CC : Type} (g : G) (deriveTweak : G → CC → Nat → Out EntErr (F × CC)) :
    List Nat → G → CC → Out EntErr (List F)
  | [], _, _ => .ok []
  | child :: path, pk, cc =>
    (deriveTweak pk cc child).bind fun tc =>
    (deriveChildPublic g pk tc.1).bind fun pk' =>
    (deriveTweaksLoop g deriveTweak path pk' tc.2).bind fun ts => .ok (tc.1 :: ts)

/-- `derive_tweaks`, src/curve/bip32.rs:52-85. The initial chain code is a function of the public key. -/
def deriveTweaks {CC : Type} (g : G) (chainCode : G → CC) (deriveTweak : G → CC → Nat → Out EntErr (F × CC)) (pk : G)
    (path : List Nat) : Out EntErr (List F) :=
  deriveTweaksLoop g deriveTweak path pk (chainCode pk)

/-- Repeated `derive_child` on a public key; `apply_tweaks_public`, src/curve/bip32.rs:87-102 -/
def applyTweaksPublic (g : G) (pk : G) : List F → Out EntErr G
  | [] => .ok pk
  | t :: ts => (deriveChildPublic g pk t).bind fun pk' => applyTweaksPublic g pk' ts

/-- Repeated `derive_child` on a secret key, src/entities/threshold.rs:246-249 -/
def applyTweaksSecret (sk : F) : List F → Out EntErr F
  | [] => .ok sk
  | t :: ts => (deriveChildSecret sk t).bind fun sk' => applyTweaksSecret sk' ts

/-- `VerifyingKey::derive_verifying_key_bip32`, src/curve/bip32.rs:39-50 -/
def deriveVerifyingKeyBip32 {CC : Type} (g : G) (chainCode : G → CC) (deriveTweak : G → CC → Nat → Out EntErr (F × CC))
    (pk : G) (path : List Nat) : Out EntErr G :=
  (deriveTweaks g chainCode deriveTweak pk path).bind fun tweaks => applyTweaksPublic g pk tweaks

namespace ThresholdKeyShare

/-- `.map_err(|_| bip32::Error::Crypto)` on `verifying_key()` -/
def vkeyOrCrypto (self : ThresholdKeyShare I F G) : Out EntErr G :=
  match self.verifyingKey with
  | .ok p => .ok p
  | .err _ => .err .crypto
  | .panic => .panic

/-- `ThresholdKeyShare::derive_bip32`, src/entities/threshold.rs:239-270 -/
def deriveBip32 {CC : Type} (g : G) (chainCode : G → CC) (deriveTweak : G → CC → Nat → Out EntErr (F × CC))
    (self : ThresholdKeyShare I F G) (path : List Nat) : Out EntErr (ThresholdKeyShare I F G) :=
  self.vkeyOrCrypto.bind fun pk =>
  (deriveTweaks g chainCode deriveTweak pk path).bind fun tweaks =>
  (Out.ensure (decide (self.secretShare ≠ 0)) EntErr.crypto).bind fun _ =>
  (applyTweaksSecret self.secretShare tweaks).bind fun secretShare =>
  (Out.mapM' (fun p : I × G =>
    (Out.ofOption EntErr.crypto (toVerifyingKey p.2)).bind fun vkey =>
    (applyTweaksPublic g vkey tweaks).bind fun v => .ok (p.1, v)) self.publicShares.entries).bind fun pl =>
  .ok ⟨self.owner, self.threshold, secretShare, self.shareIds, BMap.ofList pl⟩

/-- `ThresholdKeyShare::derive_verifying_key_bip32`, src/entities/threshold.rs:279-287 -/
def deriveVerifyingKeyBip32 {CC : Type} (g : G) (chainCode : G → CC) (deriveTweak : G → CC → Nat → Out EntErr (F × CC))
    (self : ThresholdKeyShare I F G) (path : List Nat) : Out EntErr G :=
  self.vkeyOrCrypto.bind fun pk =>
  (deriveTweaks g chainCode deriveTweak pk path).bind fun tweaks => applyTweaksPublic g pk tweaks

end ThresholdKeyShare
end

/-! ### Auxiliary info -/

section
variable {I SA PA : Type} [LinearOrder I]

/-- `AuxInfo`, src/entities/full.rs:42-50. `SA` and `PA` are the secret and the public per-party data. -/
structure AuxInfo (I SA PA : Type) [LinearOrder I] where
  owner : I
  secret : SA
  pub : BMap I PA

/-- `PublicAuxInfos::subset`, src/entities/full.rs:132-144 -/
def publicAuxSubset (self : BMap I PA) (parties : Finset I) : Out EntErr (BMap I PA) :=
  let auxInfos := self.filterKeys fun id => id ∈ parties
  if auxInfos.size ≠ parties.card then .err .notSubset else .ok auxInfos

/-- `AuxInfo::subset`, src/entities/full.rs:301-313 -/
def AuxInfo.subset (self : AuxInfo I SA PA) (parties : Finset I) : Out EntErr (AuxInfo I SA PA) :=
  if self.owner ∉ parties then .err .ownerNotIncluded
  else (publicAuxSubset self.pub parties).bind fun p => .ok ⟨self.owner, self.secret, p⟩

/-- `AuxInfo::new_centralized`, src/entities/full.rs:317-351. `secrets i` is the i-th generated secret, `mkPublic i s` the
public data made from it (its public key and i-th random ring-Pedersen parameters). -/
def AuxInfo.newCentralized (ids : Finset I) (secrets : Nat → SA) (mkPublic : Nat → SA → PA) : BMap I (AuxInfo I SA PA) :=
  let secretAux := (List.range ids.card).map secrets
  let publicAux : BMap I PA := BMap.ofList (((bsetIter ids).zip secretAux).mapIdx fun i p => (p.1, mkPublic i p.2))
  BMap.ofList (((bsetIter ids).zip secretAux).map fun p => (p.1, ⟨p.1, p.2, publicAux⟩))

end
end Synedrion
