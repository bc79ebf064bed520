import Verif.Model.KeyInit
import Verif.Model.KeyRefresh
import Verif.Spec.AuxInfo
import Verif.Spec.Resharing
import Verif.Spec.Session

/-!
# Histories of a key: generation, refresh, resharing, conversion, derivation

The parties follow the protocols; messages arrive in any order.
-/

namespace Synedrion.Spec

variable {I F G Sid V W : Type} [LinearOrder I] [Field F] [LinearOrder F] [AddCommGroup G] [Module F G] [DecidableEq G] [DecidableEq V] [DecidableEq W]

/-- Everything the key protocols hash, the generator and the order of the group -/
structure KeyEnv (I F G Sid V W CC : Type) [LinearOrder I] where
  order : Nat
  refresh : KeyRefresh.Env I Sid F G
  initHash : Sid → I → KeyInit.PublicData G → V
  initSch : SchHash G (KeyInit.SchAux I Sid) → F
  auxHash : Sid → I → AuxGen.Hashed → V
  refreshHash : Sid → I → KeyRefresh.Hashed I G → W
  chainCode : G → CC
  deriveTweak : G → CC → Nat → Out EntErr (F × CC)

variable {CC : Type}

/-- The parties `ids` ran key generation and ended with `shares`. -/
def RanKeyInit (K : KeyEnv I F G Sid V W CC) (ids : Finset I) (shares : I → KeyShare I F G) : Prop :=
  ∃ (sid : Sid) (d : I → KeyInit.Draws F) (len : Nat) (ctx : I → KeyInit.Context I F G Sid) (r3 : I → KeyInit.Round3 I F G Sid)
    (in1 : I → List (I × V)) (in2 : I → List (I × KeyInit.Msg2 G)) (in3 : I → List (I × SchProof F)),
    (∀ i ∈ ids, (d i).rho.length = len) ∧
    (∀ i ∈ ids, KeyInit.start K.refresh.g ids sid i (d i) = .ok (ctx i)) ∧
    (∀ i ∈ ids, FromOthers ids i (fun j => KeyInit.msg1 K.initHash (ctx j)) (in1 i)) ∧
    (∀ i ∈ ids, FromOthers ids i (fun j => KeyInit.msg2 (ctx j)) (in2 i)) ∧
    (∀ i ∈ ids, KeyInit.toRound3 K.initHash (ctx i) (in1 i) (in2 i) = .ok (r3 i)) ∧
    (∀ i ∈ ids, FromOthers ids i (fun j => KeyInit.msg3 K.initSch (r3 j)) (in3 i)) ∧
    (∀ i ∈ ids, KeyInit.run K.initHash K.initSch K.refresh.g (ctx i) (in1 i) (in2 i) (in3 i) = .ok (shares i))

/-- The parties `ids`, drawing valid keys, parameters and masks, ran auxiliary info generation and ended with `infos`; `d` is what they drew. -/
def RanAuxGen (K : KeyEnv I F G Sid V W CC) (k : Nat) (ids : Finset I) (d : I → AuxDraws I) (infos : I → AuxInfo I PaillierKey PublicAux) : Prop :=
  ∃ (sid : Sid) (len : Nat) (ctx : I → AuxGen.Context I Sid) (r3 : I → AuxGen.Round3 I Sid) (m3 : I → I → AuxGen.Msg3)
    (in1 : I → List (I × V)) (in2 : I → List (I × AuxGen.Msg2)) (in3 : I → List (I × AuxGen.Msg3)),
    (∀ i ∈ ids, DrawsValid K.refresh.aux k (d i)) ∧
    (∀ i ∈ ids, ∀ j ∈ ids, i ≠ j → FacDrawsValid K.refresh.aux.P ((d i).p * (d i).q) ((d j).rpP * (d j).rpQ) ((d i).facMasks j)) ∧
    (∀ i ∈ ids, (d i).rid.length = len) ∧
    (∀ i ∈ ids, AuxGen.start K.refresh.aux ids sid i (d i) = .ok (ctx i)) ∧
    (∀ i ∈ ids, FromOthers ids i (fun j => AuxGen.msg1 K.auxHash (ctx j)) (in1 i)) ∧
    (∀ i ∈ ids, FromOthers ids i (fun j => AuxGen.msg2 (ctx j)) (in2 i)) ∧
    (∀ i ∈ ids, AuxGen.toRound3 K.refresh.aux K.auxHash (ctx i) (in1 i) (in2 i) = .ok (r3 i)) ∧
    (∀ i ∈ ids, ∀ j ∈ ids, i ≠ j → AuxGen.msg3 K.refresh.aux (r3 i) j = .ok (m3 i j)) ∧
    (∀ i ∈ ids, FromOthers ids i (fun j => m3 j i) (in3 i)) ∧
    (∀ i ∈ ids, AuxGen.run K.refresh.aux K.auxHash (ctx i) (in1 i) (in2 i) (in3 i) = .ok (infos i))

/-- The parties `ids`, drawing valid keys, parameters and masks, ran key refresh and ended with the share changes `changes` and the auxiliary info `infos`. -/
def RanKeyRefresh (K : KeyEnv I F G Sid V W CC) (k : Nat) (ids : Finset I) (d : I → KeyRefresh.Draws I F) (changes : I → KeyShareChange I F G)
    (infos : I → AuxInfo I PaillierKey PublicAux) : Prop :=
  ∃ (sid : Sid) (len : Nat) (ctx : I → KeyRefresh.Context I F G Sid) (r3 : I → KeyRefresh.Round3 I F G Sid)
    (m3 : I → I → KeyRefresh.Msg3 I F) (in1 : I → List (I × W)) (in2 : I → List (I × KeyRefresh.Msg2 I G)) (in3 : I → List (I × KeyRefresh.Msg3 I F)),
    (∀ i ∈ ids, DrawsValid K.refresh.aux k (d i).aux) ∧
    (∀ i ∈ ids, ∀ j ∈ ids, i ≠ j →
      FacDrawsValid K.refresh.aux.P ((d i).aux.p * (d i).aux.q) ((d j).aux.rpP * (d j).aux.rpQ) ((d i).aux.facMasks j)) ∧
    (∀ i ∈ ids, (d i).aux.rid.length = len) ∧
    (∀ i ∈ ids, KeyRefresh.start K.refresh ids sid i (d i) = .ok (ctx i)) ∧
    (∀ i ∈ ids, FromOthers ids i (fun j => KeyRefresh.msg1 K.refreshHash (ctx j)) (in1 i)) ∧
    (∀ i ∈ ids, FromOthers ids i (fun j => KeyRefresh.msg2 (ctx j)) (in2 i)) ∧
    (∀ i ∈ ids, KeyRefresh.toRound3 K.refresh K.refreshHash (ctx i) (in1 i) (in2 i) = .ok (r3 i)) ∧
    (∀ i ∈ ids, ∀ j ∈ ids, i ≠ j → KeyRefresh.msg3 K.refresh (r3 i) j = .ok (m3 i j)) ∧
    (∀ i ∈ ids, FromOthers ids i (fun j => m3 j i) (in3 i)) ∧
    (∀ i ∈ ids, KeyRefresh.run K.refresh K.refreshHash (ctx i) (in1 i) (in2 i) (in3 i) = .ok (changes i, infos i))

/-- The parties `S`, which hold the threshold shares `old`, handed them over to the parties `N`, which ended with the shares `new` with threshold `n`. -/
def RanResharing (g : G) (vk : G) (S N : Finset I) (n : Nat) (old new : I → ThresholdKeyShare I F G) : Prop :=
  ∃ (oldThreshold : Nat) (draw : I → Nat → F) (r : I → KeyResharing.Round1 I F G) (m : I → I → KeyResharing.Msg F G) (inbox : I → List (I × KeyResharing.Msg F G)),
    (∀ i ∈ S ∪ N, KeyResharing.start g (HonestInputs S N old vk oldThreshold n i) i (draw i) = .ok (r i)) ∧
    (∀ j ∈ S, ∀ i ∈ N, KeyResharing.msg (r j) i = .ok (some (m j i))) ∧
    (∀ i ∈ N, FromOthers S i (fun j => m j i) (inbox i)) ∧
    (∀ i ∈ N, KeyResharing.run g (r i) (inbox i) = .ok (some (new i)))

mutual

/-- By some history of operations the parties `ids` hold full key shares `shares` for the verifying key `vk`. -/
inductive HoldsFull (K : KeyEnv I F G Sid V W CC) (k : Nat) : Finset I → (I → KeyShare I F G) → G → Prop
  | centralized (ids sk draw m shares) : ids.Nonempty → sk ≠ 0 → KeyShare.newCentralized K.refresh.g ids sk draw = .ok m →
      (∀ i ∈ ids, m.get? i = some (shares i)) → HoldsFull K k ids shares (sk • K.refresh.g)
  | generated (ids shares vk i) : RanKeyInit K ids shares → i ∈ ids → ((shares i).verifyingKey : Out Unit G) = .ok vk → HoldsFull K k ids shares vk
  | refreshed (ids shares vk d changes infos shares') : HoldsFull K k ids shares vk → RanKeyRefresh K k ids d changes infos →
      (∀ i ∈ ids, (shares i).update (changes i) = .ok (shares' i)) → HoldsFull K k ids shares' vk
  | converted (ids t tshares vk S dbg shares) : HoldsThreshold K k ids t tshares vk → S ⊆ ids → t ≤ S.card →
      (∀ i ∈ S, (tshares i).toKeyShare dbg S = .ok (shares i)) → HoldsFull K k S shares vk

/-- By some history of operations the parties `ids` hold key shares `shares` with threshold `t` for the verifying key `vk`. -/
inductive HoldsThreshold (K : KeyEnv I F G Sid V W CC) (k : Nat) : Finset I → Nat → (I → ThresholdKeyShare I F G) → G → Prop
  | centralized (ids t sk draw m shares) : ids.card < K.order → 1 ≤ t → sk ≠ 0 → ThresholdKeyShare.newCentralized K.refresh.g ids t sk draw = .ok m →
      (∀ i ∈ ids, m.get? i = some (shares i)) → HoldsThreshold K k ids t shares (sk • K.refresh.g)
  | converted (ids fshares vk shares) : ids.card < K.order → HoldsFull K k ids fshares vk →
      (∀ i ∈ ids, (ThresholdKeyShare.fromKeyShare (fshares i) : Out Unit _) = .ok (shares i)) → HoldsThreshold K k ids ids.card shares vk
  | reshared (ids t shares vk S N n new) : HoldsThreshold K k ids t shares vk → S ⊆ ids → t ≤ S.card → 2 ≤ n → n ≤ N.card → N.card < K.order →
      RanResharing K.refresh.g vk S N n shares new → HoldsThreshold K k N n new vk
  | derived (ids t shares vk path child vk') : HoldsThreshold K k ids t shares vk →
      (∀ i ∈ ids, (shares i).deriveBip32 K.refresh.g K.chainCode K.deriveTweak path = .ok (child i)) →
      deriveVerifyingKeyBip32 K.refresh.g K.chainCode K.deriveTweak vk path = .ok vk' → HoldsThreshold K k ids t child vk'

end

/-- By some history of operations the parties `ids` hold the auxiliary info `infos` with the ring-Pedersen parameters `setup`. -/
inductive HoldsAux (K : KeyEnv I F G Sid V W CC) (k : Nat) : Finset I → (I → AuxInfo I PaillierKey PublicAux) → (I → RPSetup) → Prop
  | generated (ids d infos) : RanAuxGen K k ids d infos →
      HoldsAux K k ids infos fun j => ⟨_, RPParams.withSecret ((d j).rpP * (d j).rpQ) K.refresh.aux.P.modBits (d j).lambda (d j).tDraw⟩
  | refreshed (ids d changes infos) : RanKeyRefresh K k ids d changes infos →
      HoldsAux K k ids infos fun j =>
        ⟨_, RPParams.withSecret ((d j).aux.rpP * (d j).aux.rpQ) K.refresh.aux.P.modBits (d j).aux.lambda (d j).aux.tDraw⟩
  | subset (ids infos setup S infos') : HoldsAux K k ids infos setup → S ⊆ ids → (∀ i ∈ S, (infos i).subset S = .ok (infos' i)) → HoldsAux K k S infos' setup

end Synedrion.Spec
