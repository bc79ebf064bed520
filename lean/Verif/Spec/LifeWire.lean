import Verif.Spec.LifeNetwork
import Verif.Spec.WireNet
import Verif.Model.Stored

/-!
# The life of a key whose holders exchange serialized messages and store their shares

Like `Spec/LifeNetwork`, but the sessions are over serialized messages: the parties that are not honest may send any data, what is broadcast with an echo is the same serialized data for the honest parties, and
hashing may panic wherever it does. Between the sessions, shares may be written to a storage and read back.
-/

namespace Synedrion.Spec

variable {I G Sid V CC : Type} {q : Nat} [Fact q.Prime] [LinearOrder (ZMod q)] [LinearOrder I] [AddCommGroup G] [Module (ZMod q) G] [DecidableEq G] [DecidableEq V]

/-- Everything the key protocols hash, and the format of what is sent and stored, fit together. -/
structure LifeFormat (K : KeyEnv I (ZMod q) G Sid V V CC) (W : WireFormat G V) : Prop where
  format : FormatValid W q
  params : W.P = K.refresh.aux.P
  hashes : AuxHashesFit K.refresh.aux

/-- The parties of `kept`, all of which were honest, ended a session of key generation over serialized messages among `ids` with `shares`. -/
def GeneratedOver (W : WireFormat G V) (K : KeyEnv I (ZMod q) G Sid V V CC) (kept : Set I) (ids : Finset I) (shares : I → KeyShare I (ZMod q) G) : Prop :=
  ∃ (honest : Set I) (sid : Sid) (d : I → KeyInit.Draws (ZMod q)) (c : I → KeyInit.Context I (ZMod q) G Sid) (panics : Panics I (KeyInit.Message (ZMod q) G V) (KeyInit.State I (ZMod q) G Sid V))
    (n : Net I (Packet I) (KeyInit.State I (ZMod q) G Sid V) (WireErr KeyInit.Err) (KeyShare I (ZMod q) G)),
    kept ⊆ honest ∧ (∀ i ∈ honest, BitsFit (d i).rho ∧ BitsFit (d i).u) ∧ (∀ i ∈ honest, KeyInit.start K.refresh.g ids sid i (d i) = .ok (c i)) ∧
    (overWire (KeyInit.machine K.initHash K.initSch K.refresh.g) W.keyInitTransport panics).Reachable honest (fun i => .one (c i)) n ∧
    (overWire (KeyInit.machine K.initHash K.initSch K.refresh.g) W.keyInitTransport panics).EchoAgree honest 1 Packet.echo n ∧ ∀ i ∈ kept, n.status i = .finished (shares i)

/-- The parties of `kept`, all of which were honest, ended a session of key refresh over serialized messages among `ids` with `changes`. -/
def RefreshedOver (W : WireFormat G V) (K : KeyEnv I (ZMod q) G Sid V V CC) (kept : Set I) (ids : Finset I) (changes : I → KeyShareChange I (ZMod q) G) : Prop :=
  ∃ (honest : Set I) (sid : Sid) (d : I → KeyRefresh.Draws I (ZMod q)) (c : I → KeyRefresh.Context I (ZMod q) G Sid) (infos : I → AuxInfo I PaillierKey PublicAux)
    (panics : Panics I (KeyRefresh.Message I (ZMod q) G V) (KeyRefresh.State I (ZMod q) G Sid V))
    (n : Net I (Packet I) (KeyRefresh.State I (ZMod q) G Sid V) (WireErr (KeyRefresh.Err I (ZMod q))) (KeyShareChange I (ZMod q) G × AuxInfo I PaillierKey PublicAux)),
    kept ⊆ honest ∧ (∀ i ∈ honest, AuxDrawsFit K.refresh.aux.P (d i).aux) ∧ (∀ i ∈ honest, KeyRefresh.start K.refresh ids sid i (d i) = .ok (c i)) ∧
    (overWire (KeyRefresh.machine K.refresh K.refreshHash) W.keyRefreshTransport panics).Reachable honest (fun i => .one (c i)) n ∧
    (overWire (KeyRefresh.machine K.refresh K.refreshHash) W.keyRefreshTransport panics).EchoAgree honest 1 Packet.echo n ∧ ∀ i ∈ kept, n.status i = .finished (changes i, infos i)

/-- The parties of `kept`, all of which were honest, ended a session over serialized messages in which the holders `S` of a key handed it over to `N` with `new` shares; what each of them received can be
read as messages with the property `fits`. -/
def ResharedOverIf (W : WireFormat G V) (fits : I → List (I × KeyResharing.Msg (ZMod q) G) → Prop) (g : G) (vk : G) (kept : Set I) (S N : Finset I) (n : Nat)
    (old new : I → ThresholdKeyShare I (ZMod q) G) : Prop :=
  ∃ (honest : Set I) (oldThreshold : Nat) (draw : I → Nat → ZMod q) (r : I → KeyResharing.Round1 I (ZMod q) G) (init : I → KeyResharing.State I (ZMod q) G)
    (panics : Panics I (KeyResharing.Msg (ZMod q) G) (KeyResharing.State I (ZMod q) G))
    (net : Net I (Packet I) (KeyResharing.State I (ZMod q) G) (WireErr KeyResharing.Err) (Option (ThresholdKeyShare I (ZMod q) G))),
    kept ⊆ honest ∧ (∀ i ∈ kept, i ∈ N) ∧ (∀ i ∈ honest, KeyResharing.start g (HonestInputs S N old vk oldThreshold n i) i (draw i) = .ok (r i)) ∧
    (∀ i ∈ honest, KeyResharing.begin (r i) = .ok (init i)) ∧ (overWire (KeyResharing.machine g) W.resharingTransport panics).Reachable honest init net ∧
    (overWire (KeyResharing.machine g) W.resharingTransport panics).EchoAgree honest 1 Packet.echo net ∧ (∀ i ∈ kept, net.status i = .finished (some (new i))) ∧
    ∀ i ∈ kept, ∀ x ∈ net.past i, ∀ got, Reads W.resharingTransport 1 x.2 got → fits i got

/-- A session of resharing over serialized messages in which the messages are of the right form. The code does not check this. -/
def ResharedOver (W : WireFormat G V) (g : G) (vk : G) (kept : Set I) (S N : Finset I) (n : Nat) (old new : I → ThresholdKeyShare I (ZMod q) G) : Prop :=
  ResharedOverIf W (fun i got => NotTooLong n i got ∧ DistinctIds S old i got) g vk kept S N n old new

/-- A full share, or what is read from a storage it has been written to -/
def SameOrStored (W : WireFormat G V) (ks ks' : KeyShare I (ZMod q) G) : Prop :=
  ks' = ks ∨ ∃ b, (ks.store W.scalarSize W.S : Out Unit _) = .ok b ∧ b.load W.scalarSize q W.S = some ks'

/-- The same for a change of a share -/
def SameOrStoredChange (W : WireFormat G V) (c c' : KeyShareChange I (ZMod q) G) : Prop :=
  c' = c ∨ ∃ b, (c.store W.scalarSize W.S : Out Unit _) = .ok b ∧ b.loadChange W.scalarSize q W.S = some c'

/-- The same for a threshold share -/
def SameOrStoredThreshold (W : WireFormat G V) (ks ks' : ThresholdKeyShare I (ZMod q) G) : Prop :=
  ks' = ks ∨ ∃ b, (ks.store W.scalarSize W.S : Out Unit _) = .ok b ∧ b.load W.scalarSize q W.S = some ks'

mutual

/-- By some history of operations, with sessions over serialized messages, the parties of `honest` hold full key shares `shares`, together with the other parties of `ids`, for the verifying key `vk`. -/
inductive KeepsFullOver (W : WireFormat G V) (K : KeyEnv I (ZMod q) G Sid V V CC) : Set I → Finset I → (I → KeyShare I (ZMod q) G) → G → Prop
  | centralized (honest ids sk draw m shares) : (∀ i ∈ honest, i ∈ ids) → ids.Nonempty → sk ≠ 0 → KeyShare.newCentralized K.refresh.g ids sk draw = .ok m →
      (∀ i ∈ honest, m.get? i = some (shares i)) → KeepsFullOver W K honest ids shares (sk • K.refresh.g)
  | generated (honest ids shares vk i) : GeneratedOver W K honest ids shares → i ∈ honest → ((shares i).verifyingKey : Out Unit G) = .ok vk → KeepsFullOver W K honest ids shares vk
  | stored (honest honest' ids shares vk shares') : KeepsFullOver W K honest ids shares vk → honest' ⊆ honest → (∀ i ∈ honest', SameOrStored W (shares i) (shares' i)) →
      KeepsFullOver W K honest' ids shares' vk
  | refreshed (honest honest' ids shares vk changes) (changes' : I → KeyShareChange I (ZMod q) G) (shares') : KeepsFullOver W K honest ids shares vk → honest' ⊆ honest → RefreshedOver W K honest' ids changes →
      (∀ i ∈ honest', SameOrStoredChange W (changes i) (changes' i)) → (∀ i ∈ honest', (shares i).update (changes' i) = .ok (shares' i)) → KeepsFullOver W K honest' ids shares' vk
  | converted (honest honest' ids t tshares vk S dbg shares) : KeepsThresholdOver W K honest ids t tshares vk → honest' ⊆ honest → (∀ i ∈ honest', i ∈ S) → S ⊆ ids → t ≤ S.card →
      (∀ i ∈ honest', (tshares i).toKeyShare dbg S = .ok (shares i)) → KeepsFullOver W K honest' S shares vk

/-- By some history of operations, with sessions over serialized messages, the parties of `honest` hold key shares `shares` with threshold `t`, together with the other parties of `ids`, for the verifying
key `vk`. -/
inductive KeepsThresholdOver (W : WireFormat G V) (K : KeyEnv I (ZMod q) G Sid V V CC) : Set I → Finset I → Nat → (I → ThresholdKeyShare I (ZMod q) G) → G → Prop
  | centralized (honest ids t sk draw m shares) : (∀ i ∈ honest, i ∈ ids) → ids.card < q → 1 ≤ t → sk ≠ 0 → ThresholdKeyShare.newCentralized K.refresh.g ids t sk draw = .ok m →
      (∀ i ∈ honest, m.get? i = some (shares i)) → KeepsThresholdOver W K honest ids t shares (sk • K.refresh.g)
  | stored (honest honest' ids t shares vk shares') : KeepsThresholdOver W K honest ids t shares vk → honest' ⊆ honest → (∀ i ∈ honest', SameOrStoredThreshold W (shares i) (shares' i)) →
      KeepsThresholdOver W K honest' ids t shares' vk
  | converted (honest honest' ids fshares vk shares) : ids.card < q → KeepsFullOver W K honest ids fshares vk → honest' ⊆ honest → honest'.Nonempty →
      (∀ i ∈ honest', (ThresholdKeyShare.fromKeyShare (fshares i) : Out Unit _) = .ok (shares i)) → KeepsThresholdOver W K honest' ids ids.card shares vk
  | reshared (honest kept ids t shares vk S N n new) : KeepsThresholdOver W K honest ids t shares vk → 2 ≤ n → n ≤ N.card → N.card < q →
      ResharedOver W K.refresh.g vk kept S N n shares new → KeepsThresholdOver W K kept N n new vk
  | derived (honest honest' ids t shares vk path child vk') : KeepsThresholdOver W K honest ids t shares vk → honest' ⊆ honest →
      (∀ i ∈ honest', (shares i).deriveBip32 K.refresh.g K.chainCode K.deriveTweak path = .ok (child i)) →
      deriveVerifyingKeyBip32 K.refresh.g K.chainCode K.deriveTweak vk path = .ok vk' → KeepsThresholdOver W K honest' ids t child vk'

end

end Synedrion.Spec
