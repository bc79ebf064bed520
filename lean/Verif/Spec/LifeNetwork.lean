import Verif.Spec.LifeCycle
import Verif.Spec.Network
import Verif.Spec.Sharing
import Verif.Model.Machines

/-!
# The life of a key among parties of which some are not honest

In each session the parties that are not honest, and the network, may do anything; only what is broadcast with an echo is the same for the honest parties. Parties may stop being honest, or
not finish, at any time: after each operation only some of the honest parties need to be left.
-/

namespace Synedrion.Spec

variable {I F G Sid V W CC : Type} [LinearOrder I] [Field F] [LinearOrder F] [AddCommGroup G] [Module F G] [DecidableEq G] [DecidableEq V] [DecidableEq W]

/-- The parties of `kept`, all of which were honest, ended a session of key generation among `ids` with `shares`. -/
def GeneratedAmong (K : KeyEnv I F G Sid V W CC) (kept : Set I) (ids : Finset I) (shares : I → KeyShare I F G) : Prop :=
  ∃ (honest : Set I) (sid : Sid) (d : I → KeyInit.Draws F) (c : I → KeyInit.Context I F G Sid)
    (n : Net I (KeyInit.Message F G V) (KeyInit.State I F G Sid V) KeyInit.Err (KeyShare I F G)),
    kept ⊆ honest ∧ (∀ i ∈ honest, KeyInit.start K.refresh.g ids sid i (d i) = .ok (c i)) ∧
    (KeyInit.machine K.initHash K.initSch K.refresh.g).Reachable honest (fun i => .one (c i)) n ∧
    (KeyInit.machine K.initHash K.initSch K.refresh.g).EchoAgree honest 1 id n ∧ ∀ i ∈ kept, n.status i = .finished (shares i)

/-- The parties of `kept`, all of which were honest, ended a session of key refresh among `ids` with `changes`. -/
def RefreshedAmong (K : KeyEnv I F G Sid V W CC) (kept : Set I) (ids : Finset I) (changes : I → KeyShareChange I F G) : Prop :=
  ∃ (honest : Set I) (sid : Sid) (d : I → KeyRefresh.Draws I F) (c : I → KeyRefresh.Context I F G Sid) (infos : I → AuxInfo I PaillierKey PublicAux)
    (n : Net I (KeyRefresh.Message I F G W) (KeyRefresh.State I F G Sid W) (KeyRefresh.Err I F) (KeyShareChange I F G × AuxInfo I PaillierKey PublicAux)),
    kept ⊆ honest ∧ (∀ i ∈ honest, KeyRefresh.start K.refresh ids sid i (d i) = .ok (c i)) ∧
    (KeyRefresh.machine K.refresh K.refreshHash).Reachable honest (fun i => .one (c i)) n ∧
    (KeyRefresh.machine K.refresh K.refreshHash).EchoAgree honest 1 id n ∧ ∀ i ∈ kept, n.status i = .finished (changes i, infos i)

/-- The parties of `kept`, all of which were honest, ended a session in which the holders `S` of a key handed it over to `N` with `new` shares; each of them received messages with the property `fits`. -/
def ResharedIf (fits : I → List (I × KeyResharing.Msg F G) → Prop) (g : G) (vk : G) (kept : Set I) (S N : Finset I) (n : Nat) (old new : I → ThresholdKeyShare I F G) : Prop :=
  ∃ (honest : Set I) (oldThreshold : Nat) (draw : I → Nat → F) (r : I → KeyResharing.Round1 I F G) (init : I → KeyResharing.State I F G)
    (net : Net I (KeyResharing.Msg F G) (KeyResharing.State I F G) KeyResharing.Err (Option (ThresholdKeyShare I F G))),
    kept ⊆ honest ∧ (∀ i ∈ kept, i ∈ N) ∧ (∀ i ∈ honest, KeyResharing.start g (HonestInputs S N old vk oldThreshold n i) i (draw i) = .ok (r i)) ∧
    (∀ i ∈ honest, KeyResharing.begin (r i) = .ok (init i)) ∧ (KeyResharing.machine g).Reachable honest init net ∧
    (KeyResharing.machine g).EchoAgree honest 1 (fun m => (m.publicPolynomial, m.oldShareId)) net ∧ (∀ i ∈ kept, net.status i = .finished (some (new i))) ∧
    ∀ i ∈ kept, ∀ x ∈ net.past i, fits i x.2

/-- Nobody sent a polynomial with more than `n` coefficients. -/
def NotTooLong (n : Nat) (_ : I) (got : List (I × KeyResharing.Msg F G)) : Prop := ∀ a ∈ got, a.2.publicPolynomial.length ≤ n

/-- No two old holders, including the party itself, claimed the same share id. -/
def DistinctIds (S : Finset I) (old : I → ThresholdKeyShare I F G) (i : I) (got : List (I × KeyResharing.Msg F G)) : Prop :=
  ∀ a ∈ got, (∀ b ∈ got, b.2.oldShareId = a.2.oldShareId → b.1 = a.1) ∧ (i ∈ S → (old i).shareId ≠ .ok a.2.oldShareId)

/-- A session of resharing in which the messages are of the right form. The code does not check this. -/
def ResharedAmong (g : G) (vk : G) (kept : Set I) (S N : Finset I) (n : Nat) (old new : I → ThresholdKeyShare I F G) : Prop :=
  ResharedIf (fun i got => NotTooLong n i got ∧ DistinctIds S old i got) g vk kept S N n old new

mutual

/-- By some history of operations the parties of `honest` hold full key shares `shares`, together with the other parties of `ids`, for the verifying key `vk`. -/
inductive KeepsFull (K : KeyEnv I F G Sid V W CC) : Set I → Finset I → (I → KeyShare I F G) → G → Prop
  | centralized (honest ids sk draw m shares) : (∀ i ∈ honest, i ∈ ids) → ids.Nonempty → sk ≠ 0 → KeyShare.newCentralized K.refresh.g ids sk draw = .ok m →
      (∀ i ∈ honest, m.get? i = some (shares i)) → KeepsFull K honest ids shares (sk • K.refresh.g)
  | generated (honest ids shares vk i) : GeneratedAmong K honest ids shares → i ∈ honest → ((shares i).verifyingKey : Out Unit G) = .ok vk → KeepsFull K honest ids shares vk
  | refreshed (honest honest' ids shares vk changes shares') : KeepsFull K honest ids shares vk → honest' ⊆ honest → RefreshedAmong K honest' ids changes →
      (∀ i ∈ honest', (shares i).update (changes i) = .ok (shares' i)) → KeepsFull K honest' ids shares' vk
  | converted (honest honest' ids t tshares vk S dbg shares) : KeepsThreshold K honest ids t tshares vk → honest' ⊆ honest → (∀ i ∈ honest', i ∈ S) → S ⊆ ids → t ≤ S.card →
      (∀ i ∈ honest', (tshares i).toKeyShare dbg S = .ok (shares i)) → KeepsFull K honest' S shares vk

/-- By some history of operations the parties of `honest` hold key shares `shares` with threshold `t`, together with the other parties of `ids`, for the verifying key `vk`. -/
inductive KeepsThreshold (K : KeyEnv I F G Sid V W CC) : Set I → Finset I → Nat → (I → ThresholdKeyShare I F G) → G → Prop
  | centralized (honest ids t sk draw m shares) : (∀ i ∈ honest, i ∈ ids) → ids.card < K.order → 1 ≤ t → sk ≠ 0 → ThresholdKeyShare.newCentralized K.refresh.g ids t sk draw = .ok m →
      (∀ i ∈ honest, m.get? i = some (shares i)) → KeepsThreshold K honest ids t shares (sk • K.refresh.g)
  | converted (honest honest' ids fshares vk shares) : ids.card < K.order → KeepsFull K honest ids fshares vk → honest' ⊆ honest → honest'.Nonempty →
      (∀ i ∈ honest', (ThresholdKeyShare.fromKeyShare (fshares i) : Out Unit _) = .ok (shares i)) → KeepsThreshold K honest' ids ids.card shares vk
  | reshared (honest kept ids t shares vk S N n new) : KeepsThreshold K honest ids t shares vk → 2 ≤ n → n ≤ N.card → N.card < K.order →
      ResharedAmong K.refresh.g vk kept S N n shares new → KeepsThreshold K kept N n new vk
  | derived (honest honest' ids t shares vk path child vk') : KeepsThreshold K honest ids t shares vk → honest' ⊆ honest →
      (∀ i ∈ honest', (shares i).deriveBip32 K.refresh.g K.chainCode K.deriveTweak path = .ok (child i)) →
      deriveVerifyingKeyBip32 K.refresh.g K.chainCode K.deriveTweak vk path = .ok vk' → KeepsThreshold K honest' ids t child vk'

end

/-- What the honest among the holders `ids` of full key shares have: each has its own secret share of the key `vk`, and they agree on all public shares. -/
structure FullView (g : G) (honest : Set I) (ids : Finset I) (shares : I → KeyShare I F G) (vk : G) : Prop where
  member : ∀ i ∈ honest, i ∈ ids
  owner : ∀ i ∈ honest, (shares i).owner = i
  holders : ∀ i ∈ honest, (shares i).pub.keySet = ids
  same_public : ∀ i ∈ honest, ∀ j ∈ honest, (shares i).pub = (shares j).pub
  own : ∀ i ∈ honest, (shares i).pub.get? i = some ((shares i).secret • g)
  key : ∀ i ∈ honest, (shares i).verifyingKeyAsPoint = vk

/-- What the honest among the holders `ids` of threshold shares have: each has its own secret share, they agree on all share ids and public shares, and these
lie on one polynomial with at most `t` coefficients, whose constant one is the key `vk`. -/
structure ThresholdView (g : G) (honest : Set I) (ids : Finset I) (t : Nat) (shares : I → ThresholdKeyShare I F G) (vk : G) (sid : I → F) (tail : List G) : Prop where
  member : ∀ i ∈ honest, i ∈ ids
  owner : ∀ i ∈ honest, (shares i).owner = i
  threshold : ∀ i ∈ honest, (shares i).threshold = t
  size : 1 ≤ t ∧ t ≤ ids.card
  distinct : Set.InjOn sid ids
  degree : tail.length < t
  ids_agree : ∀ i ∈ honest, (shares i).shareIds.keySet = ids ∧ ∀ j ∈ ids, (shares i).shareIds.get? j = some (sid j)
  public_agree : ∀ i ∈ honest, (shares i).publicShares.keySet = ids ∧ ∀ j ∈ ids, (shares i).publicShares.get? j = some (polyValue (vk :: tail) (sid j))
  own : ∀ i ∈ honest, (shares i).publicShares.get? i = some ((shares i).secretShare • g)

end Synedrion.Spec
