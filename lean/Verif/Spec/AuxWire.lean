import Verif.Spec.LifeWire

/-!
# The auxiliary info of a key whose holders exchange serialized messages and store their data

The parties that are not honest may send any data. Auxiliary info comes from its own protocol or from a key refresh, and may be restricted to some of the parties, and written to a storage and read back.
-/

namespace Synedrion.Spec

variable {I G Sid V CC : Type} {q : Nat} [Fact q.Prime] [LinearOrder (ZMod q)] [LinearOrder I] [AddCommGroup G] [Module (ZMod q) G] [DecidableEq G] [DecidableEq V]

/-- The drawn values are values of their types: those that are sent or stored fit. -/
def AuxDrawsStorable (P : Params) (d : AuxDraws I) : Prop := AuxDrawsFit P d ∧ d.p < 2 ^ P.half ∧ d.q < 2 ^ P.half

/-- The parties of `kept`, all of which were honest, ended a session of auxiliary info generation over serialized messages among `ids` with `infos`. -/
def AuxGeneratedOver (W : WireFormat G V) (K : KeyEnv I (ZMod q) G Sid V V CC) (kept : Set I) (ids : Finset I) (infos : I → AuxInfo I PaillierKey PublicAux) : Prop :=
  ∃ (honest : Set I) (sid : Sid) (d : I → AuxDraws I) (c : I → AuxGen.Context I Sid) (panics : Panics I (AuxGen.Message V) (AuxGen.State I Sid V))
    (n : Net I (Packet I) (AuxGen.State I Sid V) (WireErr (AuxGen.Err I)) (AuxInfo I PaillierKey PublicAux)),
    kept ⊆ honest ∧ (∀ i ∈ honest, AuxDrawsStorable K.refresh.aux.P (d i)) ∧ (∀ i ∈ honest, AuxGen.start K.refresh.aux ids sid i (d i) = .ok (c i)) ∧
    (overWire (AuxGen.machine K.refresh.aux K.auxHash) W.auxGenTransport panics).Reachable honest (fun i => .one (c i)) n ∧
    (overWire (AuxGen.machine K.refresh.aux K.auxHash) W.auxGenTransport panics).EchoAgree honest 1 Packet.echo n ∧ ∀ i ∈ kept, n.status i = .finished (infos i)

/-- The parties of `kept`, all of which were honest, ended a session of key refresh over serialized messages among `ids` with the new auxiliary infos `infos`. -/
def AuxRefreshedOver (W : WireFormat G V) (K : KeyEnv I (ZMod q) G Sid V V CC) (kept : Set I) (ids : Finset I) (infos : I → AuxInfo I PaillierKey PublicAux) : Prop :=
  ∃ (honest : Set I) (sid : Sid) (d : I → KeyRefresh.Draws I (ZMod q)) (c : I → KeyRefresh.Context I (ZMod q) G Sid) (changes : I → KeyShareChange I (ZMod q) G)
    (panics : Panics I (KeyRefresh.Message I (ZMod q) G V) (KeyRefresh.State I (ZMod q) G Sid V))
    (n : Net I (Packet I) (KeyRefresh.State I (ZMod q) G Sid V) (WireErr (KeyRefresh.Err I (ZMod q))) (KeyShareChange I (ZMod q) G × AuxInfo I PaillierKey PublicAux)),
    kept ⊆ honest ∧ (∀ i ∈ honest, AuxDrawsStorable K.refresh.aux.P (d i).aux) ∧ (∀ i ∈ honest, KeyRefresh.start K.refresh ids sid i (d i) = .ok (c i)) ∧
    (overWire (KeyRefresh.machine K.refresh K.refreshHash) W.keyRefreshTransport panics).Reachable honest (fun i => .one (c i)) n ∧
    (overWire (KeyRefresh.machine K.refresh K.refreshHash) W.keyRefreshTransport panics).EchoAgree honest 1 Packet.echo n ∧ ∀ i ∈ kept, n.status i = .finished (changes i, infos i)

/-- Auxiliary info, or what is read from a storage it has been written to, with `h` bytes for a prime and `n` bytes for a modulus, and made ready for use -/
def SameOrStoredAux (h n : Nat) (a a' : AuxInfo I PaillierKey PublicAux) : Prop := a' = a ∨ ∃ b, (a.store h n).load h n = some b ∧ (b.expand : Out Unit _) = .ok a'

/-- The parties of `honest` hold auxiliary infos `infos` for `ids`. -/
inductive HoldsAuxOver (W : WireFormat G V) (K : KeyEnv I (ZMod q) G Sid V V CC) (h n : Nat) : Set I → Finset I → (I → AuxInfo I PaillierKey PublicAux) → Prop
  | generated (honest ids infos) : AuxGeneratedOver W K honest ids infos → HoldsAuxOver W K h n honest ids infos
  | refreshed (honest ids infos) : AuxRefreshedOver W K honest ids infos → HoldsAuxOver W K h n honest ids infos
  | stored (honest honest' ids) (infos infos' : I → AuxInfo I PaillierKey PublicAux) : HoldsAuxOver W K h n honest ids infos → honest' ⊆ honest →
      (∀ i ∈ honest', SameOrStoredAux h n (infos i) (infos' i)) → HoldsAuxOver W K h n honest' ids infos'
  | subset (honest honest' ids ids') (infos infos' : I → AuxInfo I PaillierKey PublicAux) : HoldsAuxOver W K h n honest ids infos → honest' ⊆ honest →
      (∀ i ∈ honest', (infos i).subset ids' = .ok (infos' i)) → HoldsAuxOver W K h n honest' ids' infos'

/-- Public auxiliary info that can be used: the moduli are odd and not too large, and the parameters are residues. -/
structure AuxSound (P : Params) (x : PublicAux) : Prop where
  pkOdd : x.pk % 2 = 1
  pkHigh : x.pk < 2 ^ P.uint
  rpOdd : x.rp.modulus % 2 = 1
  rpHigh : x.rp.modulus < 2 ^ P.uint
  randomizer : x.rp.baseRandomizer < x.rp.modulus
  value : x.rp.baseValue < x.rp.modulus

/-- What the honest parties have in common: they hold the same public auxiliary info for exactly `ids`, which can be used, and each has the primes of its own modulus. -/
structure AuxView (P : Params) (honest : Set I) (ids : Finset I) (infos : I → AuxInfo I PaillierKey PublicAux) : Prop where
  member : ∀ i ∈ honest, i ∈ ids
  owner : ∀ i ∈ honest, (infos i).owner = i
  holders : ∀ i ∈ honest, (infos i).pub.keySet = ids
  same_public : ∀ i ∈ honest, ∀ j ∈ honest, (infos i).pub = (infos j).pub
  sound : ∀ i ∈ honest, ∀ j x, (infos i).pub.get? j = some x → AuxSound P x
  own : ∀ i ∈ honest, ∃ x, (infos i).pub.get? i = some x ∧ x.pk = (infos i).secret.p * (infos i).secret.q
  secret : ∀ i ∈ honest, (SecretKey.new (infos i).secret.p (infos i).secret.q : Out Unit _) = .ok (infos i).secret.sk
  primes : ∀ i ∈ honest, (infos i).secret.p < 2 ^ P.half ∧ (infos i).secret.q < 2 ^ P.half

end Synedrion.Spec
