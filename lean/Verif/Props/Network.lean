import Verif.Lemmas.Network
import Verif.Lemmas.MachinesIdeal
import Verif.Lemmas.MachinesIdealSigning
import Verif.Lemmas.ToyAux
import Verif.Lemmas.ToySigningRun

/-!
# C80: honest parties finish whatever the network does

`Spec.Machine.AlwaysFinishes` says of the executions in which all parties follow the protocol that, whatever the order in which the parties do their steps and messages
arrive, nobody is stopped by a message, somebody can always go on until all have finished, everybody who finishes has the intended result, and the number of
steps is bounded.
-/

set_option linter.unusedSectionVars false

namespace Synedrion.Props

open Spec

section Curve

variable {I F G Sid V : Type} [LinearOrder I] [Field F] [LinearOrder F] [AddCommGroup G] [Module F G] [DecidableEq G] [DecidableEq V]

/-- **C80 (key generation).** Under any schedule the parties finish, with shares of the sum of their secrets. -/
theorem C80_key_init (hashV : Sid → I → KeyInit.PublicData G → V) (H : SchHash G (KeyInit.SchAux I Sid) → F) (g : G) (hg : g ≠ 0) (ids : Finset I)
    (sid : Sid) (d : I → KeyInit.Draws F) (len : Nat) (hlen : ∀ i ∈ ids, (d i).rho.length = len)
    (ctx : I → KeyInit.Context I F G Sid) (hctx : ∀ i ∈ ids, KeyInit.start g ids sid i (d i) = .ok (ctx i)) (hsum : ∑ i ∈ ids, (d i).x ≠ 0) :
    ∃ shares : I → KeyShare I F G,
      (KeyInit.machine hashV H g).AlwaysFinishes ids (fun i => .one (ctx i)) (ids.card * (3 * (ids.card + 1))) shares ∧
      SharesKey g ids shares (∑ i ∈ ids, (d i).x) := by
  obtain ⟨st, shares, hI, hk⟩ := KeyInit.ideal hashV H g hg ids sid d len hlen ctx hctx hsum
  exact ⟨shares, hI.alwaysFinishes, hk⟩

/-- **C80 (auxiliary info).** Under any schedule the parties finish, with consistent auxiliary info that can be used for signing. -/
theorem C80_aux_gen (E : AuxEnv I Sid) (k : Nat) (hE : HashesValid E k) (hashV : Sid → I → AuxGen.Hashed → V) (ids : Finset I) (sid : Sid)
    (d : I → AuxDraws I) (hd : ∀ i ∈ ids, DrawsValid E k (d i))
    (hfac : ∀ i ∈ ids, ∀ j ∈ ids, i ≠ j → FacDrawsValid E.P ((d i).p * (d i).q) ((d j).rpP * (d j).rpQ) ((d i).facMasks j))
    (len : Nat) (hlen : ∀ i ∈ ids, (d i).rid.length = len)
    (ctx : I → AuxGen.Context I Sid) (hctx : ∀ i ∈ ids, AuxGen.start E ids sid i (d i) = .ok (ctx i)) :
    ∃ res : I → AuxInfo I PaillierKey PublicAux, (AuxGen.machine E hashV).AlwaysFinishes ids (fun i => .one (ctx i)) (ids.card * (3 * (ids.card + 1))) res ∧
      (ConsistentAux ids res fun j => ⟨(d j).p * (d j).q, (RPParams.withSecret ((d j).rpP * (d j).rpQ) E.P.modBits (d j).lambda (d j).tDraw).toWire⟩) ∧
      (∀ i ∈ ids, (res i).secret.p = (d i).p ∧ (res i).secret.q = (d i).q) ∧
      UsableAux E.P ids res fun j => ⟨_, RPParams.withSecret ((d j).rpP * (d j).rpQ) E.P.modBits (d j).lambda (d j).tDraw⟩ := by
  obtain ⟨st, res, hI, h⟩ := AuxGen.ideal E k hE hashV ids sid d hd hfac len hlen ctx hctx
  exact ⟨res, hI.alwaysFinishes, h⟩

/-- **C80 (key refresh).** Under any schedule the parties finish, with changes that add up to zero and new auxiliary info. -/
theorem C80_key_refresh (E : KeyRefresh.Env I Sid F G) (k : Nat) (hE : HashesValid E.aux k) (hashV : Sid → I → KeyRefresh.Hashed I G → V) (ids : Finset I) (sid : Sid)
    (d : I → KeyRefresh.Draws I F) (hd : ∀ i ∈ ids, DrawsValid E.aux k (d i).aux)
    (hfac : ∀ i ∈ ids, ∀ j ∈ ids, i ≠ j →
      FacDrawsValid E.aux.P ((d i).aux.p * (d i).aux.q) ((d j).aux.rpP * (d j).aux.rpQ) ((d i).aux.facMasks j))
    (len : Nat) (hlen : ∀ i ∈ ids, (d i).aux.rid.length = len)
    (ctx : I → KeyRefresh.Context I F G Sid) (hctx : ∀ i ∈ ids, KeyRefresh.start E ids sid i (d i) = .ok (ctx i)) :
    ∃ res : I → KeyShareChange I F G × AuxInfo I PaillierKey PublicAux,
      (KeyRefresh.machine E hashV).AlwaysFinishes ids (fun i => .one (ctx i)) (ids.card * (3 * (ids.card + 1))) res ∧
      ZeroSumChange E.g ids (fun i => (res i).1) ∧
      (ConsistentAux ids (fun i => (res i).2) fun j => ⟨(d j).aux.p * (d j).aux.q,
        (RPParams.withSecret ((d j).aux.rpP * (d j).aux.rpQ) E.aux.P.modBits (d j).aux.lambda (d j).aux.tDraw).toWire⟩) ∧
      (∀ i ∈ ids, (res i).2.secret.p = (d i).aux.p ∧ (res i).2.secret.q = (d i).aux.q) ∧
      UsableAux E.aux.P ids (fun i => (res i).2)
        fun j => ⟨_, RPParams.withSecret ((d j).aux.rpP * (d j).aux.rpQ) E.aux.P.modBits (d j).aux.lambda (d j).aux.tDraw⟩ := by
  obtain ⟨st, res, hI, h⟩ := KeyRefresh.ideal E k hE hashV ids sid d hd hfac len hlen ctx hctx
  exact ⟨res, hI.alwaysFinishes, h⟩

/-- **C80 (resharing).** Under any schedule the old and new holders finish, the new ones with a sharing of the same key with the new threshold. -/
theorem C80_key_resharing (q : Nat) [CharP F q] (g : G) (ids S N : Finset I) (t n : Nat) (shares : I → ThresholdKeyShare I F G) (sk : F)
    (hold : ThresholdSharing g ids t shares sk) (hS : S ⊆ ids) (ht : t ≤ S.card) (hn : 2 ≤ n) (hnN : n ≤ N.card) (hN : N.card < q)
    (oldThreshold : Nat) (draw : I → Nat → F) (r : I → KeyResharing.Round1 I F G)
    (hr : ∀ i ∈ S ∪ N, KeyResharing.start g (HonestInputs S N shares (sk • g) oldThreshold n i) i (draw i) = .ok (r i)) :
    ∃ (init : I → KeyResharing.State I F G) (res : I → Option (ThresholdKeyShare I F G)) (new : I → ThresholdKeyShare I F G),
      (∀ i ∈ S ∪ N, KeyResharing.begin (r i) = .ok (init i)) ∧
      (KeyResharing.machine g).AlwaysFinishes (S ∪ N) init ((S ∪ N).card * (1 * ((S ∪ N).card + 1))) res ∧
      (∀ i ∈ S, i ∉ N → res i = none) ∧ (∀ i ∈ N, res i = some (new i)) ∧ ThresholdSharing g N n new sk := by
  obtain ⟨init, res, new, h0, hI, h⟩ := KeyResharing.ideal q g ids S N t n shares sk hold hS ht hn hnN hN oldThreshold draw r hr
  exact ⟨init, res, new, h0, hI.alwaysFinishes, h⟩

end Curve

section Signing

variable {q : Nat} [Fact q.Prime] {I Ep G : Type} [LinearOrder I] [AddCommGroup G] [Module (ZMod q) G] [DecidableEq G]

/-- **C80 (signing).** Under any schedule the signers finish, all with the same valid signature. -/
theorem C80_signing (E : Signing.Env q I Ep G) (hE : SigningSetting E) (epidOf : BMap I G → BMap I PublicAux → Ep) (message sk : ZMod q)
    (ids : Finset I) (shares : I → KeyShare I (ZMod q) G) (hshares : SharesKey E.C.g ids shares sk)
    (infos : I → AuxInfo I PaillierKey PublicAux) (setup : I → RPSetup) (haux : UsableAux E.P ids infos setup)
    (d : I → Signing.Draws q I) (hd : SigningDrawsValid E.P ids (fun i => (infos i).secret.modulus) (fun i => (setup i).modulus) d)
    (r1 : I → Signing.Round1 q I Ep G) (hst : ∀ i ∈ ids, Signing.start E epidOf message (shares i) (infos i) i (d i) = .ok (r1 i))
    (hk : ∑ i ∈ ids, (d i).k ≠ 0) (hgamma : ∑ i ∈ ids, (d i).gamma ≠ 0) (hr : (E.C.x ((∑ i ∈ ids, (d i).gamma) • E.C.g) : ZMod q) ≠ 0)
    (hs : message + (E.C.x ((∑ i ∈ ids, (d i).gamma) • E.C.g) : ZMod q) * sk ≠ 0) (hkey : sk • E.C.g ≠ 0) :
    ∃ (init : I → Signing.State q I Ep G) (sig : RecoverableSignature q),
      (∀ i ∈ ids, Signing.begin E (r1 i) = .ok (init i)) ∧
      (Signing.machine E).AlwaysFinishes ids init (ids.card * (4 * (ids.card + 1))) (fun _ => sig) ∧
      EcdsaValid E.C (sk • E.C.g) message sig.r sig.s ∧ LowS sig.s ∧ recover E.C message sig.r sig.s sig.recoveryId = some (sk • E.C.g) ∧
      sig.r = (E.C.x ((∑ i ∈ ids, (d i).gamma) • E.C.g) : ZMod q) := by
  obtain ⟨init, st, sig, h0, hI, h⟩ := Signing.ideal E hE epidOf message sk ids shares hshares infos setup haux d hd r1 hst hk hgamma hr hs hkey
  exact ⟨init, sig, h0, hI.alwaysFinishes, h⟩

end Signing

/-! ### Concrete cases -/

section Examples

attribute [local instance] Toy.fact11 Toy.order11

def kgHashV : Nat → Nat → KeyInit.PublicData (ZMod 11) → Nat × Nat × KeyInit.PublicData (ZMod 11) := fun s i d => (s, i, d)
def kgH : SchHash (ZMod 11) (KeyInit.SchAux Nat Nat) → ZMod 11 := fun h => h.capX * 3 + h.commitment * 5 + (h.aux.id : ZMod 11)
def kgDraws (i : Nat) : KeyInit.Draws (ZMod 11) := ⟨(i : ZMod 11) * 2 + 1, (i : ZMod 11) + 4, [i % 2 = 0, true, i = 2], [true]⟩
def kgCtx (i : Nat) : KeyInit.Context Nat (ZMod 11) (ZMod 11) Nat :=
  ⟨({1, 2, 3} : Finset Nat).erase i, i, (kgDraws i).x, (kgDraws i).tau, ⟨(kgDraws i).x, (kgDraws i).tau, (kgDraws i).rho, (kgDraws i).u⟩, 7⟩

theorem kgStart : ∀ i ∈ ({1, 2, 3} : Finset Nat), KeyInit.start (1 : ZMod 11) {1, 2, 3} 7 i (kgDraws i) = .ok (kgCtx i) := by
  intro i hi
  simp only [Finset.mem_insert, Finset.mem_singleton] at hi
  rcases hi with rfl | rfl | rfl <;> rfl

/-- Three parties generate a key: there is an execution in which all of them finish, with shares of the key 4. -/
example : ∃ (n : Spec.Net Nat _ _ _ _) (shares : Nat → KeyShare Nat (ZMod 11) (ZMod 11)),
    (KeyInit.machine kgHashV kgH (1 : ZMod 11)).Reachable (({1, 2, 3} : Finset Nat) : Set Nat) (fun i => .one (kgCtx i)) n ∧
    (∀ i ∈ ({1, 2, 3} : Finset Nat), n.status i = .finished (shares i)) ∧ SharesKey (1 : ZMod 11) {1, 2, 3} shares 4 := by
  obtain ⟨shares, h, hk⟩ := C80_key_init kgHashV kgH (1 : ZMod 11) (by decide) {1, 2, 3} 7 kgDraws 3 (fun _ _ => rfl) kgCtx kgStart (by decide +kernel)
  obtain ⟨n, hn, hf⟩ := h.exists_finished
  exact ⟨n, shares, hn, hf, hk⟩

theorem exists_fun {α β : Type} [Nonempty β] {s : Finset α} {p : α → β → Prop} (h : ∀ i ∈ s, ∃ c, p i c) : ∃ f : α → β, ∀ i ∈ s, p i (f i) := by
  classical
  refine ⟨fun i => if hi : i ∈ s then (h i hi).choose else Classical.arbitrary β, fun i hi => ?_⟩
  simp only [dif_pos hi]
  exact (h i hi).choose_spec

def agHashV : Nat → Nat → AuxGen.Hashed → Nat × Nat × AuxGen.Hashed := fun s i h => (s, i, h)

/-- Three parties generate auxiliary info. -/
example : ∃ (ctx : Nat → AuxGen.Context Nat Nat) (n : Spec.Net Nat _ _ _ _) (res : Nat → AuxInfo Nat PaillierKey PublicAux),
    (∀ i ∈ ({1, 2, 3} : Finset Nat), AuxGen.start Toy.auxEnv {1, 2, 3} 7 i (Toy.auxDraws i) = .ok (ctx i)) ∧
    (AuxGen.machine Toy.auxEnv agHashV).Reachable (({1, 2, 3} : Finset Nat) : Set Nat) (fun i => .one (ctx i)) n ∧
    ∀ i ∈ ({1, 2, 3} : Finset Nat), n.status i = .finished (res i) ∧ (res i).secret.p = Toy.primeP := by
  have hst : ∀ i ∈ ({1, 2, 3} : Finset Nat), ∃ c, AuxGen.start Toy.auxEnv ({1, 2, 3} : Finset Nat) 7 i (Toy.auxDraws i) = .ok c := by
    intro i hi
    obtain ⟨c, h, _⟩ := C54_start Toy.auxEnv 2 {1, 2, 3} 7 i hi (Toy.auxDraws i) (Toy.auxDraws_valid i (by simp at hi; omega))
    exact ⟨c, h⟩
  have : Nonempty (AuxGen.Context Nat Nat) := ⟨(hst 1 (by decide)).choose⟩
  obtain ⟨ctx, hctx⟩ := exists_fun hst
  obtain ⟨res, h, -, hpq, -⟩ := C80_aux_gen Toy.auxEnv 2 Toy.auxEnv_valid agHashV {1, 2, 3} 7 Toy.auxDraws
    (fun i hi => Toy.auxDraws_valid i (by simp at hi; omega)) (fun i _ j _ _ => Toy.facDraws_valid i j) 3 (fun _ _ => rfl) ctx hctx
  obtain ⟨n, hn, hf⟩ := h.exists_finished
  exact ⟨ctx, n, res, hctx, hn, fun i hi => ⟨hf i hi, (hpq i hi).1⟩⟩

/-- Three parties refresh their shares and auxiliary info. -/
example : ∃ (ctx : Nat → KeyRefresh.Context Nat (ZMod 11) (ZMod 11) Nat) (n : Spec.Net Nat _ _ _ _)
    (res : Nat → KeyShareChange Nat (ZMod 11) (ZMod 11) × AuxInfo Nat PaillierKey PublicAux),
    (∀ i ∈ ({1, 2, 3} : Finset Nat), KeyRefresh.start refreshCaseEnv {1, 2, 3} 7 i (refreshCaseDraws i) = .ok (ctx i)) ∧
    (KeyRefresh.machine refreshCaseEnv refreshCaseHash).Reachable (({1, 2, 3} : Finset Nat) : Set Nat) (fun i => .one (ctx i)) n ∧
    (∀ i ∈ ({1, 2, 3} : Finset Nat), n.status i = .finished (res i)) ∧ ZeroSumChange (1 : ZMod 11) {1, 2, 3} fun i => (res i).1 := by
  have hst : ∀ i ∈ ({1, 2, 3} : Finset Nat), ∃ c, KeyRefresh.start refreshCaseEnv ({1, 2, 3} : Finset Nat) 7 i (refreshCaseDraws i) = .ok c :=
    fun i hi => (C38_start refreshCaseEnv 2 {1, 2, 3} 7 i (refreshCaseDraws i) (Toy.auxDraws_valid i (by simp at hi; omega))).1 hi
  have : Nonempty (KeyRefresh.Context Nat (ZMod 11) (ZMod 11) Nat) := ⟨(hst 1 (by decide)).choose⟩
  obtain ⟨ctx, hctx⟩ := exists_fun hst
  obtain ⟨res, h, hz, -⟩ := C80_key_refresh refreshCaseEnv 2 Toy.auxEnv_valid refreshCaseHash {1, 2, 3} 7 refreshCaseDraws
    (fun i hi => Toy.auxDraws_valid i (by simp at hi; omega)) (fun i _ j _ _ => Toy.facDraws_valid i j) 3 (fun _ _ => rfl) ctx hctx
  obtain ⟨n, hn, hf⟩ := h.exists_finished
  exact ⟨ctx, n, res, hctx, hn, hf, hz⟩

/-- Parties 1 and 2 of a sharing with threshold 2 hand it over to 2, 3 and 4. -/
example (draw : Nat → Nat → ZMod 11) : ∃ (r : Nat → KeyResharing.Round1 Nat (ZMod 11) (ZMod 11)) (init : Nat → KeyResharing.State Nat (ZMod 11) (ZMod 11))
    (n : Spec.Net Nat _ _ _ _) (new : Nat → ThresholdKeyShare Nat (ZMod 11) (ZMod 11)),
    (∀ i ∈ ({1, 2} ∪ {2, 3, 4} : Finset Nat), KeyResharing.begin (r i) = .ok (init i)) ∧
    (KeyResharing.machine (1 : ZMod 11)).Reachable (({1, 2} ∪ {2, 3, 4} : Finset Nat) : Set Nat) init n ∧
    n.status 1 = .finished none ∧ (∀ i ∈ ({2, 3, 4} : Finset Nat), n.status i = .finished (some (new i))) ∧
    ThresholdSharing (1 : ZMod 11) {2, 3, 4} 3 new 5 := by
  obtain ⟨r, hr, -⟩ := C39_honest_resharing 11 (1 : ZMod 11) {1, 2, 3} {1, 2} {2, 3, 4} 2 3 reshareCase 5 reshareCase_sharing (by decide) (by decide) (by decide) (by decide) (by decide) 2 draw
  obtain ⟨init, res, new, h0, h, hnone, hsome, hk⟩ := C80_key_resharing 11 (1 : ZMod 11) {1, 2, 3} {1, 2} {2, 3, 4} 2 3 reshareCase 5 reshareCase_sharing (by decide) (by decide)
    (by decide) (by decide) (by decide) 2 draw r hr
  obtain ⟨n, hn, hf⟩ := h.exists_finished
  refine ⟨r, init, n, new, h0, hn, ?_, fun i hi => ?_, hk⟩
  · rw [hf 1 (by decide), hnone 1 (by decide) (by decide)]
  · rw [hf i (Finset.mem_union_right _ hi), hsome i hi]

/-- Three parties sign the message 5 with the key 6. -/
example : ∃ (infos : Nat → AuxInfo Nat PaillierKey PublicAux) (r1 : Nat → Signing.Round1 11 Nat Nat (ZMod 11)) (init : Nat → Signing.State 11 Nat Nat (ZMod 11))
    (n : Spec.Net Nat _ _ _ _) (sig : RecoverableSignature 11),
    (∀ i ∈ Toy.parties, Signing.start Toy.signEnv (fun _ _ => 7) (5 : ZMod 11) (Toy.signShares i) (infos i) i (Toy.signDraws i) = .ok (r1 i)) ∧
    (∀ i ∈ Toy.parties, Signing.begin Toy.signEnv (r1 i) = .ok (init i)) ∧
    (Signing.machine Toy.signEnv).Reachable (Toy.parties : Set Nat) init n ∧ (∀ i ∈ Toy.parties, n.status i = .finished sig) ∧ sig.r = 2 := by
  obtain ⟨infos, haux, hmod⟩ := Toy.exists_signInfos
  have hd : SigningDrawsValid Toy.signEnv.P Toy.parties (fun i => (infos i).secret.modulus) (fun i => (Toy.ringPedersen i).modulus) Toy.signDraws := by
    rw [funext hmod]; exact Toy.signDraws_valid
  have hst := C41_honest_start Toy.signEnv Toy.signEnv_setting (fun _ _ => 7) 5 6 Toy.parties Toy.signShares Toy.signShares_valid infos Toy.ringPedersen haux Toy.signDraws
  have : Nonempty (Signing.Round1 11 Nat Nat (ZMod 11)) := ⟨(hst 1 (by decide)).choose⟩
  obtain ⟨r1, hr1⟩ := exists_fun hst
  obtain ⟨init, sig, h0, h, -, -, -, h4⟩ := C80_signing Toy.signEnv Toy.signEnv_setting (fun _ _ => 7) 5 6 Toy.parties Toy.signShares Toy.signShares_valid
    infos Toy.ringPedersen haux Toy.signDraws hd r1 (fun i hi => (hr1 i hi).2) (by decide +kernel) (by decide +kernel) (by decide +kernel) (by decide +kernel) (by decide +kernel)
  obtain ⟨n, hn, hf⟩ := h.exists_finished
  refine ⟨infos, r1, init, n, sig, fun i hi => (hr1 i hi).2, h0, hn, hf, ?_⟩
  rw [h4]; decide +kernel

end Examples

end Synedrion.Props
