import Verif.Spec.AuxWire
import Verif.Lemmas.LifeWire
import Verif.Props.LifeNetwork
import Verif.Props.WireResults
import Verif.Props.HashPoints
import Verif.Props.SigningZero
import Mathlib.Data.Countable.Basic
import Mathlib.Logic.Encodable.Basic
import Mathlib.Logic.Equiv.List

/-!
# C99: over any history of sessions over serialized messages, whatever bytes the others send, honest holders keep the key
-/

set_option linter.unusedSectionVars false

namespace Synedrion.Props

open Spec

variable {I G Sid V CC : Type} {q : Nat} [Fact q.Prime] [LinearOrder (ZMod q)] [LinearOrder I] [AddCommGroup G] [Module (ZMod q) G] [DecidableEq G] [DecidableEq V]
variable {W : WireFormat G V} {K : KeyEnv I (ZMod q) G Sid V V CC}

mutual

private theorem full_view (hF : LifeFormat K W) (hq : K.order = q) (hg : K.refresh.g ≠ 0) (hI : ∀ s i h h', K.initHash s i h = K.initHash s i h' → h = h')
    (hR : ∀ s i h h', K.refreshHash s i h = K.refreshHash s i h' → h = h') {honest : Set I} {ids : Finset I} {shares : I → KeyShare I (ZMod q) G} {vk : G} :
    KeepsFullOver W K honest ids shares vk → vk ≠ 0 ∧ FullView K.refresh.g honest ids shares vk
  | .centralized _ _ sk draw m _ hmem hne h0 hm hs => by
    have : CharP (ZMod q) K.order := by rw [hq]; infer_instance
    obtain ⟨h1, h2, -⟩ := C88_full_shares hg hI hR _ _ _ _ (.centralized honest ids sk draw m shares hmem hne h0 hm hs)
    exact ⟨h1, h2⟩
  | .generated _ _ _ _ a hgen ha hvk => generated_view hI (hgen.among hF) ha hvk
  | .stored _ _ _ _ _ _ hold hsub hst => by
    obtain ⟨h0, hv⟩ := full_view hF hq hg hI hR hold
    exact ⟨h0, (hv.mono hsub).congr fun i hi => (hst i hi).same hF.format⟩
  | .refreshed _ _ _ _ _ _ _ _ hold hsub href hst hupd => by
    obtain ⟨h0, hv⟩ := full_view hF hq hg hI hR hold
    exact ⟨h0, refreshed_view hR hv hsub (href.among hF) fun i hi => by rw [← (hst i hi).same hF.format]; exact hupd i hi⟩
  | .converted _ _ _ _ _ _ _ _ _ hold hsub hmem hS ht hc => by
    obtain ⟨h0, sid, tail, hv⟩ := threshold_view hF hq hg hI hR hold
    exact ⟨h0, hv.toFull hsub hmem hS ht hc⟩

private theorem threshold_view (hF : LifeFormat K W) (hq : K.order = q) (hg : K.refresh.g ≠ 0) (hI : ∀ s i h h', K.initHash s i h = K.initHash s i h' → h = h')
    (hR : ∀ s i h h', K.refreshHash s i h = K.refreshHash s i h' → h = h') {honest : Set I} {ids : Finset I} {t : Nat} {shares : I → ThresholdKeyShare I (ZMod q) G} {vk : G} :
    KeepsThresholdOver W K honest ids t shares vk → vk ≠ 0 ∧ ∃ sid tail, ThresholdView K.refresh.g honest ids t shares vk sid tail
  | .centralized _ _ _ sk draw m _ hmem hc ht h0 hm hs => by
    have : CharP (ZMod q) K.order := by rw [hq]; infer_instance
    obtain ⟨h1, h2, -⟩ := C88_threshold_shares hg hI hR _ _ _ _ _ (.centralized honest ids t sk draw m shares hmem (by rw [hq]; exact hc) ht h0 hm hs)
    exact ⟨h1, h2⟩
  | .stored _ _ _ _ _ _ _ hold hsub hst => by
    obtain ⟨h0, sid, tail, hv⟩ := threshold_view hF hq hg hI hR hold
    exact ⟨h0, sid, tail, (hv.mono hsub).congr fun i hi => (hst i hi).same hF.format⟩
  | .converted _ _ _ _ _ _ hc hold hsub hne hconv => by
    obtain ⟨h0, hv⟩ := full_view hF hq hg hI hR hold
    exact ⟨h0, hv.toThreshold hc (hne.mono hsub) hsub hconv⟩
  | .reshared _ _ _ _ _ _ _ _ _ _ hold hn hnN hN hres => by
    obtain ⟨h0, -⟩ := threshold_view hF hq hg hI hR hold
    exact ⟨h0, reshared_view h0 hn hnN hN (ResharedOverIf.among hF.format hres)⟩
  | .derived _ _ _ _ _ _ _ _ _ hold hsub hder hvk => by
    obtain ⟨h0, sid, tail, hv⟩ := threshold_view hF hq hg hI hR hold
    obtain ⟨h0', hv'⟩ := hv.derive h0 hsub hder hvk
    exact ⟨h0', sid, tail, hv'⟩

end

/-- **C99.** Take any history of dealing, generation, refreshes, conversions, derivations, resharings, and storing and reading back, in which the sessions are over serialized messages, the parties that are not
honest send any data they want, and after each of which only some of the honest parties need be left; messages of resharings have the right form. Then the honest holders of full shares agree on all public
shares, each has the secret share that goes with its own public share, and each computes the verifying key that the key had all along. -/
theorem C99_full_shares (hF : LifeFormat K W) (hq : K.order = q) (hg : K.refresh.g ≠ 0) (hI : ∀ s i h h', K.initHash s i h = K.initHash s i h' → h = h')
    (hR : ∀ s i h h', K.refreshHash s i h = K.refreshHash s i h' → h = h') (honest : Set I) (ids : Finset I) (shares : I → KeyShare I (ZMod q) G) (vk : G)
    (h : KeepsFullOver W K honest ids shares vk) :
    vk ≠ 0 ∧ FullView K.refresh.g honest ids shares vk ∧ ∀ i ∈ honest, ((shares i).verifyingKey : Out Unit G) = .ok vk := by
  obtain ⟨h0, hv⟩ := full_view hF hq hg hI hR h
  exact ⟨h0, hv, fun i hi => hv.reports h0 hi⟩

/-- **C99.** The same for threshold shares: the honest holders agree on all share ids and public shares, which lie on one polynomial with at most as many coefficients as the threshold says and with the
verifying key as the constant one, and each reports this key. -/
theorem C99_threshold_shares (hF : LifeFormat K W) (hq : K.order = q) (hg : K.refresh.g ≠ 0) (hI : ∀ s i h h', K.initHash s i h = K.initHash s i h' → h = h')
    (hR : ∀ s i h h', K.refreshHash s i h = K.refreshHash s i h' → h = h') (honest : Set I) (ids : Finset I) (t : Nat) (shares : I → ThresholdKeyShare I (ZMod q) G) (vk : G)
    (h : KeepsThresholdOver W K honest ids t shares vk) :
    vk ≠ 0 ∧ (∃ sid tail, ThresholdView K.refresh.g honest ids t shares vk sid tail) ∧ ∀ i ∈ honest, (shares i).verifyingKey = .ok vk := by
  obtain ⟨h0, sid, tail, hv⟩ := threshold_view hF hq hg hI hR h
  exact ⟨h0, ⟨sid, tail, hv⟩, fun i hi => hv.reports h0 hi⟩

/-- **C99 (signing).** After any such history, in any execution of signing over serialized messages, in which again the parties that are not honest send any data: every signature an honest signer ends with is
a normalized, valid signature of its message under the verifying key of the history and recovers it, and if the serialized echo-broadcasts agree then all honest signers that end with a signature end with the
same one. -/
theorem C99_sign (hF : LifeFormat K W) {Ep : Type} (E : Signing.Env q I Ep G) (hC : CurveLaws E.C q) (hP : W.P = E.P) (hc : E.P.SelfConsistent) (hE : SigningHashesFit E) (hq : K.order = q)
    (hg : K.refresh.g ≠ 0) (hI : ∀ s i h h', K.initHash s i h = K.initHash s i h' → h = h') (hR : ∀ s i h h', K.refreshHash s i h = K.refreshHash s i h' → h = h')
    (honest : Set I) (ids : Finset I) (shares : I → KeyShare I (ZMod q) G) (vk : G) (hshares : KeepsFullOver W K honest ids shares vk)
    (epidOf : BMap I G → BMap I PublicAux → Ep) (message : ZMod q) (panics : Panics I (Signing.Message q I G) (Signing.State q I Ep G)) (signers : Set I) (hsub : signers ⊆ honest)
    (aux : I → AuxInfo I PaillierKey PublicAux) (haux : ∀ i ∈ signers, AllValues (Spec.AuxFits E.P) (aux i).pub)
    (hkey : ∀ i ∈ signers, (aux i).secret.modulus ≠ 0 ∧ (aux i).secret.modulus < 2 ^ E.P.modBits) (d : I → Signing.Draws q I)
    (hd : ∀ i ∈ signers, SigningDrawsFit E.P ((shares i).pub.keySet.erase i) (d i)) (r : I → Signing.Round1 q I Ep G)
    (hr : ∀ i ∈ signers, Signing.start E epidOf message (shares i) (aux i) i (d i) = .ok (r i)) (init : I → Signing.State q I Ep G)
    (hinit : ∀ i ∈ signers, Signing.begin E (r i) = .ok (init i))
    (n : Net I (Packet I) (Signing.State q I Ep G) (WireErr (Signing.Err I)) (RecoverableSignature q))
    (h : (overWire (Signing.machine E) W.signingTransport panics).Reachable signers init n) :
    (∀ i ∈ signers, ∀ sig, n.status i = .finished sig →
      EcdsaValid E.C vk message sig.r sig.s ∧ LowS sig.s ∧ recover E.C message sig.r sig.s sig.recoveryId = some vk) ∧
    ((overWire (Signing.machine E) W.signingTransport panics).EchoAgree signers 2 Packet.echo n →
      ∀ i ∈ signers, ∀ j ∈ signers, ∀ sig sig', n.status i = .finished sig → n.status j = .finished sig' → sig = sig') := by
  obtain ⟨h0, hv⟩ := full_view hF hq hg hI hR hshares
  constructor
  · intro i hi sig hsig
    have := C96_signing hF.format E hC hP hc hE epidOf message panics signers shares aux haux hkey d hd r hr init hinit n h i hi sig hsig
    rwa [show (shares i).pub.values.sum = vk from hv.key i (hsub hi)] at this
  · intro hecho i hi j hj sig sig' hs hs'
    exact C91_signature_agreement hF.format E hC hP hc hE epidOf message panics signers ids (shares i).pub (hv.holders i (hsub hi)) (fun k hk => hv.member k (hsub hk)) shares
      (fun k hk => hv.same_public k (hsub hk) i (hsub hi)) aux haux hkey d hd r hr init hinit n h hecho i j hi hj sig sig' hs hs'

/-! ### Concrete histories -/

section Concrete

attribute [local instance] Toy.fact11 Toy.order11

private theorem hashed_countable : Countable (KeyRefresh.Hashed Nat (ZMod 11)) := by
  refine Function.Injective.countable (f := fun h : KeyRefresh.Hashed Nat (ZMod 11) => ((h.capXs.entries, h.capYs.entries, h.capAs.entries),
    (h.base.pk, h.base.rp.modulus, h.base.rp.baseRandomizer, h.base.rp.baseValue), (h.base.psi.commitment, h.base.psi.challenge, h.base.psi.proof), h.base.rid, h.base.u)) ?_
  rintro ⟨⟨x, _⟩, ⟨y, _⟩, ⟨a, _⟩, ⟨pk, ⟨rn, rs, rt⟩, ⟨c, e, z⟩, rid, u⟩⟩ ⟨⟨x', _⟩, ⟨y', _⟩, ⟨a', _⟩, ⟨pk', ⟨rn', rs', rt'⟩, ⟨c', e', z'⟩, rid', u'⟩⟩ h
  simp only [Prod.mk.injEq] at h
  obtain ⟨⟨rfl, rfl, rfl⟩, ⟨rfl, rfl, rfl, rfl⟩, ⟨rfl, rfl, rfl⟩, rfl, rfl⟩ := h
  rfl

/-- There is a hash of the data of key refresh without collisions, as bytes. -/
private theorem exists_hash : ∃ f : KeyRefresh.Hashed Nat (ZMod 11) → List Byte, Function.Injective f := by
  obtain ⟨f, hf⟩ := hashed_countable
  refine ⟨fun h => List.replicate (f h) 0#8, fun a b e => hf ?_⟩
  have := congrArg List.length e
  simpa using this

private theorem aux_hashed_countable : Countable AuxGen.Hashed := by
  refine Function.Injective.countable (f := fun h : AuxGen.Hashed => ((h.pk, h.rp.modulus, h.rp.baseRandomizer, h.rp.baseValue), (h.psi.commitment, h.psi.challenge, h.psi.proof), h.rid, h.u)) ?_
  rintro ⟨pk, ⟨rn, rs, rt⟩, ⟨c, e, z⟩, rid, u⟩ ⟨pk', ⟨rn', rs', rt'⟩, ⟨c', e', z'⟩, rid', u'⟩ h
  simp only [Prod.mk.injEq] at h
  obtain ⟨⟨rfl, rfl, rfl, rfl⟩, ⟨rfl, rfl, rfl⟩, rfl, rfl⟩ := h
  rfl

/-- There is a hash of the data of auxiliary info generation without collisions, as bytes. -/
private theorem exists_aux_hash : ∃ f : AuxGen.Hashed → List Byte, Function.Injective f := by
  obtain ⟨f, hf⟩ := aux_hashed_countable
  refine ⟨fun h => List.replicate (f h) 0#8, fun a b e => hf ?_⟩
  have := congrArg List.length e
  simpa using this

/-- Keys over `ZMod 11` with hashes without collisions -/
noncomputable def wireKeys : KeyEnv Nat (ZMod 11) (ZMod 11) Nat (List Byte) (List Byte) Nat where
  order := 11
  refresh := refreshCaseEnv
  initHash := kgByteHash
  initSch := kgH
  auxHash := fun _ _ h => exists_aux_hash.choose h
  refreshHash := fun _ _ h => exists_hash.choose h
  chainCode := fun _ => 0
  deriveTweak := fun p c i => .ok (p + 1, c + i)

/-- `wireKeys` meets the hypotheses of C99. -/
theorem wireKeys_ok : LifeFormat wireKeys toyWire ∧ wireKeys.order = 11 ∧ wireKeys.refresh.g ≠ 0 ∧ (∀ s i h h', wireKeys.initHash s i h = wireKeys.initHash s i h' → h = h') ∧
    (∀ s i h h', wireKeys.refreshHash s i h = wireKeys.refreshHash s i h' → h = h') :=
  ⟨⟨toyWire_valid, rfl, auxHashesFit⟩, rfl, by decide, kgByteHash_inj, fun _ _ _ _ e => exists_hash.choose_spec e⟩

theorem wireKeys_aux : ∀ s i h h', wireKeys.auxHash s i h = wireKeys.auxHash s i h' → h = h' := fun _ _ _ _ e => exists_aux_hash.choose_spec e

private theorem two_of_three : ({1, 2} : Set Nat) ⊆ (({1, 2, 3} : Finset Nat) : Set Nat) := by
  rintro i (rfl | rfl) <;> simp

private theorem drawBits (i : Nat) : BitsFit (kgDraws i).rho ∧ BitsFit (kgDraws i).u := ⟨by simp [BitsFit, kgDraws], by simp [BitsFit, kgDraws]⟩

/-- 1, 2 and 3, of whom 1 and 2 are honest, generate a key over serialized messages. -/
private theorem generated_case : ∃ shares, GeneratedOver toyWire wireKeys {1, 2} {1, 2, 3} shares ∧ SharesKey (1 : ZMod 11) {1, 2, 3} shares (∑ i ∈ {1, 2, 3}, (kgDraws i).x) := by
  obtain ⟨shares, hsh, hiff⟩ := C93_key_init toyWire_valid kgByteHash kgH (1 : ZMod 11) (by decide) {1, 2, 3} 7 kgDraws 3 (fun _ _ => rfl) (fun i _ => drawBits i) kgCtx kgStart (by decide +kernel)
  have h := hiff.2 (by decide +kernel)
  obtain ⟨n, hn, hf, he⟩ := h.exists_agreeing (echo := Packet.echo) (k := 1)
    (fun i hi l s hs => by
      obtain ⟨l', -, hs'⟩ := overWire_replay hs
      intro j hj
      have hj : j ∈ (kgCtx i).otherIds := by
        rw [← (KeyInit.replay_expected hs').1]
        exact hj
      exact (Finset.mem_erase.1 hj).2)
    (fun i hi l s hs hk => by
      obtain ⟨l', hl, hs'⟩ := overWire_replay hs
      rw [← hl]
      exact (KeyInit.replay_expected hs').2.symm.trans hk)
    (fun s hs a ha b hb => by
      obtain ⟨m, hm, hp⟩ := mem_packAll.1 ha
      obtain ⟨m', hm', hp'⟩ := mem_packAll.1 hb
      have e : m = m' := KeyInit.send_one s hs _ hm _ hm'
      rw [e] at hp
      rw [Out.ok.inj (hp.symm.trans hp')]) {1, 2} two_of_three
  exact ⟨shares, ⟨{1, 2}, 7, kgDraws, kgCtx, KeyInit.hashPanics, n, subset_rfl, fun i _ => drawBits i, fun i hi => kgStart i (two_of_three hi), hn, he, hf⟩, hsh⟩

private def quietDraws (i : Nat) : KeyRefresh.Draws Nat (ZMod 11) := ⟨Toy.auxDraws i, fun n => (n + i : ℕ), fun j => (i + j : ℕ), fun j => (i + 2 * j : ℕ)⟩

theorem auxDrawsStorable (i : Nat) : AuxDrawsStorable Toy.auxEnv.P (Toy.auxDraws i) := ⟨auxDrawsFit i, by show Toy.primeP < 2 ^ 128; decide, by show Toy.primeQ < 2 ^ 128; decide⟩

/-- They refresh it over serialized messages, and get new auxiliary info. -/
theorem refreshed_case : ∃ changes infos, RefreshedOver toyWire wireKeys {1, 2} {1, 2, 3} changes ∧ AuxRefreshedOver toyWire wireKeys {1, 2} {1, 2, 3} infos ∧ ZeroSumChange (1 : ZMod 11) {1, 2, 3} changes := by
  have hst : ∀ i ∈ ({1, 2, 3} : Finset Nat), ∃ c, KeyRefresh.start refreshCaseEnv ({1, 2, 3} : Finset Nat) 7 i (quietDraws i) = .ok c :=
    fun i hi => (C38_start refreshCaseEnv 2 {1, 2, 3} 7 i (quietDraws i) (Toy.auxDraws_valid i (by simp at hi; omega))).1 hi
  have : Nonempty (KeyRefresh.Context Nat (ZMod 11) (ZMod 11) Nat) := ⟨(hst 1 (by decide)).choose⟩
  obtain ⟨ctx, hctx⟩ := exists_fun hst
  obtain ⟨res, hz, -, hiff⟩ := C93_key_refresh toyWire_valid refreshCaseEnv (by decide) rfl auxHashesFit 2 Toy.auxEnv_valid wireKeys.refreshHash {1, 2, 3} 7 quietDraws
    (fun i _ => auxDrawsFit i) (fun i hi => Toy.auxDraws_valid i (by simp at hi; omega)) (fun i _ j _ _ => Toy.facDraws_valid i j) 3 (fun _ _ => rfl) ctx hctx
  have h := hiff.2 (by decide +kernel)
  have hoth : ∀ i ∈ ({1, 2, 3} : Finset Nat), (ctx i).otherIds = ({1, 2, 3} : Finset Nat).erase i := fun i hi => by
    obtain ⟨_, _, sk, x, _, _, h⟩ := KeyRefresh.start_ok (hctx i hi)
    rw [h]; rfl
  obtain ⟨n, hn, hf, he⟩ := h.exists_agreeing (echo := Packet.echo) (k := 1)
    (fun i hi l s hs => by
      obtain ⟨l', -, hs'⟩ := overWire_replay hs
      intro j hj
      have hj : j ∈ (ctx i).otherIds := by
        rw [← (KeyRefresh.replay_expected hs').1]
        exact hj
      rw [hoth i hi] at hj
      exact (Finset.mem_erase.1 hj).2)
    (fun i hi l s hs hk => by
      obtain ⟨l', hl, hs'⟩ := overWire_replay hs
      rw [← hl]
      exact (KeyRefresh.replay_expected hs').2.symm.trans hk)
    (fun s hs a ha b hb => by
      obtain ⟨m, hm, hp⟩ := mem_packAll.1 ha
      obtain ⟨m', hm', hp'⟩ := mem_packAll.1 hb
      have e : m = m' := KeyRefresh.send_one s hs _ hm _ hm'
      rw [e] at hp
      rw [Out.ok.inj (hp.symm.trans hp')]) {1, 2} two_of_three
  exact ⟨fun i => (res i).1, fun i => (res i).2,
    ⟨{1, 2}, 7, quietDraws, ctx, fun i => (res i).2, KeyRefresh.hashPanics, n, subset_rfl, fun i _ => auxDrawsFit i, fun i hi => hctx i (two_of_three hi), hn, he, hf⟩,
    ⟨{1, 2}, 7, quietDraws, ctx, fun i => (res i).1, KeyRefresh.hashPanics, n, subset_rfl, fun i _ => auxDrawsStorable i, fun i hi => hctx i (two_of_three hi), hn, he, hf⟩, hz⟩

/-- A history with a generation and a refresh over serialized messages, with the key 4. -/
example : ∃ shares, KeepsFullOver toyWire wireKeys {1, 2} {1, 2, 3} shares 4 := by
  obtain ⟨shares, hgen, hsh⟩ := generated_case
  have hkey : KeepsFullOver toyWire wireKeys {1, 2} {1, 2, 3} shares 4 := by
    refine .generated _ _ _ _ 1 hgen (by simp) ?_
    rw [hsh.vk (by decide) (by decide +kernel) (by decide : 1 ∈ ({1, 2, 3} : Finset Nat))]
    decide +kernel
  obtain ⟨changes, -, href, -, hz⟩ := refreshed_case
  have hup : ∀ i ∈ ({1, 2, 3} : Finset Nat), ∃ share, (shares i).update (changes i) = .ok share := fun i hi =>
    (C16_update_decision (shares i) (changes i)).1.2 ⟨(hsh.owner i hi).trans (hz.owner i hi).symm, (hsh.holders i hi).trans (hz.holders i hi).symm⟩
  have : Nonempty (KeyShare Nat (ZMod 11) (ZMod 11)) := ⟨shares 1⟩
  obtain ⟨shares', hup⟩ := exists_fun hup
  exact ⟨shares', .refreshed {1, 2} {1, 2} _ _ _ changes changes _ hkey subset_rfl href (fun _ _ => .inl rfl) fun i hi => hup i (two_of_three hi)⟩

/-- The key 5 is dealt to 1, 2 and 3 with threshold 2; only 1 stays honest. -/
private theorem dealt_case : KeepsThresholdOver toyWire wireKeys {1} {1, 2, 3} 2 reshareCase 5 := by
  have h := KeepsThresholdOver.centralized (W := toyWire) (K := wireKeys) {1} {1, 2, 3} 2 5 (fun _ => 3) (BMap.ofList [(1, reshareCase 1), (2, reshareCase 2), (3, reshareCase 3)]) reshareCase
    (by rintro i rfl; decide) (by decide) (by decide) (by decide) (by show ThresholdKeyShare.newCentralized (1 : ZMod 11) _ _ _ _ = _; decide +kernel) (by rintro i rfl; decide +kernel)
  rwa [show ((5 : ZMod 11) • wireKeys.refresh.g : ZMod 11) = 5 by show ((5 : ZMod 11) • (1 : ZMod 11) : ZMod 11) = 5; decide] at h

private def r4 : KeyResharing.Round1 Nat (ZMod 11) (ZMod 11) := ⟨none, some ⟨5, 2, {1, 2}⟩, KeyResharing.newShareIds (ZMod 11) {2, 3, 4}, 2, 4, ∅, {1, 2}⟩
private def r1 : KeyResharing.Round1 Nat (ZMod 11) (ZMod 11) := ⟨some ⟨1, [8, 4], [8, 4]⟩, none, KeyResharing.newShareIds (ZMod 11) {2, 3, 4}, 2, 1, {2, 3, 4}, ∅⟩
private def begin14 : Nat → KeyResharing.State Nat (ZMod 11) (ZMod 11) := fun i =>
  if i = 1 then ⟨r1, [(2, ⟨[8, 4], 1, 1⟩), (3, ⟨[8, 4], 1, 5⟩), (4, ⟨[8, 4], 1, 9⟩)]⟩ else ⟨r4, []⟩
private def new4 : ThresholdKeyShare Nat (ZMod 11) (ZMod 11) := ⟨4, 2, 0, BMap.ofList [(2, 1), (3, 2), (4, 3)], BMap.ofList [(2, 7), (3, 9), (4, 0)]⟩
private def calm : Panics Nat (KeyResharing.Msg (ZMod 11) (ZMod 11)) (KeyResharing.State Nat (ZMod 11) (ZMod 11)) := ⟨fun _ _ _ => false, fun _ _ => false⟩

/-- 1 hands the key over to 2, 3 and 4 over serialized messages. Of them only 4 is honest; the old holder 2, who takes part as well, is not, and sends data no honest party can send: they contain the identity. -/
private theorem reshared_case : ResharedOver toyWire (1 : ZMod 11) 5 {4} {1, 2} {2, 3, 4} 2 reshareCase (fun _ => new4) := by
  obtain ⟨d1, hd1⟩ := (toyWire_valid.resharing_packs (I := Nat) (⟨[8, 4], 1, 9⟩ : KeyResharing.Msg (ZMod 11) (ZMod 11))).2 (by unfold resharingNoIdentity; decide)
  have hu1 : (toyWire.resharingTransport (q := 11)).unpack 1 d1 = some ⟨[8, 4], 1, 9⟩ := toyWire_valid.resharing_trip hd1
  obtain ⟨e2, he2⟩ := toyWire_valid.resharingBroadcast_onto (ε := Unit) (I := Nat) (([0, 6], 2) : List (ZMod 11) × ZMod 11) trivial
  obtain ⟨x2, hx2⟩ := (toyWire_valid.resharingDirect_lawful (ε := Unit) (I := Nat)).onto (7 : ZMod 11) trivial
  obtain ⟨d2, hu2⟩ : ∃ d2 : Packet Nat, (toyWire.resharingTransport (q := 11)).unpack 1 d2 = some ⟨[0, 6], 2, 7⟩ := by
    refine ⟨⟨some e2, none, some x2⟩, ?_⟩
    show Option.bind _ _ = _
    rw [he2]
    exact congrArg (Option.map _) hx2
  have hpk : (toyWire.resharingTransport (I := Nat) (q := 11)).packable ((KeyResharing.machine (1 : ZMod 11)).send (begin14 4)) = true := by
    show (toyWire.resharingTransport (I := Nat) (q := 11)).packable [] = true
    rfl
  have hcomp : (overWire (KeyResharing.machine (1 : ZMod 11)) (toyWire.resharingTransport (I := Nat)) calm).Complete (begin14 4) [(2, d2), (1, d1)] := by
    refine ⟨show ([2, 1] : List Nat).Nodup by decide, show ([2, 1] : List Nat).toFinset = r4.expectingMessagesFrom by decide, ?_⟩
    intro a ha
    rcases List.mem_cons.1 ha with rfl | ha
    · unfold overWire
      dsimp only
      rw [if_pos hpk]
      have : (toyWire.resharingTransport (q := 11)).unpack ((KeyResharing.machine (1 : ZMod 11)).round (begin14 4)) d2 = some _ := hu2
      rw [this]
      rfl
    · cases List.mem_singleton.1 ha
      unfold overWire
      dsimp only
      rw [if_pos hpk]
      have : (toyWire.resharingTransport (q := 11)).unpack ((KeyResharing.machine (1 : ZMod 11)).round (begin14 4)) d1 = some _ := hu1
      rw [this]
      rfl
  have hall : (toyWire.resharingTransport (I := Nat) (q := 11)).unpackAll 1 [(2, d2), (1, d1)] = some [(2, ⟨[0, 6], 2, 7⟩), (1, ⟨[8, 4], 1, 9⟩)] := by
    simp [Transport.unpackAll, hu1, hu2]
  have hrun : KeyResharing.run (1 : ZMod 11) r4 [(2, ⟨[0, 6], 2, 7⟩), (1, ⟨[8, 4], 1, 9⟩)] = .ok (some new4) := by decide +kernel
  have hn : (KeyResharing.machine (1 : ZMod 11)).next (begin14 4) [(2, ⟨[0, 6], 2, 7⟩), (1, ⟨[8, 4], 1, 9⟩)] = .ok (.inr (some new4)) := (KeyResharing.next_of_run (s := begin14 4) hrun).2
  have hnext : (overWire (KeyResharing.machine (1 : ZMod 11)) (toyWire.resharingTransport (I := Nat)) calm).next (begin14 4) [(2, d2), (1, d1)] = .ok (.inr (some new4)) := by
    rw [overWire_next hpk (unpackAll_eq_some.1 hall) (by decide), hn]
    rfl
  have h0 : (overWire (KeyResharing.machine (1 : ZMod 11)) (toyWire.resharingTransport (I := Nat)) calm).Reachable {1, 4} begin14 (Machine.start _ begin14) := .refl
  have h1 := h0.round (i := 4) (by simp) (s := begin14 4) rfl hcomp (fun a ha hh => by
    rcases List.mem_cons.1 ha with rfl | ha
    · simp at hh
    · cases List.mem_singleton.1 ha
      exact ⟨begin14 1, List.mem_singleton.2 rfl, rfl, mem_packAll.2 ⟨⟨[8, 4], 1, 9⟩, show (4, (⟨[8, 4], 1, 9⟩ : KeyResharing.Msg (ZMod 11) (ZMod 11))) ∈ (begin14 1).out by decide, hd1⟩⟩)
  refine ⟨{1, 4}, 2, fun _ _ => 4, fun i => if i = 1 then r1 else r4, begin14, calm, _, by simp, by rintro i rfl; decide, ?_, ?_, h1, ?_, ?_, ?_⟩
  · rintro i (rfl | rfl)
    · rfl
    · rfl
  · rintro i (rfl | rfl)
    · rfl
    · rfl
  · exact echoAgree_single (i := 4) (x := (begin14 4, [(2, d2), (1, d1)])) (by simp only [Function.update_self]; rfl) (fun j hj => by simp only [Function.update_of_ne hj]; rfl) (by simp) _ _
  · rintro i rfl
    simp only [Function.update_self, Spec.Machine.advanced, hnext]
  · rintro i rfl x hx got hgot
    simp only [Function.update_self] at hx
    rw [List.mem_singleton.1 hx] at hgot
    obtain rfl : got = [(2, ⟨[0, 6], 2, 7⟩), (1, ⟨[8, 4], 1, 9⟩)] := by
      rcases hgot with _ | ⟨⟨h1, h2⟩, hrest⟩
      rcases hrest with _ | ⟨⟨h3, h4⟩, hrest⟩
      cases hrest
      rw [hu2] at h2
      rw [hu1] at h4
      rename_i b c
      obtain ⟨b1, b2⟩ := b
      obtain ⟨c1, c2⟩ := c
      cases h1; cases h3; cases h2; cases h4
      rfl
    unfold NotTooLong DistinctIds
    decide +kernel

/-- A history with a dishonest holder: dealing, a resharing and a conversion. -/
example : KeepsFullOver toyWire wireKeys {4} {3, 4} (fun _ => ⟨4, 0, BMap.ofList [(3, 5), (4, 0)]⟩) 5 := by
  refine .converted {4} {4} {2, 3, 4} 2 (fun _ => new4) 5 {3, 4} false _ ?_ subset_rfl
    (by rintro i rfl; decide) (by decide) (by decide) (by rintro i rfl; decide +kernel)
  exact .reshared {1} {4} {1, 2, 3} 2 reshareCase 5 {1, 2} {2, 3, 4} 2 _ dealt_case (by decide) (by decide) (by decide) reshared_case

/-- The key 6 is dealt to 1, 2 and 3, who store their shares and read them back. -/
theorem wireDealt : KeepsFullOver toyWire wireKeys (Toy.parties : Set Nat) Toy.parties Toy.signShares 6 := by
  have h := KeepsFullOver.centralized (W := toyWire) (K := wireKeys) (Toy.parties : Set Nat) Toy.parties 6 (fun n => n + 1)
    (BMap.ofList [(1, Toy.signShares 1), (2, Toy.signShares 2), (3, Toy.signShares 3)]) Toy.signShares
    (fun i hi => hi) (by decide) (by decide) (by show KeyShare.newCentralized (1 : ZMod 11) _ _ _ = _; decide +kernel)
    (fun i hi => by have hi : i ∈ Toy.parties := hi; revert i; decide +kernel)
  rw [show ((6 : ZMod 11) • wireKeys.refresh.g : ZMod 11) = 6 by show ((6 : ZMod 11) • (1 : ZMod 11) : ZMod 11) = 6; decide] at h
  refine .stored _ _ _ _ _ _ h subset_rfl fun i hi => .inr ?_
  refine (C77_stored_shares_partial (ε := Unit) toyWire_valid.points toyWire_valid.order toyWire_valid.scalar).1 _ fun j X hX => ?_
  have : ∀ i ∈ Toy.parties, ∀ X ∈ (Toy.signShares i).pub.values, X ≠ 0 := by decide +kernel
  exact this i hi X (BMap.mem_values.2 ⟨j, hX⟩)

/-- The hypotheses of `C99_sign` are met: the key 6 is dealt to 1, 2 and 3, who store their shares and read them back, and there is an execution of signing over serialized messages in which all
of them end with a signature. -/
example : ∃ (infos : Nat → AuxInfo Nat PaillierKey PublicAux) (r1 : Nat → Signing.Round1 11 Nat Nat (ZMod 11)) (init : Nat → Signing.State 11 Nat Nat (ZMod 11))
    (n : Net Nat (Packet Nat) (Signing.State 11 Nat Nat (ZMod 11)) (WireErr (Signing.Err Nat)) (RecoverableSignature 11)) (sig : RecoverableSignature 11),
    KeepsFullOver toyWire wireKeys (Toy.parties : Set Nat) Toy.parties Toy.signShares 6 ∧ (∀ i ∈ Toy.parties, AllValues (Spec.AuxFits Toy.signEnv.P) (infos i).pub) ∧
    (∀ i ∈ Toy.parties, Signing.start Toy.signEnv (fun _ _ => 7) 5 (Toy.signShares i) (infos i) i (signQuietDraws i) = .ok (r1 i)) ∧
    (∀ i ∈ Toy.parties, Signing.begin Toy.signEnv (r1 i) = .ok (init i)) ∧
    (overWire (Signing.machine Toy.signEnv) toyWire.signingTransport (Signing.hashPanics Toy.signEnv.C.g)).Reachable (Toy.parties : Set Nat) init n ∧ (∀ i ∈ Toy.parties, n.status i = .finished sig) ∧
    EcdsaValid Toy.signEnv.C 6 5 sig.r sig.s := by
  obtain ⟨infos, r1, init, sig, -, hfit, hmod, hst, h0, h⟩ := signQuietSession
  obtain ⟨n, hn, hf⟩ := h.exists_finished
  obtain ⟨hF, h1, h2, h3, h4⟩ := wireKeys_ok
  exact ⟨infos, r1, init, n, sig, wireDealt, hfit, hst, h0, hn, hf, ((C99_sign hF Toy.signEnv Toy.signEnv_setting.laws rfl Toy.signEnv_setting.consistent signHashesFit h1 h2 h3 h4 _ _ _ 6 wireDealt
    (fun _ _ => 7) 5 _ (Toy.parties : Set Nat) subset_rfl infos hfit (fun i _ => by rw [hmod]; exact ⟨by decide +kernel, by decide +kernel⟩) signQuietDraws (fun i _ => signQuietDrawsFit i _) r1 hst init h0 n
    hn).1 1 (by decide) sig (hf 1 (by decide))).1⟩

end Concrete

end Synedrion.Props
