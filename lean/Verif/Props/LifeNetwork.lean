import Verif.Lemmas.LifeNetwork
import Verif.Props.Signing

/-!
# C88: over any history of sessions, whatever the others do, honest holders keep the key
-/

set_option linter.unusedSectionVars false

namespace Synedrion.Props

open Spec

section Key

variable {I F G Sid V W CC : Type} [LinearOrder I] [Field F] [LinearOrder F] [AddCommGroup G] [Module F G] [DecidableEq G] [DecidableEq V] [DecidableEq W]
variable {K : KeyEnv I F G Sid V W CC}

mutual

private theorem full_view [CharP F K.order] (hg : K.refresh.g ≠ 0) (hI : ∀ s i h h', K.initHash s i h = K.initHash s i h' → h = h')
    (hR : ∀ s i h h', K.refreshHash s i h = K.refreshHash s i h' → h = h') {honest : Set I} {ids : Finset I} {shares : I → KeyShare I F G} {vk : G} :
    KeepsFull K honest ids shares vk → vk ≠ 0 ∧ FullView K.refresh.g honest ids shares vk
  | .centralized _ _ sk draw m _ hmem hne h0 hm hs => by
    obtain ⟨f, hsum, hm'⟩ := newCentralized_eq K.refresh.g ids hne sk draw
    rw [hm] at hm'
    have key : ∀ i ∈ honest, shares i = ⟨i, f i, BMap.tabulate ids fun j => f j • K.refresh.g⟩ := by
      intro i hi
      have := hs i hi
      rw [Out.ok.inj hm', BMap.get?_tabulate, if_pos (hmem i hi)] at this
      exact (Option.some.inj this).symm
    refine ⟨smul_ne_zero h0 hg, hmem, fun i hi => by rw [key i hi], fun i hi => by rw [key i hi]; simp, fun i hi j hj => by rw [key i hi, key j hj], fun i hi => ?_, fun i hi => ?_⟩
    · rw [key i hi]
      simp [hmem i hi]
    · rw [key i hi]
      unfold KeyShare.verifyingKeyAsPoint
      simp only
      rw [BMap.sum_values_tabulate, ← Finset.sum_smul, hsum]
  | .generated _ _ _ _ a hgen ha hvk => generated_view hI hgen ha hvk
  | .refreshed _ _ _ _ _ _ _ hold hsub href hupd => by
    obtain ⟨h0, hv⟩ := full_view hg hI hR hold
    exact ⟨h0, refreshed_view hR hv hsub href hupd⟩
  | .converted _ _ _ _ _ _ _ _ _ hold hsub hmem hS ht hc => by
    obtain ⟨h0, sid, tail, hv⟩ := threshold_view hg hI hR hold
    exact ⟨h0, hv.toFull hsub hmem hS ht hc⟩

private theorem threshold_view [CharP F K.order] (hg : K.refresh.g ≠ 0) (hI : ∀ s i h h', K.initHash s i h = K.initHash s i h' → h = h')
    (hR : ∀ s i h h', K.refreshHash s i h = K.refreshHash s i h' → h = h') {honest : Set I} {ids : Finset I} {t : Nat} {shares : I → ThresholdKeyShare I F G} {vk : G} :
    KeepsThreshold K honest ids t shares vk → vk ≠ 0 ∧ ∃ sid tail, ThresholdView K.refresh.g honest ids t shares vk sid tail
  | .centralized _ _ _ sk draw m _ hmem hc ht h0 hm hs => by
    obtain ⟨hok, herr⟩ := C13_centralized_threshold_sharing K.refresh.g ids hc t sk draw
    have htc : t ≤ ids.card := by
      by_contra h
      rw [herr (by omega)] at hm
      cases hm
    obtain ⟨m', sh, hm', -, hget, htc, sid, tail, hlen, hinj, hall⟩ := hok ht htc
    rw [hm] at hm'
    cases hm'
    have key : ∀ i ∈ honest, shares i = sh i := fun i hi => Option.some.inj ((hs i hi).symm.trans (hget i (hmem i hi)))
    have hval : ∀ x : F, polyValue ((sk • K.refresh.g) :: tail.map (· • K.refresh.g)) x = polyValue (sk :: tail) x • K.refresh.g := fun x => by
      have := Shamir.polyValue_publicPolynomial K.refresh.g (sk :: tail) x
      simpa [Shamir.publicPolynomial] using this
    refine ⟨smul_ne_zero h0 hg, sid, tail.map (· • K.refresh.g), hmem, fun i hi => ?_, fun i hi => ?_, ⟨ht, htc⟩, hinj, by simp; omega, fun i hi => ?_, fun i hi => ?_, fun i hi => ?_⟩
    all_goals
      obtain ⟨a, b, c, d, e, f, g'⟩ := hall i (hmem i hi)
      rw [key i hi]
    · exact a
    · exact b
    · exact ⟨d, e⟩
    · exact ⟨f, fun j hj => by rw [g' j hj, (hall j hj).2.2.1, hval]⟩
    · exact g' i (hmem i hi)
  | .converted _ _ _ _ _ _ hc hold hsub hne hconv => by
    obtain ⟨h0, hv⟩ := full_view hg hI hR hold
    exact ⟨h0, hv.toThreshold hc (hne.mono hsub) hsub hconv⟩
  | .reshared _ _ _ _ _ _ _ _ _ _ hold hn hnN hN hres => by
    obtain ⟨h0, -⟩ := threshold_view hg hI hR hold
    exact ⟨h0, reshared_view h0 hn hnN hN hres⟩
  | .derived _ _ _ _ _ _ _ _ _ hold hsub hder hvk => by
    obtain ⟨h0, sid, tail, hv⟩ := threshold_view hg hI hR hold
    obtain ⟨h0', hv'⟩ := hv.derive h0 hsub hder hvk
    exact ⟨h0', sid, tail, hv'⟩

end

/-- **C88.** Take any history of dealing, generation, refreshes, conversions, derivations and resharings in which the parties that are not honest do what they want in every session, and after each of which
only some of the honest parties need be left; messages of resharings have the right form. Then the honest holders of full shares agree on all public shares, each has the secret share that goes with its own
public share, and each computes the verifying key that the key had all along. -/
theorem C88_full_shares [CharP F K.order] (hg : K.refresh.g ≠ 0) (hI : ∀ s i h h', K.initHash s i h = K.initHash s i h' → h = h')
    (hR : ∀ s i h h', K.refreshHash s i h = K.refreshHash s i h' → h = h') (honest : Set I) (ids : Finset I) (shares : I → KeyShare I F G) (vk : G)
    (h : KeepsFull K honest ids shares vk) :
    vk ≠ 0 ∧ FullView K.refresh.g honest ids shares vk ∧ ∀ i ∈ honest, ((shares i).verifyingKey : Out Unit G) = .ok vk := by
  obtain ⟨h0, hv⟩ := full_view hg hI hR h
  exact ⟨h0, hv, fun i hi => hv.reports h0 hi⟩

/-- **C88.** The same for threshold shares: the honest holders agree on all share ids and public shares, which lie on one polynomial with at most as many coefficients as the threshold says and with the
verifying key as the constant one, and each reports this key. -/
theorem C88_threshold_shares [CharP F K.order] (hg : K.refresh.g ≠ 0) (hI : ∀ s i h h', K.initHash s i h = K.initHash s i h' → h = h')
    (hR : ∀ s i h h', K.refreshHash s i h = K.refreshHash s i h' → h = h') (honest : Set I) (ids : Finset I) (t : Nat) (shares : I → ThresholdKeyShare I F G) (vk : G)
    (h : KeepsThreshold K honest ids t shares vk) :
    vk ≠ 0 ∧ (∃ sid tail, ThresholdView K.refresh.g honest ids t shares vk sid tail) ∧ ∀ i ∈ honest, (shares i).verifyingKey = .ok vk := by
  obtain ⟨h0, sid, tail, hv⟩ := threshold_view hg hI hR h
  exact ⟨h0, ⟨sid, tail, hv⟩, fun i hi => hv.reports h0 hi⟩

end Key

section Sign

open Signing

variable {q : Nat} [Fact q.Prime] [LinearOrder (ZMod q)] {I Ep G Sid V W CC : Type} [LinearOrder I] [AddCommGroup G] [Module (ZMod q) G] [DecidableEq G]
  [DecidableEq V] [DecidableEq W]
variable {K : KeyEnv I (ZMod q) G Sid V W CC}

/-- **C88 (signing).** After any such history, in any execution of signing, in which again the parties that are not honest do what they want: every signature an honest signer ends with is a normalized, valid
signature of its message under the verifying key of the history and recovers it, and if the echo-broadcasts agree then all honest signers that end with a signature end with the same one. -/
theorem C88_sign (E : Env q I Ep G) (hC : CurveLaws E.C q) (horder : K.order = q) (hg : K.refresh.g ≠ 0) (hI : ∀ s i h h', K.initHash s i h = K.initHash s i h' → h = h')
    (hR : ∀ s i h h', K.refreshHash s i h = K.refreshHash s i h' → h = h') (honest : Set I) (ids : Finset I) (shares : I → KeyShare I (ZMod q) G) (vk : G)
    (hshares : KeepsFull K honest ids shares vk) (epidOf : BMap I G → BMap I PublicAux → Ep) (message : ZMod q) (auxInfo : I → AuxInfo I PaillierKey PublicAux)
    (signers : Set I) (hsub : signers ⊆ honest) (d : I → Draws q I) (r : I → Round1 q I Ep G) (hr : ∀ i ∈ signers, start E epidOf message (shares i) (auxInfo i) i (d i) = .ok (r i))
    (init : I → State q I Ep G) (hinit : ∀ i ∈ signers, begin E (r i) = .ok (init i)) (n : Net I (Message q I G) (State q I Ep G) (Err I) (RecoverableSignature q))
    (h : (machine E).Reachable signers init n) :
    (∀ i ∈ signers, ∀ sig, n.status i = .finished sig →
      EcdsaValid E.C vk message sig.r sig.s ∧ LowS sig.s ∧ recover E.C message sig.r sig.s sig.recoveryId = some vk) ∧
    ((machine E).EchoAgree signers 2 (fun m => m.two?.map fun m => m.echo) n →
      ∀ i ∈ signers, ∀ j ∈ signers, ∀ sig sig', n.status i = .finished sig → n.status j = .finished sig' → sig = sig') := by
  have : CharP (ZMod q) K.order := by rw [horder]; infer_instance
  obtain ⟨h0, hv⟩ := full_view hg hI hR hshares
  constructor
  · intro i hi sig hsig
    obtain ⟨in1, in2, in3, in4, -, -, hfin, -⟩ := C81_signing E signers r init hinit n h
    have := C42_output_valid E hC epidOf message (shares i) (auxInfo i) i (d i) _ (hr i hi) _ _ _ _ _ sig (hfin i hi sig hsig)
    rwa [show (shares i).pub.values.sum = vk from hv.key i (hsub hi)] at this
  · intro hecho i hi j hj sig sig' hs hs'
    exact C81_signature_agreement E hC epidOf message signers ids (shares i).pub (hv.holders i (hsub hi)) shares (fun k hk => hv.same_public k (hsub hk) i (hsub hi)) auxInfo
      (fun k hk => hv.member k (hsub hk)) d r hr init hinit n h hecho i j hi hj sig sig' hs hs'

end Sign

/-! ### Concrete histories, and why messages of resharings must have the right form -/

section Concrete

attribute [local instance] Toy.fact11 Toy.order11

private def lifeKeys : KeyEnv Nat (ZMod 11) (ZMod 11) Nat (Nat × Nat × KeyInit.PublicData (ZMod 11)) (Nat × Nat × KeyRefresh.Hashed Nat (ZMod 11)) Nat where
  order := 11
  refresh := refreshCaseEnv
  initHash := kgHashV
  initSch := kgH
  auxHash := fun s i _ => (s, i, ⟨0, 0, [], []⟩)
  refreshHash := refreshCaseHash
  chainCode := fun _ => 0
  deriveTweak := fun p c i => .ok (p + 1, c + i)

/-- The key 5 is dealt to 1, 2 and 3 with threshold 2; only 1 stays honest. -/
private theorem dealt : KeepsThreshold lifeKeys {1} {1, 2, 3} 2 reshareCase 5 := by
  have := KeepsThreshold.centralized (K := lifeKeys) {1} {1, 2, 3} 2 5 (fun _ => 3) (BMap.ofList [(1, reshareCase 1), (2, reshareCase 2), (3, reshareCase 3)]) reshareCase
    (by rintro i rfl; decide) (by decide) (by decide) (by decide) (by decide +kernel) (by rintro i rfl; decide +kernel)
  rwa [show ((5 : ZMod 11) • lifeKeys.refresh.g : ZMod 11) = 5 by decide] at this

/-- 1 hands the key over to 2, 3 and 4. Of them only 4 is honest, and the old holder 2, who takes part as well, is not. -/
private theorem session {fits : Nat → List (Nat × KeyResharing.Msg (ZMod 11) (ZMod 11)) → Prop} {m : KeyResharing.Msg (ZMod 11) (ZMod 11)} {new : ThresholdKeyShare Nat (ZMod 11) (ZMod 11)}
    (hrun : KeyResharing.run (1 : ZMod 11) ⟨none, some ⟨5, 2, {1, 2}⟩, KeyResharing.newShareIds (ZMod 11) {2, 3, 4}, 2, 4, ∅, {1, 2}⟩ [(2, m), (1, ⟨[8, 4], 1, 9⟩)] = .ok (some new))
    (hfits : fits 4 [(2, m), (1, ⟨[8, 4], 1, 9⟩)]) : ResharedIf fits (1 : ZMod 11) 5 {4} {1, 2} {2, 3, 4} 2 reshareCase (fun _ => new) := by
  let r : Nat → KeyResharing.Round1 Nat (ZMod 11) (ZMod 11) := fun i =>
    if i = 1 then ⟨some ⟨1, [8, 4], [8, 4]⟩, none, KeyResharing.newShareIds (ZMod 11) {2, 3, 4}, 2, 1, {2, 3, 4}, ∅⟩
    else ⟨none, some ⟨5, 2, {1, 2}⟩, KeyResharing.newShareIds (ZMod 11) {2, 3, 4}, 2, 4, ∅, {1, 2}⟩
  let init : Nat → KeyResharing.State Nat (ZMod 11) (ZMod 11) := fun i => if i = 1 then ⟨r 1, [(2, ⟨[8, 4], 1, 1⟩), (3, ⟨[8, 4], 1, 5⟩), (4, ⟨[8, 4], 1, 9⟩)]⟩ else ⟨r 4, []⟩
  obtain ⟨n, hn, hfin, hpast, hoth⟩ := KeyResharing.exists_end (g := (1 : ZMod 11)) (honest := {1, 4}) (init := init) (i := 4) (by simp) hrun (by
    intro a ha hh
    rcases List.mem_cons.1 ha with rfl | ha
    · simp at hh
    · cases List.mem_singleton.1 ha
      decide)
  refine ⟨{1, 4}, 2, fun _ _ => 4, r, init, n, by simp, by rintro i rfl; decide, ?_, ?_, hn, echoAgree_single hpast hoth (by simp) _ _, by rintro i rfl; exact hfin, ?_⟩
  · rintro i (rfl | rfl)
    · rfl
    · rfl
  · rintro i (rfl | rfl)
    · rfl
    · rfl
  · rintro i rfl x hx
    rw [hpast] at hx
    rw [List.mem_singleton.1 hx]
    exact hfits

/-- The messages must not be too long: the code takes polynomials of any length. Here the dishonest old holder 2 sends one with three coefficients where the new threshold is 2,
and the honest new holder 4 ends with a share of another key. -/
theorem C88_longer_polynomials : ∃ (K : KeyEnv Nat (ZMod 11) (ZMod 11) Nat (Nat × Nat × KeyInit.PublicData (ZMod 11)) (Nat × Nat × KeyRefresh.Hashed Nat (ZMod 11)) Nat)
    (shares new : Nat → ThresholdKeyShare Nat (ZMod 11) (ZMod 11)), KeepsThreshold K {1} {1, 2, 3} 2 shares 5 ∧
    ResharedIf (DistinctIds {1, 2} shares) K.refresh.g 5 {4} {1, 2} {2, 3, 4} 2 shares new ∧ (new 4).verifyingKey ≠ .ok 5 :=
  ⟨lifeKeys, reshareCase, fun _ => ⟨4, 2, 2, BMap.ofList [(2, 1), (3, 2), (4, 3)], BMap.ofList [(2, 6), (3, 5), (4, 2)]⟩, dealt,
    session (m := ⟨[0, 6, 1], 2, 5⟩) (by decide +kernel) (by unfold DistinctIds; decide +kernel), by decide +kernel⟩

/-- The claimed share ids must differ: the code does not compare them. Here 2 claims the share id of 1. -/
theorem C88_shared_ids : ∃ (K : KeyEnv Nat (ZMod 11) (ZMod 11) Nat (Nat × Nat × KeyInit.PublicData (ZMod 11)) (Nat × Nat × KeyRefresh.Hashed Nat (ZMod 11)) Nat)
    (shares new : Nat → ThresholdKeyShare Nat (ZMod 11) (ZMod 11)), KeepsThreshold K {1} {1, 2, 3} 2 shares 5 ∧
    ResharedIf (NotTooLong 2) K.refresh.g 5 {4} {1, 2} {2, 3, 4} 2 shares new ∧ (new 4).verifyingKey ≠ .ok 5 :=
  ⟨lifeKeys, reshareCase, fun _ => ⟨4, 2, 4, BMap.ofList [(2, 1), (3, 2), (4, 3)], BMap.ofList [(2, 3), (3, 9), (4, 4)]⟩, dealt,
    session (m := ⟨[8, 6], 1, 4⟩) (by decide +kernel) (by unfold NotTooLong; decide +kernel), by decide +kernel⟩

private instance : CharP (ZMod 11) lifeKeys.order := inferInstanceAs (CharP (ZMod 11) 11)

/-- `lifeKeys` meets the hypotheses of C88. -/
private theorem lifeKeys_ok : lifeKeys.refresh.g ≠ 0 ∧ (∀ s i h h', lifeKeys.initHash s i h = lifeKeys.initHash s i h' → h = h') ∧
    (∀ s i h h', lifeKeys.refreshHash s i h = lifeKeys.refreshHash s i h' → h = h') :=
  ⟨by decide, fun _ _ _ _ e => (Prod.mk.inj (Prod.mk.inj e).2).2, fun _ _ _ _ e => (Prod.mk.inj (Prod.mk.inj e).2).2⟩

/-- A history with a resharing: the key 5 is dealt to 1, 2 and 3, of whom only 1 is honest. 1 and 2 hand it over to 2, 3 and 4, where 2 does not follow the protocol, but sends a message of the right form.
The honest party 4 then makes a full share for 3 and 4. -/
example : KeepsFull lifeKeys {4} {3, 4} (fun _ => ⟨4, 0, BMap.ofList [(3, 5), (4, 0)]⟩) 5 := by
  refine .converted {4} {4} {2, 3, 4} 2 (fun _ => ⟨4, 2, 0, BMap.ofList [(2, 1), (3, 2), (4, 3)], BMap.ofList [(2, 7), (3, 9), (4, 0)]⟩) 5 {3, 4} false _ ?_ subset_rfl
    (by rintro i rfl; decide) (by decide) (by decide) (by rintro i rfl; decide +kernel)
  exact .reshared {1} {4} {1, 2, 3} 2 reshareCase 5 {1, 2} {2, 3, 4} 2 _ dealt (by decide) (by decide) (by decide)
    (session (m := ⟨[0, 6], 2, 7⟩) (by decide +kernel) (by unfold NotTooLong DistinctIds; decide +kernel))

private theorem two_of_three' : ({1, 2} : Set Nat) ⊆ (({1, 2, 3} : Finset Nat) : Set Nat) := by
  rintro i (rfl | rfl) <;> simp

private theorem others_in' (c : Nat → Finset Nat) (h : ∀ i ∈ ({1, 2, 3} : Finset Nat), c i = ({1, 2, 3} : Finset Nat).erase i) :
    ∀ i ∈ ({1, 2, 3} : Finset Nat), ∀ j ∈ c i, j ∈ ({1, 2, 3} : Finset Nat) := by
  intro i hi j hj
  rw [h i hi] at hj
  exact (Finset.mem_erase.1 hj).2

/-- A history with a generation and a refresh among 1, 2 and 3, where only 1 and 2 are honest, after which they make threshold shares. -/
example : ∃ shares, KeepsThreshold lifeKeys {1, 2} {1, 2, 3} 3 shares 4 := by
  obtain ⟨shares, h, hsh⟩ := C80_key_init kgHashV kgH (1 : ZMod 11) (by decide) {1, 2, 3} 7 kgDraws 3 (fun _ _ => rfl) kgCtx kgStart (by decide +kernel)
  obtain ⟨n, hn, hf, he⟩ := h.exists_agreeing (echo := id) (k := 1)
    (fun i hi l s hs => by rw [(KeyInit.replay_expected hs).1]; exact others_in' _ (fun i hi => rfl) i hi)
    (fun i hi l s hs hk => (KeyInit.replay_expected hs).2.symm.trans hk) KeyInit.send_one {1, 2} two_of_three'
  have hkey : KeepsFull lifeKeys {1, 2} {1, 2, 3} shares 4 := by
    refine .generated _ _ _ _ 1 ⟨{1, 2}, 7, kgDraws, kgCtx, n, subset_rfl, fun i hi => kgStart i (two_of_three' hi), hn, he, hf⟩ (by simp) ?_
    rw [hsh.vk (by decide) (by decide +kernel) (by decide : 1 ∈ ({1, 2, 3} : Finset Nat))]
    decide +kernel
  have hst : ∀ i ∈ ({1, 2, 3} : Finset Nat), ∃ c, KeyRefresh.start refreshCaseEnv ({1, 2, 3} : Finset Nat) 7 i (refreshCaseDraws i) = .ok c :=
    fun i hi => (C38_start refreshCaseEnv 2 {1, 2, 3} 7 i (refreshCaseDraws i) (Toy.auxDraws_valid i (by simp at hi; omega))).1 hi
  have : Nonempty (KeyRefresh.Context Nat (ZMod 11) (ZMod 11) Nat) := ⟨(hst 1 (by decide)).choose⟩
  obtain ⟨ctx, hctx⟩ := exists_fun hst
  obtain ⟨res, h', hz, -⟩ := C80_key_refresh refreshCaseEnv 2 Toy.auxEnv_valid refreshCaseHash {1, 2, 3} 7 refreshCaseDraws
    (fun i hi => Toy.auxDraws_valid i (by simp at hi; omega)) (fun i _ j _ _ => Toy.facDraws_valid i j) 3 (fun _ _ => rfl) ctx hctx
  have hoth : ∀ i ∈ ({1, 2, 3} : Finset Nat), (ctx i).otherIds = ({1, 2, 3} : Finset Nat).erase i := fun i hi => by
    obtain ⟨_, _, sk, x, _, _, h⟩ := KeyRefresh.start_ok (hctx i hi)
    rw [h]; rfl
  obtain ⟨n', hn', hf', he'⟩ := h'.exists_agreeing (echo := id) (k := 1)
    (fun i hi l s hs => by rw [(KeyRefresh.replay_expected hs).1]; exact others_in' _ hoth i hi)
    (fun i hi l s hs hk => (KeyRefresh.replay_expected hs).2.symm.trans hk) KeyRefresh.send_one {1, 2} two_of_three'
  have hup : ∀ i ∈ ({1, 2, 3} : Finset Nat), ∃ share, (shares i).update (res i).1 = .ok share := fun i hi =>
    (C16_update_decision (shares i) (res i).1).1.2 ⟨(hsh.owner i hi).trans (hz.owner i hi).symm, (hsh.holders i hi).trans (hz.holders i hi).symm⟩
  have : Nonempty (KeyShare Nat (ZMod 11) (ZMod 11)) := ⟨shares 1⟩
  obtain ⟨shares', hup⟩ := exists_fun hup
  have hkey' : KeepsFull lifeKeys {1, 2} {1, 2, 3} shares' 4 :=
    .refreshed {1, 2} {1, 2} _ _ _ (fun i => (res i).1) _ hkey subset_rfl
      ⟨{1, 2}, 7, refreshCaseDraws, ctx, fun i => (res i).2, n', subset_rfl, fun i hi => hctx i (two_of_three' hi), hn', he', hf'⟩ (fun i hi => hup i (two_of_three' hi))
  have hconv : ∀ i ∈ ({1, 2, 3} : Finset Nat), ∃ t, (i ∈ ({1, 2} : Set Nat) → (ThresholdKeyShare.fromKeyShare (shares' i) : Out Unit _) = .ok t) := by
    intro i hi
    by_cases h12 : i ∈ ({1, 2} : Set Nat)
    · obtain ⟨-, hv, -⟩ := C88_full_shares lifeKeys_ok.1 lifeKeys_ok.2.1 lifeKeys_ok.2.2 _ _ _ _ hkey'
      obtain ⟨p, hp⟩ : ∃ p, (shares' i).pub = BMap.tabulate {1, 2, 3} p := ⟨_, by rw [← hv.holders i h12]; exact BMap.eq_tabulate _⟩
      obtain ⟨sid, -, -, h⟩ := fromKeyShare_eq (ε := Unit) (F := ZMod 11) (G := ZMod 11) (q := 11) ({1, 2, 3} : Finset Nat) (by decide)
      have := h i (shares' i).secret p hi
      rw [← hp, show (⟨i, (shares' i).secret, (shares' i).pub⟩ : KeyShare Nat (ZMod 11) (ZMod 11)) = shares' i from
        congrArg (fun o => (⟨o, (shares' i).secret, (shares' i).pub⟩ : KeyShare Nat (ZMod 11) (ZMod 11))) (hv.owner i h12).symm] at this
      exact ⟨_, fun _ => this⟩
    · exact ⟨reshareCase 1, fun h => absurd h h12⟩
  have : Nonempty (ThresholdKeyShare Nat (ZMod 11) (ZMod 11)) := ⟨reshareCase 1⟩
  obtain ⟨new, hnew⟩ := exists_fun hconv
  exact ⟨new, .converted {1, 2} {1, 2} {1, 2, 3} shares' 4 _ (by decide) hkey' subset_rfl (by simp) fun i hi => hnew i (two_of_three' hi) hi⟩

/-- The hypotheses of `C88_sign` are met: the key 6 is dealt to 1, 2 and 3, of whom 1 and 2 are honest, and there is an execution of signing in which both end with a signature. -/
example : ∃ (infos : Nat → AuxInfo Nat PaillierKey PublicAux) (r1 : Nat → Signing.Round1 11 Nat Nat (ZMod 11)) (init : Nat → Signing.State 11 Nat Nat (ZMod 11))
    (n : Spec.Net Nat _ _ _ _) (sig : RecoverableSignature 11), CurveLaws Toy.signEnv.C 11 ∧ KeepsFull lifeKeys {1, 2} Toy.parties Toy.signShares 6 ∧
    (∀ i ∈ ({1, 2} : Set Nat), Signing.start Toy.signEnv (fun _ _ => 7) (5 : ZMod 11) (Toy.signShares i) (infos i) i (Toy.signDraws i) = .ok (r1 i)) ∧
    (∀ i ∈ ({1, 2} : Set Nat), Signing.begin Toy.signEnv (r1 i) = .ok (init i)) ∧
    (Signing.machine Toy.signEnv).Reachable {1, 2} init n ∧ (∀ i ∈ ({1, 2} : Set Nat), n.status i = .finished sig) ∧
    (Signing.machine Toy.signEnv).EchoAgree {1, 2} 2 (fun m => m.two?.map fun m => m.echo) n := by
  have hkey : KeepsFull lifeKeys {1, 2} Toy.parties Toy.signShares 6 := by
    have := KeepsFull.centralized (K := lifeKeys) {1, 2} Toy.parties 6 (fun n => n + 1) (BMap.ofList [(1, Toy.signShares 1), (2, Toy.signShares 2), (3, Toy.signShares 3)]) Toy.signShares
      (by rintro i (rfl | rfl) <;> decide) (by decide) (by decide) (by decide +kernel) (by rintro i (rfl | rfl) <;> decide +kernel)
    rwa [show ((6 : ZMod 11) • lifeKeys.refresh.g : ZMod 11) = 6 by decide] at this
  obtain ⟨infos, haux, hmod⟩ := Toy.exists_signInfos
  have hd : SigningDrawsValid Toy.signEnv.P Toy.parties (fun i => (infos i).secret.modulus) (fun i => (Toy.ringPedersen i).modulus) Toy.signDraws := by
    rw [funext hmod]; exact Toy.signDraws_valid
  have hst := C41_honest_start Toy.signEnv Toy.signEnv_setting (fun _ _ => 7) 5 6 Toy.parties Toy.signShares Toy.signShares_valid infos Toy.ringPedersen haux Toy.signDraws
  have : Nonempty (Signing.Round1 11 Nat Nat (ZMod 11)) := ⟨(hst 1 (by decide)).choose⟩
  obtain ⟨r1, hr1⟩ := exists_fun hst
  obtain ⟨init, sig, h0, h, -, -, -, h4⟩ := C80_signing Toy.signEnv Toy.signEnv_setting (fun _ _ => 7) 5 6 Toy.parties Toy.signShares Toy.signShares_valid
    infos Toy.ringPedersen haux Toy.signDraws hd r1 (fun i hi => (hr1 i hi).2) (by decide +kernel) (by decide +kernel) (by decide +kernel) (by decide +kernel) (by decide +kernel)
  obtain ⟨n, hn, hf, he⟩ := h.exists_agreeing (echo := fun m => m.two?.map fun m => m.echo) (k := 2)
    (fun i hi l s hs j hj => by
      rw [(Signing.replay_expected (h0 i hi) hs).1, (Signing.start_eq_ok (hr1 i hi).2).2.2.2.2.2.2.1] at hj
      exact (Finset.mem_erase.1 hj).2)
    (fun i hi l s hs hk => (Signing.replay_expected (h0 i hi) hs).2 hk) (fun s hk a ha b hb => by rw [Signing.send_two s hk a ha b hb]) {1, 2} two_of_three'
  exact ⟨infos, r1, init, n, sig, Toy.signEnv_setting.laws, hkey, fun i hi => (hr1 i (two_of_three' hi)).2, fun i hi => h0 i (two_of_three' hi), hn, hf, he⟩

end Concrete

end Synedrion.Props
