import Verif.Lemmas.WireEvidenceSigning
import Verif.Props.WireEvidence
import Verif.Props.NetworkEvidenceSigning
import Verif.Props.SigningZero

/-!
# C101: evidence of signing over serialized messages
-/

set_option linter.unusedSectionVars false

namespace Synedrion.Props

open Spec Signing

variable {q : Nat} [Fact q.Prime] {I Ep G V : Type} [LinearOrder I] [AddCommGroup G] [Module (ZMod q) G] [DecidableEq G] [DecidableEq V] {W : WireFormat G V}
  {E : Env q I Ep G} {epidOf : BMap I G → BMap I PublicAux → Ep} {message : ZMod q} {shares : I → KeyShare I (ZMod q) G} {infos : I → AuxInfo I PaillierKey PublicAux} {d : I → Draws q I}
  {honest : Set I} {r : I → Round1 q I Ep G} {init : I → State q I Ep G} {n : Net I (Packet I) (State q I Ep G) (WireErr (Err I)) (RecoverableSignature q)}

private theorem new_keys {keyShare : KeyShare I (ZMod q) G} {auxInfo : AuxInfo I PaillierKey PublicAux} (hnew : Signing.new keyShare auxInfo = .ok ()) :
    keyShare.pub.keySet = auxInfo.pub.keySet := by
  unfold Signing.new at hnew
  split at hnew
  · cases hnew
  · split at hnew
    · cases hnew
    · rename_i h; simpa using h

private theorem mem_values_of_at {A : Type} {m : BMap I A} {k : I} {v : A} (h : v ∈ m.at k) : v ∈ m.values := by
  have : m.get? k = some v := Option.mem_toList.1 h
  exact List.mem_map.2 ⟨_, BMap.get?_eq_some_iff.1 this, rfl⟩

/-- **C101 (evidence convinces; part).** At any time of any execution of signing over serialized messages, whatever the schedule and whatever data the parties that are not honest send: if an honest party refuses what
it receives from `j` in round 2 (unless it is for a proof about the second multiplication) or in round 4 because of a fault in the protocol, `j` is to blame; it can present the serialized parts it has received,
and everyone with the same public inputs to whom it presents the declared ones can read them, does not panic when checking them, and agrees. Missing: the other errors, for which it is false
(`C46_signing_hat_framing`, `C45_signing_round1_undetected`, `C45_signing_elog_undetected`, `C45_signing_no_evidence`, `C45_signing_star_panics`). -/
theorem C101_signing_convincing_partial (hW : FormatValid W q) (hP : W.P = E.P) (hc : E.P.SelfConsistent) (hE : SigningHashesFit E)
    (haux : ∀ i ∈ honest, AllValues (Spec.AuxFits E.P) (infos i).pub) (hkey : ∀ i ∈ honest, (infos i).secret.modulus ≠ 0 ∧ (infos i).secret.modulus < 2 ^ E.P.modBits)
    (hd : ∀ i ∈ honest, SigningDrawsFit E.P ((shares i).pub.keySet.erase i) (d i)) (hnew : ∀ i ∈ honest, Signing.new (shares i) (infos i) = .ok ())
    (hstart : ∀ i ∈ honest, start E epidOf message (shares i) (infos i) i (d i) = .ok (r i))
    (hself : ∀ i ∈ honest, ∃ a, (infos i).pub.get? i = some a ∧ a.pk = (infos i).secret.modulus) (hinit : ∀ i ∈ honest, begin E (r i) = .ok (init i))
    (h : (overWire (machine E) W.signingTransport (Signing.hashPanics E.C.g)).Reachable honest init n) (i j : I) (hi : i ∈ honest) (s : State q I Ep G) (got : List (I × Packet I))
    (hst : n.status i = .running s got) (hs24 : (machine E).round s = 2 ∨ (machine E).round s = 4) (hj : j ∈ (machine E).expected s) (pkt : Packet I) (j' : I) (e : Err I)
    (he : ∀ k, e ≠ .r2AffGHatPsiFailed k)
    (hm : (overWire (machine E) W.signingTransport (Signing.hashPanics E.C.g)).recv s j pkt = .err (.fault j' (.protocol e))) (named : Bool) :
    j' = j ∧ (machine E).round s = e.round ∧
      (∃ t, Presents (overWire (machine E) W.signingTransport (Signing.hashPanics E.C.g)) packetPart (infos i).pub.keySet n i s j pkt t) ∧
      ∀ t : Transcript I (fun _ _ => Data I), Presents (overWire (machine E) W.signingTransport (Signing.hashPanics E.C.g)) packetPart (infos i).pub.keySet n i s j pkt t →
        checkExhibit W E named (signingData epidOf message (shares i) (infos i)) j e (supply t e.round e.required) = .ok true := by
  obtain ⟨n', hn', hs⟩ := C91_signing hW E hP hc hE epidOf message (Signing.hashPanics E.C.g) honest shares infos haux hkey d hd r hstart init hinit n h
  obtain ⟨m, hu, hp, hr⟩ := recv_fault hm
  obtain ⟨got', hst'⟩ := running_matches hs hst
  have hkeys := new_keys (hnew i hi)
  obtain ⟨-, -, -, hmy, hks, -, hoth, -⟩ := start_eq_ok (hstart i hi)
  rw [hkeys] at hoth
  obtain ⟨a, ha, hpk⟩ := hself i hi
  have hmem : i ∈ (infos i).pub.keySet := by rw [BMap.mem_keySet, BMap.mem_keys_iff]; exact ⟨a, ha⟩
  have hno : (r i).ctx.myId ∉ (r i).ctx.otherIds := by rw [hmy, hoth]; simp
  have hF := Signing.faithful hW hP hE (I := I)
  have hinit' : ∀ i ∈ honest, StateFits E.P (init i) := fun i hi => by
    obtain ⟨h1, h2⟩ := Signing.start_fits hc (haux i hi) (hkey i hi).1 (hkey i hi).2 (hd i hi) (hstart i hi)
    exact Signing.begin_fits hE h1 h2 (hinit i hi)
  -- the rounds before
  have hlen : ∀ l s', l <+: (n.past i).map Prod.snd → (overWire (machine E) W.signingTransport (Signing.hashPanics E.C.g)).replay (init i) l = .ok (.inl s') → (machine E).round s' = l.length + 1 := by
    intro l s' hl hrep
    obtain ⟨l', hl', hrep'⟩ := overWire_replay hrep
    obtain ⟨-, hround | ⟨h3, h4⟩⟩ := replay_round hinit hi hrep'
    · rw [hround, hl']
    · exfalso
      obtain ⟨l2, hl2, hrep2⟩ := overWire_replay (h.running hst)
      obtain ⟨h3', -⟩ := replay_round hinit hi hrep2
      have : l = (n.past i).map Prod.snd := hl.eq_of_length (by have := hl.length_le; omega)
      rw [this, h.running hst] at hrep
      cases hrep
      omega
  have hexp : ∀ x ∈ n.past i, (machine E).expected x.1 = (infos i).pub.keySet.erase i := by
    intro x hx
    obtain ⟨y, hy, hxy, -⟩ := exists_of_forall₂ (past_of_running hs (by rw [hst]; simp)) hx
    obtain ⟨k, hk, hkl, -⟩ := past_stage hinit hn'.reachable hi hy
    have hround : (machine E).round x.1 ≤ 4 := by
      obtain ⟨pre, post, hdec⟩ := List.append_of_mem hx
      have := hlen _ _ (by rw [hdec]; exact (List.prefix_append _ _).map _) (h.past_replay i pre x.1 x.2 post hdec)
      obtain ⟨l2, hl2, hrep2⟩ := overWire_replay (h.past_replay i pre x.1 x.2 post hdec)
      obtain ⟨h3', -⟩ := replay_round hinit hi hrep2
      omega
    rw [hxy] at hround ⊢
    rw [stage_expected hno hk hround, hoth]
  obtain ⟨h1, h2, ⟨t', ht'⟩, h3⟩ := C87_signing_convincing_partial hnew hstart hself hinit hn'.reachable i j hi s got' hst' hs24 hj m j' e he hr named
  have hstg := stage (n := n') hinit hi (List.prefix_refl _) (hn'.reachable.running hst')
  have hj' : j ∈ (r i).ctx.otherIds := by rw [← stage_expected hno hstg (by omega)]; exact hj
  have hji : j ≠ i := by
    rw [hoth] at hj'
    exact Finset.ne_of_mem_erase hj'
  refine ⟨h1, h2, presentable_wire' (signing_splits W) hF hinit' h hs hi hlen hmem hji hst hexp pkt ht', ?_⟩
  intro t ht
  obtain ⟨hread, hecho⟩ := presents_read (signing_splits W) hF hinit' h hs hi hst hexp hu ht
  have hv := h3 _ hread
  have hp : (0 : G) ∉ ownPoints E.C.g s ++ readPoints E.C.g s j m := by simpa [Signing.hashPanics, Synedrion.hashPanics] using hp
  have hp := fun hmem => hp (List.mem_append_right _ hmem)
  have hback : ∀ y ∈ n'.past i, ∃ x ∈ n.past i, x.1 = y.1 := fun y hy => by
    obtain ⟨x, hx, hxy, -⟩ := mem_of_forall₂ (past_of_running hs (by rw [hst]; simp)) hy
    exact ⟨x, hx, hxy⟩
  rw [List.length_map] at hstg
  have hlen1 : 1 ≤ (n'.past i).length := by
    generalize (n'.past i).length = len at hstg
    cases hstg with
    | one out ho => exact absurd hs24 (by show ¬ ((1 : Nat) = 2 ∨ (1 : Nat) = 4); omega)
    | _ => omega
  obtain ⟨y1, hy1, out, ho, hs1, hg1⟩ := past_first hinit hn'.reachable hi hlen1
  -- the key shares were hashed in the beginning
  have hshares : (0 : G) ∉ (shares i).pub.values := by
    obtain ⟨x, hx, hxy⟩ := hback y1 hy1
    obtain ⟨g', hq⟩ := past_quiet h hst hx
    rw [hxy, hs1] at hq
    have hq : (0 : G) ∉ ownPoints E.C.g (.one (r i) out : State q I Ep G) := by simpa [Signing.hashPanics, Synedrion.hashPanics] using hq
    intro h0
    refine hq (List.mem_append_left _ ?_)
    rw [hks]
    exact h0
  have he1 : ((t.combined 1).decodeAll (W.signing (ε := Unit) (I := I) (q := q) .echo 1).dec).isSome := by
    obtain ⟨x, hx, hxy⟩ := hback y1 hy1
    obtain ⟨b, hb, -⟩ := forall₂_mem (Out.mapM'_eq_ok_iff.1 ho) (mem_bsetIter.2 hj')
    have hr1 : (machine E).round x.1 = 1 := by rw [hxy, hs1]; rfl
    have := hecho x hx ⟨(b.1, .one b.2), by rw [hxy, hs1]; exact List.mem_map.2 ⟨_, hb, rfl⟩, by rw [hr1]; rfl⟩
    rw [hr1] at this
    exact this
  unfold checkExhibit
  dsimp only
  generalize hlen' : (n'.past i).length = len at hstg
  cases hstg with
  | one out ho => exact absurd hs24 (by show ¬ ((1 : Nat) = 2 ∨ (1 : Nat) = 4); omega)
  | three r3 h3 => exact absurd hs24 (by show ¬ ((3 : Nat) = 2 ∨ (3 : Nat) = 4); omega)
  | error re m' h4 hm' =>
    exfalso
    change (if re.hat then 6 else 5) = 2 ∨ (if re.hat then 6 else 5) = 4 at hs24
    cases hh : re.hat <;> simp [hh] at hs24
  | two r2 hr2 =>
    obtain ⟨-, m2, hm2, -⟩ := acceptPart_fault hr
    cases two_inj _ _ hm2
    obtain ⟨-, -, -, -, hpay⟩ := toRound2_payloads hr2
    obtain ⟨m1, b, hm1, -, hpl⟩ := hpay j hj' (by rw [hmy]; exact hji)
    have a1 : (t.read fun p r => (W.signing (ε := Unit) (I := I) (q := q) p r).dec).msg 1 .echo = some m1.echo := by
      have := hread.earlier y1 hy1 (.one m1) (by rw [hg1]; exact List.mem_map.2 ⟨_, hm1, rfl⟩) .echo
      rw [show (machine E).round y1.1 = 1 by rw [hs1]; rfl] at this
      exact this
    have a2 : (t.read fun p r => (W.signing (ε := Unit) (I := I) (q := q) p r).dec).msg 2 .echo = some m2.echo := hread.refused .echo
    have a3 : (t.read fun p r => (W.signing (ε := Unit) (I := I) (q := q) p r).dec).msg 2 .normal = some ⟨m2.capDs, m2.hatCapDs, m2.psiElog, m2.psis, m2.hatPsis⟩ := hread.refused .normal
    simp only [readPoints, hpl] at hp
    rw [supply_decode _ t e.round e.required (by
      cases e with
      | r2AffGPsiFailed k => intro r hr; obtain rfl := List.mem_singleton.1 hr; exact he1
      | r2AffGHatPsiFailed k => exact absurd rfl (he k)
      | r2WrongIdsD | r2WrongIdsF | r2WrongIdsPsi | r2ElogFailed => intro r hr; cases hr
      | decFailed hat => cases hat <;> cases h2
      | wrongIdsPsi hat => cases hat <;> cases h2
      | affGStarFailed hat k => cases hat <;> cases h2
      | _ => cases h2)]
    refine hashing_ok hv ?_
    refine fun hmem => (List.mem_append.1 hmem).elim hshares ?_
    cases e with
    | r2AffGHatPsiFailed k => exact absurd rfl (he k)
    | r2AffGPsiFailed k =>
      simp only [supply, Err.required, Err.round, a2, a3]
      simp only [List.mem_cons, reduceCtorEq, or_true, true_or, if_true, Option.toList_some, List.flatMap_cons, List.flatMap_nil, List.append_nil]
      intro h0
      obtain ⟨psi, hpsi, h0⟩ := List.mem_flatMap.1 h0
      exact hp (List.mem_append_left _ (List.mem_append_left _ (List.mem_flatMap.2 ⟨psi, mem_values_of_at hpsi, h0⟩)))
    | r2ElogFailed =>
      simp only [supply, Err.required, Err.round, a2, a3, List.lookup]
      simp [a1]
      intro h0
      exact hp (List.mem_append_right _ h0)
    | r2WrongIdsD | r2WrongIdsF | r2WrongIdsPsi => intro h0; cases h0
    | decFailed hat => cases hat <;> cases h2
    | wrongIdsPsi hat => cases hat <;> cases h2
    | affGStarFailed hat k => cases hat <;> cases h2
    | _ => cases h2
  | four r4 h4 =>
    obtain ⟨y2, hy2, r2, hr2, hs2, -⟩ := past_second hinit hn'.reachable hi (by omega)
    obtain ⟨y3, hy3, r3, hr3, hs3, -⟩ := past_third hinit hn'.reachable hi (by omega)
    have he2 : ((t.combined 2).decodeAll (W.signing (ε := Unit) (I := I) (q := q) .echo 2).dec).isSome := by
      obtain ⟨x, hx, hxy⟩ := hback y2 hy2
      have hr1 : (machine E).round x.1 = 2 := by rw [hxy, hs2]; rfl
      have := hecho x hx ⟨(j, .two (msg2 r2)), by rw [hxy, hs2]; exact mem_toAll.2 ⟨by rw [toRound2_ok hr2]; exact hj', rfl⟩, by rw [hr1]; rfl⟩
      rw [hr1] at this
      exact this
    have he3 : ((t.combined 3).decodeAll (W.signing (ε := Unit) (I := I) (q := q) .echo 3).dec).isSome := by
      obtain ⟨x, hx, hxy⟩ := hback y3 hy3
      have hr1 : (machine E).round x.1 = 3 := by rw [hxy, hs3]; rfl
      have := hecho x hx ⟨(j, .three r3.msg), by rw [hxy, hs3]; exact mem_toAll.2 ⟨by rw [(toRound3_ok hr3).1]; exact hj', rfl⟩, by rw [hr1]; rfl⟩
      rw [hr1] at this
      exact this
    obtain rfl : e = .r4InvalidSignatureShare := by
      cases e with
      | r4InvalidSignatureShare => rfl
      | decFailed hat => cases hat <;> cases h2
      | wrongIdsPsi hat => cases hat <;> cases h2
      | affGStarFailed hat k => cases hat <;> cases h2
      | _ => cases h2
    rw [supply_decode _ t _ _ (by
      intro r hr
      simp only [Err.required, List.mem_cons, List.not_mem_nil, or_false] at hr
      rcases hr with rfl | rfl
      · exact he2
      · exact he3)]
    refine hashing_ok hv ?_
    exact fun hmem => (List.mem_append.1 hmem).elim hshares (by intro h0; cases h0)

private theorem signed_read (hW : FormatValid W q) (hP : W.P = E.P) (hc : E.P.SelfConsistent) (hE : SigningHashesFit E)
    (haux : ∀ i ∈ honest, AllValues (Spec.AuxFits E.P) (infos i).pub) (hkey : ∀ i ∈ honest, (infos i).secret.modulus ≠ 0 ∧ (infos i).secret.modulus < 2 ^ E.P.modBits)
    (hd : ∀ i ∈ honest, SigningDrawsFit E.P ((shares i).pub.keySet.erase i) (d i))
    (hstart : ∀ i ∈ honest, start E epidOf message (shares i) (infos i) i (d i) = .ok (r i)) (hinit : ∀ i ∈ honest, begin E (r i) = .ok (init i))
    (panics : Panics I (Message q I G) (State q I Ep G)) (h : (overWire (machine E) W.signingTransport panics).Reachable honest init n) (j reporter : I) (hj : j ∈ honest) (e : Err I)
    (ev : Exhibit I e.round) (hev : SignedBy (overWire (machine E) W.signingTransport panics) packetPart n j reporter ev) (named : Bool) (a : AssocData q I Ep G)
    (hv : checkExhibit W E named a j e ev = .ok true) :
    ∃ n', (machine E).Reachable honest init n' ∧ ∃ ev', SignedBy (machine E) Message.part n' j reporter ev' ∧ verifyMessages E named a j e ev' = .ok true := by
  have hv := hashing_true hv
  obtain ⟨n', hn', hs⟩ := C91_signing hW E hP hc hE epidOf message panics honest shares infos haux hkey d hd r hstart init hinit n h
  have hF := Signing.faithful hW hP hE (I := I)
  have hinit' : ∀ i ∈ honest, StateFits E.P (init i) := fun i hi => by
    obtain ⟨h1, h2⟩ := Signing.start_fits hc (haux i hi) (hkey i hi).1 (hkey i hi).2 (hd i hi) (hstart i hi)
    exact Signing.begin_fits hE h1 h2 (hinit i hi)
  have hsig := signedBy_read' (K := 3) (b := min e.round 4) (signing_splits W) hF hinit' h hn'.reachable hs hj (fun l s hr => by
    obtain ⟨h3, h4 | ⟨h4, h5⟩⟩ := replay_round hinit hj hr <;> omega) (by omega) (by omega) hev (verify_current hv)
  exact ⟨n', hn'.reachable, _, hsig, verify_below.trans hv⟩

/-- **C101 (nobody is framed; part).** At any time of any execution of signing over serialized messages: no data that an honest party has signed convinces anyone that it has sent a wrong set of ciphertexts or proofs or
a wrong elog proof in round 2, a wrong signature share in round 4 or a wrong set of proofs in round 5 or 6. Missing: the errors for which it is false (see `C87_signing_elog_framed`, `C87_signing_hat_framed`,
`C46_signing_round1_framing`, `C46_signing_dec_framing`). -/
theorem C101_signing_unframed_partial (hW : FormatValid W q) (hP : W.P = E.P) (hc : E.P.SelfConsistent) (hE : SigningHashesFit E)
    (haux : ∀ i ∈ honest, AllValues (Spec.AuxFits E.P) (infos i).pub) (hkey : ∀ i ∈ honest, (infos i).secret.modulus ≠ 0 ∧ (infos i).secret.modulus < 2 ^ E.P.modBits)
    (hd : ∀ i ∈ honest, SigningDrawsFit E.P ((shares i).pub.keySet.erase i) (d i)) (hnew : ∀ i ∈ honest, Signing.new (shares i) (infos i) = .ok ())
    (hstart : ∀ i ∈ honest, start E epidOf message (shares i) (infos i) i (d i) = .ok (r i)) (hinit : ∀ i ∈ honest, begin E (r i) = .ok (init i))
    (panics : Panics I (Message q I G) (State q I Ep G)) (h : (overWire (machine E) W.signingTransport panics).Reachable honest init n) (j reporter : I) (hj : j ∈ honest) (e : Err I)
    (he : e ∈ [.r2WrongIdsD, .r2WrongIdsF, .r2WrongIdsPsi, .r2ElogFailed, .r4InvalidSignatureShare, .wrongIdsPsi false, .wrongIdsPsi true])
    (ev : Exhibit I e.round) (hev : SignedBy (overWire (machine E) W.signingTransport panics) packetPart n j reporter ev) (named : Bool) :
    checkExhibit W E named (signingData epidOf message (shares j) (infos j)) j e ev ≠ .ok true := by
  intro hv
  obtain ⟨n', hn', ev', hsig, hv⟩ := signed_read hW hP hc hE haux hkey hd hstart hinit panics h j reporter hj e ev hev named _ hv
  exact C87_signing_unframed_partial hnew hstart hinit hn' j reporter hj e he ev' hsig named hv

/-- **C101 (first multiplication; part).** With valid inputs and draws, no data that an honest party has signed convinces anyone that one of its proofs about the first multiplication is wrong. -/
theorem C101_signing_multiplication_unframed_partial (hW : FormatValid W q) (hP : W.P = E.P) (hE : SigningHashesFit E) (hE' : SigningSetting E) (sk : ZMod q) (ids : Finset I)
    (hshares : SharesKey E.C.g ids shares sk) (setup : I → RPSetup) (haux' : UsableAux E.P ids infos setup)
    (hd' : SigningDrawsValid E.P ids (fun i => (infos i).secret.modulus) (fun i => (setup i).modulus) d) (hsub : ∀ i ∈ honest, i ∈ ids)
    (haux : ∀ i ∈ honest, AllValues (Spec.AuxFits E.P) (infos i).pub) (hkey : ∀ i ∈ honest, (infos i).secret.modulus ≠ 0 ∧ (infos i).secret.modulus < 2 ^ E.P.modBits)
    (hd : ∀ i ∈ honest, SigningDrawsFit E.P ((shares i).pub.keySet.erase i) (d i))
    (hstart : ∀ i ∈ honest, start E epidOf message (shares i) (infos i) i (d i) = .ok (r i)) (hinit : ∀ i ∈ honest, begin E (r i) = .ok (init i))
    (panics : Panics I (Message q I G) (State q I Ep G)) (h : (overWire (machine E) W.signingTransport panics).Reachable honest init n) (j reporter : I) (hj : j ∈ honest)
    (hgamma : (d j).gamma ≠ 0) (k : I) (ev : Exhibit I (Err.r2AffGPsiFailed k).round)
    (hev : SignedBy (overWire (machine E) W.signingTransport panics) packetPart n j reporter ev) (named : Bool) :
    checkExhibit W E named (signingData epidOf message (shares j) (infos j)) j (.r2AffGPsiFailed k) ev ≠ .ok true := by
  intro hv
  obtain ⟨n', hn', ev', hsig, hv⟩ := signed_read hW hP hE'.consistent hE haux hkey hd hstart hinit panics h j reporter hj _ ev hev named _ hv
  exact C87_signing_multiplication_unframed_partial hE' sk ids hshares setup haux' hd' hsub hstart hinit hn' j reporter hj hgamma k ev' hsig named hv

section Examples

attribute [local instance] Toy.fact11 Toy.order11

omit [LinearOrder I] in
private theorem recv_ok [LinearOrder I] {M S E R : Type} {P : Machine I M S E R} {T : Transport I M} {panics : Panics I M S} {s : S} {j : I} {d : Packet I}
    (h : (overWire P T panics).recv s j d = .ok ()) : T.packable (P.send s) = true ∧ ∃ m, T.unpack (P.round s) d = some m ∧ panics.recv s j m = false ∧ P.recv s j m = .ok () := by
  simp only [overWire] at h
  split at h
  swap
  · cases h
  refine ⟨‹_›, ?_⟩
  cases hu : T.unpack (P.round s) d with
  | none => rw [hu] at h; cases h
  | some m =>
    rw [hu] at h
    dsimp only at h
    split at h
    · cases h
    · rename_i hp
      refine ⟨m, rfl, by simpa using hp, ?_⟩
      cases hr : P.recv s j m with
      | ok a => rfl
      | panic => rw [hr] at h; cases h
      | err a => rw [hr] at h; cases a <;> cases h

/-- Whoever finishes has completed two rounds, unless one is enough. -/
private theorem two_rounds {M S E R : Type} {P : Machine I M S E R} {honest : Set I} {init : I → S} {n : Net I M S E R} (h : P.Reachable honest init n) {i : I} {r : R} (hf : n.status i = .finished r)
    (hone : ∀ got r, P.next (init i) got ≠ .ok (.inr r)) : ∃ got1 s got2, P.Complete (init i) got1 ∧ P.next (init i) got1 = .ok (.inl s) ∧ P.Complete s got2 := by
  have hfin := h.finished hf
  have hp := (h.inv i).past
  have hrep := h.past_replay i
  generalize n.past i = l at hfin hp hrep
  match l with
  | [] => cases hfin
  | [x] =>
    simp only [List.map_cons, List.map_nil, Machine.replay] at hfin
    obtain ⟨y, hy, hfin⟩ := Out.bind_eq_ok.1 hfin
    cases y with
    | inl s => cases hfin
    | inr r => exact absurd hy (hone _ _)
  | x :: y :: rest =>
    have h0 := hrep [] x.1 x.2 (y :: rest) rfl
    have h1 := hrep [x] y.1 y.2 rest rfl
    simp only [List.map_cons, List.map_nil, Machine.replay] at h0 h1
    have h0 : init i = x.1 := Sum.inl.inj (Out.ok.inj h0)
    obtain ⟨z, hz, h1⟩ := Out.bind_eq_ok.1 h1
    cases z with
    | inr r => cases h1
    | inl s =>
      have h1 : s = y.1 := Sum.inl.inj (Out.ok.inj h1)
      subst h1
      exact ⟨x.2, y.1, y.2, by rw [h0]; exact (hp x (by simp)).2.1, hz, (hp y (by simp)).2.1⟩

/-- `C101_signing_convincing_partial`, `C101_signing_unframed_partial`, `C101_signing_multiplication_unframed_partial`: party 2 is honest. It has got to round 2 of a session over serialized messages, and
refuses data of party 1 without ciphertexts; it can present evidence, and everyone who reads it agrees. It has itself signed data that could be presented as evidence, and that convinces nobody. -/
example : ∃ (infos : Nat → AuxInfo Nat PaillierKey PublicAux) (r : Nat → Round1 11 Nat Nat (ZMod 11)) (init : Nat → State 11 Nat Nat (ZMod 11))
    (n : Net Nat (Packet Nat) (State 11 Nat Nat (ZMod 11)) (WireErr (Err Nat)) (RecoverableSignature 11)) (s : State 11 Nat Nat (ZMod 11)) (pkt d2 : Packet Nat) (t : Transcript Nat fun _ _ => Data Nat),
    (∀ i ∈ Toy.parties, start Toy.signEnv (fun _ _ => 7) (5 : ZMod 11) (Toy.signShares i) (infos i) i (signQuietDraws i) = .ok (r i)) ∧ (∀ i ∈ Toy.parties, begin Toy.signEnv (r i) = .ok (init i)) ∧
    (overWire (machine Toy.signEnv) toyWire.signingTransport (Signing.hashPanics Toy.signEnv.C.g)).Reachable ({2} : Set Nat) init n ∧ n.status 2 = .running s [] ∧
    (overWire (machine Toy.signEnv) toyWire.signingTransport (Signing.hashPanics Toy.signEnv.C.g)).recv s 1 pkt = .err (.fault 1 (.protocol .r2WrongIdsD)) ∧
    Presents (overWire (machine Toy.signEnv) toyWire.signingTransport (Signing.hashPanics Toy.signEnv.C.g)) packetPart (infos 2).pub.keySet n 2 s 1 pkt t ∧
    checkExhibit toyWire Toy.signEnv false (signingData (fun _ _ => 7) 5 (Toy.signShares 2) (infos 2)) 1 .r2WrongIdsD (supply t 2 (Err.r2WrongIdsD (I := Nat)).required) = .ok true ∧
    SignedBy (overWire (machine Toy.signEnv) toyWire.signingTransport (Signing.hashPanics Toy.signEnv.C.g)) packetPart n 2 3 (⟨d2.part, fun _ => none, fun _ => none⟩ : Exhibit Nat 2) ∧
    checkExhibit toyWire Toy.signEnv false (signingData (fun _ _ => 7) 5 (Toy.signShares 2) (infos 2)) 2 .r2WrongIdsD ⟨d2.part, fun _ => none, fun _ => none⟩ ≠ .ok true ∧
    ∀ ev : Exhibit Nat 2, SignedBy (overWire (machine Toy.signEnv) toyWire.signingTransport (Signing.hashPanics Toy.signEnv.C.g)) packetPart n 2 3 ev →
      checkExhibit toyWire Toy.signEnv false (signingData (fun _ _ => 7) 5 (Toy.signShares 2) (infos 2)) 2 (.r2AffGPsiFailed 3) ev ≠ .ok true := by
  obtain ⟨infos, r, init, sig, haux, hfit, hmod, hst, h0, h⟩ := signQuietSession
  obtain ⟨n0, hn0, hf⟩ := h.exists_finished
  have hp2 : 2 ∈ Toy.parties := by decide
  have hsub : ∀ i ∈ ({2} : Set Nat), i ∈ Toy.parties := fun i hi => by rw [hi]; exact hp2
  obtain ⟨out, ho, hi2⟩ : ∃ out, send1 Toy.signEnv (r 2) = .ok out ∧ init 2 = .one (r 2) out := by
    have := h0 2 hp2
    unfold begin at this
    rw [Out.bind_eq_ok] at this
    obtain ⟨out, ho, he⟩ := this
    exact ⟨out, ho, (Out.ok.inj he).symm⟩
  obtain ⟨got1, s, got2, hc1, hnext, hc2⟩ := two_rounds hn0 (hf 2 hp2) (fun got r hr => by
    obtain ⟨-, got', -, hr, -⟩ := overWire_next_eq_ok hr
    rw [hi2] at hr
    simp only [machine] at hr
    obtain ⟨x, -, hr⟩ := Out.bind_eq_ok.1 hr
    obtain ⟨y, -, hr⟩ := Out.bind_eq_ok.1 hr
    cases hr)
  obtain ⟨-, got1', -, hnext', hpk⟩ := overWire_next_eq_ok hnext
  obtain ⟨out', -, hfol⟩ := fol (E := Toy.signEnv) (l := [got1']) (s := s) h0 hp2 (by simp only [Machine.replay]; rw [hnext']; rfl)
  cases hfol with
  | two in1 r2 hr2 =>
  have hctx : r2.ctx = (r 2).ctx := by rw [toRound2_ok hr2]
  obtain ⟨-, -, -, -, -, hids, hoth, -⟩ := start_eq_ok (hst 2 hp2)
  have hoth : (r 2).ctx.otherIds = Toy.parties.erase 2 := by rw [hoth, Toy.signShares_valid.holders 2 hp2]
  have hexp : (1 : Nat) ∈ (machine Toy.signEnv).expected (.two r2) := by
    show 1 ∈ r2.ctx.otherIds
    rw [hctx, hoth]; decide
  have hmem : (1 : Nat) ∈ (got2.map Prod.fst).toFinset := by rw [hc2.2.1]; exact hexp
  obtain ⟨a, ha, ha1⟩ := List.mem_map.1 (List.mem_toFinset.1 hmem)
  obtain ⟨hpack, m, hu, hpan, hacc⟩ := recv_ok (hc2.2.2 a ha)
  rw [ha1] at hpan hacc
  obtain ⟨m2, p, hm2, hacc2⟩ := acceptPart_eq_ok.1 (show acceptPart Message.two? (recv2 Toy.signEnv r2) 1 m = .ok () from hacc)
  cases two_inj _ _ hm2
  have hF := Signing.faithful (I := Nat) (Ep := Nat) toyWire_valid (E := Toy.signEnv) rfl signHashesFit
  have hmf := hF.read _ _ _ hu
  obtain ⟨pkt, hpkt⟩ := toyWire_valid.signing_unpack2 (I := Nat) { m2 with capDs := BMap.empty } (by
    intro k p x hx
    have := hmf k p
    match p, k, x, hx with
    | .echo, 2, x, hx => exact this x hx
    | .normal, 2, x, hx =>
      cases hx
      obtain ⟨-, h2⟩ := this ⟨m2.capDs, m2.hatCapDs, m2.psiElog, m2.psis, m2.hatPsis⟩ rfl
      exact ⟨(fun v hv => absurd hv List.not_mem_nil), h2⟩
    | .direct, 2, x, hx => cases hx)
  have hbad : recv2 Toy.signEnv r2 1 { m2 with capDs := BMap.empty } = .err (.protocol .r2WrongIdsD) := by
    unfold recv2 at hacc2 ⊢
    obtain ⟨theirs, hg, -⟩ := Out.bind_eq_ok.1 hacc2
    dsimp only
    rw [hg, Out.bind_ok]
    refine if_pos ?_
    rw [hctx, hids, Toy.signShares_valid.holders 2 hp2]
    show (BMap.empty : BMap Nat Nat).keySet ≠ Toy.parties.erase 1
    decide
  have hrecv : (overWire (machine Toy.signEnv) toyWire.signingTransport (Signing.hashPanics Toy.signEnv.C.g)).recv (.two r2) 1 pkt = .err (.fault 1 (.protocol .r2WrongIdsD)) := by
    simp only [overWire]
    rw [if_pos hpack, show (machine Toy.signEnv).round (.two r2) = 2 from rfl, hpkt]
    dsimp only
    rw [show (Signing.hashPanics Toy.signEnv.C.g).recv (.two r2) 1 (.two { m2 with capDs := BMap.empty }) = false from hpan, if_neg (by simp)]
    show (acceptPart Message.two? (recv2 Toy.signEnv r2) 1 (.two _)).onWire = _
    unfold acceptPart
    rw [show (Out.ofOption .incomplete (Message.two? (Message.two { m2 with capDs := BMap.empty })) : Out (Abort Nat (Err Nat)) _) = .ok { m2 with capDs := BMap.empty } from rfl, Out.bind_ok, hbad]
    rfl
  obtain ⟨n, hn, hs, hb1, hb⟩ := Spec.Machine.exists_second (honest := ({2} : Set Nat)) (init := init) (i := 2) rfl hc1 (fun a ha hj => by
    have : a.1 ∈ (got1.map Prod.fst).toFinset := List.mem_toFinset.2 (List.mem_map.2 ⟨a, ha, rfl⟩)
    rw [hc1.2.1, hi2] at this
    have : a.1 ∈ (r 2).ctx.otherIds := this
    rw [hoth] at this
    exact absurd hj (Finset.ne_of_mem_erase this)) hnext
  have hnew : ∀ i ∈ ({2} : Set Nat), Signing.new (Toy.signShares i) (infos i) = .ok () := fun i hi => Toy.signNew haux (hsub i hi)
  have hkey : ∀ i ∈ ({2} : Set Nat), (infos i).secret.modulus ≠ 0 ∧ (infos i).secret.modulus < 2 ^ Toy.signEnv.P.modBits := fun i _ => by rw [hmod]; exact ⟨by decide +kernel, by decide +kernel⟩
  obtain ⟨-, -, ⟨t, ht⟩, hall⟩ := C101_signing_convincing_partial toyWire_valid rfl Toy.signEnv_setting.consistent signHashesFit (fun i hi => hfit i (hsub i hi)) hkey (fun i _ => signQuietDrawsFit i _)
    hnew (fun i hi => hst i (hsub i hi)) (fun i hi => ⟨_, haux.consistent.public_agree i (hsub i hi) i (hsub i hi), rfl⟩) (fun i hi => h0 i (hsub i hi)) hn 2 1 rfl (.two r2) [] hs (.inl rfl) hexp pkt 1
    .r2WrongIdsD (by simp) hrecv false
  have h3 : (3, Message.two (msg2 r2)) ∈ (machine Toy.signEnv).send (.two r2) := in_toAll (by rw [hctx, hoth]; decide)
  obtain ⟨d2, hd2⟩ := packs_of_packable hpack h3
  have hsig : SignedBy (overWire (machine Toy.signEnv) toyWire.signingTransport (Signing.hashPanics Toy.signEnv.C.g)) packetPart n 2 3 (⟨d2.part, fun _ => none, fun _ => none⟩ : Exhibit Nat 2) :=
    ⟨fun p x hx => ⟨3, d2, ⟨.two r2, hb, rfl, mem_packAll.2 ⟨_, h3, hd2⟩⟩, fun _ => rfl, hx⟩, (fun _ _ _ _ h => by cases h), (fun _ _ h => by cases h)⟩
  refine ⟨infos, r, init, n, .two r2, pkt, d2, t, hst, h0, hn, hs, hrecv, ht, hall t ht, hsig, ?_, ?_⟩
  · exact C101_signing_unframed_partial toyWire_valid rfl Toy.signEnv_setting.consistent signHashesFit (fun i hi => hfit i (hsub i hi)) hkey (fun i _ => signQuietDrawsFit i _) hnew
      (fun i hi => hst i (hsub i hi)) (fun i hi => h0 i (hsub i hi)) _ hn 2 3 rfl .r2WrongIdsD (by simp) _ hsig false
  · exact fun ev hev => C101_signing_multiplication_unframed_partial toyWire_valid rfl signHashesFit Toy.signEnv_setting 6 Toy.parties Toy.signShares_valid Toy.ringPedersen haux
      (by rw [funext hmod]; exact signQuietDraws_valid) hsub (fun i hi => hfit i (hsub i hi)) hkey (fun i _ => signQuietDrawsFit i _) (fun i hi => hst i (hsub i hi)) (fun i hi => h0 i (hsub i hi)) _ hn 2 3 rfl
      (by decide +kernel) 3 ev hev false

end Examples

end Synedrion.Props
