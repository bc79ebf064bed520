import Verif.Lemmas.HashPoints
import Verif.Lemmas.WireOnto
import Verif.Lemmas.KeyRefresh

/-!
# Lemmas: which parties hash identity points, and what a packet with one does
-/

set_option linter.unusedSectionVars false

namespace Synedrion

open Spec

section Generic

variable {I M S E R : Type} [LinearOrder I] {P : Spec.Machine I M S E R} {T : Transport I M} {honest : Set I} {init : I → S} {ok : M → Prop} {inv : S → Prop} {parties : Finset I} {K : Nat}
  {ideal : Nat → I → S} {res : I → R} {good : M → Prop} {G : Type} [Zero G] [DecidableEq G] {own : S → List G} {read : S → I → M → List G}

/-- All messages are good if all messages in the intended execution are. -/
theorem sendsOnly_of_ideal (hI : P.Ideal parties init K ideal res) (h : ∀ k i, 1 ≤ k → k ≤ K → i ∈ parties → ∀ a ∈ P.send (ideal k i), good a.2) : P.SendsOnly parties init good := by
  intro n hn i hi j k m hm
  obtain ⟨s, hb, -, hm⟩ := hm
  obtain ⟨k₂, h1, h2, hbeg⟩ := (hn.onTrack hI i hi).begun hI.rounds
  rw [hbeg] at hb
  obtain ⟨a, ha1, ha2, rfl⟩ := Spec.Machine.mem_firstStates.1 hb
  exact h a i ha1 (ha2.trans h2) hi _ hm

/-- Whoever finishes has hashed no identity point at the beginning. -/
theorem own_of_finished_first {n : Net I (Packet I) S (WireErr E) R} (h : (overWire P T (hashPanics own read)).Reachable honest init n) {i : I} {r : R} (hf : n.status i = .finished r) :
    0 ∉ own (init i) := by
  have hst := (h.inv i).status
  rw [hf] at hst
  have hst : (overWire P T (hashPanics own read)).replay (init i) ((n.past i).map Prod.snd) = .ok (.inr r) := hst
  obtain ⟨got, x, hx⟩ := replay_goes_on (l := []) (s := init i) rfl (by rw [List.nil_append]; exact hst)
  intro h0
  unfold overWire at hx
  dsimp only at hx
  split at hx
  · split at hx
    · cases hx
    · rw [if_pos (show (hashPanics own read).next (init i) _ = true from decide_eq_true h0)] at hx
      cases hx
  · cases hx

/-- A packet with an identity point makes the receiver panic. -/
theorem overWire_crash {n : Net I (Packet I) S (WireErr E) R} {i j : I} (hi : i ∈ honest) {s : S} {got : List (I × Packet I)} (hst : n.status i = .running s got) (hj : j ∈ P.expected s)
    (hnew : j ∉ got.map Prod.fst) (hbad : j ∉ honest) {d : Packet I} {m : M} (hd : T.unpack (P.round s) d = some m) (h0 : 0 ∈ read s j m) :
    (overWire P T (hashPanics own read)).Step honest n { n with status := Function.update n.status i .panicked } := by
  have hstep := Spec.Machine.Step.receive (P := overWire P T (hashPanics own read)) (honest := honest) n i s got j d hi hst hj hnew fun h => absurd h hbad
  have hr : (overWire P T (hashPanics own read)).recv s j d = .panic := read_panics hd h0
  simp only [Spec.Machine.received, hr] at hstep
  exact hstep

end Generic

section Unpack

variable {I G V : Type} [LinearOrder I] [AddCommGroup G] {q : Nat} [Fact q.Prime] {W : WireFormat G V}

theorem Spec.FormatValid.keyInit_unpack (hW : FormatValid W q) (m : KeyInit.Msg2 G) (hm : keyInitMessageFits (q := q) (V := V) (.two m)) :
    ∃ d : Packet I, (W.keyInitTransport (q := q)).unpack 2 d = some (.two m) := by
  obtain ⟨e, he⟩ := hW.keyInit_onto (ε := Unit) (I := I) .echo 2 m.rho (hm 2 .echo m.rho rfl)
  obtain ⟨y, hy⟩ := hW.keyInit_onto (ε := Unit) (I := I) .normal 2 ⟨m.capX, m.capA, m.u⟩ (hm 2 .normal ⟨m.capX, m.capA, m.u⟩ rfl)
  refine ⟨⟨some e, some y, none⟩, ?_⟩
  show ((W.keyInit (ε := Unit) (q := q) .normal 2).dec y).bind (fun n => ((W.keyInit (ε := Unit) (q := q) .echo 2).dec e).map fun rho => KeyInit.Message.two ⟨rho, n.capX, n.capA, n.u⟩) = _
  rw [hy, he]
  rfl

theorem Spec.FormatValid.keyInit_unpack3 (hW : FormatValid W q) (psi : SchProof (ZMod q)) : ∃ d : Packet I, (W.keyInitTransport (q := q)).unpack 3 d = some (.three psi) := by
  obtain ⟨y, hy⟩ := hW.keyInit_onto (ε := Unit) (I := I) .normal 3 psi trivial
  refine ⟨⟨none, some y, none⟩, ?_⟩
  show ((W.keyInit (ε := Unit) (q := q) .normal 3).dec y).map KeyInit.Message.three = _
  rw [hy]
  rfl

theorem Spec.FormatValid.keyRefresh_unpack (hW : FormatValid W q) (m : KeyRefresh.Msg2 I G) (hm : keyRefreshMessageFits (q := q) (V := V) W.P (.two m)) :
    ∃ d : Packet I, (W.keyRefreshTransport (q := q)).unpack 2 d = some (.two m) := by
  obtain ⟨e, he⟩ := hW.keyRefresh_onto (ε := Unit) (I := I) .echo 2 m.echo (hm 2 .echo m.echo rfl)
  obtain ⟨y, hy⟩ := hW.keyRefresh_onto (ε := Unit) (I := I) .normal 2 ⟨m.capXs, m.capAs, m.pk, m.psi, m.u⟩ (hm 2 .normal ⟨m.capXs, m.capAs, m.pk, m.psi, m.u⟩ rfl)
  refine ⟨⟨some e, some y, none⟩, ?_⟩
  show ((W.keyRefresh (ε := Unit) (q := q) .echo 2).dec e).bind (fun e => ((W.keyRefresh (ε := Unit) (q := q) .normal 2).dec y).map fun n =>
    KeyRefresh.Message.two ⟨e, n.capXs, n.capAs, n.pk, n.psi, n.u⟩) = _
  rw [hy, he]
  rfl

theorem Spec.FormatValid.keyRefresh_unpack3 (hW : FormatValid W q) (m : KeyRefresh.Msg3 I (ZMod q)) (hm : keyRefreshMessageFits (G := G) (V := V) W.P (.three m)) :
    ∃ d : Packet I, (W.keyRefreshTransport (q := q)).unpack 3 d = some (.three m) := by
  obtain ⟨e, he⟩ := hW.keyRefresh_onto (ε := Unit) (I := I) .echo 3 m.hatPsis (hm 3 .echo m.hatPsis rfl)
  obtain ⟨y, hy⟩ := hW.keyRefresh_onto (ε := Unit) (I := I) .normal 3 m.psiPrime (hm 3 .normal m.psiPrime rfl)
  obtain ⟨d, hd⟩ := hW.keyRefresh_onto (ε := Unit) (I := I) .direct 3 ⟨m.psi, m.capC⟩ (hm 3 .direct ⟨m.psi, m.capC⟩ rfl)
  refine ⟨⟨some e, some y, some d⟩, ?_⟩
  show ((W.keyRefresh (ε := Unit) (q := q) .echo 3).dec e).bind (fun hatPsis => ((W.keyRefresh (ε := Unit) (q := q) .normal 3).dec y).bind fun psiPrime =>
    ((W.keyRefresh (ε := Unit) (q := q) .direct 3).dec d).map fun d => KeyRefresh.Message.three ⟨hatPsis, psiPrime, d.psi, d.capC⟩) = _
  rw [hy, he, hd]
  rfl

theorem Spec.FormatValid.signing_unpack1 (hW : FormatValid W q) (m : Signing.Msg1 q G) (hm : signingMessageFits (I := I) W.P (.one m)) :
    ∃ d : Packet I, W.signingTransport.unpack 1 d = some (.one m) := by
  obtain ⟨e, he⟩ := hW.signing_onto (ε := Unit) (I := I) .echo 1 m.echo (hm 1 .echo m.echo rfl)
  obtain ⟨d, hd⟩ := hW.signing_onto (ε := Unit) (I := I) .direct 1 (m.psi0, m.psi1) (hm 1 .direct (m.psi0, m.psi1) rfl)
  refine ⟨⟨some e, none, some d⟩, ?_⟩
  show ((W.signing (ε := Unit) (I := I) .direct 1).dec d).bind (fun d => ((W.signing (ε := Unit) (I := I) (q := q) .echo 1).dec e).map fun e => Signing.Message.one ⟨e, d.1, d.2⟩) = _
  rw [hd, he]
  rfl

theorem Spec.FormatValid.signing_unpack2 (hW : FormatValid W q) (m : Signing.Msg2 q I G) (hm : signingMessageFits W.P (.two m)) :
    ∃ d : Packet I, W.signingTransport.unpack 2 d = some (.two m) := by
  obtain ⟨e, he⟩ := hW.signing_onto (ε := Unit) (I := I) .echo 2 m.echo (hm 2 .echo m.echo rfl)
  obtain ⟨d, hd⟩ := hW.signing_onto (ε := Unit) (I := I) .normal 2 ⟨m.capDs, m.hatCapDs, m.psiElog, m.psis, m.hatPsis⟩ (hm 2 .normal ⟨m.capDs, m.hatCapDs, m.psiElog, m.psis, m.hatPsis⟩ rfl)
  refine ⟨⟨some e, some d, none⟩, ?_⟩
  show ((W.signing (ε := Unit) (q := q) .echo 2).dec e).bind (fun e => ((W.signing (ε := Unit) .normal 2).dec d).map fun n =>
    Signing.Message.two ⟨e, n.capDs, n.hatCapDs, n.psiElog, n.psis, n.hatPsis⟩) = _
  rw [hd, he]
  rfl

theorem Spec.FormatValid.signing_unpack3 (hW : FormatValid W q) (m : Signing.Msg3 q G) (hm : signingMessageFits (I := I) W.P (.three m)) :
    ∃ d : Packet I, W.signingTransport.unpack 3 d = some (.three m) := by
  obtain ⟨e, he⟩ := hW.signing_onto (ε := Unit) (I := I) .echo 3 m.delta (hm 3 .echo m.delta rfl)
  obtain ⟨d, hd⟩ := hW.signing_onto (ε := Unit) (I := I) .normal 3 ⟨m.capDelta, m.psiPrime, m.capS⟩ (hm 3 .normal ⟨m.capDelta, m.psiPrime, m.capS⟩ rfl)
  refine ⟨⟨some e, some d, none⟩, ?_⟩
  show ((W.signing (ε := Unit) (I := I) .echo 3).dec e).bind (fun delta => ((W.signing (ε := Unit) (I := I) .normal 3).dec d).map fun n =>
    Signing.Message.three ⟨delta, n.capDelta, n.psiPrime, n.capS⟩) = _
  rw [hd, he]
  rfl

theorem Spec.FormatValid.signing_unpack_err (hW : FormatValid W q) (m : Signing.MsgErr I G) (hm : signingMessageFits (q := q) W.P (.error m)) :
    ∃ d : Packet I, W.signingTransport.unpack 5 d = some (.error (q := q) m) ∧ W.signingTransport.unpack 6 d = some (.error (q := q) m) := by
  obtain ⟨e, he⟩ := hW.signing_onto (ε := Unit) (I := I) (q := q) .echo 5 m (hm 5 .echo m rfl)
  refine ⟨⟨some e, none, none⟩, ?_, ?_⟩ <;>
  · show ((W.signing (ε := Unit) (q := q) .echo 5).dec e).map Signing.Message.error = _
    rw [he]
    rfl

end Unpack

namespace KeyInit

variable {I G Sid V : Type} [LinearOrder I] [AddCommGroup G] {q : Nat} [Fact q.Prime] [LinearOrder (ZMod q)] [Module (ZMod q) G] [DecidableEq G] [DecidableEq V] {W : WireFormat G V}
  {hashV : Sid → I → PublicData G → V} {H : SchHash G (SchAux I Sid) → ZMod q} {g : G}

theorem start_points {ids : Finset I} {sid : Sid} {i : I} {d : Draws (ZMod q)} {c : Context I (ZMod q) G Sid} (h : start g ids sid i d = .ok c) :
    c.data.capX = d.x • g ∧ c.data.capA = d.tau • g ∧ c.otherIds = ids.erase i := by
  unfold start at h
  split at h
  · cases h
  · rw [← Out.ok.inj h]
    exact ⟨rfl, rfl, rfl⟩

/-- What is hashed is what can be sent. -/
theorem read_unpack (hW : FormatValid W q) {s : State I (ZMod q) G Sid V} {j : I} {m : Message (ZMod q) G V} (hm : keyInitMessageFits m) (h0 : 0 ∈ readPoints s j m) :
    ∃ d : Packet I, W.keyInitTransport.unpack ((machine hashV H g).round s) d = some m := by
  cases s with
  | one c => cases h0
  | two r =>
    cases m with
    | one v => cases h0
    | two m => exact hW.keyInit_unpack m hm
    | three v => cases h0
  | three r =>
    cases m with
    | one v => cases h0
    | two m => cases h0
    | three v => exact hW.keyInit_unpack3 v

theorem not_good_two {r : Round2 I (ZMod q) G Sid V} {j : I} {m : Msg2 G} (h : ¬ keyInitNoIdentity (q := q) (V := V) (.two m)) :
    0 ∈ readPoints (.two r) j (.two m : Message (ZMod q) G V) := by
  by_contra h0
  refine h fun r p x hx => ?_
  rcases p <;> rcases r with _ | _ | _ | r <;> first | (cases hx; done) | cases Option.some.inj hx
  · exact List.not_mem_nil
  · exact h0

end KeyInit

namespace KeyRefresh

variable {I G Sid V : Type} [LinearOrder I] [AddCommGroup G] {q : Nat} [Fact q.Prime] [LinearOrder (ZMod q)] [Module (ZMod q) G] [DecidableEq G] [DecidableEq V] {W : WireFormat G V}
  {E : Env I Sid (ZMod q) G} {hashV : Sid → I → Hashed I G → V}

theorem start_clean (hg : E.g ≠ 0) {ids : Finset I} {sid : Sid} {i : I} {d : Draws I (ZMod q)} {c : Context I (ZMod q) G Sid} (h : start E ids sid i d = .ok c) :
    CleanCtx c ↔ 0 ∉ c.xs.values ∧ ∀ j ∈ ids, d.ys j ≠ 0 ∧ d.taus j ≠ 0 := by
  obtain ⟨-, -, sk, x, -, -, rfl⟩ := start_ok h
  have hv : ∀ f : I → ZMod q, 0 ∈ (BMap.tabulate ids fun j => f j • E.g).values ↔ ∃ j ∈ ids, f j = 0 := fun f => by
    rw [BMap.mem_values]
    constructor
    · rintro ⟨j, hj⟩
      rw [BMap.get?_tabulate] at hj
      split at hj
      · next hm => exact ⟨j, hm, (smul_eq_zero.1 (Option.some.inj hj)).resolve_right hg⟩
      · cases hj
    · rintro ⟨j, hj, h0⟩
      exact ⟨j, by rw [BMap.get?_tabulate, if_pos hj, h0, zero_smul]⟩
  have hw : ∀ f : I → ZMod q, 0 ∈ (BMap.tabulate ids f).values ↔ ∃ j ∈ ids, f j = 0 := fun f => by
    rw [BMap.mem_values]
    constructor
    · rintro ⟨j, hj⟩
      rw [BMap.get?_tabulate] at hj
      split at hj
      · next hm => exact ⟨j, hm, Option.some.inj hj⟩
      · cases hj
    · rintro ⟨j, hj, h0⟩
      exact ⟨j, by rw [BMap.get?_tabulate, if_pos hj, h0]⟩
  unfold CleanCtx PublicData.points hctx hdata
  simp only [List.mem_append, not_or, hv, hw, not_exists, not_and]
  constructor
  · rintro ⟨⟨⟨h1, h2⟩, h3⟩, -⟩
    exact ⟨h1, fun j hj => ⟨h2 j hj, h3 j hj⟩⟩
  · rintro ⟨h1, h2⟩
    exact ⟨⟨⟨h1, fun j hj => (h2 j hj).1⟩, fun j hj => (h2 j hj).2⟩, fun j hj => (h2 j hj).1⟩

/-- The share changes are all different from zero exactly if the draws are, and their sum, and there is more than one party. -/
theorem start_xs {ids : Finset I} {sid : Sid} {i : I} {d : Draws I (ZMod q)} {c : Context I (ZMod q) G Sid} (h : start E ids sid i d = .ok c) :
    0 ∉ c.xs.values ↔ 2 ≤ ids.card ∧ (∀ k < ids.card - 1, d.split k ≠ 0) ∧ ∑ k ∈ Finset.range (ids.card - 1), d.split k ≠ 0 := by
  unfold start at h
  split at h
  · cases h
  next hi =>
  have hi : i ∈ ids := not_not.1 hi
  obtain ⟨y, -, h⟩ := Out.bind_eq_ok.1 h
  obtain ⟨l, hl, h⟩ := Out.bind_eq_ok.1 h
  have hxs : c.xs = BMap.ofList ((bsetIter ids).zip l) := by rw [← Out.ok.inj h]
  have hpos : 0 < ids.card := Finset.card_pos.2 ⟨i, hi⟩
  have hlen : l.length = ids.card := by
    unfold Shamir.secretSplit at hl
    split at hl
    · next h1 => rw [← Out.ok.inj hl, h1]; rfl
    · split at hl
      · cases hl
      · rw [← Out.ok.inj hl]; simp; omega
  have hmem : 0 ∈ c.xs.values ↔ 0 ∈ l := by
    have hkeys : ((bsetIter ids).zip l).map Prod.fst = bsetIter ids := List.map_fst_zip (by rw [hlen, bsetIter_length])
    have hvals : ((bsetIter ids).zip l).map Prod.snd = l := List.map_snd_zip (by rw [hlen, bsetIter_length])
    rw [hxs, BMap.mem_values]
    constructor
    · rintro ⟨j, hj⟩
      rw [BMap.get?_ofList_eq_some (by rw [hkeys]; exact bsetIter_nodup ids)] at hj
      exact (List.of_mem_zip hj).2
    · intro h0
      rw [← hvals] at h0
      obtain ⟨⟨j, x⟩, hj, hx⟩ := List.mem_map.1 h0
      refine ⟨j, (BMap.get?_ofList_eq_some (by rw [hkeys]; exact bsetIter_nodup ids)).2 ?_⟩
      rw [← (show x = 0 from hx)]
      exact hj
  rw [hmem]
  unfold Shamir.secretSplit at hl
  split at hl
  · next h1 =>
    rw [← Out.ok.inj hl, h1]
    simp
  · split at hl
    · cases hl
    · rw [← Out.ok.inj hl]
      have hs : ((List.range (ids.card - 1)).map d.split).sum = ∑ k ∈ Finset.range (ids.card - 1), d.split k := rfl
      simp only [List.mem_append, List.mem_map, List.mem_range, List.mem_singleton, not_or, hs]
      constructor
      · rintro ⟨h1, h2⟩
        refine ⟨by omega, fun k hk h0 => h1 ⟨k, hk, h0⟩, fun h0 => h2 (by rw [h0, sub_zero])⟩
      · rintro ⟨-, h1, h2⟩
        refine ⟨fun ⟨k, hk, h0⟩ => h1 k hk h0, fun h0 => h2 ?_⟩
        rw [zero_sub] at h0
        exact neg_eq_zero.1 h0.symm

theorem cleanCtx_iff (hg : E.g ≠ 0) {ids : Finset I} {sid : Sid} {i : I} {d : Draws I (ZMod q)} {c : Context I (ZMod q) G Sid} (h : start E ids sid i d = .ok c) :
    CleanCtx c ↔ 0 ∉ c.data.points := by
  refine ⟨fun h => h.1, fun h1 => ⟨h1, ?_⟩⟩
  obtain ⟨-, -, sk, x, -, -, rfl⟩ := start_ok h
  intro h0
  obtain ⟨j, hj⟩ := BMap.mem_values.1 h0
  have hj : (BMap.tabulate ids d.ys).get? j = some 0 := hj
  rw [BMap.get?_tabulate] at hj
  split at hj
  · next hm =>
    refine h1 (List.mem_append_left _ (List.mem_append_right _ (BMap.mem_values.2 ⟨j, ?_⟩)))
    show (BMap.tabulate ids fun j => d.ys j • E.g).get? j = _
    rw [BMap.get?_tabulate, if_pos hm, Option.some.inj hj, zero_smul]
  · cases hj

/-- What is hashed is what can be sent. -/
theorem read_unpack (hW : FormatValid W q) {s : State I (ZMod q) G Sid V} {j : I} {m : Message I (ZMod q) G V} (hm : keyRefreshMessageFits W.P m) (h0 : 0 ∈ readPoints s j m) :
    ∃ d : Packet I, W.keyRefreshTransport.unpack ((machine E hashV).round s) d = some m := by
  cases s with
  | one c => cases h0
  | two c v =>
    cases m with
    | one v => cases h0
    | two m => exact hW.keyRefresh_unpack m hm
    | three v => cases h0
  | three r out =>
    cases m with
    | one v => cases h0
    | two m => cases h0
    | three m => exact hW.keyRefresh_unpack3 m hm

theorem not_good_two {c : Context I (ZMod q) G Sid} {capVs : BMap I V} {j : I} {m : Msg2 I G} (h : ¬ keyRefreshNoIdentity (q := q) (V := V) (.two m)) :
    0 ∈ readPoints (.two c capVs) j (.two m : Message I (ZMod q) G V) := by
  by_contra h0
  have h0 : 0 ∉ m.capXs.values ++ m.echo.capYs.values ++ m.capAs.values := h0
  simp only [List.mem_append, not_or] at h0
  refine h fun r p x hx => ?_
  rcases p <;> rcases r with _ | _ | _ | r <;> first | (cases hx; done) | cases Option.some.inj hx
  · exact h0.1.2
  · exact fun hm => (List.mem_append.1 hm).elim h0.1.1 h0.2

end KeyRefresh

namespace Signing

variable {I Ep G V : Type} [LinearOrder I] [AddCommGroup G] {q : Nat} [Fact q.Prime] [Module (ZMod q) G] [DecidableEq G] {E : Env q I Ep G} {W : WireFormat G V}

/-- What is hashed is what can be sent. -/
theorem read_unpack (hW : FormatValid W q) {g : G} {s : State q I Ep G} {j : I} {m : Message q I G} (hm : signingMessageFits W.P m) (h0 : 0 ∈ readPoints g s j m) :
    ∃ d : Packet I, W.signingTransport.unpack ((machine E).round s) d = some m := by
  cases s with
  | one r out => cases m <;> first | (cases h0; done) | exact hW.signing_unpack1 _ hm
  | two r => cases m <;> first | (cases h0; done) | exact hW.signing_unpack2 _ hm
  | three r => cases m <;> first | (cases h0; done) | exact hW.signing_unpack3 _ hm
  | four r => cases m <;> cases h0
  | error r m' =>
    cases m with
    | error m =>
      obtain ⟨d, h5, h6⟩ := hW.signing_unpack_err m hm
      refine ⟨d, ?_⟩
      show W.signingTransport.unpack (if r.hat then 6 else 5) d = _
      split
      · exact h6
      · exact h5
    | one _ => cases h0
    | two _ => cases h0
    | three _ => cases h0
    | four _ => cases h0

theorem pub_values {ids : Finset I} {shares : I → KeyShare I (ZMod q) G} {sk : ZMod q} {g : G} (hg : g ≠ 0) (h : SharesKey g ids shares sk) {i : I} (hi : i ∈ ids) :
    0 ∈ (shares i).pub.values ↔ ∃ j ∈ ids, (shares j).secret = 0 := by
  rw [BMap.mem_values]
  constructor
  · rintro ⟨j, hj⟩
    have hm : j ∈ ids := by
      rw [← h.holders i hi, BMap.mem_keySet]
      exact List.mem_map.2 ⟨_, BMap.get?_eq_some_iff.1 hj, rfl⟩
    rw [h.public_matches i hi j hm] at hj
    exact ⟨j, hm, (smul_eq_zero.1 (Option.some.inj hj)).resolve_right hg⟩
  · rintro ⟨j, hj, h0⟩
    exact ⟨j, by rw [h.public_matches i hi j hj, h0, zero_smul]⟩

theorem begin_clean {epidOf : BMap I G → BMap I PublicAux → Ep} {message : ZMod q} {ks : KeyShare I (ZMod q) G} {aux : AuxInfo I PaillierKey PublicAux} {i : I} {d : Draws q I}
    {r : Round1 q I Ep G} (hr : start E epidOf message ks aux i d = .ok r) {s : State q I Ep G} (h : begin E r = .ok s) :
    ∃ out, s = .one r out ∧ r.ctx.keyShare = ks ∧ r.ctx.otherIds = ks.pub.keySet.erase i ∧ (r.ctx.otherIds.Nonempty → ∃ a ∈ out, a.2.echo = r.echo) := by
  obtain ⟨-, -, -, -, hks, -, hoth, -⟩ := start_eq_ok hr
  obtain ⟨out, hout, h⟩ := Out.bind_eq_ok.1 h
  cases Out.ok.inj h
  refine ⟨out, rfl, hks, hoth, fun hne => ?_⟩
  have hlen := (Out.mapM'_eq_ok_iff.1 hout).length_eq
  cases out with
  | nil =>
    obtain ⟨j, hj⟩ := hne
    have := List.eq_nil_of_length_eq_zero hlen ▸ mem_bsetIter.2 hj
    cases this
  | cons a out =>
    have h1 := send1_mem hout List.mem_cons_self
    obtain ⟨_, _, h1⟩ := Out.bind_eq_ok.1 h1
    obtain ⟨_, _, h1⟩ := Out.bind_eq_ok.1 h1
    obtain ⟨_, _, h1⟩ := Out.bind_eq_ok.1 h1
    obtain ⟨_, _, h1⟩ := Out.bind_eq_ok.1 h1
    obtain ⟨_, _, h1⟩ := Out.bind_eq_ok.1 h1
    exact ⟨a, List.mem_cons_self, by rw [← Out.ok.inj h1]⟩

theorem not_good_one {r : Round1 q I Ep G} {out : List (I × Msg1 q G)} {g : G} {j : I} {m : Msg1 q G} (h : ¬ signingNoIdentity (I := I) (.one m)) :
    0 ∈ readPoints g (.one r out) j (.one m : Message q I G) := by
  by_contra h0
  have h0 : 0 ∉ m.hashed := h0
  simp only [Msg1.hashed, encElgPoints, Echo1.pub0, Echo1.pub1, List.mem_append, List.mem_cons, List.not_mem_nil, or_false, not_or] at h0
  refine h fun r p x hx => ?_
  rcases p <;> rcases r with _ | _ | r <;> first | (cases hx; done) | cases Option.some.inj hx
  all_goals
    simp only [signingPoints, List.mem_cons, List.not_mem_nil, or_false, not_or]
    tauto

theorem not_good_two {r : Round2 q I Ep G} {g : G} {j : I} {m : Msg2 q I G} (h1 : j ∈ r.payloads1.keySet) (h2 : j ∈ r.ctx.keyShare.pub.keySet) (h : ¬ signingNoIdentity (.two m)) :
    0 ∈ readPoints g (.two r) j (.two m : Message q I G) := by
  obtain ⟨p, hp⟩ := BMap.mem_keys_iff.1 (BMap.mem_keySet.1 h1)
  obtain ⟨x, hx⟩ := BMap.mem_keys_iff.1 (BMap.mem_keySet.1 h2)
  by_contra h0
  have h0 : 0 ∉ (m.psis.values.flatMap fun psi => psi.hashed m.echo.capGamma) ++ (m.hatPsis.values.flatMap fun psi => (r.ctx.keyShare.pub.at j).flatMap psi.hashed) ++
      (match r.payloads1.get? j with
        | some p => m.psiElog.hashed (p.elogPub g m.echo.capGamma)
        | none => []) := h0
  rw [hp] at h0
  simp only [List.mem_append, not_or] at h0
  obtain ⟨⟨ha, hb⟩, hc⟩ := h0
  have hat : r.ctx.keyShare.pub.at j = [x] := by unfold BMap.at; rw [hx]; rfl
  simp only [ElogProof.hashed, Payload1.elogPub, List.mem_cons, List.not_mem_nil, or_false, not_or] at hc
  refine h fun r p x hx => ?_
  rcases p <;> rcases r with _ | _ | _ | r <;> first | (cases hx; done) | cases Option.some.inj hx
  · simp only [signingPoints, List.mem_cons, List.not_mem_nil, or_false]
    tauto
  · simp only [signingPoints, elogPoints, List.mem_append, List.mem_cons, List.not_mem_nil, or_false, not_or, List.mem_map]
    refine ⟨⟨by tauto, ?_⟩, ?_⟩
    · rintro ⟨psi, hm, h0⟩
      exact ha (List.mem_flatMap.2 ⟨psi, hm, List.mem_cons.2 (.inl h0.symm)⟩)
    · rintro ⟨psi, hm, h0⟩
      refine hb (List.mem_flatMap.2 ⟨psi, hm, ?_⟩)
      rw [hat]
      exact List.mem_flatMap.2 ⟨_, List.mem_singleton_self _, List.mem_cons.2 (.inl h0.symm)⟩

theorem not_good_three {r : Round3 q I Ep G} {g : G} {j : I} {m : Msg3 q G} (h1 : j ∈ r.payloads1.keySet) (h : 0 ∈ m.capDelta :: elogPoints m.psiPrime) :
    0 ∈ readPoints g (.three r) j (.three m : Message q I G) := by
  obtain ⟨p, hp⟩ := BMap.mem_keys_iff.1 (BMap.mem_keySet.1 h1)
  show 0 ∈ (match r.payloads1.get? j with
      | some p => m.psiPrime.hashed (p.elogPub' m.capDelta r.capGammaCombined)
      | none => [])
  rw [hp]
  simp only [elogPoints, ElogProof.hashed, Payload1.elogPub', List.mem_cons, List.not_mem_nil, or_false] at h ⊢
  tauto

end Signing

end Synedrion
