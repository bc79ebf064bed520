import Verif.Props.Entities
import Verif.Props.Proactive
import Verif.Props.WireResults

/-!
# Lemmas: what sessions hand over to the next ones
-/

set_option linter.unusedSectionVars false

namespace Synedrion

open Spec

private theorem back {α β : Type} {p : α → β → Prop} {l : List α} {l' : List β} (h : List.Forall₂ p l l') {b : β} (hb : b ∈ l') : ∃ a ∈ l, p a b := by
  induction h with
  | nil => cases hb
  | cons h _ ih =>
    rcases List.mem_cons.1 hb with rfl | hb
    · exact ⟨_, List.mem_cons_self, h⟩
    · obtain ⟨a, ha, hp⟩ := ih hb
      exact ⟨a, List.mem_cons_of_mem _ ha, hp⟩

private theorem firsts {α β : Type} {p : α → α × β → Prop} (hp : ∀ a b, p a b → b.1 = a) {l : List α} {l' : List (α × β)} (h : List.Forall₂ p l l') : l'.map Prod.fst = l := by
  induction h with
  | nil => rfl
  | cons h _ ih => rw [List.map_cons, ih, hp _ _ h]

section Convert

variable {I F G : Type} [LinearOrder I] [Field F] [LinearOrder F] [AddCommGroup G] [Module F G] [DecidableEq G]

/-- A converted share is zero only if the threshold share is, unless somebody's share id is zero. -/
theorem toKeyShare_ne_zero {tks : ThresholdKeyShare I F G} {dbg : Bool} {T : Finset I} {ks : KeyShare I F G} (h : tks.toKeyShare dbg T = .ok ks)
    (hids : ∀ x ∈ tks.shareIds.values, x ≠ 0) (h0 : tks.secretShare ≠ 0) : ks.secret ≠ 0 := by
  unfold ThresholdKeyShare.toKeyShare at h
  obtain ⟨_, _, h⟩ := Out.bind_eq_ok.1 h
  obtain ⟨_, _, h⟩ := Out.bind_eq_ok.1 h
  obtain ⟨_, _, h⟩ := Out.bind_eq_ok.1 h
  obtain ⟨sl, hsl, h⟩ := Out.bind_eq_ok.1 h
  dsimp only at h
  obtain ⟨c, hc, h⟩ := Out.bind_eq_ok.1 h
  have hfst : sl.map Prod.fst = bsetIter T := firsts (fun _ _ hp => by
    obtain ⟨_, _, hp⟩ := Out.bind_eq_ok.1 hp
    rw [← Out.ok.inj hp]) (Out.mapM'_eq_ok_iff.1 hsl)
  obtain ⟨pl, _, h⟩ := Out.bind_eq_ok.1 h
  have hsec : ks.secret = tks.secretShare * c := by
    unfold KeyShare.new at h
    split at h
    · cases h
    · rw [← Out.ok.inj h]
  rw [hsec]
  refine mul_ne_zero h0 ?_
  unfold Shamir.interpolationCoeff at hc
  obtain ⟨l, hl, hc⟩ := Out.bind_eq_ok.1 hc
  rw [← Out.ok.inj hc]
  refine List.prod_ne_zero fun hz => ?_
  obtain ⟨id, hid, he⟩ := back (Out.mapM'_eq_ok_iff.1 hl) hz
  split at he
  · cases he
  rename_i hne
  have hid' := List.mem_of_mem_filter hid
  have : id ≠ 0 := by
    obtain ⟨e, hee, rfl⟩ := List.mem_map.1 hid'
    obtain ⟨i, -, hi⟩ := back (Out.mapM'_eq_ok_iff.1 hsl) ((BMap.get?_ofList_eq_some (by rw [hfst]; exact bsetIter_nodup T)).1 (BMap.get?_eq_some_iff.2 hee))
    obtain ⟨s, hs, hi⟩ := Out.bind_eq_ok.1 hi
    cases Out.ok.inj hi
    exact hids _ (BMap.mem_values.2 ⟨_, Out.ofOption_eq_ok.1 hs⟩)
  exact mul_ne_zero this (inv_ne_zero hne) (Out.ok.inj he)

end Convert

section Sessions

variable {I G V Sid : Type} [LinearOrder I] [AddCommGroup G] {q : Nat} [Fact q.Prime] [Module (ZMod q) G] [DecidableEq G] [LinearOrder (ZMod q)] [DecidableEq V] {W : WireFormat G V}

/-- What a refresh among honest parties adds to the share of one that finishes. -/
theorem refresh_adds (hW : FormatValid W q) (E : KeyRefresh.Env I Sid (ZMod q) G) (hg : E.g ≠ 0) (hP : W.P = E.aux.P) (hE : AuxHashesFit E.aux) (hashV : Sid → I → KeyRefresh.Hashed I G → V)
    (panics : Panics I (KeyRefresh.Message I (ZMod q) G V) (KeyRefresh.State I (ZMod q) G Sid V)) (ids : Finset I) (sid : Sid) (d : I → KeyRefresh.Draws I (ZMod q))
    (hd : ∀ i ∈ ids, AuxDrawsFit E.aux.P (d i).aux) (c : I → KeyRefresh.Context I (ZMod q) G Sid) (hc : ∀ i ∈ ids, KeyRefresh.start E ids sid i (d i) = .ok (c i))
    (n : Net I (Packet I) (KeyRefresh.State I (ZMod q) G Sid V) (WireErr (KeyRefresh.Err I (ZMod q))) (KeyShareChange I (ZMod q) G × AuxInfo I PaillierKey PublicAux))
    (h : (overWire (KeyRefresh.machine E hashV) W.keyRefreshTransport panics).Reachable (ids : Set I) (fun i => .one (c i)) n) (i : I) (hi : i ∈ ids)
    (res : KeyShareChange I (ZMod q) G × AuxInfo I PaillierKey PublicAux) (hf : n.status i = .finished res) (ks ks' : KeyShare I (ZMod q) G) (hu : ks.update res.1 = .ok ks') :
    ks'.secret = ks.secret + ∑ j ∈ ids, part ids 0 (fun p => (d j).split p) i := by
  obtain ⟨n', hn', hs⟩ := Props.C91_key_refresh hW E hP hE hashV panics _ ids sid d hd c hc n h
  obtain ⟨in1, in2, in3, -, hrun, hgen⟩ := Props.C81_key_refresh E hashV _ c n' hn'.reachable
  have hr := hrun i hi _ (SameCourse.finished hs hf)
  obtain ⟨-, -, sk, x, -, -, hci⟩ := KeyRefresh.start_ok (hc i hi)
  have hoth : (c i).otherIds = ids.erase i := by rw [hci]; rfl
  have hsend : ((in2 i).map Prod.fst).Nodup ∧ ((in2 i).map Prod.fst).toFinset = ids.erase i := by
    have hr' := hr
    unfold KeyRefresh.run KeyRefresh.toRound3 at hr'
    simp only [Out.bind_eq_ok] at hr'
    obtain ⟨_, ⟨_, _, _, h2, _⟩, _⟩ := hr'
    rw [← hoth]
    exact ⟨(collect_eq_ok.1 h2).1, (collect_eq_ok.1 h2).2.1⟩
  refine Props.C76_refreshed_share E hg hashV ids sid d c hc i hi _ (in2 i) _ ⟨hsend.1, fun a => ⟨fun ha => ?_, fun ha => ?_⟩⟩ res.1 res.2 hr ks ks' hu
  · have : a.1 ∈ ids.erase i := by
      rw [← hsend.2, List.mem_toFinset]
      exact List.mem_map.2 ⟨a, ha, rfl⟩
    obtain ⟨h1, h2⟩ := Finset.mem_erase.1 this
    exact ⟨h2, h1, (hgen i hi a.1 h2).2.1 _ ha⟩
  · have : a.1 ∈ ((in2 i).map Prod.fst).toFinset := by
      rw [hsend.2]
      exact Finset.mem_erase.2 ⟨ha.2.1, ha.1⟩
    obtain ⟨b, hb, e⟩ := List.mem_map.1 (List.mem_toFinset.1 this)
    have h2 := (hgen i hi a.1 ha.1).2.1 b.2 (by rw [← e]; exact hb)
    have : a = b := Prod.ext e.symm (ha.2.2.trans h2.symm)
    rw [this]
    exact hb

/-- The share ids that a new holder ends with are not zero. -/
theorem resharing_ids_ne_zero (hW : FormatValid W q) (g : G) (panics : Panics I (KeyResharing.Msg (ZMod q) G) (KeyResharing.State I (ZMod q) G)) (honest : Set I)
    (inp : I → KeyResharing.Inputs I (ZMod q) G) (draw : I → Nat → ZMod q)
    (r : I → KeyResharing.Round1 I (ZMod q) G) (hr : ∀ i ∈ honest, KeyResharing.start g (inp i) i (draw i) = .ok (r i)) (init : I → KeyResharing.State I (ZMod q) G)
    (hinit : ∀ i ∈ honest, KeyResharing.begin (r i) = .ok (init i))
    (n : Net I (Packet I) (KeyResharing.State I (ZMod q) G) (WireErr KeyResharing.Err) (Option (ThresholdKeyShare I (ZMod q) G)))
    (h : (overWire (KeyResharing.machine g) W.resharingTransport panics).Reachable honest init n) (i : I) (hi : i ∈ honest)
    (nh : KeyResharing.NewHolder I G) (hnh : (inp i).newHolder = some nh) (hold : (inp i).oldHolder.isSome → i ∈ nh.oldHolders) (hN : (inp i).newHolders.card < q)
    (ks : ThresholdKeyShare I (ZMod q) G) (hf : n.status i = .finished (some ks)) : ∀ x ∈ ks.shareIds.values, x ≠ 0 := by
  obtain ⟨n', hn', hs⟩ := Props.C91_resharing hW g panics honest init n h
  obtain ⟨inbox, hrun, -⟩ := Props.C81_key_resharing g honest r init hinit n' hn'
  obtain ⟨-, -, ks', e, -, -, -, -, -, -, -, hids, -⟩ := Props.resharing_run_ok (hr i hi) hnh hold (hrun i hi _ (SameCourse.finished hs hf))
  cases Option.some.inj e
  intro x hx
  obtain ⟨j, hj⟩ := BMap.mem_values.1 hx
  obtain ⟨sid, e1, e2⟩ := KeyResharing.newShareIds_tabulate (F := ZMod q) (inp i).newHolders
  rw [hids, e1, BMap.get?_tabulate] at hj
  split at hj
  · rename_i hm
    refine Shamir.evaluationPoints_ne_zero (F := ZMod q) (q := q) hN x ?_
    rw [← e2, ← Option.some.inj hj]
    exact List.mem_map.2 ⟨j, mem_bsetIter.2 hm, rfl⟩
  · cases hj

end Sessions

end Synedrion
