import Verif.Lemmas.HashPointsNet
import Verif.Lemmas.WireQuiet

/-!
# Lemmas: identity points in all rounds of signing
-/

set_option linter.unusedSectionVars false

namespace Synedrion.Signing

open Spec

variable {q : Nat} [Fact q.Prime] {I Ep G V : Type} [LinearOrder I] [AddCommGroup G] [Module (ZMod q) G] [DecidableEq G] {E : Env q I Ep G}

/-- A party's points, and those it has received, are no identity points. -/
def CleanAll (E : Env q I Ep G) : State q I Ep G → Prop
  | .one r out => Clean E (.one r out)
  | .two r => Clean E (.two r)
  | .three r => Clean E (.three r) ∧ 0 ∉ r.ctx.keyShare.pub.values ∧ 0 ∉ r.capGammas.values
  | .four _ => True
  | .error r _ => 0 ∉ r.capXs.values ∧ 0 ∉ r.capSs.values ∧ r.capG ≠ 0 ∧ r.ctx.otherIds.Nonempty

theorem good_three' {m : Msg3 q G} (h : signingNoIdentity (I := I) (.three m)) : m.capS ≠ 0 := by
  have h2 := h 3 .normal ⟨m.capDelta, m.psiPrime, m.capS⟩ rfl
  simp only [signingPoints, List.cons_append, List.mem_cons, List.not_mem_nil, or_false, List.mem_append, not_or] at h2
  exact Ne.symm h2.2.2

theorem good_error {m : MsgErr I G} (h : signingNoIdentity (q := q) (.error m)) : 0 ∉ errPoints m := h 5 .echo m rfl

theorem zero_insert {m : BMap I G} {i : I} {x : G} (h : 0 ∉ m.values) (hx : x ≠ 0) : 0 ∉ (m.insert i x).values := by
  intro h0
  obtain ⟨j, hj⟩ := BMap.mem_values.1 h0
  rw [BMap.get?_insert] at hj
  split at hj
  · exact hx (Option.some.inj hj)
  · exact h (BMap.mem_values.2 ⟨j, hj⟩)

theorem cleanAll_next (hg : E.C.g ≠ 0) {s s' : State q I Ep G} {got : List (I × Message q I G)} (hs : CleanAll E s) (hsend : ∀ a ∈ (machine E).send s, signingNoZero a.2)
    (hgot : ∀ a ∈ got, signingNoZero a.2) (h : (machine E).next s got = .ok (.inl s')) : CleanAll E s' := by
  cases s with
  | one r out =>
    obtain ⟨ps, hps, h'⟩ := Out.bind_eq_ok.1 h
    obtain ⟨r2, h2, h'⟩ := Out.bind_eq_ok.1 h'
    cases Out.ok.inj h'
    exact clean_next (E := E) (s := .one r out) hs (fun a ha => (hsend a ha).1) (fun a ha => (hgot a ha).1) h (show 2 ≤ 4 by decide)
  | two r =>
    obtain ⟨ps, hps, h'⟩ := Out.bind_eq_ok.1 h
    obtain ⟨r3, h3, h'⟩ := Out.bind_eq_ok.1 h'
    cases Out.ok.inj h'
    refine ⟨clean_next (E := E) (s := .two r) hs (fun a ha => (hsend a ha).1) (fun a ha => (hgot a ha).1) h (show 3 ≤ 4 by decide), ?_⟩
    obtain ⟨_, _, h3⟩ := Out.bind_eq_ok.1 (finalizeResult_eq_ok.1 h3)
    rw [← Out.ok.inj h3]
    refine ⟨hs.1, zero_insert ?_ (good_two (sent_all hs.2.1 (good := signingNoZero) hsend).1).1⟩
    intro h0
    obtain ⟨j, hj⟩ := BMap.mem_values.1 h0
    rw [BMap.get?_mapVals] at hj
    obtain ⟨p, hp, hp0⟩ := Option.map_eq_some_iff.1 hj
    obtain ⟨a, ha, -, m, hm, hr⟩ := gather_get hps hp
    have hgm := (hgot a ha).1
    cases ha2 : a.2 with
    | two m' =>
      rw [ha2] at hm hgm
      cases hm
      have : p.capGamma = m.echo.capGamma := by
        obtain ⟨_, _, hr⟩ := Out.bind_eq_ok.1 hr
        dsimp only at hr
        split at hr
        · cases hr
        split at hr
        · cases hr
        split at hr
        · cases hr
        obtain ⟨_, _, hr⟩ := Out.bind_eq_ok.1 hr
        obtain ⟨_, _, hr⟩ := Out.bind_eq_ok.1 hr
        obtain ⟨_, _, hr⟩ := Out.bind_eq_ok.1 hr
        split at hr
        · cases hr
        obtain ⟨_, _, hr⟩ := Out.bind_eq_ok.1 hr
        obtain ⟨_, _, hr⟩ := Out.bind_eq_ok.1 hr
        obtain ⟨_, _, hr⟩ := Out.bind_eq_ok.1 hr
        obtain ⟨_, _, hr⟩ := Out.bind_eq_ok.1 hr
        rw [← Out.ok.inj hr]
      exact (good_two hgm).1 (this ▸ hp0)
    | one _ => rw [ha2] at hm; cases hm
    | three _ => rw [ha2] at hm; cases hm
    | four _ => rw [ha2] at hm; cases hm
    | error _ => rw [ha2] at hm; cases hm
  | three r =>
    obtain ⟨ps, hps, h⟩ := Out.bind_eq_ok.1 h
    obtain ⟨a, h3, h⟩ := Out.bind_eq_ok.1 h
    obtain ⟨s₂, h2, h⟩ := Out.bind_eq_ok.1 h
    cases Out.ok.inj h
    cases a with
    | round4 r4 => cases Out.ok.inj h2; trivial
    | error re =>
      obtain ⟨m, _, h2⟩ := Out.bind_eq_ok.1 h2
      cases Out.ok.inj h2
      have hown := sent_all hs.1.1 (good := signingNoZero) hsend
      have hpay : ∀ j p, (ps.insert r.ctx.myId r.msg.payload).get? j = some p → p.delta ≠ 0 ∧ p.capS ≠ 0 := fun j p hp => by
        rw [BMap.get?_insert] at hp
        split at hp
        · cases Option.some.inj hp
          exact ⟨hown.2 _ rfl, good_three' hown.1⟩
        · obtain ⟨a, ha, -, m, hm, hr⟩ := gather_get hps hp
          have hgm := hgot a ha
          cases ha2 : a.2 with
          | three m' =>
            rw [ha2] at hm hgm
            cases hm
            have : p.delta = m.delta ∧ p.capS = m.capS := by
              obtain ⟨_, _, hr⟩ := Out.bind_eq_ok.1 hr
              split at hr
              · cases hr
              · rw [← Out.ok.inj hr]
                exact ⟨rfl, rfl⟩
            exact ⟨this.1 ▸ hgm.2 _ rfl, this.2 ▸ good_three' hgm.1⟩
          | one _ => rw [ha2] at hm; cases hm
          | two _ => rw [ha2] at hm; cases hm
          | four _ => rw [ha2] at hm; cases hm
          | error _ => rw [ha2] at hm; cases hm
      have hval : ∀ f : Payload3 q G → G, (∀ j p, (ps.insert r.ctx.myId r.msg.payload).get? j = some p → f p ≠ 0) →
          0 ∉ ((ps.insert r.ctx.myId r.msg.payload).mapVals fun _ p => f p).values := fun f hf h0 => by
        obtain ⟨j, hj⟩ := BMap.mem_values.1 h0
        rw [BMap.get?_mapVals] at hj
        obtain ⟨p, hp, hp0⟩ := Option.map_eq_some_iff.1 hj
        exact hf j p hp hp0
      have h3 := finalizeResult_eq_ok.1 h3
      unfold finalize3 at h3
      dsimp only at h3
      split at h3
      · cases Out.ok.inj h3
        exact ⟨hs.2.2, hval _ fun j p hp => smul_ne_zero (hpay j p hp).1 hg, hg, hs.1.1⟩
      · split at h3
        · cases Out.ok.inj h3
          refine ⟨hs.2.1, hval _ fun j p hp => (hpay j p hp).2, ?_, hs.1.1⟩
          obtain ⟨k, hk⟩ := hs.1.2.2
          exact fun h0 => (good_three hown.1).1 (by rw [hk, show r.capGammaCombined = 0 from h0, smul_zero])
        · split at h3
          · cases h3
          · cases Out.ok.inj h3
  | four r =>
    obtain ⟨_, _, h⟩ := Out.bind_eq_ok.1 h
    obtain ⟨_, _, h⟩ := Out.bind_eq_ok.1 h
    cases Out.ok.inj h
  | error r m =>
    obtain ⟨_, _, h⟩ := Out.bind_eq_ok.1 h
    obtain ⟨_, _, h⟩ := Out.bind_eq_ok.1 h
    cases h

theorem err_hashed {m : MsgErr I G} (h : 0 ∉ errPoints m) {capX capS capG : G} (h1 : capX ≠ 0) (h2 : capS ≠ 0) (h3 : capG ≠ 0) :
    0 ∉ m.psiStar.hashed capX capS capG ∧ ∀ psi ∈ m.psis.values, 0 ∉ psi.hashed capX := by
  constructor
  · intro h0
    rcases List.mem_append.1 h0 with h0 | h0
    · exact h (List.mem_append_left _ h0)
    · simp only [List.mem_cons, List.not_mem_nil, or_false] at h0
      rcases h0 with h0 | h0 | h0
      · exact h1 h0.symm
      · exact h2 h0.symm
      · exact h3 h0.symm
  · intro psi hp h0
    rcases List.mem_append.1 h0 with h0 | h0
    · exact h (List.mem_append_right _ (List.mem_flatMap.2 ⟨psi, hp, h0⟩))
    · exact h1 (List.mem_singleton.1 h0).symm

theorem cleanAll_own (hg : E.C.g ≠ 0) {s : State q I Ep G} (hs : CleanAll E s) (hsend : ∀ a ∈ (machine E).send s, signingNoZero a.2) : 0 ∉ ownPoints E.C.g s := by
  cases s with
  | one r out => exact clean_own (s := .one r out) hg hs fun a ha => (hsend a ha).1
  | two r => exact clean_own (s := .two r) hg hs fun a ha => (hsend a ha).1
  | three r => exact clean_own hg hs.1 fun a ha => (hsend a ha).1
  | four r => exact List.not_mem_nil
  | error r m =>
    have hm := good_error (sent_all hs.2.2.2 (good := signingNoZero) hsend).1
    intro h
    unfold ownPoints at h
    dsimp only at h
    split at h
    · next capX capS hx hS =>
      obtain ⟨h1, h2⟩ := err_hashed hm (capX := capX) (capS := capS) (capG := r.capG) (fun h => hs.1 (h ▸ BMap.mem_values.2 ⟨_, hx⟩)) (fun h => hs.2.1 (h ▸ BMap.mem_values.2 ⟨_, hS⟩)) hs.2.2.1
      rcases List.mem_append.1 h with h | h
      · exact h1 h
      · obtain ⟨psi, hp, h⟩ := List.mem_flatMap.1 h
        exact h2 psi hp h
    · cases h

theorem cleanAll_read (hg : E.C.g ≠ 0) {s : State q I Ep G} (hs : CleanAll E s) (hsend : ∀ a ∈ (machine E).send s, signingNoZero a.2) {j : I} {m : Message q I G}
    (hm : signingNoZero m) : 0 ∉ readPoints E.C.g s j m := by
  cases s with
  | one r out => exact clean_read (s := .one r out) hg hs (fun a ha => (hsend a ha).1) hm.1
  | two r => exact clean_read (s := .two r) hg hs (fun a ha => (hsend a ha).1) hm.1
  | three r => exact clean_read hg hs.1 (fun a ha => (hsend a ha).1) hm.1
  | four r => cases m <;> exact List.not_mem_nil
  | error r m₀ =>
    cases m with
    | error m =>
      intro h
      unfold readPoints at h
      dsimp only at h
      split at h
      · next capX capS hx hS =>
        obtain ⟨h1, h2⟩ := err_hashed (good_error hm.1) (capX := capX) (capS := capS) (capG := r.capG) (fun h => hs.1 (h ▸ BMap.mem_values.2 ⟨_, hx⟩))
          (fun h => hs.2.1 (h ▸ BMap.mem_values.2 ⟨_, hS⟩)) hs.2.2.1
        rcases List.mem_append.1 h with h | h
        · exact h1 h
        · obtain ⟨e, he, h⟩ := List.mem_flatMap.1 h
          split at h
          · cases h
          · exact h2 e.2 (List.mem_map.2 ⟨e, he, rfl⟩) h
      · cases h
    | one _ => exact List.not_mem_nil
    | two _ => exact List.not_mem_nil
    | three _ => exact List.not_mem_nil
    | four _ => exact List.not_mem_nil

end Synedrion.Signing
