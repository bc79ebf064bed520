import Verif.Lemmas.Signing

/-!
# The combined nonce point of signing
-/

set_option linter.unusedSectionVars false

namespace Synedrion.Signing

open Synedrion Spec

variable {q : Nat} [Fact q.Prime] {I Ep G : Type} [LinearOrder I] [AddCommGroup G] [Module (ZMod q) G] [DecidableEq G]

/-- The payload of round 2 carries the broadcast point. -/
theorem recv2_nonce {E : Env q I Ep G} {r : Round2 q I Ep G} {sender : I} {m : Msg2 q I G} {p : Payload2 q I G} (h : recv2 E r sender m = .ok p) :
    p.capGamma = m.echo.capGamma := by
  unfold recv2 at h
  simp only at h
  obtain ⟨_, _, h⟩ := Out.bind_eq_ok.1 h
  split at h
  · cases h
  split at h
  · cases h
  split at h
  · cases h
  obtain ⟨_, _, h⟩ := Out.bind_eq_ok.1 h
  obtain ⟨_, _, h⟩ := Out.bind_eq_ok.1 h
  obtain ⟨_, _, h⟩ := Out.bind_eq_ok.1 h
  split at h
  · cases h
  obtain ⟨_, _, h⟩ := Out.bind_eq_ok.1 h
  obtain ⟨_, _, h⟩ := Out.bind_eq_ok.1 h
  obtain ⟨_, _, h⟩ := Out.bind_eq_ok.1 h
  obtain ⟨_, _, h⟩ := Out.bind_eq_ok.1 h
  cases h
  rfl

/-- The combined nonce point is the sum of the points broadcast in round 2. -/
theorem toRound3_nonce {E : Env q I Ep G} {r : Round1 q I Ep G} (hme : r.ctx.myId ∉ r.ctx.otherIds) {in1 : List (I × Msg1 q G)} {in2 : List (I × Msg2 q I G)}
    {r3 : Round3 q I Ep G} (h : toRound3 E r in1 in2 = .ok r3) (bc : I → G) (hown : bc r.ctx.myId = r.ctx.d.gamma • E.C.g)
    (hbc : ∀ a ∈ in2, a.2.echo.capGamma = bc a.1) :
    r3.capGammaCombined = ∑ i ∈ insert r.ctx.myId r.ctx.otherIds, bc i := by
  unfold toRound3 at h
  simp only [Out.bind_eq_ok, finalizeResult_eq_ok] at h
  obtain ⟨r2, h2, pl, hc, hf⟩ := h
  have hctx := toRound2_ok h2
  have hG : r2.capGamma = r.ctx.d.gamma • E.C.g := by
    unfold toRound2 finalize1 at h2
    simp only [Out.bind_eq_ok, finalizeResult_eq_ok] at h2
    obtain ⟨_, _, _, _, _, _, _, _, _, _, _, _, he⟩ := h2
    cases he
    rfl
  unfold finalize2 at hf
  simp only [Out.bind_eq_ok] at hf
  obtain ⟨_, _, he⟩ := hf
  cases he
  simp only [hctx, hG]
  rw [hctx] at hc
  obtain ⟨_, hto, hks, hall⟩ := collect_eq_ok.1 hc
  have htab : (pl.mapVals fun _ p => p.capGamma).insert r.ctx.myId (r.ctx.d.gamma • E.C.g) = BMap.tabulate (insert r.ctx.myId r.ctx.otherIds) bc := by
    apply BMap.eq_tabulate_of
    · rw [BMap.keySet_insert, BMap.keySet_mapVals, hks]
    · intro i hi
      rw [BMap.get?_insert]
      split
      · rename_i he
        rw [he, hown]
      · rename_i hne
        have hi' := (Finset.mem_insert.1 hi).resolve_left hne
        rw [← hto, List.mem_toFinset, List.mem_map] at hi'
        obtain ⟨a, ha, rfl⟩ := hi'
        obtain ⟨p, hp, hget⟩ := hall a ha
        rw [BMap.get?_mapVals, hget, Option.map_some, recv2_nonce hp, hbc a ha]
  rw [htab, BMap.sum_values_tabulate]

end Synedrion.Signing
