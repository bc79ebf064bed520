import Verif.Lemmas.NetworkBlame
import Verif.Spec.SigningBranch

/-!
# Where signers in an execution are after round 3
-/

set_option linter.unusedSectionVars false

namespace Synedrion.Signing

variable {q : Nat} [Fact q.Prime] {I Ep G : Type} [LinearOrder I] [AddCommGroup G] [Module (ZMod q) G] [DecidableEq G] {E : Env q I Ep G}

/-- The number of the round after round 3 -/
def roundAfter : Spec.Branch → Nat
  | .signatureShares => 4
  | .wrongNonce => 5
  | .wrongKey => 6

variable {honest : Set I} {r : I → Round1 q I Ep G} {init : I → State q I Ep G} {n : Spec.Net I (Message q I G) (State q I Ep G) (Err I) (RecoverableSignature q)}

theorem follows_of_replay (hinit : ∀ i ∈ honest, begin E (r i) = .ok (init i)) {i : I} (hi : i ∈ honest) {l : List (List (I × Message q I G))} {s : State q I Ep G}
    (hx : (machine E).replay (init i) l = .ok (.inl s)) : ∃ out, send1 E (r i) = .ok out ∧ Follows E (r i) out l s := by
  have := hinit i hi
  unfold begin at this
  rw [Out.bind_eq_ok] at this
  obtain ⟨out, ho, he⟩ := this
  rw [← Out.ok.inj he] at hx
  rcases replay_inv ho hx with ⟨s', hs, hf⟩ | ⟨_, hs, _⟩
  · cases hs
    exact ⟨out, ho, hf⟩
  · cases hs

theorem begun_after3 (hinit : ∀ i ∈ honest, begin E (r i) = .ok (init i)) (h : (machine E).Reachable honest init n) {i : I} (hi : i ∈ honest) {s : State q I Ep G} (hs : s ∈ n.begun i)
    (h4 : 4 ≤ (machine E).round s) : ∃ a, toRound4 E (r i) (got1 n i) (got2 n i) (got3 n i) = .ok a ∧ (machine E).round s = roundAfter (Spec.branchOf a) := by
  obtain ⟨l, hl, he⟩ := (h.inv i).begun s hs
  obtain ⟨out, ho, hf⟩ := follows_of_replay hinit hi he
  unfold got1 got2 got3
  cases hf with
  | one => exact absurd h4 (by show ¬ 4 ≤ 1; omega)
  | two => exact absurd h4 (by show ¬ 4 ≤ 2; omega)
  | three => exact absurd h4 (by show ¬ 4 ≤ 3; omega)
  | four in1 in2 in3 r4 h =>
    refine ⟨.round4 r4, ?_, rfl⟩
    simp only [Spec.Machine.nth_of_prefix hl (k := 0) (by simp), Spec.Machine.nth_of_prefix hl (k := 1) (by simp), Spec.Machine.nth_of_prefix hl (k := 2) (by simp)]
    simp only [List.getElem_cons_zero, List.getElem_cons_succ]
    rw [parts_one, parts_two, parts_three]
    exact h
  | error in1 in2 in3 re m h =>
    refine ⟨.error re, ?_, ?_⟩
    · simp only [Spec.Machine.nth_of_prefix hl (k := 0) (by simp), Spec.Machine.nth_of_prefix hl (k := 1) (by simp), Spec.Machine.nth_of_prefix hl (k := 2) (by simp)]
      simp only [List.getElem_cons_zero, List.getElem_cons_succ]
      rw [parts_one, parts_two, parts_three]
      exact h
    · show (if re.hat then 6 else 5) = roundAfter (if re.hat then .wrongKey else .wrongNonce)
      split <;> rfl

theorem past_three (hinit : ∀ i ∈ honest, begin E (r i) = .ok (init i)) (h : (machine E).Reachable honest init n) {i j : I} (hi : i ∈ honest) {m : Msg3 q G} (hm : (j, m) ∈ got3 n i) :
    ∃ r3 got, (.three r3, got) ∈ n.past i ∧ toRound3 E (r i) (got1 n i) (got2 n i) = .ok r3 ∧ (j, .three m) ∈ got := by
  have hm := mem_parts three_inj hm
  obtain ⟨s, got, hp, hg, hr, -⟩ := h.of_mem_nth hm
  obtain ⟨out, ho, hf⟩ := follows_of_replay hinit hi hr
  have hlen : 2 < ((n.past i).map Prod.snd).length := by
    by_contra hk
    unfold Spec.Machine.nth at hm
    rw [List.getElem?_eq_none (by omega)] at hm
    simp at hm
  have hlen2 : (((n.past i).map Prod.snd).take 2).length = 2 := by rw [List.length_take]; omega
  have hpre : ((n.past i).map Prod.snd).take 2 <+: (n.past i).map Prod.snd := List.take_prefix _ _
  generalize ((n.past i).map Prod.snd).take 2 = l at hf hlen2 hpre
  cases hf with
  | three in1 in2 r3 h3 =>
    refine ⟨r3, got, hp, ?_, hg ▸ hm⟩
    unfold got1 got2
    simp only [Spec.Machine.nth_of_prefix hpre (k := 0) (by simp), Spec.Machine.nth_of_prefix hpre (k := 1) (by simp)]
    simp only [List.getElem_cons_zero, List.getElem_cons_succ]
    rw [parts_one, parts_two]
    exact h3
  | _ => simp at hlen2

theorem toRound2_capGamma {r : Round1 q I Ep G} {in1 : List (I × Msg1 q G)} {r2 : Round2 q I Ep G} (h : toRound2 E r in1 = .ok r2) : r2.capGamma = r.ctx.d.gamma • E.C.g := by
  unfold toRound2 finalize1 at h
  simp only [Out.bind_eq_ok, finalizeResult_eq_ok] at h
  obtain ⟨_, _, _, _, _, _, _, _, _, _, _, _, he⟩ := h
  cases he
  rfl

end Synedrion.Signing
