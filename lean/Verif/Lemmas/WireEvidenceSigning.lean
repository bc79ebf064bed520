import Verif.Lemmas.WireEvidenceSplits
import Verif.Lemmas.NetworkEvidenceSigning

/-!
# Lemmas: the parts of the serialized messages of signing
-/

set_option linter.unusedSectionVars false

namespace Synedrion

open Spec

variable {I G V Ep : Type} [LinearOrder I] {q : Nat}

theorem signing_splits (W : WireFormat G V) : Splits (I := I) (W.signingTransport (q := q)) Signing.Message.part (fun p r => (W.signing (ε := Unit) p r).dec) where
  parts := by
    rintro r ⟨e, nb, dm⟩ m h p
    rcases r with _ | _ | _ | _ | _ | _ | _ | r <;> rcases e with _ | e <;> rcases nb with _ | nb <;> rcases dm with _ | dm <;> first | (cases h; done) | skip
    · obtain ⟨n, hn, h⟩ := Option.bind_eq_some_iff.1 h
      obtain ⟨v, hv, rfl⟩ := Option.map_eq_some_iff.1 h
      cases p <;> first | rfl | exact hv | exact hn
    · obtain ⟨n, hn, h⟩ := Option.bind_eq_some_iff.1 h
      obtain ⟨v, hv, rfl⟩ := Option.map_eq_some_iff.1 h
      cases p <;> first | rfl | exact hv | exact hn
    · obtain ⟨n, hn, h⟩ := Option.bind_eq_some_iff.1 h
      obtain ⟨v, hv, rfl⟩ := Option.map_eq_some_iff.1 h
      cases p <;> first | rfl | exact hv | exact hn
    · obtain ⟨v, hv, rfl⟩ := Option.map_eq_some_iff.1 h
      cases p <;> first | rfl | exact hv
    · obtain ⟨v, hv, rfl⟩ := Option.map_eq_some_iff.1 h
      cases p <;> first | rfl | exact hv
    · obtain ⟨v, hv, rfl⟩ := Option.map_eq_some_iff.1 h
      cases p <;> first | rfl | exact hv
  echo := by
    rintro r ⟨e, nb, dm⟩ m h he
    rcases r with _ | _ | _ | _ | _ | _ | _ | r <;> rcases e with _ | e <;> rcases nb with _ | nb <;> rcases dm with _ | dm <;> first | (cases h; done) | (cases he; done) | skip
    · obtain ⟨n, hn, h⟩ := Option.bind_eq_some_iff.1 h
      obtain ⟨v, hv, rfl⟩ := Option.map_eq_some_iff.1 h
      rfl
    · obtain ⟨n, hn, h⟩ := Option.bind_eq_some_iff.1 h
      obtain ⟨v, hv, rfl⟩ := Option.map_eq_some_iff.1 h
      rfl
    · obtain ⟨n, hn, h⟩ := Option.bind_eq_some_iff.1 h
      obtain ⟨v, hv, rfl⟩ := Option.map_eq_some_iff.1 h
      rfl
    · obtain ⟨v, hv, rfl⟩ := Option.map_eq_some_iff.1 h
      rfl
    · obtain ⟨v, hv, rfl⟩ := Option.map_eq_some_iff.1 h
      rfl
  same := by
    rintro r ⟨e, nb, dm⟩ m ⟨e', nb', dm'⟩ m' h h' he
    rcases e' with _ | e'
    · rcases r with _ | _ | _ | _ | _ | _ | _ | r <;> rcases nb' with _ | nb' <;> rcases dm' with _ | dm' <;> first | (cases h'; done) | skip
      rcases e with _ | e <;> rcases nb with _ | nb <;> rcases dm with _ | dm <;> first | (cases he; done) | (cases h; done)
    · rfl
  pack := by
    intro r m m' d d' x h h' hx hx'
    cases m <;> cases m' <;> rcases r with _ | _ | _ | _ | _ | _ | _ | r <;> first | (cases hx; done) | (cases hx'; done) | skip
    · rename_i a b
      obtain ⟨e, he, hd⟩ := pack_echo2 (x := (W.signing (ε := Unit) (I := I) (q := q) .echo 1).enc a.echo) h
      obtain ⟨e', he', hd'⟩ := pack_echo2 (x := (W.signing (ε := Unit) (I := I) (q := q) .echo 1).enc b.echo) h'
      have hab : a.echo = b.echo := Option.some.inj (hx.trans hx'.symm)
      rw [hab, he'] at he
      rw [hd, hd', Out.ok.inj he]
    · rename_i a b
      obtain ⟨e, he, hd⟩ := pack_echo2 (x := (W.signing (ε := Unit) (I := I) (q := q) .echo 2).enc a.echo) h
      obtain ⟨e', he', hd'⟩ := pack_echo2 (x := (W.signing (ε := Unit) (I := I) (q := q) .echo 2).enc b.echo) h'
      have hab : a.echo = b.echo := Option.some.inj (hx.trans hx'.symm)
      rw [hab, he'] at he
      rw [hd, hd', Out.ok.inj he]
    · rename_i a b
      obtain ⟨e, he, hd⟩ := pack_echo2 (x := (W.signing (ε := Unit) (I := I) (q := q) .echo 3).enc a.delta) h
      obtain ⟨e', he', hd'⟩ := pack_echo2 (x := (W.signing (ε := Unit) (I := I) (q := q) .echo 3).enc b.delta) h'
      have hab : a.delta = b.delta := Option.some.inj (hx.trans hx'.symm)
      rw [hab, he'] at he
      rw [hd, hd', Out.ok.inj he]
    · cases hx
      cases hx'
      exact congrArg Packet.echo (Out.ok.inj (h.symm.trans h'))
    · cases hx
      cases hx'
      exact congrArg Packet.echo (Out.ok.inj (h.symm.trans h'))

namespace Signing

variable [AddCommGroup G] [Fact q.Prime] [Module (ZMod q) G] [DecidableEq G] {E : Env q I Ep G}

/-- Checks need a part of the refused message. -/
theorem verify_current {named : Bool} {a : AssocData q I Ep G} {j : I} {e : Err I} {ev : Package I (Parts q I G) e.round} (h : verifyMessages E named a j e ev = .ok true) :
    ∃ p x, ev.current p = some x := by
  cases e with
  | r1EncElg0Failed | r1EncElg1Failed | r2WrongIdsD | r2WrongIdsF | r2WrongIdsPsi =>
    obtain ⟨x, hx, -⟩ := Out.bind_eq_ok.1 h
    exact ⟨_, x, Out.ofOption_eq_ok.1 hx⟩
  | r2AffGPsiFailed k | r2AffGHatPsiFailed k =>
    iterate 2 (obtain ⟨_, _, h⟩ := Out.bind_eq_ok.1 h)
    obtain ⟨x, hx, -⟩ := Out.bind_eq_ok.1 h
    exact ⟨_, x, Out.ofOption_eq_ok.1 hx⟩
  | r2ElogFailed =>
    obtain ⟨_, _, h⟩ := Out.bind_eq_ok.1 h
    obtain ⟨x, hx, -⟩ := Out.bind_eq_ok.1 h
    exact ⟨_, x, Out.ofOption_eq_ok.1 hx⟩
  | r3ElogFailed =>
    iterate 2 (obtain ⟨_, _, h⟩ := Out.bind_eq_ok.1 h)
    obtain ⟨x, hx, -⟩ := Out.bind_eq_ok.1 h
    exact ⟨_, x, Out.ofOption_eq_ok.1 hx⟩
  | r4InvalidSignatureShare =>
    iterate 5 (obtain ⟨_, _, h⟩ := Out.bind_eq_ok.1 h)
    obtain ⟨x, hx, -⟩ := Out.bind_eq_ok.1 h
    exact ⟨_, x, Out.ofOption_eq_ok.1 hx⟩
  | decFailed hat =>
    cases hat <;>
    · iterate 5 (obtain ⟨_, _, h⟩ := Out.bind_eq_ok.1 h)
      obtain ⟨x, hx, -⟩ := Out.bind_eq_ok.1 h
      exact ⟨_, x, Out.ofOption_eq_ok.1 hx⟩
  | wrongIdsPsi hat =>
    cases hat <;>
    · obtain ⟨x, hx, -⟩ := Out.bind_eq_ok.1 h
      exact ⟨_, x, Out.ofOption_eq_ok.1 hx⟩
  | affGStarFailed hat k =>
    cases hat
    · iterate 4 (obtain ⟨_, _, h⟩ := Out.bind_eq_ok.1 h)
      obtain ⟨x, hx, -⟩ := Out.bind_eq_ok.1 h
      exact ⟨_, x, Out.ofOption_eq_ok.1 hx⟩
    · iterate 3 (obtain ⟨_, _, h⟩ := Out.bind_eq_ok.1 h)
      obtain ⟨x, hx, -⟩ := Out.bind_eq_ok.1 h
      exact ⟨_, x, Out.ofOption_eq_ok.1 hx⟩

/-- Combined echos of the current and later rounds, and of the rounds after the third one, are not looked at. -/
theorem verify_below {named : Bool} {a : AssocData q I Ep G} {j : I} {e : Err I} {ev : Package I (Parts q I G) e.round} :
    verifyMessages E named a j e (ev.below (min e.round 4)) = verifyMessages E named a j e ev := by
  cases e with
  | decFailed hat => cases hat <;> rfl
  | wrongIdsPsi hat => cases hat <;> rfl
  | affGStarFailed hat k => cases hat <;> rfl
  | _ => rfl

/-- The first three rounds follow each other. -/
theorem replay_round {honest : Set I} {r : I → Round1 q I Ep G} {init : I → State q I Ep G} (hinit : ∀ i ∈ honest, begin E (r i) = .ok (init i)) {i : I} (hi : i ∈ honest)
    {l : List (List (I × Message q I G))} {s : State q I Ep G} (h : (machine E).replay (init i) l = .ok (.inl s)) :
    l.length ≤ 3 ∧ ((machine E).round s = l.length + 1 ∨ l.length = 3 ∧ 4 < (machine E).round s) := by
  obtain ⟨out, ho, hf⟩ := fol hinit hi h
  cases hf with
  | one => exact ⟨by simp, .inl rfl⟩
  | two => exact ⟨by simp, .inl rfl⟩
  | three => exact ⟨by simp, .inl rfl⟩
  | four => exact ⟨by simp, .inl rfl⟩
  | error in1 in2 in3 re m h4 hm =>
    refine ⟨by simp, .inr ⟨rfl, ?_⟩⟩
    show 4 < (if re.hat then 6 else 5)
    cases re.hat <;> simp

theorem stage_expected {r : Round1 q I Ep G} (hno : r.ctx.myId ∉ r.ctx.otherIds) {in1 : List (I × Msg1 q G)} {in2 : List (I × Msg2 q I G)} {in3 : List (I × Msg3 q G)} {k : Nat} {s : State q I Ep G}
    (hs : Stage E r in1 in2 in3 k s) (hr : (machine E).round s ≤ 4) : (machine E).expected s = r.ctx.otherIds := by
  cases hs with
  | one out ho => rfl
  | two r2 h2 => exact congrArg Context.otherIds (toRound2_ok h2)
  | three r3 h3 => exact congrArg Context.otherIds (toRound3_ok h3).1
  | four r4 h4 => exact congrArg Context.otherIds (toRound4_ctx h4 hno)
  | error re m h4 hm =>
    have : 5 ≤ (machine E).round (.error re m) := by
      show 5 ≤ (if re.hat then 6 else 5)
      cases re.hat <;> simp
    omega

end Signing

end Synedrion
