import Verif.Lemmas.Signing
import Verif.Lemmas.SigningAgreement
import Verif.Lemmas.SigningEvidence

/-!
# The message in the rounds of signing
-/

set_option linter.unusedSectionVars false

namespace Synedrion.Signing

open Synedrion Spec

variable {q : Nat} [Fact q.Prime] {I Ep G : Type} [LinearOrder I] [AddCommGroup G] [Module (ZMod q) G] [DecidableEq G]

/-- The same state with another message -/
def Round1.withMessage (r : Round1 q I Ep G) (m : ZMod q) : Round1 q I Ep G := { r with ctx := { r.ctx with message := m } }

@[inherit_doc Round1.withMessage]
def Round2.withMessage (r : Round2 q I Ep G) (m : ZMod q) : Round2 q I Ep G := { r with ctx := { r.ctx with message := m } }

@[inherit_doc Round1.withMessage]
def Round3.withMessage (r : Round3 q I Ep G) (m : ZMod q) : Round3 q I Ep G := { r with ctx := { r.ctx with message := m } }

@[inherit_doc Round1.withMessage]
def ErrRound.withMessage (r : ErrRound q I Ep G) (m : ZMod q) : ErrRound q I Ep G := { r with ctx := { r.ctx with message := m } }

/-- The same state with another message: the share changes by `tildeK` times the difference. -/
def Round4.withMessage (E : Env q I Ep G) (r : Round4 q I Ep G) (m : ZMod q) : Round4 q I Ep G :=
  { r with ctx := { r.ctx with message := m }, sigma := r.tildeK * m + r.tildeChi * E.C.xCoordinate q r.capGammaCombined }

@[inherit_doc Round4.withMessage]
def After3.withMessage (E : Env q I Ep G) (m : ZMod q) : After3 q I Ep G → After3 q I Ep G
  | .round4 r => .round4 (r.withMessage E m)
  | .error r => .error (r.withMessage m)

theorem start_withMessage {E : Env q I Ep G} {epidOf : BMap I G → BMap I PublicAux → Ep} {message : ZMod q} {keyShare : KeyShare I (ZMod q) G}
    {auxInfo : AuxInfo I PaillierKey PublicAux} {id : I} {d : Draws q I} {r : Round1 q I Ep G}
    (h : start E epidOf message keyShare auxInfo id d = .ok r) (m : ZMod q) :
    start E epidOf m keyShare auxInfo id d = .ok (r.withMessage m) := by
  unfold start at h ⊢
  split at h
  · cases h
  · rename_i hne
    rw [if_neg hne]
    simp only [Out.bind_eq_ok] at h ⊢
    obtain ⟨a1, h1, a2, h2, a3, h3, a4, h4, a5, h5, he⟩ := h
    cases he
    exact ⟨a1, h1, a2, h2, a3, h3, a4, h4, a5, h5, rfl⟩

theorem finalize1_withMessage (E : Env q I Ep G) (r : Round1 q I Ep G) (m : ZMod q) (p : BMap I (Payload1 G)) :
    finalize1 E (r.withMessage m) p = (finalize1 E r p).bind fun r2 => .ok (r2.withMessage m) := by
  unfold finalize1
  simp only [Out.bind_assoc, Out.bind_ok]
  rfl

theorem finalize2_withMessage (E : Env q I Ep G) (r : Round2 q I Ep G) (m : ZMod q) (p : BMap I (Payload2 q I G)) :
    finalize2 E (r.withMessage m) p = (finalize2 E r p).bind fun r3 => .ok (r3.withMessage m) := by
  unfold finalize2
  simp only [Out.bind_assoc, Out.bind_ok]
  rfl

theorem finalize3_withMessage (E : Env q I Ep G) (r : Round3 q I Ep G) (m : ZMod q) (p : BMap I (Payload3 q G)) :
    finalize3 E (r.withMessage m) p = (finalize3 E r p).bind fun a => .ok (a.withMessage E m) := by
  unfold finalize3
  simp only [Round3.withMessage, apply_ite (fun x : Out LocalErr (After3 q I Ep G) => x.bind fun a => .ok (a.withMessage E m)), Out.bind_ok, Out.bind_err]
  rfl

theorem finalizeResult_bind {α β E' : Type} (x : Out LocalErr α) (f : α → Out LocalErr β) :
    (finalizeResult (x.bind f) : Out (Abort I E') β) = (finalizeResult x).bind fun a => finalizeResult (f a) := by
  cases x <;> rfl

theorem toRound2_withMessage (E : Env q I Ep G) (r : Round1 q I Ep G) (m : ZMod q) (in1 : List (I × Msg1 q G)) :
    toRound2 E (r.withMessage m) in1 = (toRound2 E r in1).bind fun r2 => .ok (r2.withMessage m) := by
  unfold toRound2
  simp only [Out.bind_assoc, finalize1_withMessage, finalizeResult_bind]
  rfl

theorem toRound3_withMessage (E : Env q I Ep G) (r : Round1 q I Ep G) (m : ZMod q) (in1 : List (I × Msg1 q G)) (in2 : List (I × Msg2 q I G)) :
    toRound3 E (r.withMessage m) in1 in2 = (toRound3 E r in1 in2).bind fun r3 => .ok (r3.withMessage m) := by
  unfold toRound3
  simp only [Out.bind_assoc, toRound2_withMessage, finalize2_withMessage, finalizeResult_bind, Out.bind_ok]
  rfl

theorem toRound4_withMessage (E : Env q I Ep G) (r : Round1 q I Ep G) (m : ZMod q) (in1 : List (I × Msg1 q G)) (in2 : List (I × Msg2 q I G))
    (in3 : List (I × Msg3 q G)) :
    toRound4 E (r.withMessage m) in1 in2 in3 = (toRound4 E r in1 in2 in3).bind fun a => .ok (a.withMessage E m) := by
  unfold toRound4
  simp only [Out.bind_assoc, toRound3_withMessage, finalize3_withMessage, finalizeResult_bind, Out.bind_ok]
  rfl

theorem recv3_payload {E : Env q I Ep G} {r : Round3 q I Ep G} {j : I} {m : Msg3 q G} {p : Payload3 q G} (h : recv3 E r j m = .ok p) : p = m.payload := by
  unfold recv3 at h
  obtain ⟨_, _, h⟩ := Out.bind_eq_ok.1 h
  split at h
  · cases h
  · cases h; rfl

/-- The sum of the deltas of round 3 -/
theorem delta_sum {E : Env q I Ep G} {r3 : Round3 q I Ep G} {others : Finset I} {me : I} (hme : me ∉ others) {in3 : List (I × Msg3 q G)}
    {pl : BMap I (Payload3 q G)} (hc : collect others (recv3 E r3) in3 = .ok pl) (deltas : I → ZMod q) (hown : deltas me = r3.msg.delta)
    (hin : ∀ a ∈ in3, a.2.delta = deltas a.1) :
    r3.msg.delta + (pl.values.map fun p => p.delta).sum = ∑ i ∈ insert me others, deltas i := by
  obtain ⟨nd, ex, ks, -⟩ := collect_eq_ok.1 hc
  rw [collect_sum (f := fun p : Payload3 q G => p.delta) (φ := fun m : Msg3 q G => m.delta) hc fun a _ p hr => by rw [recv3_payload hr]; rfl,
    Finset.sum_insert hme, hown, ← ex, List.sum_toFinset _ nd, List.map_map]
  congr 2
  exact List.map_congr_left fun a ha => hin a ha

end Synedrion.Signing
