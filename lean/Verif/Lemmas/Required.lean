import Verif.Spec.Required
import Verif.Lemmas.Session

/-!
# Lemmas about the messages attached to evidence
-/

set_option linter.unusedSectionVars false

namespace Synedrion

variable {I : Type} [LinearOrder I] {M : Part → Nat → Type} {n : Nat}

theorem everything_cur (t : Transcript I M) (part : Part) : (everything t n).cur part = Out.ofOption () (t.msg n part) := rfl

theorem everything_prev (t : Transcript I M) (r : Nat) (part : Part) : (everything t n).prev r part = Out.ofOption () (t.msg r part) := rfl

theorem everything_echos (t : Transcript I M) (r : Nat) : (everything t n).echos r = .ok (t.combined r) := rfl

theorem contains_cur {p : Package I M n} {t : Transcript I M} {req : Required} (h : Spec.Contains p t req) {part : Part} (hp : part ∈ req.current) :
    p.cur part = Out.ofOption () (t.msg n part) := congrArg (Out.ofOption ()) (h.1 part hp)

theorem contains_prev {p : Package I M n} {t : Transcript I M} {req : Required} (h : Spec.Contains p t req) {r : Nat} {part : Part} {ps : List Part}
    (hr : (r, ps) ∈ req.previous) (hp : part ∈ ps) : p.prev r part = Out.ofOption () (t.msg r part) := by
  obtain ⟨msg, h1, h2⟩ := h.2.1 _ hr
  show (Out.ofOption () (p.previous r)).bind _ = _
  rw [show p.previous r = some msg from h1, Out.ofOption_some, Out.bind_ok, h2 part hp]

theorem contains_echos {p : Package I M n} {t : Transcript I M} {req : Required} (h : Spec.Contains p t req) {r : Nat} (hr : r ∈ req.echos) :
    p.echos r = .ok (t.combined r) := by
  show Out.ofOption () (p.combined r) = _
  rw [h.2.2 r hr, Out.ofOption_some]

/-- The declared messages read in the same way from any package that contains them -/
theorem contains_reads {p : Package I M n} {t : Transcript I M} {req : Required} (h : Spec.Contains p t req) :
    (∀ part, part ∈ req.current → p.cur part = (everything t n).cur part) ∧
    (∀ r part, (∃ x ∈ req.previous, x.1 = r ∧ part ∈ x.2) → p.prev r part = (everything t n).prev r part) ∧
    (∀ r, r ∈ req.echos → p.echos r = (everything t n).echos r) :=
  ⟨fun _ hp => contains_cur h hp, fun _ _ ⟨⟨_, _⟩, hx, rfl, hp⟩ => contains_prev h hx hp, fun _ hr => contains_echos h hr⟩

/-- What is attached is genuine. -/
theorem supply_genuine (t : Transcript I M) (req : Required) : Spec.Genuine (supply t n req) t := by
  refine ⟨fun part m h => ?_, fun r msg part m h hm => ?_, fun r echos h => ?_⟩
  · simp only [supply] at h
    split at h
    · exact h
    · cases h
  · simp only [supply, Option.map_eq_some_iff] at h
    obtain ⟨ps, _, rfl⟩ := h
    simp only at hm
    split at hm
    · exact hm
    · cases hm
  · simp only [supply] at h
    split at h
    · exact Option.some.inj h
    · cases h

/-- What is attached contains all that is declared, if every round is declared once. -/
theorem supply_contains (t : Transcript I M) (req : Required) (hn : (req.previous.map Prod.fst).Nodup) : Spec.Contains (supply t n req) t req := by
  refine ⟨fun part hp => by simp only [supply, if_pos hp], fun x hx => ?_, fun r hr => by simp only [supply, if_pos hr]⟩
  have hl : ∀ l : List (Nat × List Part), (l.map Prod.fst).Nodup → x ∈ l → l.lookup x.1 = some x.2 := by
    intro l
    induction l with
    | nil => intro _ h; cases h
    | cons y l ih =>
      intro hn h
      rw [List.map_cons, List.nodup_cons] at hn
      rcases List.mem_cons.1 h with rfl | h
      · rw [List.lookup_cons_self]
      · have hne : x.1 ≠ y.1 := fun he => hn.1 (he ▸ List.mem_map_of_mem h)
        rw [List.lookup_cons, beq_false_of_ne hne]
        exact ih hn.2 h
  refine ⟨fun part => if part ∈ x.2 then t.msg x.1 part else none, ?_, fun part hp => if_pos hp⟩
  show (req.previous.lookup x.1).map _ = _
  rw [hl _ hn hx, Option.map_some]

end Synedrion
