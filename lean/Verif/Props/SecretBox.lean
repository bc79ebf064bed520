import Verif.Lemmas.SecretBox

/-!
# C89: secrets are wiped when they are dropped
-/

namespace Synedrion.Props

open Spec SecretBox SecretOp

section

variable {T : Type} [Zero T] (A : Arith T)

/-- **C89 (values).** After any sequence of operations on secrets, each that exists has the value that the same operations on plain values give, and every operation that may be called next
ends without using memory that was given up, and gives a new secret or shows something as it should. -/
theorem C89_operations (m : Mem T) (vals : Plain T) (h : Reached A (fun _ => True) m vals) :
    (∀ a v, vals a = some v ↔ m[a]? = some ⟨v, false⟩) ∧
    ∀ op, Fits op vals → ∃ new m', op.run A m = some ((new, shown A (fun a => (vals a).getD 0) op), m') ∧
      new.isSome = (result A (fun a => (vals a).getD 0) op).isSome ∧ (∀ a, new = some a → vals a = none ∨ a ∈ moved op) ∧ Reached A (fun _ => True) m' (after A op vals new) := by
  have hi := reached_inv (w := fun _ => True) (fun h => h.elim fun _ h => absurd trivial h) h
  refine ⟨hi.1, fun op hf => ?_⟩
  obtain ⟨⟨new, out⟩, m', vals', h1, -, -, h3, h4, h5, h6⟩ := does_run (A := A) (w := fun _ => True) hf (fun h => h.elim fun _ h => absurd trivial h) m hi.1 hi.2
  refine ⟨new, m', ?_, h3, h6, .step m vals op new out m' h trivial hf h1⟩
  rw [h1, ← h4]

/-- **C89 (no traces).** After any sequence of operations other than `neg` and `to_montgomery`, all memory that does not hold a secret that still exists is zero: this includes the variables and boxes that the
operations themselves used. In particular all memory is zero once all secrets are dropped.

The full property is this for all operations. It is false for the other two, see below. -/
theorem C89_no_traces_partial (m : Mem T) (vals : Plain T) (h : Reached A Careful m vals) :
    (∀ a c, m[a]? = some c → vals a = none → c.value = 0) ∧ ((∀ a, vals a = none) → ∀ c ∈ m, c.value = 0) := by
  have hi := reached_inv (w := fun _ => False) (fun _ _ h => h) h
  have key : ∀ a c, m[a]? = some c → vals a = none → c.value = 0 := by
    intro a c hc ha
    obtain ⟨v, f⟩ := c
    cases f with
    | true => exact (hi.2 _ (List.mem_of_getElem? hc) rfl).resolve_right id
    | false => rw [(hi.1 a v).2 hc] at ha; cases ha
  refine ⟨key, fun hall c hc => ?_⟩
  obtain ⟨a, ha⟩ := List.mem_iff_getElem?.1 hc
  exact key a c ha (hall a)

/-- `neg` gives a clone of the secret to the negation of the wrapped type; the clone stays in memory after all secrets are dropped. -/
theorem C89_neg_leaves_copy (v : T) : ∃ m, Reached A (fun _ => True) m (fun _ => none) ∧ ∃ c ∈ m, c.value = v := by
  have h1 := Reached.step (A := A) (kind := fun _ => True) _ _ (.init v) (some 1) none [⟨0, true⟩, ⟨v, false⟩] .start trivial (by simp [Fits, moved, borrowed, changed]) rfl
  have h2 := Reached.step _ _ (.neg 1) (some 4) none [⟨0, true⟩, ⟨v, false⟩, ⟨v, true⟩, ⟨0, true⟩, ⟨A.neg v, false⟩] h1 trivial
    (by simp [Fits, moved, borrowed, changed, after, result]) rfl
  have h3 := Reached.step _ _ (.drop 4) none none [⟨0, true⟩, ⟨v, false⟩, ⟨v, true⟩, ⟨0, true⟩, ⟨0, true⟩] h2 trivial (by simp [Fits, moved, borrowed, changed, after, result]) rfl
  have h4 := Reached.step _ _ (.drop 1) none none [⟨0, true⟩, ⟨0, true⟩, ⟨v, true⟩, ⟨0, true⟩, ⟨0, true⟩] h3 trivial (by simp [Fits, moved, borrowed, changed, after, result]) rfl
  refine ⟨[⟨0, true⟩, ⟨0, true⟩, ⟨v, true⟩, ⟨0, true⟩, ⟨0, true⟩], ?_, ⟨v, true⟩, by simp, rfl⟩
  refine Eq.mp (congrArg _ ?_) h4
  symm
  funext b
  by_cases b1 : b = 1
  · subst b1; simp [after, moved]
  · by_cases b4 : b = 4
    · subst b4; simp [after, moved, changed]
    · simp [after, moved, changed, b1, b4, Ne.symm b1, Ne.symm b4]

/-- The same for `to_montgomery`, as the comment in the code says. -/
theorem C89_montgomery_leaves_copy (v p : T) : ∃ m, Reached A (fun _ => True) m (fun _ => none) ∧ ∃ c ∈ m, c.value = v := by
  have h1 := Reached.step (A := A) (kind := fun _ => True) _ _ (.init v) (some 1) none [⟨0, true⟩, ⟨v, false⟩] .start trivial (by simp [Fits, moved, borrowed, changed]) rfl
  have h2 := Reached.step _ _ (.toMontgomery 1 p) (some 4) none [⟨0, true⟩, ⟨v, false⟩, ⟨v, true⟩, ⟨0, true⟩, ⟨A.toMontgomery v p, false⟩] h1 trivial
    (by simp [Fits, moved, borrowed, changed, after, result]) rfl
  have h3 := Reached.step _ _ (.drop 4) none none [⟨0, true⟩, ⟨v, false⟩, ⟨v, true⟩, ⟨0, true⟩, ⟨0, true⟩] h2 trivial (by simp [Fits, moved, borrowed, changed, after, result]) rfl
  have h4 := Reached.step _ _ (.drop 1) none none [⟨0, true⟩, ⟨0, true⟩, ⟨v, true⟩, ⟨0, true⟩, ⟨0, true⟩] h3 trivial (by simp [Fits, moved, borrowed, changed, after, result]) rfl
  refine ⟨[⟨0, true⟩, ⟨0, true⟩, ⟨v, true⟩, ⟨0, true⟩, ⟨0, true⟩], ?_, ⟨v, true⟩, by simp, rfl⟩
  refine Eq.mp (congrArg _ ?_) h4
  symm
  funext b
  by_cases b1 : b = 1
  · subst b1; simp [after, moved]
  · by_cases b4 : b = 4
    · subst b4; simp [after, moved, changed]
    · simp [after, moved, changed, b1, b4, Ne.symm b1, Ne.symm b4]

end

/-! ### A concrete sequence -/

section Concrete

private def ints : Arith Int where
  neg := fun a => -a
  wrappingNeg := fun a => -a
  wrappingAdd := (· + ·)
  wrappingSub := (· - ·)
  wrappingMul := (· * ·)
  toWide := id
  add := (· + ·)
  sub := (· - ·)
  mul := (· * ·)
  div := (· / ·)
  rem := (· % ·)
  retrieve := id
  pow := fun a e => a ^ e.toNat
  toMontgomery := fun a _ => a
  encode := fun a => a + 1
  decode := fun b => if 1 ≤ b then some (b - 1) else none
  smul := (· * ·)
  generator := 3
  order := 11
  lastBytes := id
  putLastBytes := fun _ b => b

/-- Two secrets 20 and 5 are made; the scalar of the first, 9, is added to the second, which is given away; both other secrets are left. -/
example : ∃ m vals, Reached ints Careful m vals ∧ vals 1 = some 20 ∧ vals 3 = none ∧ vals 8 = some 14 ∧ (m.map Cell.value) = [0, 20, 0, 0, 0, 0, 0, 0, 14] := by
  have h1 := Reached.step (A := ints) (kind := Careful) _ _ (.init 20) (some 1) none [⟨0, true⟩, ⟨20, false⟩] .start trivial (by simp [Fits, moved, borrowed, changed]) rfl
  have h2 := Reached.step _ _ (.init 5) (some 3) none [⟨0, true⟩, ⟨20, false⟩, ⟨0, true⟩, ⟨5, false⟩] h1 trivial (by simp [Fits, moved, borrowed, changed]) rfl
  have h3 := Reached.step _ _ (.scalarFromWideUint 1) (some 8) none
    [⟨0, true⟩, ⟨20, false⟩, ⟨0, true⟩, ⟨5, false⟩, ⟨0, true⟩, ⟨0, true⟩, ⟨0, true⟩, ⟨0, true⟩, ⟨9, false⟩] h2 trivial (by simp [Fits, moved, borrowed, changed, after, result]) rfl
  have h4 := Reached.step _ _ (.addOwned 8 3) (some 8) none
    [⟨0, true⟩, ⟨20, false⟩, ⟨0, true⟩, ⟨0, true⟩, ⟨0, true⟩, ⟨0, true⟩, ⟨0, true⟩, ⟨0, true⟩, ⟨14, false⟩] h3 trivial
    (by simp [Fits, moved, borrowed, changed, after, result, ints]) rfl
  exact ⟨_, _, h4, by simp [after, moved, changed, result], by simp [after, moved], by simp [after, moved, changed, result, ints], rfl⟩

end Concrete

end Synedrion.Props
