import Verif.Lemmas.SecretBounded

/-!
# C103: bounded secret integers compute in memory what they should, and which of their operations leave traces
-/

namespace Synedrion.Props

open Spec Spec.BoundedOp SecretBox SecretBounded

/-- **C103 (values).** After any sequence of operations on bounded secrets, some of which may have failed or panicked, the memory in use holds exactly the secrets that exist, with their values. Every operation that may be
called next ends without using memory that was given up, exactly as it does without memory (`Model/Signed`): with a secret of the right bound and value, with none, or with a panic. A new secret
never takes the place of one that is still there. -/
theorem C103_operations (m : Mem Nat) (live : Live) (h : Reached (fun _ => True) m live) :
    (∀ a v, (∃ x, live a = some x ∧ x.value = v) ↔ m[a]? = some ⟨v, false⟩) ∧
    ∀ op o, Means live op o → ∃ r m', op.run m = some (r, m') ∧ Agree r o ∧ (∀ s, r = .ok (some s) → live s.box = none ∨ s.box ∈ op.moved) ∧
      Reached (fun _ => True) m' (after live op.moved r o) := by
  have hi := SecretBounded.reached_inv (w := fun _ => True) (fun h => h.elim fun _ h => absurd trivial h) h
  refine ⟨fun a v => ?_, fun op o hm => ?_⟩
  · rw [← hi.1 a v]
    simp [plain]
  · obtain ⟨r, m', vals', h1, -, -, h3, -, h5⟩ := SecretBounded.does_run (w := fun _ => True) hm (fun h => h.elim fun _ h => absurd trivial h) m hi.1 hi.2
    exact ⟨r, m', h1, h3, h5, .step m live op o r m' h trivial hm h1⟩

/-- **C103 (no traces).** After any sequence of operations other than `&` and `new_modulo` and the checks of an exponent range, all memory that does not hold a secret that still exists is zero. This includes
intermediate results such as absolute values, arguments that were given away, and what operations held when they failed or panicked.

The full property is this for all operations. It is false for the others, see below. -/
theorem C103_no_traces_partial (m : Mem Nat) (live : Live) (h : Reached Careful m live) :
    (∀ a c, m[a]? = some c → live a = none → c.value = 0) ∧ ((∀ a, live a = none) → ∀ c ∈ m, c.value = 0) := by
  have hi := SecretBounded.reached_inv (w := fun _ => False) (fun _ _ h => h) h
  have key : ∀ a c, m[a]? = some c → live a = none → c.value = 0 := by
    intro a c hc ha
    obtain ⟨v, f⟩ := c
    cases f with
    | true => exact (hi.2 _ (List.mem_of_getElem? hc) rfl).resolve_right id
    | false =>
      have := (hi.1 a v).2 hc
      rw [plain_none.2 ha] at this
      cases this
  refine ⟨key, fun hall c hc => ?_⟩
  obtain ⟨a, ha⟩ := List.mem_iff_getElem?.1 hc
  exact key a c ha (hall a)

section

variable {m : Mem Nat} {live : Live}

/-- Checking that a secret is in an exponent range leaves its absolute value in memory that was given up, for every secret and in every state. `y` is the absolute value of `x`, which exists unless its bound is
wrong. -/
theorem C103_range_check_leaves_copy (h : Reached (fun _ => True) m live) {w a exp : Nat} {x : SecretSigned w} {y : SecretUnsigned w} (ha : live a = some (.signed x)) (hy : (x.abs : Out Unit _) = .ok y)
    (he : exp ≠ 0) :
    (∃ r m', (Op.assertRange w ⟨x.bound, a⟩ exp).run m = some (r, m') ∧ ∃ c ∈ m', c.freed = true ∧ c.value = y.value.toNat) ∧
    ∃ r m', (Op.ensureRange w ⟨x.bound, a⟩ exp).run m = some (r, m') ∧ ∃ c ∈ m', c.freed = true ∧ c.value = y.value.toNat := by
  have hi := SecretBounded.reached_inv (w := fun _ => True) (fun h => h.elim fun _ h => absurd trivial h) h
  obtain ⟨r, m', h1, -⟩ := (C103_operations m live h).2 _ _ (.assertRange (exp := exp) ha)
  obtain ⟨r', m'', h2, -⟩ := (C103_operations m live h).2 _ _ (.ensureRange (exp := exp) ha)
  exact ⟨⟨r, m', h1, leaves_assertRange (plain_eq ha) hy he m r m' hi.1 h1⟩, r', m'', h2, leaves_ensureRange (plain_eq ha) hy he m r' m'' hi.1 h2⟩

/-- Making a bounded secret from a residue, as is done with secret scalars, leaves the modulus minus the residue in memory that was given up. -/
theorem C103_new_modulo_leaves_difference (h : Reached (fun _ => True) m live) {w a bits : Nat} {v modulus : BitVec w} (ha : live a = some (.raw v)) (hle : v.toNat ≤ modulus.toNat) :
    ∃ r m', (Op.newModulo w a modulus bits).run m = some (r, m') ∧ ∃ c ∈ m', c.freed = true ∧ c.value = modulus.toNat - v.toNat := by
  have hi := SecretBounded.reached_inv (w := fun _ => True) (fun h => h.elim fun _ h => absurd trivial h) h
  obtain ⟨r, m', h1, -⟩ := (C103_operations m live h).2 _ _ (.newModulo (modulus := modulus) (bits := bits) ha)
  obtain ⟨c, hc, h2, h3⟩ := leaves_newModulo (plain_eq ha) hle m r m' hi.1 h1
  refine ⟨r, m', h1, c, hc, h2, ?_⟩
  rw [h3, BitVec.toNat_sub_of_le (by exact hle)]

end

/-- So the full property is false: a secret −5 is made, checked and dropped, and 5 is still in memory. -/
theorem C103_traces : ¬ ∀ m live, Reached (fun _ => True) m live → (∀ a, live a = none) → ∀ c ∈ m, c.value = 0 := by
  intro hall
  have h1 := Reached.step (kind := fun _ => True) _ _ (.box 8 251#8) _ (.ok (some ⟨0, 1⟩)) [⟨0, true⟩, ⟨251, false⟩] .start trivial (.box _) (by decide +kernel)
  have h2 := Reached.step _ _ (.newFromUnsigned 8 1 3) _ (.ok (some ⟨3, 1⟩)) [⟨0, true⟩, ⟨251, false⟩, ⟨0, true⟩, ⟨0, true⟩, ⟨0, true⟩, ⟨0, true⟩] h1 trivial (.newFromUnsigned (v := 251#8) rfl) (by decide +kernel)
  have h3 := Reached.step _ _ (.assertRange 8 ⟨3, 1⟩ 4) _ (.ok none)
    [⟨0, true⟩, ⟨251, false⟩, ⟨0, true⟩, ⟨0, true⟩, ⟨0, true⟩, ⟨0, true⟩, ⟨0, true⟩, ⟨0, true⟩, ⟨0, true⟩, ⟨0, true⟩, ⟨5, true⟩, ⟨0, true⟩, ⟨0, true⟩] h2 trivial
    (.assertRange (x := ⟨3, 251#8⟩) rfl) (by decide +kernel)
  have h4 := Reached.step _ _ (.drop 1) _ (.ok none)
    [⟨0, true⟩, ⟨0, true⟩, ⟨0, true⟩, ⟨0, true⟩, ⟨0, true⟩, ⟨0, true⟩, ⟨0, true⟩, ⟨0, true⟩, ⟨0, true⟩, ⟨0, true⟩, ⟨5, true⟩, ⟨0, true⟩, ⟨0, true⟩] h3 trivial
    (.drop (h := .signed (w := 8) ⟨3, 251#8⟩) rfl) (by decide +kernel)
  have h5 := hall _ _ h4 (fun a => by
    by_cases ha : a = 1
    · subst ha; rfl
    · have h : (if a ∈ [1] then none else if a ∈ ([] : List Nat) then none else if a = 1 then (some (.signed (w := 8) ⟨3, 251#8⟩) : Option Held) else
          if a ∈ [1] then none else if a = 1 then some (.raw 251#8) else if a ∈ ([] : List Nat) then none else none) = none := by simp [ha]
      exact h) ⟨5, true⟩ (by decide)
  exact absurd h5 (by decide)

/-! ### A concrete sequence -/

/-- Secrets −5 and 3 of 8 bits are made, and added; both are given away, and only −2 is left. Then an attempt to make a positive secret from 200 fails, and this too leaves nothing. -/
example : ∃ m live, Reached Careful m live ∧ (∃ x : SecretSigned 8, live 9 = some (.signed x) ∧ x.bound = 4 ∧ x.value.toInt = -2) ∧ live 1 = none ∧ live 7 = none ∧ live 11 = none ∧
    m.map Cell.value = [0, 0, 0, 0, 0, 0, 0, 0, 0, 254, 0, 0] := by
  have h1 := Reached.step (kind := Careful) _ _ (.box 8 251#8) _ (.ok (some ⟨0, 1⟩)) [⟨0, true⟩, ⟨251, false⟩] .start trivial (.box _) (by decide +kernel)
  have h2 := Reached.step _ _ (.newFromUnsigned 8 1 3) _ (.ok (some ⟨3, 1⟩)) [⟨0, true⟩, ⟨251, false⟩, ⟨0, true⟩, ⟨0, true⟩, ⟨0, true⟩, ⟨0, true⟩] h1 trivial (.newFromUnsigned (v := 251#8) rfl) (by decide +kernel)
  have h3 := Reached.step _ _ (.box 8 3#8) _ (.ok (some ⟨0, 7⟩)) [⟨0, true⟩, ⟨251, false⟩, ⟨0, true⟩, ⟨0, true⟩, ⟨0, true⟩, ⟨0, true⟩, ⟨0, true⟩, ⟨3, false⟩] h2 trivial (.box _) (by decide +kernel)
  have h4 := Reached.step _ _ (.newPositive 8 7 3) _ (.ok (some ⟨3, 7⟩)) [⟨0, true⟩, ⟨251, false⟩, ⟨0, true⟩, ⟨0, true⟩, ⟨0, true⟩, ⟨0, true⟩, ⟨0, true⟩, ⟨3, false⟩] h3 trivial
    (.newPositive (v := 3#8) rfl) (by decide +kernel)
  have h5 := Reached.step _ _ (.add 8 ⟨3, 1⟩ ⟨3, 7⟩) _ (.ok (some ⟨4, 9⟩))
    [⟨0, true⟩, ⟨0, true⟩, ⟨0, true⟩, ⟨0, true⟩, ⟨0, true⟩, ⟨0, true⟩, ⟨0, true⟩, ⟨0, true⟩, ⟨0, true⟩, ⟨254, false⟩] h4 trivial
    (.add (x := ⟨3, 251#8⟩) (y := ⟨3, 3#8⟩) rfl rfl (by decide)) (by decide +kernel)
  have h6 := Reached.step _ _ (.box 8 200#8) _ (.ok (some ⟨0, 11⟩))
    [⟨0, true⟩, ⟨0, true⟩, ⟨0, true⟩, ⟨0, true⟩, ⟨0, true⟩, ⟨0, true⟩, ⟨0, true⟩, ⟨0, true⟩, ⟨0, true⟩, ⟨254, false⟩, ⟨0, true⟩, ⟨200, false⟩] h5 trivial (.box _) (by decide +kernel)
  have h7 := Reached.step _ _ (.newPositive 8 11 7) _ (.err ())
    [⟨0, true⟩, ⟨0, true⟩, ⟨0, true⟩, ⟨0, true⟩, ⟨0, true⟩, ⟨0, true⟩, ⟨0, true⟩, ⟨0, true⟩, ⟨0, true⟩, ⟨254, false⟩, ⟨0, true⟩, ⟨0, true⟩] h6 trivial
    (.newPositive (v := 200#8) rfl) (by decide +kernel)
  exact ⟨_, _, h7, ⟨⟨4, 254#8⟩, rfl, rfl, by decide⟩, rfl, rfl, rfl, rfl⟩

/-- The hypotheses of the theorems about what is left: −5 has an absolute value, and 10 is a residue modulo 11. -/
example : ((⟨3, 251#8⟩ : SecretSigned 8).abs : Out Unit _) = .ok ⟨3, 5#8⟩ ∧ (∃ m live, Reached (fun _ => True) m live ∧ live 1 = some (.raw 10#8)) ∧ (10#8).toNat ≤ (11#8).toNat :=
  ⟨by rfl, ⟨_, _, Reached.step (kind := fun _ => True) _ _ (.box 8 10#8) _ (.ok (some ⟨0, 1⟩)) [⟨0, true⟩, ⟨10, false⟩] .start trivial (.box _) (by decide +kernel), rfl⟩, by decide⟩

end Synedrion.Props
