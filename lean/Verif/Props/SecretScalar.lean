import Verif.Lemmas.SecretScalar

/-!
# C106: secret scalars as bytes and as integers: what is computed in memory, and what exactly is left there

The full property would be that nothing about the secret is left. It is false in every case: each of the theorems below says what is left.
-/

namespace Synedrion.Props

open Spec.KeyMemory SecretBox SecretKeys

section

variable {m : Mem Nat} {a : Nat}

private theorem start₁ {v : Nat} (ha : Holds m a v) : St m (rest m [a]) [(a, v)] [] m :=
  st_start m (by simp) (by intro y hy; cases List.mem_singleton.1 hy; exact ha) fun _ _ => rest_iff

private theorem made {v r u : Nat} {m' : Mem Nat} {g : List Nat} (ha : Holds m a v) (h : St m (rest m [a]) ((r, u) :: [(a, v)]) g m') :
    (∀ x, ¬ Holds m r x) ∧ ∀ i x, Holds m' i x ↔ i = r ∧ x = u ∨ Holds m i x := by
  have hst := start₁ ha
  refine ⟨fun x hx => ?_, fun i x => (h.live i x).trans ?_⟩
  · have hn := h.nodup
    rcases (hst.live r x).1 hx with h' | h'
    · rw [List.map_cons, List.nodup_cons] at hn
      exact hn.1 (List.mem_map.2 ⟨_, h', rfl⟩)
    · rw [h.fresh (x := (r, u)) (by simp)] at h'
      cases h'
  · rw [List.mem_cons, or_assoc, Prod.mk.injEq]
    exact or_congr_right (hst.live i x).symm

/-- **C106 (serialization).** The serializer is given the scalar, and all that is in use stays as it is. The scalar is left in memory, and nothing else. -/
theorem C106_serialize_partial {v : Nat} (ha : Holds m a v) :
    ∃ m', SecretScalar.serialize a m = some (v, m') ∧ (∀ i x, Holds m' i x ↔ Holds m i x) ∧ ∀ u, u ≠ 0 → (Trace m' u ↔ Trace m u ∨ u = v) := by
  have hst := start₁ ha
  obtain ⟨r, m', l', g', h1, h2, ⟨rfl, rfl⟩, rfl⟩ := SecretScalar.ex_serialize 0 rfl m hst
  exact ⟨m', h1, fun i x => (h2.live i x).trans (hst.live i x).symm, fun u hu => (h2.left u hu).trans (by simp [Trace])⟩

/-- **C106 (deserialization).** Bytes that denote a number below the order are accepted, others are not. The number is left in memory in both cases, and nothing else. -/
theorem C106_deserialize_partial (q v : Nat) :
    ∃ r m', SecretScalar.deserialize q v m = some (r, m') ∧ (r.isSome ↔ v < q) ∧ (∀ s ∈ r, ∀ x, ¬ Holds m s x) ∧ (∀ i x, Holds m' i x ↔ i ∈ r ∧ x = v ∨ Holds m i x) ∧
      ∀ u, u ≠ 0 → (Trace m' u ↔ Trace m u ∨ u = v) := by
  have hst : St m (rest m []) [] [] m := st_start m (by simp) (by simp) fun _ _ => rest_iff
  have hrest (i x : Nat) : rest m [] i = some x ↔ Holds m i x := rest_iff.trans (by simp [Holds])
  obtain ⟨r, m', l', g', h1, h2, h3, rfl⟩ := SecretScalar.ex_deserialize q v m hst
  refine ⟨r, m', h1, ?_⟩
  by_cases hv : v < q
  · rw [if_pos hv] at h3
    obtain ⟨s, rfl, rfl⟩ := h3
    refine ⟨by simpa using hv, fun t ht x hx => ?_, fun i x => (h2.live i x).trans ?_, fun u hu => (h2.left u hu).trans (by simp [Trace])⟩
    · cases ht
      have := h2.fresh (x := (s, v)) (by simp)
      rw [(hrest _ _).2 hx] at this
      cases this
    · rw [hrest]
      simp [eq_comm]
  · rw [if_neg hv] at h3
    obtain ⟨rfl, rfl⟩ := h3
    refine ⟨by simpa using hv, by simp, fun i x => (h2.live i x).trans ?_, fun u hu => (h2.left u hu).trans (by simp [Trace])⟩
    rw [hrest]
    simp

/-- **C106 (to a signed integer).** Converting a secret scalar gives a new secret with the right value and bound; all else in use stays as it is. The scalar, and the curve order minus the scalar, are left in memory, and
nothing else. -/
theorem C106_signed_from_scalar_partial {w q numBits : Nat} {x : ZMod q} {s : SecretSigned w} (hq : q ≠ 0) (hw : q < 2 ^ w) (ha : Holds m a x.val)
    (hs : (Conv.secretSignedFromScalar w numBits x : Out Unit _) = .ok s) :
    ∃ r m', SecretScalar.signedFromScalar w q numBits a m = some (.ok ⟨s.bound, r⟩, m') ∧ (∀ v, ¬ Holds m r v) ∧ (∀ i v, Holds m' i v ↔ i = r ∧ v = s.value.toNat ∨ Holds m i v) ∧
      ∀ u, u ≠ 0 → (Trace m' u ↔ Trace m u ∨ u = x.val ∨ u = q - x.val) := by
  obtain ⟨_, m', l', g', h1, h2, r, rfl, rfl, rfl⟩ := SecretScalar.ex_signedFromScalar 0 rfl hq hw hs m (start₁ ha)
  obtain ⟨h3, h4⟩ := made ha h2
  refine ⟨r, m', h1, h3, h4, fun u hu => (h2.left u hu).trans (or_congr_right ?_)⟩
  simp [or_comm]

/-- **C106 (from a signed integer).** Converting a secret integer gives a new secret with the right scalar; all else in use stays as it is. The absolute value of the integer, reduced by the curve order, is left in memory,
and nothing else. -/
theorem C106_scalar_from_signed_partial {w W q len : Nat} {x : SecretSigned w} (hW : w ≤ W) (hq : q ≠ 0) (hqW : q < 2 ^ W) (hlen : q ≤ 256 ^ len) (ha : Holds m a x.value.toNat) :
    ∃ r m', SecretScalar.scalarFromSigned w q len a m = some (some r, m') ∧ (∀ v, ¬ Holds m r v) ∧ (∀ i v, Holds m' i v ↔ i = r ∧ v = (Conv.secretScalarFromSigned q W x).val ∨ Holds m i v) ∧
      ∀ u, u ≠ 0 → (Trace m' u ↔ Trace m u ∨ u = x.absValue.toNat % q) := by
  obtain ⟨_, m', l', g', h1, h2, r, rfl, rfl, rfl⟩ := SecretScalar.ex_scalarFromSigned 0 rfl hW hq hqW hlen m (start₁ ha)
  obtain ⟨h3, h4⟩ := made ha h2
  exact ⟨r, m', h1, h3, h4, fun u hu => (h2.left u hu).trans (by simp [Trace])⟩

/-- **C106 (from a wide signed integer).** The same for wide integers. -/
theorem C106_scalar_from_wide_signed_partial {w q len : Nat} {x : SecretSigned w} (hq : q ≠ 0) (hqw : q < 2 ^ w) (hlen : q ≤ 256 ^ len) (ha : Holds m a x.value.toNat) :
    ∃ r m', SecretScalar.scalarFromWideSigned w q len a m = some (some r, m') ∧ (∀ v, ¬ Holds m r v) ∧ (∀ i v, Holds m' i v ↔ i = r ∧ v = (Conv.secretScalarFromWideSigned q x).val ∨ Holds m i v) ∧
      ∀ u, u ≠ 0 → (Trace m' u ↔ Trace m u ∨ u = x.absValue.toNat % q) := by
  obtain ⟨_, m', l', g', h1, h2, r, rfl, rfl, rfl⟩ := SecretScalar.ex_scalarFromWideSigned 0 rfl hq hqw hlen m (start₁ ha)
  obtain ⟨h3, h4⟩ := made ha h2
  exact ⟨r, m', h1, h3, h4, fun u hu => (h2.left u hu).trans (by simp [Trace])⟩

/-- Serializing any secret scalar but zero, or converting it to an integer, leaves the scalar itself in memory. -/
theorem C106_scalar_left {w q numBits : Nat} {x : ZMod q} {s : SecretSigned w} (hq : q ≠ 0) (hw : q < 2 ^ w) (hx : x ≠ 0) (ha : Holds m a x.val)
    (hs : (Conv.secretSignedFromScalar w numBits x : Out Unit _) = .ok s) :
    (∃ r m', SecretScalar.serialize a m = some (r, m') ∧ Trace m' x.val) ∧ ∃ r m', SecretScalar.signedFromScalar w q numBits a m = some (r, m') ∧ Trace m' x.val := by
  have : NeZero q := ⟨hq⟩
  have h0 : x.val ≠ 0 := fun e => hx ((ZMod.val_eq_zero x).1 e)
  obtain ⟨m₁, h1, -, t1⟩ := C106_serialize_partial ha
  obtain ⟨r, m₂, h2, -, -, t2⟩ := C106_signed_from_scalar_partial hq hw ha hs
  exact ⟨⟨_, m₁, h1, (t1 _ h0).2 (.inr rfl)⟩, _, m₂, h2, (t2 _ h0).2 (.inr (.inl rfl))⟩

end

/-! ### Concrete cases -/

/-- A group of order 13: the scalar 9 is −4 as a signed integer, 252 in eight bits, and is left in memory together with 4. From −4 the scalar 9 is made again, and 4 is left. The number 13 is not the encoding of a scalar. -/
example : (match (Conv.secretSignedFromScalar 8 4 (9 : ZMod 13) : Out Unit _) with
      | .ok s => decide (s.bound = 3 ∧ s.value = 252#8)
      | _ => false) = true ∧
    ((SecretScalar.signedFromScalar 8 13 4 0 [⟨9, false⟩]).map fun x => ((x.2.filter (! ·.freed)).map Cell.value, ((x.2.filter (·.freed)).map Cell.value).filter (· ≠ 0))) = some ([9, 252], [9, 9, 4]) ∧
    ((SecretScalar.scalarFromSigned 8 13 1 0 [⟨252, false⟩]).map fun x => ((x.2.filter (! ·.freed)).map Cell.value, ((x.2.filter (·.freed)).map Cell.value).filter (· ≠ 0))) = some ([252, 9], [4, 4]) ∧
    ((SecretScalar.serialize 0 [⟨9, false⟩]).map fun x => (x.1, ((x.2.filter (·.freed)).map Cell.value).filter (· ≠ 0))) = some (9, [9, 9]) ∧
    ((SecretScalar.deserialize 13 12 []).map fun x => x.1.isSome) = some true ∧ ((SecretScalar.deserialize 13 13 []).map fun x => x.1.isSome) = some false := by
  decide +kernel

end Synedrion.Props
