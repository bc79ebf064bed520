import Verif.Lemmas.SecretKeys

/-!
# C104: Paillier keys, encryption and decryption: what is computed in memory, and what exactly is left there
-/

namespace Synedrion.Props

open Spec.KeyMemory SecretBox SecretKeys

section

variable {m : Mem Nat} {a b : Nat}

/-- **C104 (key).** Whatever else is in memory, precomputing a key from two primes ends with every part of the key in a piece of memory of its own, with the value it should have (`Model/Paillier`). Nothing else that
is in use changes, and no temporary stays in use. What is left in memory that is not in use any more is exactly the list `leftByNew`; zeros do not count. -/
theorem C104_key {p q : Nat} {sk : SecretKey p q} (ha : Holds m a p) (hb : Holds m b q) (hab : a ≠ b) (hk : (SecretKey.new p q : Out Unit _) = .ok sk) :
    ∃ k m', keyNew a b m = some (.ok k, m') ∧ k.p = a ∧ k.q = b ∧ ((keyCells k sk).map Prod.fst).Nodup ∧
      (∀ i v, Holds m' i v ↔ (i, v) ∈ keyCells k sk ∨ Holds m i v ∧ i ≠ a ∧ i ≠ b) ∧
      ∀ u, u ≠ 0 → (Trace m' u ↔ Trace m u ∨ u ∈ leftByNew p q (sk.invPModQ + sk.invPModQ - 1).val) := by
  have hst : St m (rest m [a, b]) [(a, p), (b, q)] [] m := st_start m (by simpa using hab) (by
    intro x hx
    rcases List.mem_cons.1 hx with rfl | hx
    · exact ha
    · cases List.mem_singleton.1 hx; exact hb) fun _ _ => rest_iff
  obtain ⟨r, m', l', g', h1, h2, k, rfl, h3, h4, rfl, rfl⟩ := ex_keyNew (a := a) (b := b) hk m hst
  refine ⟨k, m', h1, h3, h4, h2.nodup, fun i v => ?_, fun u hu => ?_⟩
  · refine (h2.live i v).trans (or_congr_right (rest_iff.trans ?_))
    simp [Holds]
  · exact (h2.left u hu).trans (by simp [Trace])

/-- **C104 (lifetime of a key).** When the key is dropped as well, nothing is in use any more but what was in use before the primes were there, and the only values left are those left by making the key, and both primes.

The full property would be that nothing is left. It is false, see below. -/
theorem C104_lifetime_partial {p q : Nat} {sk : SecretKey p q} (ha : Holds m a p) (hb : Holds m b q) (hab : a ≠ b) (hk : (SecretKey.new p q : Out Unit _) = .ok sk) :
    ∃ k m' m'', keyNew a b m = some (.ok k, m') ∧ keyDrop k m' = some ((), m'') ∧ (∀ i v, Holds m'' i v ↔ Holds m i v ∧ i ≠ a ∧ i ≠ b) ∧
      ∀ u, u ≠ 0 → (Trace m'' u ↔ Trace m u ∨ u = p ∨ u = q ∨ u ∈ leftByNew p q (sk.invPModQ + sk.invPModQ - 1).val) := by
  have hst : St m (rest m [a, b]) [(a, p), (b, q)] [] m := st_start m (by simpa using hab) (by
    intro x hx
    rcases List.mem_cons.1 hx with rfl | hx
    · exact ha
    · cases List.mem_singleton.1 hx; exact hb) fun _ _ => rest_iff
  obtain ⟨r, m', l', g', h1, h2, k, rfl, h3, h4, rfl, rfl⟩ := ex_keyNew (a := a) (b := b) hk m hst
  obtain ⟨_, m'', l'', g'', k1, k2, rfl, rfl⟩ := ex_keyDrop m' h2
  refine ⟨k, m', m'', h1, k1, fun i v => ?_, fun u hu => ?_⟩
  · refine (k2.live i v).trans ?_
    simp only [List.not_mem_nil, false_or]
    refine rest_iff.trans ?_
    simp [Holds]
  · refine (k2.left u hu).trans (or_congr_right ?_)
    simp only [List.mem_cons, List.append_nil]
    tauto

/-- The factorization of the modulus is left in memory, by every key: the primes less one while the key exists, and the primes themselves when it is dropped. -/
theorem C104_factors_left {p q : Nat} {sk : SecretKey p q} (ha : Holds m a p) (hb : Holds m b q) (hab : a ≠ b) (hk : (SecretKey.new p q : Out Unit _) = .ok sk) (hp : 1 < p) (hq : 1 < q) :
    ∃ k m' m'', keyNew a b m = some (.ok k, m') ∧ keyDrop k m' = some ((), m'') ∧ Trace m' (p - 1) ∧ Trace m' (q - 1) ∧ Trace m'' p ∧ Trace m'' q := by
  obtain ⟨k, m', h1, -, -, -, -, h2⟩ := C104_key ha hb hab hk
  obtain ⟨k', n', m'', k1, k2, -, k3⟩ := C104_lifetime_partial ha hb hab hk
  rw [h1] at k1
  cases k1
  exact ⟨k, m', m'', h1, k2, (h2 _ (by omega)).2 (.inr (by simp [leftByNew])), (h2 _ (by omega)).2 (.inr (by simp [leftByNew])), (k3 _ (by omega)).2 (.inr (.inl rfl)),
    (k3 _ (by omega)).2 (.inr (.inr (.inl rfl)))⟩

/-- **C104 (encryption).** Encryption gives the ciphertext it should; all that is in use stays as it is. It leaves the absolute value of the plaintext and the randomizer in memory, and nothing else. -/
theorem C104_encrypt {N x r : Nat} {neg : Bool} (hN : N ≠ 0) (ha : Holds m a x) (hb : Holds m b r) :
    ∃ m', encrypt N a b neg m = some (encInner N x r neg, m') ∧ (∀ i v, Holds m' i v ↔ Holds m i v) ∧ ∀ u, u ≠ 0 → (Trace m' u ↔ Trace m u ∨ u = x ∨ u = r) := by
  by_cases hab : a = b
  · subst hab
    have hxr : x = r := by
      have := ha.symm.trans hb
      simpa using this
    subst hxr
    have hst : St m (rest m [a]) [(a, x)] [] m := st_start m (by simp) (by intro y hy; cases List.mem_singleton.1 hy; exact ha) fun _ _ => rest_iff
    obtain ⟨c, m', l', g', h1, h2, ⟨rfl, rfl⟩, rfl⟩ := ex_encrypt (N := N) (neg := neg) 0 0 hN rfl rfl m hst
    refine ⟨m', h1, fun i v => (h2.live i v).trans (hst.live i v).symm, fun u hu => (h2.left u hu).trans ?_⟩
    simp [Trace]
  · have hst : St m (rest m [a, b]) [(a, x), (b, r)] [] m := st_start m (by simpa using hab) (by
      intro y hy
      rcases List.mem_cons.1 hy with rfl | hy
      · exact ha
      · cases List.mem_singleton.1 hy; exact hb) fun _ _ => rest_iff
    obtain ⟨c, m', l', g', h1, h2, ⟨rfl, rfl⟩, rfl⟩ := ex_encrypt (N := N) (neg := neg) 0 1 hN rfl rfl m hst
    refine ⟨m', h1, fun i v => (h2.live i v).trans (hst.live i v).symm, fun u hu => (h2.left u hu).trans (or_congr_right ?_)⟩
    simp [or_comm]

/-- Making a randomizer from a residue leaves the residue in memory, and nothing else. -/
theorem C104_randomizer {N r : Nat} (ha : Holds m a r) :
    ∃ s m', randomizerNew N a m = some (s, m') ∧ (∀ v, ¬ Holds m s v) ∧ (∀ i v, Holds m' i v ↔ i = s ∧ v = r % N ∨ Holds m i v) ∧ ∀ u, u ≠ 0 → (Trace m' u ↔ Trace m u ∨ u = r) := by
  have hst : St m (rest m [a]) [(a, r)] [] m := st_start m (by simp) (by intro y hy; cases List.mem_singleton.1 hy; exact ha) fun _ _ => rest_iff
  obtain ⟨s, m', l', g', h1, h2, rfl, rfl⟩ := ex_toMontgomery (n := N) 0 rfl m hst
  refine ⟨s, m', h1, fun v hv => ?_, fun i v => (h2.live i v).trans ?_, fun u hu => (h2.left u hu).trans (or_congr_right (by simp))⟩
  · have hn := h2.nodup
    rcases (hst.live s v).1 hv with h | h
    · rw [List.map_cons, List.nodup_cons] at hn
      exact hn.1 (List.mem_map.2 ⟨_, h, rfl⟩)
    · rw [h2.fresh (x := (s, r % N)) (by simp)] at h
      cases h
  · rw [List.mem_cons, or_assoc, Prod.mk.injEq]
    exact or_congr_right (hst.live i v).symm

/-- **C104 (decryption).** Decryption with a key that is in memory gives a new secret with the value that `new_modulo` makes of the plaintext modulo `N`; all else in use stays as it is. It leaves in memory `N` minus this residue, and the
quotient from which the residue is computed, and nothing else. -/
theorem C104_decrypt {w bits N totient : Nat} {inv : ZMod N} {c : Ct N} {s : SecretSigned w} (hN : N ≠ 0) (hw : N < 2 ^ w) (ha : Holds m a totient) (hb : Holds m b inv.val) (hab : a ≠ b)
    (hs : (SecretSigned.newModulo (BitVec.ofNat w (residue bits totient inv c)) (BitVec.ofNat w N) bits : Out Unit _) = .ok (some s)) :
    ∃ r m', SecretKeys.decrypt w bits N a b c m = some (.ok ⟨s.bound, r⟩, m') ∧ (∀ v, ¬ Holds m r v) ∧ (∀ i v, Holds m' i v ↔ i = r ∧ v = s.value.toNat ∨ Holds m i v) ∧
      ∀ u, u ≠ 0 → (Trace m' u ↔ Trace m u ∨ u = N - residue bits totient inv c ∨ u = (powUnsigned c totient bits - 1).val / N) := by
  have hst : St m (rest m [a, b]) [(a, totient), (b, inv.val)] [] m := st_start m (by simpa using hab) (by
    intro y hy
    rcases List.mem_cons.1 hy with rfl | hy
    · exact ha
    · cases List.mem_singleton.1 hy; exact hb) fun _ _ => rest_iff
  obtain ⟨_, m', l', g', h1, h2, r, rfl, rfl, rfl⟩ := ex_decrypt 0 1 hN hw rfl rfl hs m hst
  refine ⟨r, m', h1, fun v hv => ?_, fun i v => (h2.live i v).trans ?_, fun u hu => (h2.left u hu).trans (or_congr_right ?_)⟩
  · have hn := h2.nodup
    rcases (hst.live r v).1 hv with h | h
    · rw [List.map_cons, List.nodup_cons] at hn
      exact hn.1 (List.mem_map.2 ⟨_, h, rfl⟩)
    · rw [h2.fresh (x := (r, s.value.toNat)) (by simp)] at h
      cases h
  · rw [List.mem_cons, or_assoc, Prod.mk.injEq]
    exact or_congr_right (hst.live i v).symm
  · simp

/-- **C104 (randomizer).** Deriving the randomizer of a ciphertext gives two new secrets with the right value, and leaves nothing. -/
theorem C104_derive_randomizer {bits N v : Nat} {c : Ct N} (ha : Holds m a v) :
    ∃ r s m', SecretKeys.deriveRandomizer bits N a c m = some ((r, s), m') ∧ r ≠ s ∧ (∀ v, ¬ Holds m r v ∧ ¬ Holds m s v) ∧
      (∀ i x, Holds m' i x ↔ (i = r ∨ i = s) ∧ x = (powUnsigned ((c.val % N : Nat) : ZMod N) v bits).val ∨ Holds m i x) ∧ ∀ u, u ≠ 0 → (Trace m' u ↔ Trace m u) := by
  have hst : St m (rest m [a]) [(a, v)] [] m := st_start m (by simp) (by intro y hy; cases List.mem_singleton.1 hy; exact ha) fun _ _ => rest_iff
  obtain ⟨⟨r, s⟩, m', l', g', h1, h2, rfl, rfl⟩ := ex_deriveRandomizer (bits := bits) (c := c) 0 rfl m hst
  have hn := h2.nodup
  simp only [List.map_cons, List.map_nil, List.nodup_cons, List.mem_cons, List.not_mem_nil, or_false, not_or] at hn
  refine ⟨r, s, m', h1, hn.1.1, fun x => ⟨fun hx => ?_, fun hx => ?_⟩, fun i x => (h2.live i x).trans ?_, fun u hu => (h2.left u hu).trans (by simp [Trace])⟩
  · rcases (hst.live r x).1 hx with h | h
    · cases List.mem_singleton.1 h; exact hn.1.2 rfl
    · rw [h2.fresh (x := (r, _)) (List.mem_cons_self ..)] at h; cases h
  · rcases (hst.live s x).1 hx with h | h
    · cases List.mem_singleton.1 h; exact hn.2.1 rfl
    · rw [h2.fresh (x := (s, _)) (List.mem_cons_of_mem _ (List.mem_cons_self ..))] at h; cases h
  · rw [List.mem_cons, List.mem_cons, Prod.mk.injEq, Prod.mk.injEq]
    refine Iff.trans ?_ (or_congr_right (hst.live i x).symm)
    tauto

end

/-! ### Concrete cases -/

/-- A key from the primes 7 and 11 can be made, and what is in memory when it is dropped -/
example : (match (SecretKey.new 7 11 : Out Unit (SecretKey 7 11)) with
      | .ok sk => decide (sk.totient = 60 ∧ sk.invTotient = 9 ∧ sk.invModulus = 53 ∧ sk.invPModQ = 8)
      | _ => false) = true ∧
    ((keyNew 0 1 [⟨7, false⟩, ⟨11, false⟩]).bind fun x =>
      match x.1 with
      | .ok k => (keyDrop k x.2).map fun y => (y.2.map Cell.value).filter (· ≠ 0)
      | _ => none) = some [6, 10, 7, 11, 60, 60, 7, 34] := by
  decide +kernel

/-- −5 is encrypted with the randomizer 3, and decrypted; 251 are the bits of −5. 5 is left both times: as the absolute value, and as 77 minus the plaintext modulo 77, which is 72. -/
example : ((encrypt 77 0 1 true [⟨5, false⟩, ⟨3, false⟩]).map fun x => (x.1, (x.2.filter (·.freed)).map Cell.value |>.filter (· ≠ 0))) = some (encInner 77 5 3 true, [5, 3]) ∧
    residue 7 60 (9 : ZMod 77) (encInner 77 5 3 true) = 72 ∧
    (match (SecretSigned.newModulo (BitVec.ofNat 8 72) (BitVec.ofNat 8 77) 7 : Out Unit _) with
      | .ok (some s) => decide (s.bound = 6 ∧ s.value = 251#8)
      | _ => false) = true ∧
    ((SecretKeys.decrypt 8 7 77 0 1 (encInner 77 5 3 true) [⟨60, false⟩, ⟨9, false⟩]).map fun x => (x.2[21]?, (x.2.filter (·.freed)).map Cell.value |>.filter (· ≠ 0))) =
      some (some ⟨251, false⟩, [8, 5]) := by
  decide +kernel

end Synedrion.Props
