import Verif.Lemmas.SecretRns

/-!
# C105: numbers modulo both primes: what is computed in memory, and what exactly is left there

The full property would be that nothing about the key or the numbers is left. It is false: see `C105_split_reveals_factors` and `C105_join_reveals_factors`. The theorems ending in `_partial` say what is left, in every case.
-/

namespace Synedrion.Props

open Spec.KeyMemory SecretBox SecretKeys

section

variable {m : Mem Nat} {p q : Nat} {k : Key} {sk : SecretKey p q}

private theorem start (hk : HoldsKey m k sk) : St m (rest m ((keyCells k sk).map Prod.fst)) (keyCells k sk) [] m := st_start m hk.1 hk.2 fun _ _ => rest_iff

private theorem fresh (hk : HoldsKey m k sk) {m' : Mem Nat} {l : List (Nat × Nat)} {g : List Nat} (h2 : St m (rest m ((keyCells k sk).map Prod.fst)) l g m') {x u v : Nat} (hu : (x, u) ∈ l)
    (hnot : x ∉ (keyCells k sk).map Prod.fst) : ¬ Holds m x v := by
  intro hv
  rcases ((start hk).live x v).1 hv with h | h
  · exact hnot (List.mem_map.2 ⟨_, h, rfl⟩)
  · rw [h2.fresh hu] at h; cases h

/-- A key that was precomputed is in memory, so that the theorems below apply to it. -/
theorem C105_key {a b : Nat} (ha : Holds m a p) (hb : Holds m b q) (hab : a ≠ b) (hk : (SecretKey.new p q : Out Unit _) = .ok sk) :
    ∃ k m', keyNew a b m = some (.ok k, m') ∧ HoldsKey m' k sk := by
  have hst : St m (rest m [a, b]) [(a, p), (b, q)] [] m := st_start m (by simpa using hab) (by
    intro x hx
    rcases List.mem_cons.1 hx with rfl | hx
    · exact ha
    · cases List.mem_singleton.1 hx; exact hb) fun _ _ => rest_iff
  obtain ⟨r, m', l', g', h1, h2, k, rfl, -, -, rfl, rfl⟩ := ex_keyNew (a := a) (b := b) hk m hst
  exact ⟨k, m', h1, h2.nodup, fun x hx => (h2.live x.1 x.2).2 (.inl hx)⟩

/-- **C105 (splitting).** The remainders modulo both primes are computed, in new pieces of memory; all that is in use stays as it is. Copies of both remainders are left, and nothing else. -/
theorem C105_split_partial (hk : HoldsKey m k sk) (elem : Nat) :
    ∃ a b m', SecretRns.split k elem m = some ((a, b), m') ∧ a ≠ b ∧ (∀ v, ¬ Holds m a v ∧ ¬ Holds m b v) ∧
      (∀ i v, Holds m' i v ↔ i = a ∧ v = elem % p ∨ i = b ∧ v = elem % q ∨ Holds m i v) ∧ ∀ u, u ≠ 0 → (Trace m' u ↔ Trace m u ∨ u = elem % p ∨ u = elem % q) := by
  have hst := start hk
  obtain ⟨⟨a, b⟩, m', l', g', h1, h2, rfl, rfl⟩ := SecretRns.ex_split (elem := elem) m hst
  have hn := h2.nodup
  rw [List.map_cons, List.map_cons, List.nodup_cons, List.nodup_cons, List.mem_cons, not_or] at hn
  refine ⟨a, b, m', h1, fun e => hn.1.1 e.symm, fun v => ⟨fresh hk h2 (List.mem_cons_of_mem _ (List.mem_cons_self ..)) hn.2.1, fresh hk h2 (List.mem_cons_self ..) hn.1.2⟩,
    fun i v => (h2.live i v).trans ?_, fun u hu => (h2.left u hu).trans (or_congr_right ?_)⟩
  · rw [List.mem_cons, List.mem_cons, Prod.mk.injEq, Prod.mk.injEq, Nat.mod_mod, Nat.mod_mod]
    have := hst.live i v
    unfold Holds
    tauto
  · simp only [List.mem_cons, List.not_mem_nil, or_false]
    tauto

/-- What is left by splitting a number gives the factors of the modulus to whoever knows the number. -/
theorem C105_split_reveals_factors (hk : HoldsKey m k sk) (hq : q.Prime) {elem : Nat} (h1 : p < elem) (h2 : elem < p * q) (h3 : ¬ p ∣ elem) :
    ∃ r m' u, SecretRns.split k elem m = some (r, m') ∧ Trace m' u ∧ Nat.gcd (elem - u) (p * q) = p := by
  obtain ⟨a, b, m', h, -, -, -, ht⟩ := C105_split_partial hk elem
  have hu : elem % p ≠ 0 := fun e => h3 (Nat.dvd_of_mod_eq_zero e)
  refine ⟨_, m', elem % p, h, (ht _ hu).2 (.inr (.inl rfl)), ?_⟩
  have hp : 0 < p := Nat.pos_of_ne_zero fun e => by rw [e, Nat.zero_mul] at h2; exact absurd h2 (Nat.not_lt_zero _)
  have e : elem - elem % p = p * (elem / p) := by
    have := Nat.div_add_mod elem p
    omega
  rw [e]
  exact SecretRns.gcd_mul_digit hq (Nat.div_pos h1.le hp).ne' (Nat.div_lt_of_lt_mul h2)

/-- **C105 (square roots).** If both parts have square roots, these are computed, in new pieces of memory, and copies of both parts, but not of the roots, are left. If not, what is left is the numbers that were tried,
and their squares. All that is in use stays as it is. -/
theorem C105_sqrt_partial (hk : HoldsKey m k sk) (hp : p ≠ 0) (hq : q ≠ 0) (primeBits : Nat) (rns : ZMod p × ZMod q) :
    match rnsSqrt primeBits rns with
    | some y => ∃ a b m', SecretRns.sqrt k primeBits rns m = some (some (a, b), m') ∧ a ≠ b ∧ (∀ v, ¬ Holds m a v ∧ ¬ Holds m b v) ∧
        (∀ i v, Holds m' i v ↔ i = a ∧ v = y.1.val ∨ i = b ∧ v = y.2.val ∨ Holds m i v) ∧
        ∀ u, u ≠ 0 → (Trace m' u ↔ Trace m u ∨ u = rns.1.val ∨ u = rns.2.val)
    | none => ∃ m', SecretRns.sqrt k primeBits rns m = some (none, m') ∧ (∀ i v, Holds m' i v ↔ Holds m i v) ∧
        ∀ u, u ≠ 0 → (Trace m' u ↔ Trace m u ∨ u = (candidate primeBits rns.1).val ∨ u = (candidate primeBits rns.2).val ∨ u = (candidate primeBits rns.1 * candidate primeBits rns.1).val ∨
          u = (candidate primeBits rns.2 * candidate primeBits rns.2).val) := by
  have hst := start hk
  obtain ⟨r, m', l', g', h1, h2, h3⟩ := SecretRns.ex_sqrt (primeBits := primeBits) (rns := rns) hp hq m hst
  cases hy : rnsSqrt primeBits rns with
  | some y =>
    rw [hy] at h3
    obtain ⟨a, b, rfl, rfl, hg⟩ := h3
    have hn := h2.nodup
    rw [List.map_cons, List.map_cons, List.nodup_cons, List.nodup_cons, List.mem_cons, not_or] at hn
    refine ⟨a, b, m', h1, fun e => hn.1.1 e.symm, fun v => ⟨fresh hk h2 (List.mem_cons_of_mem _ (List.mem_cons_self ..)) hn.2.1, fresh hk h2 (List.mem_cons_self ..) hn.1.2⟩, fun i v => (h2.live i v).trans ?_, fun u hu => (h2.left u hu).trans (or_congr_right ?_)⟩
    · rw [List.mem_cons, List.mem_cons, Prod.mk.injEq, Prod.mk.injEq]
      have := hst.live i v
      unfold Holds
      tauto
    · rw [hg]; simp
  | none =>
    rw [hy] at h3
    obtain ⟨rfl, rfl, hg⟩ := h3
    refine ⟨m', h1, fun i v => (h2.live i v).trans (hst.live i v).symm, fun u hu => (h2.left u hu).trans (or_congr_right ?_)⟩
    rw [hg]; simp

/-- **C105 (joining).** The number with these remainders is computed; all that is in use stays as it is. Everything that is computed on the way is left: the remainders, their difference modulo `q`, the digit, and the digit
times `p`. -/
theorem C105_join_partial (hk : HoldsKey m k sk) (hq : q ≠ 0) (a : ZMod p) (b : ZMod q) :
    ∃ m', SecretRns.join k (a, b) m = some (rnsJoin sk (a, b), m') ∧ (∀ i v, Holds m' i v ↔ Holds m i v) ∧
      ∀ u, u ≠ 0 → (Trace m' u ↔ Trace m u ∨ u ∈ [a.val, b.val, a.val % q, (b - (a.val : ZMod q)).val, digit sk a b, p * digit sk a b]) := by
  have hst := start hk
  obtain ⟨r, m', l', g', h1, h2, ⟨rfl, rfl⟩, rfl⟩ := SecretRns.ex_join (rns := (a, b)) hq m hst
  refine ⟨m', h1, fun i v => (h2.live i v).trans (hst.live i v).symm, fun u hu => (h2.left u hu).trans (or_congr_right ?_)⟩
  simp only [List.mem_cons, List.not_mem_nil, or_false]
  tauto

/-- What is left by joining gives the factors of the modulus to everyone, unless the number is smaller than `p`. -/
theorem C105_join_reveals_factors (hk : HoldsKey m k sk) (hp : p ≠ 0) (hq : q.Prime) (a : ZMod p) (b : ZMod q) (h : p ≤ rnsJoin sk (a, b)) :
    ∃ r m' u, SecretRns.join k (a, b) m = some (r, m') ∧ Trace m' u ∧ Nat.gcd u (p * q) = p := by
  have : NeZero p := ⟨hp⟩
  have : NeZero q := ⟨hq.ne_zero⟩
  obtain ⟨m', h1, -, ht⟩ := C105_join_partial hk hq.ne_zero a b
  have hj : rnsJoin sk (a, b) = a.val + p * digit sk a b := rfl
  have hd : digit sk a b ≠ 0 := by
    intro e
    rw [hj, e] at h
    have := ZMod.val_lt a
    omega
  exact ⟨_, m', p * digit sk a b, h1, (ht _ (Nat.mul_ne_zero hp hd)).2 (.inr (by simp)), SecretRns.gcd_mul_digit hq hd (ZMod.val_lt _)⟩

end

/-! ### Concrete cases -/

/-- With the primes 7 and 11: the remainders of 25 are 4 and 3; 25 minus the first is 21, a multiple of 7. The square roots are 2 and 5, which are joined to 16; what is left then contains 14, a multiple of 7. There is no
square root of 3 modulo 7. -/
example : ((keyNew 0 1 [⟨7, false⟩, ⟨11, false⟩]).bind fun x =>
      match x.1 with
      | .ok k => (SecretRns.split k 25 x.2).map fun y => (y.2[y.1.1]?, y.2[y.1.2]?, (y.2.drop x.2.length).filter (·.freed) |>.map Cell.value |>.filter (· ≠ 0))
      | _ => none) = some (some ⟨4, false⟩, some ⟨3, false⟩, [4, 3, 4, 3]) ∧
    ((keyNew 0 1 [⟨7, false⟩, ⟨11, false⟩]).bind fun x =>
      match x.1 with
      | .ok k => (SecretRns.sqrt (p := 7) (q := 11) k 4 (4, 3) x.2).map fun y => (y.1.bind fun z => y.2[z.1]?, y.1.bind fun z => y.2[z.2]?)
      | _ => none) = some (some ⟨2, false⟩, some ⟨5, false⟩) ∧
    ((keyNew 0 1 [⟨7, false⟩, ⟨11, false⟩]).bind fun x =>
      match x.1 with
      | .ok k => (SecretRns.sqrt (p := 7) (q := 11) k 4 (3, 3) x.2).map fun y => y.1.isSome
      | _ => none) = some false ∧
    ((keyNew 0 1 [⟨7, false⟩, ⟨11, false⟩]).bind fun x =>
      match x.1 with
      | .ok k => (SecretRns.join (p := 7) (q := 11) k (2, 5) x.2).map fun y => (y.1, (y.2.drop x.2.length).map Cell.value)
      | _ => none) = some (16, [2, 2, 2, 5, 3, 2, 2, 2, 14]) := by
  decide +kernel

end Synedrion.Props
