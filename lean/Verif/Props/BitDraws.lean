import Verif.Lemmas.BitDraws

/-!
# Property C95: random strings and bit challenges are exact and uniform
-/

namespace Synedrion.Props
open Spec

variable {ε : Type}

/-- **C95 (exact).** Drawing a string of `bits` bits never panics, uses exactly the bytes that are needed, and gives the first `bits` bits of them, the most significant bit of every byte
first. -/
theorem C95_random_exact (rng : List Byte) (bits : Nat) (h : (bits + 7) / 8 ≤ rng.length) :
    ∃ r, (bitsRandom rng bits : Out ε _) = .ok (r, rng.drop ((bits + 7) / 8)) ∧ r.length = bits ∧
      ∀ i < bits, r[i]? = (rng[i / 8]?).map fun b => b.getLsbD (7 - i % 8) := by
  rw [bitsRandom_eq, fillBytes_of_le h]
  refine ⟨_, rfl, by simp, fun i hi => ?_⟩
  have hl : i / 8 < rng.length := by omega
  simp [bitsOf, bitAt, hi, List.getElem?_take, hl, show i / 8 < (bits + 7) / 8 by omega]

/-- **C95 (exact).** The same for a challenge taken from the output of the hash. -/
theorem C95_challenge_exact (reader : List Byte) (bits : Nat) (h : (bits + 7) / 8 ≤ reader.length) :
    ∃ r, (bitsFromXof reader bits : Out ε _) = .ok (r, reader.drop ((bits + 7) / 8)) ∧ r.length = bits ∧
      ∀ i < bits, r[i]? = (reader[i / 8]?).map fun b => b.getLsbD (7 - i % 8) := by
  rw [bitsFromXof_eq, fillBytes_of_le h]
  refine ⟨_, rfl, by simp, fun i hi => ?_⟩
  have hl : i / 8 < reader.length := by omega
  simp [bitsOf, bitAt, hi, List.getElem?_take, hl, show i / 8 < (bits + 7) / 8 by omega]

/-- Ten bits from three bytes; one byte is left. -/
example : (bitsRandom [0xA5#8, 0x40#8, 0xFF#8] 10 : Out Unit _) =
    .ok ([true, false, true, false, false, true, false, true, false, true], [0xFF#8]) := rfl

example : (bitsFromXof [0xA5#8, 0x40#8, 0xFF#8] 10 : Out Unit _) =
    .ok ([true, false, true, false, false, true, false, true, false, true], [0xFF#8]) := rfl

/-- **C95 (uniform).** Every string of `bits` bits is drawn from equally many byte strings. -/
theorem C95_random_uniform (bits : Nat) (v : List Bool) (hv : v.length = bits) :
    {s : List Byte | s.length = (bits + 7) / 8 ∧ (bitsRandom s bits : Out ε _) = .ok (v, [])}.ncard = 2 ^ (8 * ((bits + 7) / 8) - bits) := by
  rw [← bitsOf_card (n := (bits + 7) / 8) (by omega) hv]
  congr 1
  ext s
  simp only [Set.mem_setOf_eq, bitsRandom_eq]
  refine and_congr_right fun hs => ?_
  rw [fillBytes_of_le hs.ge]
  simp [hs, List.take_of_length_le hs.le, List.drop_eq_nil_of_le hs.le]

/-- **C95 (uniform).** Every challenge of `bits` bits comes from equally many outputs of the hash. -/
theorem C95_challenge_uniform (bits : Nat) (v : List Bool) (hv : v.length = bits) :
    {s : List Byte | s.length = (bits + 7) / 8 ∧ (bitsFromXof s bits : Out ε _) = .ok (v, [])}.ncard = 2 ^ (8 * ((bits + 7) / 8) - bits) := by
  rw [← bitsOf_card (n := (bits + 7) / 8) (by omega) hv]
  congr 1
  ext s
  simp only [Set.mem_setOf_eq, bitsFromXof_eq]
  refine and_congr_right fun hs => ?_
  rw [fillBytes_of_le hs.ge]
  simp [hs, List.take_of_length_le hs.le, List.drop_eq_nil_of_le hs.le]

/-- Each of the `2 ^ 10` strings of ten bits comes from 64 pairs of bytes. -/
example : {s : List Byte | s.length = 2 ∧
    (bitsRandom s 10 : Out Unit _) = .ok ([true, false, true, false, false, true, false, true, false, true], [])}.ncard = 64 := C95_random_uniform 10 _ rfl

/-- **C95 (one honest contribution).** The joint string is the combination of the strings of all parties. Whatever the others have contributed, as long as the lengths are right, every
value of the joint string is reached with exactly one contribution of a given party, be it the party that combines them or another one. -/
theorem C95_joint_one_contribution (own : List Bool) (pre post : List (List Bool)) (v : List Bool) (hown : own.length = v.length)
    (hpre : ∀ x ∈ pre, x.length = v.length) (hpost : ∀ x ∈ post, x.length = v.length) :
    (∃! x : List Bool, (xorAll x (pre ++ post) : Out ε _) = .ok v) ∧ ∃! x : List Bool, (xorAll own (pre ++ x :: post) : Out ε _) = .ok v := by
  refine ⟨xorAll_solve (by simpa [or_imp, forall_and] using ⟨hpre, hpost⟩), ?_⟩
  have e : ∀ x, (xorAll own (pre ++ x :: post) : Out ε _) = xorAll x (own :: (pre ++ post)) := fun x =>
    xorAll_perm (by
      refine .trans (.cons _ List.perm_middle) (.swap _ _ _))
  simp only [e]
  exact xorAll_solve (by simpa [or_imp, forall_and] using ⟨hown, hpre, hpost⟩)

/-- **C95 (one honest party suffices).** If one party draws its string from uniform bytes, the joint string is uniform: whatever the others have contributed, every value of the joint
string comes from equally many draws of that party. -/
theorem C95_joint_uniform (bits : Nat) (others : List (List Bool)) (hl : ∀ x ∈ others, x.length = bits) (v : List Bool) (hv : v.length = bits) :
    {s : List Byte | s.length = (bits + 7) / 8 ∧ ∃ own, (bitsRandom s bits : Out ε _) = .ok (own, []) ∧ (xorAll own others : Out ε _) = .ok v}.ncard =
      2 ^ (8 * ((bits + 7) / 8) - bits) := by
  obtain ⟨own, ho, hu⟩ := xorAll_solve (ε := ε) (others := others) (v := v) (fun x hx => by rw [hl x hx, hv])
  have hlen : own.length = bits := by rw [← hv]; exact (xorAll_eq_ok.1 ho).1 own (by simp)
  rw [← C95_random_uniform (ε := ε) bits own hlen]
  congr 1
  ext s
  refine and_congr_right fun _ => ⟨?_, fun h => ⟨own, h, ho⟩⟩
  rintro ⟨x, hx, h⟩
  rw [hx, hu x h]

/-- Two other parties, ten bits -/
example : {s : List Byte | s.length = 2 ∧ ∃ own, (bitsRandom s 10 : Out Unit _) = .ok (own, []) ∧
    (xorAll own [List.replicate 10 true, [true, false, true, false, false, true, false, true, false, true]] : Out Unit _) = .ok (List.replicate 10 false)}.ncard = 64 :=
  C95_joint_uniform 10 _ (by simp) _ (by simp)

end Synedrion.Props
