import Verif.Lemmas.Encoding
import Verif.Spec.CurveBytes
import Mathlib.Data.Int.CardIntervalMod
import Mathlib.Data.Set.Card
import Mathlib.Data.List.Induction

/-!
# Lemmas about the byte representations of scalars and points
-/

namespace Synedrion

theorem beBytes_fromBe (l : List Byte) : beBytes l.length (fromBe l) = l := by
  induction l using List.reverseRec with
  | nil => rfl
  | append_singleton l b ih =>
    have hb : b.toNat < 256 := b.isLt
    rw [List.length_append, List.length_singleton, beBytes, fromBe_append_single]
    have h1 : (fromBe l * 256 + b.toNat) / 256 = fromBe l := by omega
    have h2 : BitVec.ofNat 8 (fromBe l * 256 + b.toNat) = b := by
      apply BitVec.eq_of_toNat_eq
      rw [BitVec.toNat_ofNat]
      omega
    rw [h1, h2, ih]

theorem fromBe_inj {l m : List Byte} (hlen : l.length = m.length) (h : fromBe l = fromBe m) : l = m := by
  rw [← beBytes_fromBe l, ← beBytes_fromBe m, h, hlen]

/-- The number read from a stream: its second half is the high half. -/
def wideOf (n : Nat) (s : List Byte) : Nat := fromBe ((s.drop n).take n) * 2 ^ (8 * n) + fromBe (s.take n)

theorem wideOf_eq {n : Nat} {s : List Byte} (hs : s.length = 2 * n) : wideOf n s = fromBe (s.drop n ++ s.take n) := by
  have hd : (s.drop n).length = n := by rw [List.length_drop]; omega
  rw [wideOf, fromBe_append, ← pow256, List.length_take, List.take_of_length_le (by omega)]
  rw [show min n s.length = n by omega]

theorem wideOf_lt {n : Nat} {s : List Byte} (hs : s.length = 2 * n) : wideOf n s < 2 ^ (16 * n) := by
  rw [wideOf_eq hs]
  have := fromBe_lt (s.drop n ++ s.take n)
  rw [pow256, List.length_append, List.length_drop, List.length_take, hs] at this
  rwa [show 8 * (2 * n - n + min n (2 * n)) = 16 * n by omega] at this

theorem wideOf_injOn (n : Nat) : Set.InjOn (wideOf n) {s | s.length = 2 * n} := by
  intro s hs t ht h
  simp only [Set.mem_setOf_eq] at hs ht
  rw [wideOf_eq hs, wideOf_eq ht] at h
  have := fromBe_inj (by simp [hs, ht]) h
  obtain ⟨h1, h2⟩ := List.append_inj this (by simp [hs, ht])
  rw [← List.take_append_drop n s, ← List.take_append_drop n t, h1, h2]

theorem wideOf_surj {n v : Nat} (hv : v < 2 ^ (16 * n)) : ∃ s : List Byte, s.length = 2 * n ∧ wideOf n s = v := by
  refine ⟨(beBytes (2 * n) v).drop n ++ (beBytes (2 * n) v).take n, by simp; omega, ?_⟩
  rw [wideOf_eq (by simp; omega)]
  have hlen : ((beBytes (2 * n) v).drop n).length = n := by simp; omega
  rw [List.drop_left' hlen, List.take_left' hlen, List.take_append_drop, fromBe_beBytes, pow256, Nat.mod_eq_of_lt]
  rwa [show 8 * (2 * n) = 16 * n by omega]

theorem scalarFromXof_release {ε : Type} (n q : Nat) (s : List Byte) :
    (scalarFromXof false n q s : Out ε (ZMod q)) = .ok ((wideOf n s : Nat) : ZMod q) := by
  simp only [scalarFromXof, wideFromXof, Bool.not_false, Bool.true_or, Out.assert, if_true, Out.bind_ok]
  rw [ZMod.natCast_mod]; rfl

/-- A toy encoding of the additive group of order 11: `00`, `02 p` and `04 p p` -/
def Toy.sec1 : Sec1 (ZMod 11) where
  size := 2
  encode p := if p = 0 then [0#8] else [2#8, BitVec.ofNat 8 p.val]
  decode
    | [b] => if b = 0#8 then some 0 else none
    | [t, b] => if t = 2#8 ∧ b ≠ 0#8 ∧ b.toNat < 11 then some (b.toNat : ZMod 11) else none
    | [t, b, c] => if t = 4#8 ∧ b = c ∧ b ≠ 0#8 ∧ b.toNat < 11 then some (b.toNat : ZMod 11) else none
    | _ => none

theorem Toy.sec1_laws : Spec.Sec1Laws Toy.sec1 where
  size := by decide
  identity := by decide
  compressed := by decide +kernel
  decode := by decide +kernel
  uncompressed := by
    intro p hp
    refine ⟨[4#8, BitVec.ofNat 8 p.val, BitVec.ofNat 8 p.val], rfl, ?_⟩
    revert p; decide +kernel

end Synedrion
