import Verif.Model.BitDraws
import Verif.Lemmas.Encoding
import Verif.Lemmas.Session
import Mathlib.SetTheory.Cardinal.Finite
import Mathlib.Data.Set.Card
import Mathlib.Data.Fintype.BigOperators

/-! # Lemmas on bit strings taken from bytes -/

namespace Synedrion
variable {ε : Type}

/-- The bits of a byte string -/
def bitsOf (bits : Nat) (l : List Byte) : List Bool := (List.range bits).map fun i => (bitAt l i).getD false

@[simp] theorem bitsOf_length (bits : Nat) (l : List Byte) : (bitsOf bits l).length = bits := by simp [bitsOf]

theorem fillBytes_length (n : Nat) (s : List Byte) : (fillBytes n s).1.length = n := by
  simp [fillBytes]
  omega

theorem fillBytes_of_le {n : Nat} {s : List Byte} (h : n ≤ s.length) : fillBytes n s = (s.take n, s.drop n) := by
  simp [fillBytes, h]

theorem bitsRandom_eq (s : List Byte) (bits : Nat) :
    (bitsRandom s bits : Out ε _) = .ok (bitsOf bits (fillBytes ((bits + 7) / 8) s).1, (fillBytes ((bits + 7) / 8) s).2) := by
  unfold bitsRandom
  simp only
  rw [fromBytes_ok _ _ (fillBytes_length _ _).ge]
  rfl

theorem bitsFromXof_eq (s : List Byte) (bits : Nat) :
    (bitsFromXof s bits : Out ε _) = .ok (bitsOf bits (fillBytes ((bits + 7) / 8) s).1, (fillBytes ((bits + 7) / 8) s).2) := by
  unfold bitsFromXof
  simp only
  rw [fromBytes_ok _ _ (fillBytes_length _ _).ge]
  rfl

/-- The bytes with the given bits -/
def bytesOf (n : Nat) (w : List Bool) : List Byte := packLoop w 0 (List.replicate n 0#8)

@[simp] theorem bytesOf_length (n : Nat) (w : List Bool) : (bytesOf n w).length = n := by simp [bytesOf, packLoop_length]

theorem bitAt_bytesOf {n j : Nat} (w : List Bool) (hj : j < 8 * n) : bitAt (bytesOf n w) j = some ((w[j]?).getD false) := by
  unfold bytesOf
  rw [packLoop_bitAt]
  have : j / 8 < n := by omega
  simp [bitAt, this]

theorem bitAt_some {l : List Byte} {j : Nat} (hj : j < 8 * l.length) : ∃ b, bitAt l j = some b := by
  have : j / 8 < l.length := by omega
  exact ⟨(l[j / 8]).getLsbD (7 - j % 8), by simp only [bitAt, List.getElem?_eq_getElem this, Option.map_some]⟩

theorem ext_bitAt {l m : List Byte} (hlen : l.length = m.length) (h : ∀ j < 8 * l.length, bitAt l j = bitAt m j) : l = m := by
  apply List.ext_getElem hlen
  intro i h1 h2
  apply BitVec.eq_of_getLsbD_eq
  intro k hk
  have := h (8 * i + (7 - k)) (by omega)
  have e1 : (8 * i + (7 - k)) / 8 = i := by omega
  have e2 : 7 - (8 * i + (7 - k)) % 8 = k := by omega
  unfold bitAt at this
  rw [e1, e2, List.getElem?_eq_getElem h1, List.getElem?_eq_getElem h2] at this
  exact Option.some.inj this

theorem bitsOf_bytesOf {n bits : Nat} {w : List Bool} (hb : bits ≤ 8 * n) (hw : bits ≤ w.length) : bitsOf bits (bytesOf n w) = w.take bits := by
  apply List.ext_getElem (by simp [hw])
  intro i h1 h2
  have hi : i < bits := by simpa using h1
  simp [bitsOf, bitAt_bytesOf w (show i < 8 * n by omega), show i < w.length by omega]

theorem bytesOf_bitsOf (l : List Byte) : bytesOf l.length (bitsOf (8 * l.length) l) = l := by
  apply ext_bitAt (by simp)
  intro j hj
  rw [bytesOf_length] at hj
  rw [bitAt_bytesOf _ hj]
  obtain ⟨b, hb⟩ := bitAt_some hj
  simp [bitsOf, hj, hb]

theorem bitsOf_take {a b : Nat} (h : a ≤ b) (l : List Byte) : (bitsOf b l).take a = bitsOf a l := by
  unfold bitsOf
  rw [← List.map_take, List.take_range, min_eq_left h]

theorem card_bits (m : Nat) : {t : List Bool | t.length = m}.ncard = 2 ^ m := by
  rw [← Nat.card_coe_set_eq]
  change Nat.card (List.Vector Bool m) = _
  rw [Nat.card_eq_fintype_card, card_vector, Fintype.card_bool]

/-- Every string comes from equally many byte strings. -/
theorem bitsOf_card {n bits : Nat} (hb : bits ≤ 8 * n) {v : List Bool} (hv : v.length = bits) :
    {s : List Byte | s.length = n ∧ bitsOf bits s = v}.ncard = 2 ^ (8 * n - bits) := by
  have e : {s : List Byte | s.length = n ∧ bitsOf bits s = v} = (fun t => bytesOf n (v ++ t)) '' {t : List Bool | t.length = 8 * n - bits} := by
    ext s
    constructor
    · rintro ⟨rfl, hs⟩
      refine ⟨(bitsOf (8 * s.length) s).drop bits, by simp, ?_⟩
      simp only
      rw [← hs, ← bitsOf_take hb, List.take_append_drop, bytesOf_bitsOf]
    · rintro ⟨t, ht, rfl⟩
      refine ⟨by simp, ?_⟩
      rw [bitsOf_bytesOf hb (by simp [hv]), ← hv, List.take_left']
      rfl
  rw [e, Set.InjOn.ncard_image, card_bits]
  intro t ht t' ht' h
  have ht : t.length = 8 * n - bits := ht
  have ht' : t'.length = 8 * n - bits := ht'
  have := congrArg (bitsOf (8 * n)) h
  simp only at this
  rw [bitsOf_bytesOf le_rfl (by simp [hv, ht]; omega), bitsOf_bytesOf le_rfl (by simp [hv, ht']; omega), List.take_of_length_le (by simp [hv, ht]; omega),
    List.take_of_length_le (by simp [hv, ht']; omega)] at this
  exact List.append_cancel_left this

theorem xor_cancel {a b : List Bool} (h : a.length = b.length) : List.zipWith (· ^^ ·) (List.zipWith (· ^^ ·) a b) b = a := by
  apply List.ext_getElem (by simp [h])
  intro i h1 h2
  simp

/-- For every value of the joint string there is exactly one contribution that leads to it. -/
theorem xorAll_solve {others : List (List Bool)} {v : List Bool} (h : ∀ x ∈ others, x.length = v.length) :
    ∃! own : List Bool, (xorAll own others : Out ε _) = .ok v := by
  induction others with
  | nil => exact ⟨v, rfl, fun y hy => Out.ok.inj hy⟩
  | cons b l ih =>
    obtain ⟨c, hc, hu⟩ := ih (fun x hx => h x (by simp [hx]))
    have hb := h b (by simp)
    have hcl : c.length = v.length := (xorAll_eq_ok.1 hc).1 c (by simp)
    refine ⟨List.zipWith (· ^^ ·) c b, ?_, fun y hy => ?_⟩
    · show xorAll _ _ = _
      rw [xorAll_cons, (bitXorAssign_eq_ok (ε := ε)).2 ⟨by simp [hcl, hb], rfl⟩, Out.bind_ok, xor_cancel (by omega)]
      exact hc
    · have hy : xorAll y (b :: l) = .ok v := hy
      rw [xorAll_cons] at hy
      obtain ⟨d, hd, hy⟩ := Out.bind_eq_ok.1 hy
      obtain ⟨hl, rfl⟩ := bitXorAssign_eq_ok.1 hd
      rw [← hu _ hy, xor_cancel hl]

end Synedrion
