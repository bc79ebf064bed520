import Verif.Model.Encoding
import Verif.Lemmas.SignedOps

namespace Synedrion

@[simp] theorem beBytes_length (n v : Nat) : (beBytes n v).length = n := by
  induction n generalizing v with
  | zero => rfl
  | succ n ih => simp [beBytes, ih]

theorem fromBe_append_single (l : List Byte) (b : Byte) : fromBe (l ++ [b]) = fromBe l * 256 + b.toNat := by
  simp [fromBe, List.foldl_append]

theorem fromBe_beBytes (n v : Nat) : fromBe (beBytes n v) = v % 256 ^ n := by
  induction n generalizing v with
  | zero => simp [beBytes, fromBe, Nat.mod_one]
  | succ n ih =>
    have h : v % 256 ^ (n + 1) = v % 256 + 256 * (v / 256 % 256 ^ n) := by
      rw [pow_succ, mul_comm (256 ^ n) 256, Nat.mod_mul]
    rw [beBytes, fromBe_append_single, ih, BitVec.toNat_ofNat, h]
    norm_num; ring

theorem foldl_be (l : List Byte) (a : Nat) :
    l.foldl (fun acc b => acc * 256 + b.toNat) a = a * 256 ^ l.length + fromBe l := by
  induction l generalizing a with
  | nil => simp [fromBe]
  | cons b l ih =>
    simp only [List.foldl_cons, List.length_cons, fromBe]
    rw [ih, ih (0 * 256 + b.toNat), pow_succ]
    ring

theorem fromBe_cons (b : Byte) (l : List Byte) : fromBe (b :: l) = b.toNat * 256 ^ l.length + fromBe l := by
  rw [fromBe, List.foldl_cons, foldl_be]; simp

theorem fromBe_append (l m : List Byte) : fromBe (l ++ m) = fromBe l * 256 ^ m.length + fromBe m := by
  rw [fromBe, List.foldl_append, foldl_be]; rfl

theorem fromBe_lt (l : List Byte) : fromBe l < 256 ^ l.length := by
  induction l with
  | nil => simp [fromBe]
  | cons b l ih =>
    rw [fromBe_cons, List.length_cons, pow_succ]
    have := b.isLt
    have h : b.toNat ≤ 255 := by omega
    have := Nat.mul_le_mul_right (256 ^ l.length) h
    omega

theorem fromBe_replicate_zero (n : Nat) : fromBe (List.replicate n 0#8) = 0 := by
  induction n with
  | zero => rfl
  | succ n ih => rw [List.replicate_succ, fromBe_cons, ih]; simp

theorem fromBe_pad (n : Nat) (l : List Byte) : fromBe (List.replicate n 0#8 ++ l) = fromBe l := by
  rw [fromBe_append, fromBe_replicate_zero]; simp

/-- Dropping leading zero bytes does not change the number. -/
theorem fromBe_drop_beBytes (n k v : Nat) (hk : k ≤ n) (hv : v < 256 ^ k) :
    fromBe ((beBytes n v).drop (n - k)) = v := by
  have hsplit := List.take_append_drop (n - k) (beBytes n v)
  have h1 := congrArg fromBe hsplit
  rw [fromBe_append, fromBe_beBytes, Nat.mod_eq_of_lt (lt_of_lt_of_le hv (Nat.pow_le_pow_right (by norm_num) hk))] at h1
  have hlen : ((beBytes n v).drop (n - k)).length = k := by simp; omega
  rw [hlen] at h1
  have hlt := fromBe_lt ((beBytes n v).drop (n - k))
  rw [hlen] at hlt
  set a := fromBe ((beBytes n v).take (n - k))
  by_cases ha : a = 0
  · rw [ha] at h1; omega
  · have : 256 ^ k ≤ a * 256 ^ k := Nat.le_mul_of_pos_left _ (by omega)
    omega

theorem beBytes_inj {n a b : Nat} (ha : a < 256 ^ n) (hb : b < 256 ^ n) (h : beBytes n a = beBytes n b) : a = b := by
  have := congrArg fromBe h
  rwa [fromBe_beBytes, fromBe_beBytes, Nat.mod_eq_of_lt ha, Nat.mod_eq_of_lt hb] at this

theorem pow256 (n : Nat) : (256 : Nat) ^ n = 2 ^ (8 * n) := by
  rw [pow_mul]; norm_num

variable {ε : Type}

theorem mask_test (b : Byte) (i : Nat) : decide (b &&& bitMask i ≠ 0#8) = b.getLsbD (7 - i % 8) := by
  have hi : i % 8 < 8 := Nat.mod_lt _ (by norm_num)
  unfold bitMask
  generalize i % 8 = k at hi
  revert b
  have : ∀ k : Fin 8, ∀ b : Byte, decide (b &&& (1#8 <<< (7 - k.val)) ≠ 0#8) = b.getLsbD (7 - k.val) := by
    decide +kernel
  exact this ⟨k, hi⟩

theorem mask_or (b : Byte) (i j : Nat) :
    (b ||| bitMask i).getLsbD (7 - j % 8) = (b.getLsbD (7 - j % 8) || decide (i % 8 = j % 8)) := by
  have hi : i % 8 < 8 := Nat.mod_lt _ (by norm_num)
  have hj : j % 8 < 8 := Nat.mod_lt _ (by norm_num)
  unfold bitMask
  generalize i % 8 = k at hi
  generalize j % 8 = l at hj
  rw [BitVec.getLsbD_or, BitVec.getLsbD_shiftLeft]
  have h1 : ∀ k l : Fin 8, (decide (7 - l.val < 8) && !decide (7 - l.val < 7 - k.val) && (1#8).getLsbD (7 - l.val - (7 - k.val)))
      = decide (k.val = l.val) := by decide +kernel
  rw [h1 ⟨k, hi⟩ ⟨l, hj⟩]

/-- Bit `j` of a byte vector in the packing order. -/
def bitAt (l : List Byte) (j : Nat) : Option Bool := (l[j / 8]?).map fun b => b.getLsbD (7 - j % 8)

theorem packStep_bitAt (l : List Byte) (i j : Nat) (bit : Bool) :
    bitAt (packStep l i bit) j = (bitAt l j).map fun b => b || (bit && decide (i = j)) := by
  unfold packStep bitAt
  cases bit with
  | false =>
    rw [if_neg (by simp)]
    generalize l[j / 8]? = o
    cases o <;> simp
  | true =>
    rw [if_pos rfl, List.getElem?_modify]
    cases hb : l[j / 8]? with
    | none => simp
    | some b =>
      by_cases h : i / 8 = j / 8
      · have : decide (i % 8 = j % 8) = decide (i = j) := by rw [decide_eq_decide]; omega
        simp only [h, if_true, Functor.map, Option.map_some, mask_or, this, Bool.true_and]
      · have : i ≠ j := fun hc => h (by rw [hc])
        simp [h, this]

theorem packLoop_bitAt (bits : List Bool) (i : Nat) (l : List Byte) (j : Nat) :
    bitAt (packLoop bits i l) j =
      (bitAt l j).map fun b => b || (decide (i ≤ j) && (bits[j - i]?).getD false) := by
  induction bits generalizing i l with
  | nil => simp [packLoop]
  | cons x xs ih =>
    rw [packLoop, ih, packStep_bitAt, Option.map_map]
    congr 1
    funext b
    simp only [Function.comp]
    rcases Nat.lt_trichotomy i j with h | h | h
    · have e : j - i = (j - (i + 1)) + 1 := by omega
      have h1 : i + 1 ≤ j := h
      have h2 : i ≤ j := by omega
      have h3 : ¬ i = j := by omega
      simp [e, h1, h2, h3]
    · subst h
      have h1 : ¬ i + 1 ≤ i := by omega
      simp
    · have h1 : ¬ i + 1 ≤ j := by omega
      have h2 : ¬ i ≤ j := by omega
      have h3 : ¬ i = j := by omega
      simp [h1, h2, h3]

theorem packLoop_length (bits : List Bool) (i : Nat) (l : List Byte) : (packLoop bits i l).length = l.length := by
  induction bits generalizing i l with
  | nil => rfl
  | cons x xs ih => rw [packLoop, ih]; unfold packStep; split <;> simp

theorem fromBytes_ok (bits : Nat) (l : List Byte) (h : (bits + 7) / 8 ≤ l.length) :
    (fromBytesUnchecked bits l : Out ε _) = .ok ((List.range bits).map fun i => (bitAt l i).getD false) := by
  unfold fromBytesUnchecked
  apply Out.mapM'_ok_of_forall
  intro i hi
  have hi' : i / 8 < l.length := by have := List.mem_range.1 hi; omega
  simp only [indexByte, bitAt]
  rw [List.getElem?_eq_getElem hi']
  simp only [Out.ofOptionPanic_some, Out.bind_ok, mask_test, Option.map_some, Option.getD_some]

theorem transcript_eq (pre : List Byte) (chunks : List (List Byte)) :
    chunks.foldl chainBytes pre = pre ++ chunks.foldl chainBytes [] := by
  induction chunks generalizing pre with
  | nil => simp
  | cons c cs ih =>
    simp only [List.foldl_cons]
    rw [ih, ih (chainBytes [] c)]
    simp [chainBytes]

theorem transcript_cons (c : List Byte) (cs : List (List Byte)) :
    transcript (c :: cs) = beBytes 8 (c.length % 2 ^ 64) ++ c ++ transcript cs := by
  unfold transcript
  rw [List.foldl_cons, transcript_eq]
  simp [chainBytes]

end Synedrion
