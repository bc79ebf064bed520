import Verif.Model.Limbs
import Verif.Lemmas.Encoding
import Verif.Lemmas.Signed

/-!
# Property C73: changing the size of integers keeps their value

Stated with the values of the integers (`Limbs.value`) only.
-/

namespace Synedrion.Props

open Limbs

private theorem toNat_append (a b : List (BitVec 64)) : toNat (a ++ b) = toNat a + 2 ^ (64 * a.length) * toNat b := by
  induction a with
  | nil => simp [toNat]
  | cons x a ih =>
    simp only [List.cons_append, toNat, ih, List.length_cons, Nat.mul_add, Nat.mul_one, Nat.pow_add]
    ring

private theorem toNat_zero (n : Nat) : toNat (List.replicate n 0#64) = 0 := by
  induction n with
  | zero => rfl
  | succ n ih => simp only [List.replicate_succ, toNat, ih]; rfl

private theorem toNat_lt (l : List (BitVec 64)) : toNat l < 2 ^ (64 * l.length) := by
  induction l with
  | nil => simp [toNat]
  | cons x l ih =>
    have hx := x.isLt
    simp only [toNat, List.length_cons, Nat.mul_add, Nat.mul_one, Nat.pow_add]
    have : 2 ^ 64 * (toNat l + 1) ≤ 2 ^ 64 * 2 ^ (64 * l.length) := Nat.mul_le_mul_left _ ih
    rw [Nat.mul_comm (2 ^ (64 * l.length))]
    generalize 2 ^ (64 * l.length) = t at *
    omega

private theorem toNat_inj {a b : List (BitVec 64)} (hl : a.length = b.length) (h : toNat a = toNat b) : a = b := by
  induction a generalizing b with
  | nil => exact (List.length_eq_zero_iff.1 hl.symm).symm
  | cons x a ih =>
    cases b with
    | nil => simp at hl
    | cons y b =>
      have hx := x.isLt
      have hy := y.isLt
      simp only [toNat] at h
      have h1 : x.toNat = y.toNat := by omega
      have h2 : toNat a = toNat b := by omega
      rw [BitVec.eq_of_toNat_eq h1, ih (by simpa using hl) h2]

private theorem toNat_ofNatList (n v : Nat) : toNat (ofNatList n v) = v % 2 ^ (64 * n) := by
  induction n generalizing v with
  | zero => simp [ofNatList, toNat, Nat.mod_one]
  | succ n ih =>
    simp only [ofNatList, toNat, ih, BitVec.toNat_ofNat]
    rw [Nat.mul_add, Nat.mul_one, Nat.add_comm (64 * n), Nat.pow_add, Nat.mod_mul]

private theorem ext_value {L : Nat} {x y : Limbs L} (h : x.value = y.value) : x = y := by
  obtain ⟨a, ha⟩ := x
  obtain ⟨b, hb⟩ := y
  have : a = b := toNat_inj (ha.trans hb.symm) h
  subst this
  rfl

private theorem copyInto_low {src : List (BitVec 64)} {W : Nat} (h : src.length ≤ W) :
    copyInto 0 src (List.replicate W 0#64) = some (src ++ List.replicate (W - src.length) 0#64) := by
  unfold copyInto
  rw [if_pos (by simpa using h)]
  simp

private theorem toWide_eq {ε : Type} {L W : Nat} (h : L ≤ W) (x : Limbs L) :
    ∃ y : Limbs W, (toWide W x : Out ε _) = .ok y ∧ y.limbs = x.limbs ++ List.replicate (W - L) 0#64 := by
  have hc := copyInto_low (src := x.limbs) (W := W) (by rw [x.length_eq]; exact h)
  rw [x.length_eq] at hc
  unfold toWide
  split
  · rename_i hn; rw [hc] at hn; cases hn
  · rename_i l hl; rw [hc] at hl; cases hl; exact ⟨_, rfl, rfl⟩

/-- A `Uint<L>` holds the numbers below `2^(64·L)`, each in exactly one way. -/
theorem C73_values (L : Nat) : (∀ x : Limbs L, x.value < 2 ^ (64 * L)) ∧ ∀ v < 2 ^ (64 * L), ∃! x : Limbs L, x.value = v := by
  refine ⟨fun x => ?_, fun v hv => ⟨ofNat L v, ?_, fun y hy => ext_value ?_⟩⟩
  · have := toNat_lt x.limbs; rwa [x.length_eq] at this
  · exact (toNat_ofNatList L v).trans (Nat.mod_eq_of_lt hv)
  · exact hy.trans ((toNat_ofNatList L v).trans (Nat.mod_eq_of_lt hv)).symm

/-- Widening never panics and keeps the value. -/
theorem C73_widen {ε : Type} {L W : Nat} (h : L ≤ W) (x : Limbs L) : ∃ y : Limbs W, (toWide W x : Out ε _) = .ok y ∧ y.value = x.value := by
  obtain ⟨y, hy, hl⟩ := toWide_eq (ε := ε) h x
  refine ⟨y, hy, ?_⟩
  unfold value
  rw [hl, toNat_append, toNat_zero, Nat.mul_zero, Nat.add_zero]

/-- Narrowing never panics. It gives the integer of the same value if there is one, and nothing otherwise. -/
theorem C73_narrow {ε : Type} {L W : Nat} (h : L ≤ W) (x : Limbs W) :
    (x.value < 2 ^ (64 * L) → ∃ y : Limbs L, (tryFromWide L x : Out ε _) = .ok (some y) ∧ y.value = x.value) ∧
    (2 ^ (64 * L) ≤ x.value → (tryFromWide L x : Out ε _) = .ok none) := by
  constructor
  · intro hx
    have hb : ¬ bitLen x.value > 64 * L := Nat.not_lt.2 (bitLen_le_iff.2 hx)
    have hlen : (x.limbs.take L).length = L := by rw [List.length_take, x.length_eq]; omega
    have hc := copyInto_low (src := x.limbs.take L) (W := L) (by rw [hlen])
    rw [hlen, Nat.sub_self, List.replicate_zero, List.append_nil] at hc
    have hval : toNat (x.limbs.take L) = x.value := by
      have hsplit : x.value = toNat (x.limbs.take L) + 2 ^ (64 * L) * toNat (x.limbs.drop L) := by
        unfold value
        conv_lhs => rw [← List.take_append_drop L x.limbs, toNat_append, hlen]
      have : toNat (x.limbs.drop L) = 0 := by
        by_contra hne
        have : 2 ^ (64 * L) * 1 ≤ 2 ^ (64 * L) * toNat (x.limbs.drop L) := Nat.mul_le_mul_left _ (Nat.one_le_iff_ne_zero.2 hne)
        omega
      rw [this] at hsplit
      omega
    unfold tryFromWide
    rw [if_neg hb]
    dsimp only
    split
    · rename_i hn; rw [hc] at hn; cases hn
    · rename_i l hl; rw [hc] at hl; cases hl; exact ⟨_, rfl, hval⟩
  · intro hx
    unfold tryFromWide
    rw [if_pos (Nat.lt_of_not_le fun hle => absurd (bitLen_le_iff.1 hle) (Nat.not_lt.2 hx))]

/-- Widening and narrowing back gives the integer one started from. -/
theorem C73_widen_narrow {ε : Type} {L W : Nat} (h : L ≤ W) (x : Limbs L) :
    ((toWide W x : Out ε _).bind fun y => tryFromWide L y) = .ok (some x) := by
  obtain ⟨y, hy, hv⟩ := C73_widen (ε := ε) h x
  obtain ⟨z, hz, hzv⟩ := (C73_narrow (ε := ε) h y).1 (hv ▸ (C73_values L).1 x)
  rw [hy, Out.bind_ok, hz, ext_value (hzv.trans hv)]

/-- Multiplication into the sum of the sizes never panics and is exact. -/
theorem C73_mul {ε : Type} {L R : Nat} (x : Limbs L) (y : Limbs R) : ∃ z : Limbs (L + R), (mulWide (L + R) x y : Out ε _) = .ok z ∧ z.value = x.value * y.value := by
  have hlo := ofNatList_length L (x.value * y.value)
  have hhi := ofNatList_length R (x.value * y.value / 2 ^ (64 * L))
  have hc := copyInto_low (src := ofNatList L (x.value * y.value)) (W := L + R) (by rw [hlo]; omega)
  rw [hlo, Nat.add_sub_cancel_left] at hc
  have hc' : copyInto L (ofNatList R (x.value * y.value / 2 ^ (64 * L))) (ofNatList L (x.value * y.value) ++ List.replicate R 0#64) =
      some (ofNatList L (x.value * y.value) ++ ofNatList R (x.value * y.value / 2 ^ (64 * L))) := by
    unfold copyInto
    rw [if_pos (by simp [hlo, hhi]), hhi, List.take_append_of_le_length (by rw [hlo]), List.take_of_length_le (by rw [hlo]),
      List.drop_of_length_le (by simp [hlo]), List.append_nil]
  have hval : toNat (ofNatList L (x.value * y.value) ++ ofNatList R (x.value * y.value / 2 ^ (64 * L))) = x.value * y.value := by
    have hlt : x.value * y.value < 2 ^ (64 * L) * 2 ^ (64 * R) :=
      Nat.mul_lt_mul'' ((C73_values L).1 x) ((C73_values R).1 y)
    rw [toNat_append, hlo, toNat_ofNatList, toNat_ofNatList, Nat.mod_eq_of_lt (Nat.div_lt_of_lt_mul hlt)]
    exact Nat.mod_add_div _ _
  unfold mulWide splitMul
  dsimp only [ofNat]
  split
  · rename_i hn; rw [hc] at hn; cases hn
  · rename_i l hl
    rw [hc] at hl
    cases hl
    split
    · rename_i hn; rw [hc'] at hn; cases hn
    · rename_i l' hl'; rw [hc'] at hl'; cases hl'; exact ⟨_, rfl, hval⟩

private theorem beBytes_append (m n a b : Nat) (hb : b < 256 ^ n) : beBytes m a ++ beBytes n b = beBytes (m + n) (a * 256 ^ n + b) := by
  induction n generalizing b with
  | zero =>
    have : b = 0 := by simpa using hb
    subst this
    simp [beBytes]
  | succ n ih =>
    have hb' : b / 256 < 256 ^ n := Nat.div_lt_of_lt_mul (by rwa [Nat.pow_succ, Nat.mul_comm] at hb)
    rw [beBytes, ← List.append_assoc, ih _ hb', ← Nat.add_assoc, beBytes]
    have e : a * 256 ^ (n + 1) + b = 256 * (a * 256 ^ n) + b := by ring
    congr 2
    · rw [e, Nat.mul_add_div (by norm_num)]
    · apply BitVec.eq_of_toNat_eq
      rw [BitVec.toNat_ofNat, BitVec.toNat_ofNat, e]
      omega

private theorem written (l : List (BitVec 64)) (n v : Nat) (hv : v < 256 ^ n) :
    l.foldl (fun w limb => beBytes 8 limb.toNat ++ w) (beBytes n v) = beBytes (8 * l.length + n) (toNat l * 256 ^ n + v) := by
  induction l generalizing n v with
  | nil => simp [toNat]
  | cons x l ih =>
    have hx : x.toNat < 256 ^ 8 := lt_of_lt_of_eq x.isLt (by norm_num)
    have hlt : x.toNat * 256 ^ n + v < 256 ^ (8 + n) := by
      rw [Nat.pow_add]
      have : (x.toNat + 1) * 256 ^ n ≤ 256 ^ 8 * 256 ^ n := Nat.mul_le_mul_right _ hx
      rw [Nat.add_mul, Nat.one_mul] at this
      omega
    rw [List.foldl_cons, beBytes_append _ _ _ _ hv, ih _ _ hlt, List.length_cons, toNat]
    congr 1
    · omega
    · have : (2 : Nat) ^ 64 = 256 ^ 8 := by norm_num
      rw [this]
      ring

/-- The bytes are the big-endian digits of the value, `8·L` of them; reading them back gives the integer, and exactly the byte strings of this length can be read. -/
theorem C73_bytes {L : Nat} (x : Limbs L) : toBeBytes x = beBytes (8 * L) x.value ∧ tryFromBeBytes L (toBeBytes x) = some x := by
  have h : toBeBytes x = beBytes (8 * L) x.value := by
    have := written x.limbs 0 0 (by norm_num)
    simp only [Nat.pow_zero, Nat.mul_one, Nat.add_zero, x.length_eq] at this
    exact this
  refine ⟨h, ?_⟩
  unfold tryFromBeBytes
  rw [h, if_neg (by simp), fromBe_beBytes]
  refine congrArg some (ext_value ?_)
  show toNat (ofNatList L _) = _
  have hx := (C73_values L).1 x
  have e : (256 : Nat) ^ (8 * L) = 2 ^ (64 * L) := by rw [pow256]; congr 1; ring
  rw [toNat_ofNatList, e, Nat.mod_eq_of_lt hx, Nat.mod_eq_of_lt hx]

/-- Every byte string of the right length is the encoding of what is read from it, and no other can be read. -/
theorem C73_bytes_back (L : Nat) (bytes : List Byte) :
    (bytes.length = 8 * L → ∃ x : Limbs L, tryFromBeBytes L bytes = some x ∧ toBeBytes x = bytes) ∧
    (bytes.length ≠ 8 * L → tryFromBeBytes L bytes = none) := by
  refine ⟨fun h => ⟨ofNat L (fromBe bytes), by unfold tryFromBeBytes; rw [if_neg (by simpa using h)], ?_⟩, fun h => if_pos h⟩
  have hlt := fromBe_lt bytes
  rw [h] at hlt
  have e : (256 : Nat) ^ (8 * L) = 2 ^ (64 * L) := by rw [pow256]; congr 1; ring
  have hv : (ofNat L (fromBe bytes)).value = fromBe bytes := (toNat_ofNatList L _).trans (Nat.mod_eq_of_lt (e ▸ hlt))
  rw [(C73_bytes _).1, hv]
  have hinj : ∀ a b : List Byte, a.length = b.length → fromBe a = fromBe b → a = b := by
    intro a
    induction a with
    | nil => intro b hb _; exact (List.length_eq_zero_iff.1 hb.symm).symm
    | cons x a ih =>
      intro b hb hf
      cases b with
      | nil => simp at hb
      | cons y b =>
        have hl : a.length = b.length := by simpa using hb
        rw [fromBe_cons, fromBe_cons, hl] at hf
        have ha := fromBe_lt a
        have hbb := fromBe_lt b
        rw [hl] at ha
        have hpos : 0 < 256 ^ b.length := by positivity
        have h1 : x.toNat = y.toNat := by
          have h2 := congrArg (· / 256 ^ b.length) hf
          simp only [Nat.mul_comm _ (256 ^ b.length), Nat.mul_add_div hpos, Nat.div_eq_of_lt ha, Nat.div_eq_of_lt hbb] at h2
          simpa using h2
        rw [h1] at hf
        rw [BitVec.eq_of_toNat_eq h1, ih b hl (Nat.add_left_cancel hf)]
  exact hinj _ _ (by rw [beBytes_length, h]) (by rw [fromBe_beBytes, Nat.mod_eq_of_lt hlt])

/-- Two limbs with the value `5 + 3·2^64`: widening, refusing to narrow to one limb, the product with itself and the bytes. -/
private def two : Limbs 2 := ⟨[5#64, 3#64], rfl⟩

deriving instance DecidableEq for Limbs

example : two.value = 5 + 3 * 2 ^ 64 ∧ (toWide 3 two : Out Unit _) = .ok ⟨[5#64, 3#64, 0#64], rfl⟩ ∧ (tryFromWide 1 two : Out Unit _) = .ok none ∧
    (mulWide 4 two two : Out Unit _) = .ok ⟨[25#64, 30#64, 9#64, 0#64], rfl⟩ ∧
    toBeBytes two = [0, 0, 0, 0, 0, 0, 0, 3, 0, 0, 0, 0, 0, 0, 0, 5] ∧ tryFromBeBytes 2 [0, 0, 0, 3] = none := by
  decide +kernel

end Synedrion.Props
