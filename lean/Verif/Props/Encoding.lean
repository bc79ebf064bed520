import Verif.Lemmas.Encoding
import Mathlib.Data.List.Induction

/-!
# Properties C05, C06, C08: wire encodings and transcript framing
-/

namespace Synedrion.Props
open Spec

variable {ε : Type} {w : Nat}

/-! ## C05 -/

/-- **C05 (round trip).** Serializing a public signed integer never panics, and deserializing gives back exactly it. -/
theorem C05_signed_round_trip (hw : 8 ∣ w) (s : PublicSigned w) (hs : Truthful w s.bound s.value) :
    ∃ p, (s.pack : Out ε _) = .ok p ∧ p.unpack w = some s := by
  obtain ⟨k, rfl⟩ := hw
  have hb := hs.1
  have hlen : (uintToBeBytes s.abs).length = k := by simp [uintToBeBytes]
  have hbytes : (s.bound + 7) / 8 ≤ k := by omega
  have hnat := s.abs_toNat
  have habs : s.abs.toNat < 2 ^ s.bound := by rw [hnat]; exact hs.2
  have hlt : s.abs.toNat < 256 ^ ((s.bound + 7) / 8) := by
    rw [pow256]
    exact lt_of_lt_of_le habs (Nat.pow_le_pow_right (by norm_num) (by omega))
  refine ⟨⟨s.bound, s.isNegative, (uintToBeBytes s.abs).drop (k - (s.bound + 7) / 8)⟩, ?_, ?_⟩
  · unfold PublicSigned.pack
    simp only [hlen]
    rw [if_neg (by omega)]
  · have hk : 8 * k / 8 = k := by omega
    unfold PackedSigned.unpack
    simp only [List.length_drop, hlen, hk]
    rw [if_neg (by omega), fromBe_pad]
    have : fromBe ((uintToBeBytes s.abs).drop (k - (s.bound + 7) / 8)) = s.abs.toNat := by
      unfold uintToBeBytes
      rw [hk]
      exact fromBe_drop_beBytes _ _ _ hbytes hlt
    rw [this, BitVec.ofNat_toNat, BitVec.setWidth_eq]
    unfold PublicSigned.newFromAbs
    have hbl := bitLen_le_iff.2 habs
    rw [if_neg (by omega)]
    congr 1
    have hval : (if s.isNegative then -s.abs else s.abs) = s.value := by
      unfold PublicSigned.abs PublicSigned.neg
      split <;> simp
    rw [hval]

/-- **C05 (hostile input).** Whatever is deserialized, an accepted value respects its declared bound; it is the number written in the
bytes with the announced sign. -/
theorem C05_signed_decode_sound (hw : 8 ∣ w) (p : PackedSigned) (s : PublicSigned w) (h : p.unpack w = some s) :
    Truthful w s.bound s.value ∧ s.bound = p.bound ∧
      s.value.toInt = if p.isNegative then -(fromBe p.absBytes : Int) else fromBe p.absBytes := by
  unfold PackedSigned.unpack at h
  simp only at h
  split at h
  · cases h
  · rename_i hlen
    rw [fromBe_pad] at h
    unfold PublicSigned.newFromAbs at h
    split at h
    · cases h
    · rename_i hc
      rw [not_or] at hc
      obtain ⟨k, rfl⟩ := hw
      have hlt : fromBe p.absBytes < 2 ^ (8 * k) := by
        rw [← pow256]
        exact lt_of_lt_of_le (fromBe_lt _) (Nat.pow_le_pow_right (by norm_num) (by omega))
      have hn : (BitVec.ofNat (8 * k) (fromBe p.absBytes)).toNat = fromBe p.absBytes := by
        rw [BitVec.toNat_ofNat]; exact Nat.mod_eq_of_lt hlt
      have := signed_of_small (v := BitVec.ofNat (8 * k) (fromBe p.absBytes)) (show p.bound < 8 * k by omega)
        (bitLen_le_iff.1 (by omega)) p.isNegative
      rw [hn] at this
      cases h
      exact ⟨this.2, rfl, this.1⟩

/-- **C05 (exact acceptance).** -/
theorem C05_signed_decode_accepts_iff (hw : 8 ∣ w) (p : PackedSigned) :
    (p.unpack w).isSome ↔ p.absBytes.length ≤ w / 8 ∧ p.bound < w ∧ fromBe p.absBytes < 2 ^ p.bound := by
  unfold PackedSigned.unpack
  simp only
  obtain ⟨k, rfl⟩ := hw
  split
  · simp; omega
  · rename_i hlen
    have hlt : fromBe p.absBytes < 2 ^ (8 * k) := by
      rw [← pow256]
      exact lt_of_lt_of_le (fromBe_lt _) (Nat.pow_le_pow_right (by norm_num) (by omega))
    rw [fromBe_pad]
    unfold PublicSigned.newFromAbs
    rw [BitVec.toNat_ofNat, Nat.mod_eq_of_lt hlt, ← bitLen_le_iff]
    split
    · simp; omega
    · simp; omega

/-- Unsigned integers: fixed-length round trip, and every accepted byte string is the canonical one. -/
theorem C05_uint_round_trip (hw : 8 ∣ w) (v : BitVec w) (l : List Byte) :
    uintTryFromBeBytes w (uintToBeBytes v) = some v ∧
    (uintTryFromBeBytes w l = some v → l = uintToBeBytes v) := by
  obtain ⟨k, rfl⟩ := hw
  have hk : 8 * k / 8 = k := by omega
  constructor
  · unfold uintTryFromBeBytes uintToBeBytes
    simp only [beBytes_length, ne_eq, not_true_eq_false, if_false, fromBe_beBytes, hk]
    rw [pow256, Nat.mod_eq_of_lt v.isLt, BitVec.ofNat_toNat, BitVec.setWidth_eq]
  · intro h
    unfold uintTryFromBeBytes at h
    split at h
    · cases h
    · rename_i hl
      simp only [ne_eq, not_not, hk] at hl
      cases h
      have hlt : fromBe l < 2 ^ (8 * k) := by rw [← pow256, ← hl]; exact fromBe_lt l
      unfold uintToBeBytes
      rw [BitVec.toNat_ofNat, Nat.mod_eq_of_lt hlt, hk, ← hl]
      clear hlt hk hl
      induction l using List.reverseRec with
      | nil => rfl
      | append_singleton l b ih =>
        have hb : b.toNat < 256 := b.isLt
        rw [List.length_append, List.length_singleton, beBytes, fromBe_append_single]
        have h1 : (fromBe l * 256 + b.toNat) / 256 = fromBe l := by omega
        rw [h1, ← ih]
        congr 2
        apply BitVec.eq_of_toNat_eq
        rw [BitVec.toNat_ofNat]; omega

example : ((⟨9, -300#16⟩ : PublicSigned 16).pack : Out Unit _) = .ok ⟨9, true, [1#8, 44#8]⟩ ∧
    (⟨9, true, [1#8, 44#8]⟩ : PackedSigned).unpack 16 = some ⟨9, -300#16⟩ ∧
    Truthful 16 9 (-300#16) := by decide

/-- The encoding is not canonical: zero has (at least) three accepted encodings, so equal values need not have equal bytes. -/
theorem C05_signed_encoding_not_canonical :
    ∃ p q r : PackedSigned, p ≠ q ∧ q ≠ r ∧ p ≠ r ∧ p.unpack 16 = q.unpack 16 ∧ q.unpack 16 = r.unpack 16 ∧
      (p.unpack 16).isSome :=
  ⟨⟨0, false, []⟩, ⟨0, true, []⟩, ⟨0, false, [0#8]⟩, by decide⟩

/-! ## C06 -/

/-- **C06 (round trip).** For every bit vector (of a length that fits the `u32` header) unpacking the packed form returns it. -/
theorem C06_bitvec_round_trip (bits : List Bool) (h : bits.length < 2 ^ 32) :
    unpackBits (packBits bits) = .ok bits := by
  have hl : (packLoop bits 0 (List.replicate ((bits.length + 7) / 8) 0#8)).length = (bits.length + 7) / 8 := by
    rw [packLoop_length]; simp
  unfold unpackBits packBits
  simp only [Nat.mod_eq_of_lt h, hl]
  rw [if_neg (by omega), fromBytes_ok _ _ (by omega)]
  congr 1
  apply List.ext_getElem
  · simp
  · intro i h1 h2
    have hlt : i / 8 < (bits.length + 7) / 8 := by omega
    have hb : bitAt (List.replicate ((bits.length + 7) / 8) 0#8) i = some false := by
      unfold bitAt
      rw [List.getElem?_replicate]
      simp [hlt]
    simp [packLoop_bitAt, hb, h2]

/-- **C06 (hostile input).** Unpacking never panics: it fails exactly when the header announces more bits than there are bytes for,
and otherwise returns exactly the announced number of bits. -/
theorem C06_bitvec_decode_total (p : PackedBitVec) :
    (unpackBits p = .err () ∧ 8 * p.byteVec.length < p.bits) ∨
    (∃ bits, unpackBits p = .ok bits ∧ bits.length = p.bits ∧ p.bits ≤ 8 * p.byteVec.length) := by
  unfold unpackBits
  split
  · exact .inl ⟨rfl, by omega⟩
  · refine .inr ⟨_, fromBytes_ok _ _ (by omega), by simp, by omega⟩

example : unpackBits (packBits [true, false, true, true, false, false, false, true, true, false]) =
    .ok [true, false, true, true, false, false, false, true, true, false] := by decide

/-- The bit-vector encoding is not canonical either: trailing bytes and padding bits are ignored. -/
theorem C06_bitvec_encoding_not_canonical :
    ∃ p q r : PackedBitVec, p ≠ q ∧ q ≠ r ∧ unpackBits p = .ok [true] ∧ unpackBits q = .ok [true] ∧ unpackBits r = .ok [true] :=
  ⟨⟨1, [128#8]⟩, ⟨1, [129#8]⟩, ⟨1, [128#8, 0#8]⟩, by decide⟩

/-! ## C08 -/

/-- **C08.** Different sequences of byte strings are never fed to the hash as the same byte stream. -/
theorem C08_transcript_injective (a b : List (List Byte)) (ha : ∀ c ∈ a, c.length < 2 ^ 64)
    (hb : ∀ c ∈ b, c.length < 2 ^ 64) (h : transcript a = transcript b) : a = b := by
  induction a generalizing b with
  | nil =>
    cases b with
    | nil => rfl
    | cons c cs =>
      rw [transcript_cons] at h
      have := congrArg List.length h
      simp [transcript] at this
      try omega
  | cons c cs ih =>
    cases b with
    | nil =>
      rw [transcript_cons] at h
      have := congrArg List.length h
      simp [transcript] at this
    | cons d ds =>
      rw [transcript_cons, transcript_cons, List.append_assoc, List.append_assoc] at h
      obtain ⟨h1, h2⟩ := List.append_inj h (by simp)
      have hc := ha c (by simp)
      have hd := hb d (by simp)
      rw [Nat.mod_eq_of_lt hc, Nat.mod_eq_of_lt hd] at h1
      have h256 : (256 : Nat) ^ 8 = 2 ^ 64 := by norm_num
      have hlen : c.length = d.length := beBytes_inj (by omega) (by omega) h1
      obtain ⟨h3, h4⟩ := List.append_inj h2 hlen
      rw [h3, ih ds (fun x hx => ha x (by simp [hx])) (fun x hx => hb x (by simp [hx])) h4]

/-- Even the absorbed *prefixes* differ: no sequence's stream is a proper prefix collision with one of equal chunk count. -/
theorem C08_transcript_prefix_injective (a b : List (List Byte)) (s t : List Byte) (hn : a.length = b.length)
    (ha : ∀ c ∈ a, c.length < 2 ^ 64) (hb : ∀ c ∈ b, c.length < 2 ^ 64)
    (h : transcript a ++ s = transcript b ++ t) : a = b ∧ s = t := by
  induction a generalizing b with
  | nil =>
    cases b with
    | nil => exact ⟨rfl, by simpa [transcript] using h⟩
    | cons c cs => simp at hn
  | cons c cs ih =>
    cases b with
    | nil => simp at hn
    | cons d ds =>
      rw [transcript_cons, transcript_cons] at h
      simp only [List.append_assoc] at h
      obtain ⟨h1, h2⟩ := List.append_inj h (by simp)
      have hc := ha c (by simp)
      have hd := hb d (by simp)
      rw [Nat.mod_eq_of_lt hc, Nat.mod_eq_of_lt hd] at h1
      have h256 : (256 : Nat) ^ 8 = 2 ^ 64 := by norm_num
      have hlen : c.length = d.length := beBytes_inj (by omega) (by omega) h1
      obtain ⟨h3, h4⟩ := List.append_inj h2 hlen
      obtain ⟨h5, h6⟩ := ih ds (by simpa using hn) (fun x hx => ha x (by simp [hx])) (fun x hx => hb x (by simp [hx])) h4
      exact ⟨by rw [h3, h5], h6⟩

/-- `H(AB|CD)` and `H(ABC|D)` absorb different bytes. -/
example : transcript [[65#8, 66#8], [67#8, 68#8]] ≠ transcript [[65#8, 66#8, 67#8], [68#8]] := by decide

end Synedrion.Props
