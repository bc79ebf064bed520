import Verif.Lemmas.CurveBytes
import Verif.Lemmas.BMap
import Verif.Lemmas.Toy

/-!
# Properties C58, C59: scalars and points on the wire, scalars from hashes
-/

set_option linter.unusedSectionVars false

namespace Synedrion.Props
open Spec

variable {ε : Type} {q n : Nat}

/-! ## C58 -/

/-- **C58 (scalars, round trip).** A scalar written to bytes is read back as itself. -/
theorem C58_scalar_round_trip (hq : 0 < q) (hn : q ≤ 2 ^ (8 * n)) (x : ZMod q) :
    (scalarToBytes n x).length = n ∧ scalarTryFromBytes n q (scalarToBytes n x) = some x := by
  haveI : NeZero q := ⟨hq.ne'⟩
  refine ⟨by simp [scalarToBytes], ?_⟩
  have hx := ZMod.val_lt x
  have : fromBe (beBytes n x.val) = x.val := by
    rw [fromBe_beBytes, pow256, Nat.mod_eq_of_lt (lt_of_lt_of_le hx hn)]
  simp only [scalarTryFromBytes, scalarToBytes, beBytes_length, ne_eq, not_true_eq_false, if_false, this, hx, if_true]
  rw [ZMod.natCast_rightInverse x]

/-- **C58 (scalars, nothing else is accepted).** Bytes are read as a scalar exactly when they have the right length and denote its canonical representative, so a
number not below the order is refused. -/
theorem C58_scalar_exact (hq : 0 < q) (bytes : List Byte) (x : ZMod q) :
    scalarTryFromBytes n q bytes = some x ↔ bytes.length = n ∧ fromBe bytes = x.val := by
  haveI : NeZero q := ⟨hq.ne'⟩
  unfold scalarTryFromBytes
  by_cases hl : bytes.length = n
  · rw [if_neg (by simp [hl])]
    by_cases hlt : fromBe bytes < q
    · rw [if_pos hlt]
      constructor
      · intro h
        rw [← Option.some.inj h, ZMod.val_natCast, Nat.mod_eq_of_lt hlt]
        exact ⟨hl, rfl⟩
      · rintro ⟨-, h⟩
        rw [h, ZMod.natCast_rightInverse x]
    · rw [if_neg hlt]
      constructor
      · intro h; cases h
      · rintro ⟨-, h⟩
        exact absurd (h ▸ ZMod.val_lt x) hlt
  · rw [if_pos hl]
    constructor
    · intro h; cases h
    · rintro ⟨h, -⟩; exact absurd h hl

/-- **C58 (scalars, canonical).** Two byte strings read as the same scalar are equal. -/
theorem C58_scalar_canonical (hq : 0 < q) (b c : List Byte) (x : ZMod q) (hb : scalarTryFromBytes n q b = some x)
    (hc : scalarTryFromBytes n q c = some x) : b = c := by
  obtain ⟨hb, hb'⟩ := (C58_scalar_exact hq b x).1 hb
  obtain ⟨hc, hc'⟩ := (C58_scalar_exact hq c x).1 hc
  exact fromBe_inj (hb.trans hc.symm) (hb'.trans hc'.symm)

example : (0 < 11 ∧ 11 ≤ 2 ^ (8 * 1)) ∧ scalarTryFromBytes 1 11 [7#8] = some 7 ∧ scalarTryFromBytes 1 11 [11#8] = none ∧
    scalarTryFromBytes 1 11 [0#8, 7#8] = none := by decide +kernel

variable {G : Type} [AddCommGroup G]

/-- **C58 (points).** The full statement is: every point, once written, is read back as itself. It holds for every point except the identity; see
`C58_identity_not_encodable`. -/
theorem C58_point_round_trip_partial {S : Sec1 G} (hS : Sec1Laws S) (p : G) (hp : p ≠ 0) :
    ∃ b, (pointToBytes S p : Out ε _) = .ok b ∧ b.length = S.size ∧ pointTryFromBytes S b = some p := by
  refine ⟨S.encode p, ?_, hS.compressed p hp, hS.decode p⟩
  rw [pointToBytes, if_pos (hS.compressed p hp)]; rfl

/-- **C58 is false for the identity.** It can be read from the wire, but writing it (or hashing it) panics. -/
theorem C58_identity_not_encodable {S : Sec1 G} (hS : Sec1Laws S) :
    pointTryFromBytes S [0#8] = some 0 ∧ (pointToBytes S 0 : Out ε _) = .panic := by
  refine ⟨?_, ?_⟩
  · have := hS.decode 0
    rwa [hS.identity] at this
  · have := hS.size
    rw [pointToBytes, hS.identity, if_neg (by simp; omega)]; rfl

/-- **C58 (points, exactly).** Writing a point panics exactly for the identity. -/
theorem C58_point_panics_iff {S : Sec1 G} (hS : Sec1Laws S) (p : G) : (pointToBytes S p : Out ε _) = .panic ↔ p = 0 := by
  constructor
  · intro h
    by_contra hp
    obtain ⟨b, hb, -⟩ := C58_point_round_trip_partial (ε := ε) hS p hp
    rw [hb] at h; cases h
  · rintro rfl
    exact (C58_identity_not_encodable hS).2

/-- **C58 (points, not canonical).** A function that promises to read compressed points accepts the uncompressed form too: every point has two accepted encodings. -/
theorem C58_point_encoding_not_canonical {S : Sec1 G} (hS : Sec1Laws S) (p : G) (hp : p ≠ 0) :
    ∃ b c, b ≠ c ∧ pointTryFromBytes S b = some p ∧ pointTryFromBytes S c = some p := by
  obtain ⟨c, hc, hd⟩ := hS.uncompressed p hp
  refine ⟨S.encode p, c, ?_, hS.decode p, hd⟩
  intro h
  have := hS.size
  rw [← h, hS.compressed p hp] at hc
  omega

example : Sec1Laws Toy.sec1 ∧ pointTryFromBytes Toy.sec1 [4#8, 3#8, 3#8] = some 3 ∧ (pointToBytes Toy.sec1 3 : Out Unit _) = .ok [2#8, 3#8] :=
  ⟨Toy.sec1_laws, by decide +kernel, by decide +kernel⟩

/-! ### Consequence for key generation -/

section KeyInit
open KeyInit
variable {I F Sid V : Type} [LinearOrder I] [DecidableEq V]

/-- **C58 (key generation, agreement with the model).** On messages whose points are not the identity, receiving the bytes of round 2 is receiving the decoded message with a hash
of the compressed points: the protocol model, in which the hash takes points, describes it. -/
theorem C58_key_init_bytes {S : Sec1 G} (hS : Sec1Laws S) (hash : HashInput I Sid → V) (r : Round2 I F G Sid V) (sender : I) (b : Msg2Bytes) (m : Msg2 G)
    (hm : b.decode S = some m) (hX : m.capX ≠ 0) (hA : m.capA ≠ 0) :
    recv2Bytes S hash r sender b =
      match recv2 (fun sid id d => hash ⟨sid, id, S.encode d.capX, S.encode d.capA, d.rho, d.u⟩) r sender m with
      | .ok p => .ok p
      | .err e => .err (.round e)
      | .panic => .panic := by
  have h1 : (pointToBytes S m.capX : Out (WireErr Err) _) = .ok (S.encode m.capX) := by rw [pointToBytes, if_pos (hS.compressed _ hX)]; rfl
  have h2 : (pointToBytes S m.capA : Out (WireErr Err) _) = .ok (S.encode m.capA) := by rw [pointToBytes, if_pos (hS.compressed _ hA)]; rfl
  rw [recv2Bytes, hm, Out.ofOption_some, Out.bind_ok, recv2, recvGet]
  cases r.capVs.get? sender with
  | none => rfl
  | some v =>
    simp only [Out.ofOption_some, Out.bind_ok, hashData, h1, h2]
    split <;> rfl

/-- **C47, C58 (key generation).** A peer that sends the identity in round 2 crashes every receiver, whatever it committed to and whatever the digest is. -/
theorem C58_key_init_identity_panics {S : Sec1 G} (hS : Sec1Laws S) (hash : HashInput I Sid → V) (r : Round2 I F G Sid V) (sender : I)
    (hs : sender ∈ r.capVs.keySet) (rho u : List Bool) (capA : List Byte) (hA : (pointTryFromBytes S capA).isSome) :
    recv2Bytes S hash r sender ⟨rho, [0#8], capA, u⟩ = .panic := by
  obtain ⟨hd, hp⟩ := C58_identity_not_encodable (ε := WireErr Err) hS
  obtain ⟨A, hA⟩ := Option.isSome_iff_exists.1 hA
  obtain ⟨v, hv⟩ : ∃ v, r.capVs.get? sender = some v := by
    cases h : r.capVs.get? sender with
    | some v => exact ⟨v, rfl⟩
    | none => exact absurd (BMap.mem_keySet.1 hs) (BMap.get?_eq_none_iff.1 h)
  have hm : (Msg2Bytes.mk rho [0#8] capA u).decode S = some ⟨rho, 0, A, u⟩ := by
    simp only [Msg2Bytes.decode, hd, hA, Option.bind_some]
  simp only [recv2Bytes, hm, hv, Out.ofOption_some, Out.bind_ok, hashData, hp]
  rfl

/-- The sender of an honest message that contains the identity crashes itself: with share zero, key generation does not get past round 2. -/
theorem C58_key_init_zero_share_panics [Field F] [Module F G] {S : Sec1 G} (hS : Sec1Laws S) (c : Context I F G Sid) (h : c.data.capX = 0) :
    ((msg2 c).encode S : Out ε _) = .panic := by
  simp only [Msg2.encode, msg2, h, (C58_identity_not_encodable (ε := ε) hS).2]
  rfl

attribute [local instance] Toy.fact11 Toy.order11 in
/-- Party 1 of `{1, 2}` is waiting for the opening of party 2; its second byte string is a proper point. -/
example : ∃ r : Round2 Nat (ZMod 11) (ZMod 11) Nat Nat, 2 ∈ r.capVs.keySet ∧ (pointTryFromBytes Toy.sec1 [2#8, 5#8]).isSome ∧
    recv2Bytes Toy.sec1 (fun i => i.capX.length) r 2 ⟨[true], [0#8], [2#8, 5#8], [false]⟩ = .panic ∧
    (recv2Bytes Toy.sec1 (fun i => i.capX.length) r 2 ⟨[true], [2#8, 3#8], [2#8, 5#8], [false]⟩).isOk := by
  refine ⟨⟨⟨{2}, 1, 4, 5, ⟨4, 5, [true], [true]⟩, 0⟩, BMap.empty.insert 2 2⟩, by decide +kernel, by decide +kernel, ?_, by decide +kernel⟩
  exact C58_key_init_identity_panics Toy.sec1_laws _ _ _ (by decide +kernel) _ _ _ (by decide +kernel)

end KeyInit

/-! ## C59 -/

/-- **C59 (canonical).** The scalar taken from a hash is the number in the first `2n` bytes, read with the later half as the high half, modulo the order; without the debug assertion this never fails. -/
theorem C59_challenge_value (stream : List Byte) :
    (scalarFromXof false n q stream : Out ε (ZMod q)) =
      .ok (((fromBe ((stream.drop n).take n) * 2 ^ (8 * n) + fromBe (stream.take n) : Nat)) : ZMod q) :=
  scalarFromXof_release n q stream

/-- **C59 (nearly uniform).** Among the `2^(16n)` possible outputs of the hash, every scalar comes from `2^(16n) / q` of them, rounded down or up: no scalar is favoured by more than one output. -/
theorem C59_challenge_uniform (hq : 0 < q) (x : ZMod q) :
    {s : List Byte | s.length = 2 * n ∧ (scalarFromXof false n q s : Out ε (ZMod q)) = .ok x}.ncard =
      2 ^ (16 * n) / q + if x.val < 2 ^ (16 * n) % q then 1 else 0 := by
  haveI : NeZero q := ⟨hq.ne'⟩
  have himg : wideOf n '' {s : List Byte | s.length = 2 * n ∧ (scalarFromXof false n q s : Out ε (ZMod q)) = .ok x} =
      ((Finset.range (2 ^ (16 * n))).filter (· ≡ x.val [MOD q]) : Finset Nat) := by
    ext v
    simp only [Set.mem_image, Set.mem_setOf_eq, Finset.coe_filter, Finset.mem_range, scalarFromXof_release, Out.ok.injEq]
    have key : ∀ v : Nat, ((v : Nat) : ZMod q) = x ↔ v ≡ x.val [MOD q] := fun v => by
      rw [← ZMod.natCast_eq_natCast_iff, ZMod.natCast_rightInverse x]
    constructor
    · rintro ⟨s, ⟨hs, hx⟩, rfl⟩
      exact ⟨wideOf_lt hs, (key _).1 hx⟩
    · rintro ⟨hv, hx⟩
      obtain ⟨s, hs, rfl⟩ := wideOf_surj hv
      exact ⟨s, ⟨hs, (key _).2 hx⟩, rfl⟩
  rw [← Set.ncard_image_of_injOn ((wideOf_injOn n).mono fun s hs => hs.1), himg, Set.ncard_coe_finset, ← Nat.count_eq_card_filter_range,
    Nat.count_modEq_card _ hq, Nat.mod_eq_of_lt (ZMod.val_lt x)]

/-- **C59 (debug builds).** With debug assertions compiled in, a hash output whose number is divisible by the order makes the party panic, and there is such an output. -/
theorem C59_zero_challenge_panics (hq : 0 < q) (stream : List Byte) :
    (scalarFromXof true n q stream : Out ε (ZMod q)) = .panic ↔ (scalarFromXof false n q stream : Out ε (ZMod q)) = .ok 0 := by
  rw [scalarFromXof_release, Out.ok.injEq, ZMod.natCast_eq_zero_iff, Nat.dvd_iff_mod_eq_zero]
  simp only [scalarFromXof, Bool.not_true, Bool.false_or, Out.assert]
  have hw : wideFromXof n q (stream.take n) ((stream.drop n).take n) = wideOf n stream % q := rfl
  have hlt : wideOf n stream % q < q := Nat.mod_lt _ hq
  rw [← hw] at hlt ⊢
  by_cases h : wideFromXof n q (stream.take n) ((stream.drop n).take n) = 0
  · simp [h, Out.bind]
  · simp [h, hlt, Out.bind]

example : (scalarFromXof true 1 11 [11#8, 0#8] : Out Unit _) = .panic ∧ (scalarFromXof true 1 11 [3#8, 1#8] : Out Unit _) = .ok 6 := by decide +kernel

/-- **C59 (message digests).** A digest of the right length becomes the scalar it denotes modulo the order; this needs that the order has full length. -/
theorem C59_digest_value (hq : 2 ^ (8 * n) ≤ 2 * q) (bytes : List Byte) (hl : bytes.length = n) :
    (scalarFromReducedBytes n q bytes : Out ε (ZMod q)) = .ok (fromBe bytes : ZMod q) := by
  have hlt := fromBe_lt bytes
  rw [pow256, hl] at hlt
  simp only [scalarFromReducedBytes, hl, decide_true, Out.assert, if_true, Out.bind_ok]
  split
  · rfl
  · rename_i h
    rw [Nat.cast_sub (by omega), ZMod.natCast_self, sub_zero]

/-- **C59 (digests of another length).** -/
theorem C59_digest_length (bytes : List Byte) : (scalarFromReducedBytes n q bytes : Out ε (ZMod q)) = .panic ↔ bytes.length ≠ n := by
  simp only [scalarFromReducedBytes, Out.assert]
  by_cases h : bytes.length = n <;> simp [h, Out.bind]

example : 2 ^ (8 * 1) ≤ 2 * 251 ∧ (scalarFromReducedBytes 1 251 [254#8] : Out Unit _) = .ok 3 := by decide +kernel

end Synedrion.Props
