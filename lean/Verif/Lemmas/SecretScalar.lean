import Verif.Model.SecretScalar
import Verif.Lemmas.SecretKeys

/-!
# Helper lemmas about secret scalars in memory
-/

namespace Synedrion.SecretScalar

open Spec Spec.KeyMemory SecretBox SecretBounded SecretKeys Function

variable {m₀ : Mem Nat} {base : Plain Nat} {l : List (Nat × Nat)} {g : List Nat} {α β : Type}

theorem ex_toBeBytes (i : Nat) {a v : Nat} (hi : l[i]? = some (a, v)) : Ex m₀ base (toBeBytes a) l g fun r l' g' => l' = (r, v) :: l ∧ g' = v :: v :: g := by
  refine (ex_expose i hi).bind fun _ _ _ h => ?_
  obtain ⟨⟨rfl, rfl⟩, rfl⟩ := h
  refine (ex_alloc _).bind fun _ _ _ h => ?_
  obtain ⟨rfl, rfl⟩ := h
  refine (ex_expose 0 rfl).bind fun _ _ _ h => ?_
  obtain ⟨⟨rfl, rfl⟩, rfl⟩ := h
  refine (ex_alloc _).bind fun _ _ _ h => ?_
  obtain ⟨rfl, rfl⟩ := h
  refine (ex_forget 1 rfl).bind fun _ _ _ h => ?_
  obtain ⟨rfl, rfl⟩ := h
  refine (ex_expose 0 rfl).bind fun _ _ _ h => ?_
  obtain ⟨⟨rfl, rfl⟩, rfl⟩ := h
  refine (ex_alloc _).bind fun _ _ _ h => ?_
  obtain ⟨rfl, rfl⟩ := h
  refine (ex_forget 1 rfl).bind fun _ _ _ h => ?_
  obtain ⟨rfl, rfl⟩ := h
  exact .pure ⟨rfl, rfl⟩

theorem ex_tryFromBeBytes (q v : Nat) : Ex m₀ base (tryFromBeBytes q v) l g fun r l' g' => (r = (if v < q then some v else none) ∧ l' = l) ∧ g' = v :: g := by
  refine (ex_alloc v).bind fun _ _ _ h => ?_
  obtain ⟨rfl, rfl⟩ := h
  refine (ex_expose 0 rfl).bind fun _ _ _ h => ?_
  obtain ⟨⟨rfl, rfl⟩, rfl⟩ := h
  refine (ex_forget 0 rfl).bind fun _ _ _ h => ?_
  obtain ⟨rfl, rfl⟩ := h
  exact .pure ⟨⟨rfl, rfl⟩, rfl⟩

theorem ex_serialize (i : Nat) {a v : Nat} (hi : l[i]? = some (a, v)) : Ex m₀ base (serialize a) l g fun r l' g' => (r = v ∧ l' = l) ∧ g' = v :: v :: g := by
  refine (ex_toBeBytes i hi).bind fun _ _ _ h => ?_
  obtain ⟨rfl, rfl⟩ := h
  refine (ex_expose 0 rfl).bind fun _ _ _ h => ?_
  obtain ⟨⟨rfl, rfl⟩, rfl⟩ := h
  refine (ex_wipe 0 rfl).bind fun _ _ _ h => ?_
  obtain ⟨rfl, rfl⟩ := h
  exact .pure ⟨⟨rfl, rfl⟩, rfl⟩

theorem ex_tryInitWith_none {ctr : M Nat (Option Nat)} {g₁ : List Nat} (hc : Ex m₀ base ctr l g fun r l' g' => (r = none ∧ l' = l) ∧ g' = g₁) :
    Ex m₀ base (tryInitWith ctr) l g fun r l' g' => r = none ∧ l' = l ∧ g' = g₁ :=
  hc.bind fun r l' g' h => by
    obtain ⟨⟨rfl, rfl⟩, rfl⟩ := h
    exact .pure ⟨rfl, rfl, rfl⟩

theorem ex_deserialize (q v : Nat) : Ex m₀ base (deserialize q v) l g fun r l' g' =>
    (if v < q then ∃ a, r = some a ∧ l' = (a, v) :: l else r = none ∧ l' = l) ∧ g' = v :: g := by
  refine (ex_alloc v).bind fun b l₁ g₁ h => ?_
  have hc : Ex m₀ base (do tryFromBeBytes q (← expose b)) l₁ g₁ fun r l' g' => (r = (if v < q then some v else none) ∧ l' = l₁) ∧ g' = v :: g₁ := by
    refine (ex_expose 0 (by rw [h.1]; rfl)).bind fun _ _ _ h => ?_
    obtain ⟨⟨rfl, rfl⟩, rfl⟩ := h
    exact ex_tryFromBeBytes q _
  obtain ⟨rfl, rfl⟩ := h
  by_cases hv : v < q
  · simp only [if_pos hv] at hc ⊢
    refine (ex_tryInitWith hc).bind fun _ _ _ h => ?_
    obtain ⟨a, rfl, rfl, rfl⟩ := h
    refine (ex_wipe 1 rfl).bind fun _ _ _ h => ?_
    obtain ⟨rfl, rfl⟩ := h
    exact .pure ⟨⟨a, rfl, rfl⟩, rfl⟩
  · simp only [if_neg hv] at hc ⊢
    refine (ex_tryInitWith_none hc).bind fun _ _ _ h => ?_
    obtain ⟨rfl, rfl, rfl⟩ := h
    refine (ex_wipe 0 rfl).bind fun _ _ _ h => ?_
    obtain ⟨rfl, rfl⟩ := h
    exact .pure ⟨⟨rfl, rfl⟩, rfl⟩

theorem ex_slice (i : Nat) {q len b v : Nat} (hi : l[i]? = some (b, v)) (hlt : v < q) (hlen : q ≤ 256 ^ len) :
    Ex m₀ base (do tryFromBeBytes q ((← expose b) % 256 ^ len)) l g fun r l' g' => (r = some v ∧ l' = l) ∧ g' = v :: g := by
  refine (ex_expose i hi).bind fun _ _ _ h => ?_
  obtain ⟨⟨rfl, rfl⟩, rfl⟩ := h
  refine (ex_tryFromBeBytes q _).mono fun _ _ _ h => ?_
  rw [Nat.mod_eq_of_lt (lt_of_lt_of_le hlt hlen), if_pos hlt] at h
  exact h

theorem ex_scalarFromWideUint (i : Nat) {q len a v : Nat} (hi : l[i]? = some (a, v)) (hq : q ≠ 0) (hlen : q ≤ 256 ^ len) :
    Ex m₀ base (scalarFromWideUint q len a) l g fun r l' g' => ∃ s, r = some s ∧ l' = (s, v % q) :: l ∧ g' = v % q :: g := by
  have hlt : v % q < q := Nat.mod_lt _ (Nat.pos_of_ne_zero hq)
  refine (ex_copy i hi).bind fun r _ _ h => ?_
  obtain ⟨rfl, rfl⟩ := h
  refine (ex_expose 0 rfl).bind fun _ _ _ h => ?_
  obtain ⟨⟨rfl, rfl⟩, rfl⟩ := h
  refine (ex_assign 0 rfl).bind fun _ _ _ h => ?_
  obtain ⟨rfl, rfl⟩ := h
  refine (ex_expose 0 rfl).bind fun _ _ _ h => ?_
  obtain ⟨⟨rfl, rfl⟩, rfl⟩ := h
  refine (ex_alloc _).bind fun b _ _ h => ?_
  obtain ⟨rfl, rfl⟩ := h
  refine (ex_tryInitWith (ex_slice 0 rfl hlt hlen)).bind fun _ _ _ h => ?_
  obtain ⟨s, rfl, rfl, rfl⟩ := h
  refine (ex_wipe 1 rfl).bind fun _ _ _ h => ?_
  obtain ⟨rfl, rfl⟩ := h
  refine (ex_wipe 1 rfl).bind fun _ _ _ h => ?_
  obtain ⟨rfl, rfl⟩ := h
  exact .pure ⟨s, rfl, rfl, rfl⟩

theorem ex_uintFromScalar (i : Nat) {a v : Nat} (hi : l[i]? = some (a, v)) : Ex m₀ base (uintFromScalar a) l g fun r l' g' => l' = (r, v) :: l ∧ g' = v :: v :: g := by
  refine (ex_toBeBytes i hi).bind fun _ _ _ h => ?_
  obtain ⟨rfl, rfl⟩ := h
  refine (ex_alloc _).bind fun _ _ _ h => ?_
  obtain ⟨rfl, rfl⟩ := h
  refine (ex_expose 1 rfl).bind fun _ _ _ h => ?_
  obtain ⟨⟨rfl, rfl⟩, rfl⟩ := h
  refine (ex_assign 0 rfl).bind fun _ _ _ h => ?_
  obtain ⟨rfl, rfl⟩ := h
  refine (ex_copy 0 rfl).bind fun _ _ _ h => ?_
  obtain ⟨rfl, rfl⟩ := h
  refine (ex_wipe 1 rfl).bind fun _ _ _ h => ?_
  obtain ⟨rfl, rfl⟩ := h
  refine (ex_wipe 1 rfl).bind fun _ _ _ h => ?_
  obtain ⟨rfl, rfl⟩ := h
  exact .pure ⟨rfl, rfl⟩

theorem ex_signedFromScalar (i : Nat) {w q numBits a : Nat} {x : ZMod q} {s : SecretSigned w} (hi : l[i]? = some (a, x.val)) (hq : q ≠ 0) (hw : q < 2 ^ w)
    (hs : (Conv.secretSignedFromScalar w numBits x : Out Unit _) = .ok s) :
    Ex m₀ base (signedFromScalar w q numBits a) l g fun r l' g' => ∃ b, r = .ok ⟨s.bound, b⟩ ∧ l' = (b, s.value.toNat) :: l ∧ g' = (q - x.val) :: x.val :: x.val :: g := by
  have : NeZero q := ⟨hq⟩
  have hlt : x.val < q := ZMod.val_lt x
  have hx : (BitVec.ofNat w x.val).toNat = x.val := by rw [BitVec.toNat_ofNat, Nat.mod_eq_of_lt (by omega)]
  have hqw : (BitVec.ofNat w q).toNat = q := by rw [BitVec.toNat_ofNat, Nat.mod_eq_of_lt hw]
  have hs' : (SecretSigned.newModulo (BitVec.ofNat w x.val) (BitVec.ofNat w q) numBits : Out Unit _) = .ok (some s) := by
    unfold Conv.secretSignedFromScalar Conv.uintFromScalar Conv.curveOrder at hs
    cases h : (SecretSigned.newModulo (BitVec.ofNat w x.val) (BitVec.ofNat w q) numBits : Out Unit _) with
    | ok o =>
      rw [h] at hs
      cases o with
      | some y => cases hs; rfl
      | none => cases hs
    | err e => rw [h] at hs; cases hs
    | panic => rw [h] at hs; cases hs
  refine (ex_uintFromScalar i hi).bind fun u _ _ h => ?_
  obtain ⟨rfl, rfl⟩ := h
  refine (ex_newModulo 0 (v := BitVec.ofNat w x.val) (by rw [hx]; rfl) (by omega) hs').bind fun _ _ _ h => ?_
  obtain ⟨⟨b, rfl, rfl⟩, rfl⟩ := h
  rw [BitVec.toNat_sub_of_le (by rw [BitVec.le_def]; omega), hx, hqw]
  exact .pure ⟨b, rfl, rfl, rfl⟩

theorem ex_absValue (i : Nat) {n a : Nat} {x : SecretSigned n} (hi : l[i]? = some (a, x.value.toNat)) : Ex m₀ base (absValue n a) l g fun r l' g' => l' = (r, x.absValue.toNat) :: l ∧ g' = g :=
  .careful (fun _ _ h => (does_absValue (h.get hi)).mono fun _ _ h' => ⟨_, h.new h', rfl⟩) (keeps_absValue _ _)

theorem ex_isNegative (i : Nat) {n a : Nat} {v : BitVec n} (hi : l[i]? = some (a, v.toNat)) : Ex m₀ base (isNegative n a) l g fun r l' g' => (r = v.msb ∧ l' = l) ∧ g' = g :=
  .careful (fun _ _ h => (does_isNegative (h.get hi)).mono fun _ _ h' => ⟨l, h'.2 ▸ h, h'.1, rfl⟩) (keeps_isNegative _ _)

theorem ex_conditionalSelect (i j : Nat) {a b x y : Nat} {c : Bool} (hi : l[i]? = some (a, x)) (hj : l[j]? = some (b, y)) :
    Ex m₀ base (conditionalSelect a b c) l g fun r l' g' => l' = (r, if c then y else x) :: l ∧ g' = g :=
  .careful (fun _ _ h => (does_conditionalSelect (h.get hi) (h.get hj)).mono fun _ _ h' => ⟨_, h.new h', rfl⟩) (keeps_conditionalSelect _ _ _)

theorem ex_negCopy (i : Nat) {q s v : Nat} (hi : l[i]? = some (s, v)) :
    Ex m₀ base (do
      let copy ← alloc (← expose s)
      let v ← expose copy
      forget copy
      return (-(v : ZMod q)).val) l g fun r l' g' => (r = (-(v : ZMod q)).val ∧ l' = l) ∧ g' = v :: g := by
  refine (ex_expose i hi).bind fun _ _ _ h => ?_
  obtain ⟨⟨rfl, rfl⟩, rfl⟩ := h
  refine (ex_alloc _).bind fun _ _ _ h => ?_
  obtain ⟨rfl, rfl⟩ := h
  refine (ex_expose 0 rfl).bind fun _ _ _ h => ?_
  obtain ⟨⟨rfl, rfl⟩, rfl⟩ := h
  refine (ex_forget 0 rfl).bind fun _ _ _ h => ?_
  obtain ⟨rfl, rfl⟩ := h
  exact .pure ⟨⟨rfl, rfl⟩, rfl⟩

theorem ex_selectSign {q s v : Nat} {c : Bool} :
    Ex m₀ base (selectSign q s c) ((s, v) :: l) g fun r l' g' => l' = (r, if c then (-(v : ZMod q)).val else v) :: l ∧ g' = v :: g := by
  refine (ex_initWith (ex_negCopy 0 rfl)).bind fun n _ _ h => ?_
  obtain ⟨rfl, rfl⟩ := h
  refine (ex_conditionalSelect 1 0 rfl rfl).bind fun _ _ _ h => ?_
  obtain ⟨rfl, rfl⟩ := h
  refine (ex_wipe 1 rfl).bind fun _ _ _ h => ?_
  obtain ⟨rfl, rfl⟩ := h
  refine (ex_wipe 1 rfl).bind fun _ _ _ h => ?_
  obtain ⟨rfl, rfl⟩ := h
  exact .pure ⟨rfl, rfl⟩

/-- The value with its sign -/
theorem select_val {q v : Nat} {c : Bool} (hv : v < q) : (if c then (-(v : ZMod q)).val else v) = (if c then -(v : ZMod q) else (v : ZMod q)).val := by
  cases c with
  | true => rfl
  | false => exact (ZMod.val_cast_of_lt hv).symm

theorem ex_scalarFromSigned (i : Nat) {w W q len a : Nat} {x : SecretSigned w} (hi : l[i]? = some (a, x.value.toNat)) (hW : w ≤ W) (hq : q ≠ 0) (hqW : q < 2 ^ W) (hlen : q ≤ 256 ^ len) :
    Ex m₀ base (scalarFromSigned w q len a) l g fun r l' g' =>
      ∃ s, r = some s ∧ l' = (s, (Conv.secretScalarFromSigned q W x).val) :: l ∧ g' = x.absValue.toNat % q :: x.absValue.toNat % q :: g := by
  have hlt : x.absValue.toNat % q < q := Nat.mod_lt _ (Nat.pos_of_ne_zero hq)
  refine (ex_absValue i hi).bind fun _ _ _ h => ?_
  obtain ⟨rfl, rfl⟩ := h
  refine (ex_copy 0 rfl).bind fun _ _ _ h => ?_
  obtain ⟨rfl, rfl⟩ := h
  refine (ex_scalarFromWideUint 0 rfl hq hlen).bind fun _ _ _ h => ?_
  obtain ⟨s, rfl, rfl, rfl⟩ := h
  refine (ex_wipe 1 rfl).bind fun _ _ _ h => ?_
  obtain ⟨rfl, rfl⟩ := h
  refine (ex_wipe 1 rfl).bind fun _ _ _ h => ?_
  obtain ⟨rfl, rfl⟩ := h
  refine (ex_isNegative (i + 1) hi).bind fun _ _ _ h => ?_
  obtain ⟨⟨rfl, rfl⟩, rfl⟩ := h
  refine ex_selectSign.bind fun r _ _ h => ?_
  obtain ⟨rfl, rfl⟩ := h
  refine .pure ⟨r, rfl, ?_, rfl⟩
  rw [select_val hlt]
  have h1 : (x.absValue.setWidth W).toNat = x.absValue.toNat := by
    rw [BitVec.toNat_setWidth, Nat.mod_eq_of_lt (lt_of_lt_of_le x.absValue.isLt (Nat.pow_le_pow_right (by decide) hW))]
  have h2 : (Conv.curveOrder W q).toNat = q := by rw [Conv.curveOrder, BitVec.toNat_ofNat, Nat.mod_eq_of_lt hqW]
  rw [Conv.secretScalarFromSigned, Conv.scalarFromWideUint, h1, h2]
  rfl

theorem ex_scalarFromWideSigned (i : Nat) {w q len a : Nat} {x : SecretSigned w} (hi : l[i]? = some (a, x.value.toNat)) (hq : q ≠ 0) (hqw : q < 2 ^ w) (hlen : q ≤ 256 ^ len) :
    Ex m₀ base (scalarFromWideSigned w q len a) l g fun r l' g' =>
      ∃ s, r = some s ∧ l' = (s, (Conv.secretScalarFromWideSigned q x).val) :: l ∧ g' = x.absValue.toNat % q :: x.absValue.toNat % q :: g := by
  have hlt : x.absValue.toNat % q < q := Nat.mod_lt _ (Nat.pos_of_ne_zero hq)
  refine (ex_absValue i hi).bind fun _ _ _ h => ?_
  obtain ⟨rfl, rfl⟩ := h
  refine (ex_scalarFromWideUint 0 rfl hq hlen).bind fun _ _ _ h => ?_
  obtain ⟨s, rfl, rfl, rfl⟩ := h
  refine (ex_wipe 1 rfl).bind fun _ _ _ h => ?_
  obtain ⟨rfl, rfl⟩ := h
  refine (ex_isNegative (i + 1) hi).bind fun _ _ _ h => ?_
  obtain ⟨⟨rfl, rfl⟩, rfl⟩ := h
  refine ex_selectSign.bind fun r _ _ h => ?_
  obtain ⟨rfl, rfl⟩ := h
  refine .pure ⟨r, rfl, ?_, rfl⟩
  rw [select_val hlt]
  have h2 : (Conv.curveOrder w q).toNat = q := by rw [Conv.curveOrder, BitVec.toNat_ofNat, Nat.mod_eq_of_lt hqw]
  rw [Conv.secretScalarFromWideSigned, Conv.scalarFromWideUint, h2]
  rfl

end Synedrion.SecretScalar
