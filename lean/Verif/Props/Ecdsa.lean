import Verif.Spec.Ecdsa
import Mathlib.Tactic.LinearCombination
import Mathlib.Tactic.Module
import Mathlib.Tactic.FieldSimp
import Verif.Lemmas.Toy

/-!
# C44: signatures are normalized and recoverable
-/

set_option linter.unusedSectionVars false

namespace Synedrion.Props

open Synedrion Spec

variable {q : Nat} [Fact q.Prime] {G : Type} [AddCommGroup G] [Module (ZMod q) G] [DecidableEq G]

theorem normalizeS_eq (s : ZMod q) : normalizeS s = s ∨ normalizeS s = -s := by
  unfold normalizeS; split <;> simp

theorem normalizeS_low (s : ZMod q) : LowS (normalizeS s) := by
  unfold normalizeS isHigh LowS
  have hlt := ZMod.val_lt s
  by_cases h : q / 2 < s.val
  · rw [if_pos (by simpa using h), ZMod.neg_val]
    split
    · omega
    · omega
  · rw [if_neg (by simpa using h)]; omega

/-- A signature and its negation are valid together. -/
theorem EcdsaValid.neg {C : Curve G} (hC : CurveLaws C q) {X : G} {m r s : ZMod q} (h : EcdsaValid C X m r s) : EcdsaValid C X m r (-s) := by
  have he : (m * (-s)⁻¹) • C.g + (r * (-s)⁻¹) • X = -((m * s⁻¹) • C.g + (r * s⁻¹) • X) := by
    rw [inv_neg]; module
  refine ⟨h.r_ne, neg_ne_zero.2 h.s_ne, ?_, ?_⟩
  · rw [he]; exact neg_ne_zero.2 h.nonce_ne
  · rw [he, hC.x_neg]; exact h.nonce

theorem EcdsaValid.normalizeS_iff {C : Curve G} (hC : CurveLaws C q) {X : G} {m r s : ZMod q} :
    EcdsaValid C X m r (normalizeS s) ↔ EcdsaValid C X m r s := by
  rcases normalizeS_eq s with h | h
  · rw [h]
  · rw [h]
    exact ⟨fun h' => by simpa using EcdsaValid.neg hC h', EcdsaValid.neg hC⟩

theorem verifyPrehash_iff {C : Curve G} (hC : CurveLaws C q) {X : G} {m r s : ZMod q} (hr : r ≠ 0) (hs : s ≠ 0) :
    verifyPrehash C X m r s = true ↔ EcdsaValid C X m r s := by
  unfold verifyPrehash Curve.xCoordinate
  simp only [decide_eq_true_eq]
  refine ⟨fun h => ⟨hr, hs, fun h0 => hr ?_, h⟩, fun h => h.nonce⟩
  rw [h0, hC.x_zero, Nat.cast_zero] at h
  exact h.symm

/-- What recovery finds: the key of the point with the given x coordinate. -/
theorem recover_eq_some {C : Curve G} (hC : CurveLaws C q) {X : G} {m r s : ZMod q} (hr : r ≠ 0) (hs : s ≠ 0) (id : RecoveryId) :
    recover C m r s id = some X ↔ X ≠ 0 ∧ EcdsaValid C X m r s ∧
      C.x ((m * s⁻¹) • C.g + (r * s⁻¹) • X) = (if id.xReduced then r.val + q else r.val) ∧
      C.yOdd ((m * s⁻¹) • C.g + (r * s⁻¹) • X) = id.yOdd := by
  have back : ∀ R : G, X = (-(r⁻¹ * m)) • C.g + (r⁻¹ * s) • R → R = (m * s⁻¹) • C.g + (r * s⁻¹) • X := by
    rintro R rfl
    have e : (m * s⁻¹) • C.g + (r * s⁻¹) • ((-(r⁻¹ * m)) • C.g + (r⁻¹ * s) • R) =
        (m * s⁻¹ - r * r⁻¹ * (m * s⁻¹)) • C.g + (r * r⁻¹ * (s * s⁻¹)) • R := by module
    rw [e, mul_inv_cancel₀ hr, mul_inv_cancel₀ hs]
    simp
  unfold recover
  constructor
  · intro h
    split at h
    · cases h
    · split at h
      · cases h
      · rename_i R hd
        simp only at h
        split at h
        · cases h
        · rename_i hne
          split at h
          · rename_i hv
            cases h
            obtain ⟨d1, d2, d3⟩ := (hC.decompress_iff _ _ _).1 hd
            have hR := back R rfl
            rw [← hR]
            exact ⟨hne, (verifyPrehash_iff hC hr hs).1 hv, d2, d3⟩
          · cases h
  · rintro ⟨hX, hv, hx, hy⟩
    have hd := (hC.decompress_iff _ _ _).2 ⟨hv.nonce_ne, hx, hy⟩
    have hfit : ¬ (id.xReduced = true ∧ 2 ^ C.uintBits ≤ r.val + q) := by
      rintro ⟨h1, h2⟩
      rw [if_pos h1] at hx
      have := hC.x_fits ((m * s⁻¹) • C.g + (r * s⁻¹) • X)
      omega
    have hkey : (-(r⁻¹ * m)) • C.g + (r⁻¹ * s) • ((m * s⁻¹) • C.g + (r * s⁻¹) • X) = X := by
      have e : (-(r⁻¹ * m)) • C.g + (r⁻¹ * s) • ((m * s⁻¹) • C.g + (r * s⁻¹) • X) =
          (r⁻¹ * m * (s * s⁻¹) - r⁻¹ * m) • C.g + (r * r⁻¹ * (s * s⁻¹)) • X := by module
      rw [e, mul_inv_cancel₀ hr, mul_inv_cancel₀ hs]
      simp
    rw [if_neg hfit, hd]
    simp only [hkey]
    rw [if_neg hX, if_pos ((verifyPrehash_iff hC hr hs).2 hv)]

/-- **C44 (output).** Whatever is put in, a signature that comes out is a valid signature of the message under the key; its `s` is in the lower half; and
recovering the key from the message with the reported id gives the key. It differs from the input at most in the sign of `s`. -/
theorem C44_signature_valid (C : Curve G) (hC : CurveLaws C q) (r s : ZMod q) (vkey : G) (message : ZMod q) (sig : RecoverableSignature q)
    (h : RecoverableSignature.fromScalars C r s vkey message = some sig) :
    EcdsaValid C vkey message sig.r sig.s ∧ LowS sig.s ∧ recover C message sig.r sig.s sig.recoveryId = some vkey ∧
      sig.r = r ∧ (sig.s = s ∨ sig.s = -s) ∧ EcdsaValid C vkey message r s := by
  unfold RecoverableSignature.fromScalars at h
  split at h
  · cases h
  · rename_i h0
    push Not at h0
    simp only at h
    split at h
    · cases h
    · split at h
      · cases h
      · rename_i id hid
        cases h
        have hrec := List.find?_some hid
        simp only [decide_eq_true_eq] at hrec
        have hs : normalizeS s ≠ 0 := by
          rcases normalizeS_eq s with h | h
          · rw [h]; exact h0.2
          · rw [h]; exact neg_ne_zero.2 h0.2
        obtain ⟨_, hv, _⟩ := (recover_eq_some hC h0.1 hs id).1 hrec
        exact ⟨hv, normalizeS_low s, hrec, rfl, normalizeS_eq s, (EcdsaValid.normalizeS_iff hC).1 hv⟩

/-- **C44 (no valid signature is lost).** If the scalars are a valid signature under a key that is not the identity, a signature comes out. -/
theorem C44_valid_accepted (C : Curve G) (hC : CurveLaws C q) (r s : ZMod q) (vkey : G) (hk : vkey ≠ 0) (message : ZMod q)
    (hv : EcdsaValid C vkey message r s) : ∃ sig, RecoverableSignature.fromScalars C r s vkey message = some sig := by
  have hv' := (EcdsaValid.normalizeS_iff hC (s := s)).2 hv
  have hsome : (trialRecovery C vkey message r (normalizeS s)).isSome := by
    unfold trialRecovery
    rw [List.find?_isSome]
    set R := (message * (normalizeS s)⁻¹) • C.g + (r * (normalizeS s)⁻¹) • vkey with hR
    have hxr : (C.x R : ZMod q) = r := hv'.nonce
    have hmod : C.x R % q = r.val := by rw [← hxr, ZMod.val_natCast]
    have hlt := hC.x_lt R
    have hq : 0 < q := (Fact.out : q.Prime).pos
    by_cases hred : C.x R < q
    · refine ⟨⟨C.yOdd R, false⟩, ?_, ?_⟩
      · cases C.yOdd R <;> simp [RecoveryId.all]
      · simp only [decide_eq_true_eq]
        rw [recover_eq_some hC hv'.r_ne hv'.s_ne]
        refine ⟨hk, hv', ?_, rfl⟩
        rw [Nat.mod_eq_of_lt hred] at hmod
        simpa using hmod
    · refine ⟨⟨C.yOdd R, true⟩, ?_, ?_⟩
      · cases C.yOdd R <;> simp [RecoveryId.all]
      · simp only [decide_eq_true_eq]
        rw [recover_eq_some hC hv'.r_ne hv'.s_ne]
        refine ⟨hk, hv', ?_, rfl⟩
        have : C.x R % q = C.x R - q := by
          rw [Nat.mod_eq_sub_mod (by omega), Nat.mod_eq_of_lt (by omega)]
        simp only [if_true]
        rw [← hR]
        omega
  obtain ⟨id, hid⟩ := Option.isSome_iff_exists.1 hsome
  refine ⟨⟨r, normalizeS s, id⟩, ?_⟩
  unfold RecoverableSignature.fromScalars
  rw [if_neg (by push Not; exact ⟨hv.r_ne, hv.s_ne⟩)]
  simp only
  rw [if_neg hk, hid]

/-- **C44 (the id is determined).** Two different recovery ids never give the same key. -/
theorem C44_recovery_id_unique (C : Curve G) (hC : CurveLaws C q) (r s : ZMod q) (hr : r ≠ 0) (hs : s ≠ 0) (key : G) (message : ZMod q)
    (id id' : RecoveryId) (h : recover C message r s id = some key) (h' : recover C message r s id' = some key) : id = id' := by
  obtain ⟨_, _, hx, hy⟩ := (recover_eq_some hC hr hs id).1 h
  obtain ⟨_, _, hx', hy'⟩ := (recover_eq_some hC hr hs id').1 h'
  have hq : 0 < q := (Fact.out : q.Prime).pos
  obtain ⟨y, x⟩ := id
  obtain ⟨y', x'⟩ := id'
  simp only at *
  rw [hy] at hy'
  rw [hx] at hx'
  subst hy'
  congr 1
  cases x <;> cases x' <;> simp at hx' ⊢ <;> omega

/-! ### A concrete case -/

section Examples

attribute [local instance] Toy.fact11

/-- A toy curve: the points are the residues modulo 11; the x coordinates of `±1, …, ±5` are 1, 2, 3, 4 and 16, the last of which exceeds the order. -/
def toyCurve : Curve (ZMod 11) where
  g := 1
  x p := if min p.val (11 - p.val) % 11 = 5 then 16 else min p.val (11 - p.val) % 11
  yOdd p := decide (5 < p.val)
  decompress a b := (List.range 11).findSome? fun n : Nat =>
    if n ≠ 0 ∧ (if min n (11 - n) % 11 = 5 then 16 else min n (11 - n) % 11) = a ∧ decide (5 < n) = b then some (n : ZMod 11) else none
  uintBits := 5

theorem toyCurve_laws : CurveLaws toyCurve 11 where
  x_zero := by decide +kernel
  x_neg := by decide +kernel
  decompress_iff := by
    have key : ∀ (p : ZMod 11) b, p ≠ 0 → toyCurve.yOdd p = b → toyCurve.decompress (toyCurve.x p) b = some p := by decide +kernel
    have small : ∀ a < 17, ∀ b p, toyCurve.decompress a b = some p → p ≠ 0 ∧ toyCurve.x p = a ∧ toyCurve.yOdd p = b := by decide +kernel
    intro a b p
    refine ⟨fun h => ?_, ?_⟩
    · by_cases ha : a < 17
      · exact small a ha b p h
      · exfalso
        unfold toyCurve at h
        simp only at h
        obtain ⟨n, hn, h⟩ := List.exists_of_findSome?_eq_some h
        by_cases hc : n ≠ 0 ∧ (if min n (11 - n) % 11 = 5 then 16 else min n (11 - n) % 11) = a ∧ decide (5 < n) = b
        · have := hc.2.1
          split at this <;> omega
        · rw [if_neg hc] at h; cases h
    · rintro ⟨h1, rfl, h3⟩
      exact key p b h1 h3
  x_lt := by decide +kernel
  x_fits := by decide +kernel

/-- Key 3, nonce 5 (whose x coordinate 16 reduces to 5), message 2: `s = (2 + 5 * 3) / 5 = 10` is normalized to 1, and the id tells both the reduction and
the parity after normalization. -/
example : RecoverableSignature.fromScalars toyCurve (5 : ZMod 11) 10 (3 : ZMod 11) 2 = some ⟨5, 1, ⟨true, true⟩⟩ ∧
    EcdsaValid toyCurve (3 : ZMod 11) (2 : ZMod 11) 5 10 := by
  refine ⟨by decide +kernel, ?_, ?_, ?_, ?_⟩ <;> decide +kernel

/-- An invalid signature is rejected. -/
example : RecoverableSignature.fromScalars toyCurve (5 : ZMod 11) 9 (3 : ZMod 11) 2 = none := by decide +kernel

end Examples

end Synedrion.Props
