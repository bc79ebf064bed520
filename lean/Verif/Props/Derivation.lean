import Verif.Props.Entities
import Verif.Lemmas.Toy
import Verif.Lemmas.SigningEvidence

/-!
# C17: when key derivation fails, and with which error
-/

set_option linter.unusedSectionVars false

namespace Synedrion.Props

open Spec Shamir

variable {I F G : Type} [LinearOrder I] [Field F] [LinearOrder F] [AddCommGroup G] [Module F G] [DecidableEq G]

private theorem childPublic_err {g pk : G} {t : F} {e : EntErr} (h : deriveChildPublic g pk t = .err e) : e = .crypto := by
  unfold deriveChildPublic at h
  split at h
  · cases h; rfl
  · split at h <;> cases h; rfl

private theorem childSecret_err {sk t : F} {e : EntErr} (h : deriveChildSecret sk t = .err e) : e = .crypto := by
  unfold deriveChildSecret at h
  split at h
  · cases h; rfl
  · split at h <;> cases h; rfl

private theorem applyPublic_err {g : G} {e : EntErr} : ∀ {ts : List F} {pk : G}, applyTweaksPublic g pk ts = .err e → e = .crypto := by
  intro ts
  induction ts with
  | nil => intro _ h; cases h
  | cons t ts ih =>
    intro pk h
    rcases Out.bind_eq_err.1 h with h | ⟨_, -, h⟩
    · exact childPublic_err h
    · exact ih h

private theorem applySecret_err {e : EntErr} : ∀ {ts : List F} {sk : F}, applyTweaksSecret sk ts = .err e → e = .crypto := by
  intro ts
  induction ts with
  | nil => intro _ h; cases h
  | cons t ts ih =>
    intro pk h
    rcases Out.bind_eq_err.1 h with h | ⟨_, -, h⟩
    · exact childSecret_err h
    · exact ih h

private theorem tweaks_err {CC : Type} {g : G} {dt : G → CC → Nat → Out EntErr (F × CC)} {e : EntErr} : ∀ {path : List Nat} {pk : G} {cc : CC},
    deriveTweaksLoop g dt path pk cc = .err e → e = .crypto ∨ ∃ pk cc n, dt pk cc n = .err e := by
  intro path
  induction path with
  | nil => intro _ _ h; cases h
  | cons n path ih =>
    intro pk cc h
    rcases Out.bind_eq_err.1 h with h | ⟨_, -, h⟩
    · exact Or.inr ⟨_, _, _, h⟩
    · rcases Out.bind_eq_err.1 h with h | ⟨_, -, h⟩
      · exact Or.inl (childPublic_err h)
      · rcases Out.bind_eq_err.1 h with h | ⟨_, -, h⟩
        · exact ih h
        · cases h

private theorem vkey_err {s : ThresholdKeyShare I F G} {e : EntErr} (h : s.vkeyOrCrypto = .err e) : e = .crypto := by
  unfold ThresholdKeyShare.vkeyOrCrypto at h
  split at h <;> cases h; rfl

/-- **C17 (errors).** Derivation fails with `bip32::Error::Crypto` or with an error of the derivation of a single tweak (such as that for a hardened index). In particular the
error of a share that has no verifying key is reported as `Crypto`. This holds for the derivation of a share and for that of the verifying key. -/
theorem C17_error_kinds {CC : Type} (g : G) (chainCode : G → CC) (deriveTweak : G → CC → Nat → Out EntErr (F × CC)) (path : List Nat) (share : ThresholdKeyShare I F G) :
    (∀ e, share.deriveBip32 g chainCode deriveTweak path = .err e → e = .crypto ∨ ∃ pk cc n, deriveTweak pk cc n = .err e) ∧
    (∀ e, share.deriveVerifyingKeyBip32 g chainCode deriveTweak path = .err e → e = .crypto ∨ ∃ pk cc n, deriveTweak pk cc n = .err e) ∧
    (∀ e, share.verifyingKey = .err e → share.deriveBip32 g chainCode deriveTweak path = .err .crypto ∧
      share.deriveVerifyingKeyBip32 g chainCode deriveTweak path = .err .crypto) := by
  refine ⟨fun e h => ?_, fun e h => ?_, fun e h => ?_⟩
  · rcases Out.bind_eq_err.1 h with h | ⟨_, -, h⟩
    · exact Or.inl (vkey_err h)
    rcases Out.bind_eq_err.1 h with h | ⟨_, -, h⟩
    · exact tweaks_err h
    rcases Out.bind_eq_err.1 h with h | ⟨_, -, h⟩
    · unfold Out.ensure at h
      split at h <;> cases h
      exact Or.inl rfl
    rcases Out.bind_eq_err.1 h with h | ⟨_, -, h⟩
    · exact Or.inl (applySecret_err h)
    rcases Out.bind_eq_err.1 h with h | ⟨_, -, h⟩
    · obtain ⟨p, -, h⟩ := Out.mapM'_eq_err h
      rcases Out.bind_eq_err.1 h with h | ⟨_, -, h⟩
      · cases hv : toVerifyingKey p.2 <;> rw [hv] at h <;> cases h
        exact Or.inl rfl
      rcases Out.bind_eq_err.1 h with h | ⟨_, -, h⟩
      · exact Or.inl (applyPublic_err h)
      · cases h
    · cases h
  · rcases Out.bind_eq_err.1 h with h | ⟨_, -, h⟩
    · exact Or.inl (vkey_err h)
    rcases Out.bind_eq_err.1 h with h | ⟨_, -, h⟩
    · exact tweaks_err h
    · exact Or.inl (applyPublic_err h)
  · have hv : share.vkeyOrCrypto = .err .crypto := by unfold ThresholdKeyShare.vkeyOrCrypto; rw [h]
    unfold ThresholdKeyShare.deriveBip32 ThresholdKeyShare.deriveVerifyingKeyBip32
    rw [hv]
    exact ⟨rfl, rfl⟩

private theorem secret_ok_iff {ts : List F} : ∀ {x : F}, x ≠ 0 →
    ((∃ y, applyTweaksSecret x ts = .ok y) ↔ (∀ t ∈ ts, t ≠ 0) ∧ ∀ n ≤ ts.length, x + (ts.take n).sum ≠ 0) := by
  induction ts with
  | nil => intro x hx; simp [applyTweaksSecret, hx]
  | cons t ts ih =>
    intro x hx
    unfold applyTweaksSecret deriveChildSecret
    by_cases ht : t = 0
    · simp [ht]
    by_cases hxt : x + t = 0
    · simp only [if_neg ht, if_pos hxt, Out.bind_err, reduceCtorEq, exists_false, false_iff, not_and]
      intro _ h
      exact h 1 (by simp) (by simpa using hxt)
    · rw [if_neg ht, if_neg hxt, Out.bind_ok, ih hxt]
      constructor
      · rintro ⟨h1, h2⟩
        refine ⟨by simpa [ht] using h1, ?_⟩
        intro n hn
        cases n with
        | zero => simpa using hx
        | succ n =>
          have := h2 n (by simpa using hn)
          simpa [add_assoc] using this
      · rintro ⟨h1, h2⟩
        refine ⟨fun t' ht' => h1 t' (by simp [ht']), fun n hn => ?_⟩
        have := h2 (n + 1) (by simpa using hn)
        simpa [add_assoc] using this

/-- **C17 (when it succeeds).** For a threshold sharing of a non-zero key, derivation along a path whose tweaks exist succeeds at every holder if no secret share is hit: no share, and no share
plus some of the first tweaks, is zero. If a single share is hit, derivation fails at every holder, although the child key exists. -/
theorem C17_succeeds_iff {CC : Type} (g : G) (hg : g ≠ 0) (chainCode : G → CC) (deriveTweak : G → CC → Nat → Out EntErr (F × CC))
    (path : List Nat) (ids : Finset I) (t : Nat) (shares : I → ThresholdKeyShare I F G) (sk : F)
    (h : ThresholdSharing g ids t shares sk) (hsk : sk ≠ 0) (i : I) (hi : i ∈ ids) (tweaks : List F)
    (htw : deriveTweaks g chainCode deriveTweak (sk • g) path = .ok tweaks) :
    ((∃ r, (shares i).deriveBip32 g chainCode deriveTweak path = .ok r) ↔
      ∀ j ∈ ids, ∀ n ≤ tweaks.length, (shares j).secretShare + (tweaks.take n).sum ≠ 0) ∧
    (shares i).deriveVerifyingKeyBip32 g chainCode deriveTweak path = .ok ((sk + tweaks.sum) • g) := by
  have hvk : (shares i).vkeyOrCrypto = .ok (sk • g) := by
    unfold ThresholdKeyShare.vkeyOrCrypto
    rw [h.vk hg hsk hi]
  obtain ⟨y, hy⟩ := deriveTweaks_apply hg (show deriveTweaksLoop g deriveTweak path (sk • g) (chainCode (sk • g)) = .ok tweaks from htw)
  have htne : ∀ t ∈ tweaks, t ≠ 0 := ((secret_ok_iff hsk).1 ⟨y, hy⟩).1
  obtain ⟨htc, sid, tail, hlen, hinj, hall⟩ := h
  have hpubs : (shares i).publicShares = BMap.tabulate ids fun j => (shares j).secretShare • g := by
    obtain ⟨_, _, _, _, _, h6, h7⟩ := hall i hi
    exact BMap.eq_tabulate_of h6 h7
  have hone : ∀ j ∈ ids, ((∃ v, (Out.ofOption EntErr.crypto (toVerifyingKey ((shares j).secretShare • g))).bind (fun vkey => applyTweaksPublic g vkey tweaks) = .ok v) ↔
      ∀ n ≤ tweaks.length, (shares j).secretShare + (tweaks.take n).sum ≠ 0) := by
    intro j _
    by_cases h0 : (shares j).secretShare = 0
    · rw [toVerifyingKey, if_pos (by rw [h0, zero_smul])]
      simp only [Out.ofOption, Out.bind_err, reduceCtorEq, exists_false, false_iff]
      intro hn
      exact hn 0 (by simp) (by simpa using h0)
    · rw [toVerifyingKey, if_neg (smul_ne_zero h0 hg), Out.ofOption_some, Out.bind_ok, applyTweaksPublic_smul hg]
      have := secret_ok_iff (ts := tweaks) h0
      rw [show (∀ n ≤ tweaks.length, (shares j).secretShare + (tweaks.take n).sum ≠ 0) ↔
        (∀ t ∈ tweaks, t ≠ 0) ∧ ∀ n ≤ tweaks.length, (shares j).secretShare + (tweaks.take n).sum ≠ 0 from ⟨fun h => ⟨htne, h⟩, fun h => h.2⟩, ← this]
      simp [Out.bind_eq_ok]
  refine ⟨⟨?_, ?_⟩, ?_⟩
  · rintro ⟨r, hr⟩ j hj
    unfold ThresholdKeyShare.deriveBip32 at hr
    rw [hvk, Out.bind_ok, htw, Out.bind_ok] at hr
    obtain ⟨_, _, hr⟩ := Out.bind_eq_ok.1 hr
    obtain ⟨_, _, hr⟩ := Out.bind_eq_ok.1 hr
    obtain ⟨pl, hpl, _⟩ := Out.bind_eq_ok.1 hr
    rw [hpubs] at hpl
    have key : ∀ (es l : List (I × G)), (j, (shares j).secretShare • g) ∈ es →
        Out.mapM' (fun p : I × G => (Out.ofOption EntErr.crypto (toVerifyingKey p.2)).bind fun vkey =>
          (applyTweaksPublic g vkey tweaks).bind fun v => .ok (p.1, v)) es = .ok l →
        ∃ v, (Out.ofOption EntErr.crypto (toVerifyingKey ((shares j).secretShare • g))).bind (fun vkey =>
          (applyTweaksPublic g vkey tweaks)) = .ok v := by
      intro es
      induction es with
      | nil => intro l hm; simp at hm
      | cons p es ih =>
        intro l hm he
        rw [Out.mapM'] at he
        obtain ⟨a, ha, he⟩ := Out.bind_eq_ok.1 he
        obtain ⟨bs, hbs, _⟩ := Out.bind_eq_ok.1 he
        rcases List.mem_cons.1 hm with rfl | hm
        · obtain ⟨vk, hvk', ha⟩ := Out.bind_eq_ok.1 ha
          obtain ⟨v, hv, _⟩ := Out.bind_eq_ok.1 ha
          exact ⟨v, by rw [hvk', Out.bind_ok]; exact hv⟩
        · exact ih bs hm hbs
    exact (hone j hj).1 (key _ _ (by rw [← BMap.get?_eq_some_iff, BMap.get?_tabulate, if_pos hj]) hpl)
  · intro hn
    have hi0 : (shares i).secretShare ≠ 0 := by simpa using hn i hi 0 (by simp)
    obtain ⟨z, hz⟩ := (secret_ok_iff (ts := tweaks) hi0).2 ⟨htne, hn i hi⟩
    have hd : decide ((shares i).secretShare ≠ 0) = true := by simpa using hi0
    unfold ThresholdKeyShare.deriveBip32
    rw [hvk, Out.bind_ok, htw, Out.bind_ok, hd, Out.ensure_true, Out.bind_ok, hz, Out.bind_ok, hpubs]
    have hm : Out.mapM' (fun p : I × G => (Out.ofOption EntErr.crypto (toVerifyingKey p.2)).bind fun vkey =>
        (applyTweaksPublic g vkey tweaks).bind fun v => .ok (p.1, v))
        (BMap.tabulate ids fun j => (shares j).secretShare • g).entries =
        .ok ((BMap.tabulate ids fun j => (shares j).secretShare • g).entries.map fun p => (p.1, p.2 + tweaks.sum • g)) := by
      apply Out.mapM'_ok_of_forall
      intro p hp
      obtain ⟨j, hj, rfl⟩ := List.mem_map.1 hp
      have hj' := mem_bsetIter.1 hj
      have hj0 : (shares j).secretShare ≠ 0 := by simpa using hn j hj' 0 (by simp)
      obtain ⟨z, hz⟩ := (secret_ok_iff (ts := tweaks) hj0).2 ⟨htne, hn j hj'⟩
      simp only [toVerifyingKey]
      rw [if_neg (smul_ne_zero hj0 hg), Out.ofOption_some, Out.bind_ok, applyTweaksPublic_smul hg, hz, applyTweaksSecret_ok hz]
      simp [add_smul]
    rw [hm]
    exact ⟨_, rfl⟩
  · unfold ThresholdKeyShare.deriveVerifyingKeyBip32
    rw [hvk, Out.bind_ok, htw, Out.bind_ok, applyTweaksPublic_smul hg, hy, applyTweaksSecret_ok hy]
    rfl

/-! ### Concrete cases -/

section
attribute [local instance] Toy.fact11 Toy.order11

/-- A 2-of-3 sharing of the key 5 by the polynomial 5 + 3X: the share of party 2 is zero. -/
private def hitShare (i : Nat) : ThresholdKeyShare Nat (ZMod 11) (ZMod 11) :=
  ⟨i, 2, 5 + 3 * (i : ZMod 11), BMap.ofList [(1, 1), (2, 2), (3, 3)], BMap.ofList [(1, 8), (2, 0), (3, 3)]⟩

private def toyTweak : ZMod 11 → Nat → Nat → Out EntErr (ZMod 11 × Nat) := fun pk cc n => if n < 100 then .ok (pk + cc + n, cc + 1) else .err .badThreshold

/-- The hypotheses of `C17_succeeds_iff` can be met; here derivation fails at every holder because the share of party 2 is zero, although the child key exists. -/
example : ThresholdSharing (1 : ZMod 11) {1, 2, 3} 2 hitShare 5 ∧
    deriveTweaks (1 : ZMod 11) (fun _ => 2) toyTweak (5 • 1) [3, 5] = .ok [10, 1] ∧
    (hitShare 1).deriveBip32 (1 : ZMod 11) (fun _ => 2) toyTweak [3, 5] = .err .crypto ∧
    (hitShare 1).deriveVerifyingKeyBip32 (1 : ZMod 11) (fun _ => 2) toyTweak [3, 5] = .ok 5 := by
  refine ⟨⟨by decide, fun i => (i : ZMod 11), [3], by decide, ?_, ?_⟩, by decide +kernel, by decide +kernel, by decide +kernel⟩
  · intro a ha b hb h
    simp only [Finset.coe_insert, Finset.coe_singleton, Set.mem_insert_iff, Set.mem_singleton_iff] at ha hb
    rcases ha with rfl | rfl | rfl <;> rcases hb with rfl | rfl | rfl <;> first | rfl | (revert h; decide +kernel)
  · have : ∀ i, polyValue ([5, 3] : List (ZMod 11)) (i : ZMod 11) = 5 + 3 * i := by
      intro i; simp [polyValue_cons, polyValue_nil, mul_comm]
    intro i hi
    refine ⟨rfl, rfl, ?_, by simp [hitShare]; decide +kernel, ?_, by simp [hitShare]; decide +kernel, ?_⟩
    · rw [this]; rfl
    · intro j hj; revert j; revert i; decide +kernel
    · intro j hj; revert j; revert i; decide +kernel

/-- A share without a verifying key, and an index the tweak function rejects. -/
example : ({ hitShare 1 with publicShares := BMap.ofList [] } : ThresholdKeyShare Nat (ZMod 11) (ZMod 11)).deriveBip32 (1 : ZMod 11) (fun _ => 2) toyTweak [3] = .err .crypto ∧
    ({ hitShare 1 with publicShares := BMap.ofList [] } : ThresholdKeyShare Nat (ZMod 11) (ZMod 11)).verifyingKey = .err .missingId ∧
    (hitShare 1).deriveBip32 (1 : ZMod 11) (fun _ => 2) toyTweak [300] = .err .badThreshold := by decide +kernel

end

end Synedrion.Props
