import Verif.Spec.Derivation
import Verif.Props.Entities
import Verif.Lemmas.Toy

/-!
# C75: derivation paths, and what a derived share says about its parent
-/

set_option linter.unusedSectionVars false

namespace Synedrion.Props

open Spec Shamir

variable {I F G : Type} [LinearOrder I] [Field F] [LinearOrder F] [AddCommGroup G] [Module F G] [DecidableEq G]

section
variable {CC : Type}

/-- The loop over `p₁ ++ p₂` is the loop over `p₁` followed by the loop over `p₂` from the key and chain code reached. -/
private theorem loop_append {g : G} {dt : G → CC → Nat → Out EntErr (F × CC)} :
    ∀ {p₁ : List Nat} {pk : G} {cc : CC} {ts₁ : List F} {k₁ : G},
      deriveTweaksLoop g dt p₁ pk cc = .ok ts₁ → applyTweaksPublic g pk ts₁ = .ok k₁ →
      ∃ cc₁, (∀ p₂, deriveTweaksLoop g dt (p₁ ++ p₂) pk cc = (deriveTweaksLoop g dt p₂ k₁ cc₁).bind fun ts₂ => .ok (ts₁ ++ ts₂)) ∧
        ((p₁ = [] ∧ cc₁ = cc) ∨ ∃ pk₀ cc₀ n t, n ∈ p₁.getLast? ∧ dt pk₀ cc₀ n = .ok (t, cc₁) ∧ deriveChildPublic g pk₀ t = .ok k₁) := by
  intro p₁
  induction p₁ with
  | nil =>
    intro pk cc ts₁ k₁ h1 h2
    cases h1
    cases h2
    refine ⟨cc, fun p₂ => ?_, .inl ⟨rfl, rfl⟩⟩
    simp only [List.nil_append]
    cases deriveTweaksLoop g dt p₂ pk cc <;> rfl
  | cons n p₁ ih =>
    intro pk cc ts₁ k₁ h1 h2
    simp only [deriveTweaksLoop] at h1
    obtain ⟨⟨t, cc'⟩, ht, h1⟩ := Out.bind_eq_ok.1 h1
    obtain ⟨pk', hpk, h1⟩ := Out.bind_eq_ok.1 h1
    obtain ⟨ts', hts, h1⟩ := Out.bind_eq_ok.1 h1
    cases h1
    simp only at hpk hts
    simp only [applyTweaksPublic, hpk, Out.bind_ok] at h2
    obtain ⟨cc₁, e, hl⟩ := ih hts h2
    refine ⟨cc₁, fun p₂ => ?_, .inr ?_⟩
    · simp only [List.cons_append, deriveTweaksLoop, ht, hpk, Out.bind_ok]
      rw [e p₂]
      cases deriveTweaksLoop g dt p₂ k₁ cc₁ <;> rfl
    · rcases hl with ⟨rfl, rfl⟩ | ⟨a, b, m, s, hm, h3, h4⟩
      · cases hts
        cases h2
        exact ⟨pk, cc, n, t, by simp, ht, hpk⟩
      · refine ⟨a, b, m, s, ?_, h3, h4⟩
        cases p₁ with
        | nil => simp at hm
        | cons x xs => simpa using hm

private theorem applyPublic_append {g : G} {ts₂ : List F} : ∀ {ts₁ : List F} {pk : G},
    applyTweaksPublic g pk (ts₁ ++ ts₂) = (applyTweaksPublic g pk ts₁).bind fun k => applyTweaksPublic g k ts₂ := by
  intro ts₁
  induction ts₁ with
  | nil => intro pk; rfl
  | cons t ts₁ ih =>
    intro pk
    simp only [List.cons_append, applyTweaksPublic]
    cases deriveChildPublic g pk t with
    | ok k => simp only [Out.bind_ok]; exact ih
    | err e => rfl
    | panic => rfl

private theorem childPublic_eq {g pk k : G} {t : F} (h : deriveChildPublic g pk t = .ok k) : k = pk + t • g := by
  unfold deriveChildPublic at h
  split at h
  · cases h
  · split at h
    · cases h
    · cases h; rfl

private theorem one_step {g : G} {f : G → CC} {dt : G → CC → Nat → Out EntErr (F × CC)} {k₁ k₂ : G} {n : Nat}
    (h : deriveVerifyingKeyBip32 g f dt k₁ [n] = .ok k₂) : ∃ t cc, dt k₁ (f k₁) n = .ok (t, cc) ∧ k₂ = k₁ + t • g := by
  obtain ⟨ts, hts, hk⟩ := Out.bind_eq_ok.1 h
  simp only [deriveTweaks, deriveTweaksLoop] at hts
  obtain ⟨⟨t, cc⟩, ht, hts⟩ := Out.bind_eq_ok.1 hts
  obtain ⟨k, hk', hts⟩ := Out.bind_eq_ok.1 hts
  cases hts
  simp only at hk'
  simp only [applyTweaksPublic, hk', Out.bind_ok] at hk
  cases hk
  exact ⟨t, cc, ht, childPublic_eq hk'⟩

/-- **C75 (part).** What does hold: a key derived along `p₁ ++ p₂` is the key derived along `p₂` from the key derived along `p₁`, provided
the second derivation starts with the chain code that the first one ended with. The code offers no way to do that: it starts every
derivation from a chain code computed from the public key. -/
theorem C75_composition_partial (g : G) (chainCode : G → CC) (deriveTweak : G → CC → Nat → Out EntErr (F × CC))
    (pk k₁ : G) (p₁ : List Nat) (h : deriveVerifyingKeyBip32 g chainCode deriveTweak pk p₁ = .ok k₁) :
    ∃ carried : CC,
      (∀ p₂, deriveVerifyingKeyBip32 g chainCode deriveTweak pk (p₁ ++ p₂) =
        deriveVerifyingKeyBip32 g (fun _ => carried) deriveTweak k₁ p₂) ∧
      (p₁ = [] → carried = chainCode pk) ∧
      (p₁ ≠ [] → ∃ pk₀ cc₀ n t, n ∈ p₁.getLast? ∧ deriveTweak pk₀ cc₀ n = .ok (t, carried) ∧ k₁ = pk₀ + t • g) := by
  obtain ⟨ts₁, h1, h2⟩ := Out.bind_eq_ok.1 h
  obtain ⟨cc₁, e, hl⟩ := loop_append h1 h2
  have huniq : ∀ p₂ : List Nat, deriveVerifyingKeyBip32 g chainCode deriveTweak pk (p₁ ++ p₂) =
      deriveVerifyingKeyBip32 g (fun _ => cc₁) deriveTweak k₁ p₂ := by
    intro p₂
    unfold deriveVerifyingKeyBip32 deriveTweaks
    rw [e p₂]
    cases deriveTweaksLoop g deriveTweak p₂ k₁ cc₁ with
    | ok ts₂ => simp only [Out.bind_ok]; rw [applyPublic_append, h2]; rfl
    | err _ => rfl
    | panic => rfl
  refine ⟨cc₁, huniq, ?_, ?_⟩
  · rintro rfl
    rcases hl with ⟨-, e⟩ | ⟨_, _, _, _, hm, _⟩
    · exact e
    · simp at hm
  · intro hne
    rcases hl with ⟨e, -⟩ | ⟨a, b, n, t, hm, h3, h4⟩
    · exact absurd e hne
    · exact ⟨a, b, n, t, hm, h3, childPublic_eq h4⟩

/-- **C75, negation.** For a derivation in two steps to give the same key as the joined path, the hash behind the tweaks must take the same
value on two different chain codes: the one the first derivation ended with, which is an output of the tweak function, and the one computed from
the intermediate key. Nothing else can make them agree. -/
theorem C75_composition_needs_coincidence (g : G) (hg : g ≠ 0) (chainCode : G → CC) (deriveTweak : G → CC → Nat → Out EntErr (F × CC))
    (pk k₁ k₂ : G) (p₁ : List Nat) (hp : p₁ ≠ []) (n : Nat)
    (h₁ : deriveVerifyingKeyBip32 g chainCode deriveTweak pk p₁ = .ok k₁)
    (h₂ : deriveVerifyingKeyBip32 g chainCode deriveTweak k₁ [n] = .ok k₂)
    (h : deriveVerifyingKeyBip32 g chainCode deriveTweak pk (p₁ ++ [n]) = .ok k₂) :
    ∃ pk₀ cc₀ m t₀ carried t cc cc', deriveTweak pk₀ cc₀ m = .ok (t₀, carried) ∧ k₁ = pk₀ + t₀ • g ∧
      deriveTweak k₁ carried n = .ok (t, cc) ∧ deriveTweak k₁ (chainCode k₁) n = .ok (t, cc') := by
  obtain ⟨carried, e, -, hl⟩ := C75_composition_partial g chainCode deriveTweak pk k₁ p₁ h₁
  obtain ⟨pk₀, cc₀, m, t₀, -, h3, h4⟩ := hl hp
  rw [e] at h
  obtain ⟨t, cc, ht, ek⟩ := one_step h
  obtain ⟨t', cc', ht', ek'⟩ := one_step h₂
  have : t = t' := by
    rw [ek] at ek'
    exact smul_left_injective F hg (add_left_cancel ek')
  subst this
  exact ⟨pk₀, cc₀, m, t₀, carried, t, cc, cc', h3, h4, ht, ht'⟩

/-- **C75, negation.** So composition fails for every tweak function that separates chain codes, as soon as one derivation of two steps
succeeds and its intermediate key does not happen to have the carried chain code as its own. -/
theorem C75_does_not_compose (g : G) (hg : g ≠ 0) (chainCode : G → CC) (deriveTweak : G → CC → Nat → Out EntErr (F × CC))
    (hsep : ∀ k c c' n t d d', deriveTweak k c n = .ok (t, d) → deriveTweak k c' n = .ok (t, d') → c = c')
    (pk k₁ k₂ : G) (m n : Nat) (t₀ : F) (carried : CC) (h₀ : deriveTweak pk (chainCode pk) m = .ok (t₀, carried)) (hne : carried ≠ chainCode k₁)
    (h₁ : deriveVerifyingKeyBip32 g chainCode deriveTweak pk [m] = .ok k₁)
    (h₂ : deriveVerifyingKeyBip32 g chainCode deriveTweak k₁ [n] = .ok k₂) :
    ¬ Composes (deriveVerifyingKeyBip32 g chainCode deriveTweak) := by
  intro hc
  have h := hc pk [m] [n] k₁ k₂ h₁ h₂
  obtain ⟨ts₁, h3, h4⟩ := Out.bind_eq_ok.1 h₁
  -- the chain code after the first step
  have hd : deriveChildPublic g pk t₀ = .ok k₁ := by
    simp only [deriveTweaks, deriveTweaksLoop, h₀, Out.bind_ok] at h3
    obtain ⟨k, hk, h3⟩ := Out.bind_eq_ok.1 h3
    cases h3
    simp only [applyTweaksPublic, hk, Out.bind_ok] at h4
    rw [hk, h4]
  have two : ∃ t d, deriveTweak k₁ carried n = .ok (t, d) ∧ k₂ = k₁ + t • g := by
    obtain ⟨ts, hts, hk⟩ := Out.bind_eq_ok.1 h
    simp only [deriveTweaks, List.singleton_append, deriveTweaksLoop, h₀, hd, Out.bind_ok] at hts
    obtain ⟨ts', a1, a2⟩ := Out.bind_eq_ok.1 hts
    obtain ⟨⟨t, d⟩, ht, a3⟩ := Out.bind_eq_ok.1 a1
    obtain ⟨k, hk', a4⟩ := Out.bind_eq_ok.1 a3
    cases a4
    cases a2
    simp only at hk'
    simp only [applyTweaksPublic, hd, hk', Out.bind_ok] at hk
    cases hk
    exact ⟨t, d, ht, childPublic_eq hk'⟩
  obtain ⟨t, d, ht, ek⟩ := two
  obtain ⟨t', d', ht', ek'⟩ := one_step h₂
  have : t = t' := by
    rw [ek] at ek'
    exact smul_left_injective F hg (add_left_cancel ek')
  subst this
  exact hne (hsep _ _ _ _ _ _ _ ht ht')

private theorem derive_secret {g : G} {chainCode : G → CC} {dt : G → CC → Nat → Out EntErr (F × CC)} {path : List Nat}
    {share child : ThresholdKeyShare I F G} {pk : G} (hpk : share.vkeyOrCrypto = .ok pk) (h : share.deriveBip32 g chainCode dt path = .ok child) :
    ∃ tweaks, deriveTweaks g chainCode dt pk path = .ok tweaks ∧ child.secretShare = share.secretShare + tweaks.sum := by
  unfold ThresholdKeyShare.deriveBip32 at h
  rw [hpk, Out.bind_ok] at h
  obtain ⟨tweaks, htw, h⟩ := Out.bind_eq_ok.1 h
  obtain ⟨_, _, h⟩ := Out.bind_eq_ok.1 h
  obtain ⟨s, hs, h⟩ := Out.bind_eq_ok.1 h
  obtain ⟨pl, _, h⟩ := Out.bind_eq_ok.1 h
  cases h
  exact ⟨tweaks, htw, applyTweaksSecret_ok hs⟩

/-- **C75, negation.** Every holder of a derived share can compute its share of the parent key from it and the parent's public key. The same
computation turns the derived secret key into the parent's; and, continued along any other path, into what is derived there. So handing
derived shares or a derived key to somebody hands them those of the parent and of every other path. -/
theorem C75_child_reveals_parent (g : G) (hg : g ≠ 0) (chainCode : G → CC) (deriveTweak : G → CC → Nat → Out EntErr (F × CC))
    (path : List Nat) (ids : Finset I) (t : Nat) (shares child : I → ThresholdKeyShare I F G) (sk : F)
    (h : ThresholdSharing g ids t shares sk) (hsk : sk ≠ 0) (hids : ids.Nonempty)
    (hok : ∀ i ∈ ids, (shares i).deriveBip32 g chainCode deriveTweak path = .ok (child i)) :
    (∃ childSk, ThresholdSharing g ids t child childSk ∧ parentSecret g chainCode deriveTweak (sk • g) path childSk = .ok sk) ∧
    (∀ i ∈ ids, parentSecret g chainCode deriveTweak (sk • g) path (child i).secretShare = .ok (shares i).secretShare) ∧
    (∀ other otherChild, ∀ i ∈ ids, (shares i).deriveBip32 g chainCode deriveTweak other = .ok otherChild →
      siblingSecret g chainCode deriveTweak (sk • g) path other (child i).secretShare = .ok otherChild.secretShare) := by
  have hvk : ∀ i ∈ ids, (shares i).vkeyOrCrypto = .ok (sk • g) := by
    intro i hi
    unfold ThresholdKeyShare.vkeyOrCrypto
    rw [h.vk hg hsk hi]
  have hpar : ∀ i ∈ ids, parentSecret g chainCode deriveTweak (sk • g) path (child i).secretShare = .ok (shares i).secretShare := by
    intro i hi
    obtain ⟨tw, h1, h2⟩ := derive_secret (hvk i hi) (hok i hi)
    unfold parentSecret
    rw [h1, Out.bind_ok, h2, add_sub_cancel_right]
  refine ⟨?_, hpar, ?_⟩
  · obtain ⟨i₀, hi₀⟩ := hids
    obtain ⟨tw, ch, h1, h2, h3, -⟩ := C17_bip32_commutes g hg chainCode deriveTweak path ids t shares sk h hsk i₀ hi₀ ⟨_, hok i₀ hi₀⟩
    have e : ∀ i ∈ ids, ch i = child i := fun i hi => Out.ok.inj ((h2 i hi).symm.trans (hok i hi))
    refine ⟨sk + tw.sum, ?_, ?_⟩
    · obtain ⟨htc, sid, tail, hl, hinj, hall⟩ := h3
      refine ⟨htc, sid, tail, hl, hinj, fun i hi => ?_⟩
      obtain ⟨b1, b2, b3, b4, b5, b6, b7⟩ := hall i hi
      rw [← e i hi]
      exact ⟨b1, b2, b3, b4, b5, b6, fun j hj => by rw [← e j hj]; exact b7 j hj⟩
    · unfold parentSecret
      rw [h1, Out.bind_ok, add_sub_cancel_right]
  · intro other oc i hi ho
    obtain ⟨tw, h1, h2⟩ := derive_secret (hvk i hi) ho
    unfold siblingSecret
    rw [hpar i hi, Out.bind_ok, h1, Out.bind_ok, h2]

/-- **C75.** The derived public key depends on the parent's public key and the path alone: two sharings of a key, among whatever parties and with whatever
thresholds, for example before and after resharing, derive the same child keys. -/
theorem C75_sharing_independent (g : G) (hg : g ≠ 0) (chainCode : G → CC) (deriveTweak : G → CC → Nat → Out EntErr (F × CC))
    (path : List Nat) (ids ids' : Finset I) (t t' : Nat) (shares shares' : I → ThresholdKeyShare I F G) (sk : F)
    (h : ThresholdSharing g ids t shares sk) (h' : ThresholdSharing g ids' t' shares' sk) (hsk : sk ≠ 0)
    (i : I) (hi : i ∈ ids) (i' : I) (hi' : i' ∈ ids') (c c' : ThresholdKeyShare I F G)
    (hc : (shares i).deriveBip32 g chainCode deriveTweak path = .ok c)
    (hc' : (shares' i').deriveBip32 g chainCode deriveTweak path = .ok c') :
    ∃ vk, c.verifyingKey = .ok vk ∧ c'.verifyingKey = .ok vk ∧
      (shares i).deriveVerifyingKeyBip32 g chainCode deriveTweak path = .ok vk ∧
      (shares' i').deriveVerifyingKeyBip32 g chainCode deriveTweak path = .ok vk := by
  obtain ⟨tw, ch, h1, h2, -, -, h3, h4⟩ := C17_bip32_commutes g hg chainCode deriveTweak path ids t shares sk h hsk i hi ⟨c, hc⟩
  obtain ⟨tw', ch', h1', h2', -, -, h3', h4'⟩ := C17_bip32_commutes g hg chainCode deriveTweak path ids' t' shares' sk h' hsk i' hi' ⟨c', hc'⟩
  rw [h1] at h1'
  cases h1'
  have e : ch i = c := Out.ok.inj ((h2 i hi).symm.trans hc)
  have e' : ch' i' = c' := Out.ok.inj ((h2' i' hi').symm.trans hc')
  subst e e'
  exact ⟨_, h4 i hi, h4' i' hi', h3 i hi, h3' i' hi'⟩

end

/-! ### Examples -/

section
attribute [local instance] Toy.fact11 Toy.order11

private def pathTweak : ZMod 11 → ZMod 11 → Nat → Out EntErr (ZMod 11 × ZMod 11) := fun pk cc n => .ok (pk + cc + n, cc + 1)
private def pathCode : ZMod 11 → ZMod 11 := fun pk => pk + 2

private theorem toy_separates (k c c' : ZMod 11) (n : Nat) (t d d' : ZMod 11) (h : pathTweak k c n = .ok (t, d))
    (h' : pathTweak k c' n = .ok (t, d')) : c = c' := by
  simp only [pathTweak, Out.ok.injEq, Prod.mk.injEq] at h h'
  have : k + c + n = k + c' + n := h.1.trans h'.1.symm
  exact add_left_cancel (add_right_cancel this)

/-- The joined path and the two steps give different keys, so the hypotheses of `C75_does_not_compose` can be met. -/
example : deriveVerifyingKeyBip32 (1 : ZMod 11) pathCode pathTweak (5 : ZMod 11) [3, 6] = .ok 10 ∧
    deriveVerifyingKeyBip32 (1 : ZMod 11) pathCode pathTweak (5 : ZMod 11) [3] = .ok 9 ∧
    deriveVerifyingKeyBip32 (1 : ZMod 11) pathCode pathTweak (9 : ZMod 11) [6] = .ok 2 ∧
    ¬ Composes (deriveVerifyingKeyBip32 (1 : ZMod 11) pathCode pathTweak) :=
  ⟨by decide +kernel, by decide +kernel, by decide +kernel,
    C75_does_not_compose 1 (by decide) pathCode pathTweak toy_separates 5 9 2 3 6 4 8 (by decide +kernel) (by decide +kernel)
      (by decide +kernel) (by decide +kernel)⟩

/-- With a tweak function that ignores the chain code, the two agree, so the hypotheses of `C75_composition_needs_coincidence` can be met. -/
example : deriveVerifyingKeyBip32 (1 : ZMod 11) pathCode (fun pk cc n => .ok (pk + n, cc + 1)) (5 : ZMod 11) [3] = .ok (2 : ZMod 11) ∧
    deriveVerifyingKeyBip32 (1 : ZMod 11) pathCode (fun pk cc n => .ok (pk + n, cc + 1)) (2 : ZMod 11) [6] = .ok (10 : ZMod 11) ∧
    deriveVerifyingKeyBip32 (1 : ZMod 11) pathCode (fun pk cc n => .ok (pk + n, cc + 1)) (5 : ZMod 11) [3, 6] = .ok (10 : ZMod 11) := by
  decide +kernel

private def pathShare (i : Nat) : ThresholdKeyShare Nat (ZMod 11) (ZMod 11) :=
  ⟨i, 2, 5 + 5 * i, BMap.tabulate {1, 2, 3} fun j => (j : ZMod 11), BMap.tabulate {1, 2, 3} fun j => (5 + 5 * j : ZMod 11)⟩

private def pathChild (i : Nat) : ThresholdKeyShare Nat (ZMod 11) (ZMod 11) :=
  ⟨i, 2, 10 + 5 * i, BMap.tabulate {1, 2, 3} fun j => (j : ZMod 11), BMap.tabulate {1, 2, 3} fun j => (10 + 5 * j : ZMod 11)⟩

deriving instance DecidableEq for ThresholdKeyShare

/-- The hypotheses of `C75_child_reveals_parent` and of `C75_sharing_independent` can be met, and the parent's share is recovered. -/
example : ThresholdSharing (1 : ZMod 11) {1, 2, 3} 2 pathShare 5 ∧
    (∀ i ∈ ({1, 2, 3} : Finset Nat), (pathShare i).deriveBip32 (1 : ZMod 11) pathCode pathTweak [3, 6] = .ok (pathChild i)) ∧
    parentSecret (1 : ZMod 11) pathCode pathTweak (5 : ZMod 11) [3, 6] (pathChild 1).secretShare = .ok 10 ∧
    (pathShare 1).secretShare = 10 ∧ (pathChild 1).secretShare = 4 := by
  refine ⟨⟨by decide, fun i => (i : ZMod 11), [5], by decide, ?_, ?_⟩, by decide +kernel, by decide +kernel, by decide +kernel,
    by decide +kernel⟩
  · intro a ha b hb h
    simp only [Finset.coe_insert, Finset.coe_singleton, Set.mem_insert_iff, Set.mem_singleton_iff] at ha hb
    rcases ha with rfl | rfl | rfl <;> rcases hb with rfl | rfl | rfl <;> first | rfl | (revert h; decide +kernel)
  · have : ∀ i, polyValue ([5, 5] : List (ZMod 11)) (i : ZMod 11) = 5 + 5 * i := by
      intro i; simp [polyValue_cons, polyValue_nil, mul_comm]
    intro i hi
    refine ⟨rfl, rfl, ?_, by simp [pathShare], ?_, by simp [pathShare], ?_⟩
    · rw [this]; rfl
    · intro j hj; revert j; revert i; decide +kernel
    · intro j hj; revert j; revert i; decide +kernel

end
end Synedrion.Props
