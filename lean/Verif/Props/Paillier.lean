import Verif.Lemmas.Paillier
import Mathlib.NumberTheory.LegendreSymbol.JacobiSymbol
import Mathlib.Tactic.NormNum.Prime

/-!
# Properties C19–C24: Paillier encryption, residues modulo the primes, ring-Pedersen commitments
-/

set_option linter.unusedSectionVars false

namespace Synedrion.Props
open Spec

variable {ε : Type} {p q : Nat}

/-! ## C19 -/

/-- Two distinct odd primes, each less than twice the other (which holds for primes of the same bit length), make a valid Paillier key. -/
theorem C19_same_size_primes_valid (hp : Nat.Prime p) (hq : Nat.Prime q) (hne : p ≠ q) (hop : p % 2 = 1) (hoq : q % 2 = 1)
    (h1 : p < 2 * q) (h2 : q < 2 * p) : PaillierPrimes p q := by
  have aux : ∀ {p q : Nat}, Nat.Prime p → Nat.Prime q → p % 2 = 1 → q % 2 = 1 → p ≠ q → q < 2 * p → Nat.Coprime p (q - 1) := by
    intro p q hp hq hop hoq hne h
    rw [hp.coprime_iff_not_dvd]
    rintro ⟨k, hk⟩
    have hq2 := hq.two_le
    have hk1 : k = 0 ∨ k = 1 ∨ 2 ≤ k := by omega
    rcases hk1 with rfl | rfl | hk2
    · omega
    · omega
    · have : p * 2 ≤ p * k := Nat.mul_le_mul_left p hk2
      omega
  have auxs : ∀ {p : Nat}, Nat.Prime p → Nat.Coprime p (p - 1) := by
    intro p hp
    rw [hp.coprime_iff_not_dvd]
    intro h
    have := Nat.le_of_dvd (by have := hp.two_le; omega) h
    have := hp.two_le
    omega
  refine ⟨hp, hq, hne, hop, hoq, ?_⟩
  exact Nat.Coprime.mul_left (Nat.Coprime.mul_right (auxs hp) (aux hp hq hop hoq hne h2))
    (Nat.Coprime.mul_right (aux hq hp hoq hop hne.symm h1) (auxs hq))

/-- Building the secret key succeeds for every valid pair of primes. -/
theorem C19_key_generation (h : PaillierPrimes p q) : ∃ sk, (SecretKey.new p q : Out ε _) = .ok sk := by
  obtain ⟨sk, h1, _⟩ := SecretKey.new_ok (ε := ε) h
  exact ⟨sk, h1⟩

/-- If the same prime is drawn twice, building the key panics (nothing checks for it). -/
theorem C19_equal_primes_panic (hp : 1 < p) : (SecretKey.new p p : Out ε _) = .panic := by
  have hz : invMod? (p : ZMod p) = none := by
    unfold invMod?
    rw [if_neg]
    rw [ZMod.natCast_self, ZMod.val_zero, Nat.gcd_zero_left]
    omega
  unfold SecretKey.new publicModulusNew
  rw [if_neg (by omega)]
  simp only [hz, Out.ofOptionPanic_none, Out.bind_panic]
  split
  · rw [Out.bind_ok]
    cases invMod? ((((p - 1) * (p - 1) : Nat)) : ZMod (p * p)) with
    | none => rfl
    | some a =>
      simp only [Out.ofOptionPanic_some, Out.bind_ok]
      cases invMod? ((p * p : Nat) : ZMod ((p - 1) * (p - 1))) <;> rfl
  · rfl

theorem facts_of_new {sk : SecretKey p q} (h : PaillierPrimes p q) (hsk : (SecretKey.new p q : Out ε _) = .ok sk) : KeyFacts sk := by
  obtain ⟨sk', h1, h2⟩ := SecretKey.new_ok (ε := ε) h
  rw [hsk] at h1; cases h1; exact h2

theorem centred_unique {N : Nat} {m a b : Int} (ha : Centred N m a) (hb : Centred N m b) : a = b := by
  obtain ⟨a1, a2⟩ := ha
  obtain ⟨b1, b2⟩ := hb
  have h := a1.trans b1.symm
  obtain ⟨k, hk⟩ := Int.modEq_iff_dvd.1 h
  have h1 := abs_lt.1 (show |a| < (N : Int) - |a| by omega)
  have ha' := neg_abs_le a; have ha'' := le_abs_self a
  have hb' := neg_abs_le b; have hb'' := le_abs_self b
  have hk0 : k = 0 := by
    by_contra hne
    rcases lt_or_gt_of_ne hne with hk1 | hk1
    · have : (N : Int) * k ≤ N * (-1) := Int.mul_le_mul_of_nonneg_left (by omega) (by omega)
      omega
    · have : (N : Int) * 1 ≤ N * k := Int.mul_le_mul_of_nonneg_left (by omega) (by omega)
      omega
  rw [hk0] at hk
  omega

/-- **C19.** Encrypting any integer within its declared bound, with any randomizer coprime to `N`, and decrypting, gives the centred
representative of the plaintext modulo `N`; the plaintext itself if its magnitude is below `N/2`. -/
theorem C19_decrypt_encrypt (h : PaillierPrimes p q) (sk : SecretKey p q) (hsk : (SecretKey.new p q : Out ε _) = .ok sk)
    (w bits : Nat) (hb : p * q < 2 ^ bits) (hw : bits ≤ w) (m : SInt) (hm : m.Fits) (rho : Nat) (hr : Nat.Coprime rho (p * q)) :
    ∃ (c : Ct (p * q)) (v : Int), (enc (p * q) m rho : Out ε _) = .ok c ∧ (decrypt w bits sk c : Out ε _) = .ok ⟨bits - 1, v⟩ ∧
      Centred (p * q) m.val v ∧ (2 * |m.val| < (p * q : Nat) → v = m.val) := by
  have hk := facts_of_new h hsk
  obtain ⟨u, hu⟩ := natCast_unit_sq hr
  have hc : (oneAdd (p * q) m.val * (rho : Ct (p * q)) ^ (p * q)) ^ sk.totient = oneAdd (p * q) (m.val * sk.totient) := by
    rw [mul_pow, ← hu, powN_pow_totient hk, mul_one, ← oneAddUnit_val, ← Units.val_pow_eq_pow_val, ← oneAddUnit_pow, oneAddUnit_val]
    congr 1; ring
  obtain ⟨v, hv, hcen⟩ := decrypt_spec (ε := ε) hk hb hw hc
  exact ⟨_, v, enc_eq hm rho, hv, hcen, fun hlt => centred_unique hcen ⟨Int.ModEq.refl _, hlt⟩⟩

/-! ## C20 -/

/-- **C20.** For ciphertexts that are units modulo `N²` (all honestly made ones are), decryption turns addition, negation, subtraction and
multiplication by an integer into the same operation on plaintexts modulo `N`, and none of these operations panics. -/
theorem C20_homomorphisms (h : PaillierPrimes p q) (sk : SecretKey p q) (hsk : (SecretKey.new p q : Out ε _) = .ok sk)
    (w bits : Nat) (hb : p * q < 2 ^ bits) (hw : bits ≤ w) (c d : Ct (p * q)) (hc : IsUnit c) (hd : IsUnit d) :
    ∃ a b : Int, (decrypt w bits sk c : Out ε _) = .ok ⟨bits - 1, a⟩ ∧ (decrypt w bits sk d : Out ε _) = .ok ⟨bits - 1, b⟩ ∧
      (∃ v, (decrypt w bits sk (ctAdd c d) : Out ε _) = .ok ⟨bits - 1, v⟩ ∧ Centred (p * q) (a + b) v) ∧
      (∃ n v, (ctNeg c : Out ε _) = .ok n ∧ (decrypt w bits sk n : Out ε _) = .ok ⟨bits - 1, v⟩ ∧ Centred (p * q) (-a) v) ∧
      (∃ n v, (ctSub c d : Out ε _) = .ok n ∧ (decrypt w bits sk n : Out ε _) = .ok ⟨bits - 1, v⟩ ∧ Centred (p * q) (a - b) v) ∧
      (∀ k : SInt, k.Fits → ∃ n v, (ctMulSecret c k : Out ε _) = .ok n ∧ (ctMulPublic c k : Out ε _) = .ok n ∧
        (decrypt w bits sk n : Out ε _) = .ok ⟨bits - 1, v⟩ ∧ Centred (p * q) (a * k.val) v) := by
  have hk := facts_of_new h hsk
  obtain ⟨u, rfl⟩ := hc
  obtain ⟨s, rfl⟩ := hd
  obtain ⟨x, hx⟩ := pow_totient_unit hk u
  obtain ⟨y, hy⟩ := pow_totient_unit hk s
  have hxu : u ^ sk.totient = oneAddUnit (p * q) (x * sk.totient) := by ext; simpa using hx
  have hyu : s ^ sk.totient = oneAddUnit (p * q) (y * sk.totient) := by ext; simpa using hy
  obtain ⟨a, ha, hca⟩ := decrypt_spec (ε := ε) hk hb hw hx
  obtain ⟨b, hb', hcb⟩ := decrypt_spec (ε := ε) hk hb hw hy
  have neg_pow : (s⁻¹) ^ sk.totient = oneAddUnit (p * q) (-y * sk.totient) := by
    rw [inv_pow, hyu, ← oneAddUnit_neg]; congr 1; ring
  refine ⟨a, b, ha, hb', ?_, ?_, ?_, ?_⟩
  · obtain ⟨v, hv, hcv⟩ := decrypt_spec (ε := ε) (m := x + y) hk hb hw (c := ctAdd (u : Ct (p * q)) s) (by
      unfold ctAdd
      rw [mul_pow, hx, hy, oneAdd_mul]; congr 1; ring)
    exact ⟨v, hv, hcv.1.trans (Int.ModEq.add hca.1.symm hcb.1.symm), hcv.2⟩
  · obtain ⟨v, hv, hcv⟩ := decrypt_spec (ε := ε) (m := -x) hk hb hw (c := ((u⁻¹ : (ZMod ((p * q) ^ 2))ˣ) : Ct (p * q))) (by
      rw [← Units.val_pow_eq_pow_val, inv_pow, hxu, ← oneAddUnit_neg, oneAddUnit_val]; congr 1; ring)
    refine ⟨_, v, by unfold ctNeg; rw [invMod?_unit]; rfl, hv, hcv.1.trans hca.1.symm.neg, hcv.2⟩
  · obtain ⟨v, hv, hcv⟩ := decrypt_spec (ε := ε) (m := x - y) hk hb hw
      (c := ctAdd (u : Ct (p * q)) ((s⁻¹ : (ZMod ((p * q) ^ 2))ˣ) : Ct (p * q))) (by
      unfold ctAdd
      rw [mul_pow, hx, ← Units.val_pow_eq_pow_val, neg_pow, oneAddUnit_val, oneAdd_mul]; congr 1; ring)
    refine ⟨_, v, by unfold ctSub ctNeg; rw [invMod?_unit]; rfl, hv, hcv.1.trans (Int.ModEq.sub hca.1.symm hcb.1.symm), hcv.2⟩
  · intro k hkf
    obtain ⟨v, hv, hcv⟩ := decrypt_spec (ε := ε) (m := x * k.val) hk hb hw
      (c := ((u ^ k.val : (ZMod ((p * q) ^ 2))ˣ) : Ct (p * q))) (by
      rw [← Units.val_pow_eq_pow_val, ← zpow_natCast, ← zpow_mul, mul_comm k.val, zpow_mul, zpow_natCast, hxu, ← oneAddUnit_zpow, oneAddUnit_val]
      congr 1; ring)
    exact ⟨_, v, powSecret_unit u hkf, powPublic_unit u hkf, hv, hcv.1.trans (Int.ModEq.mul_right _ hca.1.symm), hcv.2⟩

/-- **C20 (exact).** On encryptions the operations give exactly the encryption of the sum or product under the product or power of the
randomizers, as ciphertexts. -/
theorem C20_exact_ciphertexts (N : Nat) (hN : 0 < N) (m₁ m₂ s k r : SInt) (h₁ : m₁.Fits) (h₂ : m₂.Fits) (hs : s.Fits) (hk : k.Fits)
    (hr : r.Fits) (hsum : s.val = m₁.val + m₂.val) (hprod : r.val = k.val * m₁.val) (rho₁ rho₂ : Nat) (hc₁ : Nat.Coprime rho₁ N) :
    ∃ c₁ c₂ : Ct N, (enc N m₁ rho₁ : Out ε _) = .ok c₁ ∧ (enc N m₂ rho₂ : Out ε _) = .ok c₂ ∧
      (enc N s (rho₁ * rho₂) : Out ε _) = .ok (ctAdd c₁ c₂) ∧
      ∃ (rhoK : Nat), (toMasked N rho₁ 1 k : Out ε _) = .ok rhoK ∧ ∃ e, (enc N r rhoK : Out ε _) = .ok e ∧
        (ctMulSecret c₁ k : Out ε _) = .ok e := by
  have : NeZero N := ⟨hN.ne'⟩
  have : NeZero (N ^ 2) := ⟨by positivity⟩
  refine ⟨_, _, enc_eq h₁ rho₁, enc_eq h₂ rho₂, ?_, ?_⟩
  · rw [enc_eq hs, hsum, ← oneAdd_mul]
    unfold ctAdd
    refine congrArg Out.ok ?_
    push_cast; ring
  · obtain ⟨u, hu⟩ := natCast_unit_sq hc₁
    set v : (ZMod N)ˣ := Units.map (redN N).toMonoidHom u with hv
    have hvr : (v : ZMod N) = (rho₁ : ZMod N) := by
      show redN N (u : ZMod (N ^ 2)) = _
      rw [hu, redN_natCast]
    refine ⟨((v ^ k.val : (ZMod N)ˣ) : ZMod N).val, ?_, _, enc_eq hr _, ?_⟩
    · unfold toMasked
      rw [← hvr, powPublic_unit v hk, Out.bind_ok]
      simp
    · have hcu : oneAdd N m₁.val * (rho₁ : Ct N) ^ N = ((oneAddUnit N m₁.val * u ^ N : (ZMod (N ^ 2))ˣ) : ZMod (N ^ 2)) := by
        push_cast; rw [hu, oneAddUnit_val]
      unfold ctMulSecret
      rw [hcu, powSecret_unit _ hk]
      refine congrArg Out.ok ?_
      rw [mul_zpow, ← oneAddUnit_zpow, hprod, Units.val_mul, oneAddUnit_val]
      congr 1
      have e1 : ((u ^ N) ^ k.val : (ZMod (N ^ 2))ˣ) = (u ^ k.val) ^ N := by
        rw [← zpow_natCast, ← zpow_mul, mul_comm, zpow_mul, zpow_natCast]
      rw [e1, Units.val_pow_eq_pow_val]
      have e2 : ((u ^ k.val : (ZMod (N ^ 2))ˣ) : ZMod (N ^ 2)) = ((((u ^ k.val : (ZMod (N ^ 2))ˣ) : ZMod (N ^ 2)).val : Nat) : ZMod (N ^ 2)) :=
        (ZMod.natCast_zmod_val _).symm
      rw [e2]
      apply powN_congr
      rw [← ZMod.natCast_eq_natCast_iff, ZMod.natCast_zmod_val, ← redN_natCast, ZMod.natCast_zmod_val]
      have : redN N ((u ^ k.val : (ZMod (N ^ 2))ˣ) : ZMod (N ^ 2)) = ((Units.map (redN N).toMonoidHom (u ^ k.val) : (ZMod N)ˣ) : ZMod N) := rfl
      rw [this, map_zpow]

/-- **C20 (limit).** On a ciphertext that is not a unit, negation, and multiplication by any non-zero secret integer, panic; so does
multiplication by a negative public integer. Such ciphertexts (for instance 0) can arrive from the wire. -/
theorem C20_non_unit_panics (N : Nat) (hN : 1 < N) (c : Ct N) (hc : ¬ IsUnit c) (k : SInt) (hk : k.Fits) (hk0 : k.val ≠ 0) :
    (ctNeg c : Out ε _) = .panic ∧ (ctMulSecret c k : Out ε _) = .panic ∧ (k.val < 0 → (ctMulPublic c k : Out ε _) = .panic) := by
  have : NeZero (N ^ 2) := ⟨by positivity⟩
  have hnone : ∀ a : ZMod (N ^ 2), ¬ IsUnit a → invMod? a = none := by
    intro a ha
    cases hi : invMod? a with
    | none => rfl
    | some b => exact absurd (invMod?_isSome.1 (by rw [hi]; rfl)) ha
  have hpow : ¬ IsUnit (c ^ k.val.natAbs) := by
    intro hu
    exact hc ((isUnit_pow_iff (by omega)).1 hu)
  refine ⟨?_, ?_, ?_⟩
  · unfold ctNeg; rw [hnone c hc]; rfl
  · unfold ctMulSecret powSecret
    have hk' : k.val.natAbs < 2 ^ k.bound := hk
    rw [if_pos hk', powBounded_eq _ hk']
    simp only [hnone _ hpow]; rfl
  · intro hneg
    unfold ctMulPublic powPublic
    rw [if_pos hneg, powBounded_eq _ hk]
    simp only [hnone _ hpow]; rfl

/-! ## C21 -/

/-- **C21.** The key holder recovers exactly the randomizer of any encryption, and for every unit ciphertext re-encrypting the decrypted
plaintext with the recovered randomizer gives the ciphertext back. -/
theorem C21_randomizer_recovery (h : PaillierPrimes p q) (sk : SecretKey p q) (hsk : (SecretKey.new p q : Out ε _) = .ok sk)
    (w bits : Nat) (hb : p * q < 2 ^ bits) (hw : bits ≤ w) :
    (∀ (m : SInt) (rho : Nat), m.Fits → rho < p * q → Nat.Coprime rho (p * q) →
      ∃ c, (enc (p * q) m rho : Out ε _) = .ok c ∧ deriveRandomizer bits sk c = rho) ∧
    (∀ c : Ct (p * q), IsUnit c → ∃ m, (decrypt w bits sk c : Out ε _) = .ok m ∧
      Nat.Coprime (deriveRandomizer bits sk c) (p * q) ∧ (enc (p * q) m (deriveRandomizer bits sk c) : Out ε _) = .ok c) := by
  have hk := facts_of_new h hsk
  have hpos := h.pos
  have : NeZero (p * q) := ⟨hpos.ne'⟩
  have : NeZero ((p * q) ^ 2) := ⟨by positivity⟩
  constructor
  · intro m rho hm hlt hr
    refine ⟨_, enc_eq hm rho, ?_⟩
    rw [derive_spec hk hb _ (ZMod.unitOfCoprime rho hr)]
    · rw [ZMod.coe_unitOfCoprime, ZMod.val_natCast, Nat.mod_eq_of_lt hlt]
    · rw [map_mul, redN_oneAdd, one_mul, map_pow, redN_natCast, ZMod.coe_unitOfCoprime]
  · rintro c ⟨u, rfl⟩
    set v : (ZMod (p * q))ˣ := Units.map (redN (p * q)).toMonoidHom u with hv
    set r : (ZMod (p * q))ˣ := v ^ sk.invModulus with hr
    have hrN : r ^ (p * q) = v := by
      rw [hr, ← pow_mul, mul_comm sk.invModulus, unit_pow_inv hk]
    have hder : deriveRandomizer bits sk (u : Ct (p * q)) = (r : ZMod (p * q)).val := by
      apply derive_spec hk hb
      rw [← Units.val_pow_eq_pow_val, hrN]; rfl
    have hcop : Nat.Coprime (r : ZMod (p * q)).val (p * q) := ZMod.val_coe_unit_coprime r
    obtain ⟨s, hs⟩ := natCast_unit_sq hcop
    have hsred : redN (p * q) (s : ZMod ((p * q) ^ 2)) = (r : ZMod (p * q)) := by
      rw [hs, redN_natCast, ZMod.natCast_zmod_val]
    obtain ⟨x, hx⟩ := exists_oneAdd hpos (y := ((u * (s ^ (p * q))⁻¹ : (ZMod ((p * q) ^ 2))ˣ) : ZMod ((p * q) ^ 2))) (by
      have : ∀ y : (ZMod ((p * q) ^ 2))ˣ, redN (p * q) (y : ZMod ((p * q) ^ 2)) =
          ((Units.map (redN (p * q)).toMonoidHom y : (ZMod (p * q))ˣ) : ZMod (p * q)) := fun _ => rfl
      rw [this, map_mul, map_inv, map_pow]
      have hs' : Units.map (redN (p * q)).toMonoidHom s = r := by ext; exact hsred
      have hs'' : Units.map (↑(redN (p * q)) : ZMod ((p * q) ^ 2) →* ZMod (p * q)) s = r := hs'
      have hv'' : Units.map (↑(redN (p * q)) : ZMod ((p * q) ^ 2) →* ZMod (p * q)) u = v := rfl
      simp only [RingHom.toMonoidHom_eq_coe, hs'', hv'', hrN, mul_inv_cancel, Units.val_one])
    have hu : (u : Ct (p * q)) = oneAdd (p * q) x * (((r : ZMod (p * q)).val : Nat) : Ct (p * q)) ^ (p * q) := by
      rw [← hx, ← hs, ← Units.val_pow_eq_pow_val, ← Units.val_mul, inv_mul_cancel_right]
    obtain ⟨v', hv', hcen⟩ := decrypt_spec (ε := ε) (m := x) hk hb hw (c := (u : Ct (p * q))) (by
      rw [hu, mul_pow, ← hs, powN_pow_totient hk, mul_one, ← oneAddUnit_val, ← Units.val_pow_eq_pow_val, ← oneAddUnit_pow, oneAddUnit_val]
      congr 1; ring)
    refine ⟨_, hv', by rw [hder]; exact hcop, ?_⟩
    have hfits : (⟨bits - 1, v'⟩ : SInt).Fits := by
      show v'.natAbs < 2 ^ (bits - 1)
      have h2 := hcen.2
      have hb1 : 1 ≤ bits := by
        rcases Nat.eq_zero_or_pos bits with h0 | h0
        · subst h0; omega
        · exact h0
      have h3 : 2 ^ bits = 2 * 2 ^ (bits - 1) := by rw [← pow_succ']; congr 1; omega
      rw [Int.abs_eq_natAbs] at h2
      omega
    rw [enc_eq hfits, hder, hu]
    refine congrArg Out.ok ?_
    rw [(oneAdd_eq_iff hpos v' x).2 hcen.1]

/-! ## C22 -/

/-- **C22 (CRT).** Splitting a residue and joining it again is the identity, and so is joining and splitting; the join is below `N`. -/
theorem C22_split_join (h : PaillierPrimes p q) (sk : SecretKey p q) (hsk : (SecretKey.new p q : Out ε _) = .ok sk) :
    (∀ x, x < p * q → rnsJoin sk (rnsSplit p q x) = x) ∧
    (∀ ab : ZMod p × ZMod q, rnsJoin sk ab < p * q ∧ rnsSplit p q (rnsJoin sk ab) = ab) := by
  have hk := facts_of_new h hsk
  have : NeZero p := ⟨h.prime_p.ne_zero⟩
  have : NeZero q := ⟨h.prime_q.ne_zero⟩
  have hsplit : ∀ ab : ZMod p × ZMod q, rnsJoin sk ab < p * q ∧ rnsSplit p q (rnsJoin sk ab) = ab := by
    rintro ⟨a, b⟩
    unfold rnsJoin rnsSplit
    simp only
    set x := ((b - ((a.val : Nat) : ZMod q)) * sk.invPModQ).val with hx
    have ha : a.val < p := ZMod.val_lt a
    have hxlt : x < q := ZMod.val_lt _
    constructor
    · have : p * (x + 1) ≤ p * q := Nat.mul_le_mul_left p (by omega)
      rw [Nat.mul_add] at this
      omega
    · refine Prod.ext ?_ ?_
      · simp only [ZMod.natCast_mod]; push_cast
        rw [ZMod.natCast_self, zero_mul, add_zero, ZMod.natCast_zmod_val]
      · simp only [ZMod.natCast_mod]; push_cast
        rw [ZMod.natCast_zmod_val]
        linear_combination (b - (a.val : ZMod q)) * hk.invPModQ
  refine ⟨?_, hsplit⟩
  intro x hx
  obtain ⟨hlt, heq⟩ := hsplit (rnsSplit p q x)
  unfold rnsSplit at heq
  rw [Prod.mk.injEq] at heq
  simp only [ZMod.natCast_mod] at heq
  rw [ZMod.natCast_eq_natCast_iff, ZMod.natCast_eq_natCast_iff] at heq
  have hmod := (Nat.modEq_and_modEq_iff_modEq_mul ((Nat.coprime_primes h.prime_p h.prime_q).2 h.ne)).1 heq
  have hss : rnsSplit p q x = ((x : ZMod p), (x : ZMod q)) := by unfold rnsSplit; simp only [ZMod.natCast_mod]
  rw [hss] at hlt ⊢
  exact Nat.ModEq.eq_of_lt_of_lt hmod hlt hx

theorem sqrtPart_spec {p bits : Nat} (hp : Nat.Prime p) (h3 : p % 4 = 3) (hb : p < 2 ^ bits) (x : ZMod p) :
    ((sqrtPart bits x).isSome ↔ IsSquare x) ∧ ∀ y, sqrtPart bits x = some y → y * y = x ∧ IsSquare y := by
  have : Fact p.Prime := ⟨hp⟩
  have hb2 : 2 ≤ bits := by
    by_contra hlt
    have : 2 ^ bits ≤ 2 ^ 1 := Nat.pow_le_pow_right (by norm_num) (by omega)
    have := hp.two_le
    omega
  have hpow : p / 4 + 1 < 2 ^ (bits - 1) := by
    have h4 : 2 ^ bits = 4 * 2 ^ (bits - 2) := by
      rw [show (4 : Nat) = 2 ^ 2 by norm_num, ← pow_add]; congr 1; omega
    have h5 : 2 ^ (bits - 1) = 2 * 2 ^ (bits - 2) := by rw [← pow_succ']; congr 1; omega
    have : 1 ≤ 2 ^ (bits - 2) := Nat.one_le_two_pow
    rcases Nat.lt_or_ge (2 ^ (bits - 2)) 2 with h | h
    · have h6 : 2 ^ (bits - 2) = 1 := by omega
      rw [h6] at h4 h5
      have : p = 3 := by omega
      subst this
      omega
    · omega
  unfold sqrtPart
  simp only
  rw [powBounded_eq _ hpow]
  have key : IsSquare x → x ^ (p / 4 + 1) * x ^ (p / 4 + 1) = x := by
    rintro ⟨y, rfl⟩
    by_cases hy : y = 0
    · subst hy; simp
    · have hf := ZMod.pow_card_sub_one_eq_one hy
      have e : (y * y) ^ (p / 4 + 1) * (y * y) ^ (p / 4 + 1) = y * y * y ^ (p - 1) := by
        rw [← pow_add, ← pow_two y, ← pow_mul, ← pow_add]; congr 1; omega
      rw [e, hf, mul_one]
  constructor
  · constructor
    · intro h
      split at h
      · rename_i he; exact ⟨_, he.symm⟩
      · cases h
    · intro h
      rw [if_pos (key h)]; rfl
  · intro y hy
    split at hy
    · rename_i he
      cases hy
      refine ⟨he, ?_⟩
      have hsq : IsSquare x := ⟨_, he.symm⟩
      exact hsq.pow _
    · cases hy

/-- **C22 (square roots).** For Blum primes the routine returns a root exactly when the input is a square modulo both primes; the root
squares to the input and is itself a square modulo both. -/
theorem C22_square_roots (h : PaillierPrimes p q) (h3p : p % 4 = 3) (h3q : q % 4 = 3) (bits : Nat) (hbp : p < 2 ^ bits)
    (hbq : q < 2 ^ bits) (rns : ZMod p × ZMod q) :
    ((rnsSqrt bits rns).isSome ↔ IsSquare rns.1 ∧ IsSquare rns.2) ∧
    ∀ r, rnsSqrt bits rns = some r → r.1 * r.1 = rns.1 ∧ r.2 * r.2 = rns.2 ∧ IsSquare r.1 ∧ IsSquare r.2 := by
  obtain ⟨a1, a2⟩ := sqrtPart_spec h.prime_p h3p hbp rns.1
  obtain ⟨b1, b2⟩ := sqrtPart_spec h.prime_q h3q hbq rns.2
  rw [← a1, ← b1]
  unfold rnsSqrt
  cases ha : sqrtPart bits rns.1 with
  | none => simp
  | some a =>
    cases hb : sqrtPart bits rns.2 with
    | none => simp
    | some b =>
      obtain ⟨a3, a4⟩ := a2 a ha
      obtain ⟨b3, b4⟩ := b2 b hb
      refine ⟨by simp, ?_⟩
      intro r hr
      cases hr
      exact ⟨a3, b3, a4, b4⟩

/-! ## C23 -/

/-- **C23.** For Blum primes the sampled residue is below `N`, invertible, a square modulo exactly one of the two primes, and has Jacobi
symbol −1. -/
theorem C23_nonsquare_jacobi (h : PaillierPrimes p q) (h3p : p % 4 = 3) (h3q : q % 4 = 3) (sk : SecretKey p q)
    (hsk : (SecretKey.new p q : Out ε _) = .ok sk) (draw : Nat) (hd : IsInvertibleDraw (p * q) draw) (b : Bool) :
    nonsquareResidue sk draw b < p * q ∧ Nat.Coprime (nonsquareResidue sk draw b) (p * q) ∧
      (IsSquare (nonsquareResidue sk draw b : ZMod p) ↔ ¬ IsSquare (nonsquareResidue sk draw b : ZMod q)) ∧
      jacobiSym (nonsquareResidue sk draw b : Int) (p * q) = -1 := by
  have hk := facts_of_new h hsk
  have : Fact p.Prime := ⟨h.prime_p⟩
  have : Fact q.Prime := ⟨h.prime_q⟩
  have : NeZero (p * q) := ⟨h.pos.ne'⟩
  have hdc : Nat.Coprime draw (p * q) := by
    have := hd.2; unfold isInvertible at this; simpa using this
  set W := nonsquareResidue sk draw b with hW
  have hWz : (W : ZMod (p * q)) = if b then -((draw : ZMod (p * q)) * draw * sk.nonsquareConstant)
      else (draw : ZMod (p * q)) * draw * sk.nonsquareConstant := by
    rw [hW]; unfold nonsquareResidue quadraticResidue
    simp only [ZMod.natCast_zmod_val]
  have hWp : (W : ZMod p) = if b then (draw : ZMod p) * draw else -((draw : ZMod p) * draw) := by
    have := congrArg (ZMod.castHom (Dvd.intro q rfl) (ZMod p)) hWz
    rw [map_natCast] at this
    rw [this]
    cases b <;> simp only [Bool.false_eq_true, if_true, if_false, map_neg, map_mul, map_natCast, hk.constant_p] <;> ring
  have hWq : (W : ZMod q) = if b then -((draw : ZMod q) * draw) else (draw : ZMod q) * draw := by
    have := congrArg (ZMod.castHom (Dvd.intro_left p rfl) (ZMod q)) hWz
    rw [map_natCast] at this
    rw [this]
    cases b <;> simp only [Bool.false_eq_true, if_true, if_false, map_neg, map_mul, map_natCast, hk.constant_q] <;> ring
  have hdp : (draw : ZMod p) ≠ 0 := by
    intro h0
    rw [ZMod.natCast_eq_zero_iff] at h0
    exact (h.prime_p.coprime_iff_not_dvd.1 (hdc.coprime_mul_right_right.symm)) h0
  have hdq : (draw : ZMod q) ≠ 0 := by
    intro h0
    rw [ZMod.natCast_eq_zero_iff] at h0
    exact (h.prime_q.coprime_iff_not_dvd.1 (hdc.coprime_mul_left_right.symm)) h0
  have hneg : ∀ {r : Nat} [Fact r.Prime], r % 4 = 3 → ∀ x : ZMod r, x ≠ 0 → ¬ IsSquare (-(x * x)) := by
    intro r _ hr x hx ⟨y, hy⟩
    have : IsSquare (-1 : ZMod r) := ⟨y * x⁻¹, by field_simp; linear_combination hy⟩
    rw [ZMod.exists_sq_eq_neg_one_iff] at this
    exact this hr
  have hLp : legendreSym p (W : Int) = if b then 1 else -1 := by
    cases b with
    | true =>
      rw [if_pos rfl] at hWp ⊢
      rw [legendreSym.eq_one_iff p (by push_cast; rw [hWp]; exact mul_ne_zero hdp hdp)]
      push_cast; rw [hWp]; exact ⟨_, rfl⟩
    | false =>
      simp only [Bool.false_eq_true, if_false] at hWp ⊢
      rw [legendreSym.eq_neg_one_iff]
      push_cast; rw [hWp]; exact hneg h3p _ hdp
  have hLq : legendreSym q (W : Int) = if b then -1 else 1 := by
    cases b with
    | true =>
      rw [if_pos rfl] at hWq ⊢
      rw [legendreSym.eq_neg_one_iff]
      push_cast; rw [hWq]; exact hneg h3q _ hdq
    | false =>
      simp only [Bool.false_eq_true, if_false] at hWq ⊢
      rw [legendreSym.eq_one_iff q (by push_cast; rw [hWq]; exact mul_ne_zero hdq hdq)]
      push_cast; rw [hWq]; exact ⟨_, rfl⟩
  have hWp0 : (W : ZMod p) ≠ 0 := by rw [hWp]; split <;> simp [hdp]
  have hWq0 : (W : ZMod q) ≠ 0 := by rw [hWq]; split <;> simp [hdq]
  refine ⟨ZMod.val_lt _, ?_, ?_, ?_⟩
  · rw [Nat.coprime_mul_iff_right]
    constructor
    · exact ((h.prime_p.coprime_iff_not_dvd).2 (fun hd => hWp0 ((ZMod.natCast_eq_zero_iff _ _).2 hd))).symm
    · exact ((h.prime_q.coprime_iff_not_dvd).2 (fun hd => hWq0 ((ZMod.natCast_eq_zero_iff _ _).2 hd))).symm
  · cases b with
    | true =>
      simp only [if_true] at hWp hWq
      rw [hWp, hWq]
      exact iff_of_true ⟨_, rfl⟩ (hneg h3q _ hdq)
    | false =>
      simp only [Bool.false_eq_true, if_false] at hWp hWq
      rw [hWp, hWq]
      exact iff_of_false (hneg h3p _ hdp) (fun hh => hh ⟨_, rfl⟩)
  · rw [jacobiSym.mul_right, ← jacobiSym.legendreSym.to_jacobiSym, ← jacobiSym.legendreSym.to_jacobiSym, hLp, hLq]
    cases b <;> simp

/-! ## C24 -/

/-- **C24 (homomorphism).** With unit bases, commitments to integers (of either sign, within their declared bounds) multiply and are raised to
powers as expected, secret and public forms agree, and nothing panics. -/
theorem C24_commitments_homomorphic (N : Nat) (rp : RPParams N) (ht : IsUnit rp.t) (hs : IsUnit rp.s)
    (a b c d r s u e v : SInt) (ha : a.Fits) (hb : b.Fits) (hc : c.Fits) (hd : d.Fits) (hr : r.Fits) (hs' : s.Fits) (hu : u.Fits)
    (he : e.Fits) (hv : v.Fits)
    (hsum : c.val = a.val + b.val) (hrsum : u.val = r.val + s.val) (hprod : d.val = e.val * a.val) (hrprod : v.val = e.val * r.val) :
    ∃ C D : ZMod N, (rp.commitSecret a r : Out ε _) = .ok C ∧ (rp.commitPublic a r : Out ε _) = .ok C ∧
      (rp.commitSecret b s : Out ε _) = .ok D ∧ (rp.commitSecret c u : Out ε _) = .ok (C * D) ∧
      ∃ E, (rp.commitSecret d v : Out ε _) = .ok E ∧ (powPublic C e : Out ε _) = .ok E ∧ (powSecret C e : Out ε _) = .ok E := by
  obtain ⟨t, ht⟩ := ht
  obtain ⟨s0, hs⟩ := hs
  have cs : ∀ {x y : SInt}, x.Fits → y.Fits →
      (rp.commitSecret x y : Out ε _) = .ok ((s0 ^ x.val * t ^ y.val : (ZMod N)ˣ) : ZMod N) := by
    intro x y hx hy
    unfold RPParams.commitSecret
    rw [← hs, ← ht, powSecret_unit _ hx, powSecret_unit _ hy]; simp
  have cp : ∀ {x y : SInt}, x.Fits → y.Fits →
      (rp.commitPublic x y : Out ε _) = .ok ((s0 ^ x.val * t ^ y.val : (ZMod N)ˣ) : ZMod N) := by
    intro x y hx hy
    unfold RPParams.commitPublic
    rw [← hs, ← ht, powPublic_unit _ hx, powPublic_unit _ hy]; simp
  refine ⟨_, _, cs ha hr, cp ha hr, cs hb hs', ?_, _, cs hd hv, ?_, ?_⟩
  · rw [cs hc hu, hsum, hrsum, zpow_add, zpow_add, ← Units.val_mul]
    refine congrArg Out.ok (congrArg _ ?_)
    exact mul_mul_mul_comm _ _ _ _
  · rw [powPublic_unit _ he, mul_zpow, ← zpow_mul, ← zpow_mul, hprod, hrprod, mul_comm a.val, mul_comm r.val]
  · rw [powSecret_unit _ he, mul_zpow, ← zpow_mul, ← zpow_mul, hprod, hrprod, mul_comm a.val, mul_comm r.val]

/-- **C24 (wire).** Parameters, commitments and ciphertexts over an odd modulus survive conversion to wire form and back; an even modulus
panics. -/
theorem C24_wire_round_trip (N : Nat) (rp : RPParams N) :
    (N % 2 = 1 → (rp.toWire.toPrecomputed : Out ε (RPParams N)) = .ok rp ∧ (∀ c : ZMod N, commitmentOfWire N (commitmentToWire c) = c) ∧
      (∀ c : Ct N, ctOfWire N (ctToWire c) = c)) ∧
    (N % 2 = 0 → (rp.toWire.toPrecomputed : Out ε (RPParams N)) = .panic) := by
  constructor
  · intro hN
    have : NeZero N := ⟨by rintro rfl; simp at hN⟩
    have : NeZero (N ^ 2) := ⟨by have := this.ne; positivity⟩
    refine ⟨?_, ?_, ?_⟩
    · unfold RPParamsWire.toPrecomputed publicModulusNew RPParams.toWire
      simp only [hN, if_true, Out.bind_ok, ZMod.natCast_zmod_val]
    · intro c; exact ZMod.natCast_zmod_val c
    · intro c; exact ZMod.natCast_zmod_val c
  · intro hN
    unfold RPParamsWire.toPrecomputed publicModulusNew RPParams.toWire
    simp [hN]

/-- **C24 (generation).** Generated parameters have unit bases with `s = t^λ`. -/
theorem C24_generated_parameters (N bits lambda draw : Nat) (hl : lambda < 2 ^ (bits - 2)) (hd : IsInvertibleDraw N draw) :
    (RPParams.withSecret N bits lambda draw).s = (RPParams.withSecret N bits lambda draw).t ^ lambda ∧
      IsUnit (RPParams.withSecret N bits lambda draw).t ∧ IsUnit (RPParams.withSecret N bits lambda draw).s ∧
      IsSquare (RPParams.withSecret N bits lambda draw).t := by
  have hdc : Nat.Coprime draw N := by have := hd.2; unfold isInvertible at this; simpa using this
  have hu : IsUnit ((draw : ZMod N) * draw) := by
    have := (ZMod.isUnit_iff_coprime draw N).2 hdc
    exact this.mul this
  unfold RPParams.withSecret powUnsigned quadraticResidue
  simp only
  rw [powBounded_eq _ hl]
  exact ⟨rfl, hu, hu.pow _, ⟨_, rfl⟩⟩

/-! ## C50 -/

theorem foldl_digits_lt (l : List Nat) (h : ∀ x ∈ l, x < 256) (acc : Nat) :
    l.foldl (fun acc x => acc * 256 + x) acc < (acc + 1) * 256 ^ l.length := by
  induction l generalizing acc with
  | nil => simp
  | cons a l ih =>
    have ha := h a (List.mem_cons_self ..)
    have h1 := ih (fun x hx => h x (List.mem_cons_of_mem _ hx)) (acc * 256 + a)
    have h2 : (acc * 256 + a + 1) * 256 ^ l.length ≤ ((acc + 1) * 256) * 256 ^ l.length := Nat.mul_le_mul_right _ (by omega)
    rw [List.length_cons, List.foldl_cons, pow_succ']
    calc _ < _ := h1
      _ ≤ _ := h2
      _ = _ := by ring

/-- The number read from the hash output stream has at most the requested number of bits. -/
theorem C50_read_in_range (nBits : Nat) (stream : Nat → Fin 256) : fromXof nBits stream < 2 ^ nBits := by
  unfold fromXof
  simp only
  rcases Nat.eq_zero_or_pos nBits with h0 | h0
  · subst h0; simp
  · obtain ⟨k, hk⟩ : ∃ k, (nBits + 7) / 8 = k + 1 := ⟨(nBits + 7) / 8 - 1, by omega⟩
    rw [hk, List.range_succ_eq_map, List.map_cons]
    simp only [List.foldl_cons, Nat.zero_mul, Nat.zero_add]
    refine lt_of_lt_of_le (foldl_digits_lt _ ?_ _) ?_
    · intro x hx
      simp only [List.mem_map] at hx
      obtain ⟨i, _, rfl⟩ := hx
      exact (stream i).isLt
    · simp only [List.length_map, List.length_range]
      have hlt := (stream 0).isLt
      split
      · rename_i hne
        have h1 : nBits = nBits % 8 + 8 * k := by omega
        have h2 : 2 ^ nBits = 2 ^ (nBits % 8) * 256 ^ k := by
          conv_lhs => rw [h1, pow_add, pow_mul]
          norm_num
        rw [h2]
        exact Nat.mul_le_mul_right _ (Nat.mod_lt _ (by positivity))
      · rename_i heq
        have h1 : nBits = 8 * (k + 1) := by omega
        have h2 : 2 ^ nBits = 256 * 256 ^ k := by
          rw [h1, pow_mul, pow_succ']; norm_num
        rw [h2]
        exact Nat.mul_le_mul_right _ (by omega)

/-- **C50, proved part.** Whatever the hash outputs, a residue derived from it is invertible modulo `N` and has no more bits than `N`.
Missing from the full property: the residue need not be below `N` (`C50_residue_can_exceed_modulus`). -/
theorem C50_residue_invertible_partial (N : Nat) (stream : Nat → Fin 256) (fuel r : Nat) (rest : Nat → Fin 256)
    (h : invertibleResidueFromXof N stream fuel = some (r, rest)) : Nat.Coprime r N ∧ r < 2 ^ Nat.size N := by
  induction fuel generalizing stream with
  | zero => cases h
  | succ n ih =>
    unfold invertibleResidueFromXof at h
    simp only at h
    split at h
    · rename_i hi
      cases h
      exact ⟨by unfold isInvertible at hi; simpa using hi, C50_read_in_range _ _⟩
    · exact ih _ h

/-- **C50 is false of the code**: the residue can be `N + 1`, contrary to the documented range `[0, N)`. -/
theorem C50_residue_can_exceed_modulus :
    ¬ ∀ (N : Nat) (stream : Nat → Fin 256) (fuel r : Nat) (rest : Nat → Fin 256), N % 2 = 1 →
      invertibleResidueFromXof N stream fuel = some (r, rest) → r < N := by
  intro h
  have h1 := h 77 (fun _ => 78) 1 78 (streamDrop 1 fun _ => 78) (by norm_num) (by
    have : Nat.size 77 = 7 := by decide
    unfold invertibleResidueFromXof
    simp only [this]
    rw [if_pos (by decide)]
    have : fromXof 7 (fun _ => 78) = 78 := by decide
    rw [this])
  omega

/-- The derived residue depends only on the stream: two parties reading the same hash output get the same residue, however long they are
willing to loop. -/
theorem C50_deterministic (N : Nat) (stream : Nat → Fin 256) (fuel fuel' : Nat) (x y : Nat × (Nat → Fin 256))
    (h : invertibleResidueFromXof N stream fuel = some x) (h' : invertibleResidueFromXof N stream fuel' = some y) : x = y := by
  induction fuel generalizing stream fuel' with
  | zero => cases h
  | succ n ih =>
    cases fuel' with
    | zero => cases h'
    | succ n' =>
      unfold invertibleResidueFromXof at h h'
      simp only at h h'
      split at h
      · rename_i hi
        rw [if_pos hi] at h'
        rw [← Option.some.inj h, ← Option.some.inj h']
      · rename_i hi
        rw [if_neg hi] at h'
        exact ih _ _ h h'

example : (invertibleResidueFromXof 77 (fun i => if i = 0 then 14 else 5) 2).map Prod.fst = some 5 := by decide +kernel

/-! ### Concrete cases -/

/-- The primes 7 and 11 make a valid Paillier–Blum key. -/
theorem toy_primes : PaillierPrimes 7 11 :=
  C19_same_size_primes_valid (by norm_num) (by norm_num) (by norm_num) (by norm_num) (by norm_num) (by norm_num) (by norm_num)

example : PaillierPrimes 7 11 ∧ 7 % 4 = 3 ∧ 11 % 4 = 3 ∧ 7 * 11 < 2 ^ 7 ∧ Nat.Coprime 5 77 ∧ IsInvertibleDraw 77 5 ∧
    (⟨6, -30⟩ : SInt).Fits := by
  refine ⟨toy_primes, by norm_num, by norm_num, by norm_num, by norm_num, ⟨by norm_num, by decide⟩, by decide⟩

/-- Encrypting −30 with randomizer 5 under `N = 77` and decrypting it again, computed by the model. -/
example : (((SecretKey.new 7 11).bind fun sk => (enc 77 ⟨6, -30⟩ 5).bind fun c => decrypt 8 7 sk c) : Out Unit SInt) = .ok ⟨6, -30⟩ := by
  decide +kernel

/-- 0 is a ciphertext that is not a unit. -/
example : ¬ IsUnit (0 : Ct 77) ∧ (ctMulSecret (0 : Ct 77) ⟨1, 1⟩ : Out Unit _) = .panic := by
  have : Fact (1 < 77 ^ 2) := ⟨by norm_num⟩
  have : Nontrivial (Ct 77) := ZMod.nontrivial _
  exact ⟨not_isUnit_zero, by decide +kernel⟩

example : IsUnit (4 : ZMod 77) ∧ IsUnit (16 : ZMod 77) ∧
    ((⟨4, 16⟩ : RPParams 77).commitSecret ⟨3, -2⟩ ⟨3, 5⟩ : Out Unit _) = .ok 4 := by
  refine ⟨(ZMod.isUnit_iff_coprime 4 77).2 (by norm_num), (ZMod.isUnit_iff_coprime 16 77).2 (by norm_num), by decide +kernel⟩

end Synedrion.Props
