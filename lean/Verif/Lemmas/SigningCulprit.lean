import Verif.Lemmas.SigningReach

/-!
# What follows if every statement of an error round of signing is true
-/

set_option linter.unusedSectionVars false

namespace Synedrion.Signing

open Spec

variable {q : Nat} [Fact q.Prime] {I Ep G : Type} [LinearOrder I] [AddCommGroup G] [Module (ZMod q) G] [DecidableEq G]

theorem holds_of_encrypts {N : Nat} {m : Int} {rho : Nat} {c : Ct N} (hr : Nat.Coprime rho N) (h : Encrypts N m rho c) : (⟨N, c⟩ : Cipher).Holds N m := by
  obtain ⟨u, hu⟩ := natCast_unit_sq hr
  refine ⟨u, ?_⟩
  rw [h, hu]
  rfl

/-- Multiplying by an integer constant, with no assumption about its declared bound -/
theorem holds_zpow_mul {N : Nat} {k v : Int} {K : (ZMod (N ^ 2))ˣ} {D : Ct N} (hK : (⟨N, (K : Ct N)⟩ : Cipher).Holds N k) (hD : (⟨N, D⟩ : Cipher).Holds N v) (x : Int) :
    (⟨N, ((K ^ x : (ZMod (N ^ 2))ˣ) : Ct N) * D⟩ : Cipher).Holds N (x * k + v) := by
  obtain ⟨u, hu⟩ := hK
  obtain ⟨w, hw⟩ := hD
  simp only [Cipher.mk.injEq, heq_eq_eq, true_and] at hu hw
  have hK' : K = oneAddUnit N k * u ^ N := Units.ext (by rw [hu, Units.val_mul, Units.val_pow_eq_pow_val, oneAddUnit_val])
  refine ⟨u ^ x * w, ?_⟩
  congr 1
  rw [hw, hK', mul_zpow, ← oneAddUnit_zpow, Units.val_mul, oneAddUnit_val, ← oneAdd_mul, Units.val_mul, mul_pow, ← Units.val_pow_eq_pow_val (u ^ x), ← zpow_natCast (u ^ x), ← zpow_mul,
    ← zpow_natCast u N, ← zpow_mul, mul_comm (N : Int) x]
  ring

/-- Decryption is unique for values that do not wrap around. -/
theorem holds_unique {P : Params} {key : PaillierKey} (hp : FullSizePrimes P key.p key.q) (hsk : (SecretKey.new key.p key.q : Out Unit _) = .ok key.sk)
    (hP : P.SelfConsistent) {m m' : Int} {c : Cipher} (hc : c.Holds key.modulus m) (hc' : c.Holds key.modulus m') (hm : 2 * |m| < (key.modulus : Nat))
    (hm' : 2 * |m'| < (key.modulus : Nat)) : m = m' := by
  have hmod : P.modBits = 2 * P.primeBits := hP.2.1.1
  have hw : P.modBits ≤ P.uint := hP.2.1.2.2.1
  have h1 := hc.decrypt (Props.facts_of_new hp.primes hsk) (FullSizePrimes.lt hp hmod) hw hm Unit
  have h2 := hc'.decrypt (Props.facts_of_new hp.primes hsk) (FullSizePrimes.lt hp hmod) hw hm' Unit
  rw [h1] at h2
  injection h2 with h2
  injection h2

/-- The masks cancel. -/
theorem masks_cancel {M : Type} [AddCommGroup M] (s : Finset I) (b : I → I → M) : ∑ j ∈ s, (∑ i ∈ s.erase j, b j i - ∑ i ∈ s.erase j, b i j) = 0 := by
  rw [Finset.sum_sub_distrib, sub_eq_zero]
  refine Finset.sum_comm' fun x y => ?_
  simp only [Finset.mem_erase]
  constructor
  · rintro ⟨a, b, c⟩; exact ⟨⟨Ne.symm b, a⟩, c⟩
  · rintro ⟨⟨a, b⟩, c⟩; exact ⟨b, Ne.symm a, c⟩

theorem sum_values_of {V M : Type} [AddCommMonoid M] {m : BMap I V} {s : Finset I} (hs : m.keySet = s) {f : V → M} {φ : I → M}
    (h : ∀ i ∈ s, ∃ v, m.get? i = some v ∧ f v = φ i) : (m.values.map f).sum = ∑ i ∈ s, φ i := by
  rw [← values_mapVals', ← BMap.sum_values_tabulate]
  congr 2
  refine BMap.eq_tabulate_of (by rw [BMap.keySet_mapVals, hs]) fun i hi => ?_
  obtain ⟨v, h1, h2⟩ := h i hi
  rw [BMap.get?_mapVals, h1, ← h2]
  rfl

theorem entry_of_get {m : BMap I (BMap I Cipher)} {by' for' : I} {c : Cipher} (h : matrixGet () m for' by' = .ok c) : Entry m by' for' c := by
  unfold matrixGet at h
  simp only [Out.bind_eq_ok, Out.ofOption_eq_ok] at h
  obtain ⟨row, h1, h2⟩ := h
  exact ⟨row, h1, h2⟩

section
variable {E : Env q I Ep G} (hE : SigningSetting E)
include hE

/-- The value that a truthful party decrypts to -/
theorem truthful_bound {others : Finset I} {n c : Nat} (hn : others.card + 1 = n) (hfew : FewParties E.P n c) {x k : Int} {mx my b : I → Int}
    (hx : InPm E.P.L x) (hk : |k| ≤ 2 ^ (E.P.L + E.P.EPS)) (hmx : ∀ i ∈ others, InPm E.P.L (mx i)) (hmy : ∀ i ∈ others, InPm E.P.LP (my i))
    (hb : ∀ i ∈ others, InPm E.P.LP (b i)) :
    |x * k + (∑ i ∈ others, (mx i * k - my i) + ∑ i ∈ others, b i)| < 2 ^ (E.P.LP + E.P.EPS + c) := by
  have hL : 0 < E.P.L := hE.curve
  have hLP := LP_pos hE
  have hnc := hfew.log.1
  obtain ⟨hc0, ⟨hm1, hm2, hm3, hm4, hm5, hm6⟩, hs1, hs2, hs3, hs4, hs5, hs6, hs7⟩ := hE.consistent
  have hpm : ∀ {e : Nat} {v : Int}, InPm e v → |v| ≤ 2 ^ (e - 1) := fun {e v} h => abs_le.2 ⟨by have := h.1; omega, h.2⟩
  have hprod : ∀ v : Int, InPm E.P.L v → |v * k| ≤ 2 ^ (E.P.LP - 1) := by
    intro v hv
    rw [abs_mul]
    calc |v| * |k| ≤ 2 ^ (E.P.L - 1) * 2 ^ (E.P.L + E.P.EPS) := mul_le_mul (hpm hv) hk (abs_nonneg _) (by positivity)
      _ = 2 ^ (E.P.L - 1 + (E.P.L + E.P.EPS)) := (pow_add ..).symm
      _ ≤ 2 ^ (E.P.LP - 1) := pow_le_pow_right₀ (by norm_num) (by omega)
  have h2 : |∑ i ∈ others, (mx i * k - my i)| ≤ others.card * (2 ^ (E.P.LP - 1) + 2 ^ (E.P.LP - 1)) := by
    refine (Finset.abs_sum_le_sum_abs _ _).trans ((Finset.sum_le_card_nsmul _ _ _ fun i hi => ?_).trans_eq (by rw [nsmul_eq_mul]))
    exact (abs_sub _ _).trans (add_le_add (hprod _ (hmx i hi)) (hpm (hmy i hi)))
  have h3 : |∑ i ∈ others, b i| ≤ others.card * 2 ^ (E.P.LP - 1) :=
    (Finset.abs_sum_le_sum_abs _ _).trans ((Finset.sum_le_card_nsmul _ _ _ fun i hi => hpm (hb i hi)).trans_eq (by rw [nsmul_eq_mul]))
  have h4 : |x * k + (∑ i ∈ others, (mx i * k - my i) + ∑ i ∈ others, b i)| ≤ |x * k| + (|∑ i ∈ others, (mx i * k - my i)| + |∑ i ∈ others, b i|) :=
    (abs_add_le _ _).trans (add_le_add le_rfl (abs_add_le _ _))
  have h1 := hprod x hx
  have hcard : ((others.card : Int) + 1) ≤ 2 ^ c := by
    have : others.card + 1 ≤ 2 ^ c := by omega
    exact_mod_cast this
  have e5 : (2 : Int) ^ (E.P.LP - 1) * 4 * 2 ^ c ≤ 2 ^ (E.P.LP + E.P.EPS + c) := by
    rw [show (4 : Int) = 2 ^ 2 by norm_num, ← pow_add, ← pow_add]
    exact pow_le_pow_right₀ (by norm_num) (by omega)
  have p1 : (0 : Int) < 2 ^ (E.P.LP - 1) := by positivity
  refine lt_of_lt_of_le ?_ e5
  generalize (2 : Int) ^ (E.P.LP - 1) = C at *
  have p2 : (0 : Int) ≤ others.card := by positivity
  generalize (2 : Int) ^ c = T at *
  generalize (others.card : Int) = m at *
  have f3 : (m + 1) * C ≤ T * C := mul_le_mul_of_nonneg_right hcard p1.le
  have f4 : 0 ≤ m * C := mul_nonneg p2 p1.le
  calc _ ≤ _ := h4
    _ ≤ C + (m * (C + C) + m * C) := add_le_add h1 (add_le_add h2 h3)
    _ < C * 4 * T := by nlinarith

/-- If every statement is true then the sum of the values `S` is the product of the sums. -/
theorem truthful_sum (hg : E.C.g ≠ 0) {r : ErrRound q I Ep G} {keys : I → PaillierKey} {c : Nat} {k : I → Int} (hfew : FewParties E.P r.ctx.allIds.card c)
    (hprimes : ∀ i ∈ r.ctx.allIds, FullSizePrimes E.P (keys i).p (keys i).q)
    (hkeys : ∀ i ∈ r.ctx.allIds, (SecretKey.new (keys i).p (keys i).q : Out Unit _) = .ok (keys i).sk)
    (h : AllTruthful E r (fun i => (keys i).modulus) c k) :
    ∃ x s : I → ZMod q, (∀ i ∈ r.ctx.allIds, r.capXs.get? i = some (x i • E.C.g)) ∧ (∀ i ∈ r.ctx.allIds, r.capSs.get? i = some (s i • r.capG)) ∧
      ∑ i ∈ r.ctx.allIds, s i = (∑ i ∈ r.ctx.allIds, ((k i : Int) : ZMod q)) * ∑ i ∈ r.ctx.allIds, x i := by
  have hinj : ∀ a b : ZMod q, a • E.C.g = b • E.C.g → a = b := fun a b hab => smul_left_injective _ hg hab
  have big : ∀ j ∈ r.ctx.allIds, 2 ^ (E.P.modBits - 2) ≤ (keys j).modulus := by
    intro j hj
    have hm : E.P.modBits = 2 * E.P.primeBits := hE.consistent.2.1.1
    have hpb := FullSizePrimes.primeBits_pos (hprimes j hj)
    rw [show E.P.modBits - 2 = (E.P.primeBits - 1) + (E.P.primeBits - 1) by omega, pow_add]
    exact Nat.mul_le_mul (hprimes j hj).lowP (hprimes j hj).lowQ
  -- choose the witnesses
  have hmul : ∀ i j, ∃ (x y : Int) (capK capD : Ct (keys j).modulus) (capF : Ct (keys i).modulus) (capX : G) (rho rhoY : Nat),
      i ∈ r.ctx.allIds → j ∈ r.ctx.allIds → i ≠ j → r.capKs.get? j = some ⟨(keys j).modulus, capK⟩ ∧
      (matrixGet () r.capDs j i = .ok ⟨(keys j).modulus, capD⟩) ∧ (matrixGet () r.capFs j i = .ok ⟨(keys i).modulus, capF⟩) ∧ r.capXs.get? i = some capX ∧
      Props.AffGRelation E.P (keys j).modulus (keys i).modulus E.C.g q ⟨capK, capD, capF, capX⟩ x y rho rhoY := by
    intro i j
    by_cases hij : i ∈ r.ctx.allIds ∧ j ∈ r.ctx.allIds ∧ i ≠ j
    · obtain ⟨capK, capD, capF, capX, x, y, rho, rhoY, hh⟩ := h.multiply i hij.1 j hij.2.1 hij.2.2
      exact ⟨x, y, capK, capD, capF, capX, rho, rhoY, fun _ _ _ => hh⟩
    · exact ⟨0, 0, 0, 0, 0, 0, 0, 0, fun a b c => absurd ⟨a, b, c⟩ hij⟩
  choose mx my mK mD mF mX mrho mrhoY hmul using hmul
  have hdec : ∀ j, ∃ (x y : Int) (capK capD : Ct (keys j).modulus) (capX capS : G) (rho : Nat), j ∈ r.ctx.allIds →
      r.capKs.get? j = some ⟨(keys j).modulus, capK⟩ ∧ r.capXs.get? j = some capX ∧ r.capSs.get? j = some capS ∧
      (aggregate () () r.capDs r.capFs j (r.ctx.allIds.erase j) = .ok ⟨(keys j).modulus, capD⟩) ∧
      Props.DecRelation E.P (keys j).modulus E.C.g q ⟨capK, capX, capD, capS, r.capG, r.ctx.allIds.card⟩ c x y rho := by
    intro j
    by_cases hj : j ∈ r.ctx.allIds
    · obtain ⟨capK, capX, capD, capS, x, y, rho, hh⟩ := h.decrypt j hj
      exact ⟨x, y, capK, capD, capX, capS, rho, fun _ => hh⟩
    · exact ⟨0, 0, 0, 0, 0, 0, 0, fun a => absurd a hj⟩
  choose dx dy dK dD dX dS drho hdec using hdec
  refine ⟨fun i => (dx i : ZMod q), fun i => (dy i : ZMod q), fun i hi => ?_, fun i hi => ?_, ?_⟩
  · rw [(hdec i hi).2.1, ← (hdec i hi).2.2.2.2.capX]
  · rw [(hdec i hi).2.2.1, ← (hdec i hi).2.2.2.2.capS]
  -- the value of each party
  have hval : ∀ j ∈ r.ctx.allIds, dy j = dx j * k j + (∑ i ∈ r.ctx.allIds.erase j, (mx i j * k j - my i j) + ∑ i ∈ r.ctx.allIds.erase j, my j i) := by
    intro j hj
    obtain ⟨a1, a2, a3, a4, a5⟩ := hdec j hj
    obtain ⟨capK, rhoK, b1, b2, b3⟩ := h.nonce j hj
    have hKe : dK j = capK := by
      rw [a1] at b1
      simpa using b1
    have hKh : (⟨(keys j).modulus, dK j⟩ : Cipher).Holds (keys j).modulus (k j) := by rw [hKe]; exact holds_of_encrypts b2 b3
    have hcard : (r.ctx.allIds.erase j).card + 1 = r.ctx.allIds.card := Finset.card_erase_add_one hj
    have hne : (r.ctx.allIds.erase j).Nonempty := by
      rw [← Finset.card_pos]; have := hfew.parties; omega
    obtain ⟨agg, hagg, hagg'⟩ := aggregate_holds hne (N := (keys j).modulus) (cd := fun i => ⟨(keys j).modulus, mD i j⟩) (cf := fun i => ⟨(keys j).modulus, mF j i⟩)
      (md := fun i => mx i j * k j - my i j) (mf := fun i => my j i) (capDs := r.capDs) (capFs := r.capFs) (party := j)
      (fun i hi => by
        obtain ⟨hij, hi⟩ := Finset.mem_erase.1 hi
        obtain ⟨c1, c2, c3, c4, c5⟩ := hmul i j hi hj hij
        obtain ⟨u, hu, e, he, hD⟩ := c5.capD
        have hKu : (⟨(keys j).modulus, (u : Ct (keys j).modulus)⟩ : Cipher).Holds (keys j).modulus (k j) := by
          have : mK i j = dK j := by
            rw [a1] at c1
            simpa using c1.symm
          have hu' : mK i j = (u : Ct (keys j).modulus) := hu
          rw [← hu', this]
          exact hKh
        have hD' : mD i j = ((u ^ mx i j : (ZMod ((keys j).modulus ^ 2))ˣ) : Ct (keys j).modulus) * e := hD
        rw [hD', sub_eq_add_neg]
        exact holds_zpow_mul hKu (holds_of_encrypts c5.randomizer he) (mx i j))
      (fun i hi => by
        obtain ⟨hij, hi⟩ := Finset.mem_erase.1 hi
        exact holds_of_encrypts (hmul j i hj hi (Ne.symm hij)).2.2.2.2.randomizerY (hmul j i hj hi (Ne.symm hij)).2.2.2.2.capY)
      (fun i hi => by
        obtain ⟨hij, hi⟩ := Finset.mem_erase.1 hi
        exact entry_of_get (hmul i j hi hj hij).2.1)
      (fun i hi => by
        obtain ⟨hij, hi⟩ := Finset.mem_erase.1 hi
        exact entry_of_get (hmul j i hj hi (Ne.symm hij)).2.2.1)
    rw [hagg'] at a4
    have hDe : agg = ⟨(keys j).modulus, dD j⟩ := Out.ok.inj a4
    rw [hDe] at hagg
    obtain ⟨u, hu, he⟩ := a5.capD
    have hu' : dK j = (u : Ct (keys j).modulus) := hu
    rw [hu'] at hKh
    have hL := holds_zpow_mul hKh hagg (dx j)
    have hR : (⟨(keys j).modulus, ((u ^ dx j : (ZMod ((keys j).modulus ^ 2))ˣ) : Ct (keys j).modulus) * dD j⟩ : Cipher).Holds (keys j).modulus (dy j) :=
      holds_of_encrypts a5.randomizer he
    refine holds_unique (hprimes j hj) (hkeys j hj) hE.consistent hR hL ?_ ?_
    · have hm := (hprimes j hj)
      have hmod : E.P.modBits = 2 * E.P.primeBits := hE.consistent.2.1.1
      have hodd : (keys j).modulus % 2 = 1 := odd_of_primes hm.primes
      have hbig : 2 ^ (E.P.modBits - 2) ≤ (keys j).modulus := big j hj
      have h1 : |dy j| ≤ 2 ^ (E.P.LP + E.P.EPS + 1 + c - 1) := abs_le.2 ⟨by have := a5.rangeY.1; omega, a5.rangeY.2⟩
      have hnw := hfew.noWrap
      obtain ⟨hc0, ⟨hm1, hm2, hm3, hm4, hm5, hm6⟩, hs1, hs2, hs3, hs4, hs5, hs6, hs7⟩ := hE.consistent
      have hL : 0 < E.P.L := hE.curve
      have hlp : E.P.LP = E.P.primeBits + E.P.L := rfl
      have h3 : (2 : Int) * 2 ^ (E.P.LP + E.P.EPS + 1 + c - 1) ≤ 2 ^ (E.P.modBits - 2) := by
        rw [← pow_succ']; exact pow_le_pow_right₀ (by norm_num) (by omega)
      have h2 : ((2 ^ (E.P.modBits - 2) : Nat) : Int) ≤ ((keys j).modulus : Int) := by exact_mod_cast hbig
      push_cast at h2
      omega
    · exact err_no_wrap hE hfew (big j hj) (truthful_bound hE hcard hfew a5.rangeX (h.nonceRange j hj)
        (fun i hi => (hmul i j (Finset.mem_of_mem_erase hi) hj (Finset.ne_of_mem_erase hi)).2.2.2.2.rangeX)
        (fun i hi => (hmul i j (Finset.mem_of_mem_erase hi) hj (Finset.ne_of_mem_erase hi)).2.2.2.2.rangeY)
        (fun i hi => (hmul j i hj (Finset.mem_of_mem_erase hi) (Ne.symm (Finset.ne_of_mem_erase hi))).2.2.2.2.rangeY))
  have hxeq : ∀ i ∈ r.ctx.allIds, ∀ j ∈ r.ctx.allIds, i ≠ j → ((mx i j : Int) : ZMod q) = dx i := by
    intro i hi j hj hij
    obtain ⟨c1, c2, c3, c4, c5⟩ := hmul i j hi hj hij
    apply hinj
    have e1 := c5.capX
    have e2 := (hdec i hi).2.2.2.2.capX
    have : mX i j = dX i := by
      rw [(hdec i hi).2.1] at c4
      simpa using c4.symm
    rw [← e1, ← e2, this]
  have hmain : ∀ j ∈ r.ctx.allIds, ((dy j : Int) : ZMod q) = (k j : ZMod q) * (∑ i ∈ r.ctx.allIds, (dx i : ZMod q)) +
      (∑ i ∈ r.ctx.allIds.erase j, ((my j i : Int) : ZMod q) - ∑ i ∈ r.ctx.allIds.erase j, ((my i j : Int) : ZMod q)) := by
    intro j hj
    rw [hval j hj]
    push_cast
    rw [← Finset.add_sum_erase _ _ hj, Finset.sum_sub_distrib]
    have : ∑ i ∈ r.ctx.allIds.erase j, ((mx i j : Int) : ZMod q) * (k j : ZMod q) = (k j : ZMod q) * ∑ i ∈ r.ctx.allIds.erase j, (dx i : ZMod q) := by
      rw [Finset.mul_sum]
      refine Finset.sum_congr rfl fun i hi => ?_
      obtain ⟨hij, hi⟩ := Finset.mem_erase.1 hi
      rw [hxeq i hi j hj hij, mul_comm]
    rw [this]
    ring
  rw [Finset.sum_congr rfl hmain, Finset.sum_add_distrib, masks_cancel, add_zero, Finset.sum_mul]

end

end Synedrion.Signing
