import Verif.Props.ZkFac
import Mathlib.NumberTheory.LucasPrimality
import Mathlib.Tactic.NormNum.Prime
import Verif.Spec.KeyGen
import Verif.Props.KeyGen

/-!
# Property C74: an accepted small-factor proof rules out small factors
-/

set_option linter.unusedSectionVars false

namespace Synedrion.Props
open Spec

variable {ε : Type} {Aux : Type}

private theorem unit_of_pow {n : Nat} [NeZero n] {Q B x : ZMod n} {e : SInt} (hf : e.Fits) (he : e.val ≠ 0) (h : (powPublic Q e : Out ε _) = .ok x)
    (hu : IsUnit (B * x)) : IsUnit Q := by
  have hn : e.val.natAbs ≠ 0 := by omega
  unfold powPublic at h
  rw [powBounded_eq _ hf] at h
  simp only at h
  split at h
  · cases hi : invMod? (Q ^ e.val.natAbs) with
    | none => rw [hi] at h; cases h
    | some y =>
      obtain ⟨u, h1, _⟩ := invMod?_eq_some hi
      exact (isUnit_pow_iff hn).1 ⟨u, h1⟩
  · cases h
    exact (isUnit_pow_iff hn).1 (isUnit_of_mul_isUnit_right hu)

/-- An accepted proof with a non-zero challenge commits to the factors with invertible residues. -/
private theorem accepted_units {P : Params} (H : FacHash Aux → SInt) {N0 Nh : Nat} [NeZero Nh] (setup : RPParams Nh) (s t : (ZMod Nh)ˣ)
    (hs : (s : ZMod Nh) = setup.s) (ht : (t : ZMod Nh) = setup.t) (aux : Aux) (prf : FacProof) (hz1 : prf.z1.Fits) (hw1 : prf.w1.Fits)
    (hz2 : prf.z2.Fits) (hw2 : prf.w2.Fits) (hH : ∀ x, (H x).Fits) (h0 : prf.e.val ≠ 0) (h : (prf.verify P H N0 setup aux : Out ε _) = .ok true) :
    IsUnit (prf.capP : ZMod Nh) ∧ IsUnit (prf.capQ : ZMod Nh) := by
  simp only [FacProof.verify] at h
  rw [Out.check_eq_true] at h
  obtain ⟨h1, h⟩ := h
  have he : prf.e.Fits := by rw [← of_decide_eq_true h1]; exact hH _
  rw [of_decide_eq_true h1] at h
  simp only [Out.check_eq_true, Out.bind_eq_ok] at h
  obtain ⟨_, _, _, _, _, _, lhs1, g2, pe, g3, g4, lhs2, h2, qe, h3, h4, _⟩ := h
  rw [commitPublic_unit hs ht hz1 hw1] at g2
  rw [commitPublic_unit hs ht hz2 hw2] at h2
  constructor
  · refine unit_of_pow he h0 g3 (B := commitmentOfWire Nh prf.capA) ?_
    rw [← of_decide_eq_true g4, ← Out.ok.inj g2]
    exact Units.isUnit _
  · refine unit_of_pow he h0 h3 (B := commitmentOfWire Nh prf.capB) ?_
    rw [← of_decide_eq_true h4, ← Out.ok.inj h2]
    exact Units.isUnit _

/-- The computation, written additively. -/
private theorem relation_add {M : Type} [AddCommGroup M] (s t Q : M) (N e e' z1 z1' z2 z2' w2 w2' v v' : Int)
    (h1 : z2 • s + w2 • t - e • Q = z2' • s + w2' • t - e' • Q)
    (h2 : z1 • Q + v • t - (N * e) • s = z1' • Q + v' • t - (N * e') • s) :
    ((z1 - z1') * (z2 - z2') - N * (e - e') ^ 2) • s + ((w2 - w2') * (z1 - z1') + (v - v') * (e - e')) • t = 0 := by
  linear_combination (norm := module) (z1 - z1') • h1 + (e - e') • h2

private theorem relation_mul {M : Type} [CommGroup M] (s t Q : M) (N e e' z1 z1' z2 z2' w2 w2' v v' : Int)
    (h1 : s ^ z2 * t ^ w2 / Q ^ e = s ^ z2' * t ^ w2' / Q ^ e')
    (h2 : Q ^ z1 * t ^ v / (s ^ (N * e)) = Q ^ z1' * t ^ v' / (s ^ (N * e'))) :
    s ^ ((z1 - z1') * (z2 - z2') - N * (e - e') ^ 2) * t ^ ((w2 - w2') * (z1 - z1') + (v - v') * (e - e')) = 1 :=
  relation_add (M := Additive M) (.ofMul s) (.ofMul t) (.ofMul Q) N e e' z1 z1' z2 z2' w2 w2' v v' h1 h2

/-- **C74 (the relation).** Two accepted proofs with the same commitments and different challenges, for any modulus `N₀` and parameters with invertible bases: `s` raised to
`Δz₁ Δz₂ - N₀ Δe²` is a known power of `t`. -/
theorem C74_relation {P : Params} (hmw : P.modBits < P.wide) (H H' : FacHash Aux → SInt) (hH : ∀ x, (H x).Fits) (hH' : ∀ x, (H' x).Fits) {N0 Nh : Nat}
    (hN0 : N0 < 2 ^ P.modBits) (hNh : 0 < Nh) (setup : RPParams Nh) (s t : (ZMod Nh)ˣ) (hs : (s : ZMod Nh) = setup.s) (ht : (t : ZMod Nh) = setup.t)
    (aux aux' : Aux) (prf prf' : FacProof)
    (fits : ∀ x ∈ [prf.z1, prf.z2, prf.w1, prf.w2, prf.v, prf'.z1, prf'.z2, prf'.w1, prf'.w2, prf'.v], x.Fits)
    (hP : prf.capP = prf'.capP) (hQ : prf.capQ = prf'.capQ) (hB : prf.capB = prf'.capB) (hT : prf.capT = prf'.capT)
    (hne : prf.e.val ≠ prf'.e.val)
    (h : (prf.verify P H N0 setup aux : Out ε _) = .ok true) (h' : (prf'.verify P H' N0 setup aux' : Out ε _) = .ok true) :
    s ^ ((prf.z1.val - prf'.z1.val) * (prf.z2.val - prf'.z2.val) - N0 * (prf.e.val - prf'.e.val) ^ 2) *
      t ^ ((prf.w2.val - prf'.w2.val) * (prf.z1.val - prf'.z1.val) + (prf.v.val - prf'.v.val) * (prf.e.val - prf'.e.val)) = 1 := by
  have : NeZero Nh := ⟨hNh.ne'⟩
  simp only [List.forall_mem_cons, List.not_mem_nil, false_imp_iff, implies_true, and_true] at fits
  obtain ⟨f1, f2, f3, f4, f5, f1', f2', f3', f4', f5'⟩ := fits
  have hu : IsUnit (prf.capP : ZMod Nh) ∧ IsUnit (prf.capQ : ZMod Nh) := by
    by_cases h0 : prf.e.val = 0
    · rw [hP, hQ]
      exact accepted_units (ε := ε) H' setup s t hs ht aux' prf' f1' f3' f2' f4' hH' (by omega) h'
    · exact accepted_units (ε := ε) H setup s t hs ht aux prf f1 f3 f2 f4 hH h0 h
  obtain ⟨⟨capP, hcP⟩, ⟨capQ, hcQ⟩⟩ := hu
  obtain ⟨-, -, -, -, a2, a3⟩ := (C31_decision (ε := ε) hmw H hH hN0 setup s t hs ht aux prf f1 f2 f3 f4 f5 capP capQ hcP hcQ).1 h
  obtain ⟨-, -, -, -, b2, b3⟩ := (C31_decision (ε := ε) hmw H' hH' hN0 setup s t hs ht aux' prf' f1' f2' f3' f4' f5' capP capQ (by rw [hcP, hP]) (by rw [hcQ, hQ])).1 h'
  have div : ∀ {c : ZMod Nh} {x y x' y' : (ZMod Nh)ˣ}, (x : ZMod Nh) = c * y → (x' : ZMod Nh) = c * y' → x / y = x' / y' := by
    intro c x y x' y' h1 h2
    rw [div_eq_div_iff_mul_eq_mul]
    ext
    push_cast
    rw [h1, h2]; ring
  rw [← hB] at b2
  rw [← hT] at b3
  refine relation_mul s t capQ N0 _ _ _ _ _ _ _ _ _ _ (div a2 b2) ?_
  rw [zpow_mul, zpow_mul, zpow_natCast]
  exact div a3 b3

/-- Two numbers that are too small to be multiples of `p q`, with a product that is one, share the primes between them. -/
private theorem shared {p q A B c : Nat} (hp : p.Prime) (hq : q.Prime) (h : A * B = p * q * c) (hA : 0 < A) (hB : 0 < B) (hA' : A < p * q) (hB' : B < p * q) :
    p ∣ A ∧ q ∣ B ∨ p ∣ B ∧ q ∣ A := by
  have hd : p * q ∣ A * B := ⟨c, h⟩
  have hdp : p ∣ A ∨ p ∣ B := (Nat.Prime.dvd_mul hp).1 ((Dvd.intro _ rfl).trans hd)
  have hdq : q ∣ A ∨ q ∣ B := (Nat.Prime.dvd_mul hq).1 ((Dvd.intro_left _ rfl).trans hd)
  by_contra hno
  push Not at hno
  obtain ⟨n1, n2⟩ := hno
  by_cases hpA : p ∣ A
  · have hqB := n1 hpA
    have hpB : ¬ p ∣ B := fun h => n2 h (hdq.resolve_right hqB)
    have hc : Nat.Coprime (p * q) B := Nat.Coprime.mul_left ((Nat.Prime.coprime_iff_not_dvd hp).2 hpB) ((Nat.Prime.coprime_iff_not_dvd hq).2 hqB)
    exact absurd (Nat.le_of_dvd hA (hc.dvd_of_dvd_mul_right hd)) (by omega)
  · have hqA := n2 (hdp.resolve_left hpA)
    have hc : Nat.Coprime (p * q) A := Nat.Coprime.mul_left ((Nat.Prime.coprime_iff_not_dvd hp).2 hpA) ((Nat.Prime.coprime_iff_not_dvd hq).2 hqA)
    exact absurd (Nat.le_of_dvd hB (hc.dvd_of_dvd_mul_left hd)) (by omega)

/-- A factor of a number of `m + n` bits with a cofactor of `m` bits. -/
private theorem cofactor {p q m n : Nat} (h : 2 ^ (m + n) ≤ p * q) (hq : q < 2 ^ m) : 2 ^ n < p := by
  by_contra hle
  push Not at hle
  have h1 : p * q ≤ 2 ^ n * q := Nat.mul_le_mul_right _ hle
  have h2 : 2 ^ n * q < 2 ^ n * 2 ^ m := (Nat.mul_lt_mul_left (by positivity)).2 hq
  rw [← pow_add, Nat.add_comm n m] at h2
  omega

private theorem sub_small {k : Nat} (hk : 0 < k) {a b : Int} (ha : InPm k a) (hb : InPm k b) : (a - b).natAbs < 2 ^ k := by
  unfold InPm at ha hb
  have : (2 : Nat) ^ k = 2 * 2 ^ (k - 1) := by rw [← pow_succ']; congr 1; omega
  have hc : ((2 ^ (k - 1) : Nat) : Int) = (2 : Int) ^ (k - 1) := by push_cast; rfl
  rw [this]
  generalize (2 : Nat) ^ (k - 1) = n at *
  omega

/-- **C74 (no small factor).** Two accepted proofs with the same commitments and different challenges, for a modulus of the size that is checked and with two prime factors:
either `Δz₁ Δz₂ ≠ N₀ Δe²`, and then the answers show a relation between the bases `s` and `t`, or both factors are larger than `2^(L-1)`. -/
theorem C74_no_small_factor {P : Params} (hP : P.SelfConsistent) (hL : 0 < P.numBits) (H H' : FacHash Aux → SInt) (hH : ∀ x, (H x).Fits) (hH' : ∀ x, (H' x).Fits)
    {Nh : Nat} (p q : Nat) (hp : p.Prime) (hq : q.Prime) (hlow : P.modBits - 2 ≤ bitLen (p * q)) (hN0 : p * q < 2 ^ P.modBits) (hNh : 0 < Nh)
    (setup : RPParams Nh) (s t : (ZMod Nh)ˣ) (hs : (s : ZMod Nh) = setup.s) (ht : (t : ZMod Nh) = setup.t)
    (aux aux' : Aux) (prf prf' : FacProof)
    (fits : ∀ x ∈ [prf.z1, prf.z2, prf.w1, prf.w2, prf.v, prf'.z1, prf'.z2, prf'.w1, prf'.w2, prf'.v], x.Fits)
    (hcP : prf.capP = prf'.capP) (hcQ : prf.capQ = prf'.capQ) (hcB : prf.capB = prf'.capB) (hcT : prf.capT = prf'.capT)
    (hne : prf.e.val ≠ prf'.e.val)
    (h : (prf.verify P H (p * q) setup aux : Out ε _) = .ok true) (h' : (prf'.verify P H' (p * q) setup aux' : Out ε _) = .ok true) :
    (∃ a b : Int, a = (prf.z1.val - prf'.z1.val) * (prf.z2.val - prf'.z2.val) - (p * q : Nat) * (prf.e.val - prf'.e.val) ^ 2 ∧ a ≠ 0 ∧
        b = (prf.w2.val - prf'.w2.val) * (prf.z1.val - prf'.z1.val) + (prf.v.val - prf'.v.val) * (prf.e.val - prf'.e.val) ∧ s ^ a * t ^ b = 1) ∨
      2 ^ (P.L - 1) < p ∧ 2 ^ (P.L - 1) < q := by
  obtain ⟨-, ⟨m1, -, -, -, m5, m6⟩, -, -, s3, -, -, s6, -⟩ := hP
  have hpos : 0 < P.L := hL
  have hmw : P.modBits < P.wide := by omega
  by_cases heq : (prf.z1.val - prf'.z1.val) * (prf.z2.val - prf'.z2.val) = (p * q : Nat) * (prf.e.val - prf'.e.val) ^ 2
  swap
  · exact .inl ⟨_, _, rfl, sub_ne_zero.2 heq, rfl, C74_relation hmw H H' hH hH' hN0 hNh setup s t hs ht aux aux' prf prf' fits hcP hcQ hcB hcT hne h h'⟩
  · right
    have range : ∀ {K : FacHash Aux → SInt} {x : Aux} {f : FacProof}, (f.verify P K (p * q) setup x : Out ε _) = .ok true →
        InPm (P.L + P.EPS + P.primeBits - 2) f.z1.val ∧ InPm (P.L + P.EPS + P.primeBits - 2) f.z2.val := by
      intro K x f hf
      by_contra hno
      have := C31_out_of_range_rejected (ε := ε) (P := P) K (N0 := p * q) setup x f (by tauto)
      rw [hf] at this
      cases this
    obtain ⟨r1, r2⟩ := range h
    obtain ⟨r1', r2'⟩ := range h'
    have hk : P.L + P.EPS + P.primeBits - 2 = P.modBits - P.L - 2 := by omega
    rw [hk] at r1 r2 r1' r2'
    have A1 := sub_small (by omega) r1 r1'
    have A2 := sub_small (by omega) r2 r2'
    have hbig : 2 ^ (P.modBits - 3) ≤ p * q := by
      by_contra hlt
      have := bitLen_le_iff.2 (not_le.1 hlt)
      omega
    have hlt : 2 ^ (P.modBits - P.L - 2) ≤ 2 ^ (P.modBits - 3) := Nat.pow_le_pow_right (by norm_num) (by omega)
    have hab : (prf.z1.val - prf'.z1.val).natAbs * (prf.z2.val - prf'.z2.val).natAbs = p * q * ((prf.e.val - prf'.e.val).natAbs ^ 2) := by
      rw [← Int.natAbs_mul, heq, Int.natAbs_mul, Int.natAbs_natCast, Int.natAbs_pow]
    have hprod : 0 < (prf.z1.val - prf'.z1.val).natAbs * (prf.z2.val - prf'.z2.val).natAbs := by
      rw [hab]
      have : 0 < (prf.e.val - prf'.e.val).natAbs := by omega
      have := hp.pos
      have := hq.pos
      positivity
    have hexp : P.modBits - P.L - 2 + (P.L - 1) = P.modBits - 3 := by omega
    have hz1 := Nat.pos_of_mul_pos_right hprod
    have hz2 := Nat.pos_of_mul_pos_left hprod
    have done : ∀ {x y : Nat}, 0 < x → 0 < y → x < 2 ^ (P.modBits - P.L - 2) → y < 2 ^ (P.modBits - P.L - 2) → p ∣ x → q ∣ y →
        2 ^ (P.L - 1) < p ∧ 2 ^ (P.L - 1) < q := by
      intro x y hx hy lx ly dx dy
      have l1 := Nat.le_of_dvd hx dx
      have l2 := Nat.le_of_dvd hy dy
      exact ⟨cofactor (by rw [hexp]; exact hbig) (lt_of_le_of_lt l2 ly), cofactor (q := p) (by rw [hexp, mul_comm]; exact hbig) (lt_of_le_of_lt l1 lx)⟩
    rcases shared hp hq hab (by assumption) (by assumption) (by omega) (by omega) with ⟨d1, d2⟩ | ⟨d1, d2⟩
    · exact done (by assumption) (by assumption) A1 A2 d1 d2
    · exact done (by assumption) (by assumption) A2 A1 d1 d2

/-- **C74 (what a relation costs).** If the parameters were made honestly from safe primes, with a base `t` that is one modulo neither, a relation between `s = t^λ` and `t` gives
a multiple of the secret order `φ(N)/4` of the group of squares, unless it gives `λ` itself. -/
theorem C74_relation_reveals {bits p q : Nat} (hb : 4 ≤ bits) (sp : SafePrime bits p) (sq : SafePrime bits q) (hne : p ≠ q) (draw lambda : Nat)
    (hd : IsInvertibleDraw (p * q) draw) (hp1 : draw * draw % p ≠ 1) (hq1 : draw * draw % q ≠ 1) (s t : (ZMod (p * q))ˣ)
    (ht : (t : ZMod (p * q)) = quadraticResidue (p * q) draw) (hs : s = t ^ lambda) (a b : Int) (h : s ^ a * t ^ b = 1) :
    (((p - 1) * (q - 1) / 4 : Nat) : Int) ∣ a * lambda + b := by
  have hbij := C68_base_uniform hb sp sq hne draw hd hp1 hq1
  rw [← ht] at hbij
  have hn : 0 < (p - 1) * (q - 1) / 4 := by
    have h8 : 2 ^ 3 ≤ 2 ^ (bits - 1) := Nat.pow_le_pow_right (by omega) (by omega)
    have h1 := sp.low
    have h2 := sq.low
    have : 7 * 7 ≤ (p - 1) * (q - 1) := Nat.mul_le_mul (by omega) (by omega)
    omega
  generalize (p - 1) * (q - 1) / 4 = n at *
  have inj : ∀ x < n, ∀ y < n, t ^ x = t ^ y → x = y := by
    intro x hx y hy hxy
    refine hbij.injOn hx hy ?_
    simp only [← Units.val_pow_eq_pow_val, hxy]
  have hone : t ^ n = 1 := by
    have hsq : IsUnit ((t : ZMod (p * q)) ^ n) ∧ IsSquare ((t : ZMod (p * q)) ^ n) :=
      ⟨t.isUnit.pow n, IsSquare.pow n (by rw [ht]; exact ⟨(draw : ZMod (p * q)), rfl⟩)⟩
    obtain ⟨j, hj, hj'⟩ := hbij.surjOn hsq
    simp only [← Units.val_pow_eq_pow_val] at hj'
    have hj2 : t ^ j = t ^ n := Units.ext hj'
    have hjn : j < n := hj
    have h3 : t ^ (n - j) = 1 := by
      have : t ^ (n - j) * t ^ j = t ^ j := by rw [← pow_add, Nat.sub_add_cancel hjn.le, hj2]
      exact mul_eq_right.1 this
    rcases Nat.eq_zero_or_pos j with h0 | h0
    · rw [← hj2, h0, pow_zero]
    · have := inj (n - j) (by omega) 0 hn (by rw [h3, pow_zero])
      omega
  have hz : t ^ (a * lambda + b) = 1 := by
    rw [← h, hs, zpow_add, mul_comm a, zpow_mul, zpow_natCast]
  have hm : t ^ ((a * lambda + b) % n).toNat = 1 := by
    have hnn : 0 ≤ (a * lambda + b) % (n : Int) := Int.emod_nonneg _ (by omega)
    rw [← zpow_natCast, Int.toNat_of_nonneg hnn]
    have := Int.emod_add_mul_ediv (a * lambda + b) n
    rw [← this, zpow_add, zpow_mul, zpow_natCast, hone, one_zpow, mul_one] at hz
    exact hz
  have hlt : (a * lambda + b) % (n : Int) < n := Int.emod_lt_of_pos _ (by omega)
  have hnn : 0 ≤ (a * lambda + b) % (n : Int) := Int.emod_nonneg _ (by omega)
  have := inj ((a * lambda + b) % (n : Int)).toNat (by omega) 0 hn (by rw [hm, pow_zero])
  exact Int.dvd_of_emod_eq_zero (by omega)

/-! ### A concrete case -/

section Examples

/-- The commitments of a proof do not depend on the challenge. -/
private theorem same_commitments {P : Params} {H H' : FacHash Aux → SInt} {Nh p q' : Nat} {setup : RPParams Nh} {aux : Aux} {mask : FacMasks} {prf prf' : FacProof}
    (h : (FacProof.prove P H p q' setup aux mask : Out ε _) = .ok prf) (h' : (FacProof.prove P H' p q' setup aux mask : Out ε _) = .ok prf') :
    prf.capP = prf'.capP ∧ prf.capQ = prf'.capQ ∧ prf.capB = prf'.capB ∧ prf.capT = prf'.capT := by
  simp only [FacProof.prove, Out.bind_eq_ok] at h h'
  obtain ⟨a1, b1, a2, b2, a3, b3, a4, b4, a5, b5, a6, b6, a7, b7, a8, b8, _, _, _, _, _, _, _, _, _, _, h⟩ := h
  obtain ⟨a1', b1', a2', b2', a3', b3', a4', b4', a5', b5', a6', b6', a7', b7', a8', b8', _, _, _, _, _, _, _, _, _, _, h'⟩ := h'
  cases b1.symm.trans b1'
  cases b2.symm.trans b2'
  cases b3.symm.trans b3'
  cases b4.symm.trans b4'
  cases b6.symm.trans b6'
  cases b7.symm.trans b7'
  cases b8.symm.trans b8'
  rw [← Out.ok.inj h, ← Out.ok.inj h']
  exact ⟨rfl, rfl, rfl, rfl⟩

/-- A small self-consistent set of parameters. -/
private def smallParams : Params := ⟨22, 16, 89, 178, 89, 178, 356, 445⟩

private def factorP : Nat := 99 * 2 ^ 82 + 1
private def factorQ : Nat := 51 * 2 ^ 83 + 1

private def squarings (m : Nat) : Nat → Nat → Nat
  | 0, x => x % m
  | n + 1, x => squarings m n (x * x % m)

private theorem squarings_eq (m : Nat) : ∀ n x, (squarings m n x : ZMod m) = (x : ZMod m) ^ 2 ^ n
  | 0, x => by simp [squarings]
  | n + 1, x => by
    rw [squarings, squarings_eq m n, ZMod.natCast_mod, Nat.cast_mul, ← pow_two, ← pow_mul, pow_succ, mul_comm 2]

/-- A criterion for numbers of the form `k 2^(n+1) + 1` to be prime. -/
private theorem proth_prime (k n r r' a : Nat) (hr : r.Prime) (hr' : r'.Prime) (hk : ∀ x, x.Prime → x ∣ k → x = r ∨ x = r') (hd : r ∣ k) (hd' : r' ∣ k)
    (h1 : squarings (k * 2 ^ (n + 1) + 1) (n + 1) (a ^ k) = 1) (h2 : squarings (k * 2 ^ (n + 1) + 1) n (a ^ k) % (k * 2 ^ (n + 1) + 1) ≠ 1 % (k * 2 ^ (n + 1) + 1))
    (h3 : squarings (k * 2 ^ (n + 1) + 1) (n + 1) (a ^ (k / r)) % (k * 2 ^ (n + 1) + 1) ≠ 1 % (k * 2 ^ (n + 1) + 1))
    (h4 : squarings (k * 2 ^ (n + 1) + 1) (n + 1) (a ^ (k / r')) % (k * 2 ^ (n + 1) + 1) ≠ 1 % (k * 2 ^ (n + 1) + 1)) :
    (k * 2 ^ (n + 1) + 1).Prime := by
  have val : ∀ c i : Nat, ((a : ZMod (k * 2 ^ (n + 1) + 1)) ^ (c * 2 ^ i)) = (squarings (k * 2 ^ (n + 1) + 1) i (a ^ c) : ZMod (k * 2 ^ (n + 1) + 1)) := by
    intro c i
    rw [squarings_eq, Nat.cast_pow, ← pow_mul]
  have ne : ∀ x : Nat, x % (k * 2 ^ (n + 1) + 1) ≠ 1 % (k * 2 ^ (n + 1) + 1) → (x : ZMod (k * 2 ^ (n + 1) + 1)) ≠ 1 := by
    intro x hx h
    refine hx ((ZMod.natCast_eq_natCast_iff' _ _ _).1 ?_)
    rw [h, Nat.cast_one]
  refine lucas_primality _ (a : ZMod (k * 2 ^ (n + 1) + 1)) ?_ ?_
  · rw [Nat.add_sub_cancel, val, h1, Nat.cast_one]
  · intro x hx hdvd
    rw [Nat.add_sub_cancel] at hdvd ⊢
    have div : ∀ y, y ∣ k → k * 2 ^ (n + 1) / y = k / y * 2 ^ (n + 1) := fun y hy => by
      rw [mul_comm, Nat.mul_div_assoc _ hy, mul_comm]
    rcases (Nat.Prime.dvd_mul hx).1 hdvd with h | h
    · rcases hk x hx h with rfl | rfl
      · rw [div _ hd, val]; exact ne _ h3
      · rw [div _ hd', val]; exact ne _ h4
    · rw [(Nat.prime_dvd_prime_iff_eq hx Nat.prime_two).1 (hx.dvd_of_dvd_pow h)]
      rw [show k * 2 ^ (n + 1) / 2 = k * 2 ^ n by rw [pow_succ, ← mul_assoc]; exact Nat.mul_div_cancel _ (by norm_num), val]
      exact ne _ h2

private theorem prime_factorP : factorP.Prime :=
  proth_prime 99 81 3 11 5 (by norm_num) (by norm_num) (fun x hx hd => by
    rw [show 99 = 3 ^ 2 * 11 by norm_num] at hd
    rcases (Nat.Prime.dvd_mul hx).1 hd with h | h
    · exact .inl ((Nat.prime_dvd_prime_iff_eq hx Nat.prime_three).1 (hx.dvd_of_dvd_pow h))
    · exact .inr ((Nat.prime_dvd_prime_iff_eq hx (by norm_num)).1 h)) (by norm_num) (by norm_num) (by decide +kernel) (by decide +kernel) (by decide +kernel) (by decide +kernel)

private theorem prime_factorQ : factorQ.Prime :=
  proth_prime 51 82 3 17 11 (by norm_num) (by norm_num) (fun x hx hd => by
    rw [show 51 = 3 * 17 by norm_num] at hd
    rcases (Nat.Prime.dvd_mul hx).1 hd with h | h
    · exact .inl ((Nat.prime_dvd_prime_iff_eq hx Nat.prime_three).1 h)
    · exact .inr ((Nat.prime_dvd_prime_iff_eq hx (by norm_num)).1 h)) (by norm_num) (by norm_num) (by decide +kernel) (by decide +kernel) (by decide +kernel) (by decide +kernel)

private def smallSetup : RPParams 77 := ⟨4, 16⟩

private def smallUnitS : (ZMod 77)ˣ := ⟨16, 53, by decide, by decide⟩
private def smallUnitT : (ZMod 77)ˣ := ⟨4, 58, by decide, by decide⟩

private theorem smallSetting : FacSetting smallParams factorP factorQ smallSetup :=
  ⟨by decide, by decide, by decide, by decide, by decide, by decide, by decide, ⟨smallUnitS.isUnit, smallUnitT.isUnit⟩⟩

private def smallMasks : FacMasks := ⟨⟨155, 12345⟩, ⟨155, -5⟩, ⟨29, 5⟩, ⟨29, 77⟩, ⟨67 + 184, -1000⟩, ⟨74, 1000⟩, ⟨74, -9⟩⟩

private theorem smallMasksValid : FacMasksValid smallParams (factorP * factorQ) 77 smallMasks :=
  ⟨⟨by decide, by unfold InPmScaled; decide⟩, ⟨by decide, by unfold InPmScaled; decide⟩, ⟨by decide, by unfold InPmScaled; decide⟩, ⟨by decide, by unfold InPmScaled; decide⟩,
    ⟨by decide, by unfold InPmScaled; decide⟩, ⟨by decide, by unfold InPmScaled; decide⟩, ⟨by decide, by unfold InPmScaled; decide⟩⟩

/-- The hypotheses of the theorem are met by two honest answers to the challenges `1234` and `-99`; both factors are large. -/
example : 2 ^ 21 < factorP ∧ 2 ^ 21 < factorQ := by
  let H : FacHash Nat → SInt := fun _ => ⟨22, 1234⟩
  let H' : FacHash Nat → SInt := fun _ => ⟨22, -99⟩
  have hH : ∀ x, (H x).IsDraw smallParams.L := fun _ => ⟨rfl, by decide⟩
  have hH' : ∀ x, (H' x).IsDraw smallParams.L := fun _ => ⟨rfl, by decide⟩
  obtain ⟨prf, p1, p2, p3, p4, p5, p6⟩ := C31_honest (ε := Empty) H hH factorP factorQ smallSetup smallSetting 8 smallMasks smallMasksValid
  obtain ⟨prf', p1', p2', p3', p4', p5', p6'⟩ := C31_honest (ε := Empty) H' hH' factorP factorQ smallSetup smallSetting 8 smallMasks smallMasksValid
  have e1 : prf.e = ⟨22, 1234⟩ := p2
  have e2 : prf'.e = ⟨22, -99⟩ := p2'
  rw [e1] at p3 p4 p6
  rw [e2] at p3' p4' p6'
  obtain ⟨c1, c2, c3, c4⟩ := same_commitments p1 p1'
  have key := C74_no_small_factor (ε := Empty) (P := smallParams) (by decide) (by decide) H H' (fun _ => by decide) (fun _ => by decide) factorP factorQ
    prime_factorP prime_factorQ (by decide) (by decide) (by decide) smallSetup smallUnitS smallUnitT rfl rfl 8 8 prf prf'
    (by
      simp only [List.forall_mem_cons, List.not_mem_nil, false_imp_iff, implies_true, and_true] at p5 p5' ⊢
      exact ⟨p5.1, p5.2.1, p5.2.2.1, p5.2.2.2.1, p5.2.2.2.2, p5'⟩)
    c1 c2 c3 c4 (by rw [e1, e2]; decide) (p6.trans (by decide)) (p6'.trans (by decide))
  refine key.resolve_left ?_
  rintro ⟨a, b, ha, ha0, -⟩
  refine ha0 ?_
  rw [ha, p3, p3', p4, p4', e1, e2]
  decide

/-- The hypotheses of `C74_relation_reveals` are met with `N = 47 · 59`, `t = 4` and `λ = 5`; the relation `s t^662 = 1` gives the order `667` of the squares. -/
example : (667 : Int) ∣ 1 * 5 + 662 :=
  have h : (t : (ZMod (47 * 59))ˣ) → (t : ZMod (47 * 59)) = 4 → (t ^ 5) ^ (1 : Int) * t ^ (662 : Int) = 1 := by
    intro t ht
    rw [zpow_one, show (662 : Int) = ((662 : Nat) : Int) from rfl, zpow_natCast, ← pow_add]
    ext
    rw [Units.val_pow_eq_pow_val, ht]
    decide +kernel
  C74_relation_reveals (bits := 6) (p := 47) (q := 59) (by decide) ⟨by norm_num, by norm_num, by decide, by decide⟩ ⟨by norm_num, by norm_num, by decide, by decide⟩ (by decide)
    2 5 ⟨by decide, by decide⟩ (by decide) (by decide) _ ⟨4, 2080, by decide, by decide⟩ rfl rfl 1 662 (h _ rfl)

end Examples

end Synedrion.Props
