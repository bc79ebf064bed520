import Verif.Lemmas.ZeroKnowledge
import Verif.Spec.ZeroKnowledgeMod
import Verif.Props.ZkModulus

/-!
# Property C60: the proof about Paillier-Blum moduli (mod) reveals nothing beyond its statement
-/

set_option linter.unusedSectionVars false

namespace Synedrion.Props
open Spec

variable {ε : Type} {Aux : Type} {p q : Nat}

/-! ### Squares modulo a Blum number -/

private abbrev cp (p q : Nat) : ZMod (p * q) →+* ZMod p := ZMod.castHom (Dvd.intro q rfl) (ZMod p)
private abbrev cq (p q : Nat) : ZMod (p * q) →+* ZMod q := ZMod.castHom (Dvd.intro_left p rfl) (ZMod q)

private theorem cast_ne_zero (h : PaillierPrimes p q) (u : (ZMod (p * q))ˣ) : cp p q u ≠ 0 ∧ cq p q u ≠ 0 := by
  have : Fact p.Prime := ⟨h.prime_p⟩
  have : Fact q.Prime := ⟨h.prime_q⟩
  exact ⟨(u.isUnit.map (cp p q)).ne_zero, (u.isUnit.map (cq p q)).ne_zero⟩

/-- A unit that is a square modulo both primes is the square of a unit. -/
private theorem square_of_parts (h : PaillierPrimes p q) (sk : SecretKey p q) (hsk : (SecretKey.new p q : Out ε _) = .ok sk) (u : (ZMod (p * q))ˣ)
    (h1 : IsSquare (cp p q u)) (h2 : IsSquare (cq p q u)) : ∃ s : (ZMod (p * q))ˣ, u = s * s := by
  obtain ⟨a, ha⟩ := h1
  obtain ⟨b, hb⟩ := h2
  have hne : NeZero (p * q) := ⟨h.pos.ne'⟩
  obtain ⟨_, hjoin⟩ := (C22_split_join h sk hsk).2 (a, b)
  unfold rnsSplit at hjoin
  simp only [ZMod.natCast_mod] at hjoin
  have j1 := congrArg Prod.fst hjoin
  have j2 := congrArg Prod.snd hjoin
  simp only at j1 j2
  have e : (u : ZMod (p * q)) = (rnsJoin sk (a, b) : ZMod (p * q)) * (rnsJoin sk (a, b) : ZMod (p * q)) := by
    apply ext_of_cast h
    · rw [map_mul, map_natCast, j1, ← ha]
    · rw [map_mul, map_natCast, j2, ← hb]
  have hu : IsUnit ((rnsJoin sk (a, b) : Nat) : ZMod (p * q)) := by
    have := u.isUnit
    rw [e] at this
    exact isUnit_of_mul_isUnit_left this
  obtain ⟨s, hs⟩ := hu
  refine ⟨s, Units.ext ?_⟩
  rw [Units.val_mul, hs, e]

private theorem not_square_neg (h : PaillierPrimes p q) (h3p : p % 4 = 3) (s t : (ZMod (p * q))ˣ) : s * s ≠ -(t * t) := by
  intro e
  have : Fact p.Prime := ⟨h.prime_p⟩
  have e' := congrArg (fun u : (ZMod (p * q))ˣ => cp p q u) e
  simp only [Units.val_neg, Units.val_mul, map_neg, map_mul] at e'
  have ht := (cast_ne_zero h t).1
  exact (isSquare_neg_iff h3p (cp p q t * cp p q t) (mul_ne_zero ht ht)).1 ⟨_, e'.symm⟩ ⟨_, rfl⟩

/-- Squaring is injective on the squares of units. -/
private theorem square_inj (h : PaillierPrimes p q) (h3p : p % 4 = 3) (h3q : q % 4 = 3) (s t : (ZMod (p * q))ˣ)
    (e : (s * s) * (s * s) = (t * t) * (t * t)) : s * s = t * t := by
  have : Fact p.Prime := ⟨h.prime_p⟩
  have : Fact q.Prime := ⟨h.prime_q⟩
  have key : ∀ {r : Nat} [Fact r.Prime] (_ : r % 4 = 3) (a b : ZMod r), b ≠ 0 → (a * a) * (a * a) = (b * b) * (b * b) → a * a = b * b := by
    intro r _ hr a b hb he
    rcases mul_self_eq_mul_self_iff.1 he with h1 | h1
    · exact h1
    · exact absurd ⟨b, rfl⟩ ((isSquare_neg_iff hr _ (mul_ne_zero hb hb)).1 ⟨a, h1.symm⟩)
  ext
  apply ext_of_cast h
  · have e' := congrArg (fun u : (ZMod (p * q))ˣ => cp p q u) e
    simp only [Units.val_mul, map_mul] at e' ⊢
    exact key h3p _ _ (cast_ne_zero h t).1 e'
  · have e' := congrArg (fun u : (ZMod (p * q))ˣ => cq p q u) e
    simp only [Units.val_mul, map_mul] at e' ⊢
    exact key h3q _ _ (cast_ne_zero h t).2 e'

/-- A residue with Jacobi symbol −1 as a unit. -/
private def Mixed (w : (ZMod (p * q))ˣ) : Prop := IsSquare (cp p q w) ↔ ¬ IsSquare (cq p q w)

private theorem mixed_not_square (w : (ZMod (p * q))ˣ) (hw : Mixed w) (s : (ZMod (p * q))ˣ) : w ≠ s * s := by
  rintro rfl
  unfold Mixed at hw
  simp only [Units.val_mul, map_mul] at hw
  exact hw.1 ⟨_, rfl⟩ ⟨_, rfl⟩

private theorem mixed_neg (h : PaillierPrimes p q) (h3p : p % 4 = 3) (h3q : q % 4 = 3) (w : (ZMod (p * q))ˣ) (hw : Mixed w) : Mixed (-w) := by
  have : Fact p.Prime := ⟨h.prime_p⟩
  have : Fact q.Prime := ⟨h.prime_q⟩
  unfold Mixed at hw ⊢
  obtain ⟨h1, h2⟩ := cast_ne_zero h w
  simp only [Units.val_neg, map_neg]
  rw [isSquare_neg_iff h3p _ h1, isSquare_neg_iff h3q _ h2, hw]

private theorem mixed_iff_jacobi (h : PaillierPrimes p q) (w : Nat) (u : (ZMod (p * q))ˣ) (hu : (u : ZMod (p * q)) = (w : ZMod (p * q))) :
    Mixed u ↔ jacobiSym (w : Int) (p * q) = -1 := by
  have : Fact p.Prime := ⟨h.prime_p⟩
  have : Fact q.Prime := ⟨h.prime_q⟩
  have h1 : cp p q u = ((w : Int) : ZMod p) := by rw [hu, map_natCast, Int.cast_natCast]
  have h2 : cq p q u = ((w : Int) : ZMod q) := by rw [hu, map_natCast, Int.cast_natCast]
  obtain ⟨n1, n2⟩ := cast_ne_zero h u
  unfold Mixed
  rw [h1] at n1 ⊢
  rw [h2] at n2 ⊢
  have hp0 : p ≠ 0 := h.prime_p.ne_zero
  have hq0 : q ≠ 0 := h.prime_q.ne_zero
  have : NeZero p := ⟨hp0⟩
  have : NeZero q := ⟨hq0⟩
  rw [jacobiSym.mul_right, ← jacobiSym.legendreSym.to_jacobiSym, ← jacobiSym.legendreSym.to_jacobiSym, ← legendreSym.eq_one_iff p n1,
    ← legendreSym.eq_one_iff q n2]
  rcases legendreSym.eq_one_or_neg_one p n1 with e | e <;> rcases legendreSym.eq_one_or_neg_one q n2 with e' | e' <;> rw [e, e'] <;> decide

/-! ### The answers of prover and simulator -/

private theorem pow_eight {M : Type} [Monoid M] (s : M) : s * s * (s * s) * (s * s * (s * s)) = s ^ 8 := by
  simp only [pow_succ, pow_zero, one_mul, mul_assoc]

/-- The challenge with the answer `a`, `b` and the fourth root `s²`. -/
private def chal {N : Nat} (w : (ZMod N)ˣ) (a b : Bool) (s : (ZMod N)ˣ) : (ZMod N)ˣ := (if a then -1 else 1) * (if b then w⁻¹ else 1) * s ^ 8

private theorem chal_pow {N : Nat} (hN : Odd N) (w : (ZMod N)ˣ) (a b : Bool) (s : (ZMod N)ˣ) : chal w a b s ^ N = chal (w ^ N) a b (s ^ N) := by
  unfold chal
  rw [mul_pow, mul_pow, ← pow_mul, ← pow_mul, Nat.mul_comm 8]
  cases a <;> cases b <;> simp [hN.neg_one_pow]

private theorem chal_inj (h : PaillierPrimes p q) (h3p : p % 4 = 3) (h3q : q % 4 = 3) (w : (ZMod (p * q))ˣ) (hw : Mixed w) {a b a' b' : Bool} {s s' : (ZMod (p * q))ˣ}
    (e : chal w a b s = chal w a' b' s') : a = a' ∧ b = b' ∧ s * s = s' * s' := by
  have n1 := mixed_not_square w hw
  have n2 := mixed_not_square _ (mixed_neg h h3p h3q w hw)
  have n3 := not_square_neg h h3p
  have key : s ^ 8 = s' ^ 8 → s * s = s' * s' := by
    intro e8
    refine square_inj h h3p h3q _ _ ?_
    have e4 := square_inj h h3p h3q (s * s) (s' * s') (by rw [pow_eight, pow_eight, e8])
    exact e4
  have f1 : ∀ t t' : (ZMod (p * q))ˣ, t ^ 8 = -t' ^ 8 → False := by
    intro t t' ht
    refine n3 (t ^ 4) (t' ^ 4) ?_
    rw [← pow_add, ← pow_add, ht]
  have f2 : ∀ t t' : (ZMod (p * q))ˣ, t ^ 8 = w⁻¹ * t' ^ 8 → False := by
    intro t t' ht
    refine n1 (t' ^ 4 * (t ^ 4)⁻¹) ?_
    rw [mul_mul_mul_comm, ← pow_add, ← mul_inv, ← pow_add, eq_mul_inv_iff_mul_eq]
    change w * t ^ 8 = t' ^ 8
    rw [ht, mul_inv_cancel_left]
  have f3 : ∀ t t' : (ZMod (p * q))ˣ, t ^ 8 = -(w⁻¹ * t' ^ 8) → False := by
    intro t t' ht
    refine n2 (t' ^ 4 * (t ^ 4)⁻¹) ?_
    rw [mul_mul_mul_comm, ← pow_add, ← mul_inv, ← pow_add, eq_mul_inv_iff_mul_eq]
    change -w * t ^ 8 = t' ^ 8
    rw [ht, neg_mul_neg, mul_inv_cancel_left]
  unfold chal at e
  cases a <;> cases b <;> cases a' <;> cases b' <;>
    simp only [Bool.false_eq_true, if_true, if_false, one_mul, mul_one, neg_mul, neg_inj, mul_right_inj, true_and, reduceCtorEq, false_and] at e ⊢
  · exact key e
  · exact f2 _ _ e
  · exact f1 _ _ e
  · exact f3 _ _ e
  · exact f2 _ _ e.symm
  · exact key e
  · exact f3 s' s (neg_eq_iff_eq_neg.1 e.symm)
  · exact f1 s s' (by rw [← mul_right_inj w⁻¹, e, mul_neg])
  · exact f1 _ _ e.symm
  · exact f3 s s' (neg_eq_iff_eq_neg.1 e)
  · exact key e
  · exact f2 _ _ e
  · exact f3 _ _ e.symm
  · exact f1 s' s (by rw [← mul_right_inj w⁻¹, ← e, mul_neg])
  · exact f2 _ _ e.symm
  · exact key e

/-- What the prover answers. -/
private theorem answer (h : PaillierPrimes p q) (h3p : p % 4 = 3) (h3q : q % 4 = 3) {P : Params} (hp : p < 2 ^ P.primeBits)
    (hq : q < 2 ^ P.primeBits) (hb : p * q < 2 ^ P.modBits) (sk : SecretKey p q) (hsk : (SecretKey.new p q : Out ε _) = .ok sk)
    (w y : (ZMod (p * q))ˣ) (hw : Mixed w) :
    ∃ a b s, y = chal w a b s ∧
      (modAnswer P sk (w : ZMod (p * q)).val (y : ZMod (p * q)).val : Out ε _) =
        .ok ⟨((s * s : (ZMod (p * q))ˣ) : ZMod (p * q)).val, a, b, ((y ^ sk.invModulus : (ZMod (p * q))ˣ) : ZMod (p * q)).val⟩ := by
  have hne : NeZero (p * q) := ⟨h.pos.ne'⟩
  have hk := facts_of_new h hsk
  have cast_p : ∀ u : (ZMod (p * q))ˣ, (((u : ZMod (p * q)).val : Nat) : ZMod p) = cp p q u := by
    intro u
    conv_rhs => rw [← ZMod.natCast_zmod_val (u : ZMod (p * q)), map_natCast]
  have cast_q : ∀ u : (ZMod (p * q))ˣ, (((u : ZMod (p * q)).val : Nat) : ZMod q) = cq p q u := by
    intro u
    conv_rhs => rw [← ZMod.natCast_zmod_val (u : ZMod (p * q)), map_natCast]
  obtain ⟨elem, h1, h2, h3, h4, h5, h6⟩ := C33_every_challenge_answerable (ε := ε) h h3p h3q hp hq hb sk hsk (w : ZMod (p * q)).val (ZMod.val_coe_unit_coprime w)
    (by rw [cast_p, cast_q]; exact hw) (y : ZMod (p * q)).val (ZMod.val_coe_unit_coprime y)
  unfold modCheck at h2
  simp only [ZMod.natCast_zmod_val] at h2
  split at h2
  · cases h2
  split at h2
  · cases h2
  rename_i _ hz
  rw [not_not, powBounded_eq _ hb] at hz
  rw [decide_eq_true_eq] at h2
  have hxu : IsUnit (elem.x : ZMod (p * q)) := by
    have : IsUnit ((elem.x : ZMod (p * q)) * elem.x * (elem.x * elem.x)) := by
      rw [← h2]
      cases elem.a <;> cases elem.b <;> simp
    exact isUnit_of_mul_isUnit_left (isUnit_of_mul_isUnit_left this)
  obtain ⟨x, hx⟩ := hxu
  obtain ⟨s, hs⟩ := square_of_parts h sk hsk x (by rw [hx, map_natCast]; exact h5) (by rw [hx, map_natCast]; exact h6)
  refine ⟨elem.a, elem.b, s, ?_, ?_⟩
  · have e8 : (s ^ 8 : (ZMod (p * q))ˣ) = (if elem.b then (if elem.a then -y else y) * w else if elem.a then -y else y) := by
      rw [← pow_eight, ← hs]
      ext
      rw [Units.val_mul, Units.val_mul, hx, ← h2]
      cases elem.a <;> cases elem.b <;> simp
    unfold chal
    rw [e8]
    cases elem.a <;> cases elem.b <;> simp [mul_comm w⁻¹]
  · rw [h1]
    refine congrArg Out.ok ?_
    have ex : elem.x = ((s * s : (ZMod (p * q))ˣ) : ZMod (p * q)).val := by
      rw [← hs, hx, ZMod.val_natCast, Nat.mod_eq_of_lt h3]
    have hzu : IsUnit (elem.z : ZMod (p * q)) := by
      have : IsUnit ((elem.z : ZMod (p * q)) ^ (p * q)) := by rw [hz]; exact y.isUnit
      exact (isUnit_pow_iff h.pos.ne').1 this
    obtain ⟨z, hz'⟩ := hzu
    have ez : elem.z = ((y ^ sk.invModulus : (ZMod (p * q))ˣ) : ZMod (p * q)).val := by
      have : y = z ^ (p * q) := by ext; rw [Units.val_pow_eq_pow_val, hz', hz]
      rw [this, ← pow_mul, unit_pow_inv hk, hz', ZMod.val_natCast, Nat.mod_eq_of_lt h4]
    rw [← ex, ← ez]

/-! ### Counting -/

private theorem unit_of_residue {N r : Nat} (hr : r ∈ residues N) : ∃ u : (ZMod N)ˣ, (u : ZMod N) = (r : ZMod N) ∧ r = (u : ZMod N).val := by
  obtain ⟨h1, h2⟩ := mem_residues.1 hr
  refine ⟨ZMod.unitOfCoprime r h2, rfl, ?_⟩
  rw [ZMod.coe_unitOfCoprime, ZMod.val_natCast, Nat.mod_eq_of_lt h1]

private theorem residue_of_unit {N : Nat} (hN : 0 < N) (u : (ZMod N)ˣ) : (u : ZMod N).val ∈ residues N := by
  have : NeZero N := ⟨hN.ne'⟩
  exact mem_residues.2 ⟨ZMod.val_lt _, ZMod.val_coe_unit_coprime u⟩

/-- The number of square roots of one. -/
private def roots (N : Nat) : Nat := ((residues N).filter fun r : Nat => (r : ZMod N) * r = 1).card

private theorem roots_pos {N : Nat} (hN : 0 < N) : 0 < roots N := by
  have : NeZero N := ⟨hN.ne'⟩
  refine Finset.card_pos.2 ⟨((1 : (ZMod N)ˣ) : ZMod N).val, ?_⟩
  rw [Finset.mem_filter]
  exact ⟨residue_of_unit hN 1, by simp⟩

/-- Every square of a unit has as many roots as one has. -/
private theorem card_roots {N : Nat} (hN : 0 < N) (s : (ZMod N)ˣ) :
    ((residues N).filter fun r : Nat => (r : ZMod N) * r = ((s * s : (ZMod N)ˣ) : ZMod N)).card = roots N := by
  have : NeZero N := ⟨hN.ne'⟩
  symm
  refine Finset.card_bij (fun r _ => ((r : ZMod N) * s).val) ?_ ?_ ?_
  · intro r hr
    rw [Finset.mem_filter] at hr ⊢
    obtain ⟨u, hu, _⟩ := unit_of_residue hr.1
    rw [← hu] at hr ⊢
    refine ⟨by rw [← Units.val_mul]; exact residue_of_unit hN _, ?_⟩
    rw [ZMod.natCast_zmod_val, mul_mul_mul_comm, hr.2, one_mul, Units.val_mul]
  · intro r hr r' hr' e
    rw [Finset.mem_filter] at hr hr'
    obtain ⟨u, hu, hu'⟩ := unit_of_residue hr.1
    obtain ⟨v, hv, hv'⟩ := unit_of_residue hr'.1
    have := ZMod.val_injective N e
    rw [← hu, ← hv, Units.mul_left_inj] at this
    rw [hu', hv', this]
  · intro r hr
    rw [Finset.mem_filter] at hr
    obtain ⟨u, hu, hu'⟩ := unit_of_residue hr.1
    rw [← hu, ← Units.val_mul] at hr
    have hr2 := Units.ext hr.2
    refine ⟨((u * s⁻¹ : (ZMod N)ˣ) : ZMod N).val, ?_, ?_⟩
    · rw [Finset.mem_filter]
      refine ⟨residue_of_unit hN _, ?_⟩
      rw [ZMod.natCast_zmod_val, ← Units.val_mul, mul_mul_mul_comm, hr2, ← mul_inv, mul_inv_cancel, Units.val_one]
    · rw [ZMod.natCast_zmod_val, ← Units.val_mul, inv_mul_cancel_right, hu']

/-! ### The prover's residue -/

private theorem constant_unit (h : PaillierPrimes p q) (sk : SecretKey p q) (hsk : (SecretKey.new p q : Out ε _) = .ok sk) :
    ∃ c : (ZMod (p * q))ˣ, (c : ZMod (p * q)) = sk.nonsquareConstant ∧ cp p q c = -1 ∧ cq p q c = 1 := by
  have hk := facts_of_new h hsk
  have hcc : sk.nonsquareConstant * sk.nonsquareConstant = 1 := by
    apply ext_of_cast h
    · rw [map_mul, map_one, hk.constant_p]; ring
    · rw [map_mul, map_one, hk.constant_q]; ring
  exact ⟨⟨_, _, hcc, hcc⟩, rfl, hk.constant_p, hk.constant_q⟩

private theorem nonsquare_fiber (h : PaillierPrimes p q) (h3p : p % 4 = 3) (h3q : q % 4 = 3) (sk : SecretKey p q)
    (hsk : (SecretKey.new p q : Out ε _) = .ok sk) (w : Nat) (hw : w ∈ jacobiMinus (p * q)) :
    ((residues (p * q) ×ˢ (Finset.univ : Finset Bool)).filter fun c => nonsquareResidue sk c.1 c.2 = w).card = roots (p * q) := by
  have : Fact p.Prime := ⟨h.prime_p⟩
  have : Fact q.Prime := ⟨h.prime_q⟩
  have hne : NeZero (p * q) := ⟨h.pos.ne'⟩
  obtain ⟨c, hc, c1, c2⟩ := constant_unit h sk hsk
  rw [jacobiMinus, Finset.mem_filter] at hw
  obtain ⟨u, hu, hwu⟩ := unit_of_residue hw.1
  have hm : Mixed u := (mixed_iff_jacobi h w u hu).2 hw.2
  obtain ⟨n1, n2⟩ := cast_ne_zero h u
  have hval : ∀ (r : (ZMod (p * q))ˣ) (b : Bool), nonsquareResidue sk (r : ZMod (p * q)).val b = w ↔ (if b then -(r * r * c) else r * r * c) = u := by
    intro r b
    have e : nonsquareResidue sk (r : ZMod (p * q)).val b = (((if b then -(r * r * c) else r * r * c : (ZMod (p * q))ˣ)) : ZMod (p * q)).val := by
      unfold nonsquareResidue quadraticResidue
      simp only [ZMod.natCast_zmod_val, ← hc]
      cases b <;> simp
    rw [e, hwu]
    exact ⟨fun hh => Units.ext (ZMod.val_injective _ hh), fun hh => by rw [hh]⟩
  -- one choice
  obtain ⟨r0, b0, h0⟩ : ∃ (r : (ZMod (p * q))ˣ) (b : Bool), (if b then -(r * r * c) else r * r * c) = u := by
    by_cases hp : IsSquare (cp p q u)
    · have hq : ¬ IsSquare (cq p q u) := hm.1 hp
      obtain ⟨r, hr⟩ := square_of_parts h sk hsk (-(u * c⁻¹)) (by
        rw [Units.val_neg, Units.val_mul, map_neg, map_mul]
        have : cp p q (c⁻¹ : (ZMod (p * q))ˣ) = -1 := by
          have e := congrArg (cp p q) (Units.mul_inv c)
          rw [map_mul, map_one, c1] at e
          linear_combination -e
        rw [this, mul_neg_one, neg_neg]; exact hp) (by
        rw [Units.val_neg, Units.val_mul, map_neg, map_mul]
        have : cq p q (c⁻¹ : (ZMod (p * q))ˣ) = 1 := by
          have e := congrArg (cq p q) (Units.mul_inv c)
          rwa [map_mul, map_one, c2, one_mul] at e
        rw [this, mul_one]; exact (isSquare_neg_iff h3q _ n2).2 hq)
      exact ⟨r, true, by rw [← hr]; simp⟩
    · have hq : IsSquare (cq p q u) := by by_contra hq; exact hp (hm.2 hq)
      obtain ⟨r, hr⟩ := square_of_parts h sk hsk (u * c⁻¹) (by
        rw [Units.val_mul, map_mul]
        have : cp p q (c⁻¹ : (ZMod (p * q))ˣ) = -1 := by
          have e := congrArg (cp p q) (Units.mul_inv c)
          rw [map_mul, map_one, c1] at e
          linear_combination -e
        rw [this, mul_neg_one]; exact (isSquare_neg_iff h3p _ n1).2 hp) (by
        rw [Units.val_mul, map_mul]
        have : cq p q (c⁻¹ : (ZMod (p * q))ˣ) = 1 := by
          have e := congrArg (cq p q) (Units.mul_inv c)
          rwa [map_mul, map_one, c2, one_mul] at e
        rw [this, mul_one]; exact hq)
      exact ⟨r, false, by rw [← hr]; simp⟩
  have hset : ((residues (p * q) ×ˢ (Finset.univ : Finset Bool)).filter fun c => nonsquareResidue sk c.1 c.2 = w) =
      ((residues (p * q)).filter fun r : Nat => (r : ZMod (p * q)) * r = ((r0 * r0 : (ZMod (p * q))ˣ) : ZMod (p * q))) ×ˢ {b0} := by
    ext ⟨r, b⟩
    simp only [Finset.mem_filter, Finset.mem_product, Finset.mem_univ, and_true, Finset.mem_singleton]
    constructor
    · rintro ⟨hr, e⟩
      obtain ⟨v, hv, hrv⟩ := unit_of_residue hr
      rw [hrv, hval v b, ← h0] at e
      have : b = b0 ∧ v * v = r0 * r0 := by
        cases b <;> cases b0 <;> simp only [Bool.false_eq_true, if_true, if_false, neg_inj, mul_left_inj, true_and, reduceCtorEq, false_and] at e ⊢
        · exact e
        · rw [← neg_mul, mul_left_inj] at e
          exact not_square_neg h h3p _ _ e
        · rw [← neg_mul, mul_left_inj] at e
          exact not_square_neg h h3p _ _ e.symm
        · exact e
      refine ⟨⟨hr, ?_⟩, this.1⟩
      rw [← hv, ← this.2, Units.val_mul]
    · rintro ⟨⟨hr, e⟩, rfl⟩
      obtain ⟨v, hv, hrv⟩ := unit_of_residue hr
      refine ⟨hr, ?_⟩
      rw [hrv, hval v b, ← h0]
      rw [← hv, ← Units.val_mul] at e
      rw [Units.ext e]
  rw [hset, Finset.card_product, Finset.card_singleton, mul_one, card_roots h.pos]

private theorem draw_of_residue {r : Nat} (hr : r ∈ residues (p * q)) : IsInvertibleDraw (p * q) r := by
  obtain ⟨h1, h2⟩ := mem_residues.1 hr
  exact ⟨h1, by unfold isInvertible; simpa using h2⟩

private theorem nonsquare_mem (h : PaillierPrimes p q) (h3p : p % 4 = 3) (h3q : q % 4 = 3) (sk : SecretKey p q)
    (hsk : (SecretKey.new p q : Out ε _) = .ok sk) {r : Nat} (hr : r ∈ residues (p * q)) (b : Bool) : nonsquareResidue sk r b ∈ jacobiMinus (p * q) := by
  obtain ⟨h1, h2, _, h4⟩ := C23_nonsquare_jacobi h h3p h3q sk hsk r (draw_of_residue hr) b
  rw [jacobiMinus, Finset.mem_filter, mem_residues]
  refine ⟨⟨h1, h2⟩, ?_⟩
  rw [← h4]

/-- **C23 (uniform).** For a uniform invertible residue and a uniform bit, the sampled non-square is uniform among the residues with Jacobi symbol −1. -/
theorem C23_nonsquare_uniform (h : PaillierPrimes p q) (h3p : p % 4 = 3) (h3q : q % 4 = 3) (sk : SecretKey p q)
    (hsk : (SecretKey.new p q : Out ε _) = .ok sk) :
    StatClose 0 (residues (p * q) ×ˢ (Finset.univ : Finset Bool)) (fun c => nonsquareResidue sk c.1 c.2) (jacobiMinus (p * q)) (fun w => w) := by
  refine statClose_fibers (T' := jacobiMinus (p * q)) (fun w => w) (fun c => nonsquareResidue sk c.1 c.2) (fun w => w) (roots (p * q)) 1 (roots_pos h.pos)
    one_pos ?_ (fun _ hw => hw) (fun w hw => nonsquare_fiber h h3p h3q sk hsk w hw) ?_ (fun _ _ => rfl) (fun _ _ => rfl)
  · rintro ⟨r, b⟩ hr
    exact nonsquare_mem h h3p h3q sk hsk (Finset.mem_product.1 hr).1 b
  · intro w hw
    rw [Finset.filter_eq' , if_pos hw, Finset.card_singleton]

/-! ### The simulator -/

private theorem odd_modulus (h3p : p % 4 = 3) (h3q : q % 4 = 3) : Odd (p * q) := by
  rw [Nat.odd_mul, Nat.odd_iff, Nat.odd_iff]; omega

private theorem root_unit {N : Nat} {v r : Nat} (a b : Bool) (u s : (ZMod N)ˣ) (hu : (u : ZMod N) = (v : ZMod N))
    (hs : (s : ZMod N) = (r : ZMod N)) : modSimRoot N v (a, b, r) = ((chal u a b s : (ZMod N)ˣ) : ZMod N) := by
  unfold modSimRoot chal
  simp only
  rw [← hs, ← hu, ZMod.inv_coe_unit]
  cases a <;> cases b <;> simp

private theorem mixed_pow (h : PaillierPrimes p q) (h3p : p % 4 = 3) (h3q : q % 4 = 3) (u : (ZMod (p * q))ˣ) : Mixed (u ^ (p * q)) ↔ Mixed u := by
  have hne : NeZero (p * q) := ⟨h.pos.ne'⟩
  have e : ((u ^ (p * q) : (ZMod (p * q))ˣ) : ZMod (p * q)) = (((u : ZMod (p * q)).val ^ (p * q) : Nat) : ZMod (p * q)) := by
    rw [Nat.cast_pow, ZMod.natCast_zmod_val, Units.val_pow_eq_pow_val]
  rw [mixed_iff_jacobi h _ _ e, mixed_iff_jacobi h _ u (ZMod.natCast_zmod_val _).symm, Nat.cast_pow, jacobiSym.pow_left]
  rcases jacobiSym.trichotomy ((u : ZMod (p * q)).val : Int) (p * q) with h0 | h0 | h0 <;> rw [h0]
  · rw [zero_pow h.pos.ne']
  · rw [one_pow]
  · rw [(odd_modulus h3p h3q).neg_one_pow]

private theorem pow_inj (h : PaillierPrimes p q) (sk : SecretKey p q) (hsk : (SecretKey.new p q : Out ε _) = .ok sk) {u v : (ZMod (p * q))ˣ}
    (e : u ^ (p * q) = v ^ (p * q)) : u = v := by
  have hk := facts_of_new h hsk
  rw [← unit_pow_inv hk u, ← unit_pow_inv hk v, pow_mul u (p * q), pow_mul v (p * q), e]

private theorem pow_surj (h : PaillierPrimes p q) (sk : SecretKey p q) (hsk : (SecretKey.new p q : Out ε _) = .ok sk) (u : (ZMod (p * q))ˣ) :
    ∃ v : (ZMod (p * q))ˣ, v ^ (p * q) = u := by
  have hk := facts_of_new h hsk
  exact ⟨u ^ sk.invModulus, by rw [← pow_mul, Nat.mul_comm sk.invModulus, unit_pow_inv hk]⟩

private theorem jacobi_unit (h : PaillierPrimes p q) {w : Nat} (hw : w ∈ jacobiMinus (p * q)) :
    ∃ u : (ZMod (p * q))ˣ, (u : ZMod (p * q)) = (w : ZMod (p * q)) ∧ w = (u : ZMod (p * q)).val ∧ Mixed u := by
  rw [jacobiMinus, Finset.mem_filter] at hw
  obtain ⟨u, hu, hwu⟩ := unit_of_residue hw.1
  exact ⟨u, hu, hwu, (mixed_iff_jacobi h w u hu).2 hw.2⟩

private theorem jacobi_of_unit (h : PaillierPrimes p q) (u : (ZMod (p * q))ˣ) (hu : Mixed u) : (u : ZMod (p * q)).val ∈ jacobiMinus (p * q) := by
  have hne : NeZero (p * q) := ⟨h.pos.ne'⟩
  rw [jacobiMinus, Finset.mem_filter]
  exact ⟨residue_of_unit h.pos u, (mixed_iff_jacobi h _ u (ZMod.natCast_zmod_val _).symm).1 hu⟩

/-- The choices of one answer that lead to a given challenge. -/
private theorem answer_fiber (h : PaillierPrimes p q) (h3p : p % 4 = 3) (h3q : q % 4 = 3) {P : Params} (hp : p < 2 ^ P.primeBits)
    (hq : q < 2 ^ P.primeBits) (hb : p * q < 2 ^ P.modBits) (sk : SecretKey p q) (hsk : (SecretKey.new p q : Out ε _) = .ok sk)
    (v y : (ZMod (p * q))ˣ) (hv : Mixed v) :
    ((Finset.univ ×ˢ Finset.univ ×ˢ residues (p * q)).filter fun c : Bool × Bool × Nat =>
      (modSimRoot (p * q) (v : ZMod (p * q)).val c ^ (p * q)).val = (y : ZMod (p * q)).val).card = roots (p * q) := by
  have hne : NeZero (p * q) := ⟨h.pos.ne'⟩
  have hodd := odd_modulus h3p h3q
  have hvm : Mixed (v ^ (p * q)) := (mixed_pow h h3p h3q v).2 hv
  obtain ⟨a, b, s, hs, _⟩ := answer (ε := ε) h h3p h3q hp hq hb sk hsk (v ^ (p * q)) y hvm
  obtain ⟨t, rfl⟩ := pow_surj h sk hsk s
  rw [← chal_pow hodd] at hs
  have hset : ((Finset.univ ×ˢ Finset.univ ×ˢ residues (p * q)).filter fun c : Bool × Bool × Nat =>
      (modSimRoot (p * q) (v : ZMod (p * q)).val c ^ (p * q)).val = (y : ZMod (p * q)).val) =
      {a} ×ˢ {b} ×ˢ ((residues (p * q)).filter fun r : Nat => (r : ZMod (p * q)) * r = ((t * t : (ZMod (p * q))ˣ) : ZMod (p * q))) := by
    ext ⟨a', b', r⟩
    simp only [Finset.mem_filter, Finset.mem_product, Finset.mem_univ, true_and, Finset.mem_singleton]
    constructor
    · rintro ⟨hr, e⟩
      obtain ⟨u, hu, hru⟩ := unit_of_residue hr
      rw [root_unit a' b' v u (ZMod.natCast_zmod_val _).symm hu, ← Units.val_pow_eq_pow_val] at e
      have e' := Units.ext (ZMod.val_injective _ e)
      rw [hs] at e'
      obtain ⟨e1, e2, e3⟩ := chal_inj h h3p h3q v hv (pow_inj h sk hsk e')
      exact ⟨e1, e2, hr, by rw [← e3, ← hu, Units.val_mul]⟩
    · rintro ⟨rfl, rfl, hr, e⟩
      obtain ⟨u, hu, hru⟩ := unit_of_residue hr
      refine ⟨hr, ?_⟩
      rw [root_unit a' b' v u (ZMod.natCast_zmod_val _).symm hu, ← Units.val_pow_eq_pow_val, hs]
      rw [← hu, ← Units.val_mul] at e
      have e' : u * u = t * t := Units.ext e
      have e8 : u ^ 8 = t ^ 8 := by rw [← pow_eight, ← pow_eight, e']
      unfold chal
      rw [e8]
  rw [hset, Finset.card_product, Finset.card_product, Finset.card_singleton, Finset.card_singleton, one_mul, one_mul, card_roots h.pos]

/-- **C60 (mod).** For uniform challenges, the challenges and the proof that a modulus is a Paillier-Blum modulus are distributed exactly as the output of the
simulator, which is given the modulus but not its factors. -/
theorem C60_mod (h : PaillierPrimes p q) (h3p : p % 4 = 3) (h3q : q % 4 = 3) {P : Params} (hp : p < 2 ^ P.primeBits)
    (hq : q < 2 ^ P.primeBits) (hb : p * q < 2 ^ P.modBits) (sk : SecretKey p q) (hsk : (SecretKey.new p q : Out ε _) = .ok sk) (aux : Aux) (k : Nat) :
    StatClose 0 ((residues (p * q) ×ˢ (Finset.univ : Finset Bool)) ×ˢ repeated k (residues (p * q)))
      (fun c => (ModProof.prove P (fun _ => List.ofFn c.2) sk aux (nonsquareResidue sk c.1.1 c.1.2) : Out ε _))
      (modSimChoices (p * q) k) (fun c => .ok (modSim (p * q) c)) := by
  have hne : NeZero (p * q) := ⟨h.pos.ne'⟩
  have hodd := odd_modulus h3p h3q
  have hk := facts_of_new h hsk
  refine statClose_fibers (T' := jacobiMinus (p * q) ×ˢ repeated k (residues (p * q)))
    (fun c : Nat × (Fin k → Nat) => (ModProof.prove P (fun _ => List.ofFn c.2) sk aux c.1 : Out ε _))
    (fun c : (Nat × Bool) × (Fin k → Nat) => (nonsquareResidue sk c.1.1 c.1.2, c.2))
    (fun c : Nat × (Fin k → Bool × Bool × Nat) => (((c.1 : ZMod (p * q)) ^ (p * q)).val, fun i => (modSimRoot (p * q) c.1 (c.2 i) ^ (p * q)).val))
    (roots (p * q)) (roots (p * q) ^ k) (roots_pos h.pos) (pow_pos (roots_pos h.pos) _) ?_ ?_ ?_ ?_ (fun _ _ => rfl) ?_
  · rintro ⟨⟨r, b⟩, y⟩ hc
    simp only [Finset.mem_product, Finset.mem_univ, and_true] at hc ⊢
    exact ⟨nonsquare_mem h h3p h3q sk hsk hc.1 b, hc.2⟩
  · rintro ⟨v, c⟩ hc
    simp only [modSimChoices, repeated, Finset.mem_product, Fintype.mem_piFinset, Finset.mem_univ, true_and] at hc ⊢
    obtain ⟨u, hu, hvu, hm⟩ := jacobi_unit h hc.1
    refine ⟨?_, fun i => ?_⟩
    · rw [← hu, ← Units.val_pow_eq_pow_val]
      exact jacobi_of_unit h _ ((mixed_pow h h3p h3q u).2 hm)
    · obtain ⟨s, hs, _⟩ := unit_of_residue (hc.2 i)
      rw [show c i = ((c i).1, (c i).2.1, (c i).2.2) from rfl, root_unit _ _ u s hu hs,
        ← Units.val_pow_eq_pow_val]
      exact residue_of_unit h.pos _
  · rintro ⟨w, y⟩ hc
    simp only [repeated, Finset.mem_product, Fintype.mem_piFinset] at hc
    rw [← nonsquare_fiber h h3p h3q sk hsk w hc.1]
    have : (((residues (p * q) ×ˢ (Finset.univ : Finset Bool)) ×ˢ repeated k (residues (p * q))).filter fun c : (Nat × Bool) × (Fin k → Nat) =>
        (nonsquareResidue sk c.1.1 c.1.2, c.2) = (w, y)) =
        ((residues (p * q) ×ˢ (Finset.univ : Finset Bool)).filter fun c => nonsquareResidue sk c.1 c.2 = w) ×ˢ {y} := by
      ext ⟨⟨r, b⟩, y'⟩
      simp only [repeated, Finset.mem_filter, Finset.mem_product, Fintype.mem_piFinset, Finset.mem_singleton, Prod.mk.injEq]
      constructor
      · rintro ⟨⟨h1, _⟩, h2, h3⟩; exact ⟨⟨h1, h2⟩, h3⟩
      · rintro ⟨⟨h1, h2⟩, rfl⟩; exact ⟨⟨h1, hc.2⟩, h2, rfl⟩
    rw [this, Finset.card_product, Finset.card_singleton, mul_one]
  · rintro ⟨w, y⟩ hc
    simp only [repeated, Finset.mem_product, Fintype.mem_piFinset] at hc
    obtain ⟨u, hu, hwu, hm⟩ := jacobi_unit h hc.1
    obtain ⟨v, hv⟩ := pow_surj h sk hsk u
    have hvm : Mixed v := (mixed_pow h h3p h3q v).1 (by rw [hv]; exact hm)
    choose yu hyu hyv using fun i => unit_of_residue (hc.2 i)
    have : ((modSimChoices (p * q) k).filter fun c : Nat × (Fin k → Bool × Bool × Nat) =>
        (((c.1 : ZMod (p * q)) ^ (p * q)).val, fun i => (modSimRoot (p * q) c.1 (c.2 i) ^ (p * q)).val) = (w, y)) =
        {(v : ZMod (p * q)).val} ×ˢ Fintype.piFinset fun i => ((Finset.univ ×ˢ Finset.univ ×ˢ residues (p * q)).filter fun c : Bool × Bool × Nat =>
          (modSimRoot (p * q) (v : ZMod (p * q)).val c ^ (p * q)).val = (yu i : ZMod (p * q)).val) := by
      ext ⟨v', c⟩
      simp only [modSimChoices, repeated, Finset.mem_filter, Finset.mem_product, Fintype.mem_piFinset, Finset.mem_singleton, Prod.mk.injEq, Finset.mem_univ, true_and]
      constructor
      · rintro ⟨⟨h1, h2⟩, h3, h4⟩
        obtain ⟨u', hu', hvu', hm'⟩ := jacobi_unit h h1
        have : u' = v := by
          refine pow_inj h sk hsk ?_
          rw [hv]
          ext
          apply ZMod.val_injective
          rw [Units.val_pow_eq_pow_val, hu', h3, hwu]
        have e : v' = (v : ZMod (p * q)).val := by rw [hvu', this]
        refine ⟨e, fun i => ⟨h2 i, ?_⟩⟩
        rw [← hyv, ← e]
        exact congrFun h4 i
      · rintro ⟨rfl, h2⟩
        refine ⟨⟨jacobi_of_unit h v hvm, fun i => (h2 i).1⟩, ?_, ?_⟩
        · rw [ZMod.natCast_zmod_val, ← Units.val_pow_eq_pow_val, hv, hwu]
        · funext i
          rw [(h2 i).2, ← hyv]
    rw [this, Finset.card_product, Finset.card_singleton, one_mul, Fintype.card_piFinset]
    rw [Finset.prod_congr rfl fun i _ => answer_fiber (ε := ε) h h3p h3q hp hq hb sk hsk v (yu i) hvm]
    simp
  · rintro ⟨v, c⟩ hc
    simp only [modSimChoices, repeated, Finset.mem_product, Fintype.mem_piFinset, Finset.mem_univ, true_and] at hc
    obtain ⟨u, hu, hvu, hm⟩ := jacobi_unit h hc.1
    unfold ModProof.prove modSim
    simp only
    rw [Out.mapM'_ofFn (b := fun i => ⟨((((c i).2.2 : ZMod (p * q)) ^ 2) ^ (p * q)).val, (c i).1, (c i).2.1, (modSimRoot (p * q) v (c i)).val⟩), Out.bind_ok]
    intro i
    obtain ⟨s, hs, _⟩ := unit_of_residue (hc.2 i)
    have er : modSimRoot (p * q) v (c i) = ((chal u (c i).1 (c i).2.1 s : (ZMod (p * q))ˣ) : ZMod (p * q)) :=
      root_unit _ _ u s hu hs
    obtain ⟨a, b, t, ht, hans⟩ := answer (ε := ε) h h3p h3q hp hq hb sk hsk (u ^ (p * q)) (chal u (c i).1 (c i).2.1 s ^ (p * q))
      ((mixed_pow h h3p h3q u).2 hm)
    rw [er, ← hu, ← Units.val_pow_eq_pow_val, ← Units.val_pow_eq_pow_val, hans]
    rw [chal_pow hodd] at ht
    obtain ⟨e1, e2, e3⟩ := chal_inj h h3p h3q _ ((mixed_pow h h3p h3q u).2 hm) ht
    rw [← e1, ← e2, ← e3, ← pow_mul, unit_pow_inv hk, ← hs, ← pow_mul, ← Units.val_pow_eq_pow_val]
    refine congrArg Out.ok ?_
    rw [ModElem.mk.injEq]
    refine ⟨congrArg (fun x : (ZMod (p * q))ˣ => (x : ZMod (p * q)).val) ?_, rfl, rfl, rfl⟩
    rw [← pow_add, Nat.two_mul]

/-! ### Concrete cases -/

section Examples

/-- mod with three challenges, `N = 77 = 7 · 11` -/
example : ∃ sk, (SecretKey.new 7 11 : Out Unit _) = .ok sk ∧
    StatClose 0 ((residues (7 * 11) ×ˢ (Finset.univ : Finset Bool)) ×ˢ repeated 3 (residues (7 * 11)))
      (fun c => (ModProof.prove Params.test (fun _ => List.ofFn c.2) sk (8 : Nat) (nonsquareResidue sk c.1.1 c.1.2) : Out Unit _))
      (modSimChoices (7 * 11) 3) (fun c => .ok (modSim (7 * 11) c)) := by
  obtain ⟨sk, h1, _⟩ := SecretKey.new_ok (ε := Unit) toy_primes
  exact ⟨sk, h1, C60_mod toy_primes (by decide) (by decide) (by decide) (by decide) (by decide) sk h1 8 3⟩

/-- The sets are not empty: 60 residues, 30 of them with Jacobi symbol −1. -/
example : (residues (7 * 11)).card = 60 := by decide +kernel

end Examples

end Synedrion.Props
