import Verif.Lemmas.Zk
import Mathlib.Tactic.Module
import Mathlib.Tactic.Abel

/-!
# Property C30: the proof of decryption (dec)
-/

set_option linter.unusedSectionVars false

namespace Synedrion.Props
open Spec

variable {ε : Type} {q : Nat} {G Aux : Type} [AddCommGroup G] [Module (ZMod q) G] [DecidableEq G]

/-- `c` is the least exponent of a power of two that is at least `n`. -/
def IsCeilLog2 (n c : Nat) : Prop := n ≤ 2 ^ c ∧ ∀ c', n ≤ 2 ^ c' → c ≤ c'

/-- **C30 (interval width).** For every number of parties from two on, the widening of the interval for `y` is exactly `⌈log₂ n⌉`. -/
theorem C30_interval_width (n : Nat) (hn : 2 ≤ n) : ∃ c, (ceilLog2Parties n : Out ε _) = .ok c ∧ IsCeilLog2 n c := by
  refine ⟨Nat.log2 (n - 1) + 1, ?_, ?_, ?_⟩
  · unfold ceilLog2Parties; rw [if_neg (by omega)]
  · have := Nat.lt_log2_self (n := n - 1); omega
  · intro c' h
    by_contra hlt
    have h1 := Nat.log2_self_le (n := n - 1) (by omega)
    have h2 : (2 : Nat) ^ c' ≤ 2 ^ Nat.log2 (n - 1) := Nat.pow_le_pow_right (by norm_num) (by omega)
    omega

/-- **C30 (one party).** With a single party both the prover and the verifier panic: the logarithm of zero is taken. -/
theorem C30_single_party_panics : (ceilLog2Parties 1 : Out ε Nat) = .panic := rfl

/-- The relation proved by dec proofs (CGGMP'24, Fig. 28, as deviated from in the code): `K` is invertible, `K^x · D = enc₀(y; rho)`,
`X = x g`, `S = y G`, `x ∈ ±2^L` and `y ∈ ±2^(L' + ε + 1 + ⌈log₂ n⌉)`. -/
structure DecRelation (P : Params) (N0 : Nat) (g : G) (q : Nat) [Module (ZMod q) G] (pub : DecPublic N0 G) (c : Nat) (x y : Int) (rho : Nat) : Prop where
  parties : 2 ≤ pub.numParties
  width : IsCeilLog2 pub.numParties c
  rangeX : InPm P.L x
  rangeY : InPm (P.LP + P.EPS + 1 + c) y
  capD : ∃ k : (ZMod (N0 ^ 2))ˣ, pub.capK = (k : ZMod (N0 ^ 2)) ∧ Encrypts N0 y rho (((k ^ x : (ZMod (N0 ^ 2))ˣ) : ZMod (N0 ^ 2)) * pub.capD)
  randomizer : Nat.Coprime rho N0
  capX : pub.capX = (x : ZMod q) • g
  capS : pub.capS = (y : ZMod q) • pub.capG

/-- The relation without the range of `y` -/
structure DecRelationNoRange (P : Params) (N0 : Nat) (g : G) (q : Nat) [Module (ZMod q) G] (pub : DecPublic N0 G) (c : Nat) (x y : Int) (rho : Nat) : Prop where
  parties : 2 ≤ pub.numParties
  width : IsCeilLog2 pub.numParties c
  rangeX : InPm P.L x
  capD : ∃ k : (ZMod (N0 ^ 2))ˣ, pub.capK = (k : ZMod (N0 ^ 2)) ∧ Encrypts N0 y rho (((k ^ x : (ZMod (N0 ^ 2))ˣ) : ZMod (N0 ^ 2)) * pub.capD)
  randomizer : Nat.Coprime rho N0
  capX : pub.capX = (x : ZMod q) • g
  capS : pub.capS = (y : ZMod q) • pub.capG

theorem DecRelation.noRange {P : Params} {N0 : Nat} {g : G} {pub : DecPublic N0 G} {c : Nat} {x y : Int} {rho : Nat} (h : DecRelation P N0 g q pub c x y rho) :
    DecRelationNoRange P N0 g q pub c x y rho := ⟨h.parties, h.width, h.rangeX, h.capD, h.randomizer, h.capX, h.capS⟩

/-- The values the dec prover may draw for one repetition. -/
structure DecEphemeralValid (P : Params) (N0 c : Nat) (eph : DecEphemeral) : Prop where
  alpha : eph.alpha.IsDraw (P.L + P.EPS)
  beta : eph.beta.IsDraw (P.LP + P.EPS + 1 + c + P.EPS)
  r : Nat.Coprime eph.r N0

/-- Both responses of a repetition are in their intervals: the mask, plus the secret if the challenge bit is set. -/
def DecInRange (P : Params) (c : Nat) (x y : Int) (eph : DecEphemeral) (bit : Bool) : Prop :=
  InPm (P.L + P.EPS) (eph.alpha.val + if bit then x else 0) ∧
    InPm (P.LP + P.EPS + 1 + c + P.EPS) (eph.beta.val + if bit then y else 0)

instance (P : Params) (c : Nat) (x y : Int) (eph : DecEphemeral) (bit : Bool) : Decidable (DecInRange P c x y eph bit) := by
  unfold DecInRange; infer_instance

theorem ceilLog2_of {n c : Nat} (hn : 2 ≤ n) (h : IsCeilLog2 n c) : (ceilLog2Parties n : Out ε _) = .ok c := by
  obtain ⟨c', h1, h2, h3⟩ := C30_interval_width (ε := ε) n hn
  rw [h1, le_antisymm (h3 c h.1) (h.2 c' h2)]

private theorem dec_repetition {P : Params} (hP : P.SelfConsistent) (hnb : 0 < P.numBits) (g : G) {N0 : Nat} (hN0 : 0 < N0) (c : Nat)
    (hwide : P.LP + P.EPS + 1 + c + P.EPS + 1 < P.wide)
    (x y : SInt) (hx : x.Fits) (hxb : x.bound ≤ P.L) (hy : y.Fits) (hyb : y.bound ≤ P.LP + P.EPS + 1 + c + P.EPS)
    (rho : Nat) (pub : DecPublic N0 G) (hrel : DecRelationNoRange P N0 g q pub c x.val y.val rho) (eph : DecEphemeral)
    (heph : DecEphemeralValid P N0 c eph) :
    ∃ com, (decCommit g pub q eph : Out ε _) = .ok com ∧ ∀ bit, ∃ el, (decRespond P N0 x y rho eph bit : Out ε _) = .ok el ∧
      (decCheck P g q pub bit com el : Out ε _) = .ok (decide (DecInRange P c x.val y.val eph bit)) := by
  obtain ⟨hc0, ⟨hm1, hm2, hm3, hm4, hm5, hm6⟩, hs1, hs2, hs3, hs4, hs5, hs6, hs7⟩ := hP
  obtain ⟨hn, hcl, hr1, ⟨k, hk, hD⟩, hρ, hX, hS⟩ := hrel
  obtain ⟨ha, hb, hrc⟩ := heph
  have hL : 0 < P.L := hnb
  obtain ⟨ur, hur⟩ := natCast_unit_sq hrc
  obtain ⟨uρ, huρ⟩ := natCast_unit_sq hρ
  have fα := ha.fits (by omega)
  have fβ := hb.fits (by omega)
  have bα : eph.alpha.bound = P.L + P.EPS := ha.1
  have bβ : eph.beta.bound = P.LP + P.EPS + 1 + c + P.EPS := hb.1
  have hDu : pub.capD = ((k ^ (-x.val) * encU N0 y.val uρ : (ZMod (N0 ^ 2))ˣ) : Ct N0) := by
    have h1 := Encrypts_unit hD huρ
    rw [Units.val_mul, ← h1, ← mul_assoc, ← Units.val_mul, ← zpow_add, neg_add_cancel, zpow_zero, Units.val_one, one_mul]
  refine ⟨⟨ctToWire ((k ^ (-eph.alpha.val) * encU N0 eph.beta.val ur : (ZMod (N0 ^ 2))ˣ) : Ct N0), scalarOfSigned q eph.beta • pub.capG,
    scalarOfSigned q eph.alpha • g⟩, ?_, ?_⟩
  · unfold decCommit
    rw [hk, ctMulSecret_unit _ (SInt.neg_fits fα), Out.bind_ok, enc_unit fβ hur, Out.bind_ok, ctAdd_unit]; rfl
  · intro bit
    obtain ⟨nu, hnu, hnue⟩ := toMasked_ok (ε := ε) hN0 huρ hur (bitExponent_fits bit)
    obtain ⟨z, hz, vz, fz⟩ : ∃ z, ((if bit then eph.alpha.add P.uint x else .ok eph.alpha) : Out ε _) = .ok z ∧
        z.val = eph.alpha.val + (if bit then x.val else 0) ∧ z.Fits := by
      cases bit
      · exact ⟨eph.alpha, rfl, by simp, fα⟩
      · refine ⟨⟨max eph.alpha.bound x.bound + 1, eph.alpha.val + x.val⟩, ?_, rfl, add_natAbs_lt fα hx⟩
        simp only [if_true]; unfold SInt.add; rw [if_pos (by rw [bα]; omega)]
    obtain ⟨w, hw, vw, fw⟩ : ∃ z, ((if bit then eph.beta.add P.wide y.toWide else .ok eph.beta) : Out ε _) = .ok z ∧
        z.val = eph.beta.val + (if bit then y.val else 0) ∧ z.Fits := by
      cases bit
      · exact ⟨eph.beta, rfl, by simp, fβ⟩
      · refine ⟨⟨max eph.beta.bound y.bound + 1, eph.beta.val + y.val⟩, ?_, rfl, add_natAbs_lt fβ hy⟩
        simp only [if_true]; unfold SInt.add SInt.toWide; rw [if_pos (by rw [bβ]; omega)]
    refine ⟨⟨z, w, nu⟩, ?_, ?_⟩
    · unfold decRespond
      rw [hz, Out.bind_ok, hw, Out.bind_ok, hnu, Out.bind_ok]
    · unfold decCheck decYBound
      simp only []
      rw [hk, ctMulPublic_unit _ (SInt.neg_fits fz), Out.bind_ok, ceilLog2_of hn hcl, Out.bind_ok, SInt.inRange_eq, SInt.inRange_eq, vz, vw,
        hnue, hDu, ctWire hN0, ctAdd_unit, ctAdd_unit]
      have e1 : encU N0 w.val (uρ ^ (bitExponent bit).val * ur) * k ^ z.neg.val = k ^ (-eph.alpha.val) * encU N0 eph.beta.val ur *
          (if bit then k ^ (-x.val) * encU N0 y.val uρ else 1) := by
        have hneg : z.neg.val = -z.val := rfl
        rw [vw, hneg, vz]
        cases bit
        · simp [bitExponent, mul_comm]
        · simp only [bitExponent, if_true, zpow_one]
          rw [mul_mul_mul_comm, encU_mul, ← zpow_add, mul_comm, mul_comm ur, neg_add]
      have e2 : scalarOfSigned q z • g = scalarOfSigned q eph.alpha • g + (if bit then pub.capX else 0) := by
        unfold scalarOfSigned; rw [vz, hX]; push_cast
        cases bit <;> simp [add_smul]
      have e3 : scalarOfSigned q w • pub.capG = scalarOfSigned q eph.beta • pub.capG + (if bit then pub.capS else 0) := by
        unfold scalarOfSigned; rw [vw, hS]; push_cast
        cases bit <;> simp [add_smul]
      rw [e1, decide_eq_true (by cases bit <;> simp), Out.check_true, e2, decide_eq_true (by cases bit <;> simp), Out.check_true, e3,
        decide_eq_true (by cases bit <;> simp), Out.check_true]
      by_cases hin1 : InPm (P.L + P.EPS) (eph.alpha.val + if bit then x.val else 0)
      swap
      · rw [decide_eq_false hin1, Out.check_false, decide_eq_false (fun h : DecInRange P c x.val y.val eph bit => hin1 h.1)]
      by_cases hin2 : InPm (P.LP + P.EPS + 1 + c + P.EPS) (eph.beta.val + if bit then y.val else 0)
      swap
      · rw [decide_eq_true hin1, Out.check_true, decide_eq_false hin2, Out.check_false,
          decide_eq_false (fun h : DecInRange P c x.val y.val eph bit => hin2 h.2)]
      rw [decide_eq_true hin1, Out.check_true, decide_eq_true hin2, Out.check_true,
        decide_eq_true (show DecInRange P c x.val y.val eph bit from ⟨hin1, hin2⟩)]

/-- The proof that one gets by following the prover, without its assertion about the range of `y`, and what the verifier says about it -/
private theorem dec_followed {P : Params} (hP : P.SelfConsistent) (hnb : 0 < P.numBits) (H : DecHash G Aux → List Bool) (g : G) {N0 Nh : Nat}
    (hN0 : 0 < N0) (c : Nat) (hwide : P.LP + P.EPS + 1 + c + P.EPS + 1 < P.wide)
    (x y : SInt) (hx : x.Fits) (hxb : x.bound ≤ P.L) (hy : y.Fits) (hyb : y.bound ≤ P.LP + P.EPS + 1 + c + P.EPS)
    (rho : Nat) (pub : DecPublic N0 G) (hrel : DecRelationNoRange P N0 g q pub c x.val y.val rho) (setup : RPParams Nh) (aux : Aux)
    (ephs : List DecEphemeral) (hephs : ∀ eph ∈ ephs, DecEphemeralValid P N0 c eph) (hlen : ∀ t, (H t).length = ephs.length) :
    ∃ prf : DecProof G, (InPm (P.LP + P.EPS + 1 + c) y.val → (DecProof.prove P H g q x y rho pub setup aux ephs : Out ε _) = .ok prf) ∧
      (prf.verify P H g q pub setup aux : Out ε _) = .ok (decide (∀ x' ∈ ephs.zip prf.e, DecInRange P c x.val y.val x'.1 x'.2)) := by
  have hrep : ∀ eph, ∃ com, eph ∈ ephs → (decCommit g pub q eph : Out ε _) = .ok com ∧ ∀ bit, ∃ el,
      (decRespond P N0 x y rho eph bit : Out ε _) = .ok el ∧
      (decCheck P g q pub bit com el : Out ε _) = .ok (decide (DecInRange P c x.val y.val eph bit)) := by
    intro eph
    by_cases h : eph ∈ ephs
    · obtain ⟨com, h1⟩ := dec_repetition (ε := ε) hP hnb g hN0 c hwide x y hx hxb hy hyb rho pub hrel eph (hephs eph h)
      exact ⟨com, fun _ => h1⟩
    · exact ⟨⟨0, 0, 0⟩, fun h' => absurd h' h⟩
  choose comF hcom using hrep
  have hel : ∀ x' : DecEphemeral × Bool, ∃ el, x'.1 ∈ ephs → (decRespond P N0 x y rho x'.1 x'.2 : Out ε _) = .ok el ∧
      (decCheck P g q pub x'.2 (comF x'.1) el : Out ε _) = .ok (decide (DecInRange P c x.val y.val x'.1 x'.2)) := by
    rintro ⟨eph, bit⟩
    by_cases h : eph ∈ ephs
    · obtain ⟨el, h1⟩ := (hcom eph h).2 bit
      exact ⟨el, fun _ => h1⟩
    · exact ⟨⟨⟨0, 0⟩, ⟨0, 0⟩, 0⟩, fun h' => absurd h' h⟩
  choose elF helF using hel
  set e := H (decHash (ephs.map comF) pub setup aux) with he
  have hmem : ∀ x' ∈ ephs.zip e, x'.1 ∈ ephs := fun x' hx' => (List.of_mem_zip (a := x'.1) (b := x'.2) hx').1
  refine ⟨⟨e, ephs.map comF, (ephs.zip e).map elF⟩, ?_, ?_⟩
  · intro hrange
    unfold DecProof.prove decYBound
    rw [SInt.assertRange_ok hrel.rangeX, Out.bind_ok, ceilLog2_of hrel.parties hrel.width, Out.bind_ok, SInt.assertRange_ok hrange, Out.bind_ok,
      Out.mapM'_ok_of_forall (g := comF) (fun eph h => (hcom eph h).1), Out.bind_ok]
    simp only []
    rw [← he, Out.mapM'_ok_of_forall (g := elF) (fun x' h => (helF x' (hmem x' h)).1), Out.bind_ok]
  · unfold DecProof.verify
    simp only []
    have hl : e.length = ephs.length := hlen _
    rw [← he, decide_eq_true rfl, Out.check_true, decide_eq_true (by simp [hl]), Out.check_true, zip_map_zip _ _ _ _ hl,
      Out.allM_map, Out.allM_ok_decide (p := fun x' : DecEphemeral × Bool => DecInRange P c x.val y.val x'.1 x'.2)
        (fun x' h => (helF x' (hmem x' h)).2)]

/-- **C30 (honest proofs).** For a true statement and one set of masks per challenge bit the prover does not panic, and the verifier returns
exactly whether the responses of all repetitions lie in their intervals. `c` is the widening for the number of parties. -/
theorem C30_honest {P : Params} (hP : P.SelfConsistent) (hnb : 0 < P.numBits) (H : DecHash G Aux → List Bool) (g : G) {N0 Nh : Nat}
    (hN0 : 0 < N0) (c : Nat) (hwide : P.LP + P.EPS + 1 + c + P.EPS + 1 < P.wide)
    (x y : SInt) (hx : x.Fits) (hxb : x.bound ≤ P.L) (hy : y.Fits) (hyb : y.bound ≤ P.LP + P.EPS + 1 + c + P.EPS)
    (rho : Nat) (pub : DecPublic N0 G) (hrel : DecRelation P N0 g q pub c x.val y.val rho) (setup : RPParams Nh) (aux : Aux)
    (ephs : List DecEphemeral) (hephs : ∀ eph ∈ ephs, DecEphemeralValid P N0 c eph) (hlen : ∀ t, (H t).length = ephs.length) :
    ∃ prf : DecProof G, (DecProof.prove P H g q x y rho pub setup aux ephs : Out ε _) = .ok prf ∧
      (prf.verify P H g q pub setup aux : Out ε _) = .ok (decide (∀ x' ∈ ephs.zip prf.e, DecInRange P c x.val y.val x'.1 x'.2)) := by
  obtain ⟨prf, h1, h2⟩ := dec_followed (ε := ε) hP hnb H g hN0 c hwide x y hx hxb hy hyb rho pub hrel.noRange setup aux ephs hephs hlen
  exact ⟨prf, h1 hrel.rangeY, h2⟩

/-- **C52 (dec proofs do not bind the value).** The interval that the verifier allows for the response is wider than the Paillier modulus, so a party
whose ciphertext decrypts to `y` can prove that it decrypts to `y + t N0`, for every `t` such that this is in the interval. The masks `ephs` are such that the
responses are in the interval, for example far enough from its ends. -/
theorem C52_dec_accepts_wrapped {P : Params} (hP : P.SelfConsistent) (hnb : 0 < P.numBits) (H : DecHash G Aux → List Bool) (g : G) {N0 Nh : Nat}
    (hN0 : 0 < N0) (c : Nat) (hwide : P.LP + P.EPS + 1 + c + P.EPS + 1 < P.wide)
    (x y : SInt) (hx : x.Fits) (hxb : x.bound ≤ P.L) (rho : Nat) (pub : DecPublic N0 G) (hrel : DecRelation P N0 g q pub c x.val y.val rho)
    (t : Int) (ht : |y.val + t * N0| < 2 ^ (P.LP + P.EPS + c + P.EPS)) (setup : RPParams Nh) (aux : Aux)
    (ephs : List DecEphemeral) (hephs : ∀ eph ∈ ephs, DecEphemeralValid P N0 c eph) (hlen : ∀ t, (H t).length = ephs.length)
    (hrange : ∀ eph ∈ ephs, ∀ bit, DecInRange P c x.val (y.val + t * N0) eph bit) :
    ∃ prf : DecProof G, (prf.verify P H g q { pub with capS := ((y.val + t * N0 : Int) : ZMod q) • pub.capG } setup aux : Out ε _) = .ok true := by
  obtain ⟨prf, _, h2⟩ := dec_followed (ε := ε) hP hnb H g hN0 c hwide x ⟨P.LP + P.EPS + 1 + c + P.EPS, y.val + t * N0⟩ hx hxb
    (by
      unfold SInt.Fits
      have : ((y.val + t * N0).natAbs : Int) < 2 ^ (P.LP + P.EPS + 1 + c + P.EPS) := by
        rw [Int.natCast_natAbs]
        exact lt_of_lt_of_le ht (pow_le_pow_right₀ (by norm_num) (by omega))
      exact_mod_cast this) le_rfl rho { pub with capS := ((y.val + t * N0 : Int) : ZMod q) • pub.capG }
    ⟨hrel.parties, hrel.width, hrel.rangeX, by
      obtain ⟨k, h1, h2⟩ := hrel.capD
      refine ⟨k, h1, ?_⟩
      unfold Encrypts at h2 ⊢
      rw [h2]
      have : ((N0 : ZMod (N0 ^ 2))) * N0 = 0 := by
        have := ZMod.natCast_self (N0 ^ 2)
        rw [pow_two] at this ⊢
        push_cast at this
        exact this
      push_cast
      linear_combination -(t : ZMod (N0 ^ 2)) * (rho : ZMod (N0 ^ 2)) ^ N0 * this, hrel.randomizer, hrel.capX, rfl⟩ setup aux ephs hephs hlen
  refine ⟨prf, ?_⟩
  rw [h2, decide_eq_true]
  intro x' hx'
  exact hrange _ (List.of_mem_zip hx').1 _

/-- **C52 (dec proofs prove nothing about the value).** For every consistent parameter set (in particular the shipped ones): the owner of a ciphertext that
decrypts to `y` can make an accepted proof that it decrypts, modulo the order of the group, to *any* value `s`. (With the masks used here the proof also discloses
its secrets. The larger the interval is, the larger masks can be used.) -/
theorem C52_dec_proves_any_value [Fact q.Prime] {P : Params} (hP : P.SelfConsistent) (hnb : 0 < P.numBits) (hq : q < 2 ^ P.numBits)
    (H : DecHash G Aux → List Bool) (n : Nat) (hlen : ∀ t, (H t).length = n) (g : G) {N0 Nh : Nat} (hN0 : 0 < N0) (hN : N0 < 2 ^ P.modBits) (hqN : Nat.Coprime N0 q)
    (c : Nat) (hc : c ≤ P.L) (hwide : P.LP + P.EPS + 1 + c + P.EPS + 1 < P.wide)
    (x y : SInt) (hx : x.Fits) (hxb : x.bound ≤ P.L) (rho : Nat) (pub : DecPublic N0 G) (hrel : DecRelation P N0 g q pub c x.val y.val rho)
    (setup : RPParams Nh) (aux : Aux) (s : ZMod q) :
    ∃ prf : DecProof G, (prf.verify P H g q { pub with capS := s • pub.capG } setup aux : Out ε _) = .ok true := by
  have : NeZero q := ⟨(Fact.out : q.Prime).ne_zero⟩
  obtain ⟨t, ht, hts⟩ : ∃ t : Int, 2 * |t| ≤ q ∧ ((y.val + t * N0 : Int) : ZMod q) = s := by
    refine ⟨((s - (y.val : ZMod q)) * ((N0 : ZMod q))⁻¹).valMinAbs, ?_, ?_⟩
    · have := ZMod.natAbs_valMinAbs_le ((s - (y.val : ZMod q)) * ((N0 : ZMod q))⁻¹)
      rw [← Int.natCast_natAbs]
      omega
    · push_cast
      rw [mul_assoc, inv_mul_cancel₀]
      · ring
      · intro h0
        have := (ZMod.natCast_eq_zero_iff N0 q).1 h0
        have h1 := Nat.dvd_gcd this dvd_rfl
        rw [hqN] at h1
        exact (Fact.out : q.Prime).one_lt.ne' (Nat.dvd_one.1 h1)
  obtain ⟨hc0, ⟨hm1, hm2, hm3, hm4, hm5, hm6⟩, hs1, hs2, hs3, hs4, hs5, hs6, hs7⟩ := id hP
  have hL : 0 < P.L := hnb
  have hlp : P.LP = P.primeBits + P.L := rfl
  have hk : P.kappa = P.L := rfl
  have hc1 : 1 ≤ c := by
    by_contra h0
    have h1 := hrel.width.1
    have h2 := hrel.parties
    have : c = 0 := by omega
    subst this
    omega
  have htN : |t * N0| < 2 ^ (P.modBits + P.L - 1) := by
    rw [abs_mul, abs_of_nonneg (Int.natCast_nonneg N0)]
    have h1 : |t| < 2 ^ (P.L - 1) := by
      have e : (2 : Int) ^ P.L = 2 * 2 ^ (P.L - 1) := by rw [← pow_succ']; congr 1; omega
      have h2 : (q : Int) < 2 ^ P.L := by exact_mod_cast hq
      omega
    have h2 : (N0 : Int) < 2 ^ P.modBits := by exact_mod_cast hN
    calc |t| * N0 ≤ |t| * 2 ^ P.modBits := mul_le_mul_of_nonneg_left h2.le (abs_nonneg _)
      _ < 2 ^ (P.L - 1) * 2 ^ P.modBits := mul_lt_mul_of_pos_right h1 (by positivity)
      _ = 2 ^ (P.modBits + P.L - 1) := by rw [← pow_add]; congr 1; omega
  have hyb : |y.val| ≤ 2 ^ (P.modBits + P.L - 1) := by
    have h1 := hrel.rangeY
    have h2 : |y.val| ≤ 2 ^ (P.LP + P.EPS + 1 + c - 1) := abs_le.2 ⟨by have := h1.1; omega, h1.2⟩
    exact h2.trans (pow_le_pow_right₀ (by norm_num) (by omega))
  have hbound : |y.val + t * N0| < 2 ^ (P.LP + P.EPS + c + P.EPS) := by
    refine lt_of_le_of_lt (abs_add_le _ _) ?_
    have e : (2 : Int) ^ (P.modBits + P.L - 1) + 2 ^ (P.modBits + P.L - 1) = 2 ^ (P.modBits + P.L) := by
      rw [← two_mul, ← pow_succ']; congr 1; omega
    have : (2 : Int) ^ (P.modBits + P.L) ≤ 2 ^ (P.LP + P.EPS + c + P.EPS) := pow_le_pow_right₀ (by norm_num) (by omega)
    omega
  rw [← hts]
  refine C52_dec_accepts_wrapped hP hnb H g hN0 c hwide x y hx hxb rho pub hrel t hbound setup aux
    (List.replicate n ⟨⟨P.L + P.EPS, 0⟩, ⟨P.LP + P.EPS + 1 + c + P.EPS, 0⟩, 1⟩) ?_ (by simpa using hlen) ?_
  · intro eph he
    rw [List.eq_of_mem_replicate he]
    refine ⟨⟨rfl, ?_⟩, ⟨rfl, ?_⟩, Nat.coprime_one_left _⟩
    · have : (0 : Int) < 2 ^ (P.L + P.EPS - 1) := by positivity
      exact ⟨show (-2 ^ (P.L + P.EPS - 1) + 1 : Int) ≤ 0 by omega, this.le⟩
    · have : (0 : Int) < 2 ^ (P.LP + P.EPS + 1 + c + P.EPS - 1) := by positivity
      exact ⟨show (-2 ^ (P.LP + P.EPS + 1 + c + P.EPS - 1) + 1 : Int) ≤ 0 by omega, this.le⟩
  · intro eph he bit
    rw [List.eq_of_mem_replicate he]
    have p1 : (0 : Int) < 2 ^ (P.L + P.EPS - 1) := by positivity
    have p2 : (0 : Int) < 2 ^ (P.LP + P.EPS + 1 + c + P.EPS - 1) := by positivity
    have b2 := abs_lt.1 hbound
    rw [show P.LP + P.EPS + c + P.EPS = P.LP + P.EPS + 1 + c + P.EPS - 1 by omega] at b2
    have b1 := hrel.rangeX
    have e1 : (2 : Int) ^ (P.L - 1) ≤ 2 ^ (P.L + P.EPS - 1) := pow_le_pow_right₀ (by norm_num) (by omega)
    unfold DecInRange InPm
    unfold InPm at b1
    cases bit <;> simp only [Bool.false_eq_true, if_false, if_true] <;> constructor <;> constructor <;> omega

/-- **C30 (no overflow).** For all three shipped parameter sets the responses fit for every number of parties a `usize` can hold. -/
theorem C30_responses_fit (P : Params) (hP : P ∈ [Params.production112, Params.production128, Params.test]) (n c : Nat) (hn : n < 2 ^ 64)
    (hc : IsCeilLog2 n c) : P.LP + P.EPS + 1 + c + P.EPS + 1 < P.wide := by
  have h1 : c ≤ 64 := hc.2 64 hn.le
  simp only [List.mem_cons, List.not_mem_nil, or_false] at hP
  rcases hP with rfl | rfl | rfl
  · have : Params.production112.LP + Params.production112.EPS + 1 + 64 + Params.production112.EPS + 1 < Params.production112.wide := by decide
    omega
  · have : Params.production128.LP + Params.production128.EPS + 1 + 64 + Params.production128.EPS + 1 < Params.production128.wide := by decide
    omega
  · have : Params.test.LP + Params.test.EPS + 1 + 64 + Params.test.EPS + 1 < Params.test.wide := by decide
    omega

/-- **C30 (wrong counts).** A proof with any other number of commitments or responses than challenge bits is rejected. -/
theorem C30_wrong_count_rejected {P : Params} (H : DecHash G Aux → List Bool) (g : G) {N0 Nh : Nat} (pub : DecPublic N0 G) (setup : RPParams Nh)
    (aux : Aux) (prf : DecProof G) (n : Nat) (hlen : ∀ t, (H t).length = n) (hbad : prf.commitments.length ≠ n ∨ prf.elements.length ≠ n) :
    (prf.verify P H g q pub setup aux : Out ε _) = .ok false := by
  simp only [DecProof.verify]
  by_cases hc : H (decHash prf.commitments pub setup aux) = prf.e
  · rw [decide_eq_true hc, Out.check_true, decide_eq_false, Out.check_false]
    rw [not_not, hlen]
    exact hbad.imp Ne.symm Ne.symm
  · rw [decide_eq_false hc, Out.check_false]

/-- **C30 (decision).** If the verifier accepts then the challenge is the hash of the context, the counts match, and every repetition is
answered in range and satisfies the three equations for its bit. -/
theorem C30_accepted {P : Params} (H : DecHash G Aux → List Bool) (g : G) {N0 Nh : Nat} (pub : DecPublic N0 G) (setup : RPParams Nh) (aux : Aux)
    (prf : DecProof G) (h : (prf.verify P H g q pub setup aux : Out ε _) = .ok true) :
    prf.e = H (decHash prf.commitments pub setup aux) ∧ prf.commitments.length = prf.e.length ∧ prf.elements.length = prf.e.length ∧
    ∀ (i : Nat) (bit : Bool) (com : DecCommitment G) (el : DecElement),
      prf.e[i]? = some bit → prf.commitments[i]? = some com → prf.elements[i]? = some el →
      InPm (P.L + P.EPS) el.z.val ∧ (∃ c, IsCeilLog2 pub.numParties c ∧ InPm (P.LP + P.EPS + 1 + c + P.EPS) el.w.val) ∧
      (∃ kz, (ctMulPublic pub.capK el.z.neg : Out ε _) = .ok kz ∧ ∃ d, Encrypts N0 el.w.val el.nu d ∧
        d * kz = (com.capA : ZMod (N0 ^ 2)) * if bit then pub.capD else 1) ∧
      (el.z.val : ZMod q) • g = com.capC + (if bit then pub.capX else 0) ∧
      (el.w.val : ZMod q) • pub.capG = com.capB + (if bit then pub.capS else 0) := by
  simp only [DecProof.verify] at h
  obtain ⟨h1, h⟩ := Out.check_eq_true.1 h
  obtain ⟨h2, h⟩ := Out.check_eq_true.1 h
  have h1 := of_decide_eq_true h1
  have h2 := of_decide_eq_true h2
  rw [h1] at h h2
  push Not at h2
  refine ⟨h1.symm, h2.1.symm, h2.2.symm, ?_⟩
  intro i bit com el hb hc he
  rw [Out.allM_eq_true] at h
  have hmem : ((bit, com), el) ∈ (prf.e.zip prf.commitments).zip prf.elements := by
    rw [List.mem_iff_getElem?]
    refine ⟨i, ?_⟩
    simp [List.getElem?_zip_eq_some, hb, hc, he]
  have h3 := h _ hmem
  simp only [decCheck] at h3
  obtain ⟨kz, r1, h3⟩ := Out.bind_eq_ok.1 h3
  obtain ⟨r2, h3⟩ := Out.check_eq_true.1 h3
  obtain ⟨r3, h3⟩ := Out.check_eq_true.1 h3
  obtain ⟨r4, h3⟩ := Out.check_eq_true.1 h3
  obtain ⟨r5, h3⟩ := Out.check_eq_true.1 h3
  obtain ⟨c, r6, h3⟩ := Out.bind_eq_ok.1 h3
  obtain ⟨r7, _⟩ := Out.check_eq_true.1 h3
  have s2 := of_decide_eq_true r2
  have s3 := of_decide_eq_true r3
  have s4 := of_decide_eq_true r4
  rw [encPublic_eq] at s2
  refine ⟨of_decide_eq_true r5, ⟨c, ?_, of_decide_eq_true r7⟩, ⟨kz, r1, _, rfl, ?_⟩, ?_, ?_⟩
  · by_cases hn : 2 ≤ pub.numParties
    · obtain ⟨c', h5, h6⟩ := C30_interval_width (ε := ε) _ hn
      rw [h5] at r6; cases r6; exact h6
    · unfold ceilLog2Parties at r6; rw [if_pos (by omega)] at r6; cases r6
  · cases bit
    · simp only [Bool.false_eq_true, if_false] at s2 ⊢; rw [mul_one]; exact s2
    · exact s2
  · cases bit
    · simp only [Bool.false_eq_true, if_false] at s3 ⊢; rw [add_zero]; exact s3
    · exact s3
  · cases bit
    · simp only [Bool.false_eq_true, if_false] at s4 ⊢; rw [add_zero]; exact s4
    · exact s4

/-! ### A concrete case -/

section Examples

private def toyK : (ZMod (77 ^ 2))ˣ := encU 77 9 (ZMod.unitOfCoprime 3 (by decide))

private def toyPub : DecPublic 77 (ZMod 11) :=
  ⟨toyK, 5, ((toyK ^ (-5 : Int) : (ZMod (77 ^ 2))ˣ) : ZMod (77 ^ 2)) *
    ((1 + ((6 : Int) : ZMod (77 ^ 2)) * ((77 : Nat) : ZMod (77 ^ 2))) * ((2 : Nat) : ZMod (77 ^ 2)) ^ 77), 7, 3, 3⟩

private theorem toyWidth : IsCeilLog2 3 2 := by
  refine ⟨by decide, fun c' h => ?_⟩
  by_contra hlt
  have : c' = 0 ∨ c' = 1 := by omega
  rcases this with rfl | rfl <;> simp at h

private theorem toyRelation : DecRelation Params.test 77 (1 : ZMod 11) 11 toyPub 2 5 6 2 where
  parties := by decide
  width := toyWidth
  rangeX := by decide
  rangeY := by decide
  capD := by
    refine ⟨toyK, rfl, ?_⟩
    unfold Encrypts toyPub
    rw [← mul_assoc, ← Units.val_mul, ← zpow_add, show (5 : Int) + -5 = 0 from rfl, zpow_zero, Units.val_one, one_mul]
  randomizer := by decide
  capX := by decide
  capS := by decide

private def toyEphs : List DecEphemeral := [⟨⟨96, 12345⟩, ⟨291, -5⟩, 3⟩, ⟨⟨96, -7⟩, ⟨291, 11⟩, 5⟩]

/-- The hypotheses of `C30_honest` are satisfiable; both repetitions are in range, so the proof is accepted. -/
example : ∃ prf : DecProof (ZMod 11),
    (DecProof.prove Params.test (fun _ : DecHash (ZMod 11) Nat => [true, false]) 1 11 ⟨32, 5⟩ ⟨160, 6⟩ 2 toyPub (⟨4, 16⟩ : RPParams 77) 8 toyEphs : Out Unit _)
        = .ok prf ∧
      (prf.verify Params.test (fun _ => [true, false]) 1 11 toyPub (⟨4, 16⟩ : RPParams 77) 8 : Out Unit _) = .ok true := by
  obtain ⟨prf, h1, h2⟩ := C30_honest (ε := Unit) (P := Params.test) (by decide) (by decide) (fun _ : DecHash (ZMod 11) Nat => [true, false]) (1 : ZMod 11)
    (by decide) 2 (by decide) ⟨32, 5⟩ ⟨160, 6⟩ (by decide) (by decide) (by decide) (by decide) 2 toyPub toyRelation (⟨4, 16⟩ : RPParams 77) 8 toyEphs
    (by intro eph h; simp only [toyEphs, List.mem_cons, List.not_mem_nil, or_false] at h
        rcases h with rfl | rfl <;> exact ⟨⟨rfl, by decide⟩, ⟨rfl, by decide⟩, by decide⟩) (fun _ => rfl)
  refine ⟨prf, h1, ?_⟩
  rw [h2]
  refine congrArg Out.ok (decide_eq_true ?_)
  have he : prf.e = [true, false] := by
    unfold DecProof.prove at h1
    obtain ⟨_, _, h1⟩ := Out.bind_eq_ok.1 h1
    obtain ⟨_, _, h1⟩ := Out.bind_eq_ok.1 h1
    obtain ⟨_, _, h1⟩ := Out.bind_eq_ok.1 h1
    obtain ⟨_, _, h1⟩ := Out.bind_eq_ok.1 h1
    obtain ⟨_, _, h1⟩ := Out.bind_eq_ok.1 h1
    cases h1; rfl
  rw [he]
  intro x' hx'
  simp only [toyEphs, List.zip_cons_cons, List.zip_nil_left, List.mem_cons, List.not_mem_nil, or_false] at hx'
  rcases hx' with rfl | rfl <;> decide

private def wrapK : (ZMod (35 ^ 2))ˣ := encU 35 9 (ZMod.unitOfCoprime 3 (by decide))

/-- A ciphertext with value `6` under the key `35` -/
private def wrapPub : DecPublic 35 (ZMod 11) :=
  ⟨wrapK, 5, ((wrapK ^ (-5 : Int) : (ZMod (35 ^ 2))ˣ) : ZMod (35 ^ 2)) *
    ((1 + ((6 : Int) : ZMod (35 ^ 2)) * ((35 : Nat) : ZMod (35 ^ 2))) * ((2 : Nat) : ZMod (35 ^ 2)) ^ 35), 7, 3, 3⟩

private theorem wrapRelation : DecRelation Params.test 35 (1 : ZMod 11) 11 wrapPub 2 5 6 2 where
  parties := by decide
  width := toyWidth
  rangeX := by decide
  rangeY := by decide
  capD := by
    refine ⟨wrapK, rfl, ?_⟩
    unfold Encrypts wrapPub
    rw [← mul_assoc, ← Units.val_mul, ← zpow_add, show (5 : Int) + -5 = 0 from rfl, zpow_zero, Units.val_one, one_mul]
  randomizer := by decide
  capX := by decide
  capS := by decide

/-- The true value is `6`, with `S = 6 * 3 = 7` modulo `11`, but a proof for any other `S`, such as `1 * 3`, is accepted. -/
example (s : ZMod 11) : ∃ prf : DecProof (ZMod 11),
    (prf.verify Params.test (fun _ : DecHash (ZMod 11) Nat => [true, false]) 1 11 { wrapPub with capS := s • wrapPub.capG } (⟨4, 16⟩ : RPParams 77) 8 : Out Unit _)
      = .ok true :=
  have : Fact (Nat.Prime 11) := ⟨by decide⟩
  C52_dec_proves_any_value (by decide) (by decide) (by decide) _ 2 (fun _ => rfl) _ (by decide) (by decide) (by decide) 2 (by decide) (by decide) ⟨32, 5⟩ ⟨160, 6⟩
    (by decide) (by decide) 2 wrapPub wrapRelation _ _ s

end Examples

end Synedrion.Props
