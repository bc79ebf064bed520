import Mathlib.RingTheory.RootsOfUnity.PrimitiveRoots
import Mathlib.FieldTheory.Finite.Basic
import Mathlib.Data.ZMod.QuotientRing
import Verif.Model.KeyGen
import Verif.Spec.KeyGen
import Verif.Spec.AuxInfo
import Verif.Lemmas.AuxGen
import Verif.Lemmas.Toy

/-!
# C68: generated keys and ring-Pedersen parameters are usable

Full statement: whatever primes of the promised form the search returns, the generation of a Paillier key and of ring-Pedersen parameters succeeds and gives values that the rest of
the code can use. It is false of the code, because nothing excludes that the same prime is found twice (`C68_equal_primes_panic`): the theorems ending in `_partial` assume
different primes where it matters.
-/

set_option linter.unusedSectionVars false

namespace Synedrion.Props

open Synedrion Spec

variable {ε : Type}

/-- Distinct odd primes of the same length give a modulus that is coprime to its totient. -/
private theorem fullSize_of {P : Params} {p q : Nat} (hb : 2 ≤ P.primeBits) (hp : p.Prime) (hq : q.Prime) (hne : p ≠ q) (lp : 2 ^ (P.primeBits - 1) ≤ p) (hhp : p < 2 ^ P.primeBits)
    (lq : 2 ^ (P.primeBits - 1) ≤ q) (hhq : q < 2 ^ P.primeBits) (op : p % 2 = 1) (oq : q % 2 = 1) : FullSizePrimes P p q := by
  have key : ∀ {a b : Nat}, a.Prime → 2 ^ (P.primeBits - 1) ≤ a → b < 2 ^ P.primeBits → 1 < b → a % 2 = 1 → b % 2 = 1 → Nat.Coprime a (b - 1) := by
    intro a b ha la hb' hb1 oa ob
    rw [Nat.Prime.coprime_iff_not_dvd ha]
    rintro ⟨c, hc⟩
    have h2 : 2 ^ P.primeBits = 2 * 2 ^ (P.primeBits - 1) := by rw [← pow_succ']; congr 1; omega
    have hc2 : c < 2 := by
      by_contra h
      have : a * 2 ≤ a * c := Nat.mul_le_mul_left _ (by omega)
      omega
    interval_cases c <;> omega
  refine ⟨⟨hp, hq, hne, op, oq, ?_⟩, lp, lq, hhp, hhq⟩
  have self : ∀ {a : Nat}, a.Prime → Nat.Coprime a (a - 1) := by
    intro a ha
    have := ha.one_lt
    rw [Nat.Prime.coprime_iff_not_dvd ha]
    intro h
    have := Nat.le_of_dvd (by omega) h
    omega
  refine Nat.Coprime.mul_left (Nat.Coprime.mul_right (self hp) (key hp lp hhq hq.one_lt op oq)) (Nat.Coprime.mul_right (key hq lq hhp hp.one_lt oq op) (self hq))

/-- **C68 (Paillier keys).** If the search for primes keeps its promise, the two primes found are 3 modulo 4 and their product has exactly twice as many bits, so
no debug assertion fails; and if they differ, they are full size primes and the key can be made from them. -/
theorem C68_paillier_key_partial {P : Params} (hb : 2 ≤ P.primeBits) (dbg : Bool) (foundP foundQ : List Nat) (hP : ∀ c ∈ foundP, SievePrime P.primeBits c)
    (hQ : ∀ c ∈ foundQ, SievePrime P.primeBits c) (r : Out ε (Nat × Nat)) (h : paillierKeyRandom dbg foundP foundQ = some r) :
    ∃ p q, r = .ok (p, q) ∧ p ∈ foundP ∧ q ∈ foundQ ∧ p % 4 = 3 ∧ q % 4 = 3 ∧ bitLen (p * q) = 2 * P.primeBits ∧
      (p ≠ q → FullSizePrimes P p q ∧ ∃ sk, (SecretKey.new p q : Out ε _) = .ok sk) := by
  unfold paillierKeyRandom at h
  obtain ⟨p, hp, h⟩ := Option.bind_eq_some_iff.1 h
  obtain ⟨q, hq, rfl⟩ := Option.map_eq_some_iff.1 h
  have mp := List.mem_of_find?_eq_some hp
  have mq := List.mem_of_find?_eq_some hq
  have p4 : p % 4 = 3 := by simpa using List.find?_some hp
  have q4 : q % 4 = 3 := by simpa using List.find?_some hq
  have sp := hP p mp
  have sq := hQ q mq
  have e1 : 2 ^ P.primeBits = 4 * 2 ^ (P.primeBits - 2) := by
    rw [show (4 : Nat) = 2 ^ 2 from rfl, ← pow_add]; congr 1; omega
  have e2 : 2 ^ (P.primeBits - 1) = 2 * 2 ^ (P.primeBits - 2) := by
    rw [← pow_succ']; congr 1; omega
  refine ⟨p, q, ?_, mp, mq, p4, q4, ?_, fun hne => ?_⟩
  · unfold secretPrimesNew
    simp [p4, q4]
  · have hlow : ¬ bitLen (p * q) ≤ 2 * P.primeBits - 1 := by
      rw [bitLen_le_iff]
      have : 3 * 2 ^ (P.primeBits - 2) * (3 * 2 ^ (P.primeBits - 2)) ≤ p * q := Nat.mul_le_mul sp.low sq.low
      have e3 : 2 ^ (2 * P.primeBits - 1) = 8 * (2 ^ (P.primeBits - 2) * 2 ^ (P.primeBits - 2)) := by
        rw [show (8 : Nat) = 2 ^ 3 from rfl, ← pow_add, ← pow_add]; congr 1; omega
      have hpos : 0 < 2 ^ (P.primeBits - 2) * 2 ^ (P.primeBits - 2) := by positivity
      rw [e3]
      nlinarith
    have hhigh : bitLen (p * q) ≤ 2 * P.primeBits := by
      rw [bitLen_le_iff, two_mul, pow_add]
      exact Nat.mul_lt_mul'' sp.high sq.high
    omega
  · have fs := fullSize_of hb sp.prime sq.prime hne (by have := sp.low; omega) sp.high (by have := sq.low; omega) sq.high (by omega) (by omega)
    obtain ⟨sk, hsk, -⟩ := SecretKey.new_ok (ε := ε) fs.primes
    exact ⟨fs, sk, hsk⟩

/-- **C68, excluded case.** If the search returns the same prime twice, making the key panics (the primes are not compared). -/
theorem C68_equal_primes_panic (p : Nat) (hp : p.Prime) : (SecretKey.new p p : Out ε _) = .panic := by
  have hp0 : ¬ (p = 0 ∨ p = 0) := by have := hp.pos; omega
  have : NeZero p := ⟨hp.ne_zero⟩
  have hinv : invMod? (p : ZMod p) = none := by
    unfold invMod?
    refine if_neg ?_
    rw [ZMod.natCast_self, ZMod.val_zero]
    exact fun h => hp.one_lt.ne' ((Nat.gcd_zero_left p).symm.trans h)
  unfold SecretKey.new
  rw [if_neg hp0]
  unfold publicModulusNew
  split
  · simp only [Out.bind_ok]
    cases (invMod? (((p - 1) * (p - 1) : Nat) : ZMod (p * p))) with
    | none => rfl
    | some a =>
      show Out.bind (Out.ofOptionPanic (invMod? ((p * p : Nat) : ZMod ((p - 1) * (p - 1))))) _ = _
      cases (invMod? ((p * p : Nat) : ZMod ((p - 1) * (p - 1)))) with
      | none => rfl
      | some b =>
        show Out.bind (Out.ofOptionPanic (invMod? (p : ZMod p))) _ = _
        rw [hinv]
        rfl
  · rfl

/-- A safe prime of more than three bits is 3 modulo 4, and half of the number before it is an odd prime. -/
private theorem safe_odd {bits p : Nat} (hb : 4 ≤ bits) (h : SafePrime bits p) : p = 2 * ((p - 1) / 2) + 1 ∧ (p - 1) / 2 % 2 = 1 ∧ p % 4 = 3 := by
  have h8 : 2 ^ 3 ≤ 2 ^ (bits - 1) := Nat.pow_le_pow_right (by omega) (by omega)
  have hl := h.low
  have hp : p % 2 = 1 := by rcases h.prime.eq_two_or_odd with h | h <;> omega
  have hh : (p - 1) / 2 % 2 = 1 := by rcases h.half.eq_two_or_odd with h | h <;> omega
  omega

/-- **C68 (ring-Pedersen secrets).** If the search for safe primes keeps its promise, `lambda` is found without a panic for every number drawn, whether or not debug assertions
are compiled in, and is below `φ(N)/4` and in the range the rest of the code assumes; the masks of the proof are also found without a panic, and are below `φ(N)`; and if the primes
differ they are full size, so that the proof that the parameters are well-formed is accepted. -/
theorem C68_ring_pedersen_partial {P : Params} (hb : 4 ≤ P.primeBits) (hm : P.modBits = 2 * P.primeBits) (dbg : Bool) (w p q draw : Nat) (hw : P.modBits ≤ w)
    (sp : SafePrime P.primeBits p) (sq : SafePrime P.primeBits q) :
    (∃ lambda, (rpSecretRandom dbg w P.modBits p q draw : Out ε _) = .ok lambda ∧ lambda < (p - 1) * (q - 1) / 4 ∧ lambda < 2 ^ (P.modBits - 2)) ∧
    (∃ a, (randomResidueModTotient w P.modBits p q draw : Out ε _) = .ok a ∧ a < (p - 1) * (q - 1)) ∧
    (p ≠ q → FullSizePrimes P p q ∧ p * q < 2 ^ P.modBits) := by
  obtain ⟨ep, hp2, p4⟩ := safe_odd hb sp
  obtain ⟨eq, hq2, q4⟩ := safe_odd hb sq
  have tot : (p - 1) * (q - 1) = 4 * ((p - 1) / 2 * ((q - 1) / 2)) := by
    have e1 : p - 1 = 2 * ((p - 1) / 2) := by omega
    have e2 : q - 1 = 2 * ((q - 1) / 2) := by omega
    calc (p - 1) * (q - 1) = (2 * ((p - 1) / 2)) * (2 * ((q - 1) / 2)) := by rw [← e1, ← e2]
      _ = _ := by ring
  have hpos : 0 < (p - 1) / 2 * ((q - 1) / 2) := Nat.mul_pos sp.half.pos sq.half.pos
  have quarter : (p - 1) * (q - 1) / 4 = (p - 1) / 2 * ((q - 1) / 2) := by omega
  have hN : p * q < 2 ^ P.modBits := by
    rw [hm, two_mul, pow_add]
    exact Nat.mul_lt_mul'' sp.high sq.high
  have htN : (p - 1) * (q - 1) ≤ p * q := Nat.mul_le_mul (Nat.sub_le _ _) (Nat.sub_le _ _)
  have e4 : 2 ^ P.modBits = 4 * 2 ^ (P.modBits - 2) := by
    rw [show (4 : Nat) = 2 ^ 2 from rfl, ← pow_add]; congr 1; omega
  refine ⟨⟨draw % ((p - 1) * (q - 1) / 4), ?_, Nat.mod_lt _ (by omega), ?_⟩, ⟨draw % ((p - 1) * (q - 1)), ?_, Nat.mod_lt _ (by omega)⟩, fun hne => ⟨?_, hN⟩⟩
  · have hlt := Nat.mod_lt draw (show (p - 1) * (q - 1) / 4 > 0 by omega)
    have h0 : ¬ (p = 0 ∨ q = 0) := by have := sp.prime.pos; have := sq.prime.pos; omega
    unfold rpSecretRandom secretPrimesNew unsignedNew
    have hb0 : (p - 1) * (q - 1) / 4 ≠ 0 := by omega
    have hif : P.modBits - 2 ≤ w ∧ draw % ((p - 1) * (q - 1) / 4) < 2 ^ (P.modBits - 2) := ⟨by omega, by omega⟩
    simp only [p4, q4, decide_true, Bool.or_true, Out.assert, if_true, Out.bind_ok, if_neg h0, hb0, ne_eq, not_false_eq_true, if_pos hif]
  · have hlt := Nat.mod_lt draw (show (p - 1) * (q - 1) / 4 > 0 by omega)
    omega
  · have hlt := Nat.mod_lt draw (show (p - 1) * (q - 1) > 0 by omega)
    have hb0 : (p - 1) * (q - 1) ≠ 0 := by omega
    have hif : P.modBits ≤ w ∧ draw % ((p - 1) * (q - 1)) < 2 ^ P.modBits := ⟨hw, by omega⟩
    unfold randomResidueModTotient unsignedNew
    simp only [hb0, ne_eq, not_false_eq_true, decide_true, Out.assert, if_true, Out.bind_ok, if_pos hif]
  · exact fullSize_of (by omega) sp.prime sq.prime hne sp.low sp.high sq.low sq.high (by omega) (by omega)

/-- The powers of a square other than one modulo a safe prime are all the squares. -/
private theorem safe_order {p : Nat} (hp : p.Prime) (hh : ((p - 1) / 2).Prime) (ho : p = 2 * ((p - 1) / 2) + 1) (r : ZMod p) (hr : r ≠ 0) (h1 : r * r ≠ 1) :
    IsPrimitiveRoot (r * r) ((p - 1) / 2) := by
  have : Fact p.Prime := ⟨hp⟩
  have : Fact ((p - 1) / 2).Prime := ⟨hh⟩
  have hpow : (r * r) ^ ((p - 1) / 2) = 1 := by
    rw [← pow_two, ← pow_mul, show 2 * ((p - 1) / 2) = p - 1 by omega, ZMod.pow_card_sub_one_eq_one hr]
  rw [← orderOf_eq_prime hpow h1]
  exact IsPrimitiveRoot.orderOf _

/-- Powers of a primitive root agree exactly if the exponents do modulo its order. -/
private theorem safe_pow {M : Type} [CommMonoid M] {x : M} {k a b : Nat} (h : IsPrimitiveRoot x k) (hk : 0 < k) : x ^ a = x ^ b ↔ a ≡ b [MOD k] := by
  have hf : IsOfFinOrder x := isOfFinOrder_iff_pow_eq_one.2 ⟨k, hk, h.pow_eq_one⟩
  rw [hf.pow_eq_pow_iff_modEq, ← h.eq_orderOf]

/-- **C68 (the base of the commitments).** With distinct safe primes, if the base `t = r²` is one modulo neither prime, then `λ ↦ t^λ` is a bijection from the range
`lambda` is drawn from to the invertible squares modulo `N`: the other base `s` is as likely to be one invertible square as any other. -/
theorem C68_base_uniform {bits p q : Nat} (hb : 4 ≤ bits) (sp : SafePrime bits p) (sq : SafePrime bits q) (hne : p ≠ q) (draw : Nat) (hd : IsInvertibleDraw (p * q) draw)
    (hp1 : draw * draw % p ≠ 1) (hq1 : draw * draw % q ≠ 1) :
    Set.BijOn (fun lambda : Nat => quadraticResidue (p * q) draw ^ lambda) {lambda | lambda < (p - 1) * (q - 1) / 4} {x | IsUnit x ∧ IsSquare x} := by
  obtain ⟨ep, hp2, p4⟩ := safe_odd hb sp
  obtain ⟨eq, hq2, q4⟩ := safe_odd hb sq
  have : Fact p.Prime := ⟨sp.prime⟩
  have : Fact q.Prime := ⟨sq.prime⟩
  have hcop : Nat.Coprime p q := (Nat.coprime_primes sp.prime sq.prime).2 hne
  have hhne : (p - 1) / 2 ≠ (q - 1) / 2 := by omega
  have hhcop : Nat.Coprime ((p - 1) / 2) ((q - 1) / 2) := (Nat.coprime_primes sp.half sq.half).2 hhne
  have tot : (p - 1) * (q - 1) / 4 = (p - 1) / 2 * ((q - 1) / 2) := by
    have e1 : p - 1 = 2 * ((p - 1) / 2) := by omega
    have e2 : q - 1 = 2 * ((q - 1) / 2) := by omega
    have : (p - 1) * (q - 1) = 4 * ((p - 1) / 2 * ((q - 1) / 2)) := by
      calc (p - 1) * (q - 1) = (2 * ((p - 1) / 2)) * (2 * ((q - 1) / 2)) := by rw [← e1, ← e2]
        _ = _ := by ring
    omega
  let e := ZMod.chineseRemainder hcop
  have hdc : Nat.Coprime draw (p * q) := by have := hd.2; unfold isInvertible at this; simpa using this
  have ht : e (quadraticResidue (p * q) draw) = ((draw : ZMod p) * draw, (draw : ZMod q) * draw) := by
    unfold quadraticResidue
    rw [map_mul, map_natCast]
    rfl
  have unit0 : ∀ {a : Nat} [Fact a.Prime], Nat.Coprime draw a → (draw : ZMod a) ≠ 0 := fun h => ((ZMod.isUnit_iff_coprime _ _).2 h).ne_zero
  have ne1 : ∀ {a : Nat}, a.Prime → draw * draw % a ≠ 1 → (draw : ZMod a) * draw ≠ 1 := by
    intro a ha h h1
    refine h ?_
    have h2 : ((draw * draw : Nat) : ZMod a) = ((1 : Nat) : ZMod a) := by push_cast; exact h1
    have h3 := (ZMod.natCast_eq_natCast_iff' _ _ _).1 h2
    rwa [Nat.mod_eq_of_lt ha.one_lt] at h3
  have rp := safe_order sp.prime sp.half ep (draw : ZMod p) (unit0 (Nat.Coprime.coprime_dvd_right (Dvd.intro _ rfl) hdc)) (ne1 sp.prime hp1)
  have rq := safe_order sq.prime sq.half eq (draw : ZMod q) (unit0 (Nat.Coprime.coprime_dvd_right (Dvd.intro_left _ rfl) hdc)) (ne1 sq.prime hq1)
  have hpow : ∀ n : Nat, e (quadraticResidue (p * q) draw ^ n) = (((draw : ZMod p) * draw) ^ n, ((draw : ZMod q) * draw) ^ n) := by
    intro n
    rw [map_pow, ht]
    rfl
  refine ⟨fun n _ => ?_, fun a ha b hb' hab => ?_, fun x hx => ?_⟩
  · have hu : IsUnit (quadraticResidue (p * q) draw) := by
      have := (ZMod.isUnit_iff_coprime draw (p * q)).2 hdc
      exact this.mul this
    exact ⟨hu.pow n, IsSquare.pow n ⟨(draw : ZMod (p * q)), rfl⟩⟩
  · have h := congrArg e hab
    simp only at h
    rw [hpow, hpow, Prod.mk.injEq] at h
    have ma : a ≡ b [MOD (p - 1) / 2] := (safe_pow rp sp.half.pos).1 h.1
    have mb : a ≡ b [MOD (q - 1) / 2] := (safe_pow rq sq.half.pos).1 h.2
    have := (Nat.modEq_and_modEq_iff_modEq_mul hhcop).1 ⟨ma, mb⟩
    refine Nat.ModEq.eq_of_lt_of_lt this ?_ ?_
    · rw [← tot]; exact ha
    · rw [← tot]; exact hb'
  · obtain ⟨hxu, y, rfl⟩ := hx
    have hy : IsUnit y := isUnit_of_mul_isUnit_left hxu
    have hey : IsUnit (e y) := hy.map e
    obtain ⟨hy1, hy2⟩ := Prod.isUnit_iff.1 hey
    have one : ∀ {a : Nat} [Fact a.Prime], a = 2 * ((a - 1) / 2) + 1 → ∀ z : ZMod a, IsUnit z → (z * z) ^ ((a - 1) / 2) = 1 := by
      intro a _ ha z hz
      rw [← pow_two, ← pow_mul, show 2 * ((a - 1) / 2) = a - 1 by omega, ZMod.pow_card_sub_one_eq_one hz.ne_zero]
    have : NeZero ((p - 1) / 2) := ⟨sp.half.ne_zero⟩
    have : NeZero ((q - 1) / 2) := ⟨sq.half.ne_zero⟩
    obtain ⟨i, -, hi⟩ := rp.eq_pow_of_pow_eq_one (one ep _ hy1)
    obtain ⟨j, -, hj⟩ := rq.eq_pow_of_pow_eq_one (one eq _ hy2)
    let c := Nat.chineseRemainder hhcop i j
    refine ⟨c, ?_, e.injective ?_⟩
    · show (c : Nat) < _
      rw [tot]
      exact Nat.chineseRemainder_lt_mul hhcop i j sp.half.ne_zero sq.half.ne_zero
    · simp only
      rw [hpow, map_mul]
      refine Prod.ext ?_ ?_
      · exact ((safe_pow rp sp.half.pos).2 c.2.1).trans hi
      · exact ((safe_pow rq sq.half.pos).2 c.2.2).trans hj

/-- The first invertible number drawn is invertible and in range. -/
theorem C68_invertible_residue {N : Nat} (hN : 0 < N) (draws : List Nat) (r : Nat) (h : randomInvertibleResidue N draws = some r) : IsInvertibleDraw N r := by
  unfold randomInvertibleResidue at h
  obtain ⟨d, -, rfl⟩ := List.mem_map.1 (List.mem_of_find?_eq_some h)
  exact ⟨Nat.mod_lt _ hN, by simpa using List.find?_some h⟩

section
variable {I Sid : Type} [LinearOrder I]

/-- **C68 (honest draws).** What a party generates for itself, by these functions, is what the results about auxiliary info assume of an honest party (C54), if the search for
primes keeps its promise and does not return the same prime twice for one modulus. -/
theorem C68_draws_valid_partial (E : AuxEnv I Sid) (hc : E.P.SelfConsistent) (hb : 4 ≤ E.P.primeBits) (hprime : ∀ n, E.isPrime n = true → n.Prime) (dbg : Bool) (d : AuxDraws I)
    (foundP foundQ : List Nat) (hP : ∀ c ∈ foundP, SievePrime E.P.primeBits c) (hQ : ∀ c ∈ foundQ, SievePrime E.P.primeBits c)
    (sp : SafePrime E.P.primeBits d.rpP) (sq : SafePrime E.P.primeBits d.rpQ) (hne : d.p ≠ d.q) (hrne : d.rpP ≠ d.rpQ) (lambdaDraw : Nat) (tDraws modDraws maskDraws : List Nat)
    (hkey : paillierKeyRandom dbg foundP foundQ = some (.ok (d.p, d.q) : Out ε _))
    (hlambda : (rpSecretRandom dbg E.P.uint E.P.modBits d.rpP d.rpQ lambdaDraw : Out ε _) = .ok d.lambda)
    (ht : randomInvertibleResidue (d.rpP * d.rpQ) tDraws = some d.tDraw) (hmod : randomInvertibleResidue (d.p * d.q) modDraws = some d.modDraw)
    (hmasks : (Out.mapM' (fun x => randomResidueModTotient E.P.uint E.P.modBits d.rpP d.rpQ x) maskDraws : Out ε _) = .ok d.prmMasks) : DrawsValid E maskDraws.length d := by
  obtain ⟨p, q, hr, mp, mq, p4, q4, -, hfull⟩ := C68_paillier_key_partial (by omega) dbg foundP foundQ hP hQ _ hkey
  obtain ⟨rfl, rfl⟩ := Prod.mk.inj (Out.ok.inj hr)
  obtain ⟨⟨lambda, hl, -, hl2⟩, -, hrp⟩ := C68_ring_pedersen_partial (ε := ε) hb hc.2.1.1 dbg E.P.uint d.rpP d.rpQ lambdaDraw hc.2.1.2.2.1 sp sq
  obtain rfl := Out.ok.inj (hlambda.symm.trans hl)
  have hone := (hP _ mp).prime.one_lt
  have hone' := (hQ _ mq).prime.one_lt
  refine ⟨(hfull hne).1, p4, q4, ?_, (hrp hrne).1, hl2, C68_invertible_residue (Nat.mul_pos sp.prime.pos sq.prime.pos) _ _ ht, ?_, ?_,
    C68_invertible_residue (Nat.mul_pos (by omega) (by omega)) _ _ hmod⟩
  · by_contra h
    exact Nat.not_prime_mul hone.ne' hone'.ne' (hprime _ (by simpa using h))
  · exact Out.mapM'_eq_ok_length hmasks
  · intro a ha
    obtain ⟨n, hn, rfl⟩ := List.getElem_of_mem ha
    have hn' : n < maskDraws.length := by rw [← Out.mapM'_eq_ok_length hmasks]; exact hn
    have h1 := Out.mapM'_eq_ok_get hmasks n hn' hn
    obtain ⟨-, ⟨b, hb1, hb2⟩, -⟩ := C68_ring_pedersen_partial (ε := ε) hb hc.2.1.1 dbg E.P.uint d.rpP d.rpQ maskDraws[n] hc.2.1.2.2.1 sp sq
    rw [Out.ok.inj (h1.symm.trans hb1)]
    exact hb2

end

/-! ### The hypotheses can be met -/

/-- Small parameters, with primes of 7 bits -/
private def small : Params := { Params.test with primeBits := 7, modBits := 14 }

private theorem sieve103 : SievePrime 7 103 := ⟨by norm_num, by norm_num, by norm_num⟩
private theorem sieve97 : SievePrime 7 97 := ⟨by norm_num, by norm_num, by norm_num⟩
private theorem sieve127 : SievePrime 7 127 := ⟨by norm_num, by norm_num, by norm_num⟩
private theorem safe83 : SafePrime 7 83 := ⟨by norm_num, by norm_num, by norm_num, by norm_num⟩
private theorem safe107 : SafePrime 7 107 := ⟨by norm_num, by norm_num, by norm_num, by norm_num⟩

/-- The search skips 97, which is 1 modulo 4. -/
example : paillierKeyRandom true [97, 103] [127] = some (.ok (103, 127) : Out Unit _) := by decide

example : FullSizePrimes small 103 127 ∧ bitLen (103 * 127) = 14 := by
  obtain ⟨p, q, hr, -, -, -, -, hl, h⟩ := C68_paillier_key_partial (ε := Unit) (P := small) (by decide) true [97, 103] [127]
    (by simp only [List.mem_cons, List.not_mem_nil, or_false]; rintro c (rfl | rfl); exacts [sieve97, sieve103])
    (by simp only [List.mem_cons, List.not_mem_nil, or_false]; rintro c rfl; exact sieve127) (.ok (103, 127)) (by decide)
  obtain ⟨rfl, rfl⟩ := Prod.mk.inj (Out.ok.inj hr)
  exact ⟨(h (by decide)).1, hl⟩

/-- The same prime twice is a possible outcome of the search, and then the key cannot be made. -/
example : paillierKeyRandom true [97, 103] [103] = some (.ok (103, 103) : Out Unit _) ∧ (SecretKey.new 103 103 : Out Unit _) = .panic :=
  ⟨by decide, C68_equal_primes_panic 103 (by norm_num)⟩

example : (rpSecretRandom true 16 14 83 107 5000 : Out Unit _) = .ok 654 ∧ (654 < (83 - 1) * (107 - 1) / 4) := by decide

example : ∃ lambda, (rpSecretRandom true 16 small.modBits 83 107 5000 : Out Unit _) = .ok lambda ∧ lambda < (83 - 1) * (107 - 1) / 4 ∧ lambda < 2 ^ (small.modBits - 2) :=
  (C68_ring_pedersen_partial (P := small) (by decide) (by decide) true 16 83 107 5000 (by decide) safe83 safe107).1

example : Set.BijOn (fun lambda : Nat => quadraticResidue (83 * 107) 5 ^ lambda) {lambda | lambda < (83 - 1) * (107 - 1) / 4} {x | IsUnit x ∧ IsSquare x} :=
  C68_base_uniform (bits := 7) (by decide) safe83 safe107 (by decide) 5 ⟨by decide, by decide⟩ (by decide) (by decide)

example : randomInvertibleResidue (83 * 107) [83, 8881 + 5, 7] = some 5 := by decide

end Synedrion.Props
