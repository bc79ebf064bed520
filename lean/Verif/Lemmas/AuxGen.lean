import Verif.Spec.AuxInfo
import Verif.Lemmas.Cast
import Verif.Lemmas.Evidence
import Verif.Props.ZkModulus
import Verif.Props.ZkFac

/-!
# Helper lemmas for auxiliary info generation
-/

set_option linter.unusedSectionVars false

namespace Synedrion

open Spec Props

variable {I Sid V : Type} [LinearOrder I] [DecidableEq V] {ε : Type}

/-- A product of two numbers of `b` bits each has at least `2b - 1` bits. -/
theorem bitLen_mul_ge {b p q : Nat} (hb : 0 < b) (hp : 2 ^ (b - 1) ≤ p) (hq : 2 ^ (b - 1) ≤ q) : ¬ bitLen (p * q) < 2 * b - 2 := by
  intro h
  have h1 : bitLen (p * q) ≤ 2 * b - 2 := by omega
  rw [bitLen_le_iff] at h1
  have h2 : 2 ^ (b - 1) * 2 ^ (b - 1) ≤ p * q := Nat.mul_le_mul hp hq
  rw [← pow_add, show b - 1 + (b - 1) = 2 * b - 2 by omega] at h2
  omega

theorem toPrecomputed_toWire {N : Nat} (hodd : N % 2 = 1) (rp : RPParams N) : (rp.toWire.toPrecomputed : Out ε _) = .ok rp := by
  have : NeZero N := ⟨by rintro rfl; simp at hodd⟩
  unfold RPParamsWire.toPrecomputed publicModulusNew RPParams.toWire
  simp only [hodd, if_true, Out.bind_ok]
  congr 1
  cases rp with
  | mk t s => simp

theorem open_msg2 {d : AuxGen.PublicData} (h1 : d.pk % 2 = 1) (h2 : d.rp.modulus % 2 = 1) : (d.msg2.open : Out ε _) = .ok d := by
  unfold AuxGen.Msg2.open AuxGen.PublicData.msg2
  have h3 := toPrecomputed_toWire (ε := ε) h2 d.rp.rp
  unfold RPParams.toWire at h3
  simp only [publicModulusNew, h1, if_true, Out.bind_ok, RPParams.toWire, h3]

theorem Msg2.open_eq_ok {m : AuxGen.Msg2} {d : AuxGen.PublicData} (h : (m.open : Out ε _) = .ok d) :
    d.pk = m.pk ∧ d.rp.modulus = m.echo.rp.modulus ∧ d.psi = m.psi ∧ d.rid = m.echo.rid ∧ d.u = m.u ∧ m.pk % 2 = 1 ∧ m.echo.rp.modulus % 2 = 1 ∧
      ∀ ε', (m.open : Out ε' _) = .ok d := by
  unfold AuxGen.Msg2.open publicModulusNew RPParamsWire.toPrecomputed publicModulusNew at h
  simp only [Out.bind_eq_ok] at h
  obtain ⟨pk, hpk, rp, ⟨_, hrp, hx⟩, hd⟩ := h
  split at hpk
  · rename_i hodd
    split at hrp
    · rename_i hodd2
      cases hpk; cases hx; cases hd
      refine ⟨rfl, rfl, rfl, rfl, rfl, hodd, hodd2, fun ε' => ?_⟩
      unfold AuxGen.Msg2.open publicModulusNew RPParamsWire.toPrecomputed publicModulusNew
      simp [hodd, hodd2]
    · simp at hrp
  · simp at hpk

theorem Msg2.open_ne_err {m : AuxGen.Msg2} {e : ε} : m.open ≠ .err e := by
  unfold AuxGen.Msg2.open publicModulusNew RPParamsWire.toPrecomputed publicModulusNew
  split <;> simp
  split <;> simp

theorem Msg2.open_eq_panic {m : AuxGen.Msg2} : (m.open : Out ε _) = .panic ↔ m.pk % 2 = 0 ∨ m.echo.rp.modulus % 2 = 0 := by
  unfold AuxGen.Msg2.open publicModulusNew RPParamsWire.toPrecomputed publicModulusNew
  by_cases h1 : m.pk % 2 = 1 <;> by_cases h2 : m.echo.rp.modulus % 2 = 1 <;> simp [h1, h2] <;> omega

/-! ### When verifying and making a factoring proof panics -/

theorem powPublic_ok_of_isUnit {n : Nat} {a : ZMod n} (ha : IsUnit a) (e : SInt) : ∃ b, (powPublic a e : Out ε _) = .ok b ∧ IsUnit b := by
  obtain ⟨u, rfl⟩ := ha
  have hp : ∃ v : (ZMod n)ˣ, powBounded (u : ZMod n) e.val.natAbs e.bound = v := ⟨u ^ (e.val.natAbs % 2 ^ e.bound), by simp [powBounded]⟩
  obtain ⟨v, hv⟩ := hp
  unfold powPublic
  simp only [hv, invMod?_unit]
  by_cases h : e.val < 0
  · exact ⟨_, by rw [if_pos h]; rfl, Units.isUnit _⟩
  · exact ⟨_, by rw [if_neg h], Units.isUnit _⟩

theorem FacProof.verify_no_panic {Aux : Type} {P : Params} (hmw : P.modBits < P.wide) (H : FacHash Aux → SInt) {N0 Nh : Nat} (hN0 : N0 < 2 ^ P.modBits)
    (setup : RPParams Nh) (hb : setup.Valid) (aux : Aux) (prf : FacProof) (hP : IsUnit (prf.capP : ZMod Nh)) (hQ : IsUnit (prf.capQ : ZMod Nh)) :
    ∃ b, (prf.verify P H N0 setup aux : Out ε _) = .ok b := by
  have hc : ∀ a b : SInt, ∃ x, (setup.commitPublic a b : Out ε _) = .ok x := by
    intro a b
    obtain ⟨x, hx, _⟩ := powPublic_ok_of_isUnit (ε := ε) hb.1 a
    obtain ⟨y, hy, _⟩ := powPublic_ok_of_isUnit (ε := ε) hb.2 b
    exact ⟨x * y, by simp [RPParams.commitPublic, hx, hy]⟩
  have hchk : ∀ (c : Bool) (r : Out ε Bool), (∃ b, r = .ok b) → ∃ b, Out.check c r = .ok b := by
    intro c r hr
    cases c
    · exact ⟨false, by simp⟩
    · simpa using hr
  simp only [FacProof.verify]
  refine hchk _ _ (hchk _ _ (hchk _ _ ?_))
  have hnS : (modulusSigned P N0 : Out ε _) = .ok ⟨P.modBits, (N0 : Int)⟩ := by
    unfold modulusSigned; rw [if_pos ⟨hmw, hN0⟩]
  rw [hnS, Out.bind_ok]
  unfold RPParams.commitZeroRandomizerPublic RPParams.commitZeroValuePublic commitmentOfWire
  obtain ⟨capR, h1, hR⟩ := powPublic_ok_of_isUnit (ε := ε) hb.1 ⟨P.modBits, (N0 : Int)⟩
  rw [h1, Out.bind_ok]
  obtain ⟨x, h2⟩ := hc prf.z1 prf.w1
  rw [h2, Out.bind_ok]
  obtain ⟨y, h3, _⟩ := powPublic_ok_of_isUnit (ε := ε) hP (H ⟨prf.capP, prf.capQ, prf.capA, prf.capB, prf.capT, N0, setup.toWire, aux⟩)
  rw [h3, Out.bind_ok]
  refine hchk _ _ ?_
  obtain ⟨x, h2⟩ := hc prf.z2 prf.w2
  rw [h2, Out.bind_ok]
  obtain ⟨y, h3, _⟩ := powPublic_ok_of_isUnit (ε := ε) hQ (H ⟨prf.capP, prf.capQ, prf.capA, prf.capB, prf.capT, N0, setup.toWire, aux⟩)
  rw [h3, Out.bind_ok]
  refine hchk _ _ ?_
  obtain ⟨x, h2, _⟩ := powPublic_ok_of_isUnit (ε := ε) hQ prf.z1
  rw [h2, Out.bind_ok]
  obtain ⟨x, h2, _⟩ := powPublic_ok_of_isUnit (ε := ε) hb.2 prf.v
  rw [h2, Out.bind_ok]
  obtain ⟨x, h2, _⟩ := powPublic_ok_of_isUnit (ε := ε) hR (H ⟨prf.capP, prf.capQ, prf.capA, prf.capB, prf.capT, N0, setup.toWire, aux⟩)
  rw [h2, Out.bind_ok]
  exact hchk _ _ ⟨true, rfl⟩

theorem powBounded_zero {n : Nat} {e b : Nat} (he : 0 < e) (hb : e < 2 ^ b) : powBounded (0 : ZMod n) e b = 0 := by
  unfold powBounded
  rw [Nat.mod_eq_of_lt hb, zero_pow (by omega)]

theorem invMod?_zero {n : Nat} (hn : 1 < n) : invMod? (0 : ZMod n) = none := by
  have : NeZero n := ⟨by omega⟩
  have : Fact (1 < n) := ⟨hn⟩
  cases h : invMod? (0 : ZMod n) with
  | none => rfl
  | some b =>
    have := (invMod?_isSome (a := (0 : ZMod n))).1 (by rw [h]; rfl)
    exact absurd this not_isUnit_zero

/-- Making a factoring proof panics if the verifier's base `s` is zero. -/
theorem FacProof.prove_zero_base {Aux : Type} {P : Params} (H : FacHash Aux → SInt) {Nh : Nat} (hNh : 1 < Nh) {p q' : Nat} (hp : 0 < p)
    (setup : RPParams Nh) (hs : setup.s = 0) (aux : Aux) (mask : FacMasks) (prf : FacProof) :
    (FacProof.prove P H p q' setup aux mask : Out ε _) ≠ .ok prf := by
  intro h
  unfold FacProof.prove at h
  obtain ⟨pS, h1, h⟩ := Out.bind_eq_ok.1 h
  obtain ⟨qS, -, h⟩ := Out.bind_eq_ok.1 h
  obtain ⟨capP, h2, h⟩ := Out.bind_eq_ok.1 h
  unfold RPParams.commitSecret at h2
  obtain ⟨a, ha, -⟩ := Out.bind_eq_ok.1 h2
  unfold primeSigned at h1
  split at h1
  · rename_i hc
    cases h1
    rw [hs] at ha
    unfold powSecret at ha
    split at ha
    · rename_i hlt
      simp only [Int.natAbs_natCast] at hlt ha
      rw [powBounded_zero hp hlt, invMod?_zero hNh] at ha
      simp at ha
    · simp at ha
  · simp at h1

/-! ### Honest parties' keys and proofs -/

theorem odd_of_primes {p q : Nat} (h : PaillierPrimes p q) : p * q % 2 = 1 := by
  rw [Nat.mul_mod, h.odd_p, h.odd_q]

theorem HashesValid.modBits_eq {E : AuxEnv I Sid} {k : Nat} (hE : HashesValid E k) : E.P.modBits = 2 * E.P.primeBits := hE.consistent.2.1.1

theorem FullSizePrimes.lt {P : Params} {p q : Nat} (h : FullSizePrimes P p q) (hm : P.modBits = 2 * P.primeBits) : p * q < 2 ^ P.modBits := by
  rw [hm, two_mul, pow_add]; exact Nat.mul_lt_mul_of_lt_of_lt h.highP h.highQ

theorem FullSizePrimes.primeBits_pos {P : Params} {p q : Nat} (h : FullSizePrimes P p q) : 0 < P.primeBits := by
  by_contra hn
  have h0 : P.primeBits = 0 := by omega
  have := h.highP
  rw [h0] at this
  have := h.primes.prime_p.two_le
  omega

theorem FullSizePrimes.size {P : Params} {p q : Nat} (h : FullSizePrimes P p q) (hm : P.modBits = 2 * P.primeBits) : ¬ bitLen (p * q) < P.modBits - 2 := by
  rw [hm]; exact bitLen_mul_ge (FullSizePrimes.primeBits_pos h) h.lowP h.lowQ

namespace Spec.DrawsValid

variable {E : AuxEnv I Sid} {k : Nat} {d : AuxDraws I}

theorem key_lt (hd : DrawsValid E k d) (hE : HashesValid E k) : d.p * d.q < 2 ^ E.P.modBits := FullSizePrimes.lt hd.key (HashesValid.modBits_eq hE)

theorem rp_lt (hd : DrawsValid E k d) (hE : HashesValid E k) : d.rpP * d.rpQ < 2 ^ E.P.modBits := FullSizePrimes.lt hd.rpKey (HashesValid.modBits_eq hE)

theorem rp_valid (hd : DrawsValid E k d) : (RPParams.withSecret (d.rpP * d.rpQ) E.P.modBits d.lambda d.tDraw).Valid := by
  obtain ⟨_, h1, h2, _⟩ := C24_generated_parameters (d.rpP * d.rpQ) E.P.modBits d.lambda d.tDraw hd.lambda hd.tDraw
  exact ⟨h2, h1⟩

theorem prm_ok (hd : DrawsValid E k d) (hE : HashesValid E k) (aux : Sid × I) :
    (PrmProof.prove E.P E.prmH ((d.rpP - 1) * (d.rpQ - 1)) d.lambda (RPParams.withSecret (d.rpP * d.rpQ) E.P.modBits d.lambda d.tDraw) aux d.prmMasks).verify
      E.prmH (RPParams.withSecret (d.rpP * d.rpQ) E.P.modBits d.lambda d.tDraw) aux = true :=
  (C32_complete hd.rpKey.primes (hd.rp_lt hE) E.prmH d.lambda d.tDraw hd.lambda hd.tDraw aux d.prmMasks hd.prmMasks
    (fun t => (hE.prm t).trans hd.prmLen.symm)).1

/-- Consistent auxiliary info made of valid draws can be used for signing -/
theorem usable (hE : HashesValid E k) {ids : Finset I} {d : I → AuxDraws I} (hd : ∀ i ∈ ids, DrawsValid E k (d i)) {infos : I → AuxInfo I PaillierKey PublicAux}
    (hc : ConsistentAux ids infos fun j => ⟨(d j).p * (d j).q, (RPParams.withSecret ((d j).rpP * (d j).rpQ) E.P.modBits (d j).lambda (d j).tDraw).toWire⟩)
    (hp : ∀ i ∈ ids, (infos i).secret.p = (d i).p ∧ (infos i).secret.q = (d i).q)
    (hsk : ∀ i ∈ ids, ∃ ε, (SecretKey.new (infos i).secret.p (infos i).secret.q : Out ε _) = .ok (infos i).secret.sk) :
    UsableAux E.P ids infos fun j => ⟨_, RPParams.withSecret ((d j).rpP * (d j).rpQ) E.P.modBits (d j).lambda (d j).tDraw⟩ where
  consistent := ⟨hc.owner, hc.holders, fun i hi j hj => by rw [hc.public_agree i hi j hj, (hp j hj).1, (hp j hj).2], fun i _ => rfl⟩
  primes i hi := by rw [(hp i hi).1, (hp i hi).2]; exact (hd i hi).key
  secretKey i hi := by
    obtain ⟨ε, h⟩ := hsk i hi
    exact Out.eq_ok_of_cast (SecretKey.new_cast _ _) h
  rpOdd i hi := odd_of_primes (hd i hi).rpKey.primes
  rpSize i hi := (hd i hi).rp_lt hE
  rpValid i hi := (hd i hi).rp_valid

theorem new_ok (hd : DrawsValid E k d) : ∃ sk, (SecretKey.new d.p d.q : Out ε _) = .ok sk := by
  obtain ⟨sk, h, _⟩ := SecretKey.new_ok (ε := ε) hd.key.primes
  exact ⟨sk, h⟩

end Spec.DrawsValid

theorem honest_mod {E : AuxEnv I Sid} {k : Nat} (hE : HashesValid E k) {d : AuxDraws I} (hd : DrawsValid E k d) {ε ε' : Type} {sk : SecretKey d.p d.q}
    (hsk : (SecretKey.new d.p d.q : Out ε _) = .ok sk) (aux : Sid × I × List Bool) :
    ∃ prf, (AuxGen.makeMod E ⟨d.p, d.q, sk⟩ d.modDraw d.modBit aux : Out ε' _) = .ok prf ∧ prf.verify E.P E.modH E.isPrime (d.p * d.q) aux = true := by
  obtain ⟨prf, h1, _, h2⟩ := C33_complete hd.key.primes hd.blumP hd.blumQ hd.key.highP hd.key.highQ (hd.key_lt hE) sk hsk E.modH
    (fun t ht y hy => ht ▸ hE.mod t y hy) E.isPrime hd.composite d.modDraw hd.modDraw d.modBit aux
  exact ⟨prf, Out.eq_ok_of_cast (ModProof.prove_cast ..) h1, h2⟩

theorem honest_fac {E : AuxEnv I Sid} {k : Nat} (hE : HashesValid E k) {d : AuxDraws I} (hd : DrawsValid E k d) {rp : RPSetup}
    (hpos : 0 < rp.modulus) (hlt : rp.modulus < 2 ^ E.P.modBits) (hv : rp.rp.Valid)
    {mask : FacMasks} (hmask : FacDrawsValid E.P (d.p * d.q) rp.modulus mask) (sk : SecretKey d.p d.q) (aux : Sid × I × List Bool) {ε : Type} :
    ∃ prf, (AuxGen.makeFac E ⟨d.p, d.q, sk⟩ rp aux mask : Out ε _) = .ok prf ∧
      ∀ ε', (prf.verify E.P E.facH (d.p * d.q) rp.rp aux : Out ε' _) = .ok true := by
  have := C31_inner_masks_accepted (ε := ε) E.facH hE.fac d.p d.q rp.rp
    ⟨hE.consistent, hE.curve, hE.extra, hd.key.highP, hd.key.highQ, hpos, hlt, hv⟩ aux mask hmask.masks hmask.innerAlpha hmask.innerBeta
  rw [Out.bind_eq_ok] at this
  obtain ⟨prf, hp, hv⟩ := this
  exact ⟨prf, hp, fun ε' => Out.eq_ok_of_cast (FacProof.verify_cast ..) hv⟩

theorem makeFac_ok {E : AuxEnv I Sid} {k : Nat} (hE : HashesValid E k) {d : AuxDraws I} (hd : DrawsValid E k d) {rp : RPSetup}
    (hpos : 0 < rp.modulus) (hlt : rp.modulus < 2 ^ E.P.modBits) (hv : rp.rp.Valid)
    {mask : FacMasks} (hmask : FacMasksValid E.P (d.p * d.q) rp.modulus mask) (sk : SecretKey d.p d.q) (aux : Sid × I × List Bool) {ε : Type} :
    ∃ prf, (AuxGen.makeFac E ⟨d.p, d.q, sk⟩ rp aux mask : Out ε _) = .ok prf := by
  obtain ⟨prf, h, _⟩ := C31_honest (ε := ε) E.facH hE.fac d.p d.q rp.rp
    ⟨hE.consistent, hE.curve, hE.extra, hd.key.highP, hd.key.highQ, hpos, hlt, hv⟩ aux mask hmask
  exact ⟨prf, h⟩

/-- Outcomes that do not depend on the error type are a value or a panic. -/
theorem Out.ok_or_panic_of_cast {α : Type} {x : Out Empty α} {y : Out ε α} (h : Out.cast ε x = y) : y = .panic ∨ ∃ a, y = .ok a := by
  cases x with
  | ok a => exact .inr ⟨a, h.symm⟩
  | err e => exact e.elim
  | panic => exact .inl h.symm

theorem makeFac_cases (E : AuxEnv I Sid) (key : PaillierKey) (rp : RPSetup) (aux : Sid × I × List Bool) (mask : FacMasks) :
    (AuxGen.makeFac E key rp aux mask : Out ε _) = .panic ∨ ∃ prf, (AuxGen.makeFac E key rp aux mask : Out ε _) = .ok prf :=
  Out.ok_or_panic_of_cast (FacProof.prove_cast (ε := Empty) ..)

theorem makeMod_cases (E : AuxEnv I Sid) (key : PaillierKey) (modDraw : Nat) (modBit : Bool) (aux : Sid × I × List Bool) :
    (AuxGen.makeMod E key modDraw modBit aux : Out ε _) = .panic ∨ ∃ prf, (AuxGen.makeMod E key modDraw modBit aux : Out ε _) = .ok prf :=
  Out.ok_or_panic_of_cast (ModProof.prove_cast (ε := Empty) ..)

theorem verifyFac_cases {Aux : Type} (P : Params) (H : FacHash Aux → SInt) {N0 Nh : Nat} (setup : RPParams Nh) (aux : Aux) (prf : FacProof) :
    (prf.verify P H N0 setup aux : Out ε _) = .panic ∨ ∃ b, (prf.verify P H N0 setup aux : Out ε _) = .ok b :=
  Out.ok_or_panic_of_cast (FacProof.verify_cast (ε := Empty) ..)

namespace AuxGen

/-- The public data an honest party makes from its draws. -/
def hdata (E : AuxEnv I Sid) (sid : Sid) (i : I) (d : AuxDraws I) : PublicData :=
  ⟨d.p * d.q, ⟨_, RPParams.withSecret (d.rpP * d.rpQ) E.P.modBits d.lambda d.tDraw⟩,
    PrmProof.prove E.P E.prmH ((d.rpP - 1) * (d.rpQ - 1)) d.lambda (RPParams.withSecret (d.rpP * d.rpQ) E.P.modBits d.lambda d.tDraw) (sid, i) d.prmMasks,
    d.rid, d.u⟩

theorem start_ok {E : AuxEnv I Sid} {ids : Finset I} {sid : Sid} {i : I} {d : AuxDraws I} {c : Context I Sid} (h : start E ids sid i d = .ok c) :
    i ∈ ids ∧ d.rpP * d.rpQ % 2 = 1 ∧ ∃ sk, (SecretKey.new d.p d.q : Out LocalErr _) = .ok sk ∧
      c = ⟨⟨d.p, d.q, sk⟩, ⟨_, RPParams.withSecret (d.rpP * d.rpQ) E.P.modBits d.lambda d.tDraw⟩, i, ids.erase i, sid, hdata E sid i d,
        d.modDraw, d.modBit, d.facMasks⟩ := by
  unfold start at h
  split at h
  · simp at h
  rename_i hi
  simp only [makeData, Out.bind_eq_ok, publicModulusNew] at h
  obtain ⟨x, ⟨sk, hsk, y, hy, hx⟩, hc⟩ := h
  split at hy
  · rename_i hodd
    cases hx; cases hc
    exact ⟨not_not.1 hi, hodd, sk, hsk, rfl⟩
  · simp at hy

theorem hdata_accepted {E : AuxEnv I Sid} {k : Nat} (hE : HashesValid E k) {d : AuxDraws I} (hd : DrawsValid E k d) (sid : Sid) (i : I)
    (hashV : Sid → I → Hashed → V) (capVs : BMap I V) (hv : capVs.get? i = some (hashV sid i (hdata E sid i d).hashed)) :
    recv2 E hashV sid capVs i (hdata E sid i d).msg2 = .ok (hdata E sid i d).payload := by
  unfold recv2
  rw [open_msg2 (odd_of_primes hd.key.primes) (odd_of_primes hd.rpKey.primes), Out.bind_ok]
  unfold recvGet
  rw [hv, Out.ofOption_some, Out.bind_ok, if_neg (by simp)]
  have b1 : ¬ bitLen (hdata E sid i d).pk < E.P.modBits - 2 := FullSizePrimes.size hd.key (HashesValid.modBits_eq hE)
  have b2 : ¬ bitLen (hdata E sid i d).rp.modulus < E.P.modBits - 2 := FullSizePrimes.size hd.rpKey (HashesValid.modBits_eq hE)
  rw [if_neg b1, if_neg b2, if_neg]
  rw [not_not]; exact hd.prm_ok hE (sid, i)

theorem recv2_ok {E : AuxEnv I Sid} {hashV : Sid → I → Hashed → V} {sid : Sid} {capVs : BMap I V} {j : I} {m : Msg2} {p : Payload2}
    (h : recv2 E hashV sid capVs j m = .ok p) :
    ∃ data v, (∀ ε, (m.open : Out ε _) = .ok data) ∧ capVs.get? j = some v ∧ hashV sid j data.hashed = v ∧ ¬ bitLen data.pk < E.P.modBits - 2 ∧
      ¬ bitLen data.rp.modulus < E.P.modBits - 2 ∧ data.psi.verify E.prmH data.rp.rp (sid, j) = true ∧ p = data.payload := by
  unfold recv2 at h
  obtain ⟨data, ho, h⟩ := Out.bind_eq_ok.1 h
  obtain ⟨v, hv, h⟩ := Out.bind_eq_ok.1 h
  have hv' : capVs.get? j = some v := by
    unfold recvGet at hv; cases hg : capVs.get? j with
    | none => simp [hg] at hv
    | some x => simpa [hg] using hv
  split at h
  · simp at h
  split at h
  · simp at h
  split at h
  · simp at h
  split at h
  · simp at h
  rename_i h1 h2 h3 h4
  cases h
  exact ⟨data, v, (Msg2.open_eq_ok ho).2.2.2.2.2.2.2, hv', not_not.1 h1, h2, h3, not_not.1 h4, rfl⟩

theorem open_explicit {ε : Type} {m : Msg2} {d : PublicData} (h : (m.open : Out ε _) = .ok d) :
    d = ⟨m.pk, ⟨m.echo.rp.modulus, ⟨(m.echo.rp.baseRandomizer : ZMod _), (m.echo.rp.baseValue : ZMod _)⟩⟩, m.psi, m.echo.rid, m.u⟩ := by
  unfold Msg2.open publicModulusNew RPParamsWire.toPrecomputed publicModulusNew at h
  simp only [Out.bind_eq_ok] at h
  obtain ⟨pk, hpk, rp, ⟨_, hrp, hx⟩, hd⟩ := h
  split at hpk
  · split at hrp
    · cases hpk; cases hx; cases hd; rfl
    · simp at hrp
  · simp at hpk

/-- The parameters a party takes from a round 2 message. -/
def rpOf (m : Msg2) : RPSetup := ⟨m.echo.rp.modulus, ⟨(m.echo.rp.baseRandomizer : ZMod _), (m.echo.rp.baseValue : ZMod _)⟩⟩

theorem toRound3_ok {E : AuxEnv I Sid} {hashV : Sid → I → Hashed → V} {c : Context I Sid} {in1 : List (I × V)} {in2 : List (I × Msg2)}
    {r3 : Round3 I Sid} (hme : c.myId ∉ c.otherIds) (h : toRound3 E hashV c in1 in2 = .ok r3) :
    r3.ctx = c ∧ (in2.map Prod.fst).Nodup ∧ (in2.map Prod.fst).toFinset = c.otherIds ∧ r3.payloads.keySet = insert c.myId c.otherIds ∧
      r3.payloads.get? c.myId = some c.data.payload ∧ r3.psiPrime = r3.psiPrime ∧
      (∀ j m, (j, m) ∈ in2 → r3.payloads.get? j = some ⟨m.pk, rpOf m, m.echo.rid⟩ ∧ m.pk % 2 = 1 ∧ m.echo.rp.modulus % 2 = 1 ∧
        ¬ bitLen m.pk < E.P.modBits - 2 ∧ ¬ bitLen m.echo.rp.modulus < E.P.modBits - 2 ∧ m.psi.verify E.prmH (rpOf m).rp (c.sid, j) = true ∧
        ∃ v, (j, v) ∈ in1 ∧ hashV c.sid j ⟨m.pk, (rpOf m).rp.toWire, m.psi, m.echo.rid, m.u⟩ = v) ∧
      JointBits (c.data.rid :: in2.map fun a => a.2.echo.rid) r3.rid ∧
      (makeMod E c.key c.modDraw c.modBit (c.sid, c.myId, r3.rid) : Out (Abort I (Err I)) _) = .ok r3.psiPrime := by
  unfold toRound3 at h
  simp only [Out.bind_eq_ok] at h
  obtain ⟨capVs, hv, pls, hp, hf2⟩ := h
  obtain ⟨nd1, ex1, k1, a1⟩ := collect_eq_ok.1 hv
  obtain ⟨nd2, ex2, k2, a2⟩ := collect_eq_ok.1 hp
  simp only [finalize2, Out.bind_eq_ok] at hf2
  obtain ⟨rid, hrid, psiP, hpsi, hr3⟩ := hf2
  cases hr3
  have hf : ∀ a ∈ in2, ∀ p, recv2 E hashV c.sid capVs a.1 a.2 = .ok p → p = (⟨a.2.pk, rpOf a.2, a.2.echo.rid⟩ : Payload2) := by
    intro a _ p hp'
    obtain ⟨data, v, ho, _, _, _, _, _, rfl⟩ := recv2_ok hp'
    rw [open_explicit (ho Unit)]; rfl
  refine ⟨rfl, nd2, ex2, ?_, ?_, rfl, ?_, ?_, hpsi⟩
  · rw [BMap.keySet_insert, k2]
  · simp [BMap.get?_insert]
  · intro j m hm
    obtain ⟨p, h1, h2⟩ := a2 _ hm
    simp only at h1 h2
    have hpe := hf _ hm p h1
    obtain ⟨data, v, ho, hgv, hh, hb1, hb2, hver, -⟩ := recv2_ok h1
    have hodd := Msg2.open_eq_ok (ho Unit)
    have hexp := open_explicit (ho Unit)
    subst hexp
    have hj : j ∈ c.otherIds := by rw [← ex2, List.mem_toFinset]; exact List.mem_map.2 ⟨_, hm, rfl⟩
    obtain ⟨v', v'', hv1, hv', hgv'⟩ := collect_mem hv hj
    cases hv'
    rw [hgv] at hgv'; cases hgv'
    refine ⟨?_, hodd.2.2.2.2.2.1, hodd.2.2.2.2.2.2.1, hb1, hb2, hver, v, hv1, hh⟩
    rw [BMap.get?_insert, if_neg (by rintro rfl; exact hme hj), h2, hpe]
  · refine (xorAll_eq_ok.1 hrid).perm (List.Perm.cons _ ?_)
    have hpe := collect_entries_perm (f := fun _ m => (⟨m.pk, rpOf m, m.echo.rid⟩ : Payload2)) hp hf
    have := hpe.map fun p => p.2.rid
    rw [List.map_map] at this
    show ((pls.entries.map Prod.snd).map Payload2.rid).Perm _
    rw [List.map_map]
    exact this

theorem mapM'_panic_cases {α β ε : Type} {f : α → Out ε β} {l : List α} (h : Out.mapM' f l = .panic) : ∃ a ∈ l, f a = .panic := by
  induction l with
  | nil => simp [Out.mapM'] at h
  | cons a l ih =>
    simp only [Out.mapM'] at h
    cases ha : f a with
    | panic => exact ⟨a, by simp, ha⟩
    | err e => rw [ha] at h; simp at h
    | ok b =>
      rw [ha, Out.bind_ok] at h
      cases hl : Out.mapM' f l with
      | panic => obtain ⟨x, hx, hf⟩ := ih hl; exact ⟨x, by simp [hx], hf⟩
      | err e => rw [hl] at h; simp at h
      | ok r => rw [hl] at h; simp at h

theorem mapM'_panic_of_mem {α β ε : Type} {f : α → Out ε β} {l : List α} (hf : ∀ a ∈ l, f a = .panic ∨ ∃ b, f a = .ok b) {a : α} (ha : a ∈ l)
    (hp : f a = .panic) : Out.mapM' f l = .panic := by
  induction l with
  | nil => simp at ha
  | cons x l ih =>
    simp only [Out.mapM']
    rcases hf x (by simp) with hx | ⟨b, hx⟩
    · rw [hx]; rfl
    · have hne : a ≠ x := by rintro rfl; rw [hp] at hx; cases hx
      rw [hx, Out.bind_ok, ih (fun y hy => hf y (by simp [hy])) ((List.mem_cons.1 ha).resolve_left hne)]
      rfl

/-- A round 2 message with zero bases and a forged proof for them. -/
def badMsg2 (E : AuxEnv I Sid) (sid : Sid) (j : I) (k : Nat) (rid : List Bool) : Msg2 :=
  ⟨⟨⟨2 ^ E.P.modBits - 1, 0, 0⟩, rid⟩, 2 ^ E.P.modBits - 1,
    ⟨List.replicate k 0, E.prmH ⟨List.replicate k 0, (⟨0, 0⟩ : RPParams (2 ^ E.P.modBits - 1)).toWire, (sid, j)⟩, List.replicate k 1⟩, []⟩

theorem badMsg2_accepted {E : AuxEnv I Sid} {k : Nat} (hE : HashesValid E k) (hpos : 0 < E.P.modBits) (hashV : Sid → I → Hashed → V) (sid : Sid) (j : I)
    (rid : List Bool) (capVs : BMap I V)
    (hv : capVs.get? j = some (hashV sid j ⟨2 ^ E.P.modBits - 1, (⟨0, 0⟩ : RPParams (2 ^ E.P.modBits - 1)).toWire, (badMsg2 E sid j k rid).psi, rid, []⟩)) :
    recv2 E hashV sid capVs j (badMsg2 E sid j k rid) = .ok ⟨2 ^ E.P.modBits - 1, ⟨2 ^ E.P.modBits - 1, ⟨0, 0⟩⟩, rid⟩ := by
  have hodd : (2 ^ E.P.modBits - 1) % 2 = 1 := by
    obtain ⟨n, hn⟩ : ∃ n, E.P.modBits = n + 1 := ⟨E.P.modBits - 1, by omega⟩
    rw [hn, pow_succ]
    have := Nat.one_le_two_pow (n := n)
    omega
  have hb : ¬ bitLen (2 ^ E.P.modBits - 1) < E.P.modBits - 2 := by
    intro h
    have h1 : bitLen (2 ^ E.P.modBits - 1) ≤ E.P.modBits - 1 := by omega
    rw [bitLen_le_iff] at h1
    obtain ⟨n, hn⟩ : ∃ n, E.P.modBits = n + 1 := ⟨E.P.modBits - 1, by omega⟩
    rw [hn, pow_succ] at h1
    simp only [Nat.add_sub_cancel] at h1
    have := Nat.one_le_two_pow (n := n)
    have h2 : n = 0 ∨ 0 < n := by omega
    rcases h2 with rfl | h2
    · omega
    · have : 2 ≤ 2 ^ n := by
        calc 2 = 2 ^ 1 := rfl
          _ ≤ 2 ^ n := Nat.pow_le_pow_right (by norm_num) h2
      omega
  have ho : ((badMsg2 E sid j k rid).open : Out (RecvErr (Err I)) _) =
      .ok ⟨2 ^ E.P.modBits - 1, ⟨2 ^ E.P.modBits - 1, ⟨0, 0⟩⟩, (badMsg2 E sid j k rid).psi, rid, []⟩ := by
    simp [Msg2.open, badMsg2, RPParamsWire.toPrecomputed, publicModulusNew, hodd]
    exact Nat.cast_zero
  have hacc := (C32_zero_bases_accepted E.prmH (2 ^ E.P.modBits - 1) k hE.prm (sid, j)).1
  unfold recv2 recvGet
  rw [ho, Out.bind_ok, hv, Out.ofOption_some, Out.bind_ok, if_neg (by simp [PublicData.hashed])]
  rw [if_neg hb, if_neg hb, if_neg]
  · rfl
  · rw [not_not]; exact hacc

end AuxGen

end Synedrion
