import Verif.Props.ZkEncElg
import Verif.Props.ZkAffG
import Verif.Props.ZkDec
import Verif.Props.ZkFac

/-!
# Property C35: parameter sets

Every checked operation on bounded integers is a panic in the model when its result does not fit, so "no overflow" is the statement that honest
provers and verifiers return.
-/

set_option linter.unusedSectionVars false

namespace Synedrion.Props
open Spec

variable {ε : Type} {q : Nat} {G Aux : Type} [AddCommGroup G] [Module (ZMod q) G] [DecidableEq G]

/-- **C35 (shipped sets).** The three shipped parameter sets pass the self-consistency check, and have the bit to spare that the factoring proof
needs; the product of any two values of a half-size or full-size type fits the type it is put into (src/paillier/params.rs:32,48). -/
theorem C35_shipped_consistent (P : Params) (hP : P ∈ [Params.production112, Params.production128, Params.test]) :
    P.SelfConsistent ∧ 2 * P.modBits + P.L + P.EPS + 1 < P.extra ∧ 0 < P.numBits ∧ 2 * P.half ≤ P.uint ∧ 2 * P.uint ≤ P.wide := by
  simp only [List.mem_cons, List.not_mem_nil, or_false] at hP
  rcases hP with rfl | rfl | rfl <;> decide

/-- **C35 (the bounds can be computed).** The unsigned subtraction in the constant `EPS_BOUND` does not underflow exactly if its mathematical value is not negative; then this is the
value of the constant. -/
theorem C35_bounds_exact (P : Params) : P.compiles ↔ (P.EPS : Int) = (P.primeBits : Int) - 2 * P.numBits := by
  unfold Params.compiles Params.EPS Params.L Params.kappa
  omega

/-- A set at the boundary: the difference is zero, and the constant can be computed. -/
example : (⟨8, 8, 16, 32, 16, 32, 64, 80⟩ : Params).compiles ∧ ¬ (⟨9, 8, 16, 32, 16, 32, 64, 80⟩ : Params).compiles := by
  unfold Params.compiles Params.L Params.kappa
  decide

/-- The prover and the verifier of a proof both return. -/
def Runs {α : Type} (prove : Out ε α) (verify : α → Out ε Bool) : Prop := ∃ prf b, prove = .ok prf ∧ verify prf = .ok b

/-- **C35 (enc-elg).** With any self-consistent parameters. -/
theorem C35_enc_elg_no_overflow [NeZero q] {P : Params} (H : EncElgHash G Aux → ZMod q) (g : G) {N0 Nh : Nat} (setup : RPParams Nh)
    (hset : EncElgSetting P q N0 setup) (x : SInt) (hx : x.Fits) (hxb : x.bound ≤ P.L) (rho : Nat) (b : ZMod q) (pub : EncElgPublic N0 G)
    (hrel : EncElgRelation P.L N0 g pub x.val rho b) (aux : Aux) (mask : EncElgMasks q) (hmask : EncElgMasksValid P N0 Nh mask) :
    Runs (EncElgProof.prove P H g x rho b pub setup aux mask : Out ε _) fun prf => prf.verify P H g pub setup aux := by
  obtain ⟨prf, h1, _, h2⟩ := C27_honest (ε := ε) H g setup hset x hx hxb rho b pub hrel aux mask hmask
  exact ⟨prf, _, h1, h2⟩

/-- **C35 (aff-g).** With any self-consistent parameters. -/
theorem C35_aff_g_no_overflow [NeZero q] {P : Params} (H : AffGHash G Aux → ZMod q) (g : G) {N0 N1 Nh : Nat} (setup : RPParams Nh)
    (hset : AffGSetting P q N0 N1 setup) (x y : SInt) (hx : x.Fits) (hxb : x.bound ≤ P.L) (hy : y.Fits) (hyb : y.bound ≤ P.LP)
    (rho rhoY : Nat) (pub : AffGPublic N0 N1 G) (hrel : AffGRelation P N0 N1 g q pub x.val y.val rho rhoY) (aux : Aux) (mask : AffGMasks)
    (hmask : AffGMasksValid P N0 N1 Nh mask) :
    Runs (AffGProof.prove P H g x y rho rhoY pub setup aux mask : Out ε _) fun prf => prf.verify P H g pub setup aux := by
  obtain ⟨prf, h1, _, _, h2⟩ := C28_honest (ε := ε) H g setup hset x y hx hxb hy hyb rho rhoY pub hrel aux mask hmask
  exact ⟨prf, _, h1, h2⟩

/-- **C35 (aff-g*).** With any self-consistent parameters. -/
theorem C35_aff_g_star_no_overflow {P : Params} (hP : P.SelfConsistent) (hnb : 0 < P.numBits) (H : AffGStarHash G Aux → List Bool) (g : G)
    {N0 N1 : Nat} (hN0 : 0 < N0) (hN1 : 0 < N1)
    (x y : SInt) (hx : x.Fits) (hxb : x.bound ≤ P.L) (hy : y.Fits) (hyb : y.bound ≤ P.LP)
    (rho rhoY : Nat) (pub : AffGPublic N0 N1 G) (hrel : AffGRelation P N0 N1 g q pub x.val y.val rho rhoY) (aux : Aux)
    (ephs : List AffGStarEphemeral) (hephs : ∀ eph ∈ ephs, AffGStarEphemeralValid P N0 N1 eph) (hlen : ∀ t, (H t).length = ephs.length) :
    Runs (AffGStarProof.prove P H g q x y rho rhoY pub aux ephs : Out ε _) fun prf => prf.verify P H g q pub aux := by
  obtain ⟨prf, h1, h2⟩ := C29_honest (ε := ε) hP hnb H g hN0 hN1 x y hx hxb hy hyb rho rhoY pub hrel aux ephs hephs hlen
  exact ⟨prf, _, h1, h2⟩

/-- **C35 (dec).** With any self-consistent parameters and up to `2^20` parties, the margin the parameter check reserves. -/
theorem C35_dec_no_overflow {P : Params} (hP : P.SelfConsistent) (hnb : 0 < P.numBits) (H : DecHash G Aux → List Bool) (g : G) {N0 Nh : Nat}
    (hN0 : 0 < N0) (c : Nat) (x y : SInt) (hx : x.Fits) (hxb : x.bound ≤ P.L) (hy : y.Fits) (hyb : y.bound ≤ P.LP + P.EPS + 1 + c + P.EPS)
    (rho : Nat) (pub : DecPublic N0 G) (hn : pub.numParties ≤ 2 ^ 20) (hrel : DecRelation P N0 g q pub c x.val y.val rho) (setup : RPParams Nh)
    (aux : Aux) (ephs : List DecEphemeral) (hephs : ∀ eph ∈ ephs, DecEphemeralValid P N0 c eph) (hlen : ∀ t, (H t).length = ephs.length) :
    Runs (DecProof.prove P H g q x y rho pub setup aux ephs : Out ε _) fun prf => prf.verify P H g q pub setup aux := by
  have hc : c ≤ 20 := hrel.width.2 20 hn
  have hwide : P.LP + P.EPS + 1 + c + P.EPS + 1 < P.wide := by
    obtain ⟨hc0, ⟨hm1, hm2, hm3, hm4, hm5, hm6⟩, hs1, hs2, hs3, hs4, hs5, hs6, hs7⟩ := hP
    have : 0 < P.L := hnb
    omega
  obtain ⟨prf, h1, h2⟩ := C30_honest (ε := ε) hP hnb H g hN0 c hwide x y hx hxb hy hyb rho pub hrel setup aux ephs hephs hlen
  exact ⟨prf, _, h1, h2⟩

/-- **C35 (dec, any number of parties).** For the shipped sets the bound on the number of parties is that of the integer type that counts them. -/
theorem C35_dec_shipped_no_overflow (P : Params) (hP : P ∈ [Params.production112, Params.production128, Params.test])
    (H : DecHash G Aux → List Bool) (g : G) {N0 Nh : Nat}
    (hN0 : 0 < N0) (c : Nat) (x y : SInt) (hx : x.Fits) (hxb : x.bound ≤ P.L) (hy : y.Fits) (hyb : y.bound ≤ P.LP + P.EPS + 1 + c + P.EPS)
    (rho : Nat) (pub : DecPublic N0 G) (hn : pub.numParties < 2 ^ 64) (hrel : DecRelation P N0 g q pub c x.val y.val rho) (setup : RPParams Nh)
    (aux : Aux) (ephs : List DecEphemeral) (hephs : ∀ eph ∈ ephs, DecEphemeralValid P N0 c eph) (hlen : ∀ t, (H t).length = ephs.length) :
    Runs (DecProof.prove P H g q x y rho pub setup aux ephs : Out ε _) fun prf => prf.verify P H g q pub setup aux := by
  obtain ⟨h1, _, h3, -⟩ := C35_shipped_consistent P hP
  obtain ⟨prf, h1, h2⟩ := C30_honest (ε := ε) h1 h3 H g hN0 c (C30_responses_fit P hP _ c hn hrel.width) x y hx hxb hy hyb rho pub hrel setup aux
    ephs hephs hlen
  exact ⟨prf, _, h1, h2⟩

/-- **C35 (fac), partial.** Missing: parameters that pass the self-consistency check but leave no bit to spare in the widest type (hypothesis
`extra` of `FacSetting`); `C35_fac_edge_panics` shows the claim is false there. -/
theorem C35_fac_no_overflow_partial {P : Params} (H : FacHash Aux → SInt) (hH : ∀ t, (H t).IsDraw P.L) {Nh : Nat} (p q' : Nat) (setup : RPParams Nh)
    (hset : FacSetting P p q' setup) (aux : Aux) (mask : FacMasks) (hmask : FacMasksValid P (p * q') Nh mask) :
    Runs (FacProof.prove P H p q' setup aux mask : Out ε _) fun prf => prf.verify P H (p * q') setup aux := by
  obtain ⟨prf, h1, _, _, _, _, h2⟩ := C31_honest (ε := ε) H hH p q' setup hset aux mask hmask
  exact ⟨prf, _, h1, h2⟩

/-- **C35 (fac, shipped sets).** For the shipped sets no spare-bit hypothesis is needed. -/
theorem C35_fac_shipped_no_overflow (P : Params) (hP : P ∈ [Params.production112, Params.production128, Params.test])
    (H : FacHash Aux → SInt) (hH : ∀ t, (H t).IsDraw P.L) {Nh : Nat} (p q' : Nat) (setup : RPParams Nh)
    (hp : p < 2 ^ P.primeBits) (hq : q' < 2 ^ P.primeBits) (hNh : 0 < Nh) (hNhs : Nh < 2 ^ P.modBits) (hb : setup.Valid)
    (aux : Aux) (mask : FacMasks) (hmask : FacMasksValid P (p * q') Nh mask) :
    Runs (FacProof.prove P H p q' setup aux mask : Out ε _) fun prf => prf.verify P H (p * q') setup aux := by
  obtain ⟨h1, h2, h3, -⟩ := C35_shipped_consistent P hP
  exact C35_fac_no_overflow_partial H hH p q' setup ⟨h1, h3, h2, hp, hq, hNh, hNhs, hb⟩ aux mask hmask

/-- **C35 (fac, finding).** If the widest integer type has exactly as many bits as the self-consistency check demands, and the product of the two
moduli has the full length — as every product of two moduli of the full length but the smallest has — then the honest factoring prover never
returns a proof, whatever the hash function and its draws. -/
theorem C35_fac_edge_panics {P : Params} (hedge : P.extra = 2 * P.modBits + P.L + P.EPS + 1) (H : FacHash Aux → SInt) {Nh : Nat} (p q' : Nat)
    (hlen : bitLen (p * q' * Nh) = 2 * P.modBits) (setup : RPParams Nh) (aux : Aux) (mask : FacMasks) (hmask : FacMasksValid P (p * q') Nh mask) :
    ∀ prf, (FacProof.prove P H p q' setup aux mask : Out Empty _) ≠ .ok prf := by
  intro prf h
  simp only [FacProof.prove] at h
  obtain ⟨pS, -, h⟩ := Out.bind_eq_ok.1 h
  obtain ⟨qS, -, h⟩ := Out.bind_eq_ok.1 h
  obtain ⟨_, -, h⟩ := Out.bind_eq_ok.1 h
  obtain ⟨_, -, h⟩ := Out.bind_eq_ok.1 h
  obtain ⟨_, -, h⟩ := Out.bind_eq_ok.1 h
  obtain ⟨_, -, h⟩ := Out.bind_eq_ok.1 h
  obtain ⟨_, -, h⟩ := Out.bind_eq_ok.1 h
  obtain ⟨_, -, h⟩ := Out.bind_eq_ok.1 h
  obtain ⟨_, -, h⟩ := Out.bind_eq_ok.1 h
  obtain ⟨_, -, h⟩ := Out.bind_eq_ok.1 h
  obtain ⟨_, -, h⟩ := Out.bind_eq_ok.1 h
  obtain ⟨_, -, h⟩ := Out.bind_eq_ok.1 h
  obtain ⟨_, h, -⟩ := Out.bind_eq_ok.1 h
  obtain ⟨_, -, h⟩ := Out.bind_eq_ok.1 h
  obtain ⟨_, -, h⟩ := Out.bind_eq_ok.1 h
  unfold SInt.sub at h
  have hr := hmask.r.1
  rw [hlen] at hr
  rw [if_neg (by rw [hr, hedge]; omega)] at h
  cases h

/-- A parameter set at the edge: it passes the self-consistency check. -/
def edgeParams : Params := { Params.test with extra := 609 }

/-- The edge exists: the self-consistency check accepts it. -/
theorem C35_edge_is_consistent : edgeParams.SelfConsistent ∧ edgeParams.extra = 2 * edgeParams.modBits + edgeParams.L + edgeParams.EPS + 1 := by
  decide

/-! ### Concrete cases -/

section Examples

private theorem bitLen_ge {a b : Nat} (h1 : 2 ^ b ≤ a) (h2 : a < 2 ^ (b + 1)) : bitLen a = b + 1 := by
  refine le_antisymm (bitLen_le_iff.2 h2) ?_
  by_contra h
  have := bitLen_le_iff.1 (show bitLen a ≤ b by omega)
  omega

/-- The edge theorem applies: two moduli of 256 bits whose product has 512 bits. -/
example (H : FacHash Nat → SInt) (setup : RPParams (2 ^ 256 - 1)) (mask : FacMasks)
    (hmask : FacMasksValid edgeParams ((2 ^ 128 - 1) * (2 ^ 128 - 1)) (2 ^ 256 - 1) mask) :
    ∀ prf, (FacProof.prove edgeParams H (2 ^ 128 - 1) (2 ^ 128 - 1) setup 0 mask : Out Empty _) ≠ .ok prf :=
  C35_fac_edge_panics (by decide) H _ _ (bitLen_ge (b := 511) (by decide +kernel) (by decide +kernel)) setup 0 mask hmask

/-- Its hypothesis on the draws can be met: zero is in every interval. -/
example : ∃ mask, FacMasksValid edgeParams ((2 ^ 128 - 1) * (2 ^ 128 - 1)) (2 ^ 256 - 1) mask := by
  have h : ∀ e s, 0 < s → InPmScaled e s 0 := by
    intro e s hs
    unfold InPmScaled
    have : (0 : Int) < s * 2 ^ (e - 1) := by positivity
    constructor <;> omega
  exact ⟨⟨⟨_, 0⟩, ⟨_, 0⟩, ⟨_, 0⟩, ⟨_, 0⟩, ⟨_, 0⟩, ⟨_, 0⟩, ⟨_, 0⟩⟩, ⟨rfl, h _ _ (by decide +kernel)⟩, ⟨rfl, h _ _ (by decide +kernel)⟩, ⟨rfl, h _ _ (by decide +kernel)⟩, ⟨rfl, h _ _ (by decide +kernel)⟩, ⟨rfl, h _ _ (by decide +kernel)⟩, ⟨rfl, h _ _ (by decide +kernel)⟩,
    ⟨rfl, h _ _ (by decide +kernel)⟩⟩

end Examples

end Synedrion.Props
