import Verif.Lemmas.Signing
import Verif.Lemmas.CastSigning
import Verif.Spec.Signing

/-!
# Lemmas about interactive signing: the signed representatives of scalars and the multiplications between two parties
-/

set_option linter.unusedSectionVars false

namespace Synedrion

open Spec

namespace Cipher

theorem Holds.unit {N : Nat} {m : Int} {c : Cipher} (h : c.Holds N m) : ∃ U : (ZMod (N ^ 2))ˣ, c = ⟨N, (U : Ct N)⟩ := by
  obtain ⟨u, rfl⟩ := h
  exact ⟨oneAddUnit N m * u ^ N, by rw [Units.val_mul, Units.val_pow_eq_pow_val, oneAddUnit_val]⟩

theorem mulSecret_unit {ε : Type} {N : Nat} (U : (ZMod (N ^ 2))ˣ) {k : SInt} (hk : k.Fits) :
    (Cipher.mulSecret ⟨N, (U : Ct N)⟩ k : Out ε _) = .ok ⟨N, ((U ^ k.val : (ZMod (N ^ 2))ˣ) : Ct N)⟩ := by
  unfold Cipher.mulSecret ctMulSecret
  simp only
  rw [powSecret_unit _ hk, Out.bind_ok]

end Cipher

namespace Signing

variable {q : Nat} [Fact q.Prime] {I Ep G : Type} [LinearOrder I] [AddCommGroup G] [Module (ZMod q) G] [DecidableEq G]

/-- The representative of smallest absolute value -/
def centre (x : ZMod q) : Int := if x.val > q / 2 then (x.val : Int) - q else x.val

/-- The signed integer made from a secret scalar -/
def signedI (P : Params) (x : ZMod q) : SInt := ⟨P.numBits - 1, centre x⟩

theorem centre_cast (x : ZMod q) : ((centre x : Int) : ZMod q) = x := by
  have : NeZero q := ⟨(Fact.out : q.Prime).ne_zero⟩
  unfold centre
  split <;> simp

theorem centre_abs (hodd : q % 2 = 1) (x : ZMod q) : 2 * |centre x| < (q : Int) := by
  have : NeZero q := ⟨(Fact.out : q.Prime).ne_zero⟩
  have hx := ZMod.val_lt x
  unfold centre
  split
  · rw [abs_of_neg (by omega)]; omega
  · rw [abs_of_nonneg (by omega)]; omega

section
variable {E : Env q I Ep G} (hE : SigningSetting E)
include hE

theorem curve_le_uint : E.P.numBits ≤ E.P.uint := by
  obtain ⟨hc0, ⟨hm1, hm2, hm3, hm4, hm5, hm6⟩, hs1, hs2, hs3, hs4, hs5, hs6, hs7⟩ := hE.consistent
  unfold Params.compiles Params.L Params.kappa at hc0
  omega

theorem signedOfSecret_ok {ε : Type} (x : ZMod q) : (signedOfSecret E.P x : Out ε _) = .ok (signedI E.P x) := by
  have : NeZero q := ⟨(Fact.out : q.Prime).ne_zero⟩
  obtain ⟨v, hv, hc⟩ := newModulo_ok (ε := ε) hE.odd (ZMod.val_lt x) hE.order (curve_le_uint hE)
  have : v = centre x := Props.centred_unique hc ⟨by unfold centre; split; exact (Int.modEq_iff_dvd.2 ⟨1, by ring⟩); rfl, centre_abs hE.odd x⟩
  unfold signedOfSecret signedI
  rw [hv, this]

theorem signedI_abs (x : ZMod q) : |(signedI E.P x).val| < 2 ^ (E.P.L - 1) := by
  have h1 := centre_abs hE.odd x
  have h2 : (q : Int) < 2 ^ E.P.numBits := by exact_mod_cast hE.order
  have h3 : (2 : Int) ^ E.P.numBits = 2 * 2 ^ (E.P.L - 1) := by
    rw [← pow_succ']; congr 1; have := hE.curve; unfold Params.L Params.kappa; omega
  show |centre x| < _
  rw [h3] at h2
  generalize (2 : Int) ^ (E.P.L - 1) = B at *
  omega

theorem signedI_fits (x : ZMod q) : (signedI E.P x).Fits := by
  have h := signedI_abs hE x
  have h' : ((signedI E.P x).val.natAbs : Int) < ((2 ^ (E.P.numBits - 1) : Nat) : Int) := by
    rw [Int.natCast_natAbs]; push_cast; exact h
  exact_mod_cast h'

theorem signedI_bound (x : ZMod q) : (signedI E.P x).bound ≤ E.P.L := by
  show E.P.numBits - 1 ≤ E.P.numBits; omega

theorem signedI_inPm (x : ZMod q) : InPm E.P.L (signedI E.P x).val := by
  have h := abs_lt.1 (signedI_abs hE x)
  exact ⟨by omega, by omega⟩

theorem LP_pos : 0 < E.P.LP := by
  have := hE.curve; unfold Params.LP Params.L Params.kappa; omega

/-- A product of two such integers minus a mask does not wrap around. -/
theorem mta_bound {x k b : Int} (hx : |x| < 2 ^ (E.P.L - 1)) (hk : |k| < 2 ^ (E.P.L - 1)) (hb : InPm E.P.LP b) :
    2 * |x * k - b| < 2 ^ (E.P.modBits - 2) := by
  obtain ⟨hc0, ⟨hm1, hm2, hm3, hm4, hm5, hm6⟩, hs1, hs2, hs3, hs4, hs5, hs6, hs7⟩ := hE.consistent
  have hL : 0 < E.P.L := hE.curve
  have h1 : |x * k| ≤ 2 ^ (E.P.LP - 1) := by
    rw [abs_mul]
    calc |x| * |k| ≤ 2 ^ (E.P.L - 1) * 2 ^ (E.P.L - 1) := mul_le_mul hx.le hk.le (abs_nonneg _) (by positivity)
      _ = 2 ^ (E.P.L - 1 + (E.P.L - 1)) := (pow_add ..).symm
      _ ≤ 2 ^ (E.P.LP - 1) := pow_le_pow_right₀ (by norm_num) (by omega)
  have h2 : |b| ≤ 2 ^ (E.P.LP - 1) := abs_le.2 ⟨by have := hb.1; omega, hb.2⟩
  have h3 : |x * k - b| ≤ 2 ^ E.P.LP := by
    calc |x * k - b| ≤ |x * k| + |b| := abs_sub _ _
      _ ≤ 2 ^ (E.P.LP - 1) + 2 ^ (E.P.LP - 1) := add_le_add h1 h2
      _ = 2 ^ E.P.LP := by rw [← two_mul, ← pow_succ']; congr 1; omega
  calc 2 * |x * k - b| ≤ 2 * 2 ^ E.P.LP := by omega
    _ = 2 ^ (E.P.LP + 1) := (pow_succ' ..).symm
    _ < 2 ^ (E.P.modBits - 2) := pow_lt_pow_right₀ (by norm_num) (by omega)

/-- What is required of the keys for a multiplication -/
structure MtaKeys (P : Params) (pk own : Nat) (rp : RPSetup) : Prop where
  pos0 : 0 < pk
  pos1 : 0 < own
  hatPos : 0 < rp.modulus
  hatSize : rp.modulus < 2 ^ P.modBits
  bases : rp.rp.Valid

/-- The ciphertexts and the proof an honest party makes for a multiplication. -/
theorem mtaSend_honest {c : Context q I Ep G} {target : PubAux} (hkeys : MtaKeys E.P target.pk c.key.modulus target.rp) {capK : Cipher} {k : Int}
    (hK : capK.Holds target.pk k) (x : ZMod q) (d : MtaDraws I) (j : I) (hd : MtaDrawsValid E.P target.pk c.key.modulus target.rp.modulus d j) :
    ∃ out : MtaOut q G, mtaSend E c target capK (signedI E.P x) (x • E.C.g) d j = .ok out ∧
      out.capD.Holds target.pk ((signedI E.P x).val * k - (d.beta j).val) ∧ out.capF.Holds c.key.modulus (d.beta j).val ∧
      (∃ U : (ZMod (target.pk ^ 2))ˣ, capK = ⟨target.pk, (U : Ct target.pk)⟩ ∧
        out.capD = ⟨target.pk, ((U ^ (signedI E.P x).val : (ZMod (target.pk ^ 2))ˣ) : Ct target.pk) *
          (oneAdd target.pk (-(d.beta j).val) * ((d.s j : Nat) : Ct target.pk) ^ target.pk)⟩) ∧
      out.capF = ⟨c.key.modulus, oneAdd c.key.modulus (d.beta j).val * ((d.r j : Nat) : Ct c.key.modulus) ^ c.key.modulus⟩ ∧
      ∀ ε, (affGVerify E target.pk c.key.modulus out.psi capK out.capD out.capF (x • E.C.g) target.rp (c.epid, c.myId) : Out ε _) = .ok true := by
  have : NeZero q := ⟨(Fact.out : q.Prime).ne_zero⟩
  obtain ⟨pk, rp⟩ := target
  simp only at *
  have hb : (d.beta j).Fits := hd.beta.fits (LP_pos hE)
  obtain ⟨capF, hF, hFh, hFe⟩ := Cipher.encrypt_holds hb hd.r
  have hnb : (d.beta j).neg.Fits := by
    show (-(d.beta j).val).natAbs < _
    rw [Int.natAbs_neg]; exact hb
  obtain ⟨mask, hM, hMh, hMe⟩ := Cipher.encrypt_holds hnb hd.s
  obtain ⟨U, hU⟩ := hK.unit
  obtain ⟨kx, hkx, hkxh⟩ := hK.mulSecret (signedI_fits hE x)
  have hkxe : kx = ⟨pk, ((U ^ (signedI E.P x).val : (ZMod (pk ^ 2))ˣ) : Ct pk)⟩ := by
    have h1 := hkx Unit
    rw [hU, Cipher.mulSecret_unit U (signedI_fits hE x)] at h1
    exact (Out.ok.inj h1).symm
  obtain ⟨capD, hD, hDh⟩ := hkxh.add hMh
  have hDe : capD = ⟨pk, ((U ^ (signedI E.P x).val : (ZMod (pk ^ 2))ˣ) : Ct pk) * (oneAdd pk (-(d.beta j).val) * ((d.s j : Nat) : Ct pk) ^ pk)⟩ := by
    have h1 := hD Unit
    rw [hkxe, hMe] at h1
    unfold Cipher.add at h1
    simp only [Cipher.under_self, Out.bind_ok] at h1
    exact (Out.ok.inj h1).symm
  have hset : Props.AffGSetting E.P q pk c.key.modulus rp.rp :=
    ⟨hE.consistent, hE.order, hE.curve, hkeys.pos0, hkeys.pos1, hkeys.hatPos, hkeys.hatSize, hkeys.bases⟩
  have hrel : Props.AffGRelation E.P pk c.key.modulus E.C.g q
      ⟨(U : Ct pk), ((U ^ (signedI E.P x).val : (ZMod (pk ^ 2))ˣ) : Ct pk) * (oneAdd pk (-(d.beta j).val) * ((d.s j : Nat) : Ct pk) ^ pk),
        oneAdd c.key.modulus (d.beta j).val * ((d.r j : Nat) : Ct c.key.modulus) ^ c.key.modulus, x • E.C.g⟩
      (signedI E.P x).val (d.beta j).val (d.s j) (d.r j) := by
    refine ⟨signedI_inPm hE x, hd.beta.2, ⟨U, rfl, _, rfl, rfl⟩, rfl, hd.s, hd.r, ?_⟩
    show x • E.C.g = ((centre x : Int) : ZMod q) • E.C.g
    rw [centre_cast]
  have hb' : (d.beta j).bound ≤ E.P.LP := hd.beta.1.le
  have hacc := Props.C28_inner_masks_accepted (ε := LocalErr) E.affH E.C.g rp.rp hset (signedI E.P x) (d.beta j) (signedI_fits hE x) (signedI_bound hE x) hb hb'
    (d.s j) (d.r j) _ hrel (c.epid, c.myId) (d.masks j) hd.masks hd.innerAlpha hd.innerBeta
  obtain ⟨psi, hpsi, hver⟩ := Out.bind_eq_ok.1 hacc
  refine ⟨⟨capD, capF, psi⟩, ?_, ?_, hFh, ⟨U, hU, hDe⟩, hFe, fun ε => ?_⟩
  · unfold mtaSend
    rw [hF, Out.bind_ok, hkx, Out.bind_ok, hM, Out.bind_ok, hD, Out.bind_ok]
    unfold affGProve
    rw [hU, hDe, hFe]
    simp only [Cipher.under_self, Out.bind_ok]
    rw [hpsi, Out.bind_ok]
  · have : (signedI E.P x).val * k - (d.beta j).val = (signedI E.P x).val * k + (d.beta j).neg.val := by
      show _ = _ + -(d.beta j).val; ring
    rw [this]; exact hDh
  · unfold affGVerify
    simp only
    rw [hU, hDe, hFe]
    simp only [Cipher.under_self, Out.bind_ok]
    exact Out.eq_ok_of_cast (AffGProof.verify_cast ..) hver

end

end Signing
end Synedrion
