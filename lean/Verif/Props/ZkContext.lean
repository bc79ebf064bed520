import Verif.Model.ZkCurve
import Verif.Model.ZkPaillier
import Verif.Model.ZkModulus
import Verif.Props.ZkDec
import Verif.Lemmas.Toy

/-!
# Property C34: proofs are bound to their context

For each of the nine proofs: a context whose challenge differs from the carried one is rejected (without a panic), and a proof accepted in two
contexts that do not collide under the hash function is accepted only because everything hashed in the two contexts — public inputs, keys, setup
parameters and auxiliary data — is the same.
-/

set_option linter.unusedSectionVars false

namespace Synedrion.Props
open Spec

variable {ε Aux : Type}

section Curve

variable {F G : Type} [Field F] [AddCommGroup G] [Module F G] [DecidableEq F] [DecidableEq G]

/-- **C34 (sch).** -/
theorem C34_sch_rejected (H : SchHash G Aux → F) (g : G) (prf : SchProof F) (commitment capX : G) (aux : Aux)
    (hne : H ⟨aux, capX, commitment⟩ ≠ prf.challenge) : prf.verify H g commitment capX aux = false := by
  simp only [SchProof.verify]; rw [decide_eq_false hne]; rfl

/-- **C34 (sch).** -/
theorem C34_sch_bound (H : SchHash G Aux → F) (g : G) (prf : SchProof F) (com com' capX capX' : G) (aux aux' : Aux)
    (hcol : H ⟨aux, capX, com⟩ = H ⟨aux', capX', com'⟩ → (⟨aux, capX, com⟩ : SchHash G Aux) = ⟨aux', capX', com'⟩)
    (h : prf.verify H g com capX aux = true) (h' : prf.verify H g com' capX' aux' = true) : com = com' ∧ capX = capX' ∧ aux = aux' := by
  simp only [SchProof.verify, Bool.and_eq_true, decide_eq_true_eq] at h h'
  have := hcol (h.1.trans h'.1.symm)
  injection this with h1 h2 h3
  exact ⟨h3, h2, h1⟩

/-- **C34 (elog).** -/
theorem C34_elog_rejected (H : ElogHash G Aux → F) (g : G) (prf : ElogProof F G) (pub : ElogPublic G) (aux : Aux)
    (hne : H ⟨prf.capA, prf.capN, prf.capB, pub.capL, pub.capM, pub.capX, pub.capY, pub.h, aux⟩ ≠ prf.e) : prf.verify H g pub aux = false := by
  simp only [ElogProof.verify]; rw [if_pos hne]

/-- **C34 (elog).** -/
theorem C34_elog_bound (H : ElogHash G Aux → F) (g : G) (prf : ElogProof F G) (pub pub' : ElogPublic G) (aux aux' : Aux)
    (hcol : H ⟨prf.capA, prf.capN, prf.capB, pub.capL, pub.capM, pub.capX, pub.capY, pub.h, aux⟩ =
        H ⟨prf.capA, prf.capN, prf.capB, pub'.capL, pub'.capM, pub'.capX, pub'.capY, pub'.h, aux'⟩ →
      (⟨prf.capA, prf.capN, prf.capB, pub.capL, pub.capM, pub.capX, pub.capY, pub.h, aux⟩ : ElogHash G Aux) =
        ⟨prf.capA, prf.capN, prf.capB, pub'.capL, pub'.capM, pub'.capX, pub'.capY, pub'.h, aux'⟩)
    (h : prf.verify H g pub aux = true) (h' : prf.verify H g pub' aux' = true) : pub = pub' ∧ aux = aux' := by
  simp only [ElogProof.verify] at h h'
  split at h
  · cases h
  rename_i h1
  split at h'
  · cases h'
  rename_i h2
  push Not at h1 h2
  have := hcol (h1.trans h2.symm)
  injection this with _ _ _ a b c d e f
  refine ⟨?_, f⟩
  cases pub; cases pub'
  simp only at a b c d e
  subst a b c d e; rfl

end Curve

section Paillier

variable {q : Nat} {G : Type} [AddCommGroup G] [Module (ZMod q) G] [DecidableEq G] {P : Params}

/-- **C34 (enc-elg).** -/
theorem C34_enc_elg_rejected (H : EncElgHash G Aux → ZMod q) (g : G) {N0 Nh : Nat} (pub : EncElgPublic N0 G) (setup : RPParams Nh) (aux : Aux) (prf : EncElgProof q G)
    (hne : H (encElgHash prf.capS prf.capD prf.capY prf.capZ prf.capT pub setup aux) ≠ prf.e) : (prf.verify P H g pub setup aux : Out ε _) = .ok false := by
  simp only [EncElgProof.verify]; rw [decide_eq_false hne, Out.check_false]

/-- **C34 (enc-elg).** -/
theorem C34_enc_elg_bound (H : EncElgHash G Aux → ZMod q) (g : G) {N0 Nh : Nat} (pub : EncElgPublic N0 G) (setup : RPParams Nh) (aux : Aux) {N0' Nh' : Nat} (pub' : EncElgPublic N0' G) (setup' : RPParams Nh') (aux' : Aux) (prf : EncElgProof q G)
    (hcol : H (encElgHash prf.capS prf.capD prf.capY prf.capZ prf.capT pub setup aux) = H (encElgHash prf.capS prf.capD prf.capY prf.capZ prf.capT pub' setup' aux') → encElgHash prf.capS prf.capD prf.capY prf.capZ prf.capT pub setup aux = encElgHash prf.capS prf.capD prf.capY prf.capZ prf.capT pub' setup' aux')
    (h : (prf.verify P H g pub setup aux : Out ε _) = .ok true) (h' : (prf.verify P H g pub' setup' aux' : Out ε _) = .ok true) :
    N0 = N0' ∧ pub.capC.val = pub'.capC.val ∧ pub.capA = pub'.capA ∧ pub.capB = pub'.capB ∧ pub.capX = pub'.capX ∧
      setup.toWire = setup'.toWire ∧ aux = aux' := by
  simp only [EncElgProof.verify] at h h'
  have h1 := of_decide_eq_true (Out.check_eq_true.1 h).1
  have h2 := of_decide_eq_true (Out.check_eq_true.1 h').1
  have := hcol (h1.trans h2.symm)
  injection this with _ _ _ _ _ a b c d e f i
  exact ⟨a, b, c, d, e, f, i⟩

/-- **C34 (aff-g).** -/
theorem C34_aff_g_rejected (H : AffGHash G Aux → ZMod q) (g : G) {N0 N1 Nh : Nat} (pub : AffGPublic N0 N1 G) (setup : RPParams Nh) (aux : Aux) (prf : AffGProof q G)
    (hne : H (affGHash prf.capA prf.capBx prf.capBy prf.capE prf.capF prf.capS prf.capT pub setup aux) ≠ prf.e) : (prf.verify P H g pub setup aux : Out ε _) = .ok false := by
  simp only [AffGProof.verify]; rw [decide_eq_false hne, Out.check_false]

/-- **C34 (aff-g).** -/
theorem C34_aff_g_bound (H : AffGHash G Aux → ZMod q) (g : G) {N0 N1 Nh : Nat} (pub : AffGPublic N0 N1 G) (setup : RPParams Nh) (aux : Aux) {N0' N1' Nh' : Nat} (pub' : AffGPublic N0' N1' G) (setup' : RPParams Nh') (aux' : Aux) (prf : AffGProof q G)
    (hcol : H (affGHash prf.capA prf.capBx prf.capBy prf.capE prf.capF prf.capS prf.capT pub setup aux) = H (affGHash prf.capA prf.capBx prf.capBy prf.capE prf.capF prf.capS prf.capT pub' setup' aux') → affGHash prf.capA prf.capBx prf.capBy prf.capE prf.capF prf.capS prf.capT pub setup aux = affGHash prf.capA prf.capBx prf.capBy prf.capE prf.capF prf.capS prf.capT pub' setup' aux')
    (h : (prf.verify P H g pub setup aux : Out ε _) = .ok true) (h' : (prf.verify P H g pub' setup' aux' : Out ε _) = .ok true) :
    N0 = N0' ∧ N1 = N1' ∧ pub.capC.val = pub'.capC.val ∧ pub.capD.val = pub'.capD.val ∧ pub.capY.val = pub'.capY.val ∧ pub.capX = pub'.capX ∧
      setup.toWire = setup'.toWire ∧ aux = aux' := by
  simp only [AffGProof.verify] at h h'
  have h1 := of_decide_eq_true (Out.check_eq_true.1 h).1
  have h2 := of_decide_eq_true (Out.check_eq_true.1 h').1
  have := hcol (h1.trans h2.symm)
  injection this with _ _ _ _ _ _ _ a b c d e f i j
  exact ⟨a, b, c, d, e, f, i, j⟩

/-- **C34 (aff-g*).** -/
theorem C34_aff_g_star_rejected (H : AffGStarHash G Aux → List Bool) (g : G) {N0 N1 : Nat} (pub : AffGPublic N0 N1 G) (aux : Aux) (prf : AffGStarProof G)
    (hne : H (affGStarHash prf.commitments pub aux) ≠ prf.e) : (prf.verify P H g q pub aux : Out ε _) = .ok false := by
  simp only [AffGStarProof.verify]; rw [decide_eq_false hne, Out.check_false]

/-- **C34 (aff-g*).** -/
theorem C34_aff_g_star_bound (H : AffGStarHash G Aux → List Bool) (g : G) {N0 N1 : Nat} (pub : AffGPublic N0 N1 G) (aux : Aux) {N0' N1' : Nat} (pub' : AffGPublic N0' N1' G) (aux' : Aux) (prf : AffGStarProof G)
    (hcol : H (affGStarHash prf.commitments pub aux) = H (affGStarHash prf.commitments pub' aux') → affGStarHash prf.commitments pub aux = affGStarHash prf.commitments pub' aux')
    (h : (prf.verify P H g q pub aux : Out ε _) = .ok true) (h' : (prf.verify P H g q pub' aux' : Out ε _) = .ok true) :
    N0 = N0' ∧ N1 = N1' ∧ pub.capC.val = pub'.capC.val ∧ pub.capD.val = pub'.capD.val ∧ pub.capY.val = pub'.capY.val ∧ pub.capX = pub'.capX ∧ aux = aux' := by
  simp only [AffGStarProof.verify] at h h'
  have h1 := of_decide_eq_true (Out.check_eq_true.1 h).1
  have h2 := of_decide_eq_true (Out.check_eq_true.1 h').1
  have := hcol (h1.trans h2.symm)
  injection this with _ a b c d e f i
  exact ⟨a, b, c, d, e, f, i⟩

/-- **C34 (dec).** -/
theorem C34_dec_rejected (H : DecHash G Aux → List Bool) (g : G) {N0 Nh : Nat} (pub : DecPublic N0 G) (setup : RPParams Nh) (aux : Aux) (prf : DecProof G)
    (hne : H (decHash prf.commitments pub setup aux) ≠ prf.e) : (prf.verify P H g q pub setup aux : Out ε _) = .ok false := by
  simp only [DecProof.verify]; rw [decide_eq_false hne, Out.check_false]

/-- **C34 (dec).** -/
theorem C34_dec_bound (H : DecHash G Aux → List Bool) (g : G) {N0 Nh : Nat} (pub : DecPublic N0 G) (setup : RPParams Nh) (aux : Aux) {N0' Nh' : Nat} (pub' : DecPublic N0' G) (setup' : RPParams Nh') (aux' : Aux) (prf : DecProof G)
    (hcol : H (decHash prf.commitments pub setup aux) = H (decHash prf.commitments pub' setup' aux') → decHash prf.commitments pub setup aux = decHash prf.commitments pub' setup' aux')
    (h : (prf.verify P H g q pub setup aux : Out ε _) = .ok true) (h' : (prf.verify P H g q pub' setup' aux' : Out ε _) = .ok true) :
    N0 = N0' ∧ pub.capK.val = pub'.capK.val ∧ pub.capX = pub'.capX ∧ pub.capD.val = pub'.capD.val ∧ pub.capS = pub'.capS ∧ pub.capG = pub'.capG ∧
      setup.toWire = setup'.toWire ∧ aux = aux' := by
  simp only [DecProof.verify] at h h'
  have h1 := of_decide_eq_true (Out.check_eq_true.1 h).1
  have h2 := of_decide_eq_true (Out.check_eq_true.1 h').1
  have := hcol (h1.trans h2.symm)
  injection this with _ a b c d e f i j
  exact ⟨a, b, c, d, e, f, i, j⟩

/-- **C34 (dec, finding).** The number of parties is a public input that is not hashed: a proof accepted for some number of parties is accepted
for every larger one. -/
theorem C34_dec_parties_not_bound (H : DecHash G Aux → List Bool) (g : G) {N0 Nh : Nat} (pub : DecPublic N0 G) (setup : RPParams Nh) (aux : Aux)
    (prf : DecProof G) (n : Nat) (hn : pub.numParties ≤ n) (h : (prf.verify P H g q pub setup aux : Out ε _) = .ok true) :
    (prf.verify P H g q { pub with numParties := n } setup aux : Out ε _) = .ok true := by
  simp only [DecProof.verify] at h ⊢
  obtain ⟨h1, h⟩ := Out.check_eq_true.1 h
  obtain ⟨h2, h⟩ := Out.check_eq_true.1 h
  have hh : decHash prf.commitments { pub with numParties := n } setup aux = decHash prf.commitments pub setup aux := rfl
  rw [hh, h1, Out.check_true, h2, Out.check_true, Out.allM_eq_true]
  rw [Out.allM_eq_true] at h
  intro x hx
  have h3 := h x hx
  simp only [decCheck] at h3 ⊢
  obtain ⟨kz, r1, h3⟩ := Out.bind_eq_ok.1 h3
  obtain ⟨r2, h3⟩ := Out.check_eq_true.1 h3
  obtain ⟨r3, h3⟩ := Out.check_eq_true.1 h3
  obtain ⟨r4, h3⟩ := Out.check_eq_true.1 h3
  obtain ⟨r5, h3⟩ := Out.check_eq_true.1 h3
  obtain ⟨c, r6, h3⟩ := Out.bind_eq_ok.1 h3
  obtain ⟨r7, _⟩ := Out.check_eq_true.1 h3
  rw [r1, Out.bind_ok, r2, Out.check_true, r3, Out.check_true, r4, Out.check_true, r5, Out.check_true]
  have hn2 : 2 ≤ pub.numParties := by
    by_contra hlt
    unfold ceilLog2Parties at r6; rw [if_pos (by omega)] at r6; cases r6
  obtain ⟨c1, k1, _, k3⟩ := C30_interval_width (ε := ε) _ hn2
  obtain ⟨c2, k4, k5, _⟩ := C30_interval_width (ε := ε) n (by omega)
  rw [k1] at r6; injection r6 with r6; subst r6
  rw [k4, Out.bind_ok]
  have hc : c1 ≤ c2 := k3 c2 (by omega)
  have hw : InPm (decYBound P c1 + P.EPS) x.2.w.val := of_decide_eq_true r7
  have : x.2.w.inRange (decYBound P c2 + P.EPS) = true := by
    rw [SInt.inRange_eq]
    refine decide_eq_true ?_
    unfold InPm decYBound at *
    have : (2 : Int) ^ (P.LP + P.EPS + 1 + c1 + P.EPS - 1) ≤ 2 ^ (P.LP + P.EPS + 1 + c2 + P.EPS - 1) :=
      pow_le_pow_right₀ (by norm_num) (by omega)
    constructor <;> omega
  rw [this, Out.check_true]

/-- **C34 (fac).** -/
theorem C34_fac_rejected (H : FacHash Aux → SInt) {Nh : Nat} (N0 : Nat) (setup : RPParams Nh) (aux : Aux) (prf : FacProof)
    (hne : H ⟨prf.capP, prf.capQ, prf.capA, prf.capB, prf.capT, N0, setup.toWire, aux⟩ ≠ prf.e) :
    (prf.verify P H N0 setup aux : Out ε _) = .ok false := by
  simp only [FacProof.verify]; rw [decide_eq_false hne, Out.check_false]

/-- **C34 (fac).** The hash function is assumed not to collide on the two contexts. -/
theorem C34_fac_bound (H : FacHash Aux → SInt) {Nh Nh' : Nat} (N0 N0' : Nat) (setup : RPParams Nh) (setup' : RPParams Nh') (aux aux' : Aux) (prf : FacProof)
    (hcol : H ⟨prf.capP, prf.capQ, prf.capA, prf.capB, prf.capT, N0, setup.toWire, aux⟩ = H ⟨prf.capP, prf.capQ, prf.capA, prf.capB, prf.capT, N0', setup'.toWire, aux'⟩ → (⟨prf.capP, prf.capQ, prf.capA, prf.capB, prf.capT, N0, setup.toWire, aux⟩ : FacHash Aux) = ⟨prf.capP, prf.capQ, prf.capA, prf.capB, prf.capT, N0', setup'.toWire, aux'⟩)
    (h : (prf.verify P H N0 setup aux : Out ε _) = .ok true) (h' : (prf.verify P H N0' setup' aux' : Out ε _) = .ok true) :
    N0 = N0' ∧ setup.toWire = setup'.toWire ∧ aux = aux' := by
  simp only [FacProof.verify] at h h'
  have h1 := of_decide_eq_true (Out.check_eq_true.1 h).1
  have h2 := of_decide_eq_true (Out.check_eq_true.1 h').1
  have := hcol (h1.trans h2.symm)
  injection this with _ _ _ _ _ a b c
  exact ⟨a, b, c⟩

/-- **C34 (prm).** -/
theorem C34_prm_rejected (H : PrmHash Aux → List Bool) {N : Nat} (setup : RPParams N) (aux : Aux) (prf : PrmProof)
    (hne : H ⟨prf.commitment, setup.toWire, aux⟩ ≠ prf.challenge) : prf.verify H setup aux = false := by
  simp only [PrmProof.verify]; rw [if_pos hne]

/-- **C34 (prm).** -/
theorem C34_prm_bound (H : PrmHash Aux → List Bool) {N N' : Nat} (setup : RPParams N) (setup' : RPParams N') (aux aux' : Aux) (prf : PrmProof)
    (hcol : H ⟨prf.commitment, setup.toWire, aux⟩ = H ⟨prf.commitment, setup'.toWire, aux'⟩ → (⟨prf.commitment, setup.toWire, aux⟩ : PrmHash Aux) = ⟨prf.commitment, setup'.toWire, aux'⟩) (h : prf.verify H setup aux = true) (h' : prf.verify H setup' aux' = true) :
    setup.toWire = setup'.toWire ∧ aux = aux' := by
  simp only [PrmProof.verify] at h h'
  split at h
  · cases h
  rename_i h1
  split at h'
  · cases h'
  rename_i h2
  push Not at h1 h2
  have := hcol (h1.trans h2.symm)
  injection this with _ a b
  exact ⟨a, b⟩

/-- **C34 (mod).** -/
theorem C34_mod_rejected (H : ModHash Aux → List Nat) (isPrime : Nat → Bool) (N : Nat) (aux : Aux) (prf : ModProof)
    (hne : H ⟨N, prf.commitment, aux⟩ ≠ prf.challenge) : prf.verify P H isPrime N aux = false := by
  simp only [ModProof.verify]; rw [if_pos hne]

/-- **C34 (mod).** -/
theorem C34_mod_bound (H : ModHash Aux → List Nat) (isPrime : Nat → Bool) (N N' : Nat) (aux aux' : Aux) (prf : ModProof)
    (hcol : H ⟨N, prf.commitment, aux⟩ = H ⟨N', prf.commitment, aux'⟩ → (⟨N, prf.commitment, aux⟩ : ModHash Aux) = ⟨N', prf.commitment, aux'⟩) (h : prf.verify P H isPrime N aux = true) (h' : prf.verify P H isPrime N' aux' = true) : N = N' ∧ aux = aux' := by
  simp only [ModProof.verify] at h h'
  split at h
  · cases h
  rename_i h1
  split at h'
  · cases h'
  rename_i h2
  push Not at h1 h2
  have := hcol (h1.trans h2.symm)
  injection this with a _ b
  exact ⟨a, b⟩

end Paillier

/-! ### Concrete cases

The hypotheses are satisfiable: a Schnorr proof made for one context is rejected in another with a different challenge. -/

section Examples

attribute [local instance] Toy.fact11

private def toyH : SchHash (ZMod 11) Nat → ZMod 11 := fun t => (t.aux : ZMod 11) + t.capX + 2 * t.commitment

example : (SchProof.prove toyH (3 : ZMod 11) 4 3 4 5).verify toyH 1 3 4 5 = true ∧ (SchProof.prove toyH (3 : ZMod 11) 4 3 4 5).verify toyH 1 3 4 6 = false :=
  ⟨by decide, C34_sch_rejected _ _ _ _ _ _ (by decide)⟩

end Examples

end Synedrion.Props
