import Verif.Spec.Wire
import Verif.Lemmas.Zk
import Verif.Lemmas.Machines

/-!
# Lemmas: the proofs made by honest parties fit their encodings
-/

set_option linter.unusedSectionVars false

namespace Synedrion

open Spec

variable {ε : Type}

theorem SInt.add_wf {w : Nat} {a b c : SInt} (ha : a.Fits) (hb : b.Fits) (h : (a.add w b : Out ε _) = .ok c) : c.WF w := by
  unfold SInt.add at h
  split at h
  · next hw =>
    cases h
    refine ⟨hw, ?_⟩
    have h1 : 2 ^ a.bound ≤ 2 ^ max a.bound b.bound := Nat.pow_le_pow_right (by norm_num) (le_max_left ..)
    have h2 : 2 ^ b.bound ≤ 2 ^ max a.bound b.bound := Nat.pow_le_pow_right (by norm_num) (le_max_right ..)
    have h3 := Int.natAbs_add_le a.val b.val
    unfold SInt.Fits at ha hb
    show (a.val + b.val).natAbs < 2 ^ (max a.bound b.bound + 1)
    rw [pow_succ]
    generalize 2 ^ max a.bound b.bound = m at *
    omega
  · cases h

theorem SInt.sub_wf {w : Nat} {a b c : SInt} (ha : a.Fits) (hb : b.Fits) (h : (a.sub w b : Out ε _) = .ok c) : c.WF w := by
  refine SInt.add_wf (ε := ε) ha (SInt.neg_fits hb) ?_
  rw [← h]
  unfold SInt.add SInt.sub SInt.neg
  simp [sub_eq_add_neg]

theorem SInt.mul_wf {w : Nat} {a b c : SInt} (ha : a.Fits) (hb : b.Fits) (h : (a.mul w b : Out ε _) = .ok c) : c.WF w := by
  unfold SInt.mul at h
  split at h
  · next hw =>
    cases h
    refine ⟨hw, ?_⟩
    show (a.val * b.val).natAbs < _
    rw [Int.natAbs_mul, pow_add]
    exact Nat.mul_lt_mul'' ha hb
  · cases h

theorem SInt.mulWide_wf {w : Nat} {a b c : SInt} (ha : a.Fits) (hb : b.Fits) (h : (a.mulWide w b : Out ε _) = .ok c) : c.WF w := SInt.mul_wf (ε := ε) ha hb h

theorem SInt.WF.fits {w : Nat} {a : SInt} (h : a.WF w) : a.Fits := h.2

/-- A response `mask + x e` -/
theorem SInt.response_wf {w w' : Nat} {m x e z : SInt} (hm : m.Fits) (hx : x.Fits) (he : e.Fits)
    (h : ((x.mul w e).bind fun xe => m.add w' xe : Out ε _) = .ok z) : z.WF w' := by
  obtain ⟨xe, h1, h2⟩ := Out.bind_eq_ok.1 h
  exact SInt.add_wf hm (SInt.mul_wf hx he h1).2 h2

theorem powSecret_fits {n : Nat} {a b : ZMod n} {e : SInt} (h : (powSecret a e : Out ε _) = .ok b) : e.Fits := by
  by_contra hn
  unfold SInt.Fits at hn
  unfold powSecret at h
  rw [if_neg hn] at h
  cases h

theorem enc_fits {N : Nat} {m : SInt} {rho : Nat} {c : Ct N} (h : (enc N m rho : Out ε _) = .ok c) : m.Fits := by
  by_contra hn
  unfold SInt.Fits at hn
  unfold enc at h
  rw [if_neg hn] at h
  cases h

theorem commitSecret_fits {N : Nat} {rp : RPParams N} {x r : SInt} {c : ZMod N} (h : (rp.commitSecret x r : Out ε _) = .ok c) : x.Fits ∧ r.Fits := by
  obtain ⟨_, h1, h⟩ := Out.bind_eq_ok.1 h
  obtain ⟨_, h2, _⟩ := Out.bind_eq_ok.1 h
  exact ⟨powSecret_fits h1, powSecret_fits h2⟩

/-- A nonzero modulus of at most `w` bits -/
structure ModulusFits (w N : Nat) : Prop where
  pos : N ≠ 0
  le : N ≤ 2 ^ w

theorem ModulusFits.val_lt {w N : Nat} (h : ModulusFits w N) (a : ZMod N) : a.val < 2 ^ w :=
  haveI : NeZero N := ⟨h.pos⟩
  lt_of_lt_of_le (ZMod.val_lt a) h.le

theorem ModulusFits.toMasked_lt {w N : Nat} (h : ModulusFits w N) {rho c r : Nat} {e : SInt} (hr : (toMasked N rho c e : Out ε _) = .ok r) : r < 2 ^ w := by
  obtain ⟨_, _, h2⟩ := Out.bind_eq_ok.1 hr
  rw [← Out.ok.inj h2]
  exact h.val_lt _

/-- A nonzero modulus whose square has `wide` bits -/
structure KeyFits (P : Params) (N : Nat) : Prop where
  uint : ModulusFits P.uint N
  wide : ModulusFits P.wide (N ^ 2)

theorem KeyFits.of_lt {P : Params} (hP : P.SelfConsistent) {N : Nat} (h0 : N ≠ 0) (h : N < 2 ^ P.modBits) : KeyFits P N := by
  obtain ⟨_, ⟨_, _, h1, _, h2, _⟩, _⟩ := hP
  refine ⟨⟨h0, h.le.trans (Nat.pow_le_pow_right (by norm_num) h1)⟩, pow_ne_zero _ h0, ?_⟩
  calc N ^ 2 ≤ (2 ^ P.modBits) ^ 2 := Nat.pow_le_pow_left h.le 2
    _ = 2 ^ (2 * P.modBits) := by rw [← pow_mul, mul_comm]
    _ ≤ _ := Nat.pow_le_pow_right (by norm_num) h2

section Curve

variable {q : Nat} {G Aux : Type} [AddCommGroup G] [Module (ZMod q) G] [DecidableEq G]

theorem scalar_fits' {P : Params} (hq : 0 < q) (hb : q ≤ 2 ^ P.numBits) (e : ZMod q) : (signedOfScalar P e).Fits := by
  haveI : NeZero q := ⟨hq.ne'⟩
  show (((e.val : Nat) : Int)).natAbs < 2 ^ P.numBits
  rw [Int.natAbs_natCast]
  exact lt_of_lt_of_le (ZMod.val_lt e) hb

theorem EncElgProof.prove_fits {P : Params} {H : EncElgHash G Aux → ZMod q} {g : G} {N0 Nh : Nat} {x : SInt} {rho : Nat} {b : ZMod q} {pub : EncElgPublic N0 G}
    {setup : RPParams Nh} {aux : Aux} {mask : EncElgMasks q} {p : EncElgProof q G} (hq : 0 < q) (hb : q ≤ 2 ^ P.numBits) (hN : KeyFits P N0) (hNh : ModulusFits P.uint Nh)
    (h : (EncElgProof.prove P H g x rho b pub setup aux mask : Out ε _) = .ok p) : EncElgFits P p := by
  unfold EncElgProof.prove at h
  obtain ⟨_, _, h⟩ := Out.bind_eq_ok.1 h
  obtain ⟨capS, hS, h⟩ := Out.bind_eq_ok.1 h
  obtain ⟨capD, hD, h⟩ := Out.bind_eq_ok.1 h
  obtain ⟨capT, hT, h⟩ := Out.bind_eq_ok.1 h
  obtain ⟨z1, h1, h⟩ := Out.bind_eq_ok.1 h
  obtain ⟨z2, h2, h⟩ := Out.bind_eq_ok.1 h
  obtain ⟨z3, h3, h⟩ := Out.bind_eq_ok.1 h
  have hx := commitSecret_fits hS
  have ha := commitSecret_fits hT
  rw [← Out.ok.inj h]
  exact ⟨hNh.val_lt _, hN.wide.val_lt _, hNh.val_lt _, SInt.response_wf ha.1 hx.1 (scalar_fits' hq hb _) h1, hN.uint.toMasked_lt h2,
    SInt.response_wf ha.2 hx.2 (scalar_fits' hq hb _) h3⟩

theorem AffGProof.prove_fits {P : Params} {H : AffGHash G Aux → ZMod q} {g : G} {N0 N1 Nh : Nat} {x y : SInt} {rho rhoY : Nat} {pub : AffGPublic N0 N1 G}
    {setup : RPParams Nh} {aux : Aux} {mask : AffGMasks} {p : AffGProof q G} (hq : 0 < q) (hb : q ≤ 2 ^ P.numBits) (hN0 : KeyFits P N0) (hN1 : KeyFits P N1)
    (hNh : ModulusFits P.uint Nh) (h : (AffGProof.prove P H g x y rho rhoY pub setup aux mask : Out ε _) = .ok p) : AffGFits P p := by
  unfold AffGProof.prove at h
  obtain ⟨_, _, h⟩ := Out.bind_eq_ok.1 h
  obtain ⟨_, _, h⟩ := Out.bind_eq_ok.1 h
  obtain ⟨_, _, h⟩ := Out.bind_eq_ok.1 h
  obtain ⟨_, _, h⟩ := Out.bind_eq_ok.1 h
  obtain ⟨_, _, h⟩ := Out.bind_eq_ok.1 h
  obtain ⟨_, hE, h⟩ := Out.bind_eq_ok.1 h
  obtain ⟨_, hS, h⟩ := Out.bind_eq_ok.1 h
  obtain ⟨_, hF, h⟩ := Out.bind_eq_ok.1 h
  obtain ⟨_, hT, h⟩ := Out.bind_eq_ok.1 h
  obtain ⟨z1, h1, h⟩ := Out.bind_eq_ok.1 h
  obtain ⟨z2, h2, h⟩ := Out.bind_eq_ok.1 h
  obtain ⟨z3, h3, h⟩ := Out.bind_eq_ok.1 h
  obtain ⟨z4, h4, h⟩ := Out.bind_eq_ok.1 h
  obtain ⟨w, h5, h⟩ := Out.bind_eq_ok.1 h
  obtain ⟨wY, h6, h⟩ := Out.bind_eq_ok.1 h
  have he := scalar_fits' (P := P) hq hb
  have hE := commitSecret_fits hE
  have hS := commitSecret_fits hS
  have hF := commitSecret_fits hF
  have hT := commitSecret_fits hT
  rw [← Out.ok.inj h]
  exact ⟨hN0.wide.val_lt _, hN1.wide.val_lt _, hNh.val_lt _, hNh.val_lt _, hNh.val_lt _, hNh.val_lt _, SInt.response_wf hE.1 hS.1 (he _) h1,
    SInt.response_wf hF.1 hT.1 (he _) h2, SInt.response_wf hE.2 hS.2 (he _) h3, SInt.response_wf hF.2 hT.2 (he _) h4, hN0.uint.toMasked_lt h5, hN1.uint.toMasked_lt h6⟩

/-- A response to a challenge bit -/
theorem bitResponse_wf {w : Nat} {m x z : SInt} {b : Bool} (hm : m.WF w) (hx : x.Fits) (h : (if b then m.add w x else .ok m : Out ε _) = .ok z) : z.WF w := by
  cases b
  · cases h; exact hm
  · exact SInt.add_wf hm.2 hx h

theorem mapM'_forall {α β : Type} {f : α → Out ε β} {p : β → Prop} {l : List α} {l' : List β} (h : Out.mapM' f l = .ok l') (hf : ∀ a ∈ l, ∀ b, f a = .ok b → p b) :
    ∀ b ∈ l', p b := by
  intro b hb
  have h2 := Out.mapM'_eq_ok_iff.1 h
  clear h
  induction h2 with
  | nil => cases hb
  | cons h1 _ ih =>
    rcases List.mem_cons.1 hb with rfl | hb
    · exact hf _ List.mem_cons_self _ h1
    · exact ih (fun a ha => hf a (List.mem_cons_of_mem _ ha)) hb

theorem AffGStarProof.prove_fits {P : Params} {H : AffGStarHash G Aux → List Bool} {g : G} {N0 N1 : Nat} {x y : SInt} {rho mu : Nat} {pub : AffGPublic N0 N1 G} {aux : Aux}
    {ephs : List AffGStarEphemeral} {p : AffGStarProof G} (hN0 : KeyFits P N0) (hN1 : KeyFits P N1) (hH : ∀ t, BitsFit (H t)) (hx : x.Fits) (hy : y.Fits)
    (hd : ∀ eph ∈ ephs, eph.alpha.WF P.uint ∧ eph.beta.WF P.uint) (h : (AffGStarProof.prove P H g q x y rho mu pub aux ephs : Out ε _) = .ok p) : AffGStarFits P p := by
  unfold AffGStarProof.prove at h
  obtain ⟨_, _, h⟩ := Out.bind_eq_ok.1 h
  obtain ⟨_, _, h⟩ := Out.bind_eq_ok.1 h
  obtain ⟨cs, hc, h⟩ := Out.bind_eq_ok.1 h
  obtain ⟨els, he, h⟩ := Out.bind_eq_ok.1 h
  rw [← Out.ok.inj h]
  refine ⟨hH _, mapM'_forall hc fun eph _ c hc => ?_, mapM'_forall he fun e heph z hz => ?_⟩
  · obtain ⟨_, _, hc⟩ := Out.bind_eq_ok.1 hc
    obtain ⟨_, _, hc⟩ := Out.bind_eq_ok.1 hc
    obtain ⟨_, _, hc⟩ := Out.bind_eq_ok.1 hc
    rw [← Out.ok.inj hc]
    exact ⟨hN0.wide.val_lt _, hN1.wide.val_lt _⟩
  · obtain ⟨ha, hb⟩ := hd e.1 (List.of_mem_zip heph).1
    obtain ⟨_, h1, hz⟩ := Out.bind_eq_ok.1 hz
    obtain ⟨_, h2, hz⟩ := Out.bind_eq_ok.1 hz
    obtain ⟨_, h3, hz⟩ := Out.bind_eq_ok.1 hz
    obtain ⟨_, h4, hz⟩ := Out.bind_eq_ok.1 hz
    rw [← Out.ok.inj hz]
    exact ⟨bitResponse_wf ha hx h1, bitResponse_wf hb (SInt.neg_fits hy) h2, hN0.uint.toMasked_lt h3, hN1.uint.toMasked_lt h4⟩

theorem DecProof.prove_fits {P : Params} {H : DecHash G Aux → List Bool} {g : G} {N0 Nh : Nat} {x y : SInt} {rho : Nat} {pub : DecPublic N0 G} {setup : RPParams Nh} {aux : Aux}
    {ephs : List DecEphemeral} {p : DecProof G} (hN0 : KeyFits P N0) (hH : ∀ t, BitsFit (H t)) (hx : x.Fits) (hy : y.Fits)
    (hd : ∀ eph ∈ ephs, eph.alpha.WF P.uint ∧ eph.beta.WF P.wide) (h : (DecProof.prove P H g q x y rho pub setup aux ephs : Out ε _) = .ok p) : DecFits P p := by
  unfold DecProof.prove at h
  obtain ⟨_, _, h⟩ := Out.bind_eq_ok.1 h
  obtain ⟨_, _, h⟩ := Out.bind_eq_ok.1 h
  obtain ⟨_, _, h⟩ := Out.bind_eq_ok.1 h
  obtain ⟨cs, hc, h⟩ := Out.bind_eq_ok.1 h
  obtain ⟨els, he, h⟩ := Out.bind_eq_ok.1 h
  rw [← Out.ok.inj h]
  refine ⟨hH _, mapM'_forall hc fun eph _ c hc => ?_, mapM'_forall he fun e heph z hz => ?_⟩
  · obtain ⟨_, _, hc⟩ := Out.bind_eq_ok.1 hc
    obtain ⟨_, _, hc⟩ := Out.bind_eq_ok.1 hc
    rw [← Out.ok.inj hc]
    exact hN0.wide.val_lt _
  · obtain ⟨ha, hb⟩ := hd e.1 (List.of_mem_zip heph).1
    obtain ⟨_, h1, hz⟩ := Out.bind_eq_ok.1 hz
    obtain ⟨_, h2, hz⟩ := Out.bind_eq_ok.1 hz
    obtain ⟨_, h3, hz⟩ := Out.bind_eq_ok.1 hz
    rw [← Out.ok.inj hz]
    exact ⟨bitResponse_wf ha hx h1, bitResponse_wf hb hy h2, hN0.uint.toMasked_lt h3⟩

end Curve

variable {Aux : Type}

theorem FacProof.prove_fits {P : Params} {H : FacHash Aux → SInt} {Nh p q' : Nat} {setup : RPParams Nh} {aux : Aux} {mask : FacMasks} {psi : FacProof}
    (hNh : ModulusFits P.uint Nh) (hH : ∀ t, (H t).WF P.uint) (h : (FacProof.prove P H p q' setup aux mask : Out ε _) = .ok psi) : FacFits P psi := by
  unfold FacProof.prove at h
  obtain ⟨pS, _, h⟩ := Out.bind_eq_ok.1 h
  obtain ⟨qS, _, h⟩ := Out.bind_eq_ok.1 h
  obtain ⟨_, hP, h⟩ := Out.bind_eq_ok.1 h
  obtain ⟨_, hQ, h⟩ := Out.bind_eq_ok.1 h
  obtain ⟨_, hA, h⟩ := Out.bind_eq_ok.1 h
  obtain ⟨_, hB, h⟩ := Out.bind_eq_ok.1 h
  obtain ⟨_, _, h⟩ := Out.bind_eq_ok.1 h
  obtain ⟨_, hr, h⟩ := Out.bind_eq_ok.1 h
  obtain ⟨z1, h1, h⟩ := Out.bind_eq_ok.1 h
  obtain ⟨z2, h2, h⟩ := Out.bind_eq_ok.1 h
  obtain ⟨w1, h3, h⟩ := Out.bind_eq_ok.1 h
  obtain ⟨w2, h4, h⟩ := Out.bind_eq_ok.1 h
  obtain ⟨v, h5, h⟩ := Out.bind_eq_ok.1 h
  have hP := commitSecret_fits hP
  have hQ := commitSecret_fits hQ
  have hA := commitSecret_fits hA
  have hB := commitSecret_fits hB
  have hr := powSecret_fits hr
  rw [← Out.ok.inj h]
  refine ⟨hH _, hNh.val_lt _, hNh.val_lt _, hNh.val_lt _, hNh.val_lt _, hNh.val_lt _, SInt.response_wf hA.1 hP.1 (hH _).2 h1, SInt.response_wf hB.1 hQ.1 (hH _).2 h2,
    SInt.response_wf hA.2 hP.2 (hH _).2 h3, SInt.response_wf hB.2 hQ.2 (hH _).2 h4, ?_⟩
  obtain ⟨_, h6, h5⟩ := Out.bind_eq_ok.1 h5
  obtain ⟨_, h7, h5⟩ := Out.bind_eq_ok.1 h5
  exact SInt.sub_wf hr (SInt.mul_wf (SInt.mulWide_wf hP.1 (hH _).2 h6).2 hQ.2 h7).2 h5

theorem PrmProof.prove_fits {P : Params} {N : Nat} {H : PrmHash Aux → List Bool} {totient lambda : Nat} {setup : RPParams N} {aux : Aux} {as : List Nat}
    (hN : ModulusFits P.uint N) (hH : ∀ t, BitsFit (H t)) (ht : 0 < totient) (ht' : totient ≤ 2 ^ P.uint) (ha : ∀ a ∈ as, a < totient) :
    PrmFits P (PrmProof.prove P H totient lambda setup aux as) := by
  refine ⟨fun x hx => ?_, hH _, fun x hx => ?_⟩
  · obtain ⟨a, _, rfl⟩ := List.mem_map.1 hx
    exact hN.val_lt _
  · obtain ⟨y, hy, rfl⟩ := List.mem_map.1 hx
    have h1 := ha y.1 (List.of_mem_zip hy).1
    have h2 := Nat.mod_lt (y.1 + lambda) ht
    split
    · exact lt_of_lt_of_le h2 ht'
    · exact lt_of_lt_of_le h1 ht'

theorem rnsJoin_lt {p q : Nat} (hp : p ≠ 0) (hq : q ≠ 0) (sk : SecretKey p q) (r : ZMod p × ZMod q) : rnsJoin sk r < p * q := by
  have : NeZero p := ⟨hp⟩
  have : NeZero q := ⟨hq⟩
  have h1 := ZMod.val_lt r.1
  have h2 := ZMod.val_lt ((r.2 - (r.1.val : ZMod q)) * sk.invPModQ)
  unfold rnsJoin
  have h3 : p * (((r.2 - (r.1.val : ZMod q)) * sk.invPModQ).val + 1) ≤ p * q := Nat.mul_le_mul_left p h2
  rw [mul_add, mul_one] at h3
  show r.1.val + p * ((r.2 - (r.1.val : ZMod q)) * sk.invPModQ).val < p * q
  omega

theorem ModProof.prove_fits {P : Params} {p q w : Nat} {H : ModHash Aux → List Nat} {sk : SecretKey p q} {aux : Aux} {psi : ModProof} (hp : p ≠ 0) (hq : q ≠ 0)
    (hN : ModulusFits P.uint (p * q)) (hw : w < 2 ^ P.uint) (hH : ∀ t, ∀ y ∈ H t, y < 2 ^ P.uint) (h : (ModProof.prove P H sk aux w : Out ε _) = .ok psi) : ModFits P psi := by
  unfold ModProof.prove at h
  obtain ⟨els, he, h⟩ := Out.bind_eq_ok.1 h
  rw [← Out.ok.inj h]
  refine ⟨hw, hH _, mapM'_forall he fun y _ x hx => ?_⟩
  obtain ⟨r, _, hx⟩ := Out.bind_eq_ok.1 hx
  obtain ⟨r4, _, hx⟩ := Out.bind_eq_ok.1 hx
  rw [← Out.ok.inj hx]
  exact ⟨lt_of_lt_of_le (rnsJoin_lt hp hq sk r4) hN.le, hN.val_lt _⟩

end Synedrion
