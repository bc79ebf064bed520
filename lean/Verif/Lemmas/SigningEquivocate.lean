import Verif.Lemmas.SigningCheat

/-!
# Runs of interactive signing in which a party makes the ciphertext for another one twice, with different randomness
-/

set_option linter.unusedSectionVars false

namespace Synedrion

open Spec

theorem fromOthers_congr_ne {I M : Type} [LinearOrder I] {ids : Finset I} {i : I} {msg msg' : I → M} {arr : List (I × M)} (h : FromOthers ids i msg arr)
    (he : ∀ j ∈ ids, j ≠ i → msg j = msg' j) : FromOthers ids i msg' arr := by
  refine ⟨h.1, fun a => (h.2 a).trans ?_⟩
  constructor
  · rintro ⟨h1, h2, h3⟩; exact ⟨h1, h2, h3.trans (he _ h1 h2)⟩
  · rintro ⟨h1, h2, h3⟩; exact ⟨h1, h2, h3.trans (he _ h1 h2).symm⟩

/-! ### Sums of ciphertexts -/

namespace Cipher

theorem sumLoop_prod {ε α : Type} {N : Nat} {x : α → Ct N} {f : α → Out ε Cipher} : ∀ (l : List α) (acc : Ct N), (∀ a ∈ l, f a = .ok ⟨N, x a⟩) →
    sumLoop ⟨N, acc⟩ (l.map f) = .ok ⟨N, acc * (l.map x).prod⟩ := by
  intro l
  induction l with
  | nil => intro acc _; simp [sumLoop]
  | cons a l ih =>
    intro acc h
    have hadd : (Cipher.add ⟨N, acc⟩ ⟨N, x a⟩ : Out ε _) = .ok ⟨N, acc * x a⟩ := by simp [Cipher.add, under, ctAdd]
    rw [List.map_cons, sumLoop, h a (by simp), Out.bind_ok, hadd, Out.bind_ok, ih _ (fun b hb => h b (by simp [hb])), List.map_cons, List.prod_cons, mul_assoc]

theorem sumNonEmpty_prod {ε α : Type} {N : Nat} {x : α → Ct N} {f : α → Out ε Cipher} {l : List α} (hl : l ≠ []) (h : ∀ a ∈ l, f a = .ok ⟨N, x a⟩) (e : ε) :
    sumNonEmpty e (l.map f) = .ok ⟨N, (l.map x).prod⟩ := by
  cases l with
  | nil => exact absurd rfl hl
  | cons a l =>
    rw [List.map_cons, sumNonEmpty, h a (by simp), Out.bind_ok, sumLoop_prod l _ (fun b hb => h b (by simp [hb]))]
    rfl

end Cipher

namespace Signing

variable {q : Nat} [Fact q.Prime] {I Ep G : Type} [LinearOrder I] [AddCommGroup G] [Module (ZMod q) G] [DecidableEq G]

theorem aggregate_prod {ε : Type} {N : Nat} {ids : Finset I} (hne : ids.Nonempty) {x f : I → Ct N} {capDs capFs : BMap I (BMap I Cipher)} {party : I}
    (hds : ∀ i ∈ ids, Entry capDs i party ⟨N, x i⟩) (hfs : ∀ i ∈ ids, Entry capFs party i ⟨N, f i⟩) (missing emptyErr : ε) :
    aggregate missing emptyErr capDs capFs party ids = .ok ⟨N, (∏ i ∈ ids, x i) * ∏ i ∈ ids, f i⟩ := by
  have hl : bsetIter ids ≠ [] := by
    obtain ⟨i, hi⟩ := hne
    intro h
    have := mem_bsetIter.2 hi
    rw [h] at this
    cases this
  unfold aggregate
  rw [Cipher.sumNonEmpty_prod hl (fun i hi => (hds i (mem_bsetIter.1 hi)).get missing), Out.bind_ok,
    Cipher.sumNonEmpty_prod hl (fun i hi => (hfs i (mem_bsetIter.1 hi)).get missing), Out.bind_ok, prod_bsetIter, prod_bsetIter]
  simp [Cipher.add, Cipher.under, ctAdd]

end Signing

/-! ### A proof of correct decryption is about one ciphertext -/

section
variable {q : Nat} {G Aux : Type} [AddCommGroup G] [Module (ZMod q) G] [DecidableEq G] {ε : Type}

theorem decCheck_other {P : Params} {g : G} {N0 : Nat} {pub : DecPublic N0 G} {bit : Bool} {com : DecCommitment G} {el : DecElement}
    (h : (decCheck P g q pub bit com el : Out ε _) = .ok true) (hu : IsUnit (ctOfWire N0 com.capA)) {D : Ct N0} (hD : D ≠ pub.capD) :
    (decCheck P g q { pub with capD := D } bit com el : Out ε _) = .ok (!bit) := by
  cases bit with
  | false => exact h
  | true =>
    unfold decCheck at h ⊢
    obtain ⟨kz, hkz, h⟩ := Out.bind_eq_ok.1 h
    simp only at hkz ⊢
    rw [hkz, Out.bind_ok]
    obtain ⟨h1, -⟩ := Out.check_eq_true.1 h
    simp only [if_true, decide_eq_true_eq] at h1
    rw [decide_eq_false, Out.check_false]
    · rfl
    · rw [h1]
      intro he
      exact hD (hu.mul_left_cancel (show ctOfWire N0 com.capA * D = ctOfWire N0 com.capA * pub.capD from he.symm))

theorem dec_other {P : Params} {H : DecHash G Aux → List Bool} {g : G} {N0 Nh : Nat} {psi : DecProof G} {pub : DecPublic N0 G} {setup : RPParams Nh} {aux : Aux}
    (h : (psi.verify P H g q pub setup aux : Out ε _) = .ok true) (hu : ∀ com ∈ psi.commitments, IsUnit (ctOfWire N0 com.capA)) (hbit : ∀ t, true ∈ H t)
    {D : Ct N0} (hD : D ≠ pub.capD) : (psi.verify P H g q { pub with capD := D } setup aux : Out ε _) = .ok false := by
  simp only [DecProof.verify] at h ⊢
  obtain ⟨he, h⟩ := Out.check_eq_true.1 h
  obtain ⟨hl, h⟩ := Out.check_eq_true.1 h
  rw [decide_eq_true_eq] at he hl
  by_cases he' : H (decHash psi.commitments { pub with capD := D } setup aux) = psi.e
  · rw [he] at h hl
    rw [he', decide_eq_true rfl, Out.check_true, decide_eq_true hl, Out.check_true]
    rw [Out.allM_eq_true] at h
    push Not at hl
    rw [Out.allM_ok_of_forall (g := fun x => !x.1.1)]
    · refine congrArg Out.ok ?_
      rw [List.all_eq_false]
      have hm : true ∈ psi.e := he ▸ hbit _
      obtain ⟨n, hn, hn'⟩ := List.mem_iff_getElem.1 hm
      have hn1 : n < psi.commitments.length := hl.1 ▸ hn
      have hn2 : n < psi.elements.length := hl.2 ▸ hn
      refine ⟨((true, psi.commitments[n]), psi.elements[n]), ?_, by simp⟩
      refine List.mem_iff_getElem.2 ⟨n, by simp [List.length_zip]; omega, ?_⟩
      simp [List.getElem_zip, hn']
    · intro a ha
      refine decCheck_other (h a ha) (hu _ ?_) hD
      exact (List.of_mem_zip (List.of_mem_zip (show (a.1, a.2) ∈ _ from ha)).1).2
  · rw [decide_eq_false he', Out.check_false]

end

/-! ### The randomness of a ciphertext -/

/-- Doubling the randomness of a ciphertext changes it. -/
theorem two_pow_ne_one {p q : Nat} {sk : SecretKey p q} (hk : KeyFacts sk) : ((2 : Nat) : Ct (p * q)) ^ (p * q) ≠ 1 := by
  intro h
  have hp2 : 2 ≤ p := hk.primes.prime_p.two_le
  have hq1 : 1 ≤ q := hk.primes.prime_q.pos
  have hN : 1 < p * q := by nlinarith
  have : Fact (1 < p * q) := ⟨hN⟩
  have hc : Nat.Coprime 2 (p * q) := by
    rw [Nat.coprime_two_left, Nat.odd_iff]; exact hk.primes.odd
  have h1 : ((2 : Nat) : ZMod (p * q)) ^ (p * q) = 1 := by
    have := congrArg (redN (p * q)) h
    rwa [map_pow, map_one, redN_natCast] at this
  have h2 : ((2 : Nat) : ZMod (p * q)) = 1 := by
    have h3 := unit_pow_inv hk (ZMod.unitOfCoprime 2 hc)
    have h4 : ZMod.unitOfCoprime 2 hc ^ (p * q) = 1 := by
      ext; rw [Units.val_pow_eq_pow_val, ZMod.coe_unitOfCoprime]; exact h1
    rw [pow_mul, h4, one_pow] at h3
    have := congrArg Units.val h3
    rwa [ZMod.coe_unitOfCoprime, Units.val_one, eq_comm] at this
  have h5 : (1 : ZMod (p * q)) = 0 := by
    have : ((2 : Nat) : ZMod (p * q)) = 1 + 1 := by norm_num
    rw [this] at h2
    exact add_left_cancel (h2.trans (add_zero 1).symm)
  exact one_ne_zero h5

namespace Signing

variable {q : Nat} [Fact q.Prime] {I Ep G : Type} [LinearOrder I] [AddCommGroup G] [Module (ZMod q) G] [DecidableEq G]

/-- The draws of the parties, reseeded for `cheater` -/
def reseed (d : I → Draws q I) (cheater v : I) (i : I) : Draws q I :=
  { d i with mta := { (d i).mta with s := fun j => if i = cheater ∧ j = v then (d i).mta.s j * 2 else (d i).mta.s j } }

theorem reseed_other {d : I → Draws q I} {cheater v i : I} (h : i ≠ cheater) : reseed d cheater v i = d i := by
  unfold reseed
  simp [h]

theorem reseed_valid {P : Params} {ids : Finset I} {N Nh : I → Nat} {d : I → Draws q I} (h : SigningDrawsValid P ids N Nh d) {cheater v : I}
    (hodd : Nat.Coprime 2 (N v)) : SigningDrawsValid P ids N Nh (reseed d cheater v) where
  nu := h.nu
  rho := h.rho
  enc0 := h.enc0
  enc1 := h.enc1
  mta i hi j hj hij := by
    have hm := h.mta i hi j hj hij
    refine ⟨hm.beta, hm.r, ?_, hm.masks, hm.innerAlpha, hm.innerBeta⟩
    show Nat.Coprime (if i = cheater ∧ j = v then (d i).mta.s j * 2 else (d i).mta.s j) (N j)
    split
    · rename_i hc
      rw [Nat.coprime_mul_iff_left]
      exact ⟨hm.s, hc.2 ▸ hodd⟩
    · exact hm.s
  hatMta := h.hatMta

theorem reseed_error {E : Env q I Ep G} {others : Finset I} {N : Nat} {pk : I → Nat} {c : Nat} {d : I → Draws q I} {cheater v i : I}
    (h : ErrorDrawsValid E others N pk c (d i)) (hodd : Nat.Coprime 2 (pk v)) : ErrorDrawsValid E others N pk c (reseed d cheater v i) where
  rho := h.rho
  beta := h.beta
  r := h.r
  s j hj := by
    refine ⟨?_, (h.s j hj).2⟩
    show Nat.Coprime (if i = cheater ∧ j = v then (d i).mta.s j * 2 else (d i).mta.s j) (pk j)
    split
    · rename_i hc
      rw [Nat.coprime_mul_iff_left]
      exact ⟨(h.s j hj).1, hc.2 ▸ hodd⟩
    · exact (h.s j hj).1
  dec := h.dec
  star := h.star
  decCount := h.decCount
  starCount := h.starCount

/-! ### Who is believed in the error round depends on the ciphertexts of round 2 -/

/-- A message that is accepted is rejected by a party which has seen another aggregated ciphertext of the sender. -/
theorem recvErr_other {E : Env q I Ep G} {r r' : ErrRound q I Ep G} {v : I} {m : MsgErr I G} (h : recvErr E r v m = .ok ())
    (hhat : r'.hat = r.hat) (hep : r'.ctx.epid = r.ctx.epid) (hall : r'.ctx.allIds = r.ctx.allIds) (hpa : r'.ctx.pubAux = r.ctx.pubAux) (hks : r'.capKs = r.capKs)
    (hxs : r'.capXs = r.capXs) (hss : r'.capSs = r.capSs) (hcg : r'.capG = r.capG) {theirs : PubAux} (hth : r.ctx.pubAux.get? v = some theirs)
    {D D' : Ct theirs.pk} (hne : D' ≠ D)
    (hD : ∀ (ε : Type) (a b : ε), aggregate a b r.capDs r.capFs v (r.ctx.allIds.erase v) = .ok ⟨theirs.pk, D⟩)
    (hD' : ∀ (ε : Type) (a b : ε), aggregate a b r'.capDs r'.capFs v (r.ctx.allIds.erase v) = .ok ⟨theirs.pk, D'⟩)
    (hu : ∀ com ∈ m.psiStar.commitments, IsUnit (ctOfWire theirs.pk com.capA)) (hbit : ∀ t, true ∈ E.decH t) :
    recvErr E r' v m = .err (.protocol (.decFailed r.hat)) := by
  unfold recvErr at h ⊢
  simp only [hhat, hep, hall, hpa, hks, hxs, hss, hcg, recvGet, hth, Out.ofOption_some, Out.bind_ok, hD, hD'] at h ⊢
  obtain ⟨capK, hK, h⟩ := Out.bind_eq_ok.1 h
  obtain ⟨capX, hX, h⟩ := Out.bind_eq_ok.1 h
  obtain ⟨capS, hS, h⟩ := Out.bind_eq_ok.1 h
  obtain ⟨k, hk, h⟩ := Out.bind_eq_ok.1 h
  obtain ⟨ok, hok, h⟩ := Out.bind_eq_ok.1 (show (Out.bind _ _) = _ from by simpa only [Cipher.under_self, Out.bind_ok] using h)
  rw [hK, Out.bind_ok, hX, Out.bind_ok, hS, Out.bind_ok, hk, Out.bind_ok, Cipher.under_self, Out.bind_ok]
  split at h
  · cases h
  · rename_i ht
    have ht : ok = true := by simpa using ht
    subst ht
    rw [dec_other hok hu hbit hne, Out.bind_ok]
    exact if_pos (by simp)

/-- The commitments of a proof of correct decryption are invertible. -/
theorem decCommitments_unit {ε : Type} {P : Params} {H : DecHash G (Ep × I) → List Bool} {g : G} {N0 Nh : Nat} (hN : 0 < N0) {x y : SInt} {rho : Nat}
    {pub : DecPublic N0 G} {setup : RPParams Nh} {aux : Ep × I} {ephs : List DecEphemeral} {psi : DecProof G}
    (h : (DecProof.prove P H g q x y rho pub setup aux ephs : Out ε _) = .ok psi) (hK : IsUnit pub.capK)
    (hfits : ∀ e ∈ ephs, e.alpha.Fits ∧ e.beta.Fits) (hr : ∀ e ∈ ephs, Nat.Coprime e.r N0) : ∀ com ∈ psi.commitments, IsUnit (ctOfWire N0 com.capA) := by
  unfold DecProof.prove at h
  simp only [Out.bind_eq_ok] at h
  obtain ⟨_, _, _, _, _, _, coms, hcom, _, _, he⟩ := h
  cases he
  intro com hc
  obtain ⟨U, hU⟩ := hK
  have hall : Out.mapM' (ε := ε) (decCommit g pub q) ephs = .ok (ephs.map fun e =>
      ⟨ctToWire (ctAdd ((U ^ e.alpha.neg.val : (ZMod (N0 ^ 2))ˣ) : Ct N0) (oneAdd N0 e.beta.val * (e.r : Ct N0) ^ N0)), scalarOfSigned q e.beta • pub.capG,
        scalarOfSigned q e.alpha • g⟩) := by
    refine Out.mapM'_ok_of_forall (g := fun e => _) fun e he => ?_
    unfold decCommit
    rw [← hU, ctMulSecret_unit U (SInt.neg_fits (hfits e he).1), Out.bind_ok, enc_eq (hfits e he).2, Out.bind_ok]
  rw [hall] at hcom
  cases hcom
  obtain ⟨e, he, rfl⟩ := List.mem_map.1 hc
  simp only
  rw [ctWire hN]
  obtain ⟨u, hu⟩ := natCast_unit_sq (hr e he)
  rw [← hu]
  exact (U ^ e.alpha.neg.val).isUnit.mul ((oneAddUnit N0 e.beta.val).isUnit.mul (u.isUnit.pow N0))

namespace Run

variable {S : Run q I Ep G} {sk : ZMod q} {o : I → I → MtaOut q G × MtaOut q G}

/-- What `i` makes for `v` in round 2, where `U` is the ciphertext of `v` -/
def sentTo (S : Run q I Ep G) (v : I) (U : (ZMod (S.N v ^ 2))ˣ) (i : I) : Ct (S.N v) :=
  ((U ^ (signedI S.E.P (S.d i).gamma).val : (ZMod (S.N v ^ 2))ˣ) : Ct (S.N v)) *
    (oneAdd (S.N v) (-((S.d i).mta.beta v).val) * (((S.d i).mta.s v : Nat) : Ct (S.N v)) ^ S.N v)

def ownMask (S : Run q I Ep G) (v i : I) : Ct (S.N v) := oneAdd (S.N v) ((S.d v).mta.beta i).val * (((S.d v).mta.r i : Nat) : Ct (S.N v)) ^ S.N v

/-- The aggregated ciphertext of `v` -/
theorem aggregate_eq (ho : S.BothDone o) {v : I} (hv : v ∈ S.ids) (hne : (S.ids.erase v).Nonempty) {U : (ZMod (S.N v ^ 2))ˣ} (hU : S.capK v = (U : Ct (S.N v)))
    {delta : I → ZMod q} {w : I} {ε : Type} (a b : ε) :
    aggregate a b (S.errRound o delta w).capDs (S.errRound o delta w).capFs v (S.ids.erase v) =
      .ok ⟨S.N v, (∏ i ∈ S.ids.erase v, S.sentTo v U i) * ∏ i ∈ S.ids.erase v, S.ownMask v i⟩ := by
  refine aggregate_prod hne ?_ ?_ a b
  · intro i hi
    obtain ⟨hiv, hi⟩ := Finset.mem_erase.1 hi
    refine ⟨BMap.tabulate (S.ids.erase i) fun j => (o i j).1.capD, ?_, ?_⟩
    · exact (BMap.get?_tabulate ..).trans (if_pos hi)
    · rw [BMap.get?_tabulate, if_pos (Finset.mem_erase.2 ⟨Ne.symm hiv, hv⟩)]
      obtain ⟨U', hU', hD⟩ := (ho.mta i hi v hv hiv).capDEq
      have : U' = U := Units.ext (hU'.symm.trans hU)
      subst this
      exact congrArg some hD
  · intro i hi
    obtain ⟨hiv, hi'⟩ := Finset.mem_erase.1 hi
    refine ⟨BMap.tabulate (S.ids.erase v) fun j => (o v j).1.capF, ?_, ?_⟩
    · exact (BMap.get?_tabulate ..).trans (if_pos hv)
    · rw [BMap.get?_tabulate, if_pos hi]
      exact congrArg some (ho.mta v hv i hi' (Ne.symm hiv)).capFEq

/-- The run in which `cheater` makes the ciphertext for `v` with other randomness -/
def reseeded (S : Run q I Ep G) (cheater v : I) : Run q I Ep G := { S with d := reseed S.d cheater v }

/-- What `i` makes for `v` in that run -/
def resentTo (S : Run q I Ep G) (cheater v : I) (U : (ZMod (S.N v ^ 2))ˣ) (i : I) : Ct (S.N v) := (S.reseeded cheater v).sentTo v U i

theorem sentTo_unit (good : S.Good sk) {v : I} (hv : v ∈ S.ids) (U : (ZMod (S.N v ^ 2))ˣ) {i : I} (hi : i ∈ S.ids) (hiv : i ≠ v) : IsUnit (S.sentTo v U i) := by
  obtain ⟨u, hu⟩ := natCast_unit_sq (good.draws.mta i hi v hv hiv).s
  unfold sentTo
  rw [← hu]
  exact (U ^ (signedI S.E.P (S.d i).gamma).val).isUnit.mul ((oneAddUnit (S.N v) _).isUnit.mul (u.isUnit.pow _))

/-- The aggregated ciphertext of `v` changes. -/
theorem reseeded_prod_ne (good : S.Good sk) {cheater v : I} (hv : v ∈ S.ids) (hch : cheater ∈ S.ids) (hcv : cheater ≠ v) (U : (ZMod (S.N v ^ 2))ˣ) (y : Ct (S.N v))
    (hy : IsUnit y) : (∏ i ∈ S.ids.erase v, S.resentTo cheater v U i) * y ≠ (∏ i ∈ S.ids.erase v, S.sentTo v U i) * y := by
  have hmem : cheater ∈ S.ids.erase v := Finset.mem_erase.2 ⟨hcv, hch⟩
  intro h
  have h := hy.mul_right_cancel h
  rw [← Finset.mul_prod_erase _ _ hmem, ← Finset.mul_prod_erase _ (fun i => S.sentTo v U i) hmem] at h
  have hrest : ∏ i ∈ (S.ids.erase v).erase cheater, S.resentTo cheater v U i = ∏ i ∈ (S.ids.erase v).erase cheater, S.sentTo v U i := by
    refine Finset.prod_congr rfl fun i hi => ?_
    have hic := (Finset.mem_erase.1 hi).1
    have : (S.reseeded cheater v).d i = S.d i := reseed_other hic
    unfold resentTo sentTo
    rw [this]
    rfl
  rw [hrest] at h
  have hu : IsUnit (∏ i ∈ (S.ids.erase v).erase cheater, S.sentTo v U i) := by
    rw [IsUnit.prod_iff]
    intro i hi
    obtain ⟨_, hi⟩ := Finset.mem_erase.1 hi
    obtain ⟨hiv, hi⟩ := Finset.mem_erase.1 hi
    exact sentTo_unit good hv U hi hiv
  have h := hu.mul_right_cancel h
  have h2 : S.resentTo cheater v U cheater = S.sentTo v U cheater * ((2 : Nat) : Ct (S.N v)) ^ S.N v := by
    have hs : ((S.reseeded cheater v).d cheater).mta.s v = (S.d cheater).mta.s v * 2 := if_pos ⟨rfl, rfl⟩
    unfold resentTo sentTo
    rw [hs]
    show _ * (_ * (((S.d cheater).mta.s v * 2 : Nat) : Ct (S.N v)) ^ S.N v) = _
    rw [Nat.cast_mul, mul_pow]
    show _ = _ * (_ * _) * _
    rw [mul_assoc, mul_assoc]
    rfl
  rw [h2] at h
  have h3 := (sentTo_unit good hv U hch hcv).mul_left_cancel (h.trans (mul_one _).symm)
  exact two_pow_ne_one (good.key v hv) h3

end Run

end Signing

end Synedrion
