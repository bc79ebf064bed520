import Verif.Spec.LifeNetwork
import Verif.Props.KeyResharing
import Verif.Props.Entities
import Verif.Props.NetworkRefinement
import Verif.Lemmas.Bip32
import Verif.Lemmas.SharePoly
import Verif.Lemmas.NetworkScript

/-!
# Lemmas on what honest holders keep over a history of sessions
-/

set_option linter.unusedSectionVars false

namespace Synedrion

open Spec Shamir

section Views

variable {I F G : Type} [LinearOrder I] [Field F] [LinearOrder F] [AddCommGroup G] [Module F G] [DecidableEq G]
variable {g vk : G} {honest honest' : Set I} {ids : Finset I} {t : Nat}

/-- Points are the values of a polynomial with as many coefficients as there are points. -/
theorem exists_point_poly {sid : I → F} (hinj : Set.InjOn sid ids) (hne : ids.Nonempty) (v : I → G) :
    ∃ (c : G) (tail : List G), tail.length < ids.card ∧ ∀ i ∈ ids, polyValue (c :: tail) (sid i) = v i := by
  classical
  have hcard : (ids.image sid).card = ids.card := Finset.card_image_of_injOn hinj
  have hpos := Finset.card_pos.2 hne
  let B : I → Polynomial F := fun i => Lagrange.basis (ids.image sid) id (sid i)
  have hdeg : ∀ i ∈ ids, (B i).degree < (ids.card : Nat) := by
    intro i hi
    have := Lagrange.degree_basis (s := ids.image sid) (v := id) (fun a _ b _ h => h) (Finset.mem_image_of_mem sid hi)
    show (Lagrange.basis (ids.image sid) id (sid i)).degree < _
    rw [this, hcard]
    exact_mod_cast (by omega : ids.card - 1 < ids.card)
  let C : Nat → G := fun k => ∑ i ∈ ids, (B i).coeff k • v i
  have hval : ∀ x : F, polyValue ((List.range ids.card).map C) x = ∑ i ∈ ids, (B i).eval x • v i := by
    intro x
    have h1 : ∀ i ∈ ids, (B i).eval x • v i = ∑ k ∈ Finset.range ids.card, x ^ k • (B i).coeff k • v i := by
      intro i hi
      rw [Polynomial.eval_eq_sum_range' (n := ids.card) (by
        by_cases hb : B i = 0
        · rw [hb, Polynomial.natDegree_zero]; exact hpos
        · exact (Polynomial.natDegree_lt_iff_degree_lt hb).2 (hdeg i hi)), Finset.sum_smul]
      exact Finset.sum_congr rfl fun k _ => by rw [smul_smul, mul_comm]
    rw [Finset.sum_congr rfl h1, Finset.sum_comm]
    unfold polyValue
    have : ∀ (n : Nat) (h : ((List.range ids.card).map C).length = n), ∑ k : Fin ((List.range ids.card).map C).length, x ^ (k : Nat) • ((List.range ids.card).map C)[k] =
        ∑ k ∈ Finset.range n, x ^ k • C k := by
      intro n h
      subst h
      rw [← Fin.sum_univ_eq_sum_range (fun k => x ^ k • C k)]
      exact Finset.sum_congr rfl fun k _ => by simp
    rw [this ids.card (by simp)]
    exact Finset.sum_congr rfl fun k _ => by rw [Finset.smul_sum]
  have hl : (List.range ids.card).map C = C 0 :: (List.range (ids.card - 1)).map fun k => C (k + 1) := by
    obtain ⟨m, hm⟩ : ∃ m, ids.card = m + 1 := ⟨ids.card - 1, by omega⟩
    rw [hm, List.range_succ_eq_map]
    simp [Function.comp_def]
  refine ⟨C 0, (List.range (ids.card - 1)).map fun k => C (k + 1), by simp; omega, fun i hi => ?_⟩
  rw [← hl, hval, Finset.sum_eq_single i]
  · have := Lagrange.eval_basis_self (s := ids.image sid) (v := id) (fun a _ b _ h => h) (Finset.mem_image_of_mem sid hi)
    simp only [id] at this
    rw [this, one_smul]
  · intro j hj hji
    have := Lagrange.eval_basis_of_ne (s := ids.image sid) (v := id) (i := sid j) (j := sid i) (fun h => hji (hinj hj hi h)) (Finset.mem_image_of_mem sid hi)
    simp only [id] at this
    rw [this, zero_smul]
  · intro h; exact absurd hi h

theorem Spec.FullView.mono {shares : I → KeyShare I F G} (h : FullView g honest ids shares vk) (hs : honest' ⊆ honest) : FullView g honest' ids shares vk where
  member i hi := h.member i (hs hi)
  owner i hi := h.owner i (hs hi)
  holders i hi := h.holders i (hs hi)
  same_public i hi j hj := h.same_public i (hs hi) j (hs hj)
  own i hi := h.own i (hs hi)
  key i hi := h.key i (hs hi)

theorem Spec.ThresholdView.mono {shares : I → ThresholdKeyShare I F G} {sid : I → F} {tail : List G} (h : ThresholdView g honest ids t shares vk sid tail) (hs : honest' ⊆ honest) :
    ThresholdView g honest' ids t shares vk sid tail where
  member i hi := h.member i (hs hi)
  owner i hi := h.owner i (hs hi)
  threshold i hi := h.threshold i (hs hi)
  size := h.size
  distinct := h.distinct
  degree := h.degree
  ids_agree i hi := h.ids_agree i (hs hi)
  public_agree i hi := h.public_agree i (hs hi)
  own i hi := h.own i (hs hi)

theorem Spec.ThresholdView.share_eq {shares : I → ThresholdKeyShare I F G} {sid : I → F} {tail : List G} (h : ThresholdView g honest ids t shares vk sid tail) {i : I} (hi : i ∈ honest) :
    shares i = ⟨i, t, (shares i).secretShare, BMap.tabulate ids sid, BMap.tabulate ids fun j => polyValue (vk :: tail) (sid j)⟩ := by
  have e5 := BMap.eq_tabulate_of (h.ids_agree i hi).1 (h.ids_agree i hi).2
  have e7 := BMap.eq_tabulate_of (h.public_agree i hi).1 (h.public_agree i hi).2
  calc shares i = ⟨(shares i).owner, (shares i).threshold, (shares i).secretShare, (shares i).shareIds, (shares i).publicShares⟩ := rfl
    _ = _ := by rw [h.owner i hi, h.threshold i hi, e5, e7]

/-- The own public share, as a value of the polynomial -/
theorem Spec.ThresholdView.own_value {shares : I → ThresholdKeyShare I F G} {sid : I → F} {tail : List G} (h : ThresholdView g honest ids t shares vk sid tail) {i : I} (hi : i ∈ honest) :
    polyValue (vk :: tail) (sid i) = (shares i).secretShare • g :=
  Option.some.inj (((h.public_agree i hi).2 i (h.member i hi)).symm.trans (h.own i hi))

theorem Spec.ThresholdView.reports {vk : G} {shares : I → ThresholdKeyShare I F G} {sid : I → F} {tail : List G} (h : ThresholdView g honest ids t shares vk sid tail) (h0 : vk ≠ 0)
    {i : I} (hi : i ∈ honest) : (shares i).verifyingKey = .ok vk := by
  obtain ⟨T, hT, hTc, hv⟩ := thresholdVk_tabulate (o := i) h.size.2 (shares i).secretShare h.distinct fun j => polyValue (vk :: tail) (sid j)
  have hinjT : Set.InjOn sid T := fun a ha b hb he => h.distinct (hT ha) (hT hb) he
  unfold ThresholdKeyShare.verifyingKey
  rw [h.share_eq hi, hv, Out.bind_ok, lagrange0_image hinjT vk tail (by have := h.degree; omega)]
  unfold toVerifyingKey
  rw [if_neg h0]
  rfl

/-- Converting threshold shares -/
theorem Spec.ThresholdView.toFull {shares : I → ThresholdKeyShare I F G} {sid : I → F} {tail : List G} (h : ThresholdView g honest ids t shares vk sid tail) {S : Finset I}
    (hh : honest' ⊆ honest) (hmem : ∀ i ∈ honest', i ∈ S) (hS : S ⊆ ids) (ht : t ≤ S.card) {dbg : Bool} {full : I → KeyShare I F G}
    (hc : ∀ i ∈ honest', (shares i).toKeyShare dbg S = .ok (full i)) : FullView g honest' S full vk := by
  have hinjS : Set.InjOn sid S := fun a ha b hb he => h.distinct (hS ha) (hS hb) he
  have key : ∀ i ∈ honest', full i = ⟨i, (shares i).secretShare * lagrange0 (S.image sid) (sid i),
      BMap.tabulate S fun j => lagrange0 (S.image sid) (sid j) • polyValue (vk :: tail) (sid j)⟩ := by
    intro i hi
    have hci := hc i hi
    have hdbg : dbg = true → S.card = t := by
      intro hd
      have h1 := hci
      unfold ThresholdKeyShare.toKeyShare at h1
      obtain ⟨_, h1, -⟩ := Out.bind_eq_ok.1 h1
      have := Out.assert_eq_ok.1 h1
      rw [hd, h.threshold i (hh hi)] at this
      simpa using this
    rw [h.share_eq (hh hi), toKeyShare_tabulate dbg hS (hmem i hi) t hdbg _ h.distinct] at hci
    unfold KeyShare.new at hci
    split at hci
    · cases hci
    · exact (Out.ok.inj hci).symm
  refine ⟨hmem, fun i hi => by rw [key i hi], fun i hi => by rw [key i hi]; simp, fun i hi j hj => by rw [key i hi, key j hj], fun i hi => ?_, fun i hi => ?_⟩
  · rw [key i hi]
    simp only [BMap.get?_tabulate, if_pos (hmem i hi)]
    rw [h.own_value (hh hi), smul_smul, mul_comm]
  · rw [key i hi]
    unfold KeyShare.verifyingKeyAsPoint
    simp only
    rw [BMap.sum_values_tabulate, lagrange0_image hinjS vk tail (by have := h.degree; omega)]

/-- Converting full shares -/
theorem Spec.FullView.toThreshold {q : Nat} [CharP F q] {shares : I → KeyShare I F G} (h : FullView g honest ids shares vk) (hq : ids.card < q) (hne : honest.Nonempty)
    (hh : honest' ⊆ honest) {new : I → ThresholdKeyShare I F G} (hc : ∀ i ∈ honest', (ThresholdKeyShare.fromKeyShare (shares i) : Out Unit _) = .ok (new i)) :
    ∃ sid tail, ThresholdView g honest' ids ids.card new vk sid tail := by
  have : Inhabited G := ⟨0⟩
  obtain ⟨a, ha⟩ := hne
  obtain ⟨sid, hinj, hne0, hfrom⟩ := fromKeyShare_eq (ε := Unit) (G := G) (F := F) ids hq
  have hlne : ∀ i, lagrange0 (ids.image sid) (sid i) ≠ 0 := by
    intro i
    apply lagrange0_ne_zero
    intro j hj
    obtain ⟨k, hk, rfl⟩ := Finset.mem_image.1 hj
    exact hne0 k hk
  have hids : ids.Nonempty := ⟨a, h.member a ha⟩
  set p : I → G := fun k => ((shares a).pub.get? k).getD default with hp
  have hpub : ∀ i ∈ honest, (shares i).pub = BMap.tabulate ids p := by
    intro i hi
    rw [h.same_public i hi a ha]
    have := BMap.eq_tabulate (shares a).pub
    rw [h.holders a ha] at this
    exact this
  have hsum : ∑ j ∈ ids, p j = vk := by
    have := h.key a ha
    unfold KeyShare.verifyingKeyAsPoint at this
    rw [hpub a ha, BMap.sum_values_tabulate] at this
    exact this
  obtain ⟨c, tail, hlen, hval⟩ := exists_point_poly hinj hids fun i => (lagrange0 (ids.image sid) (sid i))⁻¹ • p i
  have hcv : c = vk := by
    rw [← lagrange0_image hinj c tail hlen, ← hsum]
    exact Finset.sum_congr rfl fun i hi => by rw [hval i hi, smul_smul, mul_inv_cancel₀ (hlne i), one_smul]
  subst hcv
  have key : ∀ i ∈ honest', new i = ⟨i, ids.card, (shares i).secret * (lagrange0 (ids.image sid) (sid i))⁻¹, BMap.tabulate ids sid,
      BMap.tabulate ids fun i => (lagrange0 (ids.image sid) (sid i))⁻¹ • p i⟩ := by
    intro i hi
    have hs : shares i = ⟨i, (shares i).secret, BMap.tabulate ids p⟩ := by
      calc shares i = ⟨(shares i).owner, (shares i).secret, (shares i).pub⟩ := rfl
        _ = _ := by rw [h.owner i (hh hi), hpub i (hh hi)]
    have hci := hc i hi
    rw [hs, hfrom i _ p (h.member i (hh hi))] at hci
    exact (Out.ok.inj hci).symm
  refine ⟨sid, tail, fun i hi => h.member i (hh hi), fun i hi => by rw [key i hi], fun i hi => by rw [key i hi], ⟨Finset.card_pos.2 hids, le_refl _⟩, hinj, hlen,
    fun i hi => ?_, fun i hi => ?_, fun i hi => ?_⟩
  · rw [key i hi]
    exact ⟨by simp, fun j hj => by simp [hj]⟩
  · rw [key i hi]
    exact ⟨by simp, fun j hj => by simp [hj, hval j hj]⟩
  · have ho := h.own i (hh hi)
    rw [hpub i (hh hi), BMap.get?_tabulate, if_pos (h.member i (hh hi))] at ho
    rw [key i hi]
    simp only [BMap.get?_tabulate, if_pos (h.member i (hh hi))]
    rw [Option.some.inj ho, smul_smul, mul_comm]

/-- The tweaks of a derivation add up. -/
theorem applyTweaksPublic_ok {p p' : G} {ts : List F} (h : applyTweaksPublic g p ts = .ok p') : p' = p + ts.sum • g := by
  induction ts generalizing p with
  | nil => cases h; simp
  | cons x ts ih =>
    unfold applyTweaksPublic at h
    obtain ⟨z, hz, h2⟩ := Out.bind_eq_ok.1 h
    have : z = p + x • g := by
      unfold deriveChildPublic at hz
      split at hz
      · cases hz
      · split at hz
        · cases hz
        · exact (Out.ok.inj hz).symm
    rw [ih h2, this, List.sum_cons, add_smul, add_assoc]

theorem applyTweaksPublic_ne_zero {p p' : G} {ts : List F} (h0 : p ≠ 0) (h : applyTweaksPublic g p ts = .ok p') : p' ≠ 0 := by
  induction ts generalizing p with
  | nil => cases h; exact h0
  | cons x ts ih =>
    unfold applyTweaksPublic at h
    obtain ⟨z, hz, h2⟩ := Out.bind_eq_ok.1 h
    refine ih ?_ h2
    unfold deriveChildPublic at hz
    split at hz
    · cases hz
    · split at hz
      · cases hz
      · rename_i hn
        rw [← Out.ok.inj hz]
        exact hn

/-- Deriving child shares -/
theorem Spec.ThresholdView.derive {CC : Type} {vk vk' : G} {chainCode : G → CC} {deriveTweak : G → CC → Nat → Out EntErr (F × CC)} {path : List Nat}
    {shares : I → ThresholdKeyShare I F G} {sid : I → F} {tail : List G} (h : ThresholdView g honest ids t shares vk sid tail) (h0 : vk ≠ 0) (hh : honest' ⊆ honest)
    {child : I → ThresholdKeyShare I F G} (hc : ∀ i ∈ honest', (shares i).deriveBip32 g chainCode deriveTweak path = .ok (child i))
    (hvk : deriveVerifyingKeyBip32 g chainCode deriveTweak vk path = .ok vk') : vk' ≠ 0 ∧ ThresholdView g honest' ids t child vk' sid tail := by
  unfold deriveVerifyingKeyBip32 at hvk
  obtain ⟨tw, htw, happ⟩ := Out.bind_eq_ok.1 hvk
  have hv := applyTweaksPublic_ok happ
  have hpoly : ∀ x : F, polyValue (vk' :: tail) x = polyValue (vk :: tail) x + tw.sum • g := by
    intro x
    rw [polyValue_cons, polyValue_cons, hv]
    abel
  have key : ∀ i ∈ honest', child i = ⟨i, t, (shares i).secretShare + tw.sum, BMap.tabulate ids sid, BMap.tabulate ids fun j => polyValue (vk' :: tail) (sid j)⟩ := by
    intro i hi
    have hci := hc i hi
    unfold ThresholdKeyShare.deriveBip32 at hci
    have hk : (shares i).vkeyOrCrypto = .ok vk := by
      unfold ThresholdKeyShare.vkeyOrCrypto
      rw [h.reports h0 (hh hi)]
    rw [hk, Out.bind_ok, htw, Out.bind_ok] at hci
    obtain ⟨_, _, hci⟩ := Out.bind_eq_ok.1 hci
    obtain ⟨y, hy, hci⟩ := Out.bind_eq_ok.1 hci
    obtain ⟨pl, hpl, hci⟩ := Out.bind_eq_ok.1 hci
    have hple : pl = (shares i).publicShares.entries.map fun p => (p.1, p.2 + tw.sum • g) := by
      have hf := Out.mapM'_eq_ok_iff.1 hpl
      clear hpl hci
      generalize (shares i).publicShares.entries = es at hf
      induction hf with
      | nil => rfl
      | cons hab _ ih =>
        obtain ⟨v, hv1, hab⟩ := Out.bind_eq_ok.1 hab
        obtain ⟨w, hw, hab⟩ := Out.bind_eq_ok.1 hab
        have hv2 := Out.ofOption_eq_ok.1 hv1
        unfold toVerifyingKey at hv2
        split at hv2
        · cases hv2
        · have := Option.some.inj hv2
          rw [List.map_cons, ih, ← Out.ok.inj hab, applyTweaksPublic_ok hw, this]
    have hs := h.share_eq (hh hi)
    have hpub : (shares i).publicShares = BMap.tabulate ids fun j => polyValue (vk :: tail) (sid j) := by rw [hs]
    have hsh : (shares i).shareIds = BMap.tabulate ids sid := by rw [hs]
    rw [← Out.ok.inj hci, applyTweaksSecret_ok hy, h.owner i (hh hi), h.threshold i (hh hi), hsh, hple, hpub]
    simp only [BMap.tabulate, List.map_map, Function.comp_def]
    rw [ofList_map_bsetIter]
    simp only [hpoly]
    rfl
  refine ⟨applyTweaksPublic_ne_zero h0 happ, fun i hi => h.member i (hh hi), fun i hi => by rw [key i hi], fun i hi => by rw [key i hi], h.size, h.distinct, h.degree,
    fun i hi => ?_, fun i hi => ?_, fun i hi => ?_⟩
  · rw [key i hi]; exact ⟨by simp, fun j hj => by simp [hj]⟩
  · rw [key i hi]; exact ⟨by simp, fun j hj => by simp [hj]⟩
  · rw [key i hi]
    simp only [BMap.get?_tabulate, if_pos (h.member i (hh hi))]
    rw [hpoly, h.own_value (hh hi), add_smul]

theorem Spec.FullView.reports {ε : Type} {shares : I → KeyShare I F G} (h : FullView g honest ids shares vk) (h0 : vk ≠ 0) {i : I} (hi : i ∈ honest) :
    ((shares i).verifyingKey : Out ε G) = .ok vk := by
  unfold KeyShare.verifyingKey toVerifyingKey
  rw [h.key i hi, if_neg h0]
  rfl

end Views

section Sessions

variable {I F G Sid V W CC : Type} [LinearOrder I] [Field F] [LinearOrder F] [AddCommGroup G] [Module F G] [DecidableEq G] [DecidableEq V] [DecidableEq W]
variable {K : KeyEnv I F G Sid V W CC}

theorem generated_view (hinj : ∀ s i h h', K.initHash s i h = K.initHash s i h' → h = h') {kept : Set I} {ids : Finset I} {shares : I → KeyShare I F G} {vk : G} {a : I}
    (h : GeneratedAmong K kept ids shares) (ha : a ∈ kept) (hvk : ((shares a).verifyingKey : Out Unit G) = .ok vk) : vk ≠ 0 ∧ FullView K.refresh.g kept ids shares vk := by
  obtain ⟨honest, sid, d, c, n, hsub, hst, hr, hecho, hfin⟩ := h
  have hh := KeyInit.history hr
  have key := fun i (hi : i ∈ kept) => Props.C37_finishing_party K.initHash K.initSch K.refresh.g ids sid i (d i) _ (hst i (hsub hi)) _ _ _ _ (hh.finished i (hsub hi) _ (hfin i hi))
  have agree := fun i (hi : i ∈ kept) j (hj : j ∈ kept) (hij : i ≠ j) =>
    Props.C81_key_init_agreement K.initHash hinj K.initSch K.refresh.g honest ids sid d c hst n hr hecho i j (hsub hi) (hsub hj) hij _ _ (hfin i hi) (hfin j hj)
  have hva : vk = (shares a).verifyingKeyAsPoint := by
    unfold KeyShare.verifyingKey toVerifyingKey at hvk
    rw [if_neg (key a ha).2.2.2.2.1] at hvk
    exact (Out.ok.inj hvk).symm
  refine ⟨by rw [hva]; exact (key a ha).2.2.2.2.1, fun i hi => ?_, fun i hi => (key i hi).1, fun i hi => (key i hi).2.2.1, fun i hi j hj => ?_, fun i hi => ?_, fun i hi => ?_⟩
  · obtain ⟨-, -, hk, hg, -⟩ := key i hi
    rw [← hk, BMap.mem_keySet, BMap.mem_keys_iff]
    exact ⟨_, hg⟩
  · by_cases hij : i = j
    · rw [hij]
    · exact (agree i hi j hj hij).1
  · obtain ⟨-, hx, -, hg, -⟩ := key i hi
    rw [hx]; exact hg
  · rw [hva]
    by_cases hij : i = a
    · rw [hij]
    · exact (agree i hi a ha hij).2.1

theorem refreshed_view (hinj : ∀ s i h h', K.refreshHash s i h = K.refreshHash s i h' → h = h') {honest kept : Set I} {ids : Finset I} {shares shares' : I → KeyShare I F G} {vk : G}
    {changes : I → KeyShareChange I F G} (hv : FullView K.refresh.g honest ids shares vk) (hsub : kept ⊆ honest) (h : RefreshedAmong K kept ids changes)
    (hupd : ∀ i ∈ kept, (shares i).update (changes i) = .ok (shares' i)) : FullView K.refresh.g kept ids shares' vk := by
  obtain ⟨hon, sid, d, c, infos, n, hk, hst, hr, hecho, hfin⟩ := h
  have hh := KeyRefresh.history hr
  have key : ∀ i ∈ kept, (shares' i).owner = i ∧ (shares' i).pub.keySet = ids ∧ (shares' i).verifyingKeyAsPoint = (shares i).verifyingKeyAsPoint ∧
      ((shares i).pub.get? i = some ((shares i).secret • K.refresh.g) → (shares' i).pub.get? i = some ((shares' i).secret • K.refresh.g)) := by
    intro i hi
    obtain ⟨ks', hu, h1, h2, h3, h4⟩ := Props.C38_update K.refresh K.refreshHash ids sid i (d i) _ (hst i (hk hi)) _ _ _ _ _ (hh.finished i (hk hi) _ (hfin i hi)) (shares i)
      (hv.owner i (hsub hi)) (hv.holders i (hsub hi))
    rw [hupd i hi] at hu
    cases hu
    exact ⟨h1, h2, h3, h4⟩
  have get : ∀ i ∈ kept, ∀ j ∈ ids, ∃ x d, (shares i).pub.get? j = some x ∧ (changes i).publicShareChanges.get? j = some d ∧ (shares' i).pub.get? j = some (x + d) := by
    intro i hi j hj
    rw [← hv.holders i (hsub hi)] at hj
    exact ((Props.C16_update_decision (shares i) (changes i)).2.2 _ (hupd i hi)).2.2.2 j hj
  refine ⟨fun i hi => hv.member i (hsub hi), fun i hi => (key i hi).1, fun i hi => (key i hi).2.1, fun i hi j hj => ?_, fun i hi => (key i hi).2.2.2 (hv.own i (hsub hi)),
    fun i hi => (key i hi).2.2.1.trans (hv.key i (hsub hi))⟩
  by_cases hij : i = j
  · rw [hij]
  · have hch := (Props.C81_key_refresh_agreement K.refresh K.refreshHash hinj hon ids sid d c hst n hr hecho i j (hk hi) (hk hj) hij _ _ _ _ (hfin i hi) (hfin j hj)).1
    have hold := hv.same_public i (hsub hi) j (hsub hj)
    ext k x
    by_cases hkm : k ∈ ids
    · obtain ⟨x, dx, h1, h2, h3⟩ := get i hi k hkm
      obtain ⟨y, dy, g1, g2, g3⟩ := get j hj k hkm
      rw [hold, g1] at h1
      rw [hch, g2] at h2
      rw [h3, g3, Option.some.inj h1, Option.some.inj h2]
    · have e1 : (shares' i).pub.get? k = none := by rw [BMap.get?_eq_none_iff, ← BMap.mem_keySet, (key i hi).2.1]; exact hkm
      have e2 : (shares' j).pub.get? k = none := by rw [BMap.get?_eq_none_iff, ← BMap.mem_keySet, (key j hj).2.1]; exact hkm
      rw [e1, e2]

open KeyResharing in
/-- What a party saw in a session of resharing with the restrictions -/
theorem reshared_view {q : Nat} [CharP F q] {g vk : G} (h0 : vk ≠ 0) {kept : Set I} {S N : Finset I} {t : Nat} (hn : 2 ≤ t) (hnN : t ≤ N.card) (hN : N.card < q)
    {old new : I → ThresholdKeyShare I F G} (h : ResharedAmong g vk kept S N t old new) : ∃ sid tail, ThresholdView g kept N t new vk sid tail := by
  obtain ⟨honest, ot, draw, r, init, n, hk, hkN, hst, hbeg, hr, hecho, hfin, hres⟩ := h
  obtain ⟨inbox, hh⟩ := KeyResharing.history hbeg hr
  have hfin' : ∀ i ∈ kept, run g (r i) (inbox i) = .ok (some (new i)) := fun i hi => hh.finished i (hk hi) _ (hfin i hi)
  have hnh : ∀ i ∈ kept, (HonestInputs S N old vk ot t i).newHolder = some ⟨vk, ot, S⟩ := fun i hi => if_pos (hkN i hi)
  have hold : ∀ i, (HonestInputs S N old vk ot t i).oldHolder.isSome → i ∈ S := by
    intro i hi
    by_contra hc
    simp [HonestInputs, hc] at hi
  have own : ∀ i ∈ kept, ∃ ks, some (new i) = some ks ∧ ks.owner = i ∧ ks.threshold = t ∧ ks.shareIds.keySet = N ∧ ks.publicShares.keySet = N ∧
      ks.publicShares.get? i = some (ks.secretShare • g) := fun i hi =>
    Props.C40_own_share_consistent g _ i (draw i) (r i) (hst i (hk hi)) _ (hnh i hi) (hold i) (inbox i) _ (hfin' i hi)
  have own' : ∀ i ∈ kept, (new i).owner = i ∧ (new i).threshold = t ∧ (new i).shareIds.keySet = N ∧ (new i).publicShares.keySet = N ∧
      (new i).publicShares.get? i = some ((new i).secretShare • g) := by
    intro i hi
    obtain ⟨ks, he, h1⟩ := own i hi
    rw [Option.some.inj he]
    exact h1
  -- the own contribution
  have mine : ∀ i ∈ honest, ∀ oh, (r i).oldHolder = some oh → i ∈ S ∧ oh.publicPolynomial.length = t ∧ (old i).shareId = .ok oh.shareId := by
    intro i hi oh ho
    have hs := hst i hi
    unfold start at hs
    split at hs
    · cases hs
    · obtain ⟨o, hoh, hs⟩ := Out.bind_eq_ok.1 hs
      rw [← Out.ok.inj hs] at ho
      simp only at ho
      subst ho
      by_cases hS : i ∈ S
      · simp only [HonestInputs, if_pos hS] at hoh
        obtain ⟨s, hsid, hoh⟩ := Out.bind_eq_ok.1 hoh
        cases hoh
        refine ⟨hS, by simp [publicPolynomial, randomPolynomial]; omega, ?_⟩
        unfold ofEntity at hsid
        split at hsid
        · rename_i x hx
          cases hsid
          exact hx
        · cases hsid
        · cases hsid
      · simp only [HonestInputs, if_neg hS] at hoh
        cases hoh
  have myId : ∀ i ∈ honest, (r i).myId = i := fun i hi => (Props.resharing_start_ok (hst i hi)).2.2.2.1
  have key : ∀ i ∈ kept, ∃ tail : List G, tail.length < t ∧ ∀ j ∈ N, ∃ x, (new i).shareIds.get? j = some x ∧ (new i).publicShares.get? j = some (polyValue (vk :: tail) x) := by
    intro i hi
    refine (Props.C40_key_and_threshold_partial q g _ i (draw i) (r i) (hst i (hk hi)) _ (hnh i hi) (hold i) (inbox i) _ (hfin' i hi) ?_ ?_ h0 hnN hN).2
    · rintro j k pol osid pol' (⟨hj, oh, ho, -, hs⟩ | ⟨hj, s, hs⟩) (⟨hk', oh', ho', -, hs'⟩ | ⟨hk', s', hs'⟩)
      · rw [hj, hk']
      · obtain ⟨st, hp⟩ := hh.past i _ hs'
        obtain ⟨m1, -, m2⟩ := mine i (hk hi) oh ho
        exact absurd (by rw [m2, hs]) (((hres i hi _ hp).2 _ hs').2 m1)
      · obtain ⟨st, hp⟩ := hh.past i _ hs
        obtain ⟨m1, -, m2⟩ := mine i (hk hi) oh' ho'
        exact absurd (by rw [m2, hs']) (((hres i hi _ hp).2 _ hs).2 m1)
      · obtain ⟨st, hp⟩ := hh.past i _ hs
        exact ((hres i hi _ hp).2 _ hs').1 _ hs rfl
    · rintro j pol osid (⟨-, oh, ho, hp, -⟩ | ⟨-, s, hs⟩)
      · rw [← hp]; exact (mine i (hk hi) oh ho).2.1.le
      · obtain ⟨st, hp⟩ := hh.past i _ hs
        exact (hres i hi _ hp).1 _ hs
  have sent : ∀ i ∈ honest, ∀ j, ∀ m, msg (r i) j = .ok (some m) → ∃ oh, (r i).oldHolder = some oh ∧ oh.publicPolynomial = m.publicPolynomial ∧ oh.shareId = m.oldShareId := by
    intro i hi j m hm
    unfold msg at hm
    cases ho : (r i).oldHolder with
    | none => rw [ho] at hm; cases hm
    | some oh =>
      rw [ho] at hm
      obtain ⟨_, _, hm⟩ := Out.bind_eq_ok.1 hm
      obtain ⟨_, _, hm⟩ := Out.bind_eq_ok.1 hm
      cases hm
      exact ⟨oh, rfl, rfl, rfl⟩
  have agree : ∀ i ∈ kept, ∀ i' ∈ kept, (new i).publicShares = (new i').publicShares ∧ (new i).shareIds = (new i').shareIds := by
    intro i hi i' hi'
    refine Props.C40_public_shares_agree g N S _ _ i i' (draw i) (draw i') (r i) (r i') (hst i (hk hi)) (hst i' (hk hi')) rfl rfl _ _ (hnh i hi) (hnh i' hi') rfl rfl (hold i) (hold i')
      (inbox i) (inbox i') ?_ _ _ (hfin' i hi) (hfin' i' hi')
    rintro j - pol osid pol' osid' (⟨hj, oh, ho, e1, e2⟩ | ⟨hj, s, hs⟩) (⟨hj', oh', ho', e1', e2'⟩ | ⟨hj', s', hs'⟩)
    · rw [myId i (hk hi)] at hj
      rw [myId i' (hk hi')] at hj'
      rw [← hj, hj', ho'] at ho
      cases ho
      exact ⟨e1.symm.trans e1', e2.symm.trans e2'⟩
    · rw [myId i (hk hi)] at hj
      subst hj
      obtain ⟨oh2, h2, f1, f2⟩ := sent j (hk hi) i' _ (hh.only i' (hk hi') j (hk hi) _ hs')
      rw [ho] at h2
      cases h2
      exact ⟨e1.symm.trans f1, e2.symm.trans f2⟩
    · rw [myId i' (hk hi')] at hj'
      subst hj'
      obtain ⟨oh2, h2, f1, f2⟩ := sent j (hk hi') i _ (hh.only i (hk hi) j (hk hi') _ hs)
      rw [ho'] at h2
      cases h2
      exact ⟨f1.symm.trans e1', f2.symm.trans e2'⟩
    · obtain ⟨st, hp⟩ := hh.past i _ hs
      obtain ⟨st', hp'⟩ := hh.past i' _ hs'
      have := hecho i (hk hi) i' (hk hi') _ hp _ hp' rfl rfl j _ _ hs hs'
      exact ⟨congrArg Prod.fst this, congrArg Prod.snd this⟩
  obtain ⟨sid, hsid, hsidl⟩ := newShareIds_tabulate (F := F) N
  have hinjN := newShareIds_injOn hN hsidl
  have hids : ∀ i ∈ kept, (new i).shareIds = BMap.tabulate N sid := by
    intro i hi
    obtain ⟨P, _, ks, e, -, -, -, -, -, -, -, hsh, -⟩ := Props.resharing_run_ok (hst i (hk hi)) (hnh i hi) (hold i) (hfin' i hi)
    rw [Option.some.inj e, hsh]
    exact hsid
  have common : ∃ tail : List G, tail.length < t ∧ ∀ i ∈ kept, ∀ j ∈ N, (new i).publicShares.get? j = some (polyValue (vk :: tail) (sid j)) := by
    by_cases hne : kept.Nonempty
    · obtain ⟨a, ha⟩ := hne
      obtain ⟨tail, hl, hv⟩ := key a ha
      refine ⟨tail, hl, fun i hi j hj => ?_⟩
      obtain ⟨x, hx, hp⟩ := hv j hj
      rw [hids a ha, BMap.get?_tabulate, if_pos hj] at hx
      rw [(agree i hi a ha).1, hp, Option.some.inj hx]
    · exact ⟨[], by simp; omega, fun i hi => absurd ⟨i, hi⟩ hne⟩
  obtain ⟨tail, hl, hv⟩ := common
  exact ⟨sid, tail, hkN, fun i hi => (own' i hi).1, fun i hi => (own' i hi).2.1, ⟨by omega, hnN⟩, hinjN, hl,
    fun i hi => ⟨(own' i hi).2.2.1, fun j hj => by rw [hids i hi, BMap.get?_tabulate, if_pos hj]⟩, fun i hi => ⟨(own' i hi).2.2.2.1, hv i hi⟩, fun i hi => (own' i hi).2.2.2.2⟩

open KeyResharing in
/-- What a party does with complete messages of a resharing. -/
theorem KeyResharing.next_of_run {g : G} {s : State I F G} {got : List (I × Msg F G)} {res : Option (ThresholdKeyShare I F G)} (hrun : run g s.r got = .ok res) :
    (machine g).Complete s got ∧ (machine g).next s got = .ok (.inr res) := by
  unfold run at hrun
  obtain ⟨pl, hc, hf⟩ := Out.bind_eq_ok.1 hrun
  have hg : gather s.r.expectingMessagesFrom some (recv g s.r) got = .ok pl := by
    have := gather_map (expected := s.r.expectingMessagesFrom) (part := some) (inj := fun a : Msg F G => a) (fun _ => rfl) (recv := recv g s.r) got
    rw [hc] at this
    rw [← this]
    exact congrArg _ (List.map_id got).symm
  refine ⟨⟨(gather_eq_ok.1 hg).1, (gather_eq_ok.1 hg).2.1, gather_accepts hg⟩, ?_⟩
  show (gather _ _ _ _).bind _ = _
  rw [hg, Out.bind_ok, hf]
  rfl

open KeyResharing in
/-- A single party finishes a session of resharing with given messages. -/
theorem KeyResharing.exists_end {g : G} {honest : Set I} {init : I → State I F G} {i : I} (hi : i ∈ honest) {got : List (I × Msg F G)} {res : Option (ThresholdKeyShare I F G)}
    (hrun : run g (init i).r got = .ok res) (hsent : ∀ a ∈ got, a.1 ∈ honest → (i, a.2) ∈ (init a.1).out) :
    ∃ n, (machine g).Reachable honest init n ∧ n.status i = .finished res ∧ n.past i = [(init i, got)] ∧ ∀ j, j ≠ i → n.past j = [] := by
  obtain ⟨hcomp, hnext⟩ := next_of_run hrun
  have h0 : (machine g).Reachable honest init ((machine g).start init) := .refl
  have h1 := h0.round hi (s := init i) rfl hcomp (fun a ha hj => ⟨init a.1, List.mem_singleton.2 rfl, rfl, hsent a ha hj⟩)
  refine ⟨_, h1, ?_, ?_, fun j hj => ?_⟩
  · simp only [Function.update_self, Spec.Machine.advanced, hnext]
  · simp only [Function.update_self]
    rfl
  · simp only [Function.update_of_ne hj]
    rfl

/-- If only one party has completed a round then the broadcasts agree. -/
theorem echoAgree_single {M S E R T : Type} {P : Machine I M S E R} {honest : Set I} {n : Net I M S E R} {i : I} {x : S × List (I × M)} (hp : n.past i = [x]) (ho : ∀ j, j ≠ i → n.past j = [])
    (hnd : (x.2.map Prod.fst).Nodup) (k : Nat) (echo : M → T) : P.EchoAgree honest k echo n := by
  intro a _ b _ y hy z hz _ _ j m m' hm hm'
  have ha : a = i := by
    by_contra h
    rw [ho a h] at hy
    cases hy
  have hb : b = i := by
    by_contra h
    rw [ho b h] at hz
    cases hz
  rw [ha, hp] at hy
  rw [hb, hp] at hz
  rw [List.mem_singleton.1 hy] at hm
  rw [List.mem_singleton.1 hz] at hm'
  have := List.inj_on_of_nodup_map hnd hm hm' rfl
  rw [(Prod.mk.inj this).2]

end Sessions

end Synedrion
