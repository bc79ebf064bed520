import Verif.Lemmas.Bip32
import Verif.Lemmas.Toy

/-!
# Properties C12–C18: key shares, refreshing, derivation, auxiliary info
-/

set_option linter.unusedSectionVars false

namespace Synedrion.Props
open Spec Shamir

variable {I F G : Type} [LinearOrder I] [Field F] [LinearOrder F] [AddCommGroup G] [Module F G] [DecidableEq G]

/-- **C12.** Centralized generation hands every party in `ids` (and nobody else) a share; together they share the signing key, and each
reports the signing key's verifying key. -/
theorem C12_centralized_shares_consistent {ε : Type} (g : G) (hg : g ≠ 0) (ids : Finset I) (hne : ids.Nonempty) (sk : F)
    (draw : Nat → F) :
    ∃ (m : BMap I (KeyShare I F G)) (shares : I → KeyShare I F G), KeyShare.newCentralized g ids sk draw = .ok m ∧
      m.keySet = ids ∧ (∀ i ∈ ids, m.get? i = some (shares i)) ∧ SharesKey g ids shares sk ∧
      (sk ≠ 0 → ∀ i ∈ ids, ((shares i).verifyingKey : Out ε G) = .ok (sk • g)) := by
  obtain ⟨f, hsum, heq⟩ := newCentralized_eq g ids hne sk draw
  have hsk := sharesKey_of_secrets g ids f sk hsum (fun i => ⟨i, f i, BMap.tabulate ids fun j => f j • g⟩) (fun _ _ => rfl)
  refine ⟨_, _, heq, by simp, ?_, hsk, ?_⟩
  · intro i hi; simp [hi]
  · intro h i hi; exact hsk.vk hg h hi

/-- **C12 (missing case).** Without a signing key the secret is drawn among all scalars; if it is zero, `verifying_key` panics on
every share. The constructor does not reject it. -/
theorem C12_zero_key_panics {ε : Type} (g : G) (ids : Finset I) (hne : ids.Nonempty) (draw : Nat → F) :
    ∃ (m : BMap I (KeyShare I F G)), KeyShare.newCentralized g ids (0 : F) draw = .ok m ∧
      ∀ i ∈ ids, ∃ s, m.get? i = some s ∧ (s.verifyingKey : Out ε G) = .panic := by
  obtain ⟨f, hsum, heq⟩ := newCentralized_eq g ids hne (0 : F) draw
  have hsk := sharesKey_of_secrets g ids f 0 hsum (fun i => ⟨i, f i, BMap.tabulate ids fun j => f j • g⟩) (fun _ _ => rfl)
  refine ⟨_, heq, ?_⟩
  intro i hi
  refine ⟨⟨i, f i, BMap.tabulate ids fun j => f j • g⟩, by simp [hi], ?_⟩
  have := hsk.vkPoint hi
  unfold KeyShare.verifyingKey
  rw [this]
  simp [toVerifyingKey]

/-- **C13 (centralized threshold shares).** For `1 ≤ t ≤ n`, centralized generation produces a `t`-threshold sharing of the signing key
held by exactly `ids`; a threshold above `n` is rejected. -/
theorem C13_centralized_threshold_sharing {q : Nat} [CharP F q] (g : G) (ids : Finset I) (hq : ids.card < q) (t : Nat) (sk : F)
    (draw : Nat → F) :
    (1 ≤ t → t ≤ ids.card → ∃ (m : BMap I (ThresholdKeyShare I F G)) (shares : I → ThresholdKeyShare I F G),
      ThresholdKeyShare.newCentralized g ids t sk draw = .ok m ∧ m.keySet = ids ∧
      (∀ i ∈ ids, m.get? i = some (shares i)) ∧ ThresholdSharing g ids t shares sk) ∧
    (ids.card < t → ThresholdKeyShare.newCentralized (I := I) g ids t sk draw = .err .badThreshold) := by
  constructor
  · intro ht htc
    obtain ⟨sid, hsid, hinj, hne, hmap⟩ := exists_sid F ids hq
    set tail := (List.range (t - 1)).map draw with htail
    have hsplit : (split sk t (evaluationPoints F ids.card) draw : Out EntErr _) =
        .ok (BMap.ofList ((evaluationPoints F ids.card).map fun i => (i, polyValue (sk :: tail) i))) := by
      unfold split
      have : Out.mapM' (fun idx => (evaluate (randomPolynomial sk t draw) idx : Out EntErr F).bind fun v => .ok (idx, v))
          (evaluationPoints F ids.card)
          = .ok ((evaluationPoints F ids.card).map fun i => (i, polyValue (sk :: tail) i)) := by
        apply Out.mapM'_ok_of_forall
        intro i _
        unfold evaluate randomPolynomial
        rw [horner_eq (by simp)]; rfl
      simp only
      rw [this]; rfl
    set ss := BMap.ofList ((evaluationPoints F ids.card).map fun i => (i, polyValue (sk :: tail) i)) with hss
    have hget : ∀ i ∈ ids, ss.get? (sid i) = some (polyValue (sk :: tail) (sid i)) := by
      intro i hi
      rw [hss, BMap.get?_ofList_eq_some]
      · rw [hsid]
        simp only [List.map_map, List.mem_map, Function.comp, mem_bsetIter]
        exact ⟨i, hi, rfl⟩
      · rw [List.map_map]
        simpa [Function.comp_def] using evaluationPoints_nodup (F := F) hq
    set pub : BMap I G := BMap.tabulate ids fun i => polyValue (sk :: tail) (sid i) • g with hpub
    refine ⟨BMap.tabulate ids fun i => ⟨i, t, polyValue (sk :: tail) (sid i), BMap.tabulate ids sid, pub⟩, _, ?_, by simp,
      fun i hi => by rw [BMap.get?_tabulate, if_pos hi], ?_⟩
    · unfold ThresholdKeyShare.newCentralized
      rw [if_neg (by omega), hsplit, Out.bind_ok]
      simp only [hmap]
      have h1 : Out.mapM' (fun p : I × F => (Out.ofOption EntErr.missingId (ss.get? p.2)).bind fun s => .ok (p.1, s • g))
          (BMap.tabulate ids sid).entries =
          .ok ((BMap.tabulate ids sid).entries.map fun p => (p.1, polyValue (sk :: tail) p.2 • g)) := by
        apply Out.mapM'_ok_of_forall
        intro p hp
        obtain ⟨i, hi, rfl⟩ := List.mem_map.1 hp
        rw [hget i (mem_bsetIter.1 hi)]; rfl
      rw [h1, Out.bind_ok]
      have h2 : BMap.ofList ((BMap.tabulate ids sid).entries.map fun p => (p.1, polyValue (sk :: tail) p.2 • g)) = pub := by
        simp only [BMap.tabulate, List.map_map, Function.comp_def]
        rw [ofList_map_bsetIter]
      rw [h2]
      have h3 : Out.mapM' (fun id : I =>
          (Out.ofOption EntErr.missingId ((BMap.tabulate ids sid).get? id)).bind fun shareId =>
          (Out.ofOption EntErr.missingId (ss.get? shareId)).bind fun secretShare =>
          .ok (id, (⟨id, t, secretShare, BMap.tabulate ids sid, pub⟩ : ThresholdKeyShare I F G))) (bsetIter ids) =
          .ok ((bsetIter ids).map fun i => (i, ⟨i, t, polyValue (sk :: tail) (sid i), BMap.tabulate ids sid, pub⟩)) := by
        apply Out.mapM'_ok_of_forall
        intro i hi
        have hi' := mem_bsetIter.1 hi
        simp [hi', hget i hi']
      rw [h3, Out.bind_ok, ofList_map_bsetIter]
    · refine ⟨htc, sid, tail, by rw [htail]; simp; omega, hinj, ?_⟩
      intro i hi
      refine ⟨rfl, rfl, rfl, by simp, fun j hj => by simp [hj], by simp [hpub], fun j hj => by simp [hpub, hj]⟩
  · intro h
    unfold ThresholdKeyShare.newCentralized
    rw [if_pos h]

/-- **C13.** Given a `t`-threshold sharing of a non-zero key, any set of at least `t` holders converts to full shares that share the same
key (debug builds accept exactly `t` holders only), and every holder reports that key's verifying key. -/
theorem C13_threshold_to_full (g : G) (hg : g ≠ 0) (ids : Finset I) (t : Nat) (shares : I → ThresholdKeyShare I F G) (sk : F)
    (h : ThresholdSharing g ids t shares sk) (hsk : sk ≠ 0) (S : Finset I) (hS : S ⊆ ids) (hcard : t ≤ S.card)
    (dbg : Bool) (hdbg : dbg = true → S.card = t) :
    (∃ full : I → KeyShare I F G, (∀ i ∈ S, (shares i).toKeyShare dbg S = .ok (full i)) ∧ SharesKey g S full sk) ∧
    (∀ i ∈ ids, (shares i).verifyingKey = .ok (sk • g)) := by
  refine ⟨?_, fun i hi => h.vk hg hsk hi⟩
  obtain ⟨htc, sid, tail, hlen, hinj, hall⟩ := h
  have hinjS : Set.InjOn sid S := fun a ha b hb h => hinj (hS ha) (hS hb) h
  set sec : I → F := fun i => polyValue (sk :: tail) (sid i) * lagrange0 (S.image sid) (sid i) with hsec
  have hsum : ∑ i ∈ S, sec i = sk := by
    rw [← lagrange0_image hinjS sk tail (by omega)]
    exact Finset.sum_congr rfl fun i _ => by rw [hsec, smul_eq_mul, mul_comm]
  refine ⟨fun i => ⟨i, sec i, BMap.tabulate S fun j => sec j • g⟩, ?_,
    sharesKey_of_secrets g S sec sk hsum _ (fun _ _ => rfl)⟩
  intro i hi
  obtain ⟨h1, h2, h3, h4, h5, h6, h7⟩ := hall i (hS hi)
  have e5 := BMap.eq_tabulate_of h4 h5
  have e7 : (shares i).publicShares = BMap.tabulate ids fun j => polyValue (sk :: tail) (sid j) • g :=
    BMap.eq_tabulate_of h6 (fun j hj => by rw [h7 j hj, (hall j hj).2.2.1])
  have es : shares i = ⟨i, t, polyValue (sk :: tail) (sid i), BMap.tabulate ids sid,
      BMap.tabulate ids fun j => polyValue (sk :: tail) (sid j) • g⟩ := by
    calc shares i = ⟨(shares i).owner, (shares i).threshold, (shares i).secretShare, (shares i).shareIds,
          (shares i).publicShares⟩ := rfl
      _ = _ := by rw [h1, h2, h3, e5, e7]
  rw [es, toKeyShare_tabulate dbg hS hi t hdbg _ hinj]
  have hp : (BMap.tabulate S fun j => lagrange0 (S.image sid) (sid j) • polyValue (sk :: tail) (sid j) • g) =
      BMap.tabulate S fun j => sec j • g := by
    congr 1; funext j; rw [hsec, smul_smul, mul_comm]
  rw [hp]
  unfold KeyShare.new
  rw [BMap.sum_values_tabulate, ← Finset.sum_smul, hsum, if_neg (smul_ne_zero hsk hg)]

/-- **C13 (threshold zero).** A threshold of zero is accepted by the constructor, but no share can then report a verifying key. -/
theorem C13_zero_threshold_unusable {q : Nat} [CharP F q] (g : G) (ids : Finset I) (hq : ids.card < q) (sk : F) (draw : Nat → F) :
    ∃ m, ThresholdKeyShare.newCentralized (I := I) g ids 0 sk draw = .ok m ∧
      ∀ i s, m.get? i = some s → s.verifyingKey = .err .identityKey := by
  cases hm : ThresholdKeyShare.newCentralized (I := I) g ids 0 sk draw with
  | ok m =>
    refine ⟨m, rfl, ?_⟩
    intro i s his
    have hthr : s.threshold = 0 := by
      unfold ThresholdKeyShare.newCentralized at hm
      rw [if_neg (by omega)] at hm
      obtain ⟨ss, _, hm⟩ := Out.bind_eq_ok.1 hm
      obtain ⟨pl, _, hm⟩ := Out.bind_eq_ok.1 hm
      obtain ⟨l, hl, hm⟩ := Out.bind_eq_ok.1 hm
      cases hm
      have key : ∀ (L : List I) (l : List (I × ThresholdKeyShare I F G)) (A : BMap I F) (B : BMap I G),
          Out.mapM' (fun id : I =>
            (Out.ofOption EntErr.missingId (A.get? id)).bind fun shareId =>
            (Out.ofOption EntErr.missingId (ss.get? shareId)).bind fun secretShare =>
            .ok (id, (⟨id, 0, secretShare, A, B⟩ : ThresholdKeyShare I F G))) L = .ok l →
          l.map Prod.fst = L ∧ ∀ p ∈ l, p.2.threshold = 0 := by
        intro L
        induction L with
        | nil => intro l A B h; cases h; simp
        | cons a L ih =>
          intro l A B h
          rw [Out.mapM', Out.bind_eq_ok] at h
          obtain ⟨b, hb, h⟩ := h
          obtain ⟨bs, hbs, h⟩ := Out.bind_eq_ok.1 h
          cases h
          obtain ⟨x, _, hb⟩ := Out.bind_eq_ok.1 hb
          obtain ⟨y, _, hb⟩ := Out.bind_eq_ok.1 hb
          cases hb
          obtain ⟨i1, i2⟩ := ih bs A B hbs
          refine ⟨by simp [i1], ?_⟩
          intro p hp
          rcases List.mem_cons.1 hp with rfl | hp
          · rfl
          · exact i2 p hp
      obtain ⟨k1, k2⟩ := key _ _ _ _ hl
      rw [BMap.get?_ofList_eq_some (by rw [k1]; exact bsetIter_nodup ids)] at his
      exact k2 _ his
    unfold ThresholdKeyShare.verifyingKey ThresholdKeyShare.verifyingKeyAsPoint
    rw [hthr]
    simp [joinPoints, BMap.ofList, BMap.empty, toVerifyingKey]
  | err e =>
    exfalso
    obtain ⟨sid, hsid, hinj, hne, hmap⟩ := exists_sid F ids hq
    unfold ThresholdKeyShare.newCentralized at hm
    rw [if_neg (by omega)] at hm
    obtain ⟨ss, hss, hget⟩ : ∃ ss : BMap F F, (split sk 0 (evaluationPoints F ids.card) draw : Out EntErr _) = .ok ss ∧
        ∀ i ∈ ids, ∃ v, ss.get? (sid i) = some v := by
      refine ⟨BMap.ofList ((evaluationPoints F ids.card).map fun i => (i, polyValue [sk] i)), ?_, ?_⟩
      · unfold split
        have : Out.mapM' (fun idx => (evaluate (randomPolynomial sk 0 draw) idx : Out EntErr F).bind fun v => .ok (idx, v))
            (evaluationPoints F ids.card)
            = .ok ((evaluationPoints F ids.card).map fun i => (i, polyValue [sk] i)) := by
          apply Out.mapM'_ok_of_forall
          intro i _
          unfold evaluate randomPolynomial
          rw [horner_eq (by simp)]; rfl
        simp only
        rw [this]; rfl
      · intro i hi
        refine ⟨polyValue [sk] (sid i), ?_⟩
        rw [BMap.get?_ofList_eq_some]
        · rw [hsid]
          simp only [List.map_map, List.mem_map, Function.comp, mem_bsetIter]
          exact ⟨i, hi, rfl⟩
        · rw [List.map_map]
          simpa [Function.comp_def] using evaluationPoints_nodup (F := F) hq
    rw [hss, Out.bind_ok] at hm
    simp only [hmap] at hm
    have h1 : Out.mapM' (fun p : I × F => (Out.ofOption EntErr.missingId (ss.get? p.2)).bind fun s => .ok (p.1, s • g))
        (BMap.tabulate ids sid).entries =
        .ok ((BMap.tabulate ids sid).entries.map fun p => (p.1, (ss.get? p.2).getD 0 • g)) := by
      apply Out.mapM'_ok_of_forall
      intro p hp
      obtain ⟨i, hi, rfl⟩ := List.mem_map.1 hp
      obtain ⟨v, hv⟩ := hget i (mem_bsetIter.1 hi)
      simp [hv]
    rw [h1, Out.bind_ok] at hm
    have h3 : ∀ B : BMap I G, Out.mapM' (fun id : I =>
        (Out.ofOption EntErr.missingId ((BMap.tabulate ids sid).get? id)).bind fun shareId =>
        (Out.ofOption EntErr.missingId (ss.get? shareId)).bind fun secretShare =>
        .ok (id, (⟨id, 0, secretShare, BMap.tabulate ids sid, B⟩ : ThresholdKeyShare I F G))) (bsetIter ids) =
        .ok ((bsetIter ids).map fun i => (i, ⟨i, 0, (ss.get? (sid i)).getD 0, BMap.tabulate ids sid, B⟩)) := by
      intro B
      apply Out.mapM'_ok_of_forall
      intro i hi
      have hi' := mem_bsetIter.1 hi
      obtain ⟨v, hv⟩ := hget i hi'
      simp [hi', hv]
    rw [h3, Out.bind_ok] at hm
    cases hm
  | panic =>
    exfalso
    unfold ThresholdKeyShare.newCentralized at hm
    rw [if_neg (by omega)] at hm
    have hb : ∀ {α β : Type} (x : Out EntErr α) (f : α → Out EntErr β), x.bind f = .panic →
        x = .panic ∨ ∃ a, f a = .panic := by
      intro α β x f hx
      cases x with
      | ok a => exact Or.inr ⟨a, hx⟩
      | err e => cases hx
      | panic => exact Or.inl rfl
    have hmp : ∀ {α β : Type} (f : α → Out EntErr β) (l : List α), Out.mapM' f l = .panic → ∃ a, f a = .panic := by
      intro α β f l
      induction l with
      | nil => intro h; cases h
      | cons a l ih =>
        intro h
        rcases hb _ _ h with h | ⟨b, h⟩
        · exact ⟨a, h⟩
        · rcases hb _ _ h with h | ⟨c, h⟩
          · exact ih h
          · cases h
    have ho : ∀ {α : Type} (e : EntErr) (x : Option α), Out.ofOption e x ≠ .panic := by
      intro α e x; cases x <;> simp
    rcases hb _ _ hm with h | ⟨ss, hm⟩
    · rcases hb _ _ h with h | ⟨a, h⟩
      · obtain ⟨x, h⟩ := hmp _ _ h
        rcases hb _ _ h with h | ⟨a, h⟩
        · unfold evaluate randomPolynomial at h
          rw [horner_eq (by simp)] at h; cases h
        · cases h
      · cases h
    · rcases hb _ _ hm with h | ⟨pl, hm⟩
      · obtain ⟨x, h⟩ := hmp _ _ h
        rcases hb _ _ h with h | ⟨a, h⟩
        · exact ho _ _ h
        · cases h
      · rcases hb _ _ hm with h | ⟨a, h⟩
        · obtain ⟨x, h⟩ := hmp _ _ h
          rcases hb _ _ h with h | ⟨a, h⟩
          · exact ho _ _ h
          · rcases hb _ _ h with h | ⟨a, h⟩
            · exact ho _ _ h
            · cases h
        · cases h

/-- **C14 (one share).** Converting a full share to a threshold share and back over all holders returns exactly the original share. -/
theorem C14_round_trip {ε : Type} {q : Nat} [CharP F q] (ks : KeyShare I F G) (hq : ks.allParties.card < q)
    (ho : ks.owner ∈ ks.allParties) (hsum : ks.verifyingKeyAsPoint ≠ 0) (dbg : Bool) :
    ∃ tks, (ThresholdKeyShare.fromKeyShare ks : Out ε _) = .ok tks ∧ tks.threshold = ks.allParties.card ∧
      tks.toKeyShare dbg ks.allParties = .ok ks ∧ tks.verifyingKey = .ok ks.verifyingKeyAsPoint := by
  have : Inhabited G := ⟨0⟩
  obtain ⟨o, x, pub⟩ := ks
  unfold KeyShare.allParties KeyShare.verifyingKeyAsPoint at *
  simp only at hq ho hsum ⊢
  set ids := pub.keySet with hids
  set p : I → G := fun k => (pub.get? k).getD default with hp
  have hpub : pub = BMap.tabulate ids p := BMap.eq_tabulate pub
  obtain ⟨sid, hinj, hne, hfrom⟩ := fromKeyShare_eq (ε := ε) (G := G) (F := F) ids hq
  have hlne : ∀ i, lagrange0 (ids.image sid) (sid i) ≠ 0 := by
    intro i
    apply lagrange0_ne_zero
    intro j hj
    obtain ⟨k, hk, rfl⟩ := Finset.mem_image.1 hj
    exact hne k hk
  have hback : (BMap.tabulate ids fun i => lagrange0 (ids.image sid) (sid i) • (lagrange0 (ids.image sid) (sid i))⁻¹ • p i) =
      BMap.tabulate ids p := by
    congr 1; funext i; rw [smul_smul, mul_inv_cancel₀ (hlne i), one_smul]
  refine ⟨_, by rw [hpub]; exact hfrom o x p ho, rfl, ?_, ?_⟩
  · rw [toKeyShare_tabulate dbg (Finset.Subset.refl ids) ho _ (fun _ => rfl) _ hinj, hback, ← hpub]
    unfold KeyShare.new
    rw [if_neg hsum, mul_assoc, inv_mul_cancel₀ (hlne o), mul_one]
  · obtain ⟨T, hT, hTc, hv⟩ := thresholdVk_tabulate (o := o) (le_refl ids.card) (x * (lagrange0 (ids.image sid) (sid o))⁻¹) hinj
      (fun i => (lagrange0 (ids.image sid) (sid i))⁻¹ • p i)
    have hTe : T = ids := Finset.eq_of_subset_of_card_le hT (by omega)
    unfold ThresholdKeyShare.verifyingKey
    rw [hv, Out.bind_ok, hTe]
    have : ∑ i ∈ ids, lagrange0 (ids.image sid) (sid i) • (lagrange0 (ids.image sid) (sid i))⁻¹ • p i = pub.values.sum := by
      rw [hpub, BMap.sum_values_tabulate]
      exact Finset.sum_congr rfl fun i _ => by rw [smul_smul, mul_inv_cancel₀ (hlne i), one_smul]
    rw [this]
    unfold toVerifyingKey
    rw [if_neg hsum]; rfl

/-- **C14 (all holders).** Converting every holder's full share gives an `n`-of-`n` threshold sharing of the same key. -/
theorem C14_full_to_threshold {ε : Type} {q : Nat} [CharP F q] (g : G) (ids : Finset I) (hne : ids.Nonempty) (hq : ids.card < q)
    (shares : I → KeyShare I F G) (sk : F) (h : SharesKey g ids shares sk) :
    ∃ tks : I → ThresholdKeyShare I F G,
      (∀ i ∈ ids, (ThresholdKeyShare.fromKeyShare (shares i) : Out ε _) = .ok (tks i)) ∧
      ThresholdSharing g ids ids.card tks sk := by
  obtain ⟨sid, hinj, hne0, hfrom⟩ := fromKeyShare_eq (ε := ε) (G := G) (F := F) ids hq
  have hlne : ∀ i, lagrange0 (ids.image sid) (sid i) ≠ 0 := by
    intro i
    apply lagrange0_ne_zero
    intro j hj
    obtain ⟨k, hk, rfl⟩ := Finset.mem_image.1 hj
    exact hne0 k hk
  -- the value each holder ends up with
  set v : I → F := fun i => (shares i).secret * (lagrange0 (ids.image sid) (sid i))⁻¹ with hv
  obtain ⟨c, tail, hlen, hpoly⟩ : ∃ (c : F) (tail : List F), tail.length + 1 = ids.card ∧
      ∀ i ∈ ids, polyValue (c :: tail) (sid i) = v i := by
    have hval : ∃ val : F → F, ∀ i ∈ ids, val (sid i) = v i := by
      classical
      refine ⟨fun y => if hy : ∃ i ∈ ids, sid i = y then v hy.choose else 0, ?_⟩
      intro i hi
      have hy : ∃ j ∈ ids, sid j = sid i := ⟨i, hi, rfl⟩
      simp only [hy, dif_pos]
      congr 1
      exact hinj hy.choose_spec.1 hi hy.choose_spec.2
    obtain ⟨val, hval⟩ := hval
    obtain ⟨c, tail, h1, h2⟩ := exists_poly_through (ids.image sid) (hne.image sid) val
    refine ⟨c, tail, by rw [h1, Finset.card_image_of_injOn hinj], ?_⟩
    intro i hi
    rw [h2 _ (Finset.mem_image_of_mem sid hi), hval i hi]
  have hc : c = sk := by
    rw [← lagrange0_image hinj c tail (by omega), ← h.sum]
    apply Finset.sum_congr rfl
    intro i hi
    rw [hpoly i hi, hv, smul_eq_mul, mul_comm, mul_assoc, inv_mul_cancel₀ (hlne i), mul_one]
  subst hc
  refine ⟨fun i => ⟨i, ids.card, v i, BMap.tabulate ids sid, BMap.tabulate ids fun j => v j • g⟩, ?_, le_refl _, sid, tail,
    by omega, hinj, ?_⟩
  · intro i hi
    have : shares i = ⟨i, (shares i).secret, BMap.tabulate ids fun j => (shares j).secret • g⟩ := by
      calc shares i = ⟨(shares i).owner, (shares i).secret, (shares i).pub⟩ := rfl
        _ = _ := by rw [h.owner i hi, h.pub_eq hi]
    rw [this, hfrom i _ _ hi]
    congr 2
    congr 1
    funext j
    rw [smul_smul, hv, mul_comm]
  · intro i hi
    refine ⟨rfl, rfl, (hpoly i hi).symm, by simp, fun j hj => by simp [hj], by simp, fun j hj => by simp [hj]⟩

/-- Applying a sequence of changes one after another. -/
def updateAll (ks : KeyShare I F G) : List (KeyShareChange I F G) → Out EntErr (KeyShare I F G)
  | [] => .ok ks
  | c :: cs => (ks.update c).bind fun ks' => updateAll ks' cs

/-- **C15.** For any history of refreshes whose changes add up to zero, all updates succeed at every holder, and afterwards the holders
share the same key: same holders, same owners, secrets matching public shares, same verifying key. -/
theorem C15_refresh_history {ε : Type} (g : G) (hg : g ≠ 0) (ids : Finset I) (shares : I → KeyShare I F G) (sk : F)
    (h : SharesKey g ids shares sk) (history : List (I → KeyShareChange I F G))
    (hh : ∀ ch ∈ history, ZeroSumChange g ids ch) :
    ∃ final : I → KeyShare I F G, (∀ i ∈ ids, updateAll (shares i) (history.map fun ch => ch i) = .ok (final i)) ∧
      SharesKey g ids final sk ∧ (sk ≠ 0 → ∀ i ∈ ids, ((final i).verifyingKey : Out ε G) = .ok (sk • g)) := by
  have key : ∃ final : I → KeyShare I F G, (∀ i ∈ ids, updateAll (shares i) (history.map fun ch => ch i) = .ok (final i)) ∧
      SharesKey g ids final sk := by
    induction history generalizing shares with
    | nil => exact ⟨shares, fun i _ => rfl, h⟩
    | cons ch hist ih =>
      have hz := hh ch (by simp)
      set next : I → KeyShare I F G := fun i => ⟨i, (shares i).secret + (ch i).secretShareChange,
        BMap.tabulate ids fun j => ((shares j).secret + (ch j).secretShareChange) • g⟩ with hnext
      have hupd : ∀ i ∈ ids, (shares i).update (ch i) = .ok (next i) := by
        intro i hi
        have e1 : shares i = ⟨i, (shares i).secret, BMap.tabulate ids fun j => (shares j).secret • g⟩ := by
          calc shares i = ⟨(shares i).owner, (shares i).secret, (shares i).pub⟩ := rfl
            _ = _ := by rw [h.owner i hi, h.pub_eq hi]
        have e2 : ch i = ⟨i, (ch i).secretShareChange, BMap.tabulate ids fun j => (ch j).secretShareChange • g⟩ := by
          calc ch i = ⟨(ch i).owner, (ch i).secretShareChange, (ch i).publicShareChanges⟩ := rfl
            _ = _ := by rw [hz.owner i hi, BMap.eq_tabulate_of (hz.holders i hi) (hz.public_matches i hi)]
        rw [e1, e2, update_tabulate, hnext]
        simp only [← add_smul]
      have hsk : SharesKey g ids next sk :=
        sharesKey_of_secrets g ids (fun i => (shares i).secret + (ch i).secretShareChange) sk
          (by rw [Finset.sum_add_distrib, h.sum, hz.sum, add_zero]) next (fun _ _ => rfl)
      obtain ⟨final, h1, h2⟩ := ih next hsk (fun c hc => hh c (by simp [hc]))
      refine ⟨final, ?_, h2⟩
      intro i hi
      simp only [List.map_cons, updateAll, hupd i hi, Out.bind_ok]
      exact h1 i hi
  obtain ⟨final, h1, h2⟩ := key
  exact ⟨final, h1, h2, fun h0 i hi => h2.vk hg h0 hi⟩

/-- **C16.** An update succeeds iff the owners agree and the change covers exactly the holders of the share; otherwise it returns
an error (never a panic). On success the owner and holders are kept and each share moves by its change. -/
theorem C16_update_decision (ks : KeyShare I F G) (ch : KeyShareChange I F G) :
    ((∃ r, ks.update ch = .ok r) ↔ ks.owner = ch.owner ∧ ks.pub.keySet = ch.publicShareChanges.keySet) ∧
    ks.update ch ≠ .panic ∧
    (∀ r, ks.update ch = .ok r → r.owner = ks.owner ∧ r.pub.keySet = ks.pub.keySet ∧
      r.secret = ks.secret + ch.secretShareChange ∧
      ∀ i ∈ ks.pub.keySet, ∃ x d, ks.pub.get? i = some x ∧ ch.publicShareChanges.get? i = some d ∧
        r.pub.get? i = some (x + d)) := by
  refine ⟨update_ok_iff ks ch, ?_, ?_⟩
  · intro hp
    unfold KeyShare.update at hp
    split at hp
    · cases hp
    · split at hp
      · cases hp
      · have : ∀ es : List (I × G), Out.mapM' (fun p : I × G =>
            (Out.ofOption EntErr.missingId (ch.publicShareChanges.get? p.1)).bind fun d => .ok (p.1, p.2 + d)) es ≠ .panic := by
          intro es
          induction es with
          | nil => intro h; cases h
          | cons p es ih =>
            intro h
            rw [Out.mapM'] at h
            cases ho : ch.publicShareChanges.get? p.1 with
            | none => simp [ho] at h
            | some d =>
              rw [ho] at h
              simp only [Out.ofOption_some, Out.bind_ok] at h
              cases hm : Out.mapM' (fun p : I × G =>
                (Out.ofOption EntErr.missingId (ch.publicShareChanges.get? p.1)).bind fun d => .ok (p.1, p.2 + d)) es with
              | ok l => rw [hm] at h; cases h
              | err e => rw [hm] at h; cases h
              | panic => exact ih hm
        cases hm : Out.mapM' (fun p : I × G =>
            (Out.ofOption EntErr.missingId (ch.publicShareChanges.get? p.1)).bind fun d => .ok (p.1, p.2 + d)) ks.pub.entries with
        | ok l => simp [hm] at hp
        | err e => simp [hm] at hp
        | panic => exact this _ hm
  · intro r hr
    have : Inhabited G := ⟨0⟩
    obtain ⟨ho, hk⟩ := (update_ok_iff ks ch).1 ⟨r, hr⟩
    obtain ⟨o, x, pub⟩ := ks
    obtain ⟨o', dx, dpub⟩ := ch
    simp only at ho hk
    subst ho
    have e1 := BMap.eq_tabulate pub
    have e2 := BMap.eq_tabulate dpub
    rw [← hk] at e2
    rw [e1, e2, update_tabulate] at hr
    cases hr
    refine ⟨rfl, by simp, rfl, ?_⟩
    intro i hi
    simp only at hi
    obtain ⟨a, ha⟩ := BMap.mem_keys_iff.1 (BMap.mem_keySet.1 hi)
    obtain ⟨d, hd⟩ := BMap.mem_keys_iff.1 (BMap.mem_keySet.1 (hk ▸ hi))
    refine ⟨a, d, ha, hd, ?_⟩
    have hi' : i ∈ pub.keySet := hi
    simp only [BMap.get?_tabulate, hi', if_true, ha, hd, Option.getD_some]

/-- **C17.** Take any threshold sharing of a non-zero key, any tweak function and any path. If derivation succeeds at one holder it succeeds
at every holder; the derived shares are a threshold sharing, with the same threshold and holders, of the master key plus the sum of the
tweaks; and that is the key obtained by deriving the group verifying key directly, and the one every derived share reports. -/
theorem C17_bip32_commutes {CC : Type} (g : G) (hg : g ≠ 0) (chainCode : G → CC) (deriveTweak : G → CC → Nat → Out EntErr (F × CC))
    (path : List Nat) (ids : Finset I) (t : Nat) (shares : I → ThresholdKeyShare I F G) (sk : F)
    (h : ThresholdSharing g ids t shares sk) (hsk : sk ≠ 0) (i₀ : I) (hi₀ : i₀ ∈ ids)
    (hok : ∃ r, (shares i₀).deriveBip32 g chainCode deriveTweak path = .ok r) :
    ∃ (tweaks : List F) (child : I → ThresholdKeyShare I F G),
      deriveTweaks g chainCode deriveTweak (sk • g) path = .ok tweaks ∧
      (∀ i ∈ ids, (shares i).deriveBip32 g chainCode deriveTweak path = .ok (child i)) ∧
      ThresholdSharing g ids t child (sk + tweaks.sum) ∧
      deriveVerifyingKeyBip32 g chainCode deriveTweak (sk • g) path = .ok ((sk + tweaks.sum) • g) ∧
      (∀ i ∈ ids, (shares i).deriveVerifyingKeyBip32 g chainCode deriveTweak path = .ok ((sk + tweaks.sum) • g)) ∧
      (∀ i ∈ ids, (child i).verifyingKey = .ok ((sk + tweaks.sum) • g)) := by
  have hvk : ∀ i ∈ ids, (shares i).vkeyOrCrypto = .ok (sk • g) := by
    intro i hi
    unfold ThresholdKeyShare.vkeyOrCrypto
    rw [h.vk hg hsk hi]
  obtain ⟨htc, sid, tail, hlen, hinj, hall⟩ := h
  have hpubs : ∀ i ∈ ids, (shares i).publicShares = BMap.tabulate ids fun j => (shares j).secretShare • g := by
    intro i hi
    obtain ⟨_, _, _, _, _, h6, h7⟩ := hall i hi
    exact BMap.eq_tabulate_of h6 h7
  obtain ⟨r, hr⟩ := hok
  unfold ThresholdKeyShare.deriveBip32 at hr
  rw [hvk i₀ hi₀, Out.bind_ok] at hr
  obtain ⟨tweaks, htw, hr⟩ := Out.bind_eq_ok.1 hr
  obtain ⟨_, _, hr⟩ := Out.bind_eq_ok.1 hr
  obtain ⟨_, _, hr⟩ := Out.bind_eq_ok.1 hr
  obtain ⟨pl, hpl, _⟩ := Out.bind_eq_ok.1 hr
  -- every secret share is non-zero and can be tweaked
  have hsec : ∀ j ∈ ids, (shares j).secretShare ≠ 0 ∧
      applyTweaksSecret (shares j).secretShare tweaks = .ok ((shares j).secretShare + tweaks.sum) := by
    intro j hj
    rw [hpubs i₀ hi₀] at hpl
    have key : ∀ (es l : List (I × G)), (j, (shares j).secretShare • g) ∈ es →
        Out.mapM' (fun p : I × G => (Out.ofOption EntErr.crypto (toVerifyingKey p.2)).bind fun vkey =>
          (applyTweaksPublic g vkey tweaks).bind fun v => .ok (p.1, v)) es = .ok l →
        ∃ v, (Out.ofOption EntErr.crypto (toVerifyingKey ((shares j).secretShare • g))).bind (fun vkey =>
          (applyTweaksPublic g vkey tweaks)) = .ok v := by
      intro es
      induction es with
      | nil => intro l hm; simp at hm
      | cons p es ih =>
        intro l hm he
        rw [Out.mapM'] at he
        obtain ⟨a, ha, he⟩ := Out.bind_eq_ok.1 he
        obtain ⟨bs, hbs, _⟩ := Out.bind_eq_ok.1 he
        rcases List.mem_cons.1 hm with rfl | hm
        · obtain ⟨vk, hvk', ha⟩ := Out.bind_eq_ok.1 ha
          obtain ⟨v, hv, _⟩ := Out.bind_eq_ok.1 ha
          exact ⟨v, by rw [hvk', Out.bind_ok]; exact hv⟩
        · exact ih bs hm hbs
    obtain ⟨v, hv⟩ := key _ _ (by
      rw [← BMap.get?_eq_some_iff, BMap.get?_tabulate, if_pos hj]) hpl
    obtain ⟨vk, hvk', hv⟩ := Out.bind_eq_ok.1 hv
    rw [Out.ofOption_eq_ok] at hvk'
    have hne : (shares j).secretShare ≠ 0 := by
      intro h0
      simp [toVerifyingKey, h0] at hvk'
    have : vk = (shares j).secretShare • g := by
      unfold toVerifyingKey at hvk'
      rw [if_neg (smul_ne_zero hne hg)] at hvk'
      exact (Option.some.inj hvk').symm
    rw [this, applyTweaksPublic_smul hg] at hv
    obtain ⟨y, hy, _⟩ := Out.bind_eq_ok.1 hv
    exact ⟨hne, by rw [hy, applyTweaksSecret_ok hy]⟩
  set child : I → ThresholdKeyShare I F G := fun i => ⟨i, t, (shares i).secretShare + tweaks.sum, (shares i).shareIds,
    BMap.tabulate ids fun j => ((shares j).secretShare + tweaks.sum) • g⟩ with hchild
  have htw' : deriveTweaks g chainCode deriveTweak (sk • g) path = .ok tweaks := htw
  obtain ⟨y, hy⟩ := deriveTweaks_apply hg (show deriveTweaksLoop g deriveTweak path (sk • g) (chainCode (sk • g)) = .ok tweaks from htw)
  have hyv := applyTweaksSecret_ok hy
  have hyne := applyTweaksSecret_ne_zero hsk hy
  have happly : applyTweaksPublic g (sk • g) tweaks = .ok ((sk + tweaks.sum) • g) := by
    rw [applyTweaksPublic_smul hg, hy, hyv]; rfl
  have hsharing : ThresholdSharing g ids t child (sk + tweaks.sum) := by
    refine ⟨htc, sid, tail, hlen, hinj, ?_⟩
    intro i hi
    obtain ⟨h1, h2, h3, h4, h5, h6, h7⟩ := hall i hi
    refine ⟨rfl, rfl, ?_, h4, h5, by simp [hchild], fun j hj => by simp [hchild, hj]⟩
    show (shares i).secretShare + tweaks.sum = _
    rw [h3, polyValue_cons, polyValue_cons]; ring
  refine ⟨tweaks, child, htw', ?_, hsharing, ?_, ?_, ?_⟩
  · intro i hi
    obtain ⟨h1, h2, _⟩ := hall i hi
    unfold ThresholdKeyShare.deriveBip32
    rw [hvk i hi, Out.bind_ok, htw', Out.bind_ok]
    have hd : decide ((shares i).secretShare ≠ 0) = true := by simpa using (hsec i hi).1
    rw [hd, Out.ensure_true, Out.bind_ok, (hsec i hi).2, Out.bind_ok, hpubs i hi]
    have hm : Out.mapM' (fun p : I × G => (Out.ofOption EntErr.crypto (toVerifyingKey p.2)).bind fun vkey =>
        (applyTweaksPublic g vkey tweaks).bind fun v => .ok (p.1, v))
        (BMap.tabulate ids fun j => (shares j).secretShare • g).entries =
        .ok ((BMap.tabulate ids fun j => (shares j).secretShare • g).entries.map
          fun p => (p.1, p.2 + tweaks.sum • g)) := by
      apply Out.mapM'_ok_of_forall
      intro p hp
      obtain ⟨j, hj, rfl⟩ := List.mem_map.1 hp
      have hj' := mem_bsetIter.1 hj
      simp only [toVerifyingKey]
      rw [if_neg (smul_ne_zero (hsec j hj').1 hg), Out.ofOption_some, Out.bind_ok, applyTweaksPublic_smul hg, (hsec j hj').2]
      simp [add_smul]
    rw [hm, Out.bind_ok, h1, h2]
    refine congrArg Out.ok ?_
    rw [hchild]
    congr 1
    simp only [BMap.tabulate, List.map_map, Function.comp_def]
    rw [ofList_map_bsetIter]
    simp only [← add_smul]
    rfl
  · unfold deriveVerifyingKeyBip32
    rw [htw', Out.bind_ok, happly]
  · intro i hi
    unfold ThresholdKeyShare.deriveVerifyingKeyBip32
    rw [hvk i hi, Out.bind_ok, htw', Out.bind_ok, happly]
  · intro i hi
    exact hsharing.vk hg (by rw [← hyv]; exact hyne) hi

/-- **C18.** Taking a subset succeeds iff the owner and all requested parties are present in the request and the data respectively; the
result then has exactly the requested parties with their entries unchanged, and the same owner and secret. It never panics. -/
theorem C18_subset_exact {SA PA : Type} (aux : AuxInfo I SA PA) (parties : Finset I) :
    ((∃ r, aux.subset parties = .ok r) ↔ aux.owner ∈ parties ∧ parties ⊆ aux.pub.keySet) ∧
    aux.subset parties ≠ .panic ∧
    (∀ r, aux.subset parties = .ok r → r.owner = aux.owner ∧ r.secret = aux.secret ∧ r.pub.keySet = parties ∧
      ∀ i ∈ parties, r.pub.get? i = aux.pub.get? i ∧ (r.pub.get? i).isSome) := by
  have hks : (aux.pub.filterKeys fun id => decide (id ∈ parties)).keySet = aux.pub.keySet ∩ parties := by
    rw [BMap.keySet_filterKeys]; ext k; simp
  have hsz : (aux.pub.filterKeys fun id => decide (id ∈ parties)).size = parties.card ↔ parties ⊆ aux.pub.keySet := by
    rw [← BMap.card_keySet, hks]
    constructor
    · intro hc
      have : aux.pub.keySet ∩ parties = parties := Finset.eq_of_subset_of_card_le Finset.inter_subset_right (by omega)
      rw [← this]; exact Finset.inter_subset_left
    · intro hs; rw [Finset.inter_eq_right.2 hs]
  unfold AuxInfo.subset publicAuxSubset
  by_cases ho : aux.owner ∈ parties
  · by_cases hs : parties ⊆ aux.pub.keySet
    · rw [if_neg (by simpa using ho), if_neg (by simpa using hsz.2 hs)]
      refine ⟨by simp [ho, hs], by simp, ?_⟩
      intro r hr
      cases hr
      refine ⟨rfl, rfl, by rw [hks, Finset.inter_eq_right.2 hs], ?_⟩
      intro i hi
      obtain ⟨v, hv⟩ := BMap.mem_keys_iff.1 (BMap.mem_keySet.1 (hs hi))
      simp [BMap.get?_filterKeys, hi, hv]
    · rw [if_neg (by simpa using ho), if_pos (fun h => hs (hsz.1 h))]
      simp [hs]
  · rw [if_pos ho]
    simp [ho]

/-- **C18 (generation).** Centralized auxiliary info gives each party the secret its public entry was made from, and all parties the same
public map over exactly `ids`. -/
theorem C18_centralized_aux_consistent {SA PA : Type} [Nonempty SA] (ids : Finset I) (secrets : Nat → SA)
    (mkPublic : Nat → SA → PA) :
    ∃ (idx : I → Nat) (pub : BMap I PA), Set.InjOn idx ids ∧ (∀ i ∈ ids, idx i < ids.card) ∧ pub.keySet = ids ∧
      (∀ i ∈ ids, pub.get? i = some (mkPublic (idx i) (secrets (idx i)))) ∧
      (AuxInfo.newCentralized ids secrets mkPublic).keySet = ids ∧
      ∀ i ∈ ids, (AuxInfo.newCentralized ids secrets mkPublic).get? i = some ⟨i, secrets (idx i), pub⟩ := by
  obtain ⟨idx, hidx⟩ := exists_map_of_nodup (b := List.range ids.card) (bsetIter_nodup ids) (by simp)
  have hinj : Set.InjOn idx ids := by
    have := List.nodup_range (n := ids.card)
    rw [hidx, List.nodup_map_iff_inj_on (bsetIter_nodup ids)] at this
    intro a ha b hb h
    exact this a (mem_bsetIter.2 ha) b (mem_bsetIter.2 hb) h
  have hlt : ∀ i ∈ ids, idx i < ids.card := by
    intro i hi
    have : idx i ∈ List.range ids.card := by rw [hidx]; exact List.mem_map.2 ⟨i, mem_bsetIter.2 hi, rfl⟩
    simpa using this
  have hpos : ∀ (k : Nat) (hk : k < (bsetIter ids).length), idx (bsetIter ids)[k] = k := by
    intro k hk
    have h1 : (List.range ids.card)[k]'(by simpa using hk) = k := by simp
    have h2 : (List.range ids.card)[k]'(by simpa using hk) = ((bsetIter ids).map idx)[k]'(by simpa using hk) := by
      congr 1
    rw [h1] at h2
    rw [List.getElem_map] at h2
    exact h2.symm
  refine ⟨idx, BMap.tabulate ids fun i => mkPublic (idx i) (secrets (idx i)), hinj, hlt, by simp, fun i hi => by simp [hi], ?_⟩
  have hz : (bsetIter ids).zip ((List.range ids.card).map secrets) = (bsetIter ids).map fun i => (i, secrets (idx i)) := by
    rw [hidx, List.map_map, zip_map_self]; rfl
  have hpub : BMap.ofList (((bsetIter ids).map fun i => (i, secrets (idx i))).mapIdx fun i p => (p.1, mkPublic i p.2)) =
      BMap.tabulate ids fun i => mkPublic (idx i) (secrets (idx i)) := by
    rw [← ofList_map_bsetIter]
    congr 1
    apply List.ext_getElem
    · simp
    · intro k h1 h2
      simp only [List.getElem_mapIdx, List.getElem_map]
      rw [hpos k (by simpa using h2)]
  have hall : AuxInfo.newCentralized ids secrets mkPublic =
      BMap.tabulate ids fun i => ⟨i, secrets (idx i), BMap.tabulate ids fun i => mkPublic (idx i) (secrets (idx i))⟩ := by
    unfold AuxInfo.newCentralized
    simp only [hz, hpub, List.map_map, Function.comp_def]
    rw [ofList_map_bsetIter]
  rw [hall]
  exact ⟨by simp, fun i hi => by simp [hi]⟩

/-! ### Concrete cases -/

section
attribute [local instance] Toy.fact11 Toy.order11

/-- Three parties, key 7 over `ZMod 11` (the group being the field itself with generator 2): full shares exist and share the key; a 2-of-3
threshold sharing exists as well; refreshing by (1, 2, 8) is a zero-sum change. -/
example : ({10, 20, 30} : Finset Nat).Nonempty ∧ (2 : ZMod 11) ≠ 0 ∧ (7 : ZMod 11) ≠ 0 ∧
    (∃ m, KeyShare.newCentralized (2 : ZMod 11) ({10, 20, 30} : Finset Nat) (7 : ZMod 11) (fun i => i + 4) = .ok m ∧
      m.get? 30 = some ⟨30, 9, BMap.ofList [(10, 8), (20, 10), (30, 7)]⟩) := by
  refine ⟨by decide, by decide, by decide, _, rfl, by decide⟩

example : ∃ shares : Nat → ThresholdKeyShare Nat (ZMod 11) (ZMod 11),
    ThresholdSharing (2 : ZMod 11) ({10, 20, 30} : Finset Nat) 2 shares (7 : ZMod 11) := by
  obtain ⟨m, shares, _, _, _, h⟩ := (C13_centralized_threshold_sharing (q := 11) (2 : ZMod 11) ({10, 20, 30} : Finset Nat)
    (by decide) 2 (7 : ZMod 11) (fun _ => 3)).1 (by norm_num) (by decide)
  exact ⟨shares, h⟩

example : ZeroSumChange (2 : ZMod 11) ({10, 20, 30} : Finset Nat)
    (fun i => ⟨i, if i = 10 then 1 else if i = 20 then 2 else 8,
      BMap.ofList [(10, 2), (20, 4), (30, 5)]⟩ : Nat → KeyShareChange Nat (ZMod 11) (ZMod 11)) where
  owner := by decide
  holders := by decide
  public_matches := by decide
  sum := by decide

/-- Derivation with the constant tweak 5 and path of length two succeeds on a 2-of-3 sharing of 7. -/
example : ((⟨10, 2, 10, BMap.ofList [(10, 1), (20, 2), (30, 3)], BMap.ofList [(10, 9), (20, 4), (30, 10)]⟩ :
      ThresholdKeyShare Nat (ZMod 11) (ZMod 11)).deriveBip32 2 (fun _ => ()) (fun _ _ _ => .ok (5, ())) [0, 1]).isOk = true := by
  decide +kernel

end
end Synedrion.Props
