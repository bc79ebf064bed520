import Verif.Spec.KeyShares
import Verif.Lemmas.SharePoly

/-!
# Lemmas about key shares
-/

set_option linter.unusedSectionVars false

namespace Synedrion
open Spec Shamir

variable {I F G : Type} [LinearOrder I] [Field F] [LinearOrder F] [AddCommGroup G] [Module F G] [DecidableEq G]

theorem exists_map_of_nodup {α β : Type} [DecidableEq α] [Nonempty β] {a : List α} {b : List β} (hn : a.Nodup)
    (hl : b.length = a.length) : ∃ f : α → β, b = a.map f := by
  classical
  refine ⟨fun x => if h : a.idxOf x < b.length then b[a.idxOf x] else Classical.arbitrary β, ?_⟩
  apply List.ext_getElem
  · simp [hl]
  · intro i h1 h2
    have h3 : i < a.length := by omega
    rw [List.getElem_map]
    have : a.idxOf a[i] = i := by exact hn.idxOf_getElem i h3
    simp only [this, h1, dif_pos]

theorem zip_map_self {α β : Type} (a : List α) (f : α → β) : a.zip (a.map f) = a.map fun x => (x, f x) := by
  induction a with
  | nil => rfl
  | cons x a ih => simp [ih]

theorem ofList_map_bsetIter {V : Type} (s : Finset I) (f : I → V) :
    BMap.ofList ((bsetIter s).map fun k => (k, f k)) = BMap.tabulate s f :=
  BMap.ofList_of_sorted _

/-- A map whose keys and lookups are known is a tabulation. -/
theorem BMap.eq_tabulate_of {V : Type} {m : BMap I V} {s : Finset I} {f : I → V} (hk : m.keySet = s)
    (hg : ∀ i ∈ s, m.get? i = some (f i)) : m = BMap.tabulate s f := by
  ext k v
  rw [BMap.get?_tabulate]
  by_cases h : k ∈ s
  · rw [hg k h, if_pos h]
  · rw [if_neg h, BMap.get?_eq_none_iff.2]
    rw [← BMap.mem_keySet, hk]; exact h

theorem Spec.SharesKey.pub_eq {g : G} {ids : Finset I} {shares : I → KeyShare I F G} {sk : F}
    (h : SharesKey g ids shares sk) {i : I} (hi : i ∈ ids) :
    (shares i).pub = BMap.tabulate ids fun j => (shares j).secret • g :=
  BMap.eq_tabulate_of (h.holders i hi) (h.public_matches i hi)

theorem Spec.SharesKey.vkPoint {g : G} {ids : Finset I} {shares : I → KeyShare I F G} {sk : F}
    (h : SharesKey g ids shares sk) {i : I} (hi : i ∈ ids) : (shares i).verifyingKeyAsPoint = sk • g := by
  unfold KeyShare.verifyingKeyAsPoint
  rw [h.pub_eq hi, BMap.sum_values_tabulate, ← Finset.sum_smul, h.sum]

theorem Spec.SharesKey.vk {ε : Type} {g : G} (hg : g ≠ 0) {ids : Finset I} {shares : I → KeyShare I F G} {sk : F}
    (h : SharesKey g ids shares sk) (hsk : sk ≠ 0) {i : I} (hi : i ∈ ids) :
    ((shares i).verifyingKey : Out ε G) = .ok (sk • g) := by
  unfold KeyShare.verifyingKey
  rw [h.vkPoint hi]
  unfold toVerifyingKey
  rw [if_neg (smul_ne_zero hsk hg)]; rfl

/-- A consistent family of shares built from secrets. -/
theorem sharesKey_of_secrets (g : G) (ids : Finset I) (secret : I → F) (sk : F) (hs : ∑ i ∈ ids, secret i = sk)
    (shares : I → KeyShare I F G)
    (hsh : ∀ i ∈ ids, shares i = ⟨i, secret i, BMap.tabulate ids fun j => secret j • g⟩) :
    SharesKey g ids shares sk where
  owner i hi := by rw [hsh i hi]
  holders i hi := by rw [hsh i hi]; simp
  same_public i hi j hj := by rw [hsh i hi, hsh j hj]
  public_matches i hi j hj := by rw [hsh i hi, hsh j hj]; simp [hj]
  sum := by rw [← hs]; exact Finset.sum_congr rfl fun i hi => by rw [hsh i hi]

theorem newCentralized_eq (g : G) (ids : Finset I) (hne : ids.Nonempty) (secret : F) (draw : Nat → F) :
    ∃ f : I → F, ∑ i ∈ ids, f i = secret ∧
      KeyShare.newCentralized g ids secret draw =
        .ok (BMap.tabulate ids fun i => ⟨i, f i, BMap.tabulate ids fun j => f j • g⟩) := by
  have hc : 1 ≤ ids.card := Finset.card_pos.2 hne
  obtain ⟨parts, hp, hlen, hsum⟩ : ∃ parts, (secretSplit secret ids.card draw : Out EntErr _) = .ok parts ∧
      parts.length = ids.card ∧ parts.sum = secret := by
    unfold secretSplit
    by_cases h1 : ids.card = 1
    · exact ⟨[secret], by simp [h1]⟩
    · rw [if_neg h1, if_neg (by omega)]
      refine ⟨_, rfl, ?_, ?_⟩
      · simp; omega
      · simp
  obtain ⟨f, hf⟩ := exists_map_of_nodup (bsetIter_nodup ids) (by rw [hlen, bsetIter_length])
  refine ⟨f, ?_, ?_⟩
  · rw [← hsum, hf, sum_bsetIter]
  · unfold KeyShare.newCentralized
    rw [hp, Out.bind_ok, hf]
    simp only [zip_map_self, List.map_map, Function.comp_def]
    rw [ofList_map_bsetIter, ofList_map_bsetIter]

theorem update_ok_iff (ks : KeyShare I F G) (ch : KeyShareChange I F G) :
    (∃ r, ks.update ch = .ok r) ↔ ks.owner = ch.owner ∧ ks.pub.keySet = ch.publicShareChanges.keySet := by
  unfold KeyShare.update
  by_cases ho : ks.owner = ch.owner
  · by_cases hs : ks.pub.size = ch.publicShareChanges.size
    · rw [if_neg (by simpa using ho), if_neg (by simpa using hs)]
      simp only [ho, true_and]
      constructor
      · rintro ⟨r, hr⟩
        obtain ⟨l, hl, _⟩ := Out.bind_eq_ok.1 hr
        have hsub : ks.pub.keySet ⊆ ch.publicShareChanges.keySet := by
          intro k hk
          rw [BMap.mem_keySet, BMap.mem_keys_iff] at hk
          obtain ⟨v, hv⟩ := hk
          rw [BMap.get?_eq_some_iff] at hv
          by_contra hne
          rw [BMap.mem_keySet] at hne
          have hnone := BMap.get?_eq_none_iff.2 hne
          have : ∀ (es : List (I × G)) (l : List (I × G)), (k, v) ∈ es →
              Out.mapM' (fun p : I × G => (Out.ofOption EntErr.missingId (ch.publicShareChanges.get? p.1)).bind
                fun d => .ok (p.1, p.2 + d)) es ≠ .ok l := by
            intro es
            induction es with
            | nil => intro l h; simp at h
            | cons p es ih =>
              intro l h he
              rw [Out.mapM', Out.bind_eq_ok] at he
              obtain ⟨a, ha, hb⟩ := he
              obtain ⟨bs, hbs, _⟩ := Out.bind_eq_ok.1 hb
              rcases List.mem_cons.1 h with rfl | h
              · simp [hnone] at ha
              · exact ih bs h hbs
          exact this _ _ hv hl
        apply Finset.eq_of_subset_of_card_le hsub
        rw [BMap.card_keySet, BMap.card_keySet]; omega
      · intro hk
        have : Out.mapM' (fun p : I × G => (Out.ofOption EntErr.missingId (ch.publicShareChanges.get? p.1)).bind
            fun d => .ok (p.1, p.2 + d)) ks.pub.entries =
            .ok (ks.pub.entries.map fun p => (p.1, p.2 + (ch.publicShareChanges.get? p.1).getD 0)) := by
          apply Out.mapM'_ok_of_forall
          intro p hp
          have : p.1 ∈ ch.publicShareChanges.keys := by
            rw [← BMap.mem_keySet, ← hk, BMap.mem_keySet]
            exact List.mem_map.2 ⟨p, hp, rfl⟩
          obtain ⟨d, hd⟩ := BMap.mem_keys_iff.1 this
          simp [hd]
        simp [this]
    · rw [if_neg (by simpa using ho), if_pos hs]
      simp only [reduceCtorEq, exists_false, false_iff, not_and]
      intro _ hk
      apply hs
      rw [← BMap.card_keySet, ← BMap.card_keySet, hk]
  · rw [if_pos (by simpa using ho)]
    simp [ho]

theorem update_tabulate (o : I) (x dx : F) (ids : Finset I) (p dp : I → G) :
    (⟨o, x, BMap.tabulate ids p⟩ : KeyShare I F G).update ⟨o, dx, BMap.tabulate ids dp⟩ =
      .ok ⟨o, x + dx, BMap.tabulate ids fun i => p i + dp i⟩ := by
  unfold KeyShare.update
  simp only [ne_eq, not_true_eq_false, if_false, BMap.size_tabulate]
  have : Out.mapM' (fun q : I × G => (Out.ofOption EntErr.missingId ((BMap.tabulate ids dp).get? q.1)).bind
      fun d => .ok (q.1, q.2 + d)) (BMap.tabulate ids p).entries =
      .ok ((BMap.tabulate ids p).entries.map fun q => (q.1, q.2 + dp q.1)) := by
    apply Out.mapM'_ok_of_forall
    intro q hq
    have : q.1 ∈ ids := by
      have : q.1 ∈ (BMap.tabulate ids p).keys := List.mem_map.2 ⟨q, hq, rfl⟩
      simpa using this
    simp [this]
  rw [this, Out.bind_ok]
  congr 2
  simp only [BMap.tabulate, List.map_map, Function.comp_def]
  rw [ofList_map_bsetIter]; rfl

/-! ### threshold shares -/

theorem lagrange0_image {s : Finset I} {sid : I → F} (hinj : Set.InjOn sid s) (c : G) (l : List G) (h : l.length < s.card) :
    ∑ i ∈ s, lagrange0 (s.image sid) (sid i) • polyValue (c :: l) (sid i) = c := by
  have h2 : l.length < (s.image sid).card := by rw [Finset.card_image_of_injOn hinj]; exact h
  have := lagrange0_interpolates (s.image sid) c l h2
  rwa [Finset.sum_image hinj] at this

theorem interpolationCoeff_image {ε : Type} {s : Finset I} {sid : I → F} (hinj : Set.InjOn sid s) (x : F) :
    (interpolationCoeff (BMap.tabulate s sid).values x : Out ε F) = .ok (lagrange0 (s.image sid) x) := by
  rw [BMap.values_tabulate]
  have hn : ((bsetIter s).map sid).Nodup := by
    rw [List.nodup_map_iff_inj_on (bsetIter_nodup s)]
    intro a ha b hb h
    exact hinj (mem_bsetIter.1 ha) (mem_bsetIter.1 hb) h
  rw [interpolationCoeff_eq hn]
  congr 2
  ext y; simp

/-- Conversion of a tabulated threshold share. -/
theorem toKeyShare_tabulate (dbg : Bool) {ids S : Finset I} (hS : S ⊆ ids) {o : I} (ho : o ∈ S) (t : Nat)
    (hdbg : dbg = true → S.card = t) (x : F) {sid : I → F} (hinj : Set.InjOn sid ids) (p : I → G) :
    (⟨o, t, x, BMap.tabulate ids sid, BMap.tabulate ids p⟩ : ThresholdKeyShare I F G).toKeyShare dbg S =
      KeyShare.new o (x * lagrange0 (S.image sid) (sid o))
        (BMap.tabulate S fun i => lagrange0 (S.image sid) (sid i) • p i) := by
  have hinjS : Set.InjOn sid S := fun a ha b hb h => hinj (hS ha) (hS hb) h
  unfold ThresholdKeyShare.toKeyShare
  have e1 : (!dbg || decide (S.card = t)) = true := by
    cases dbg
    · rfl
    · simp [hdbg rfl]
  have e2 : (!dbg || decide (o ∈ S)) = true := by simp [ho]
  have hsl : Out.mapM' (fun id : I => (Out.ofOption EntErr.missingId ((BMap.tabulate ids sid).get? id)).bind
      fun s => .ok (id, s)) (bsetIter S) = .ok ((bsetIter S).map fun i => (i, sid i)) := by
    apply Out.mapM'_ok_of_forall
    intro i hi
    simp [hS (mem_bsetIter.1 hi)]
  simp only [e1, e2, Out.assert_true, Out.bind_ok, BMap.get?_tabulate, if_pos (hS ho), Out.ofOption_some] at hsl ⊢
  rw [hsl, Out.bind_ok, ofList_map_bsetIter, interpolationCoeff_image hinjS, Out.bind_ok]
  have hpl : Out.mapM' (fun id : I =>
      (Out.ofOption EntErr.missingId (if id ∈ ids then some (p id) else none)).bind fun publicShare =>
      (Out.ofOption EntErr.missingId (if id ∈ ids then some (sid id) else none)).bind fun thisShareId =>
      (interpolationCoeff (BMap.tabulate S sid).values thisShareId).bind fun c => .ok (id, c • publicShare)) (bsetIter S) =
      .ok ((bsetIter S).map fun i => (i, lagrange0 (S.image sid) (sid i) • p i)) := by
    apply Out.mapM'_ok_of_forall
    intro i hi
    rw [if_pos (hS (mem_bsetIter.1 hi)), if_pos (hS (mem_bsetIter.1 hi)), Out.ofOption_some, Out.bind_ok, Out.ofOption_some,
      Out.bind_ok, interpolationCoeff_image hinjS, Out.bind_ok]
  rw [hpl, Out.bind_ok, ofList_map_bsetIter]

theorem thresholdVk_tabulate {ids : Finset I} {o : I} {t : Nat} (ht : t ≤ ids.card) (x : F) {sid : I → F}
    (hinj : Set.InjOn sid ids) (p : I → G) :
    ∃ T ⊆ ids, T.card = t ∧
    (⟨o, t, x, BMap.tabulate ids sid, BMap.tabulate ids p⟩ : ThresholdKeyShare I F G).verifyingKeyAsPoint =
      .ok (∑ i ∈ T, lagrange0 (T.image sid) (sid i) • p i) := by
  set T := ((bsetIter ids).take t).toFinset with hT
  have hsorted : ((bsetIter ids).take t).Pairwise (· < ·) := (bsetIter_sorted ids).sublist (List.take_sublist _ _)
  have hTsub : T ⊆ ids := by
    intro i hi
    rw [hT, List.mem_toFinset] at hi
    exact mem_bsetIter.1 (List.mem_of_mem_take hi)
  have hTit : bsetIter T = (bsetIter ids).take t := bsetIter_of_sorted hsorted
  have hinjT : Set.InjOn sid T := fun a ha b hb h => hinj (hTsub ha) (hTsub hb) h
  refine ⟨T, hTsub, ?_, ?_⟩
  · rw [← bsetIter_length, hTit]; simp [ht]
  · unfold ThresholdKeyShare.verifyingKeyAsPoint
    simp only
    have he : (BMap.tabulate ids sid).entries.take t = (bsetIter T).map fun k => (k, sid k) := by
      simp [BMap.tabulate, hTit, List.map_take]
    rw [he]
    have hm : Out.mapM' (fun q : I × F => (Out.ofOption EntErr.missingId ((BMap.tabulate ids p).get? q.1)).bind
        fun s => .ok (q.2, s)) ((bsetIter T).map fun k => (k, sid k)) =
        .ok (((bsetIter T).map fun k => (k, sid k)).map fun q => (q.2, p q.1)) := by
      apply Out.mapM'_ok_of_forall
      rintro ⟨k, s⟩ hq
      obtain ⟨k', hk', he⟩ := List.mem_map.1 hq
      obtain ⟨rfl, rfl⟩ := Prod.mk.inj he
      simp [hTsub (mem_bsetIter.1 hk')]
    rw [hm, Out.bind_ok, List.map_map]
    simp only [Function.comp_def]
    have hnodup : (((bsetIter T).map fun x => (sid x, p x)).map Prod.fst).Nodup := by
      rw [List.map_map]
      rw [List.nodup_map_iff_inj_on (bsetIter_nodup T)]
      intro a ha b hb h
      exact hinjT (mem_bsetIter.1 ha) (mem_bsetIter.1 hb) h
    have hget : ∀ k v, (BMap.ofList ((bsetIter T).map fun x => (sid x, p x))).get? k = some v ↔
        ∃ i ∈ T, sid i = k ∧ p i = v := by
      intro k v
      rw [BMap.get?_ofList_eq_some hnodup]; simp
    have hks : (BMap.ofList ((bsetIter T).map fun x => (sid x, p x))).keySet = T.image sid := by
      ext k
      rw [BMap.mem_keySet, BMap.mem_keys_iff]
      simp only [hget, Finset.mem_image]
      constructor
      · rintro ⟨v, i, hi, h1, _⟩; exact ⟨i, hi, h1⟩
      · rintro ⟨i, hi, h1⟩; exact ⟨p i, i, hi, h1, rfl⟩
    have : Inhabited G := ⟨0⟩
    rw [joinPoints_eq, hks, Finset.sum_image hinjT]
    refine congrArg Out.ok (Finset.sum_congr rfl ?_)
    intro i hi
    rw [(hget (sid i) (p i)).2 ⟨i, hi, rfl, rfl⟩]; rfl

theorem Spec.ThresholdSharing.vk {g : G} (hg : g ≠ 0) {ids : Finset I} {t : Nat} {shares : I → ThresholdKeyShare I F G} {sk : F}
    (h : ThresholdSharing g ids t shares sk) (hsk : sk ≠ 0) {i : I} (hi : i ∈ ids) :
    (shares i).verifyingKey = .ok (sk • g) := by
  obtain ⟨htc, sid, tail, hlen, hinj, hall⟩ := h
  obtain ⟨h1, h2, h3, h4, h5, h6, h7⟩ := hall i hi
  have e5 := BMap.eq_tabulate_of h4 h5
  have e7 : (shares i).publicShares = BMap.tabulate ids fun j => polyValue (sk :: tail) (sid j) • g :=
    BMap.eq_tabulate_of h6 (fun j hj => by rw [h7 j hj, (hall j hj).2.2.1])
  have es : shares i = ⟨i, t, polyValue (sk :: tail) (sid i), BMap.tabulate ids sid,
      BMap.tabulate ids fun j => polyValue (sk :: tail) (sid j) • g⟩ := by
    calc shares i = ⟨(shares i).owner, (shares i).threshold, (shares i).secretShare, (shares i).shareIds,
          (shares i).publicShares⟩ := rfl
      _ = _ := by rw [h1, h2, h3, e5, e7]
  obtain ⟨T, hT, hTc, hv⟩ := thresholdVk_tabulate (o := i) htc (polyValue (sk :: tail) (sid i)) hinj
    (fun j => polyValue (sk :: tail) (sid j) • g)
  unfold ThresholdKeyShare.verifyingKey
  rw [es, hv, Out.bind_ok]
  have hinjT : Set.InjOn sid T := fun a ha b hb h => hinj (hT ha) (hT hb) h
  have : ∑ j ∈ T, lagrange0 (T.image sid) (sid j) • polyValue (sk :: tail) (sid j) • g = sk • g := by
    conv_rhs => rw [← lagrange0_image hinjT sk tail (by omega), Finset.sum_smul]
    simp [smul_smul]
  rw [this]
  unfold toVerifyingKey
  rw [if_neg (smul_ne_zero hsk hg)]; rfl

end Synedrion
