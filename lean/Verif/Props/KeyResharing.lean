import Verif.Spec.Resharing
import Verif.Lemmas.KeyResharing
import Verif.Lemmas.SharePoly
import Verif.Lemmas.Toy
import Verif.Props.Session

/-!
# C39, C40 and the resharing part of C45, C47, C48: key resharing
-/

set_option linter.unusedSectionVars false

namespace Synedrion.Props

open Spec KeyResharing Shamir

variable {I F G : Type} [LinearOrder I] [Field F] [LinearOrder F] [AddCommGroup G] [Module F G] [DecidableEq G]

private def poly (shares : I → ThresholdKeyShare I F G) (n : Nat) (draw : I → Nat → F) (j : I) : List F :=
  randomPolynomial (shares j).secretShare n (draw j)

private theorem honest_start (g : G) {ids : Finset I} {shares : I → ThresholdKeyShare I F G} {osid : I → F} {S N : Finset I} (hS : S ⊆ ids)
    (howner : ∀ i ∈ ids, (shares i).owner = i) (hsid : ∀ i ∈ ids, (shares i).shareIds.get? i = some (osid i)) (vkey : G) (ot n : Nat)
    (draw : I → Nat → F) {i : I} (hi : i ∈ S ∪ N) :
    start g (HonestInputs S N shares vkey ot n i) i (draw i) = .ok
      ⟨if i ∈ S then some ⟨osid i, poly shares n draw i, publicPolynomial g (poly shares n draw i)⟩ else none,
        if i ∈ N then some ⟨vkey, ot, S⟩ else none, newShareIds F N, n, i, if i ∈ S then N.erase i else ∅, if i ∈ N then S.erase i else ∅⟩ := by
  unfold start HonestInputs
  by_cases h1 : i ∈ S <;> by_cases h2 : i ∈ N
  · simp [h1, h2, ThresholdKeyShare.shareId, howner i (hS h1), hsid i (hS h1), ofEntity, poly]
  · simp [h1, h2, ThresholdKeyShare.shareId, howner i (hS h1), hsid i (hS h1), ofEntity, poly]
  · simp [h1, h2]
  · simp [h1, h2] at hi

/-- The state of an honest participant after `make_round`. -/
private def hround (g : G) (S N : Finset I) (shares : I → ThresholdKeyShare I F G) (osid : I → F) (vkey : G) (ot n : Nat) (draw : I → Nat → F) (i : I) :
    Round1 I F G :=
  ⟨if i ∈ S then some ⟨osid i, poly shares n draw i, publicPolynomial g (poly shares n draw i)⟩ else none,
    if i ∈ N then some ⟨vkey, ot, S⟩ else none, newShareIds F N, n, i, if i ∈ S then N.erase i else ∅, if i ∈ N then S.erase i else ∅⟩

private def hmsg (g : G) (shares : I → ThresholdKeyShare I F G) (osid : I → F) (n : Nat) (draw : I → Nat → F) (sid : I → F) (j i : I) : Msg F G :=
  ⟨publicPolynomial g (poly shares n draw j), osid j, polyValue (poly shares n draw j) (sid i)⟩

private theorem poly_ne_nil (shares : I → ThresholdKeyShare I F G) (n : Nat) (draw : I → Nat → F) (j : I) : poly shares n draw j ≠ [] := by
  simp [poly, randomPolynomial]

private theorem honest_withOwn (g : G) {S N : Finset I} (shares : I → ThresholdKeyShare I F G) (osid : I → F) (vkey : G) (ot n : Nat)
    (draw : I → Nat → F) (sid : I → F) (i : I) :
    (withOwn (hround g S N shares osid vkey ot n draw i) (sid i) (BMap.tabulate (S.erase i) fun j => hmsg g shares osid n draw sid j i) : Out LocalErr _) =
      .ok (BMap.tabulate S fun j => hmsg g shares osid n draw sid j i) := by
  unfold withOwn hround
  by_cases h : i ∈ S
  · simp only [h, if_true, evaluate]
    rw [horner_eq (poly_ne_nil _ _ _ _), Out.bind_ok]
    exact congrArg Out.ok (BMap.insert_tabulate_erase h fun j => hmsg g shares osid n draw sid j i)
  · simp only [h, if_false, Finset.erase_eq_of_notMem h]

private theorem honest_resharing_core (q : Nat) [CharP F q] (g : G) (ids S N : Finset I) (t n : Nat) (shares : I → ThresholdKeyShare I F G) (sk : F)
    (hold : ThresholdSharing g ids t shares sk) (hS : S ⊆ ids) (ht : t ≤ S.card) (hn : 2 ≤ n) (hN : N.card < q)
    (oldThreshold : Nat) (draw : I → Nat → F) :
    ∃ r : I → Round1 I F G, (∀ i ∈ S ∪ N, start g (HonestInputs S N shares (sk • g) oldThreshold n i) i (draw i) = .ok (r i)) ∧
      ∃ m : I → I → Msg F G, (∀ j ∈ S, (r j).messageDestinations = N.erase j ∧ ∀ i ∈ N, msg (r j) i = .ok (some (m j i))) ∧
        (∀ j ∈ S, j ∉ N → run g (r j) [] = .ok none) ∧
        ∀ inbox : I → List (I × Msg F G), (∀ i ∈ N, FromOthers S i (fun j => m j i) (inbox i)) →
          ∃ new : I → ThresholdKeyShare I F G, (∀ i ∈ N, run g (r i) (inbox i) = .ok (some (new i))) ∧
            ∃ (sid : I → F) (tail : List F), tail.length < n ∧ Set.InjOn sid N ∧ (∀ i ∈ N, sid i ≠ 0) ∧
              ∀ i ∈ N, (new i).owner = i ∧ (new i).threshold = n ∧ (new i).secretShare = polyValue (sk :: tail) (sid i) ∧
                (new i).shareIds.keySet = N ∧ (∀ j ∈ N, (new i).shareIds.get? j = some (sid j)) ∧ (new i).publicShares.keySet = N ∧
                (∀ j ∈ N, (new i).publicShares.get? j = some ((new j).secretShare • g)) := by
  obtain ⟨htc, osid, otail, holen, hoinj, hall⟩ := hold
  obtain ⟨sid, hsid, hsidl⟩ := newShareIds_tabulate (F := F) N
  have hinjN := newShareIds_injOn hN hsidl
  have hsid0 : ∀ i ∈ N, sid i ≠ 0 := fun i hi => evaluationPoints_ne_zero (F := F) hN _ (hsidl ▸ List.mem_map.2 ⟨i, mem_bsetIter.2 hi, rfl⟩)
  have hinjS : Set.InjOn osid S := fun a ha b hb h => hoinj (hS ha) (hS hb) h
  have hlen : ∀ j, (poly shares n draw j).length = n := by
    intro j; simp [poly, randomPolynomial]; omega
  refine ⟨hround g S N shares osid (sk • g) oldThreshold n draw, ?_, hmsg g shares osid n draw sid, ?_, ?_, ?_⟩
  · intro i hi
    exact honest_start g hS (fun i hi => (hall i hi).1) (fun i hi => (hall i hi).2.2.2.2.1 i hi) _ _ _ _ hi
  · intro j hj
    refine ⟨by simp [hround, hj], fun i hi => ?_⟩
    simp only [msg, hround, hj, if_true, finGet, hsid, BMap.get?_tabulate, hi, Out.ofOption_some, Out.bind_ok, evaluate]
    rw [horner_eq (poly_ne_nil _ _ _ _), Out.bind_ok]; rfl
  · intro j hj hjN
    simp [run, hround, hjN, collect, Out.mapM', finalize, finalizeResult]
  · intro inbox hin
    -- the combined polynomial
    let w : I → F := fun j => lagrange0 (S.image osid) (osid j)
    obtain ⟨tail, hcomb, htail⟩ := combine_eq_cons S w (poly shares n draw) (n := n) (by omega) (fun j => (shares j).secretShare)
      (fun j _ => by simp [poly, randomPolynomial])
    have hsk : ∑ j ∈ S, w j • (shares j).secretShare = sk := by
      rw [← lagrange0_image (G := F) hinjS sk otail (by omega)]
      exact Finset.sum_congr rfl fun j hj => by rw [(hall j (hS hj)).2.2.1]
    rw [hsk] at hcomb
    have hval : ∀ x : F, ∑ j ∈ S, w j * polyValue (poly shares n draw j) x = polyValue (sk :: tail) x := by
      intro x
      rw [← hcomb, polyValue_combine _ _ _ _ (fun j _ => (hlen j).le)]
      rfl
    let new : I → ThresholdKeyShare I F G := fun i => ⟨i, n, polyValue (sk :: tail) (sid i), BMap.tabulate N sid,
      BMap.tabulate N fun k => polyValue (sk :: tail) (sid k) • g⟩
    refine ⟨new, ?_, ?_⟩
    · intro i hi
      unfold run
      have e1 : collect (hround g S N shares osid (sk • g) oldThreshold n draw i).expectingMessagesFrom
          (recv g (hround g S N shares osid (sk • g) oldThreshold n draw i)) (inbox i) =
          .ok (BMap.tabulate (S.erase i) fun j => hmsg g shares osid n draw sid j i) := by
        have : (hround g S N shares osid (sk • g) oldThreshold n draw i).expectingMessagesFrom = S.erase i := by simp [hround, hi]
        rw [this]
        refine collect_others (hin i hi) fun j hj _ => ?_
        simp only [recv, hround, hi, hj, if_true, recvGet, hsid, BMap.get?_tabulate, Out.ofOption_some, Out.bind_ok, hmsg, publicEvaluate]
        rw [evaluatePolynomial_eq (by simp [publicPolynomial, hlen]; omega), Out.bind_ok, polyValue_publicPolynomial]
        simp
      rw [e1, Out.bind_ok]
      have hinj' : Set.InjOn (fun j => (hmsg g shares osid n draw sid j i).oldShareId) S := hinjS
      have hmlen : ∀ j ∈ S, 1 < (hmsg g shares osid n draw sid j i).publicPolynomial.length := by
        intro j _; simp [hmsg, publicPolynomial, hlen]; omega
      have evk : vkeySum (BMap.tabulate S fun j => hmsg g shares osid n draw sid j i) = .ok (sk • g) := by
        rw [vkeySum_tabulate hinj' (hd := fun j => (shares j).secretShare • g)
          (fun j _ => by simp [hmsg, publicPolynomial, poly, randomPolynomial])]
        refine congrArg Out.ok ?_
        conv_rhs => rw [← hsk, Finset.sum_smul]
        exact Finset.sum_congr rfl fun j _ => by rw [smul_assoc]; rfl
      have esub : joinSubshares S (BMap.tabulate S fun j => hmsg g shares osid n draw sid j i) = .ok (polyValue (sk :: tail) (sid i)) := by
        rw [joinSubshares_tabulate hinj', ← hval]; rfl
      have epub : ∀ x, joinPublic (BMap.tabulate S fun j => hmsg g shares osid n draw sid j i) x = .ok (polyValue (sk :: tail) x • g) := by
        intro x
        rw [joinPublic_tabulate hinj' hmlen, ← hval, Finset.sum_smul]
        refine congrArg Out.ok (Finset.sum_congr rfl fun j _ => ?_)
        show _ • polyValue (publicPolynomial g (poly shares n draw j)) x = _
        rw [polyValue_publicPolynomial, smul_smul]; rfl
      have hnh : (hround g S N shares osid (sk • g) oldThreshold n draw i).newHolder = some ⟨sk • g, oldThreshold, S⟩ := by simp [hround, hi]
      unfold finalize
      rw [hnh]
      simp only
      rw [show (finGet (hround g S N shares osid (sk • g) oldThreshold n draw i).newShareIds
        (hround g S N shares osid (sk • g) oldThreshold n draw i).myId) = .ok (sid i) from by simp [hround, finGet, hsid, hi], Out.bind_ok,
        honest_withOwn, Out.bind_ok, evk, Out.bind_ok]
      simp only [ne_eq, not_true_eq_false, if_false]
      rw [esub, Out.bind_ok]
      have : Out.mapM' (fun p : I × F => (joinPublic (BMap.tabulate S fun j => hmsg g shares osid n draw sid j i) p.2).bind fun s => .ok (p.1, s))
          (hround g S N shares osid (sk • g) oldThreshold n draw i).newShareIds.entries =
          .ok ((bsetIter N).map fun k => (k, polyValue (sk :: tail) (sid k) • g)) := by
        simp only [epub, Out.bind_ok]
        rw [Out.mapM'_eq_ok_iff]
        show List.Forall₂ _ (newShareIds F N).entries _
        rw [hsid]
        unfold BMap.tabulate
        rw [List.forall₂_map_left_iff, List.forall₂_map_right_iff, List.forall₂_same]
        intro k _; rfl
      rw [this, Out.bind_ok, ofList_map_bsetIter]
      show Out.ok _ = _
      refine congrArg (fun x => Out.ok (some x)) ?_
      show (⟨i, n, _, newShareIds F N, _⟩ : ThresholdKeyShare I F G) = new i
      rw [hsid]
    · refine ⟨sid, tail, htail, hinjN, hsid0, fun i hi => ⟨rfl, rfl, rfl, by simp [new], fun j hj => by simp [new, hj], by simp [new], fun j hj => by simp [new, hj]⟩⟩

/-- **C39.** Let `ids` hold a `t`-threshold sharing of `sk`, let `S` be at least `t` of them, and let `N` be the new holders with new
threshold `n`, `2 ≤ n ≤ |N|`. If everyone follows the protocol then every participant starts, every old holder has a message for every new holder,
and, in whatever order the messages arrive, every new holder ends with a share such that `N` holds an `n`-threshold sharing of the same key; parties
that are only old holders end with nothing. -/
theorem C39_honest_resharing (q : Nat) [CharP F q] (g : G) (ids S N : Finset I) (t n : Nat) (shares : I → ThresholdKeyShare I F G) (sk : F)
    (hold : ThresholdSharing g ids t shares sk) (hS : S ⊆ ids) (ht : t ≤ S.card) (hn : 2 ≤ n) (hnN : n ≤ N.card) (hN : N.card < q)
    (oldThreshold : Nat) (draw : I → Nat → F) :
    ∃ r : I → Round1 I F G, (∀ i ∈ S ∪ N, start g (HonestInputs S N shares (sk • g) oldThreshold n i) i (draw i) = .ok (r i)) ∧
      ∃ m : I → I → Msg F G, (∀ j ∈ S, (r j).messageDestinations = N.erase j ∧ ∀ i ∈ N, msg (r j) i = .ok (some (m j i))) ∧
        (∀ j ∈ S, j ∉ N → run g (r j) [] = .ok none) ∧
        ∀ inbox : I → List (I × Msg F G), (∀ i ∈ N, FromOthers S i (fun j => m j i) (inbox i)) →
          ∃ new : I → ThresholdKeyShare I F G, (∀ i ∈ N, run g (r i) (inbox i) = .ok (some (new i))) ∧ ThresholdSharing g N n new sk := by
  obtain ⟨r, h1, m, h2, h3, h4⟩ := honest_resharing_core q g ids S N t n shares sk hold hS ht hn hN oldThreshold draw
  refine ⟨r, h1, m, h2, h3, fun inbox hin => ?_⟩
  obtain ⟨new, h5, sid, tail, h6, h7, -, h8⟩ := h4 inbox hin
  exact ⟨new, h5, hnN, sid, tail, h6, h7, h8⟩

/-- **C39, excluded case: the key is lost.** With a new threshold above the number of new holders, which `KeyResharing::new` accepts, everybody finishes. But the shares
of all new holders together do not determine the key: every value `sk'` is the constant term of a polynomial with at most `n` coefficients through all of them. -/
theorem C39_threshold_too_large (q : Nat) [CharP F q] (g : G) (ids S N : Finset I) (t n : Nat) (shares : I → ThresholdKeyShare I F G) (sk : F)
    (hold : ThresholdSharing g ids t shares sk) (hS : S ⊆ ids) (ht : t ≤ S.card) (hn : 2 ≤ n) (hnN : N.card < n) (hN : N.card < q)
    (oldThreshold : Nat) (draw : I → Nat → F) :
    ∃ r : I → Round1 I F G, (∀ i ∈ S ∪ N, start g (HonestInputs S N shares (sk • g) oldThreshold n i) i (draw i) = .ok (r i)) ∧
      ∃ m : I → I → Msg F G, (∀ j ∈ S, ∀ i ∈ N, msg (r j) i = .ok (some (m j i))) ∧
        ∀ inbox : I → List (I × Msg F G), (∀ i ∈ N, FromOthers S i (fun j => m j i) (inbox i)) →
          ∃ new : I → ThresholdKeyShare I F G, (∀ i ∈ N, run g (r i) (inbox i) = .ok (some (new i)) ∧ (new i).threshold = n) ∧
            ∃ sid : I → F, Set.InjOn sid N ∧ (∀ i ∈ N, ∀ j ∈ N, (new i).shareIds.get? j = some (sid j)) ∧
              ∀ sk' : F, ∃ tail : List F, (sk' :: tail).length ≤ n ∧ ∀ i ∈ N, (new i).secretShare = polyValue (sk' :: tail) (sid i) := by
  obtain ⟨r, h1, m, h2, h3, h4⟩ := honest_resharing_core q g ids S N t n shares sk hold hS ht hn hN oldThreshold draw
  refine ⟨r, h1, m, fun j hj => (h2 j hj).2, fun inbox hin => ?_⟩
  obtain ⟨new, h5, sid, tail, h6, h7, h8, h9⟩ := h4 inbox hin
  refine ⟨new, fun i hi => ⟨h5 i hi, (h9 i hi).2.1⟩, sid, h7, fun i hi j hj => (h9 i hi).2.2.2.2.1 j hj, fun sk' => ?_⟩
  obtain ⟨tail', ⟨hl, ht'⟩, -⟩ := existsUnique_tail (N.image sid) (by simpa using fun i hi h => h8 i hi h) (fun x => polyValue (sk :: tail) x) sk'
  rw [Finset.card_image_of_injOn h7] at hl
  refine ⟨tail', by simp; omega, fun i hi => ?_⟩
  rw [(h9 i hi).2.2.1, ht' _ (Finset.mem_image_of_mem _ hi)]

/-- **C39, excluded case: too few old holders.** If the key at which the shares of the contributing old holders `S` interpolate is not the shared key, as is to be expected
of fewer than the old threshold, every honest new holder panics. `NewHolder::old_threshold` is not compared with the number of old holders. -/
theorem C39_too_few_old_holders (g : G) (ids S N : Finset I) (t n : Nat) (shares : I → ThresholdKeyShare I F G) (sk : F)
    (hold : ThresholdSharing g ids t shares sk) (hS : S ⊆ ids) (hn : 2 ≤ n) (osid : I → F) (hosid : ∀ i ∈ S, (shares i).shareIds.get? i = some (osid i))
    (hfew : ∑ j ∈ S, lagrange0 (S.image osid) (osid j) • (shares j).secretShare • g ≠ sk • g) (oldThreshold : Nat) (draw : I → Nat → F) :
    ∃ r : I → Round1 I F G, (∀ i ∈ S ∪ N, start g (HonestInputs S N shares (sk • g) oldThreshold n i) i (draw i) = .ok (r i)) ∧
      ∃ m : I → I → Msg F G, (∀ j ∈ S, ∀ i ∈ N, msg (r j) i = .ok (some (m j i))) ∧
        ∀ inbox : I → List (I × Msg F G), (∀ i ∈ N, FromOthers S i (fun j => m j i) (inbox i)) → ∀ i ∈ N, run g (r i) (inbox i) = .panic := by
  obtain ⟨htc, osid', otail, holen, hoinj, hall⟩ := hold
  obtain ⟨sid, hsid, hsidl⟩ := newShareIds_tabulate (F := F) N
  have hos : ∀ i ∈ S, osid i = osid' i := fun i hi => Option.some.inj ((hosid i hi).symm.trans ((hall i (hS hi)).2.2.2.2.1 i (hS hi)))
  have himg : S.image osid = S.image osid' := Finset.image_congr fun i hi => hos i hi
  have hinjS : Set.InjOn osid' S := fun a ha b hb h => hoinj (hS ha) (hS hb) h
  have hlen : ∀ j, (poly shares n draw j).length = n := by
    intro j; simp [poly, randomPolynomial]; omega
  refine ⟨hround g S N shares osid' (sk • g) oldThreshold n draw, ?_, hmsg g shares osid' n draw sid, ?_, ?_⟩
  · intro i hi
    exact honest_start g hS (fun i hi => (hall i hi).1) (fun i hi => (hall i hi).2.2.2.2.1 i hi) _ _ _ _ hi
  · intro j hj i hi
    simp only [msg, hround, hj, if_true, finGet, hsid, BMap.get?_tabulate, hi, Out.ofOption_some, Out.bind_ok, evaluate]
    rw [horner_eq (poly_ne_nil _ _ _ _), Out.bind_ok]; rfl
  · intro inbox hin i hi
    unfold run
    have e1 : collect (hround g S N shares osid' (sk • g) oldThreshold n draw i).expectingMessagesFrom
        (recv g (hround g S N shares osid' (sk • g) oldThreshold n draw i)) (inbox i) =
        .ok (BMap.tabulate (S.erase i) fun j => hmsg g shares osid' n draw sid j i) := by
      have : (hround g S N shares osid' (sk • g) oldThreshold n draw i).expectingMessagesFrom = S.erase i := by simp [hround, hi]
      rw [this]
      refine collect_others (hin i hi) fun j hj _ => ?_
      simp only [recv, hround, hi, hj, if_true, recvGet, hsid, BMap.get?_tabulate, Out.ofOption_some, Out.bind_ok, hmsg, publicEvaluate]
      rw [evaluatePolynomial_eq (by simp [publicPolynomial, hlen]; omega), Out.bind_ok, polyValue_publicPolynomial]
      simp
    rw [e1, Out.bind_ok]
    have hinj' : Set.InjOn (fun j => (hmsg g shares osid' n draw sid j i).oldShareId) S := hinjS
    have evk : vkeySum (BMap.tabulate S fun j => hmsg g shares osid' n draw sid j i) =
        .ok (∑ j ∈ S, lagrange0 (S.image osid) (osid j) • (shares j).secretShare • g) := by
      rw [vkeySum_tabulate hinj' (hd := fun j => (shares j).secretShare • g)
        (fun j _ => by simp [hmsg, publicPolynomial, poly, randomPolynomial]), himg]
      exact congrArg Out.ok (Finset.sum_congr rfl fun j hj => by rw [hos j hj]; rfl)
    have hnh : (hround g S N shares osid' (sk • g) oldThreshold n draw i).newHolder = some ⟨sk • g, oldThreshold, S⟩ := by simp [hround, hi]
    have : finalize (hround g S N shares osid' (sk • g) oldThreshold n draw i) (BMap.tabulate (S.erase i) fun j => hmsg g shares osid' n draw sid j i) = .panic := by
      unfold finalize
      rw [hnh]
      simp only
      rw [show (finGet (hround g S N shares osid' (sk • g) oldThreshold n draw i).newShareIds
        (hround g S N shares osid' (sk • g) oldThreshold n draw i).myId) = .ok (sid i) from by simp [hround, finGet, hsid, hi], Out.bind_ok,
        honest_withOwn, Out.bind_ok, evk, Out.bind_ok]
      exact if_pos (Ne.symm hfew)
    rw [this]; rfl

/-- **C39, excluded case.** With a new threshold of 0 or 1, which `KeyResharing::new` accepts, every honest new holder panics. -/
theorem C39_threshold_one_panics (g : G) (ids S N : Finset I) (t n : Nat) (shares : I → ThresholdKeyShare I F G) (sk : F)
    (hold : ThresholdSharing g ids t shares sk) (hS : S ⊆ ids) (ht : t ≤ S.card) (hn : n ≤ 1) (oldThreshold : Nat) (draw : I → Nat → F) :
    ∃ r : I → Round1 I F G, (∀ i ∈ S ∪ N, start g (HonestInputs S N shares (sk • g) oldThreshold n i) i (draw i) = .ok (r i)) ∧
      ∃ m : I → I → Msg F G, (∀ j ∈ S, ∀ i ∈ N, msg (r j) i = .ok (some (m j i))) ∧
        ∀ inbox : I → List (I × Msg F G), (∀ i ∈ N, FromOthers S i (fun j => m j i) (inbox i)) → ∀ i ∈ N, run g (r i) (inbox i) = .panic := by
  obtain ⟨htc, osid, otail, holen, hoinj, hall⟩ := hold
  obtain ⟨sid, hsid, hsidl⟩ := newShareIds_tabulate (F := F) N
  have hinjS : Set.InjOn osid S := fun a ha b hb h => hoinj (hS ha) (hS hb) h
  have hlen : ∀ j, (poly shares n draw j).length = 1 := by
    intro j; simp [poly, randomPolynomial]; omega
  refine ⟨hround g S N shares osid (sk • g) oldThreshold n draw, ?_, hmsg g shares osid n draw sid, ?_, ?_⟩
  · intro i hi
    exact honest_start g hS (fun i hi => (hall i hi).1) (fun i hi => (hall i hi).2.2.2.2.1 i hi) _ _ _ _ hi
  · intro j hj i hi
    simp only [msg, hround, hj, if_true, finGet, hsid, BMap.get?_tabulate, hi, Out.ofOption_some, Out.bind_ok, evaluate]
    rw [horner_eq (poly_ne_nil _ _ _ _), Out.bind_ok]; rfl
  · intro inbox hin i hi
    have hexp : (hround g S N shares osid (sk • g) oldThreshold n draw i).expectingMessagesFrom = S.erase i := by simp [hround, hi]
    have hrecv : ∀ j ∈ S, recv g (hround g S N shares osid (sk • g) oldThreshold n draw i) j (hmsg g shares osid n draw sid j i) = .panic := by
      intro j hj
      simp only [recv, hround, hi, hj, if_true, recvGet, hsid, BMap.get?_tabulate, Out.ofOption_some, Out.bind_ok, hmsg, publicEvaluate]
      rw [evaluatePolynomial_panic (by simp [publicPolynomial, hlen])]; rfl
    unfold run
    rw [hexp]
    obtain ⟨nd, mem⟩ := hin i hi
    rcases (S.erase i).eq_empty_or_nonempty with hemp | ⟨j, hj⟩
    · have e1 : collect (S.erase i) (recv g (hround g S N shares osid (sk • g) oldThreshold n draw i)) (inbox i) =
          .ok (BMap.tabulate (S.erase i) fun j => hmsg g shares osid n draw sid j i) := by
        refine collect_others (hin i hi) fun j hj hne => ?_
        exact absurd (Finset.mem_erase.2 ⟨hne, hj⟩) (by simp [hemp])
      rw [e1, Out.bind_ok]
      have hiS : i ∈ S := by
        by_contra h
        rw [Finset.erase_eq_of_notMem h] at hemp
        rw [hemp] at ht
        simp at ht; omega
      have hinj' : Set.InjOn (fun j => (hmsg g shares osid n draw sid j i).oldShareId) S := hinjS
      have hsk : ∑ j ∈ S, lagrange0 (S.image osid) (osid j) • (shares j).secretShare = sk := by
        rw [← lagrange0_image (G := F) hinjS sk otail (by omega)]
        exact Finset.sum_congr rfl fun j hj => by rw [(hall j (hS hj)).2.2.1]
      have evk : vkeySum (BMap.tabulate S fun j => hmsg g shares osid n draw sid j i) = .ok (sk • g) := by
        rw [vkeySum_tabulate hinj' (hd := fun j => (shares j).secretShare • g)
          (fun j _ => by simp [hmsg, publicPolynomial, poly, randomPolynomial])]
        refine congrArg Out.ok ?_
        conv_rhs => rw [← hsk, Finset.sum_smul]
        exact Finset.sum_congr rfl fun j _ => by rw [smul_assoc]; rfl
      have hnh : (hround g S N shares osid (sk • g) oldThreshold n draw i).newHolder = some ⟨sk • g, oldThreshold, S⟩ := by simp [hround, hi]
      unfold finalize
      rw [hnh]
      simp only
      rw [show (finGet (hround g S N shares osid (sk • g) oldThreshold n draw i).newShareIds
        (hround g S N shares osid (sk • g) oldThreshold n draw i).myId) = .ok (sid i) from by simp [hround, finGet, hsid, hi], Out.bind_ok,
        honest_withOwn, Out.bind_ok, evk, Out.bind_ok]
      simp only [ne_eq, not_true_eq_false, if_false]
      rw [joinSubshares_tabulate hinj', Out.bind_ok, Out.mapM'_panic_of]
      · rfl
      · have : ∀ x, joinPublic (BMap.tabulate S fun j => hmsg g shares osid n draw sid j i) x = .panic := by
          intro x
          unfold joinPublic
          rw [Out.mapM'_panic_of]
          · rfl
          · intro p hp
            rw [BMap.values_tabulate] at hp
            obtain ⟨j, _, rfl⟩ := List.mem_map.1 hp
            right
            unfold publicEvaluate
            rw [evaluatePolynomial_panic (by simp [hmsg, publicPolynomial, hlen])]; rfl
          · refine ⟨hmsg g shares osid n draw sid i i, ?_, ?_⟩
            · rw [BMap.values_tabulate]; exact List.mem_map.2 ⟨i, mem_bsetIter.2 hiS, rfl⟩
            · unfold publicEvaluate
              rw [evaluatePolynomial_panic (by simp [hmsg, publicPolynomial, hlen])]; rfl
        intro a _; right; rw [this]; rfl
      · refine ⟨(i, sid i), ?_, ?_⟩
        · show (i, sid i) ∈ (newShareIds F N).entries
          rw [hsid, ← BMap.get?_eq_some_iff]; simp [hi]
        · unfold joinPublic
          rw [Out.mapM'_panic_of]
          · rfl
          · intro p hp
            rw [BMap.values_tabulate] at hp
            obtain ⟨j, _, rfl⟩ := List.mem_map.1 hp
            right
            unfold publicEvaluate
            rw [evaluatePolynomial_panic (by simp [hmsg, publicPolynomial, hlen])]; rfl
          · refine ⟨hmsg g shares osid n draw sid i i, ?_, ?_⟩
            · rw [BMap.values_tabulate]; exact List.mem_map.2 ⟨i, mem_bsetIter.2 hiS, rfl⟩
            · unfold publicEvaluate
              rw [evaluatePolynomial_panic (by simp [hmsg, publicPolynomial, hlen])]; rfl
    · rw [collect_panic_of nd]
      · rfl
      · ext k
        rw [List.mem_toFinset, List.mem_map, Finset.mem_erase]
        constructor
        · rintro ⟨a, ha, rfl⟩; have := (mem a).1 ha; exact ⟨this.2.1, this.1⟩
        · rintro ⟨h1, h2⟩; exact ⟨(k, hmsg g shares osid n draw sid k i), (mem _).2 ⟨h2, h1, rfl⟩, rfl⟩
      · intro a ha
        have := (mem a).1 ha
        right; rw [this.2.2]; exact hrecv _ this.1
      · rw [Finset.mem_erase] at hj
        exact ⟨(j, hmsg g shares osid n draw sid j i), (mem _).2 ⟨hj.2, hj.1, rfl⟩, hrecv j hj.2⟩

/-! ### Misbehaving old holders -/

/-- `j` contributed the public polynomial `pol` under the old share id `osid`, as party `r.myId` saw it. -/
def Saw (r : Round1 I F G) (inbox : List (I × Msg F G)) (j : I) (pol : List G) (osid : F) : Prop :=
  (j = r.myId ∧ ∃ oh, r.oldHolder = some oh ∧ oh.publicPolynomial = pol ∧ oh.shareId = osid) ∨
  (j ≠ r.myId ∧ ∃ s, (j, (⟨pol, osid, s⟩ : Msg F G)) ∈ inbox)

theorem resharing_start_ok {g : G} {inp : Inputs I F G} {me : I} {draw : Nat → F} {r : Round1 I F G} (h : start g inp me draw = .ok r) :
    r.newHolder = inp.newHolder ∧ r.newShareIds = newShareIds F inp.newHolders ∧ r.newThreshold = inp.newThreshold ∧ r.myId = me ∧
      (∀ nh, inp.newHolder = some nh → r.expectingMessagesFrom = nh.oldHolders.erase me) ∧
      (inp.oldHolder = none → r.oldHolder = none) ∧
      (∀ ks, inp.oldHolder = some ks → ∃ s, r.oldHolder = some ⟨s, randomPolynomial ks.secretShare inp.newThreshold draw,
        publicPolynomial g (randomPolynomial ks.secretShare inp.newThreshold draw)⟩) := by
  unfold start at h
  split at h
  · simp at h
  · simp only [Out.bind_eq_ok] at h
    obtain ⟨oh, hoh, h⟩ := h
    cases h
    refine ⟨rfl, rfl, rfl, rfl, ?_, ?_, ?_⟩
    · intro nh hnh; simp [hnh]
    · intro hn; rw [hn] at hoh; simp at hoh; exact hoh.symm
    · intro ks hks
      rw [hks] at hoh
      simp only [Out.bind_eq_ok] at hoh
      obtain ⟨s, _, h2⟩ := hoh
      cases h2
      exact ⟨s, rfl⟩

/-- Everything a finished run tells. `P` are the contributions, including the party's own. -/
theorem resharing_run_ok {g : G} {inp : Inputs I F G} {me : I} {draw : Nat → F} {r : Round1 I F G} (hs : start g inp me draw = .ok r)
    {nh : NewHolder I G} (hnh : inp.newHolder = some nh) (hold : inp.oldHolder.isSome → me ∈ nh.oldHolders) {inbox : List (I × Msg F G)}
    {res : Option (ThresholdKeyShare I F G)} (h : run g r inbox = .ok res) :
    ∃ (P : BMap I (Msg F G)) (myId : F) (ks : ThresholdKeyShare I F G), res = some ks ∧ (newShareIds F inp.newHolders).get? me = some myId ∧
      P.keySet = nh.oldHolders ∧
      (∀ j p, P.get? j = some p → Saw r inbox j p.publicPolynomial p.oldShareId ∧ 1 < p.publicPolynomial.length ∧
        polyValue p.publicPolynomial myId = p.subshare • g) ∧
      vkeySum P = .ok nh.verifyingKey ∧ joinSubshares nh.oldHolders P = .ok ks.secretShare ∧ ks.owner = me ∧ ks.threshold = inp.newThreshold ∧
      ks.shareIds = newShareIds F inp.newHolders ∧ ks.publicShares.keySet = inp.newHolders ∧
      ∀ i x, (newShareIds F inp.newHolders).get? i = some x → ∃ p, joinPublic P x = .ok p ∧ ks.publicShares.get? i = some p := by
  obtain ⟨e1, e2, e3, e4, e5, e6, e7⟩ := resharing_start_ok hs
  unfold run at h
  simp only [Out.bind_eq_ok] at h
  obtain ⟨pls, hc, hf⟩ := h
  rw [e5 nh hnh] at hc
  rw [finalizeResult_eq_ok] at hf
  unfold finalize at hf
  rw [e1, hnh] at hf
  simp only [Out.bind_eq_ok] at hf
  obtain ⟨myId, hid, P, hP, vk, hvk, hf⟩ := hf
  split at hf
  · simp at hf
  rename_i hvk'
  rw [ne_eq, not_not] at hvk'
  simp only [Out.bind_eq_ok] at hf
  obtain ⟨sec, hsec, pl, hpl, hf⟩ := hf
  cases hf
  rw [e2, e4] at hid
  simp only [finGet, Out.ofOption_eq_ok] at hid
  obtain ⟨sid, hsid, _⟩ := newShareIds_tabulate (F := F) inp.newHolders
  obtain ⟨nd, ex, kp, al⟩ := collect_eq_ok.1 hc
  have hpls : ∀ j p, pls.get? j = some p → (j, p) ∈ inbox ∧ recv g r j p = .ok p ∧ j ≠ me := by
    intro j p hjp
    have hj : j ∈ nh.oldHolders.erase me := by rw [← kp, BMap.mem_keySet, BMap.mem_keys_iff]; exact ⟨p, hjp⟩
    obtain ⟨x, p', h1, h2, h3⟩ := collect_mem hc hj
    rw [hjp] at h3
    cases h3
    have : p = x := by
      unfold recv at h2
      rw [e1, hnh] at h2
      simp only at h2
      split at h2
      · simp only [Out.bind_eq_ok] at h2
        obtain ⟨_, _, _, _, h2⟩ := h2
        split at h2
        · simp at h2
        · exact (Out.ok.inj h2).symm
      · simp at h2
    subst this
    exact ⟨h1, h2, Finset.ne_of_mem_erase hj⟩
  have hrecv : ∀ j p, pls.get? j = some p → 1 < p.publicPolynomial.length ∧ polyValue p.publicPolynomial myId = p.subshare • g := by
    intro j p hjp
    have h2 := (hpls j p hjp).2.1
    unfold recv at h2
    rw [e1, hnh] at h2
    simp only at h2
    split at h2
    · rw [e2, e4] at h2
      simp only [Out.bind_eq_ok, recvGet, Out.ofOption_eq_ok] at h2
      obtain ⟨x, hx, v, hv, h2⟩ := h2
      rw [hid] at hx
      cases hx
      have hlen : 1 < p.publicPolynomial.length := by
        by_contra hle
        rw [publicEvaluate, evaluatePolynomial_panic (by omega)] at hv
        simp at hv
      rw [publicEvaluate, evaluatePolynomial_eq hlen] at hv
      cases hv
      split at h2
      · simp at h2
      · rename_i he; exact ⟨hlen, by simpa using he⟩
    · simp at h2
  have hPall : P.keySet = nh.oldHolders ∧ (∀ j p, P.get? j = some p → Saw r inbox j p.publicPolynomial p.oldShareId ∧
      polyValue p.publicPolynomial myId = p.subshare • g) := by
    unfold withOwn at hP
    cases ho : inp.oldHolder with
    | none =>
      rw [e6 ho] at hP
      simp only at hP
      cases hP
      have hme : me ∈ nh.oldHolders → False := by
        intro hme
        unfold joinSubshares at hsec
        simp only [Out.bind_eq_ok] at hsec
        obtain ⟨l, hl, hsec'⟩ := hsec
        clear hsec'
        rw [Out.mapM'_eq_ok_iff] at hl
        have : ∃ b, (finGet pls me).bind (fun p => (.ok (p.oldShareId, p.subshare) : Out LocalErr (F × F))) = .ok b := by
          have hm := mem_bsetIter.2 hme
          generalize bsetIter nh.oldHolders = L at hl hm
          clear hsid hid
          induction hl with
          | nil => simp at hm
          | cons h1 _ ih =>
            rcases List.mem_cons.1 hm with rfl | hm
            · exact ⟨_, h1⟩
            · exact ih hm
        obtain ⟨b, hb⟩ := this
        simp only [Out.bind_eq_ok, finGet, Out.ofOption_eq_ok] at hb
        obtain ⟨p, hp, _⟩ := hb
        exact (hpls me p hp).2.2 rfl
      refine ⟨by rw [kp]; exact Finset.erase_eq_of_notMem hme, fun j p hjp => ⟨Or.inr ⟨by rw [e4]; exact (hpls j p hjp).2.2, p.subshare, (hpls j p hjp).1⟩, (hrecv j p hjp).2⟩⟩
    | some ks =>
      obtain ⟨s, hoh⟩ := e7 ks ho
      rw [hoh] at hP
      simp only [Out.bind_eq_ok] at hP
      obtain ⟨v, hv, hP⟩ := hP
      rw [evaluate, horner_eq (by simp [randomPolynomial])] at hv
      cases hv
      cases hP
      constructor
      · rw [BMap.keySet_insert, kp, e4]
        exact Finset.insert_erase (hold (by simp [ho]))
      · intro j p hjp
        rw [BMap.get?_insert] at hjp
        split at hjp
        · rename_i hj
          cases hjp
          exact ⟨Or.inl ⟨hj, _, hoh, rfl, rfl⟩, polyValue_publicPolynomial ..⟩
        · exact ⟨Or.inr ⟨by assumption, p.subshare, (hpls j p hjp).1⟩, (hrecv j p hjp).2⟩
  rw [e2, hsid] at hpl
  have hpub : ∃ pf : I → G, (∀ i ∈ inp.newHolders, joinPublic P (sid i) = .ok (pf i)) ∧ BMap.ofList pl = BMap.tabulate inp.newHolders pf := by
    have hforall : ∀ i ∈ inp.newHolders, ∃ p, joinPublic P (sid i) = .ok p := by
      intro i hi
      have := Out.mapM'_eq_ok_iff.1 hpl
      unfold BMap.tabulate at this
      rw [List.forall₂_map_left_iff] at this
      have hm := mem_bsetIter.2 hi
      generalize bsetIter inp.newHolders = L at this hm
      clear hsid hpl hid
      induction this with
      | nil => simp at hm
      | cons h1 _ ih =>
        rcases List.mem_cons.1 hm with rfl | hm
        · simp only [Out.bind_eq_ok] at h1
          obtain ⟨p, hp, _⟩ := h1
          exact ⟨p, hp⟩
        · exact ih hm
    let pf : I → G := fun i => match joinPublic P (sid i) with | .ok p => p | _ => 0
    have hpf : ∀ i ∈ inp.newHolders, joinPublic P (sid i) = .ok (pf i) := by
      intro i hi
      obtain ⟨p, hp⟩ := hforall i hi
      simp only [pf, hp]
    refine ⟨pf, hpf, ?_⟩
    have : Out.mapM' (fun p : I × F => (joinPublic P p.2).bind fun s => (.ok (p.1, s) : Out LocalErr (I × G)))
        (BMap.tabulate inp.newHolders sid).entries = .ok ((bsetIter inp.newHolders).map fun k => (k, pf k)) := by
      rw [Out.mapM'_eq_ok_iff]
      unfold BMap.tabulate
      rw [List.forall₂_map_left_iff, List.forall₂_map_right_iff, List.forall₂_same]
      intro k hk
      simp [hpf k (mem_bsetIter.1 hk)]
    rw [this] at hpl
    cases hpl
    exact ofList_map_bsetIter _ _
  obtain ⟨pf, hpf, hpl'⟩ := hpub
  have hlenall : ∀ j p, P.get? j = some p → 1 < p.publicPolynomial.length := by
    intro j p hjp
    by_contra hle
    have hme : me ∈ inp.newHolders := by
      rw [hsid, BMap.get?_tabulate] at hid
      by_contra hn; rw [if_neg hn] at hid; simp at hid
    have := hpf me hme
    unfold joinPublic at this
    simp only [Out.bind_eq_ok] at this
    obtain ⟨l, hl, hjp'⟩ := this
    clear hjp'
    rw [Out.mapM'_eq_ok_iff] at hl
    have hm : p ∈ P.values := List.mem_map.2 ⟨(j, p), BMap.get?_eq_some_iff.1 hjp, rfl⟩
    generalize P.values = L at hl hm
    clear hpl
    induction hl with
    | nil => simp at hm
    | cons h1 _ ih =>
      rcases List.mem_cons.1 hm with rfl | hm
      · rw [publicEvaluate, evaluatePolynomial_panic (by omega)] at h1
        simp at h1
      · exact ih hm
  refine ⟨P, myId, _, rfl, hid, hPall.1, fun j p hjp => ⟨(hPall.2 j p hjp).1, hlenall j p hjp, (hPall.2 j p hjp).2⟩, by rw [hvk, hvk'], hsec, e4, e3, e2, ?_, ?_⟩
  · show (BMap.ofList pl).keySet = _
    rw [hpl', BMap.keySet_tabulate]
  · intro i x hx
    rw [hsid, BMap.get?_tabulate] at hx
    split at hx
    · rename_i hi
      cases hx
      refine ⟨pf i, hpf i hi, ?_⟩
      show (BMap.ofList pl).get? i = _
      rw [hpl', BMap.get?_tabulate, if_pos hi]
    · simp at hx

/-- **C40 (own share).** Whatever the old holders send, a new holder that finishes (and that, if it is an old holder, is among the
contributors it was told to expect) owns a share of the agreed threshold over exactly the new holders, and its secret share matches its own
public share. -/
theorem C40_own_share_consistent (g : G) (inp : Inputs I F G) (me : I) (draw : Nat → F) (r : Round1 I F G) (hs : start g inp me draw = .ok r)
    (nh : NewHolder I G) (hnh : inp.newHolder = some nh) (hold : inp.oldHolder.isSome → me ∈ nh.oldHolders) (inbox : List (I × Msg F G))
    (res : Option (ThresholdKeyShare I F G)) (h : run g r inbox = .ok res) :
    ∃ ks, res = some ks ∧ ks.owner = me ∧ ks.threshold = inp.newThreshold ∧ ks.shareIds.keySet = inp.newHolders ∧
      ks.publicShares.keySet = inp.newHolders ∧ ks.publicShares.get? me = some (ks.secretShare • g) := by
  obtain ⟨P, myId, ks, rfl, hid, hk, hP, hvk, hsub, ho, ht, hsh, hpk, hpub⟩ := resharing_run_ok hs hnh hold h
  obtain ⟨sid, hsid, _⟩ := newShareIds_tabulate (F := F) inp.newHolders
  refine ⟨ks, rfl, ho, ht, by rw [hsh, hsid, BMap.keySet_tabulate], hpk, ?_⟩
  obtain ⟨p, hp, hg⟩ := hpub me myId hid
  rw [hg]
  have hv : ∀ q ∈ P.values, 1 < q.publicPolynomial.length := by
    intro q hq
    obtain ⟨e, he, rfl⟩ := List.mem_map.1 hq
    exact (hP e.1 e.2 (BMap.get?_eq_some_iff.2 he)).2.1
  rw [joinPublic_eq P myId hv] at hp
  rw [joinSubshares_eq P hk] at hsub
  cases hp
  have := Out.ok.inj hsub
  rw [← this, Finset.sum_smul]
  refine congrArg some (Finset.sum_congr rfl fun a ha => ?_)
  obtain ⟨j, q, hq, _, hb⟩ := byId_mem ha
  rw [hb, Option.getD_some, (hP j q hq).2.2, smul_smul]

/-- **C40 (agreement).** Two new holders of the same session that finish and that saw the same broadcasts have the same public shares. -/
theorem C40_public_shares_agree (g : G) (N S : Finset I) (inp inp' : Inputs I F G) (me me' : I) (draw draw' : Nat → F) (r r' : Round1 I F G)
    (hs : start g inp me draw = .ok r) (hs' : start g inp' me' draw' = .ok r') (hN : inp.newHolders = N) (hN' : inp'.newHolders = N)
    (nh nh' : NewHolder I G) (hnh : inp.newHolder = some nh) (hnh' : inp'.newHolder = some nh') (hS : nh.oldHolders = S) (hS' : nh'.oldHolders = S)
    (hold : inp.oldHolder.isSome → me ∈ S) (hold' : inp'.oldHolder.isSome → me' ∈ S) (inbox inbox' : List (I × Msg F G))
    (hsame : ∀ j ∈ S, ∀ pol osid pol' osid', Saw r inbox j pol osid → Saw r' inbox' j pol' osid' → pol = pol' ∧ osid = osid')
    (ks ks' : ThresholdKeyShare I F G) (h : run g r inbox = .ok (some ks)) (h' : run g r' inbox' = .ok (some ks')) :
    ks.publicShares = ks'.publicShares ∧ ks.shareIds = ks'.shareIds := by
  subst hS hN
  obtain ⟨P, myId, k1, e, hid, hk, hP, hvk, hsub, ho, ht, hsh, hpk, hpub⟩ := resharing_run_ok hs hnh hold h
  cases e
  obtain ⟨P', myId', k2, e, hid', hk', hP', hvk', hsub', ho', ht', hsh', hpk', hpub'⟩ := resharing_run_ok hs' hnh' (by rw [hS']; exact hold') h'
  cases e
  refine ⟨?_, by rw [hsh, hsh', hN']⟩
  obtain ⟨sid, hsid, _⟩ := newShareIds_tabulate (F := F) inp.newHolders
  have hj : ∀ x, joinPublic P x = joinPublic P' x := by
    intro x
    have hkeys : P.keys = P'.keys := by
      rw [← BMap.bsetIter_keySet, ← BMap.bsetIter_keySet, hk, hk', hS']
    have hvals : (P.values.map fun p => (p.publicPolynomial, p.oldShareId)) = P'.values.map fun p => (p.publicPolynomial, p.oldShareId) := by
      have e1 : ∀ Q : BMap I (Msg F G), (Q.values.map fun p => (p.publicPolynomial, p.oldShareId)) =
          Q.keys.map fun k => (((Q.get? k).getD default).publicPolynomial, ((Q.get? k).getD default).oldShareId) := by
        intro Q
        unfold BMap.values BMap.keys
        rw [List.map_map, List.map_map]
        refine List.map_congr_left fun e he => ?_
        simp [BMap.get?_eq_some_iff.2 he]
      rw [e1, e1, hkeys]
      refine List.map_congr_left fun k hk1 => ?_
      obtain ⟨p', hp'⟩ := BMap.mem_keys_iff.1 hk1
      rw [← hkeys] at hk1
      obtain ⟨p, hp⟩ := BMap.mem_keys_iff.1 hk1
      have hkS : k ∈ nh.oldHolders := by rw [← hk, BMap.mem_keySet]; exact hk1
      have := hsame k hkS _ _ _ _ (hP k p hp).1 (hP' k p' hp').1
      rw [hp, hp', Option.getD_some, Option.getD_some, this.1, this.2]
    have e2 : ∀ Q : BMap I (Msg F G), joinPublic Q x =
        (Out.mapM' (fun q : List G × F => (publicEvaluate q.1 x).bind fun v => (.ok (q.2, v) : Out LocalErr (F × G)))
          (Q.values.map fun p => (p.publicPolynomial, p.oldShareId))).bind fun l => joinPoints (BMap.ofList l) := by
      intro Q
      unfold joinPublic
      congr 1
      generalize Q.values = L
      induction L with
      | nil => rfl
      | cons a t ih => simp only [List.map_cons, Out.mapM']; rw [ih]
    rw [e2, e2, hvals]
  ext i p
  by_cases hi : i ∈ inp.newHolders
  · obtain ⟨a, ha, hg⟩ := hpub i (sid i) (by rw [hsid]; simp [hi])
    obtain ⟨b, hb, hg'⟩ := hpub' i (sid i) (by rw [hN', hsid]; simp [hi])
    rw [← hj, ha] at hb
    cases hb
    rw [hg, hg']
  · have h1 : ks.publicShares.get? i = none := by
      rw [BMap.get?_eq_none_iff, ← BMap.mem_keySet, hpk]; exact hi
    have h2 : ks'.publicShares.get? i = none := by
      rw [BMap.get?_eq_none_iff, ← BMap.mem_keySet, hpk', hN']; exact hi
    rw [h1, h2]

/-- **C40 (key and threshold, partial).** Full property: whatever the old holders send, a new holder that finishes holds a share of the same key
under the agreed threshold. Proved: this holds whenever the claimed old share ids are distinct and no contributed polynomial has more than `n`
coefficients — two things the code does not check (see the theorems below). The public shares then lie on one polynomial with at most `n`
coefficients through the expected key, so any `n` of them give that key, and the share reports it. -/
theorem C40_key_and_threshold_partial (q : Nat) [CharP F q] (g : G) (inp : Inputs I F G) (me : I) (draw : Nat → F) (r : Round1 I F G)
    (hs : start g inp me draw = .ok r) (nh : NewHolder I G) (hnh : inp.newHolder = some nh) (hold : inp.oldHolder.isSome → me ∈ nh.oldHolders)
    (inbox : List (I × Msg F G)) (ks : ThresholdKeyShare I F G) (h : run g r inbox = .ok (some ks))
    (hdist : ∀ j k pol osid pol', Saw r inbox j pol osid → Saw r inbox k pol' osid → j = k)
    (hdeg : ∀ j pol osid, Saw r inbox j pol osid → pol.length ≤ inp.newThreshold) (hkey : nh.verifyingKey ≠ 0)
    (hn : inp.newThreshold ≤ inp.newHolders.card) (hN : inp.newHolders.card < q) :
    ks.verifyingKey = .ok nh.verifyingKey ∧
      ∃ tail : List G, tail.length < inp.newThreshold ∧ ∀ i ∈ inp.newHolders, ∃ x, ks.shareIds.get? i = some x ∧
        ks.publicShares.get? i = some (polyValue (nh.verifyingKey :: tail) x) := by
  obtain ⟨P, myId, k1, e, hid, hk, hP, hvk, hsub, ho, ht, hsh, hpk, hpub⟩ := resharing_run_ok hs hnh hold h
  cases e
  obtain ⟨sid, hsid, hsidl⟩ := newShareIds_tabulate (F := F) inp.newHolders
  have hinjN := newShareIds_injOn hN hsidl
  let m : I → Msg F G := fun j => (P.get? j).getD default
  have hget : ∀ j ∈ nh.oldHolders, P.get? j = some (m j) := by
    intro j hj
    rw [← hk, BMap.mem_keySet, BMap.mem_keys_iff] at hj
    obtain ⟨p, hp⟩ := hj
    simp [m, hp]
  have hPt : P = BMap.tabulate nh.oldHolders m := BMap.eq_tabulate_of hk hget
  have hinj : Set.InjOn (fun j => (m j).oldShareId) nh.oldHolders := by
    intro a ha b hb hab
    have h1 := (hP a _ (hget a ha)).1
    have h2 := (hP b _ (hget b hb)).1
    simp only at hab
    rw [← hab] at h2
    exact hdist a b _ _ _ h1 h2
  have hlen : ∀ j ∈ nh.oldHolders, 1 < (m j).publicPolynomial.length := fun j hj => (hP j _ (hget j hj)).2.1
  have hhd : ∀ j ∈ nh.oldHolders, (m j).publicPolynomial.head? = some ((m j).publicPolynomial.headD 0) := by
    intro j hj
    have := hlen j hj
    cases hc : (m j).publicPolynomial with
    | nil => rw [hc] at this; simp at this
    | cons a t => rfl
  have hne : nh.oldHolders.Nonempty := by
    by_contra hemp
    rw [Finset.not_nonempty_iff_eq_empty] at hemp
    rw [hPt, vkeySum_tabulate hinj hhd, hemp] at hvk
    simp at hvk
    exact hkey hvk.symm
  obtain ⟨j0, hj0⟩ := hne
  have hn0 : 0 < inp.newThreshold := by
    have := hdeg _ _ _ (hP j0 _ (hget j0 hj0)).1
    have := hlen j0 hj0
    omega
  rw [hPt, vkeySum_tabulate hinj hhd] at hvk
  obtain ⟨tail, hcomb, htail⟩ := combine_eq_cons nh.oldHolders
    (fun j => lagrange0 (nh.oldHolders.image fun j => (m j).oldShareId) (m j).oldShareId) (fun j => (m j).publicPolynomial) hn0
    (fun j => (m j).publicPolynomial.headD 0) hhd
  rw [Out.ok.inj hvk] at hcomb
  have hpubs : ∀ i ∈ inp.newHolders, ks.publicShares.get? i = some (polyValue (nh.verifyingKey :: tail) (sid i)) := by
    intro i hi
    obtain ⟨p, hp, hg⟩ := hpub i (sid i) (by rw [hsid]; simp [hi])
    rw [hPt, joinPublic_tabulate hinj hlen] at hp
    rw [hg, ← Out.ok.inj hp, ← hcomb, polyValue_combine _ _ _ _ (fun j hj => hdeg _ _ _ (hP j _ (hget j hj)).1)]
  refine ⟨?_, tail, htail, fun i hi => ⟨sid i, by rw [hsh, hsid]; simp [hi], hpubs i hi⟩⟩
  have es : ks = ⟨ks.owner, inp.newThreshold, ks.secretShare, BMap.tabulate inp.newHolders sid,
      BMap.tabulate inp.newHolders fun i => polyValue (nh.verifyingKey :: tail) (sid i)⟩ := by
    calc ks = ⟨ks.owner, ks.threshold, ks.secretShare, ks.shareIds, ks.publicShares⟩ := rfl
      _ = _ := by rw [ht, hsh, hsid, BMap.eq_tabulate_of hpk hpubs]
  obtain ⟨T, hT, hTc, hv⟩ := thresholdVk_tabulate (o := ks.owner) hn ks.secretShare hinjN (fun i => polyValue (nh.verifyingKey :: tail) (sid i))
  unfold ThresholdKeyShare.verifyingKey
  rw [es, hv, Out.bind_ok, lagrange0_image (fun a ha b hb h => hinjN (hT ha) (hT hb) h) _ _ (by omega)]
  unfold toVerifyingKey
  rw [if_neg hkey]; rfl

/-- **C47 (resharing): one message suffices.** In any run that would finish, any single contributor can instead make the new holder panic, by
sending a public polynomial with one coefficient. -/
theorem C47_resharing_remote_panic (g : G) (inp : Inputs I F G) (me : I) (draw : Nat → F) (r : Round1 I F G) (hs : start g inp me draw = .ok r)
    (nh : NewHolder I G) (hnh : inp.newHolder = some nh) (inbox : List (I × Msg F G)) (res : Option (ThresholdKeyShare I F G))
    (h : run g r inbox = .ok res) (j : I) (m : Msg F G) (hj : (j, m) ∈ inbox) :
    ∃ m' : Msg F G, run g r (inbox.map fun a => if a.1 = j then (j, m') else a) = .panic := by
  obtain ⟨e1, e2, e3, e4, e5, e6, e7⟩ := resharing_start_ok hs
  unfold run at h
  simp only [Out.bind_eq_ok] at h
  obtain ⟨pls, hc, hf⟩ := h
  obtain ⟨nd, ex, kp, al⟩ := collect_eq_ok.1 hc
  refine ⟨⟨[0], 0, 0⟩, ?_⟩
  unfold run
  have hfst : (inbox.map fun a => if a.1 = j then (j, (⟨[0], 0, 0⟩ : Msg F G)) else a).map Prod.fst = inbox.map Prod.fst := by
    rw [List.map_map]
    refine List.map_congr_left fun a _ => ?_
    simp only [Function.comp]
    split <;> simp_all
  have hbad : recv g r j ⟨[0], 0, 0⟩ = .panic := by
    obtain ⟨p, hp, _⟩ := al _ hj
    unfold recv at hp ⊢
    rw [e1, hnh] at hp ⊢
    simp only at hp ⊢
    split at hp
    · rename_i hm
      rw [if_pos hm]
      simp only [Out.bind_eq_ok] at hp
      obtain ⟨x, hx, _⟩ := hp
      rw [hx, Out.bind_ok, publicEvaluate, evaluatePolynomial_panic (by simp)]; rfl
    · simp at hp
  rw [collect_panic_of (by rw [hfst]; exact nd) (by rw [hfst]; exact ex)]
  · rfl
  · intro a ha
    obtain ⟨b, hb, rfl⟩ := List.mem_map.1 ha
    by_cases hbj : b.1 = j
    · rw [if_pos hbj]; exact Or.inr hbad
    · rw [if_neg hbj]
      obtain ⟨p, hp, _⟩ := al _ hb
      exact Or.inl ⟨p, hp⟩
  · refine ⟨(j, ⟨[0], 0, 0⟩), List.mem_map.2 ⟨(j, m), hj, by simp⟩, hbad⟩

/-- **C48 (resharing).** The result does not depend on the order in which the messages arrive. -/
theorem C48_resharing_order (g : G) (r : Round1 I F G) (inbox inbox' : List (I × Msg F G)) (hp : inbox.Perm inbox')
    (res : Option (ThresholdKeyShare I F G)) : run g r inbox = .ok res ↔ run g r inbox' = .ok res := by
  simp only [run, Out.bind_eq_ok, C48_round_order _ _ _ _ hp]

/-- **C45 is false of resharing.** A rejected message is never confirmed as a fault by a third party: the check is not implemented. -/
theorem C45_resharing_unverifiable (g : G) (r : Round1 I F G) (j : I) (m : Msg F G) (e : Err) (_h : recv g r j m = .err (.protocol e)) :
    evidence e j m ≠ .ok true := by simp [evidence]

/-! ### Concrete cases and counterexamples -/

section
attribute [local instance] Toy.fact11 Toy.order11

/-- A 2-of-3 sharing of the key 5 by the polynomial 5 + 3X. -/
def reshareCase (i : Nat) : ThresholdKeyShare Nat (ZMod 11) (ZMod 11) :=
  ⟨i, 2, 5 + 3 * (i : ZMod 11), BMap.ofList [(1, 1), (2, 2), (3, 3)], BMap.ofList [(1, 8), (2, 0), (3, 3)]⟩

/-- Party 4 becomes a new holder together with 2 and 3; the old holders 1 and 2 contribute. -/
private def inputs4 : Inputs Nat (ZMod 11) (ZMod 11) := HonestInputs {1, 2} {2, 3, 4} reshareCase 5 2 2 4
private def round4 : Round1 Nat (ZMod 11) (ZMod 11) := ⟨none, some ⟨5, 2, {1, 2}⟩, newShareIds (ZMod 11) {2, 3, 4}, 2, 4, ∅, {1, 2}⟩

example : start (1 : ZMod 11) inputs4 4 (fun _ => 0) = .ok round4 := by rfl

/-- The honest messages: polynomials 8 + 4X and 0 + 6X, party 4 has the new share id 3. The result shares 5 by 5 + 2X. -/
example : run (1 : ZMod 11) round4 [(2, ⟨[0, 6], 2, 7⟩), (1, ⟨[8, 4], 1, 9⟩)] =
    .ok (some ⟨4, 2, 0, BMap.ofList [(2, 1), (3, 2), (4, 3)], BMap.ofList [(2, 7), (3, 9), (4, 0)]⟩) := by decide +kernel

/-- A subshare that does not match the polynomial is attributed to its sender. -/
example : run (1 : ZMod 11) round4 [(2, ⟨[0, 6], 2, 8⟩), (1, ⟨[8, 4], 1, 9⟩)] = .err (.fault 2 .subshareMismatch) := by decide +kernel

theorem reshareCase_sharing : ThresholdSharing (1 : ZMod 11) {1, 2, 3} 2 reshareCase 5 := by
  refine ⟨by decide, fun i => (i : ZMod 11), [3], by decide, ?_, ?_⟩
  · intro a ha b hb h
    simp only [Finset.coe_insert, Finset.coe_singleton, Set.mem_insert_iff, Set.mem_singleton_iff] at ha hb
    rcases ha with rfl | rfl | rfl <;> rcases hb with rfl | rfl | rfl <;> first | rfl | (revert h; decide +kernel)
  · have : ∀ i, polyValue ([5, 3] : List (ZMod 11)) (i : ZMod 11) = 5 + 3 * i := by
      intro i; simp [polyValue_cons, polyValue_nil, mul_comm]
    intro i hi
    refine ⟨rfl, rfl, ?_, by simp [reshareCase]; decide +kernel, ?_, by simp [reshareCase]; decide +kernel, ?_⟩
    · rw [this]; rfl
    · intro j hj; revert j; revert i; decide +kernel
    · intro j hj; revert j; revert i; decide +kernel

/-- `C39_threshold_too_large`: party 4 and party 5 become the only new holders, with threshold 3. -/
example (draw : Nat → Nat → ZMod 11) := C39_threshold_too_large 11 (1 : ZMod 11) {1, 2, 3} {1, 2} {4, 5} 2 3 reshareCase 5 reshareCase_sharing (by decide) (by decide) (by decide) (by decide)
  (by decide) 2 draw

/-- With the polynomials 8 + 4X + X² and 6X + 3X² of the old holders 1 and 2, the two new holders end up with the key 5 only as parts of a sharing of three; each of them reports
another key and, without debug assertions, converts its share to one of that other key. -/
example : ∃ ks : ThresholdKeyShare Nat (ZMod 11) (ZMod 11),
    run (1 : ZMod 11) (⟨none, some ⟨5, 2, {1, 2}⟩, newShareIds (ZMod 11) {4, 5}, 3, 4, ∅, {1, 2}⟩) [(2, ⟨[0, 6, 3], 2, 9⟩), (1, ⟨[8, 4, 1], 1, 2⟩)] = .ok (some ks) ∧
      ks.verifyingKey = .ok 7 ∧ ∃ full, ks.toKeyShare false {4, 5} = .ok full ∧ (full.verifyingKey : Out Unit _) = .ok 7 := by
  refine ⟨⟨4, 3, 6, BMap.ofList [(4, 1), (5, 2)], BMap.ofList [(4, 6), (5, 5)]⟩, ?_, ?_, ⟨4, 1, BMap.ofList [(4, 1), (5, 6)]⟩, ?_⟩ <;> decide +kernel

/-- `C39_too_few_old_holders`: only old holder 1 contributes. -/
example (draw : Nat → Nat → ZMod 11) := C39_too_few_old_holders (1 : ZMod 11) {1, 2, 3} {1} {4, 5} 2 2 reshareCase 5 reshareCase_sharing (by decide) (by decide) (fun i : Nat => (i : ZMod 11))
  (by decide +kernel) (by decide +kernel) 2 draw

/-- **C40 is false of the code: the threshold is not enforced.** With agreed threshold 2, a contributor that sends a polynomial with three coefficients
is accepted; the new holder finishes, but its share reports a key different from the one it was told to expect. -/
theorem C40_degree_not_enforced : ∃ (inp : Inputs Nat (ZMod 11) (ZMod 11)) (me : Nat) (r : Round1 Nat (ZMod 11) (ZMod 11)) (nh : NewHolder Nat (ZMod 11))
    (inbox : List (Nat × Msg (ZMod 11) (ZMod 11))) (ks : ThresholdKeyShare Nat (ZMod 11) (ZMod 11)),
    start (1 : ZMod 11) inp me (fun _ => 0) = .ok r ∧ inp.newHolder = some nh ∧ inp.oldHolder = none ∧ run (1 : ZMod 11) r inbox = .ok (some ks) ∧
      ks.threshold = 2 ∧ ks.verifyingKey ≠ .ok nh.verifyingKey ∧ (inbox.map fun a => a.2.oldShareId).Nodup := by
  refine ⟨inputs4, 4, round4, ⟨5, 2, {1, 2}⟩, [(2, ⟨[0, 6, 1], 2, 5⟩), (1, ⟨[8, 4], 1, 9⟩)],
    ⟨4, 2, 2, BMap.ofList [(2, 1), (3, 2), (4, 3)], BMap.ofList [(2, 6), (3, 5), (4, 2)]⟩, rfl, rfl, rfl, ?_⟩
  decide +kernel

/-- **C40 is false of the code: old share ids are not checked.** A contributor that claims the share id of another one can move the key: the new
holder finishes with a share of a key different from the expected one, although all polynomials have the agreed number of coefficients. -/
theorem C40_duplicate_share_ids : ∃ (inp : Inputs Nat (ZMod 11) (ZMod 11)) (me : Nat) (r : Round1 Nat (ZMod 11) (ZMod 11)) (nh : NewHolder Nat (ZMod 11))
    (inbox : List (Nat × Msg (ZMod 11) (ZMod 11))) (ks : ThresholdKeyShare Nat (ZMod 11) (ZMod 11)),
    start (1 : ZMod 11) inp me (fun _ => 0) = .ok r ∧ inp.newHolder = some nh ∧ inp.oldHolder = none ∧ run (1 : ZMod 11) r inbox = .ok (some ks) ∧
      ks.verifyingKey ≠ .ok nh.verifyingKey ∧ ∀ a ∈ inbox, a.2.publicPolynomial.length = inp.newThreshold := by
  refine ⟨inputs4, 4, round4, ⟨5, 2, {1, 2}⟩, [(2, ⟨[8, 6], 1, 4⟩), (1, ⟨[8, 4], 1, 9⟩)],
    ⟨4, 2, 4, BMap.ofList [(2, 1), (3, 2), (4, 3)], BMap.ofList [(2, 3), (3, 9), (4, 4)]⟩, rfl, rfl, rfl, ?_⟩
  decide +kernel

end

end Synedrion.Props
