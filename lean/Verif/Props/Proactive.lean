import Verif.Lemmas.Proactive
import Verif.Props.SharingHiding
import Verif.Props.KeyRefresh
import Verif.Props.KeyResharing

/-!
# C76: shares from different periods
-/

set_option linter.unusedSectionVars false

namespace Synedrion.Props

open Spec Shamir

section
variable {I F : Type} [LinearOrder I] [Field F] [LinearOrder F]

/-- The shift of the draws that moves the difference of two secrets along the parties `safe`. -/
private def move (ids : Finset I) (k : Nat) (safe : Nat → I) (δ : F) (n : HistoryDraw ids k) : F :=
  match n with
  | (none, p) => onlyFor ids δ (safe 0) p
  | (some (e, j), p) => if j.1 = safe e then onlyFor ids (-δ) (safe e) p + onlyFor ids δ (safe (e + 1)) p else 0

private theorem part_zero {ids : Finset I} {i : I} (hi : i ∈ ids) : part ids (0 : F) (fun _ => 0) i = 0 := by
  rw [part_eq hi]; split <;> simp

private theorem contribution_move {ids : Finset I} {k : Nat} {safe : Nat → I} (hs : ∀ e ≤ k, safe e ∈ ids) (δ : F) (ω : HistoryDraw ids k → F) (e : Fin k)
    (j : {i // i ∈ ids}) {i : I} (hi : i ∈ ids) :
    contribution ids k (fun n => ω n + move ids k safe δ n) e j i =
      contribution ids k ω e j i + if j.1 = safe e then (if i = safe e then -δ else 0) + (if i = safe (e + 1) then δ else 0) else 0 := by
  unfold contribution
  have h := part_add (ids := ids) (s := (0 : F)) (s' := 0) (c := fun p => ω (some (e, j), p)) (c' := fun p => move ids k safe δ (some (e, j), p)) hi
  rw [add_zero] at h
  rw [h]
  congr 1
  simp only [move]
  split
  · have h2 := part_add (ids := ids) (s := -δ) (s' := δ) (c := onlyFor ids (-δ) (safe e)) (c' := onlyFor ids δ (safe (e + 1))) hi
    rw [neg_add_cancel] at h2
    rw [h2, part_onlyFor (hs e e.2.le) hi, part_onlyFor (hs (e + 1) e.2) hi]
  · exact part_zero hi

private theorem share_move {ids : Finset I} {k : Nat} {safe : Nat → I} (hs : ∀ e ≤ k, safe e ∈ ids) (δ secret : F) (ω : HistoryDraw ids k → F) {i : I} (hi : i ∈ ids) :
    ∀ e, e ≤ k → shareAfter ids k (secret + δ) (fun n => ω n + move ids k safe δ n) e i = shareAfter ids k secret ω e i + if i = safe e then δ else 0 := by
  intro e he
  have hsum : ∀ e', e' ≤ k → (∑ x : Fin k, if x.1 < e' then ∑ j, contribution ids k (fun n => ω n + move ids k safe δ n) x j i else 0) =
      (∑ x : Fin k, if x.1 < e' then ∑ j, contribution ids k ω x j i else 0) - (if i = safe 0 then δ else 0) + if i = safe e' then δ else 0 := by
    intro e'
    induction e' with
    | zero => intro _; simp
    | succ n ih =>
      intro hn
      have step : ∀ f : Fin k → F, (∑ x : Fin k, if x.1 < n + 1 then f x else 0) = (∑ x : Fin k, if x.1 < n then f x else 0) + f ⟨n, hn⟩ := by
        intro f
        have : ∀ x : Fin k, (if x.1 < n + 1 then f x else 0) = (if x.1 < n then f x else 0) + if x = ⟨n, hn⟩ then f x else 0 := by
          intro x
          by_cases h1 : x.1 < n
          · have : x ≠ ⟨n, hn⟩ := fun e => by rw [e] at h1; exact absurd h1 (lt_irrefl _)
            simp [h1, this, Nat.lt_succ_of_lt h1]
          · by_cases h2 : x = ⟨n, hn⟩
            · subst h2; simp
            · have : ¬ x.1 < n + 1 := fun h => h2 (Fin.ext (by simp; omega))
              simp [h1, h2, this]
        rw [Finset.sum_congr rfl fun x _ => this x, Finset.sum_add_distrib, Finset.sum_ite_eq' Finset.univ, if_pos (Finset.mem_univ _)]
      rw [step, step, ih (by omega)]
      have hone : ∑ j, contribution ids k (fun m => ω m + move ids k safe δ m) ⟨n, hn⟩ j i =
          ∑ j, contribution ids k ω ⟨n, hn⟩ j i + ((if i = safe n then -δ else 0) + (if i = safe (n + 1) then δ else 0)) := by
        rw [Finset.sum_congr rfl fun j _ => contribution_move hs δ ω ⟨n, hn⟩ j hi, Finset.sum_add_distrib]
        congr 1
        rw [Finset.sum_eq_single ⟨safe n, hs n (by omega)⟩]
        · simp
        · intro j _ hj
          rw [if_neg fun h => hj (Subtype.ext h)]
        · simp
      rw [hone]
      by_cases h : i = safe n <;> simp [h] <;> ring
  unfold shareAfter
  rw [hsum e he]
  have h := part_add (ids := ids) (s := secret) (s' := δ) (c := fun p => ω (none, p)) (c' := fun p => move ids k safe δ (none, p)) hi
  rw [h]
  have h2 : part ids δ (fun p => move ids k safe δ (none, p)) i = if i = safe 0 then δ else 0 := part_onlyFor (hs 0 (Nat.zero_le _)) hi
  rw [h2]
  ring

/-- **C76 (refresh).** A key is dealt among `ids` and the shares are refreshed `k` times. Somebody sees the shares of some parties in each period, and all that some parties
send and receive in each refresh. If in every period one party's share is not seen, and that party is not observed in the refreshes before and after, then two keys can
be told apart with advantage at most `(2k+1)/(q-1)`, even though every single share may be seen in one period or another. -/
theorem C76_refresh_hides [Fintype F] (ids : Finset I) (k : Nat) (X : Exposure I) (hX : X.LeavesOne ids k) (secret secret' : F) :
    StatClose (((2 * k + 1 : Nat) : ℚ) * (1 / ((Fintype.card F : ℚ) - 1))) (nonZeroDraws (HistoryDraw ids k) F) (X.seen ids k secret)
      (nonZeroDraws (HistoryDraw ids k) F) (X.seen ids k secret') := by
  obtain ⟨safe, h1, h2⟩ := hX
  have hs : ∀ e ≤ k, safe e ∈ ids := fun e he => (h1 e he).1
  obtain ⟨δ, rfl⟩ : ∃ δ, secret' = secret + δ := ⟨secret' - secret, by ring⟩
  refine statClose_shift (move ids k safe δ) _ _ _ ?_ ?_
  · -- at most one draw of the dealing and two of each refresh are shifted
    have hc : Fintype.card (Option (Fin k × Bool)) = 2 * k + 1 := by simp [mul_comm]
    rw [← hc, ← Finset.card_univ]
    refine Finset.card_le_card_of_injOn (fun n => match n with
      | (none, _) => none
      | (some (e, _), p) => some (e, decide (p.1 = (bsetIter ids).idxOf (safe e)))) (fun _ _ => Finset.mem_univ _) ?_
    rintro ⟨n, p⟩ hn ⟨n', p'⟩ hn' h
    simp only [Finset.coe_filter, Finset.mem_univ, true_and, Set.mem_ofPred_eq] at hn hn'
    rcases n with _ | ⟨e, j⟩ <;> rcases n' with _ | ⟨e', j'⟩
    · simp only [move, onlyFor, ne_eq, ite_eq_right_iff, not_forall] at hn hn'
      obtain ⟨a, -⟩ := hn
      obtain ⟨a', -⟩ := hn'
      rw [Fin.ext (a.trans a'.symm)]
    · cases h
    · cases h
    · simp only [Option.some.injEq, Prod.mk.injEq] at h
      obtain ⟨rfl, hb⟩ := h
      simp only [move, ne_eq, ite_eq_right_iff, not_forall] at hn hn'
      obtain ⟨a, hn⟩ := hn
      obtain ⟨a', hn'⟩ := hn'
      have hj : j = j' := Subtype.ext (a.trans a'.symm)
      subst hj
      have hp : p = p' := by
        apply Fin.ext
        by_cases hpe : p.1 = (bsetIter ids).idxOf (safe e)
        · have : p'.1 = (bsetIter ids).idxOf (safe e) := by simpa [hpe] using hb
          rw [hpe, this]
        · have hpe' : ¬ p'.1 = (bsetIter ids).idxOf (safe e) := by simpa [hpe] using hb
          simp only [onlyFor, hpe, hpe', if_false, zero_add, ite_eq_right_iff, not_forall] at hn hn'
          rw [hn.1, hn'.1]
      rw [hp]
  · intro ω
    unfold Exposure.seen
    refine Prod.ext ?_ ?_
    · funext e i
      simp only
      by_cases hi : i ∈ X.holds e ∧ i ∈ ids
      · have he : e.1 ≤ k := Nat.lt_succ_iff.1 e.2
        have hne : ¬ i = safe e := fun h => (h1 e he).2 (h ▸ hi.1)
        rw [if_pos hi, if_pos hi, share_move hs δ secret ω hi.2 e he, if_neg hne, add_zero]
      · rw [if_neg hi, if_neg hi]
    · funext e j i
      simp only
      by_cases hi : (j.1 ∈ X.takesPart e ∨ i ∈ X.takesPart e) ∧ i ∈ ids
      · rw [if_pos hi, if_pos hi, contribution_move hs δ ω e j hi.2]
        obtain ⟨a, b⟩ := h2 e e.2
        rcases hi.1 with h | h
        · rw [if_neg fun he : j.1 = safe e => a (he ▸ h), add_zero]
        · have n1 : ¬ i = safe e := fun he => a (he ▸ h)
          have n2 : ¬ i = safe (e + 1) := fun he => b (he ▸ h)
          simp [n1, n2]
      · rw [if_neg hi, if_neg hi]

/-- **C76.** The condition is needed: the shares of all parties in one period add up to the key. -/
theorem C76_one_period_reveals (ids : Finset I) (hne : ids.Nonempty) (k : Nat) (secret : F) (ω : HistoryDraw ids k → F) (e : Nat) :
    ∑ i ∈ ids, shareAfter ids k secret ω e i = secret := by
  unfold shareAfter
  rw [Finset.sum_add_distrib, sum_part hne, Finset.sum_comm]
  rw [Finset.sum_eq_zero, add_zero]
  intro e' _
  split
  · rw [Finset.sum_comm]
    exact Finset.sum_eq_zero fun j _ => sum_part hne _ _
  · simp

/-- **C76 (resharing).** A key is dealt with threshold `t`, and the holders of the shares `old` reshare it with threshold `t'`. Somebody has fewer than `t` of the old
shares, with everything their holders draw and send, and gets all that is sent to fewer than `t'` of the new holders, hence their new shares as well. Two keys can be told
apart from this with advantage at most `(t - 1 + n(t' - 1))/(q - 1)`, where `n` is the number of old holders that take part. -/
theorem C76_resharing_hides [Fintype F] (old A B : Finset F) (t t' : Nat) (hA : A.card < t) (hB : B.card < t') (h0A : (0 : F) ∉ A) (h0B : (0 : F) ∉ B)
    (secret secret' : F) :
    StatClose (((t - 1 + old.card * (t' - 1) : Nat) : ℚ) * (1 / ((Fintype.card F : ℚ) - 1))) (nonZeroDraws (ReshareDraw old t t') F) (seenInResharing old A B t t' secret)
      (nonZeroDraws (ReshareDraw old t t') F) (seenInResharing old A B t t' secret') := by
  obtain ⟨δ, rfl⟩ : ∃ δ, secret' = secret + δ := ⟨secret' - secret, by ring⟩
  obtain ⟨w, hw⟩ := exists_vanishing t A h0A hA δ
  have hv : ∀ x : F, ∃ v : Fin (t' - 1) → F, (∀ y ∈ B, polyValue (polyValue (δ :: List.ofFn w) x :: List.ofFn v) y = 0) ∧
      (polyValue (δ :: List.ofFn w) x = 0 → v = 0) := by
    intro x
    by_cases hx : polyValue (δ :: List.ofFn w) x = 0
    · refine ⟨0, fun y _ => ?_, fun _ => rfl⟩
      rw [hx]
      have : ∀ n, polyValue ((0 : F) :: List.ofFn (0 : Fin n → F)) y = 0 := by
        intro n
        induction n with
        | zero => simp [polyValue_cons, polyValue_nil]
        | succ n ih =>
          rw [polyValue_cons, List.ofFn_succ]
          have e : (fun i : Fin n => (0 : Fin (n + 1) → F) i.succ) = 0 := rfl
          rw [e]
          simpa using Or.inr ih
      exact this _
    · obtain ⟨v, h⟩ := exists_vanishing t' B h0B hB (polyValue (δ :: List.ofFn w) x)
      exact ⟨v, h, fun h => absurd h hx⟩
  choose v hv hv0 using hv
  have hev : ∀ (n : Nat) (s : F) (c : Fin (n - 1) → F) (x : F), valueOf 0 (evaluate (randomPolynomial s n (drawsOf c)) x) = polyValue (s :: List.ofFn c) x := by
    intro n s c x
    have htail : ((List.range (n - 1)).map (drawsOf c)) = List.ofFn c := by
      apply List.ext_getElem
      · simp
      · intro m h1 h2
        have : m < n - 1 := by simpa using h1
        simp [drawsOf, this]
    unfold randomPolynomial evaluate
    rw [htail, horner_eq (by simp)]; rfl
  set W : ReshareDraw old t t' → F := fun n => match n with
    | .inl p => w p
    | .inr (x, p) => v x p with hW
  have hold : ∀ (ω : ReshareDraw old t t' → F) (x : F),
      oldShare old t t' (secret + δ) (fun n => ω n + W n) x = oldShare old t t' secret ω x + polyValue (δ :: List.ofFn w) x := by
    intro ω x
    unfold oldShare
    rw [hev, hev]
    exact polyValue_ofFn_add _ _ _ _ _ _
  have hsub : ∀ (ω : ReshareDraw old t t' → F) (x : {x // x ∈ old}) (y : F), subshare old t t' (secret + δ) (fun n => ω n + W n) x y =
      subshare old t t' secret ω x y + polyValue (polyValue (δ :: List.ofFn w) x.1 :: List.ofFn (v x.1)) y := by
    intro ω x y
    unfold subshare
    rw [hev, hev, hold]
    exact polyValue_ofFn_add _ _ _ _ _ _
  refine statClose_shift W _ _ _ ?_ ?_
  · refine (Finset.card_le_card (Finset.filter_subset _ _)).trans ?_
    simp
  · intro ω
    unfold seenInResharing
    refine Prod.ext ?_ (Prod.ext ?_ ?_)
    · funext x
      simp only
      by_cases hx : x.1 ∈ A
      · rw [if_pos hx, if_pos hx, hold, hw _ hx, add_zero]
      · rw [if_neg hx, if_neg hx]
    · funext xp
      simp only
      by_cases hx : xp.1.1 ∈ A
      · have : W (.inr xp) = 0 := by
          simp only [hW]
          rw [hv0 _ (hw _ hx)]; rfl
        rw [if_pos hx, if_pos hx, this, add_zero]
      · rw [if_neg hx, if_neg hx]
    · funext x y
      simp only
      by_cases hxy : x.1 ∈ A ∨ y ∈ B
      · rw [if_pos hxy, if_pos hxy, hsub]
        rcases hxy with hx | hy
        · rw [hw _ hx, hv0 _ (hw _ hx)]
          have : ∀ n, polyValue ((0 : F) :: List.ofFn (0 : Fin n → F)) y = 0 := by
            intro n
            induction n with
            | zero => simp [polyValue_cons, polyValue_nil]
            | succ n ih =>
              rw [polyValue_cons, List.ofFn_succ]
              have e : (fun i : Fin n => (0 : Fin (n + 1) → F) i.succ) = 0 := rfl
              rw [e]
              simpa using Or.inr ih
          rw [this, add_zero]
        · rw [hv _ _ hy, add_zero]
      · rw [if_neg hxy, if_neg hxy]

end

/-! ### The values of the experiments are those of the code -/

section
variable {I F G Sid V : Type} [LinearOrder I] [Field F] [LinearOrder F] [AddCommGroup G] [Module F G] [DecidableEq G] [DecidableEq V]

private theorem part_of_split {ε : Type} {ids : Finset I} {secret : F} {draw : Nat → F} {l : List F} (h : (secretSplit secret ids.card draw : Out ε _) = .ok l) {i : I}
    (hi : i ∈ ids) : (((bsetIter ids).zip l).map Prod.fst).Nodup ∧ (BMap.ofList ((bsetIter ids).zip l)).get? i = some (part ids secret (fun p => draw p) i) := by
  have e : valueOf [] (secretSplit secret ids.card (drawsOf fun p : Fin (ids.card - 1) => draw p)) = l := by
    have htail : ((List.range (ids.card - 1)).map (drawsOf fun p : Fin (ids.card - 1) => draw p)) = (List.range (ids.card - 1)).map draw := by
      refine List.map_congr_left fun n hn => ?_
      simp [drawsOf, List.mem_range.1 hn]
    unfold secretSplit at h ⊢
    rw [htail]
    split
    · rename_i h1
      rw [if_pos h1] at h
      cases h; rfl
    · rename_i h1
      rw [if_neg h1] at h
      split
      · rename_i h2
        rw [if_pos h2] at h; cases h
      · rename_i h2
        rw [if_neg h2] at h
        cases h; rfl
  have hlen : l.length = ids.card := by
    obtain ⟨parts, h1, h2, -⟩ := (C11_additive_split (ε := ε) secret ids.card draw).1 (Finset.card_pos.2 ⟨i, hi⟩)
    rw [h] at h1
    cases h1
    exact h2
  have hn : (((bsetIter ids).zip l).map Prod.fst).Nodup := by
    rw [List.map_fst_zip (by simp [hlen])]
    exact bsetIter_nodup ids
  have hmem : i ∈ ((bsetIter ids).zip l).map Prod.fst := by
    rw [List.map_fst_zip (by simp [hlen])]
    exact mem_bsetIter.2 hi
  obtain ⟨⟨i', v⟩, hv, rfl⟩ := List.mem_map.1 hmem
  have hg := (BMap.get?_ofList_eq_some hn).2 hv
  refine ⟨hn, ?_⟩
  unfold part
  rw [e, hg]; rfl

/-- **C76.** The shares dealt by the library are the parts of the key. -/
theorem C76_dealt_shares (g : G) (ids : Finset I) (secret : F) (draw : Nat → F) (shares : BMap I (KeyShare I F G))
    (h : KeyShare.newCentralized g ids secret draw = .ok shares) (i : I) (hi : i ∈ ids) :
    ∃ ks, shares.get? i = some ks ∧ ks.secret = part ids secret (fun p => draw p) i := by
  unfold KeyShare.newCentralized at h
  obtain ⟨l, hl, h⟩ := Out.bind_eq_ok.1 h
  cases h
  obtain ⟨hn, hp⟩ := part_of_split hl hi
  refine ⟨_, (BMap.get?_ofList_eq_some ?_).2 (List.mem_map.2 ⟨_, (BMap.get?_ofList_eq_some hn).1 hp, rfl⟩), rfl⟩
  rw [List.map_map]
  exact hn

/-- **C76.** When all parties run key refresh honestly, a party that finishes adds to its share the parts of zero that all parties drew for it. -/
theorem C76_refreshed_share (E : KeyRefresh.Env I Sid F G) (hg : E.g ≠ 0) (hashV : Sid → I → KeyRefresh.Hashed I G → V) (ids : Finset I) (sid : Sid) (d : I → KeyRefresh.Draws I F)
    (ctx : I → KeyRefresh.Context I F G Sid) (hst : ∀ i ∈ ids, KeyRefresh.start E ids sid i (d i) = .ok (ctx i)) (me : I) (hme : me ∈ ids)
    (in1 : List (I × V)) (in2 : List (I × KeyRefresh.Msg2 I G)) (in3 : List (I × KeyRefresh.Msg3 I F))
    (h2 : FromOthers ids me (fun j => KeyRefresh.msg2 (ctx j)) in2) (change : KeyShareChange I F G) (info : AuxInfo I PaillierKey PublicAux)
    (h : KeyRefresh.run E hashV (ctx me) in1 in2 in3 = .ok (change, info)) (ks ks' : KeyShare I F G) (hu : ks.update change = .ok ks') :
    ks'.secret = ks.secret + ∑ j ∈ ids, part ids 0 (fun p => (d j).split p) me := by
  obtain ⟨-, -, -, hown, -, -, -, -, -, rid, capX, -, hch, hmine, hoth⟩ := C38_finishing_party E hashV ids sid me (d me) (ctx me) (hst me hme) in1 in2 in3 change info h
  have hX : ∀ j ∈ ids, (KeyRefresh.msg2 (ctx j)).capXs.get? me = some (part ids 0 (fun p => (d j).split p) me • E.g) := by
    intro j hj
    have hs := hst j hj
    unfold KeyRefresh.start at hs
    rw [if_neg (not_not.2 hj)] at hs
    obtain ⟨x, -, hs⟩ := Out.bind_eq_ok.1 hs
    obtain ⟨l, hl, hs⟩ := Out.bind_eq_ok.1 hs
    rw [← Out.ok.inj hs]
    simp only [KeyRefresh.msg2, KeyRefresh.PublicData.msg2]
    rw [BMap.get?_mapVals, (part_of_split hl hme).2]; rfl
  have hsum : ∑ j ∈ ids, capX j me = (∑ j ∈ ids, part ids 0 (fun p => (d j).split p) me) • E.g := by
    rw [Finset.sum_smul]
    refine Finset.sum_congr rfl fun j hj => ?_
    by_cases e : j = me
    · subst e
      exact Option.some.inj ((hmine j hme).symm.trans (hX j hme))
    · obtain ⟨m, m3, rpj, hm, -, hc, -⟩ := hoth j hj e
      have := ((h2.2 _).1 hm).2.2
      simp only at this
      subst this
      exact Option.some.inj ((hc me hme).symm.trans (hX j hj))
  have hc : change.secretShareChange = ∑ j ∈ ids, part ids 0 (fun p => (d j).split p) me := by
    refine smul_left_injective F hg ?_
    simp only
    rw [← hsum]
    exact Option.some.inj (hown.symm.trans (hch me hme))
  rw [((C16_update_decision ks change).2.2 ks' hu).2.2.1, hc]

/-- **C76.** The subshares sent in key resharing are the values of the polynomial drawn by the old holder. -/
theorem C76_sent_subshares (g : G) (inp : KeyResharing.Inputs I F G) (ks : ThresholdKeyShare I F G) (hk : inp.oldHolder = some ks) (id dest : I) (draw : Nat → F)
    (r : KeyResharing.Round1 I F G) (hr : KeyResharing.start g inp id draw = .ok r) (m : KeyResharing.Msg F G) (hm : KeyResharing.msg r dest = .ok (some m)) :
    ∃ y, (KeyResharing.newShareIds F inp.newHolders).get? dest = some y ∧
      m.subshare = valueOf 0 (evaluate (randomPolynomial ks.secretShare inp.newThreshold (drawsOf fun p : Fin (inp.newThreshold - 1) => draw p)) y) := by
  unfold KeyResharing.start at hr
  rw [hk] at hr
  simp only [Option.isNone_some, Bool.false_and, Bool.false_eq_true, if_false] at hr
  obtain ⟨o, ho, hr⟩ := Out.bind_eq_ok.1 hr
  obtain ⟨x, -, ho⟩ := Out.bind_eq_ok.1 ho
  cases ho
  cases hr
  simp only [KeyResharing.msg] at hm
  obtain ⟨y, hy, hm⟩ := Out.bind_eq_ok.1 hm
  obtain ⟨s, hs, hm⟩ := Out.bind_eq_ok.1 hm
  cases hm
  refine ⟨y, ?_, ?_⟩
  · unfold finGet at hy
    exact Out.ofOption_eq_ok.1 hy
  · have htail : ((List.range (inp.newThreshold - 1)).map (drawsOf fun p : Fin (inp.newThreshold - 1) => draw p)) = (List.range (inp.newThreshold - 1)).map draw := by
      refine List.map_congr_left fun n hn => ?_
      simp [drawsOf, List.mem_range.1 hn]
    unfold randomPolynomial evaluate at hs ⊢
    rw [htail]
    rw [horner_eq (by simp)] at hs ⊢
    cases hs; rfl

end

/-! ### Concrete cases -/

section
attribute [local instance] Toy.fact11 Toy.order11

/-- Party 3 is observed all the time, party 1's share is seen before the refresh and party 2's after it. -/
private def everyShare : Exposure Nat := ⟨fun e => if e = 0 then {1, 3} else {2, 3}, fun _ => {3}⟩

example : everyShare.LeavesOne {1, 2, 3} 1 ∧ ∀ i ∈ ({1, 2, 3} : Finset Nat), ∃ e ≤ 1, i ∈ everyShare.holds e := by
  refine ⟨⟨fun e => if e = 0 then 2 else 1, ?_, ?_⟩, by decide⟩ <;> decide

/-- The shares of three parties that hold the key 5, before and after a refresh to which each party contributes. -/
private def draws : HistoryDraw ({1, 2, 3} : Finset Nat) 1 → ZMod 11 := fun n => match n.1 with
  | none => n.2.1 + 3
  | some (_, j) => j.1 + 2 * n.2.1

example : [1, 2, 3].map (shareAfter {1, 2, 3} 1 5 draws 0) = [3, 4, 9] ∧ [1, 2, 3].map (shareAfter {1, 2, 3} 1 5 draws 1) = [9, 5, 2] := by decide +kernel

/-- With the shares from one period each one would get a wrong key: 3 + 5 + 2 = 10. -/
example : shareAfter {1, 2, 3} 1 5 draws 0 1 + shareAfter {1, 2, 3} 1 5 draws 1 2 + shareAfter {1, 2, 3} 1 5 draws 1 3 = (10 : ZMod 11) := by decide +kernel

/-- One of two old shares, and one of two new ones. -/
example (secret secret' : ZMod 11) := C76_resharing_hides (F := ZMod 11) {1, 2, 3} {1} {2} 2 2 (by decide) (by decide) (by decide) (by decide) secret secret'

/-- The hypotheses of `C76_refreshed_share` are met by the concrete run beside C38. -/
example : ∃ (ctx : Nat → KeyRefresh.Context Nat (ZMod 11) (ZMod 11) Nat) (change : KeyShareChange Nat (ZMod 11) (ZMod 11)),
    (∀ i ∈ ({1, 2, 3} : Finset Nat), KeyRefresh.start refreshCaseEnv {1, 2, 3} 7 i (refreshCaseDraws i) = .ok (ctx i)) ∧
    ∀ ks ks' : KeyShare Nat (ZMod 11) (ZMod 11), ks.update change = .ok ks' → ks'.secret = ks.secret + 9 := by
  obtain ⟨ctx, in1, in2, in3, changes, infos, h1, h2, h3, -⟩ := refreshCaseRun
  refine ⟨ctx, changes 2, h1, fun ks ks' hu => ?_⟩
  rw [C76_refreshed_share refreshCaseEnv (by decide +kernel) refreshCaseHash {1, 2, 3} 7 refreshCaseDraws ctx h1 2 (by decide) _ _ _ (h2 2) _ _ (h3 2 (by decide)) ks ks' hu]
  refine congrArg (ks.secret + ·) ?_
  decide +kernel

end
end Synedrion.Props
