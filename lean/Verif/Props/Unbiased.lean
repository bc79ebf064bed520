import Verif.Props.Agreement
import Verif.Props.KeyRefresh
import Verif.Props.SigningAgreement
import Verif.Lemmas.ZeroKnowledge
import Verif.Lemmas.Toy
import Verif.Lemmas.ToySigningRun

/-!
# Property C61: nobody can choose the result of key generation, key refresh or the nonce of a signature
-/

set_option linter.unusedSectionVars false

namespace Synedrion.Props

open Spec

/-- If the event has at most one member for each choice of all but one coordinate, it has probability at most `1 / |S|`. -/
private theorem prob_coordinate {A T : Type} {k : Nat} (S : Finset A) (f : (Fin k → A) → T) (ev : T → Prop) [DecidablePred ev] (i : Fin k) (hS : 0 < S.card)
    (h : ∀ a b, ev (f a) → ev (f b) → (∀ j, j ≠ i → a j = b j) → a = b) : prob (repeated k S) f ev ≤ 1 / S.card := by
  classical
  unfold prob
  have hcard : (((repeated k S).filter fun a => ev (f a)) ×ˢ S).card ≤ (repeated k S).card := by
    refine Finset.card_le_card_of_injOn (fun c => Function.update c.1 i c.2) ?_ ?_
    · rintro ⟨a, s⟩ ha
      simp only [Finset.coe_product, Set.mem_prod, Finset.mem_coe, Finset.mem_filter, repeated, Fintype.mem_piFinset] at ha ⊢
      intro j
      by_cases hj : j = i
      · subst hj; rw [Function.update_self]; exact ha.2
      · rw [Function.update_of_ne hj]; exact ha.1.1 j
    · rintro ⟨a, s⟩ ha ⟨b, t⟩ hb e
      simp only [Finset.coe_product, Set.mem_prod, Finset.mem_coe, Finset.mem_filter] at ha hb
      have e1 : s = t := by simpa using congrFun e i
      have e2 : a = b := h a b ha.1.2 hb.1.2 fun j hj => by
        have := congrFun e j
        simpa only [Function.update_of_ne hj] using this
      rw [e1, e2]
  rw [Finset.card_product] at hcard
  have hS' : (0 : ℚ) < S.card := by exact_mod_cast hS
  rcases Nat.eq_zero_or_pos (repeated k S).card with h0 | h0
  · rw [h0, Nat.cast_zero, div_zero]; positivity
  · have h0' : (0 : ℚ) < (repeated k S).card := by exact_mod_cast h0
    rw [div_le_div_iff₀ h0' hS', one_mul]
    exact_mod_cast hcard

section KeyGen

open KeyInit

variable {I F G Sid V : Type} [LinearOrder I] [Field F] [LinearOrder F] [AddCommGroup G] [Module F G] [DecidableEq G] [DecidableEq V]

/-- **C61 (key generation, bound).** Take two runs of the same party in the same session with different draws, in which the others commit to the same values
in round 1, and do as they like afterwards. If the commitment hash has no collisions and both runs finish, then everyone else's public share is the same in
both, and the keys differ by exactly the difference of the party's own contributions. -/
theorem C61_key_init_bound (hashV : Sid → I → PublicData G → V) (hinj : ∀ s i h h', hashV s i h = hashV s i h' → h = h')
    (H : SchHash G (SchAux I Sid) → F) (g : G) (ids : Finset I) (sid : Sid) (me : I) (d d' : Draws F) (c c' : Context I F G Sid)
    (hc : start g ids sid me d = .ok c) (hc' : start g ids sid me d' = .ok c')
    (in1 in1' : List (I × V)) (in2 in2' : List (I × Msg2 G)) (in3 in3' : List (I × SchProof F))
    (hsame : ∀ j v w, (j, v) ∈ in1 → (j, w) ∈ in1' → v = w) (ks ks' : KeyShare I F G)
    (h : run hashV H g c in1 in2 in3 = .ok ks) (h' : run hashV H g c' in1' in2' in3' = .ok ks') :
    (∀ j, j ≠ me → ks.pub.get? j = ks'.pub.get? j) ∧ ks.verifyingKeyAsPoint - ks'.verifyingKeyAsPoint = (d.x - d'.x) • g := by
  obtain ⟨-, -, kA, ownA, -, _, -, oA⟩ := C37_finishing_party hashV H g ids sid me d c hc in1 in2 in3 ks h
  obtain ⟨-, -, kB, ownB, -, _, -, oB⟩ := C37_finishing_party hashV H g ids sid me d' c' hc' in1' in2' in3' ks' h'
  have hme : me ∈ ids := by
    unfold start at hc
    split at hc
    · cases hc
    · rename_i hi; exact not_not.1 hi
  have key : ∀ j, j ≠ me → ks.pub.get? j = ks'.pub.get? j := by
    intro j hj
    by_cases hji : j ∈ ids
    · obtain ⟨v, m, _, hv, -, -, hh, hget, -⟩ := oA j hji hj
      obtain ⟨v', m', _, hv', -, -, hh', hget', -⟩ := oB j hji hj
      have he := hinj _ _ _ _ (hh.trans ((hsame _ _ _ hv hv').trans hh'.symm))
      have e1 : m.capX = m'.capX := congrArg PublicData.capX he
      rw [hget, hget', e1]
    · rw [BMap.get?_eq_none_iff.2, BMap.get?_eq_none_iff.2]
      · rw [← BMap.mem_keySet, kB]; exact hji
      · rw [← BMap.mem_keySet, kA]; exact hji
  refine ⟨key, ?_⟩
  have sum : ∀ (k : KeyShare I F G) (x : F), k.pub.keySet = ids → k.pub.get? me = some (x • g) →
      k.verifyingKeyAsPoint = ∑ j ∈ ids.erase me, ((k.pub.get? j).getD 0) + x • g := by
    intro k x hk ho
    have e : k.pub = BMap.tabulate ids fun j => (k.pub.get? j).getD 0 := by
      refine BMap.eq_tabulate_of hk fun j hj => ?_
      rw [← hk, BMap.mem_keySet] at hj
      cases hg : k.pub.get? j with
      | none => exact absurd (BMap.get?_eq_none_iff.1 hg) (not_not.2 hj)
      | some v => rfl
    unfold KeyShare.verifyingKeyAsPoint
    conv_lhs => rw [e]
    rw [BMap.sum_values_tabulate, ← Finset.sum_erase_add _ _ hme, ho, Option.getD_some]
  rw [sum ks d.x kA ownA, sum ks' d'.x kB ownB, Finset.sum_congr rfl fun j hj => by rw [key j (Finset.ne_of_mem_erase hj)], sub_smul]
  abel

/-- **C61 (key generation).** Let a party draw its contribution uniformly, and let the others commit in round 1 independently of it and do as they like
afterwards: their later messages may depend on everything. Then no key is the result with a probability of more than one over the order of the group. -/
theorem C61_key_init_unpredictable [Fintype F] (hashV : Sid → I → PublicData G → V) (hinj : ∀ s i h h', hashV s i h = hashV s i h' → h = h')
    (H : SchHash G (SchAux I Sid) → F) (g : G) (hg : g ≠ 0) (ids : Finset I) (sid : Sid) (me : I) (d : F → Draws F) (hd : ∀ x, (d x).x = x)
    (c : F → Context I F G Sid) (hc : ∀ x, start g ids sid me (d x) = .ok (c x))
    (in1 : List (I × V)) (in2 : F → List (I × Msg2 G)) (in3 : F → List (I × SchProof F)) (key : G)
    (ev : Out (Abort I Err) (KeyShare I F G) → Prop) [DecidablePred ev] (hev : ∀ o, ev o → ∃ ks, o = .ok ks ∧ ks.verifyingKeyAsPoint = key) :
    prob Finset.univ (fun x => run hashV H g (c x) in1 (in2 x) (in3 x)) ev ≤ 1 / Fintype.card F := by
  unfold prob
  rw [Finset.card_univ]
  have hF : (0 : ℚ) < Fintype.card F := by exact_mod_cast Fintype.card_pos
  rw [div_le_div_iff_of_pos_right hF]
  have : (Finset.univ.filter fun x => ev (run hashV H g (c x) in1 (in2 x) (in3 x))).card ≤ 1 := by
    rw [Finset.card_le_one]
    intro x hx y hy
    rw [Finset.mem_filter] at hx hy
    obtain ⟨ks, h1, e1⟩ := hev _ hx.2
    obtain ⟨ks', h2, e2⟩ := hev _ hy.2
    have nd : (in1.map Prod.fst).Nodup := by
      unfold run toRound3 at h1
      simp only [Out.bind_eq_ok] at h1
      obtain ⟨_, ⟨_, h1, _⟩, _⟩ := h1
      exact (collect_eq_ok.1 h1).1
    obtain ⟨-, hb⟩ := C61_key_init_bound hashV hinj H g ids sid me (d x) (d y) (c x) (c y) (hc x) (hc y) in1 in1 (in2 x) (in2 y) (in3 x) (in3 y)
      (fun j v w hv hw => congrArg Prod.snd (List.inj_on_of_nodup_map nd hv hw rfl)) ks ks' h1 h2
    rw [e1, e2, sub_self, hd, hd] at hb
    exact sub_eq_zero.1 ((smul_eq_zero.1 hb.symm).resolve_right hg)
  exact_mod_cast this

section Example

attribute [local instance] Toy.fact11 Toy.order11

private def uHashV : Nat → Nat → PublicData (ZMod 11) → Nat × Nat × PublicData (ZMod 11) := fun s i d => (s, i, d)
private def uH : SchHash (ZMod 11) (SchAux Nat Nat) → ZMod 11 := fun h => h.capX * 3 + h.commitment * 5 + (h.aux.id : ZMod 11)
private def uDraws (x : ZMod 11) : Draws (ZMod 11) := ⟨x, 2 * x + 1, [x = 3, true], [true]⟩
private def uCtx (x : ZMod 11) : Context Nat (ZMod 11) (ZMod 11) Nat := ⟨({1, 2} : Finset Nat).erase 1, 1, x, 2 * x + 1, ⟨x, 2 * x + 1, [x = 3, true], [true]⟩, 7⟩
private def uPeer : Context Nat (ZMod 11) (ZMod 11) Nat := ⟨{1}, 2, 4, 5, ⟨4, 5, [false, true], [false]⟩, 7⟩
private def uPeer3 (x : ZMod 11) : Round3 Nat (ZMod 11) (ZMod 11) Nat :=
  ⟨uPeer, BMap.tabulate {1} fun _ => x, BMap.tabulate {1} fun _ => 2 * x + 1, [x = 3, false]⟩

/-- A peer with a fixed commitment that answers honestly: party 1 finishes (unless the key is the identity). -/
example : (∀ s i h h', uHashV s i h = uHashV s i h' → h = h') ∧ (∀ x, (uDraws x).x = x) ∧
    (∀ x, start (1 : ZMod 11) ({1, 2} : Finset Nat) 7 1 (uDraws x) = .ok (uCtx x)) ∧
    ∀ x : ZMod 11, x ≠ 7 → run uHashV uH (1 : ZMod 11) (uCtx x) [(2, msg1 uHashV uPeer)] [(2, msg2 uPeer)] [(2, msg3 uH (uPeer3 x))] =
      .ok ⟨1, x, BMap.ofList [(1, x), (2, 4)]⟩ :=
  ⟨fun s i h h' e => (Prod.mk.inj (Prod.mk.inj e).2).2, fun _ => rfl, fun x => by
    unfold start uCtx uDraws schCommitment; rw [if_neg (by decide)]; simp only [smul_eq_mul, mul_one], by decide +kernel⟩

end Example

end KeyGen

section Refresh

open KeyRefresh

variable {I F G Sid V : Type} [LinearOrder I] [Field F] [LinearOrder F] [AddCommGroup G] [Module F G] [DecidableEq G] [DecidableEq V]

/-- **C61 (key refresh, bound).** Take two runs of the same party in the same session with different draws, in which the others commit to the same values
in round 1, and do as they like afterwards. If the commitment hash has no collisions and both runs finish, then everyone's public share change differs by
exactly the difference of the party's own published contributions to it. -/
theorem C61_refresh_bound (E : Env I Sid F G) (hashV : Sid → I → Hashed I G → V) (hinj : ∀ s i h h', hashV s i h = hashV s i h' → h = h')
    (ids : Finset I) (sid : Sid) (me : I) (d d' : Draws I F) (c c' : Context I F G Sid) (hc : start E ids sid me d = .ok c) (hc' : start E ids sid me d' = .ok c')
    (in1 in1' : List (I × V)) (in2 in2' : List (I × Msg2 I G)) (in3 in3' : List (I × Msg3 I F))
    (hsame : ∀ j v w, (j, v) ∈ in1 → (j, w) ∈ in1' → v = w) (ch ch' : KeyShareChange I F G) (info info' : AuxInfo I PaillierKey PublicAux)
    (h : run E hashV c in1 in2 in3 = .ok (ch, info)) (h' : run E hashV c' in1' in2' in3' = .ok (ch', info')) (k : I) (hk : k ∈ ids) :
    ∃ cap cap' own own', ch.publicShareChanges.get? k = some cap ∧ ch'.publicShareChanges.get? k = some cap' ∧
      (msg2 c).capXs.get? k = some own ∧ (msg2 c').capXs.get? k = some own' ∧ cap - cap' = own - own' := by
  obtain ⟨-, -, -, -, -, -, -, -, -, _, xA, -, sA, cA, oA⟩ := C38_finishing_party E hashV ids sid me d c hc in1 in2 in3 ch info h
  obtain ⟨-, -, -, -, -, -, -, -, -, _, xB, -, sB, cB, oB⟩ := C38_finishing_party E hashV ids sid me d' c' hc' in1' in2' in3' ch' info' h'
  refine ⟨_, _, _, _, sA k hk, sB k hk, cA k hk, cB k hk, ?_⟩
  have hme : me ∈ ids := (start_ok hc).1
  have key : ∀ j ∈ ids.erase me, xA j k = xB j k := by
    intro j hj
    obtain ⟨hne, hji⟩ := Finset.mem_erase.1 hj
    obtain ⟨m, m3, rpj, -, -, hx, -, -, -, hv, -⟩ := oA j hji hne
    obtain ⟨m', m3', rpj', -, -, hx', -, -, -, hv', -⟩ := oB j hji hne
    have he := hinj _ _ _ _ (hsame _ _ _ hv hv')
    have e1 : m.capXs = m'.capXs := congrArg Hashed.capXs he
    have h1 := hx k hk
    rw [e1, hx' k hk] at h1
    exact (Option.some.inj h1).symm
  rw [← Finset.sum_erase_add _ _ hme, ← Finset.sum_erase_add _ _ hme, Finset.sum_congr rfl key]
  abel

/-- The contribution to party `k`, made from the draws. -/
private theorem contribution {E : Env I Sid F G} {ids : Finset I} {sid : Sid} {i : I} {d : Draws I F} {c : Context I F G Sid} (h : start E ids sid i d = .ok c)
    (hn : 2 ≤ ids.card) {k : I} (hk : k ∈ ids) :
    (msg2 c).capXs.get? k = some ((if (bsetIter ids).idxOf k < ids.card - 1 then d.split ((bsetIter ids).idxOf k)
      else -((List.range (ids.card - 1)).map d.split).sum) • E.g) := by
  unfold start at h
  split at h
  · cases h
  simp only [Out.bind_eq_ok] at h
  obtain ⟨y, hy, l, hl, hc⟩ := h
  cases hc
  unfold Shamir.secretSplit at hl
  rw [if_neg (by omega), if_neg (by omega)] at hl
  cases hl
  show (BMap.mapVals _ _).get? k = _
  have hidx : (bsetIter ids).idxOf k < (bsetIter ids).length := List.idxOf_lt_length_of_mem (mem_bsetIter.2 hk)
  have hlen : (bsetIter ids).length = ids.card := by simp
  rw [BMap.get?_mapVals]
  have hnd : (((bsetIter ids).zip ((List.range (ids.card - 1)).map d.split ++ [0 - ((List.range (ids.card - 1)).map d.split).sum])).map Prod.fst).Nodup := by
    rw [List.map_fst_zip (by simp; omega)]
    exact bsetIter_nodup ids
  rw [(BMap.get?_ofList_eq_some hnd (v := if (bsetIter ids).idxOf k < ids.card - 1 then d.split ((bsetIter ids).idxOf k)
      else -((List.range (ids.card - 1)).map d.split).sum)).2]
  · rfl
  · rw [List.mem_iff_getElem?]
    refine ⟨(bsetIter ids).idxOf k, ?_⟩
    rw [List.getElem?_zip_eq_some]
    refine ⟨by rw [List.getElem?_eq_getElem hidx, List.getElem_idxOf hidx], ?_⟩
    simp only
    split
    · rename_i hlt
      rw [List.getElem?_append_left (by simpa using hlt), List.getElem?_map, List.getElem?_range hlt, Option.map_some]
    · rename_i hlt
      have : (bsetIter ids).idxOf k = ids.card - 1 := by omega
      rw [this, List.getElem?_append_right (by simp)]
      simp

/-- **C61 (key refresh).** Let a party draw its contributions uniformly among the non-zero scalars (as the code does), with at least two parties. The others
commit in round 1 independently of them and do as they like afterwards. Then no public share change of any party is the result with a probability of more than
one over the number of non-zero scalars. -/
theorem C61_refresh_unpredictable [Fintype F] (E : Env I Sid F G) (hg : E.g ≠ 0) (hashV : Sid → I → Hashed I G → V)
    (hinj : ∀ s i h h', hashV s i h = hashV s i h' → h = h') (ids : Finset I) (hn : 2 ≤ ids.card) (sid : Sid) (me : I)
    (d : (Fin (ids.card - 1) → F) → Draws I F) (hd : ∀ x i, (d x).split i.1 = x i)
    (c : (Fin (ids.card - 1) → F) → Context I F G Sid) (hc : ∀ x, start E ids sid me (d x) = .ok (c x))
    (in1 : List (I × V)) (in2 : (Fin (ids.card - 1) → F) → List (I × Msg2 I G)) (in3 : (Fin (ids.card - 1) → F) → List (I × Msg3 I F))
    (k : I) (hk : k ∈ ids) (change : G)
    (ev : Out (Abort I (Err I F)) (KeyShareChange I F G × AuxInfo I PaillierKey PublicAux) → Prop) [DecidablePred ev]
    (hev : ∀ o, ev o → ∃ ch info, o = .ok (ch, info) ∧ ch.publicShareChanges.get? k = some change) :
    prob (repeated (ids.card - 1) (Finset.univ.erase (0 : F))) (fun x => run E hashV (c x) in1 (in2 x) (in3 x)) ev ≤ 1 / (Fintype.card F - 1 : Nat) := by
  classical
  have hcard : (Finset.univ.erase (0 : F)).card = Fintype.card F - 1 := by rw [Finset.card_erase_of_mem (Finset.mem_univ _), Finset.card_univ]
  have hpos : 0 < (Finset.univ.erase (0 : F)).card := Finset.card_pos.2 ⟨1, by simp⟩
  rw [← hcard]
  refine prob_coordinate _ _ ev ⟨if (bsetIter ids).idxOf k < ids.card - 1 then (bsetIter ids).idxOf k else 0, by split <;> omega⟩ hpos ?_
  intro x y hx hy hxy
  obtain ⟨ch, info, h1, e1⟩ := hev _ hx
  obtain ⟨ch', info', h2, e2⟩ := hev _ hy
  have nd : (in1.map Prod.fst).Nodup := by
    unfold run toRound3 at h1
    simp only [Out.bind_eq_ok] at h1
    obtain ⟨_, ⟨_, h1, _⟩, _⟩ := h1
    exact (collect_eq_ok.1 h1).1
  obtain ⟨cap, cap', own, own', g1, g2, o1, o2, hb⟩ := C61_refresh_bound E hashV hinj ids sid me (d x) (d y) (c x) (c y) (hc x) (hc y) in1 in1 (in2 x) (in2 y)
    (in3 x) (in3 y) (fun j v w hv hw => congrArg Prod.snd (List.inj_on_of_nodup_map nd hv hw rfl)) ch ch' info info' h1 h2 k hk
  rw [e1] at g1
  rw [e2] at g2
  cases g1
  cases g2
  rw [contribution (hc x) hn hk] at o1
  rw [contribution (hc y) hn hk] at o2
  cases o1
  cases o2
  rw [sub_self, ← sub_smul] at hb
  have hs := sub_eq_zero.1 ((smul_eq_zero.1 hb.symm).resolve_right hg)
  have hval : ∀ (z : Fin (ids.card - 1) → F) (i : Nat) (hi : i < ids.card - 1), (d z).split i = z ⟨i, hi⟩ := fun z i hi => hd z ⟨i, hi⟩
  split at hs
  · rename_i hlt
    funext j
    by_cases hj : j = ⟨(bsetIter ids).idxOf k, hlt⟩
    · rw [hj, ← hval x _ hlt, ← hval y _ hlt, hs]
    · exact hxy j (by simpa only [if_pos hlt] using hj)
  · rename_i hlt
    simp only [if_neg hlt] at hxy
    rw [neg_inj] at hs
    have hsum : ∀ z : Fin (ids.card - 1) → F, ((List.range (ids.card - 1)).map (d z).split).sum = ∑ j, z j := by
      intro z
      rw [← Fin.sum_ofFn]
      congr 1
      refine List.ext_getElem (by simp) fun i h1 h2 => ?_
      simp only [List.length_map, List.length_range] at h1
      simp [hval z i h1]
    rw [hsum, hsum] at hs
    funext j
    by_cases hj : j = ⟨0, by omega⟩
    · subst hj
      rw [← Finset.add_sum_erase _ _ (Finset.mem_univ (⟨0, by omega⟩ : Fin (ids.card - 1))),
        ← Finset.add_sum_erase _ _ (Finset.mem_univ (⟨0, by omega⟩ : Fin (ids.card - 1))),
        Finset.sum_congr rfl fun i hi => hxy i (Finset.ne_of_mem_erase hi)] at hs
      exact add_right_cancel hs
    · exact hxy j hj

section Example

attribute [local instance] Toy.fact11 Toy.order11

private def uRefHashV : Nat → Nat → Hashed Nat (ZMod 11) → Nat × Nat × Hashed Nat (ZMod 11) := fun s i h => (s, i, h)
private def uRefEnv : Env Nat Nat (ZMod 11) (ZMod 11) := ⟨Toy.auxEnv, 1, fun h => h.commitment + 2 * h.capX + 3, fun _ _ i p => p + i⟩
private def uRefDraws (x : Fin (({1, 2, 3} : Finset Nat).card - 1) → ZMod 11) (i : Nat) : Draws Nat (ZMod 11) :=
  ⟨Toy.auxDraws i, fun n => if i = 1 then (if h : n < ({1, 2, 3} : Finset Nat).card - 1 then x ⟨n, h⟩ else 0) else (n + i : ℕ), fun j => (3 * i + j : ℕ),
    fun j => (i + 5 * j : ℕ)⟩

/-- Two peers with fixed commitments that answer honestly: party 1 finishes for all its draws, and the hypotheses of `C61_refresh_unpredictable` are met. -/
example : ∃ (c : (Fin (({1, 2, 3} : Finset Nat).card - 1) → ZMod 11) → Context Nat (ZMod 11) (ZMod 11) Nat) (in1 : List (Nat × (Nat × Nat × Hashed Nat (ZMod 11))))
    (in2 : (Fin (({1, 2, 3} : Finset Nat).card - 1) → ZMod 11) → List (Nat × Msg2 Nat (ZMod 11)))
    (in3 : (Fin (({1, 2, 3} : Finset Nat).card - 1) → ZMod 11) → List (Nat × Msg3 Nat (ZMod 11))),
    uRefEnv.g ≠ 0 ∧ (∀ s i h h', uRefHashV s i h = uRefHashV s i h' → h = h') ∧ (∀ x i, (uRefDraws x 1).split i.1 = x i) ∧
    ∀ x, start uRefEnv {1, 2, 3} 7 1 (uRefDraws x 1) = .ok (c x) ∧ (run uRefEnv uRefHashV (c x) in1 (in2 x) (in3 x)).isOk := by
  have hex : ∀ x i, ∃ c, i ∈ ({1, 2, 3} : Finset Nat) → start uRefEnv ({1, 2, 3} : Finset Nat) 7 i (uRefDraws x i) = .ok c := by
    intro x i
    have st : ∀ i ∈ ({1, 2, 3} : Finset Nat), ∃ c, start uRefEnv ({1, 2, 3} : Finset Nat) 7 i (uRefDraws x i) = .ok c := fun i hi =>
      (C38_start uRefEnv 2 {1, 2, 3} 7 i (uRefDraws x i) (Toy.auxDraws_valid i (by simp at hi; omega))).1 hi
    by_cases hi : i ∈ ({1, 2, 3} : Finset Nat)
    · obtain ⟨c, h⟩ := st i hi; exact ⟨c, fun _ => h⟩
    · obtain ⟨c, _⟩ := st 1 (by decide); exact ⟨c, fun h => absurd h hi⟩
  choose ctx hctx using hex
  have hmsgs : ∀ {M : Type} (m : Nat → M) i, FromOthers ({1, 2, 3} : Finset Nat) i m ((bsetIter (({1, 2, 3} : Finset Nat).erase i)).map fun j => (j, m j)) :=
    fun m i => fromOthers_iff.2 (List.Perm.refl _)
  have hlen : ∀ x, ∀ i ∈ ({1, 2, 3} : Finset Nat), (uRefDraws x i).aux.rid.length = 3 := fun x i _ => rfl
  -- the others do not depend on the draws of party 1
  have hsame : ∀ x, ∀ j ∈ ({1, 2, 3} : Finset Nat), j ≠ 1 → ctx x j = ctx 0 j := by
    intro x j hj hne
    have h1 := hctx x j hj
    have h2 := hctx 0 j hj
    have : uRefDraws x j = uRefDraws 0 j := by unfold uRefDraws; simp only [if_neg hne]
    rw [this, h2] at h1
    exact (Out.ok.inj h1).symm
  have hrun : ∀ x, ∃ in2 in3, (run uRefEnv uRefHashV (ctx x 1) ((bsetIter (({1, 2, 3} : Finset Nat).erase 1)).map fun j => (j, msg1 uRefHashV (ctx 0 j)))
      in2 in3).isOk := by
    intro x
    obtain ⟨r3, m3, hr3, hm3, hfin⟩ := C38_honest_refresh uRefEnv 2 Toy.auxEnv_valid uRefHashV {1, 2, 3} 7 (uRefDraws x)
      (fun i hi => Toy.auxDraws_valid i (by simp at hi; omega)) (fun i _ j _ _ => Toy.facDraws_valid i j) 3 (hlen x) (ctx x) (hctx x)
      (fun i => (bsetIter (({1, 2, 3} : Finset Nat).erase i)).map fun j => (j, msg1 uRefHashV (ctx x j)))
      (fun i => (bsetIter (({1, 2, 3} : Finset Nat).erase i)).map fun j => (j, msg2 (ctx x j))) (fun i _ => hmsgs _ i) (fun i _ => hmsgs _ i)
    obtain ⟨changes, infos, hrun, -⟩ := hfin (fun i => (bsetIter (({1, 2, 3} : Finset Nat).erase i)).map fun j => (j, m3 j i)) fun i _ => hmsgs _ i
    refine ⟨(bsetIter (({1, 2, 3} : Finset Nat).erase 1)).map fun j => (j, msg2 (ctx x j)),
      (bsetIter (({1, 2, 3} : Finset Nat).erase 1)).map fun j => (j, m3 j 1), ?_⟩
    · have e : ((bsetIter (({1, 2, 3} : Finset Nat).erase 1)).map fun j => (j, msg1 uRefHashV (ctx 0 j))) =
          (bsetIter (({1, 2, 3} : Finset Nat).erase 1)).map fun j => (j, msg1 uRefHashV (ctx x j)) := by
        refine List.map_congr_left fun j hj => ?_
        have hj' := Finset.mem_erase.1 (mem_bsetIter.1 hj)
        rw [hsame x j hj'.2 hj'.1]
      rw [e, hrun 1 (by decide)]
      rfl
  choose in2 in3 hrun using hrun
  refine ⟨fun x => ctx x 1, _, in2, in3, by decide, fun s i h h' e => (Prod.mk.inj (Prod.mk.inj e).2).2, ?_, fun x => ⟨hctx x 1 (by decide), hrun x⟩⟩
  intro x i
  unfold uRefDraws
  simp only [if_true, dif_pos i.2]

end Example

end Refresh

section Signature

open Signing

variable {q : Nat} [Fact q.Prime] {I Ep G : Type} [LinearOrder I] [AddCommGroup G] [Module (ZMod q) G] [DecidableEq G]

/-- A finished run received messages of rounds 1 and 2 from exactly the other holders. -/
private theorem signing_senders {E : Env q I Ep G} {epidOf : BMap I G → BMap I PublicAux → Ep} {message : ZMod q}
    {keyShare : KeyShare I (ZMod q) G} {auxInfo : AuxInfo I PaillierKey PublicAux} {me : I} {d : Draws q I} {r : Round1 q I Ep G}
    (hr : start E epidOf message keyShare auxInfo me d = .ok r)
    {in1 : List (I × Msg1 q G)} {in2 : List (I × Msg2 q I G)} {in3 : List (I × Msg3 q G)} {in4 : List (I × ZMod q)} {inErr : List (I × MsgErr I G)}
    {sig : RecoverableSignature q} (h : run E r in1 in2 in3 in4 inErr = .ok sig) :
    ((in1.map Prod.fst).Nodup ∧ (in1.map Prod.fst).toFinset = keyShare.pub.keySet.erase me) ∧
      (in2.map Prod.fst).Nodup ∧ (in2.map Prod.fst).toFinset = keyShare.pub.keySet.erase me := by
  obtain ⟨_, _, _, _, _, _, hoth, _⟩ := start_eq_ok hr
  unfold run toRound4 toRound3 at h
  simp only [Out.bind_eq_ok, finalizeResult_eq_ok] at h
  obtain ⟨_, ⟨_, ⟨r2, h2, _, hc, _⟩, _⟩, _⟩ := h
  obtain ⟨nd, hto, _, _⟩ := collect_eq_ok.1 hc
  rw [toRound2_ok h2, hoth] at hto
  unfold toRound2 at h2
  obtain ⟨_, _, h2⟩ := Out.bind_eq_ok.1 h2
  obtain ⟨_, hc1, _⟩ := Out.bind_eq_ok.1 h2
  obtain ⟨nd1, hto1, _, _⟩ := collect_eq_ok.1 hc1
  rw [hoth] at hto1
  exact ⟨⟨nd1, hto1⟩, nd, hto⟩

/-- The scalars in the points encrypted in round 1. -/
private def Opens (g : G) (in1 : List (I × Msg1 q G)) (y : I → ZMod q) : Prop :=
  ∀ j m, (j, m) ∈ in1 → ∃ lambda : ZMod q, m.echo.capB1 = lambda • g ∧ m.echo.capB2 = lambda • m.echo.capY + y j • g

/-- The scalars of a run whose proofs have true statements. -/
private theorem exists_opens {g : G} (hg : g ≠ 0) {in1 : List (I × Msg1 q G)} {in2 : List (I × Msg2 q I G)} (nd : (in1.map Prod.fst).Nodup)
    (hto : (in1.map Prod.fst).toFinset = (in2.map Prod.fst).toFinset)
    (htrue : ∀ j m m2, (j, m) ∈ in1 → (j, m2) ∈ in2 → ∃ y lambda : ZMod q, m.echo.capB1 = lambda • g ∧
      m.echo.capB2 = lambda • m.echo.capY + y • g ∧ m2.echo.capGamma = y • g) : ∃ y, Opens g in1 y := by
  have key : ∀ j, ∃ y : ZMod q, ∀ m, (j, m) ∈ in1 → ∃ lambda : ZMod q, m.echo.capB1 = lambda • g ∧ m.echo.capB2 = lambda • m.echo.capY + y • g := by
    intro j
    by_cases hj : ∃ m, (j, m) ∈ in1
    · obtain ⟨m, hm⟩ := hj
      have hj2 : j ∈ (in2.map Prod.fst).toFinset := by rw [← hto, List.mem_toFinset]; exact List.mem_map.2 ⟨_, hm, rfl⟩
      rw [List.mem_toFinset, List.mem_map] at hj2
      obtain ⟨⟨_, m2⟩, hm2, rfl⟩ := hj2
      obtain ⟨y, l, e1, e2, -⟩ := htrue _ m m2 hm hm2
      refine ⟨y, fun m' hm' => ?_⟩
      have : m' = m := congrArg Prod.snd (List.inj_on_of_nodup_map nd hm' hm rfl)
      rw [this]
      exact ⟨l, e1, e2⟩
    · exact ⟨0, fun m hm => absurd ⟨m, hm⟩ hj⟩
  choose y hy using key
  exact ⟨y, hy⟩

/-- The `r` of a signature, from the scalars in the points encrypted in round 1. -/
private theorem signing_nonce {E : Env q I Ep G} (hC : CurveLaws E.C q) (hg : E.C.g ≠ 0) {epidOf : BMap I G → BMap I PublicAux → Ep} {message : ZMod q}
    {keyShare : KeyShare I (ZMod q) G} {auxInfo : AuxInfo I PaillierKey PublicAux} {me : I} {d : Draws q I} {r : Round1 q I Ep G}
    (hr : start E epidOf message keyShare auxInfo me d = .ok r)
    {in1 : List (I × Msg1 q G)} {in2 : List (I × Msg2 q I G)} {in3 : List (I × Msg3 q G)} {in4 : List (I × ZMod q)} {inErr : List (I × MsgErr I G)}
    {sig : RecoverableSignature q} (h : run E r in1 in2 in3 in4 inErr = .ok sig)
    (htrue : ∀ j m m2, (j, m) ∈ in1 → (j, m2) ∈ in2 → ∃ y lambda : ZMod q, m.echo.capB1 = lambda • E.C.g ∧
      m.echo.capB2 = lambda • m.echo.capY + y • E.C.g ∧ m2.echo.capGamma = y • E.C.g) {y : I → ZMod q} (hy : Opens E.C.g in1 y) :
    sig.r = (E.C.x ((d.gamma + ∑ j ∈ keyShare.pub.keySet.erase me, y j) • E.C.g) : ZMod q) := by
  obtain ⟨⟨-, to1⟩, -, to2⟩ := signing_senders hr h
  have cancel : ∀ {a b : ZMod q}, a • E.C.g = b • E.C.g → a = b := by
    intro a b hab
    have : (a - b) • E.C.g = 0 := by rw [sub_smul, hab, sub_self]
    exact sub_eq_zero.1 ((smul_eq_zero.1 this).resolve_right hg)
  have hne : ∀ a ∈ in2, a.1 ∈ keyShare.pub.keySet.erase me := fun a ha => by
    rw [← to2, List.mem_toFinset]; exact List.mem_map.2 ⟨a, ha, rfl⟩
  obtain ⟨s, -, hs⟩ := run_determined hC hr h (fun j => (if j = me then d.gamma else y j) • E.C.g) (by simp) (by
    intro a ha
    simp only [if_neg (Finset.ne_of_mem_erase (hne a ha))]
    have hj := hne a ha
    rw [← to1, List.mem_toFinset, List.mem_map] at hj
    obtain ⟨⟨j, m⟩, hm, e⟩ := hj
    obtain ⟨y', l', a1, a2, a3⟩ := htrue j m a.2 hm (by rw [show j = a.1 from e]; exact ha)
    obtain ⟨l, b1, b2⟩ := hy j m hm
    rw [b1] at a1
    rw [b2, cancel a1] at a2
    rw [a3, ← add_left_cancel a2, ← show j = a.1 from e])
  obtain ⟨-, -, -, e, -⟩ := C44_signature_valid E.C hC _ _ _ _ _ hs
  rw [e]
  have hsum : ∑ i ∈ insert me keyShare.pub.keySet, (if i = me then d.gamma else y i) • E.C.g =
      (d.gamma + ∑ j ∈ keyShare.pub.keySet.erase me, y j) • E.C.g := by
    rw [← Finset.sum_smul, ← Finset.add_sum_erase _ _ (Finset.mem_insert_self me keyShare.pub.keySet), if_pos rfl, Finset.erase_insert_eq_erase]
    congr 2
    exact Finset.sum_congr rfl fun i hi => if_neg (Finset.ne_of_mem_erase hi)
  rw [hsum]

/-- **C61 (nonce of a signature, bound).** Take two runs of the same signer with different draws, in which the others send the same encrypted nonce points
`B1`, `B2`, `Y` in round 1, and do as they like afterwards. Let the statements of the proofs that the points of round 2 are the encrypted ones be true. If
both runs finish, the nonces of the two signatures differ by exactly the difference of the signer's own draws. -/
theorem C61_signing_nonce_bound (E : Env q I Ep G) (hC : CurveLaws E.C q) (hg : E.C.g ≠ 0) (epidOf : BMap I G → BMap I PublicAux → Ep) (message : ZMod q)
    (keyShare : KeyShare I (ZMod q) G) (auxInfo : AuxInfo I PaillierKey PublicAux) (me : I) (d d' : Draws q I) (r r' : Round1 q I Ep G)
    (hr : start E epidOf message keyShare auxInfo me d = .ok r) (hr' : start E epidOf message keyShare auxInfo me d' = .ok r')
    (in1 in1' : List (I × Msg1 q G)) (in2 in2' : List (I × Msg2 q I G)) (in3 in3' : List (I × Msg3 q G)) (in4 in4' : List (I × ZMod q))
    (inErr inErr' : List (I × MsgErr I G))
    (hsame : ∀ j m m', (j, m) ∈ in1 → (j, m') ∈ in1' → m.echo.capB1 = m'.echo.capB1 ∧ m.echo.capB2 = m'.echo.capB2 ∧ m.echo.capY = m'.echo.capY)
    (htrue : ∀ j m m2, (j, m) ∈ in1 → (j, m2) ∈ in2 → ∃ y lambda : ZMod q, m.echo.capB1 = lambda • E.C.g ∧
      m.echo.capB2 = lambda • m.echo.capY + y • E.C.g ∧ m2.echo.capGamma = y • E.C.g)
    (htrue' : ∀ j m m2, (j, m) ∈ in1' → (j, m2) ∈ in2' → ∃ y lambda : ZMod q, m.echo.capB1 = lambda • E.C.g ∧
      m.echo.capB2 = lambda • m.echo.capY + y • E.C.g ∧ m2.echo.capGamma = y • E.C.g)
    (sig sig' : RecoverableSignature q) (h : run E r in1 in2 in3 in4 inErr = .ok sig) (h' : run E r' in1' in2' in3' in4' inErr' = .ok sig') :
    ∃ k k' : ZMod q, sig.r = (E.C.x (k • E.C.g) : ZMod q) ∧ sig'.r = (E.C.x (k' • E.C.g) : ZMod q) ∧ k - k' = d.gamma - d'.gamma := by
  obtain ⟨⟨nd1, to1⟩, -, to2⟩ := signing_senders hr h
  obtain ⟨⟨-, to1'⟩, -, -⟩ := signing_senders hr' h'
  obtain ⟨y, hy⟩ := exists_opens hg nd1 (to1.trans to2.symm) htrue
  have hy' : Opens E.C.g in1' y := by
    intro j m' hm'
    have hj : j ∈ (in1.map Prod.fst).toFinset := by rw [to1, ← to1', List.mem_toFinset]; exact List.mem_map.2 ⟨_, hm', rfl⟩
    rw [List.mem_toFinset, List.mem_map] at hj
    obtain ⟨⟨_, m⟩, hm, rfl⟩ := hj
    obtain ⟨s1, s2, s3⟩ := hsame _ m m' hm hm'
    rw [← s1, ← s2, ← s3]
    exact hy _ m hm
  exact ⟨_, _, signing_nonce hC hg hr h htrue hy, signing_nonce hC hg hr' h' htrue' hy', by abel⟩

/-- **C61 (nonce of a signature).** Let a signer draw its nonce share uniformly. The others send their round 1 messages independently of it and do as they
like afterwards, except that the statements of the proofs that the points of round 2 are those encrypted in round 1 are true. Then the signature has a given
`r` with a probability of at most the number of nonces with that `r` (four at most on a curve like secp256k1) over the order of the group. -/
theorem C61_signing_nonce_unpredictable (E : Env q I Ep G) (hC : CurveLaws E.C q) (hg : E.C.g ≠ 0) (epidOf : BMap I G → BMap I PublicAux → Ep)
    (message : ZMod q) (keyShare : KeyShare I (ZMod q) G) (auxInfo : AuxInfo I PaillierKey PublicAux) (me : I)
    (d : ZMod q → Draws q I) (hd : ∀ x, (d x).gamma = x) (r : ZMod q → Round1 q I Ep G)
    (hr : ∀ x, start E epidOf message keyShare auxInfo me (d x) = .ok (r x))
    (in1 : List (I × Msg1 q G)) (in2 : ZMod q → List (I × Msg2 q I G)) (in3 : ZMod q → List (I × Msg3 q G)) (in4 : ZMod q → List (I × ZMod q))
    (inErr : ZMod q → List (I × MsgErr I G))
    (htrue : ∀ x, (run E (r x) in1 (in2 x) (in3 x) (in4 x) (inErr x)).isOk → ∀ j m m2, (j, m) ∈ in1 → (j, m2) ∈ in2 x →
      ∃ y lambda : ZMod q, m.echo.capB1 = lambda • E.C.g ∧ m.echo.capB2 = lambda • m.echo.capY + y • E.C.g ∧ m2.echo.capGamma = y • E.C.g)
    (target : ZMod q) (ev : Out (Abort I (Err I)) (RecoverableSignature q) → Prop) [DecidablePred ev]
    (hev : ∀ o, ev o → ∃ sig, o = .ok sig ∧ sig.r = target) :
    prob Finset.univ (fun x => run E (r x) in1 (in2 x) (in3 x) (in4 x) (inErr x)) ev ≤
      (Finset.univ.filter fun k : ZMod q => (E.C.x (k • E.C.g) : ZMod q) = target).card / q := by
  classical
  unfold prob
  rw [Finset.card_univ, ZMod.card]
  have hq : (0 : ℚ) < q := by exact_mod_cast (Fact.out : q.Prime).pos
  rw [div_le_div_iff_of_pos_right hq, Nat.cast_le]
  rcases (Finset.univ.filter fun x => ev (run E (r x) in1 (in2 x) (in3 x) (in4 x) (inErr x))).eq_empty_or_nonempty with h0 | ⟨z, hz⟩
  · rw [h0]; simp
  obtain ⟨sigz, hz, -⟩ := hev _ (Finset.mem_filter.1 hz).2
  obtain ⟨⟨nd, to1⟩, -, to2⟩ := signing_senders (hr z) hz
  obtain ⟨y, hy⟩ := exists_opens hg nd (to1.trans to2.symm) (htrue z (by rw [hz]; rfl))
  refine Finset.card_le_card_of_injOn (fun x => x + ∑ j ∈ keyShare.pub.keySet.erase me, y j) ?_ (fun a _ b _ h => add_right_cancel h)
  intro x hx
  obtain ⟨sig, h, e⟩ := hev _ (Finset.mem_filter.1 hx).2
  replace h : run E (r x) in1 (in2 x) (in3 x) (in4 x) (inErr x) = .ok sig := h
  have := signing_nonce hC hg (hr x) h (htrue x (by rw [h]; rfl)) hy
  rw [hd, e] at this
  exact Finset.mem_coe.2 (Finset.mem_filter.2 ⟨Finset.mem_univ _, this.symm⟩)

section Example

attribute [local instance] Toy.fact11 Toy.order11

private def uSignDraws (x : ZMod 11) (i : Nat) : Draws 11 Nat := if i = 1 then { Toy.signDraws 1 with gamma := x } else Toy.signDraws i

/-- Two peers with fixed round 1 messages that answer honestly, or not at all if the result would not be a signature: the hypotheses of
`C61_signing_nonce_unpredictable` are met, and party 1 gets a signature for several of its draws. -/
example : ∃ (info : AuxInfo Nat PaillierKey PublicAux) (r : ZMod 11 → Round1 11 Nat Nat (ZMod 11)) (in1 : List (Nat × Msg1 11 (ZMod 11)))
    (in2 : ZMod 11 → List (Nat × Msg2 11 Nat (ZMod 11))) (in3 : ZMod 11 → List (Nat × Msg3 11 (ZMod 11))) (in4 : ZMod 11 → List (Nat × ZMod 11)),
    (∀ x, (uSignDraws x 1).gamma = x) ∧ (∀ x, start Toy.signEnv (fun _ _ => 7) (5 : ZMod 11) (Toy.signShares 1) info 1 (uSignDraws x 1) = .ok (r x)) ∧
    (∀ x, ∀ j m m2, (j, m) ∈ in1 → (j, m2) ∈ in2 x → ∃ y lambda : ZMod 11, m.echo.capB1 = lambda • Toy.signEnv.C.g ∧
      m.echo.capB2 = lambda • m.echo.capY + y • Toy.signEnv.C.g ∧ m2.echo.capGamma = y • Toy.signEnv.C.g) ∧
    (∃ sig, run Toy.signEnv (r 2) in1 (in2 2) (in3 2) (in4 2) [] = .ok sig) ∧ ∃ sig, run Toy.signEnv (r 6) in1 (in2 6) (in3 6) (in4 6) [] = .ok sig := by
  obtain ⟨infos, haux, hmod⟩ := Toy.exists_signInfos
  have hd : ∀ x, SigningDrawsValid Toy.signEnv.P Toy.parties (fun i => (infos i).secret.modulus) (fun i => (Toy.ringPedersen i).modulus) (uSignDraws x) := by
    intro x
    have h := Toy.signDraws_valid
    rw [funext hmod]
    have e : ∀ {T : Type} (f : Draws 11 Nat → T) (_ : f { Toy.signDraws 1 with gamma := x } = f (Toy.signDraws 1)) i, f (uSignDraws x i) = f (Toy.signDraws i) := by
      intro T f hf i
      unfold uSignDraws
      split
      · rename_i hi; rw [hf, hi]
      · rfl
    refine ⟨?_, ?_, ?_, ?_, ?_, ?_⟩
    · intro i hi; rw [e Draws.nu rfl]; exact h.nu i hi
    · intro i hi; rw [e Draws.rho rfl]; exact h.rho i hi
    · intro i hi j hj hne; rw [e Draws.enc0 rfl]; exact h.enc0 i hi j hj hne
    · intro i hi j hj hne; rw [e Draws.enc1 rfl]; exact h.enc1 i hi j hj hne
    · intro i hi j hj hne; rw [e Draws.mta rfl]; exact h.mta i hi j hj hne
    · intro i hi j hj hne; rw [e Draws.hatMta rfl]; exact h.hatMta i hi j hj hne
  have hst' : ∀ x i, ∃ r : Round1 11 Nat Nat (ZMod 11), i ∈ Toy.parties →
      start Toy.signEnv (fun _ _ => 7) (5 : ZMod 11) (Toy.signShares i) (infos i) i (uSignDraws x i) = .ok r := by
    intro x i
    have hst := C41_honest_start Toy.signEnv Toy.signEnv_setting (fun _ _ => 7) 5 6 Toy.parties Toy.signShares Toy.signShares_valid infos Toy.ringPedersen haux (uSignDraws x)
    by_cases hi : i ∈ Toy.parties
    · obtain ⟨r, -, hr⟩ := hst i hi
      exact ⟨r, fun _ => hr⟩
    · obtain ⟨r, -, hr⟩ := hst 1 (by decide)
      exact ⟨r, fun h => absurd h hi⟩
  choose r1 hr1 using hst'
  have hsame : ∀ x y, ∀ j ∈ Toy.parties, j ≠ 1 → r1 x j = r1 y j := by
    intro x y j hj hne
    have h1 := hr1 x j hj
    have h2 := hr1 y j hj
    have : uSignDraws x j = uSignDraws y j := by unfold uSignDraws; rw [if_neg hne, if_neg hne]
    rw [this, h2] at h1
    exact (Out.ok.inj h1).symm
  have hm : ∀ j, ∃ m, j ∈ Toy.parties.erase 1 → msg1 Toy.signEnv (r1 2 j) 1 = .ok m := by
    obtain ⟨sig, m1, r2, r3, h1, -, -, h4, hm1, -⟩ := C41_honest_signature Toy.signEnv Toy.signEnv_setting (fun _ _ => 7) 5 6 Toy.parties Toy.signShares Toy.signShares_valid
      infos Toy.ringPedersen haux (uSignDraws 2) (hd 2) (r1 2) (hr1 2) (by decide +kernel) (by decide +kernel) (by decide +kernel) (by decide +kernel) (by decide +kernel)
    exact fun j => ⟨m1 j 1, fun hj => hm1 j (Finset.mem_of_mem_erase hj) 1 (by decide) (Finset.ne_of_mem_erase hj)⟩
  choose m hm using hm
  have key : ∀ x : ZMod 11, ∃ in2 in3 in4, (x = 2 ∨ x = 6 → ∃ sig, run Toy.signEnv (r1 x 1) (Toy.arrivals m 1) in2 in3 in4 [] = .ok sig) ∧
      ∀ a ∈ in2, a.1 ∈ Toy.parties.erase 1 ∧ a.2.echo.capGamma = (Toy.signDraws a.1).gamma • Toy.signEnv.C.g := by
    intro x
    by_cases hx : x = 2 ∨ x = 6
    · obtain ⟨sig, m1, r2, r3, h1, -, -, h4, hm1, hrun⟩ := C41_honest_signature Toy.signEnv Toy.signEnv_setting (fun _ _ => 7) 5 6 Toy.parties Toy.signShares
        Toy.signShares_valid infos Toy.ringPedersen haux (uSignDraws x) (hd x) (r1 x) (hr1 x) (by rcases hx with rfl | rfl <;> decide +kernel)
        (by rcases hx with rfl | rfl <;> decide +kernel) (by rcases hx with rfl | rfl <;> decide +kernel) (by rcases hx with rfl | rfl <;> decide +kernel)
        (by rcases hx with rfl | rfl <;> decide +kernel)
      have e : Toy.arrivals m 1 = Toy.arrivals (fun j => m1 j 1) 1 := by
        refine List.map_congr_left fun j hj => ?_
        have hj' := mem_bsetIter.1 hj
        have a1 := hm1 j (Finset.mem_of_mem_erase hj') 1 (by decide) (Finset.ne_of_mem_erase hj')
        rw [hsame x 2 j (Finset.mem_of_mem_erase hj') (Finset.ne_of_mem_erase hj'), hm j hj'] at a1
        rw [Out.ok.inj a1]
      obtain ⟨h2, hrun⟩ := hrun (fun i => Toy.arrivals (fun j => m1 j i) i) (fun i _ => Toy.arrivals_fromOthers _ i)
      obtain ⟨-, hrun⟩ := hrun (fun i => Toy.arrivals (fun j => msg2 (r2 j)) i) (fun i _ => Toy.arrivals_fromOthers _ i)
      obtain ⟨r4, -, hrun⟩ := hrun (fun i => Toy.arrivals (fun j => (r3 j).msg) i) (fun i _ => Toy.arrivals_fromOthers _ i)
      have hfin := hrun (fun i => Toy.arrivals (fun j => (r4 j).sigma) i) (fun _ => []) (fun i _ => Toy.arrivals_fromOthers _ i) 1 (by decide)
      refine ⟨_, _, _, fun _ => ⟨sig, by rw [e]; exact hfin⟩, ?_⟩
      intro a ha
      obtain ⟨j, hj, rfl⟩ := List.mem_map.1 ha
      have hj' := mem_bsetIter.1 hj
      refine ⟨hj', ?_⟩
      obtain ⟨_, _, _, _, hG, _⟩ := toRound2_state Toy.signEnv_setting (h2 j (Finset.mem_of_mem_erase hj'))
      obtain ⟨_, _, _, _, _, _, _, hdj, _⟩ := start_eq_ok (hr1 x j (Finset.mem_of_mem_erase hj'))
      rw [hdj] at hG
      unfold uSignDraws at hG
      rw [if_neg (Finset.ne_of_mem_erase hj')] at hG
      exact hG
    · exact ⟨[], [], [], fun h => absurd h hx, by simp⟩
  choose in2 in3 in4 hrun hgam using key
  refine ⟨infos 1, fun x => r1 x 1, Toy.arrivals m 1, in2, in3, in4, fun x => rfl, fun x => hr1 x 1 (by decide), ?_, hrun 2 (.inl rfl), hrun 6 (.inr rfl)⟩
  intro x j n m2 hn hm2
  obtain ⟨hj, hG⟩ := hgam x _ hm2
  obtain ⟨j', -, e⟩ := List.mem_map.1 hn
  obtain ⟨rfl, rfl⟩ := Prod.mk.inj e
  have h1 := hm j' hj
  have h2 := hr1 2 j' (Finset.mem_of_mem_erase hj)
  have hecho : (m j').echo = (r1 2 j').echo := by
    unfold msg1 at h1
    simp only [Out.bind_eq_ok] at h1
    obtain ⟨_, _, _, _, _, _, _, _, _, _, h1⟩ := h1
    exact (congrArg Msg1.echo (Out.ok.inj h1)).symm
  have hdr : uSignDraws 2 j' = Toy.signDraws j' := if_neg (Finset.ne_of_mem_erase hj)
  refine ⟨(Toy.signDraws j').gamma, (Toy.signDraws j').b, ?_, ?_, hG⟩
  all_goals
    rw [hecho]
    unfold start at h2
    split at h2
    · cases h2
    simp only [Out.bind_eq_ok] at h2
    obtain ⟨_, _, _, _, _, _, _, _, _, _, h2⟩ := h2
    have := congrArg Round1.echo (Out.ok.inj h2)
    rw [← this, hdr]

end Example

end Signature

end Synedrion.Props
