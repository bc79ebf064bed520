import Verif.Lemmas.NetworkEvidence
import Verif.Lemmas.NetworkScriptSigning

/-!
# What the parties of a concurrent execution of signing can present as evidence
-/

set_option linter.unusedSectionVars false

namespace Synedrion.Signing

variable {q : Nat} [Fact q.Prime] {I Ep G : Type} [LinearOrder I] [AddCommGroup G] [Module (ZMod q) G] [DecidableEq G] {E : Env q I Ep G}

theorem echosOf_one (in1 : List (I × Msg1 q G)) :
    Spec.echosOf (Message.part (I := I)) 1 (in1.map fun a => (a.1, .one a.2)) = in1.map fun a => (a.1, a.2.echo) := by
  unfold Spec.echosOf
  rw [List.filterMap_map]
  induction in1 with
  | nil => rfl
  | cons a l ih => rw [List.map_cons, ← ih]; rfl

theorem echosOf_two (in2 : List (I × Msg2 q I G)) :
    Spec.echosOf (Message.part (I := I)) 2 (in2.map fun a => (a.1, .two a.2)) = in2.map fun a => (a.1, a.2.echo) := by
  unfold Spec.echosOf
  rw [List.filterMap_map]
  induction in2 with
  | nil => rfl
  | cons a l ih => rw [List.map_cons, ← ih]; rfl

theorem echosOf_three (in3 : List (I × Msg3 q G)) :
    Spec.echosOf (Message.part (I := I)) 3 (in3.map fun a => (a.1, .three a.2)) = in3.map fun a => (a.1, a.2.delta) := by
  unfold Spec.echosOf
  rw [List.filterMap_map]
  induction in3 with
  | nil => rfl
  | cons a l ih => rw [List.map_cons, ← ih]; rfl

variable {honest : Set I} {r : I → Round1 q I Ep G} {init : I → State q I Ep G}
  {n : Spec.Net I (Message q I G) (State q I Ep G) (Err I) (RecoverableSignature q)}

theorem fol (hinit : ∀ i ∈ honest, begin E (r i) = .ok (init i)) {i : I} (hi : i ∈ honest) {l : List (List (I × Message q I G))} {s : State q I Ep G}
    (hx : (machine E).replay (init i) l = .ok (.inl s)) : ∃ out, send1 E (r i) = .ok out ∧ Follows E (r i) out l s := by
  have := hinit i hi
  unfold begin at this
  rw [Out.bind_eq_ok] at this
  obtain ⟨out, ho, he⟩ := this
  rw [← Out.ok.inj he] at hx
  rcases replay_inv ho hx with ⟨s', hs, hf⟩ | ⟨_, hs, _⟩
  · cases hs
    exact ⟨out, ho, hf⟩
  · cases hs

/-- The rounds of a party, given by what it has received according to its record -/
inductive Stage (E : Env q I Ep G) (r : Round1 q I Ep G) (in1 : List (I × Msg1 q G)) (in2 : List (I × Msg2 q I G)) (in3 : List (I × Msg3 q G)) : Nat → State q I Ep G → Prop where
  | one (out : List (I × Msg1 q G)) : send1 E r = .ok out → Stage E r in1 in2 in3 0 (.one r out)
  | two (r2 : Round2 q I Ep G) : toRound2 E r in1 = .ok r2 → Stage E r in1 in2 in3 1 (.two r2)
  | three (r3 : Round3 q I Ep G) : toRound3 E r in1 in2 = .ok r3 → Stage E r in1 in2 in3 2 (.three r3)
  | four (r4 : Round4 q I Ep G) : toRound4 E r in1 in2 in3 = .ok (.round4 r4) → Stage E r in1 in2 in3 3 (.four r4)
  | error (re : ErrRound q I Ep G) (m : MsgErr I G) : toRound4 E r in1 in2 in3 = .ok (.error re) → msgErr E re = .ok m → Stage E r in1 in2 in3 3 (.error re m)

theorem stage (hinit : ∀ i ∈ honest, begin E (r i) = .ok (init i)) {i : I} (hi : i ∈ honest) {l : List (List (I × Message q I G))} {s : State q I Ep G}
    (hl : l <+: (n.past i).map Prod.snd) (hx : (machine E).replay (init i) l = .ok (.inl s)) : Stage E (r i) (got1 n i) (got2 n i) (got3 n i) l.length s := by
  obtain ⟨out, ho, hf⟩ := fol hinit hi hx
  cases hf with
  | one => exact .one out ho
  | two in1 r2 h2 =>
    have e1 : got1 n i = in1 := by unfold got1; rw [Spec.Machine.nth_of_prefix hl (k := 0) (by simp)]; exact parts_one in1
    rw [← e1] at h2
    exact .two r2 h2
  | three in1 in2 r3 h3 =>
    have e1 : got1 n i = in1 := by unfold got1; rw [Spec.Machine.nth_of_prefix hl (k := 0) (by simp)]; exact parts_one in1
    have e2 : got2 n i = in2 := by unfold got2; rw [Spec.Machine.nth_of_prefix hl (k := 1) (by simp)]; exact parts_two in2
    rw [← e1, ← e2] at h3
    exact .three r3 h3
  | four in1 in2 in3 r4 h4 =>
    have e1 : got1 n i = in1 := by unfold got1; rw [Spec.Machine.nth_of_prefix hl (k := 0) (by simp)]; exact parts_one in1
    have e2 : got2 n i = in2 := by unfold got2; rw [Spec.Machine.nth_of_prefix hl (k := 1) (by simp)]; exact parts_two in2
    have e3 : got3 n i = in3 := by unfold got3; rw [Spec.Machine.nth_of_prefix hl (k := 2) (by simp)]; exact parts_three in3
    rw [← e1, ← e2, ← e3] at h4
    exact .four r4 h4
  | error in1 in2 in3 re m h4 hm =>
    have e1 : got1 n i = in1 := by unfold got1; rw [Spec.Machine.nth_of_prefix hl (k := 0) (by simp)]; exact parts_one in1
    have e2 : got2 n i = in2 := by unfold got2; rw [Spec.Machine.nth_of_prefix hl (k := 1) (by simp)]; exact parts_two in2
    have e3 : got3 n i = in3 := by unfold got3; rw [Spec.Machine.nth_of_prefix hl (k := 2) (by simp)]; exact parts_three in3
    rw [← e1, ← e2, ← e3] at h4
    exact .error re m h4 hm

theorem map_parts {M A : Type} {f : M → Option A} {g : A → M} (hinj : ∀ m a, f m = some a → m = g a) {got : List (I × M)} (h : ∀ b ∈ got, (f b.2).isSome) :
    got = (parts f got).map fun a => (a.1, g a.2) := by
  induction got with
  | nil => rfl
  | cons b got ih =>
    obtain ⟨a, ha⟩ := Option.isSome_iff_exists.1 (h b (by simp))
    have ih := ih fun b' hb' => h b' (by simp [hb'])
    have : parts f (b :: got) = (b.1, a) :: parts f got := by
      unfold parts
      rw [List.filterMap_cons_some (b := (b.1, a)) (by simp [ha])]
    rw [this, List.map_cons, ← ih, ← hinj _ _ ha]

theorem accepted_parts {M A Er Pl : Type} {f : M → Option A} {g : A → M} {recv : I → A → Out (RecvErr Er) Pl} (hinj : ∀ m a, f m = some a → m = g a) {got : List (I × M)}
    (h : ∀ b ∈ got, acceptPart f recv b.1 b.2 = .ok ()) : got = (parts f got).map fun a => (a.1, g a.2) :=
  map_parts hinj fun b hb => by
    obtain ⟨v, -, hv, -⟩ := acceptPart_eq_ok.1 (h b hb)
    rw [hv]; rfl

/-- A round that a party has completed -/
theorem past_stage (hinit : ∀ i ∈ honest, begin E (r i) = .ok (init i)) (h : (machine E).Reachable honest init n) {i : I} (hi : i ∈ honest)
    {x : State q I Ep G × List (I × Message q I G)} (hx : x ∈ n.past i) : ∃ k, Stage E (r i) (got1 n i) (got2 n i) (got3 n i) k x.1 ∧ k < (n.past i).length ∧ x.2 = Spec.Machine.nth n i k ∧
      ((machine E).round x.1 = 1 → x.2 = (got1 n i).map fun a => (a.1, .one a.2)) ∧ ((machine E).round x.1 = 2 → x.2 = (got2 n i).map fun a => (a.1, .two a.2)) ∧
      ((machine E).round x.1 = 3 → x.2 = (got3 n i).map fun a => (a.1, .three a.2)) := by
  obtain ⟨pre, post, hdec⟩ := List.append_of_mem hx
  have hrep := h.past_replay i pre x.1 x.2 post hdec
  have hst := stage (n := n) hinit hi (by rw [hdec]; exact (List.prefix_append _ _).map _) hrep
  rw [List.length_map] at hst
  have hnth : x.2 = Spec.Machine.nth n i pre.length := by
    unfold Spec.Machine.nth
    rw [hdec, List.map_append, List.getElem?_append_right (by simp)]
    simp
  have hacc := ((h.inv i).past x hx).2.1.2.2
  refine ⟨pre.length, hst, by rw [hdec]; simp, hnth, ?_⟩
  unfold got1 got2 got3 at hst ⊢
  generalize hs : x.1 = s at hst hacc
  generalize hk : pre.length = k at hst hnth
  cases hst with
  | one out ho =>
    rw [← hnth]
    exact ⟨fun _ => accepted_parts one_inj hacc, fun hr => (by cases hr), fun hr => by cases hr⟩
  | two r2 h2 =>
    rw [← hnth]
    exact ⟨fun hr => (by cases hr), fun _ => accepted_parts two_inj hacc, fun hr => by cases hr⟩
  | three r3 h3 =>
    rw [← hnth]
    exact ⟨fun hr => (by cases hr), fun hr => (by cases hr), fun _ => accepted_parts three_inj hacc⟩
  | four r4 h4 => exact ⟨fun hr => (by cases hr), fun hr => (by cases hr), fun hr => by cases hr⟩
  | error re m h4 hm =>
    have h56 : (machine E).round (.error re m) = 5 ∨ (machine E).round (.error re m) = 6 := by
      show (if re.hat then 6 else 5) = 5 ∨ (if re.hat then 6 else 5) = 6
      cases re.hat <;> simp
    refine ⟨fun hr => ?_, fun hr => ?_, fun hr => ?_⟩ <;> · rw [hr] at h56; simp at h56

/-- The first rounds of a party that has come further -/
theorem past_at (h : (machine E).Reachable honest init n) {i : I} {k : Nat} (hk : k < (n.past i).length) :
    ∃ x ∈ n.past i, (machine E).replay (init i) (((n.past i).map Prod.snd).take k) = .ok (.inl x.1) := by
  have hdec : n.past i = (n.past i).take k ++ ((n.past i)[k].1, (n.past i)[k].2) :: (n.past i).drop (k + 1) := by
    conv_lhs => rw [← List.take_append_drop k (n.past i), List.drop_eq_getElem_cons hk]
  exact ⟨(n.past i)[k], List.getElem_mem hk, by rw [← List.map_take]; exact h.past_replay i _ _ _ _ hdec⟩

theorem past_first (hinit : ∀ i ∈ honest, begin E (r i) = .ok (init i)) (h : (machine E).Reachable honest init n) {i : I} (hi : i ∈ honest) (hlen : 1 ≤ (n.past i).length) :
    ∃ x ∈ n.past i, ∃ out, send1 E (r i) = .ok out ∧ x.1 = .one (r i) out ∧ x.2 = (got1 n i).map fun a => (a.1, .one a.2) := by
  obtain ⟨x, hx, hrep⟩ := past_at h (k := 0) hlen
  have hst := stage (n := n) hinit hi (List.take_prefix _ _) hrep
  obtain ⟨-, -, -, -, h1, -, -⟩ := past_stage hinit h hi hx
  rw [List.length_take, List.length_map, Nat.zero_min] at hst
  generalize hs : x.1 = s at hst
  rw [hs] at h1
  cases hst with
  | one out ho => exact ⟨x, hx, out, ho, hs, h1 rfl⟩

theorem past_second (hinit : ∀ i ∈ honest, begin E (r i) = .ok (init i)) (h : (machine E).Reachable honest init n) {i : I} (hi : i ∈ honest) (hlen : 2 ≤ (n.past i).length) :
    ∃ x ∈ n.past i, ∃ r2, toRound2 E (r i) (got1 n i) = .ok r2 ∧ x.1 = .two r2 ∧ x.2 = (got2 n i).map fun a => (a.1, .two a.2) := by
  obtain ⟨x, hx, hrep⟩ := past_at h (k := 1) hlen
  have hst := stage (n := n) hinit hi (List.take_prefix _ _) hrep
  obtain ⟨-, -, -, -, -, h2, -⟩ := past_stage hinit h hi hx
  rw [List.length_take, List.length_map, Nat.min_eq_left (by omega)] at hst
  generalize hs : x.1 = s at hst
  rw [hs] at h2
  cases hst with
  | two r2 hr => exact ⟨x, hx, r2, hr, hs, h2 rfl⟩

theorem past_third (hinit : ∀ i ∈ honest, begin E (r i) = .ok (init i)) (h : (machine E).Reachable honest init n) {i : I} (hi : i ∈ honest) (hlen : 3 ≤ (n.past i).length) :
    ∃ x ∈ n.past i, ∃ r3, toRound3 E (r i) (got1 n i) (got2 n i) = .ok r3 ∧ x.1 = .three r3 ∧ x.2 = (got3 n i).map fun a => (a.1, .three a.2) := by
  obtain ⟨x, hx, hrep⟩ := past_at h (k := 2) hlen
  have hst := stage (n := n) hinit hi (List.take_prefix _ _) hrep
  obtain ⟨-, -, -, -, -, -, h3⟩ := past_stage hinit h hi hx
  rw [List.length_take, List.length_map, Nat.min_eq_left (by omega)] at hst
  generalize hs : x.1 = s at hst
  rw [hs] at h3
  cases hst with
  | three r3 hr => exact ⟨x, hx, r3, hr, hs, h3 rfl⟩

/-- The messages of an honest party -/
theorem sent (hinit : ∀ i ∈ honest, begin E (r i) = .ok (init i)) (h : (machine E).Reachable honest init n) {i j : I} (hj : j ∈ honest) {k : Nat} {m : Message q I G}
    (hs : (machine E).Sent n j i k m) :
    (k = 1 ∧ ∃ m1, msg1 E (r j) i = .ok m1 ∧ m = .one m1) ∨ (k = 2 ∧ ∃ r2, toRound2 E (r j) (got1 n j) = .ok r2 ∧ m = .two (msg2 r2)) ∨
      (k = 3 ∧ ∃ r3, toRound3 E (r j) (got1 n j) (got2 n j) = .ok r3 ∧ m = .three r3.msg) ∨
      (k = 4 ∧ ∃ r4, toRound4 E (r j) (got1 n j) (got2 n j) (got3 n j) = .ok (.round4 r4) ∧ m = .four r4.sigma) ∨
      ((k = 5 ∨ k = 6) ∧ ∃ re m', toRound4 E (r j) (got1 n j) (got2 n j) (got3 n j) = .ok (.error re) ∧ msgErr E re = .ok m' ∧ m = .error m') := by
  obtain ⟨s, l, hl, hr, hk, hm⟩ := h.of_sent hs
  have hst := stage (n := n) hinit hj hl hr
  generalize l.length = len at hst
  cases hst with
  | one out ho =>
    obtain ⟨a, ha, he⟩ := List.mem_map.1 hm
    cases he
    exact .inl ⟨hk.symm, a.2, send1_mem ho ha, rfl⟩
  | two r2 h2 => exact .inr (.inl ⟨hk.symm, r2, h2, (mem_toAll.1 hm).2⟩)
  | three r3 h3 => exact .inr (.inr (.inl ⟨hk.symm, r3, h3, (mem_toAll.1 hm).2⟩))
  | four r4 h4 => exact .inr (.inr (.inr (.inl ⟨hk.symm, r4, h4, (mem_toAll.1 hm).2⟩)))
  | error re m' h4 hm' =>
    refine .inr (.inr (.inr (.inr ⟨?_, re, m', h4, hm', (mem_toAll.1 hm).2⟩)))
    rw [← hk]
    show (if re.hat then 6 else 5) = 5 ∨ (if re.hat then 6 else 5) = 6
    cases re.hat <;> simp

theorem sent_length (hinit : ∀ i ∈ honest, begin E (r i) = .ok (init i)) (h : (machine E).Reachable honest init n) {i j : I} (hj : j ∈ honest) {k : Nat} {m : Message q I G}
    (hs : (machine E).Sent n j i (k + 1) m) (hk : k ≤ 3) : k ≤ (n.past j).length := by
  obtain ⟨s, l, hl, hr, hks, -⟩ := h.of_sent hs
  have hst := stage (n := n) hinit hj hl hr
  have hle := hl.length_le
  rw [List.length_map] at hle
  generalize l.length = len at hst hle
  cases hst with
  | one => change 1 = k + 1 at hks; omega
  | two => change 2 = k + 1 at hks; omega
  | three => change 3 = k + 1 at hks; omega
  | four => change 4 = k + 1 at hks; omega
  | error re m' h4 hm' =>
    change (if re.hat then 6 else 5) = k + 1 at hks
    split at hks <;> omega

theorem toRound4_ctx {r : Round1 q I Ep G} {in1 : List (I × Msg1 q G)} {in2 : List (I × Msg2 q I G)} {in3 : List (I × Msg3 q G)} {r4 : Round4 q I Ep G}
    (h : toRound4 E r in1 in2 in3 = .ok (.round4 r4)) (hme : r.ctx.myId ∉ r.ctx.otherIds) : r4.ctx = r.ctx := by
  obtain ⟨r3, pl, -, hctx, hown, hc, hf⟩ := toRound4_ok h
  obtain ⟨-, -, ks, -⟩ := collect_eq_ok.1 hc
  obtain ⟨_, -, -, -, -, h4, -⟩ := finalize3_round4 hown (by rw [ks, hctx]; exact hme) hf
  rw [h4, hctx]

theorem exists_echosAgainst {A : Type} {ids : Finset I} {i j : I} (hi : i ∈ ids) (hij : j ≠ i) (own : A) {rec : List (I × A)} (nd : (rec.map Prod.fst).Nodup)
    (ex : (rec.map Prod.fst).toFinset = ids.erase i) : ∃ e, Spec.EchosAgainst ids i j own rec e := by
  have hni : i ∉ rec.map Prod.fst := fun hm => by
    rw [← List.mem_toFinset, ex] at hm
    simp at hm
  have nd' : (((i, own) :: rec.filter (fun b => b.1 ≠ j)).map Prod.fst).Nodup := by
    rw [List.map_cons, List.nodup_cons]
    have hsub : ((rec.filter (fun b => b.1 ≠ j)).map Prod.fst).Sublist (rec.map Prod.fst) := List.filter_sublist.map _
    exact ⟨fun hm => hni (hsub.subset hm), nd.sublist hsub⟩
  refine ⟨.ofList ((i, own) :: rec.filter (fun b => b.1 ≠ j)), ?_, ?_, ?_⟩
  · ext k
    rw [BMap.mem_keySet, BMap.mem_keys_iff, Finset.mem_erase]
    constructor
    · rintro ⟨v, hv⟩
      rw [BMap.get?_ofList_eq_some nd'] at hv
      rcases List.mem_cons.1 hv with hv | hv
      · cases hv; exact ⟨hij.symm, hi⟩
      · obtain ⟨hv, hk⟩ := List.mem_filter.1 hv
        have : k ∈ rec.map Prod.fst := List.mem_map.2 ⟨_, hv, rfl⟩
        rw [← List.mem_toFinset, ex] at this
        exact ⟨by simpa using hk, Finset.mem_of_mem_erase this⟩
    · rintro ⟨hkj, hk⟩
      by_cases hki : k = i
      · subst hki
        exact ⟨own, (BMap.get?_ofList_eq_some nd').2 (by simp)⟩
      · have : k ∈ rec.map Prod.fst := by
          rw [← List.mem_toFinset, ex]; exact Finset.mem_erase.2 ⟨hki, hk⟩
        obtain ⟨⟨k', v⟩, hv, rfl⟩ := List.mem_map.1 this
        exact ⟨v, (BMap.get?_ofList_eq_some nd').2 (List.mem_cons_of_mem _ (List.mem_filter.2 ⟨hv, by simpa using hkj⟩))⟩
  · exact (BMap.get?_ofList_eq_some nd').2 (by simp)
  · intro b hb hbj
    exact (BMap.get?_ofList_eq_some nd').2 (List.mem_cons_of_mem _ (List.mem_filter.2 ⟨hb, by simpa using hbj⟩))

/-- A party can present what it has received. -/
theorem presentable (hinit : ∀ i ∈ honest, begin E (r i) = .ok (init i)) (h : (machine E).Reachable honest init n) {i j : I} (hi : i ∈ honest) {ids : Finset I} (hme : i ∈ ids)
    (hmy : (r i).ctx.myId = i) (hoth : (r i).ctx.otherIds = ids.erase i) {s : State q I Ep G} {got : List (I × Message q I G)} (hst : n.status i = .running s got)
    (hs : (machine E).round s ≤ 4) (hj : j ∈ (machine E).expected s) (m : Message q I G) : ∃ t, Spec.Presents (machine E) Message.part ids n i s j m t := by
  have hno : (r i).ctx.myId ∉ (r i).ctx.otherIds := by rw [hmy, hoth]; simp
  have hrun := h.running hst
  have hstg := stage (n := n) hinit hi (List.prefix_refl _) hrun
  have hexp : ∀ k s', Stage E (r i) (got1 n i) (got2 n i) (got3 n i) k s' → (machine E).round s' ≤ 4 → (machine E).expected s' = ids.erase i ∧ (machine E).round s' = k + 1 := by
    intro k s' hs' hr
    rw [← hoth]
    cases hs' with
    | one out ho => exact ⟨rfl, rfl⟩
    | two r2 h2 => exact ⟨congrArg Context.otherIds (toRound2_ok h2), rfl⟩
    | three r3 h3 => exact ⟨congrArg Context.otherIds (toRound3_ok h3).1, rfl⟩
    | four r4 h4 => exact ⟨congrArg Context.otherIds (toRound4_ctx h4 hno), rfl⟩
    | error re m h4 hm =>
      have : 5 ≤ (machine E).round (.error re m) := by
        show 5 ≤ (if re.hat then 6 else 5)
        cases re.hat <;> simp
      omega
  have hij : j ≠ i := by
    rw [(hexp _ _ hstg hs).1] at hj
    exact Finset.ne_of_mem_erase hj
  have hlen : ((n.past i).map Prod.snd).length ≤ 3 := by
    generalize ((n.past i).map Prod.snd).length = len at hstg
    cases hstg <;> omega
  have hround : ∀ l s', l <+: (n.past i).map Prod.snd → (machine E).replay (init i) l = .ok (.inl s') → (machine E).round s' ≤ 4 := by
    intro l s' hl hr
    have hs' := stage (n := n) hinit hi hl hr
    generalize hll : l.length = len at hs'
    cases hs' with
    | one => exact (by decide : (1 : Nat) ≤ 4)
    | two => exact (by decide : (2 : Nat) ≤ 4)
    | three => exact (by decide : (3 : Nat) ≤ 4)
    | four => exact (le_refl 4)
    | error re m h4 hm =>
      have : l = (n.past i).map Prod.snd := hl.eq_of_length (by have := hl.length_le; omega)
      rw [this, hrun] at hr
      cases hr
      exact hs
  have hpast : ∀ x ∈ n.past i, ∃ k, Stage E (r i) (got1 n i) (got2 n i) (got3 n i) k x.1 ∧ (machine E).round x.1 ≤ 4 := by
    intro x hx
    obtain ⟨pre, post, hdec⟩ := List.append_of_mem hx
    have hrep := h.past_replay i pre x.1 x.2 post hdec
    have hl : pre.map Prod.snd <+: (n.past i).map Prod.snd := by rw [hdec]; exact (List.prefix_append _ _).map _
    exact ⟨_, stage (n := n) hinit hi hl hrep, hround _ _ hl hrep⟩
  have hrecv : ∀ x ∈ n.past i, ∀ b ∈ x.2, (machine E).recv x.1 b.1 b.2 = .ok () := fun x hx => ((h.inv i).past x hx).2.1.2.2
  refine exists_presents' Message.part h hst (fun l s' hl hr => (hexp _ _ (stage (n := n) hinit hi hl hr) (hround l s' hl hr)).2) hme hij ?_ ?_ m
  · intro x hx
    obtain ⟨k, hk, hr⟩ := hpast x hx
    exact (hexp k _ hk hr).1
  · intro x hx
    obtain ⟨k, hk, -⟩ := hpast x hx
    have hx2 := hrecv x hx
    generalize x.1 = s' at hk hx2
    cases hk with
    | one out ho =>
      intro a ha own hown
      obtain ⟨a0, ha0, rfl⟩ := List.mem_map.1 ha
      refine ⟨fun b hb => ?_, fun a' ha' => ?_⟩
      · obtain ⟨v, -, hv, -⟩ := acceptPart_eq_ok.1 (hx2 b hb)
        rw [one_inj _ _ hv]; rfl
      · obtain ⟨a1, ha1, rfl⟩ := List.mem_map.1 ha'
        rw [← hown]
        show some a1.2.echo = some a0.2.echo
        rw [msg1_echo (send1_mem ho ha0), msg1_echo (send1_mem ho ha1)]
    | two r2 h2 =>
      intro a ha own hown
      obtain ⟨-, ha⟩ := mem_toAll.1 ha
      refine ⟨fun b hb => ?_, fun a' ha' => ?_⟩
      · obtain ⟨v, -, hv, -⟩ := acceptPart_eq_ok.1 (hx2 b hb)
        rw [two_inj _ _ hv]; rfl
      · obtain ⟨-, ha'⟩ := mem_toAll.1 ha'
        rw [ha', ← ha]; exact hown
    | three r3 h3 =>
      intro a ha own hown
      obtain ⟨-, ha⟩ := mem_toAll.1 ha
      refine ⟨fun b hb => ?_, fun a' ha' => ?_⟩
      · obtain ⟨v, -, hv, -⟩ := acceptPart_eq_ok.1 (hx2 b hb)
        rw [three_inj _ _ hv]; rfl
      · obtain ⟨-, ha'⟩ := mem_toAll.1 ha'
        rw [ha', ← ha]; exact hown
    | four r4 h4 =>
      intro a ha own hown
      obtain ⟨-, ha⟩ := mem_toAll.1 ha
      rw [ha] at hown
      cases hown
    | error re m h4 hm =>
      intro a ha own hown
      obtain ⟨-, ha⟩ := mem_toAll.1 ha
      refine ⟨fun b hb => ?_, fun a' ha' => ?_⟩
      · obtain ⟨v, -, hv, -⟩ := acceptPart_eq_ok.1 (hx2 b hb)
        rw [error_inj _ _ hv]
        show (Message.part (Message.error v) (if re.hat then 6 else 5) .echo).isSome
        cases re.hat <;> rfl
      · obtain ⟨-, ha'⟩ := mem_toAll.1 ha'
        rw [ha', ← ha]; exact hown

end Synedrion.Signing
