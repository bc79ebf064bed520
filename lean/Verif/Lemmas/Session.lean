import Verif.Model.Session
import Verif.Spec.Session
import Verif.Lemmas.BMap
import Verif.Lemmas.Entities

/-!
# Lemmas about rounds
-/

set_option linter.unusedSectionVars false

namespace Synedrion

variable {I M Pl E : Type} [LinearOrder I]

theorem Out.mapM'_eq_ok_iff {ε α β : Type} {f : α → Out ε β} {l : List α} {r : List β} :
    Out.mapM' f l = .ok r ↔ List.Forall₂ (fun a b => f a = .ok b) l r := by
  induction l generalizing r with
  | nil => cases r <;> simp [Out.mapM']
  | cons a l ih =>
    simp only [Out.mapM', Out.bind_eq_ok]
    constructor
    · rintro ⟨b, h1, bs, h2, h3⟩
      cases h3
      exact .cons h1 (ih.1 h2)
    · intro h
      cases h with
      | cons h1 h2 => exact ⟨_, h1, _, ih.2 h2, rfl⟩

theorem Out.mapM'_not_ok {ε α β : Type} {f : α → Out ε β} {l : List α} (h : ∀ r, Out.mapM' f l ≠ .ok r) :
    ∃ a ∈ l, ∀ b, f a ≠ .ok b := by
  induction l with
  | nil => exact absurd rfl (h [])
  | cons a l ih =>
    by_cases ha : ∃ b, f a = .ok b
    · obtain ⟨b, hb⟩ := ha
      obtain ⟨x, hx, hx'⟩ := ih (fun r hr => h (b :: r) (by rw [Out.mapM', hb, Out.bind_ok, hr]; rfl))
      exact ⟨x, by simp [hx], hx'⟩
    · exact ⟨a, by simp, fun b hb => ha ⟨b, hb⟩⟩

theorem Out.mapM'_eq_err {ε α β : Type} {f : α → Out ε β} {l : List α} {e : ε} (h : Out.mapM' f l = .err e) :
    ∃ a ∈ l, f a = .err e := by
  induction l with
  | nil => simp [Out.mapM'] at h
  | cons a l ih =>
    rw [Out.mapM'] at h
    cases ha : f a with
    | err e' => rw [ha] at h; simp at h; exact ⟨a, by simp, by rw [ha, h]⟩
    | panic => rw [ha] at h; simp at h
    | ok b =>
      rw [ha, Out.bind_ok] at h
      cases hl : Out.mapM' f l with
      | ok r => rw [hl] at h; simp at h
      | panic => rw [hl] at h; simp at h
      | err e' =>
        rw [hl] at h; simp at h; subst h
        obtain ⟨x, hx, hx'⟩ := ih hl
        exact ⟨x, by simp [hx], hx'⟩

theorem Out.mapM'_eq_panic {ε α β : Type} {f : α → Out ε β} {l : List α} (h : Out.mapM' f l = .panic) :
    ∃ a ∈ l, f a = .panic := by
  induction l with
  | nil => simp [Out.mapM'] at h
  | cons a l ih =>
    rw [Out.mapM'] at h
    cases ha : f a with
    | err e' => rw [ha] at h; simp at h
    | panic => exact ⟨a, by simp, ha⟩
    | ok b =>
      rw [ha, Out.bind_ok] at h
      cases hl : Out.mapM' f l with
      | ok r => rw [hl] at h; simp at h
      | err e => rw [hl] at h; simp at h
      | panic =>
        obtain ⟨x, hx, hx'⟩ := ih hl
        exact ⟨x, by simp [hx], hx'⟩

theorem forall₂_of_forall_exists {α β : Type} {R : α → β → Prop} {l : List α} (h : ∀ a ∈ l, ∃ b, R a b) :
    ∃ r, List.Forall₂ R l r := by
  induction l with
  | nil => exact ⟨[], .nil⟩
  | cons a l ih =>
    obtain ⟨b, hb⟩ := h a (by simp)
    obtain ⟨r, hr⟩ := ih (fun x hx => h x (by simp [hx]))
    exact ⟨b :: r, .cons hb hr⟩

theorem received_eq_ok {i : I} {o : Out (RecvErr E) Pl} {x : I × Pl} : received i o = .ok x ↔ o = .ok x.2 ∧ x.1 = i := by
  obtain ⟨a, b⟩ := x
  cases o with
  | ok p => simp [received]; tauto
  | panic => simp [received]
  | err e => cases e <;> simp [received]

theorem received_eq_panic {i : I} {o : Out (RecvErr E) Pl} : received i o = .panic ↔ o = .panic := by
  cases o with
  | ok p => simp [received]
  | panic => simp [received]
  | err e => cases e <;> simp [received]

theorem received_eq_fault {i j : I} {e : E} {o : Out (RecvErr E) Pl} :
    received i o = .err (.fault j e) ↔ j = i ∧ o = .err (.protocol e) := by
  cases o with
  | ok p => simp [received]
  | panic => simp [received]
  | err e => cases e <;> simp [received, eq_comm]

/-- A round is complete with the payloads `m` exactly when each expected sender delivered one message and each was accepted. -/
theorem collect_eq_ok {expected : Finset I} {recv : I → M → Out (RecvErr E) Pl} {arr : List (I × M)} {m : BMap I Pl} :
    collect expected recv arr = .ok m ↔
      (arr.map Prod.fst).Nodup ∧ (arr.map Prod.fst).toFinset = expected ∧ m.keySet = expected ∧
        ∀ a ∈ arr, ∃ p, recv a.1 a.2 = .ok p ∧ m.get? a.1 = some p := by
  unfold collect
  by_cases hc : (arr.map Prod.fst).Nodup ∧ (arr.map Prod.fst).toFinset = expected
  · rw [if_pos hc, Out.bind_eq_ok]
    obtain ⟨hn, he⟩ := hc
    constructor
    · rintro ⟨l, hl, hm⟩
      cases hm
      have hf := Out.mapM'_eq_ok_iff.1 hl
      have hkeys : l.map Prod.fst = arr.map Prod.fst := by
        clear hl hn he
        induction hf with
        | nil => rfl
        | cons h1 _ ih => simp [ih, (received_eq_ok.1 h1).2]
      have hnl : (l.map Prod.fst).Nodup := hkeys ▸ hn
      refine ⟨hn, he, ?_, ?_⟩
      · rw [← he, ← hkeys]
        ext k
        rw [BMap.mem_keySet, BMap.mem_keys_iff]
        simp only [BMap.get?_ofList_eq_some hnl, List.mem_toFinset, List.mem_map, Prod.exists, exists_and_right, exists_eq_right]
      · intro a ha
        obtain ⟨i, hi, rfl⟩ := List.mem_iff_getElem.1 ha
        have hil : i < l.length := by rw [← hf.length_eq]; exact hi
        have := received_eq_ok.1 (hf.get hi hil)
        refine ⟨(l[i]).2, this.1, ?_⟩
        rw [BMap.get?_ofList_eq_some hnl]
        have e : (arr[i].1, l[i].2) = l[i] := by
          refine Prod.ext ?_ rfl
          exact this.2.symm
        rw [e]; exact List.getElem_mem hil
    · rintro ⟨hd1, hd2, hk, hall⟩; clear hd1 hd2
      have hex : ∀ a ∈ arr, ∃ x : I × Pl, received a.1 (recv a.1 a.2) = .ok x ∧ m.get? x.1 = some x.2 ∧ x.1 = a.1 := by
        intro a ha
        obtain ⟨p, h1, h2⟩ := hall a ha
        exact ⟨(a.1, p), received_eq_ok.2 ⟨h1, rfl⟩, h2, rfl⟩
      obtain ⟨l, hl⟩ := forall₂_of_forall_exists hex
      refine ⟨l, Out.mapM'_eq_ok_iff.2 (hl.imp fun _ _ h => h.1), ?_⟩
      refine congrArg Out.ok ?_
      have hkeys : l.map Prod.fst = arr.map Prod.fst := by
        clear hall hex hn he hk
        induction hl with
        | nil => rfl
        | cons h1 _ ih => simp [ih, h1.2.2]
      have hnl : (l.map Prod.fst).Nodup := hkeys ▸ hn
      have hlm : ∀ x ∈ l, m.get? x.1 = some x.2 := by
        clear hall hex hn he hk hkeys hnl
        induction hl with
        | nil => simp
        | cons h1 _ ih =>
          intro x hx
          rcases List.mem_cons.1 hx with rfl | hx
          · exact h1.2.1
          · exact ih x hx
      ext k v
      rw [BMap.get?_ofList_eq_some hnl]
      constructor
      · intro h; exact hlm _ h
      · intro h
        have hk2 : k ∈ m.keySet := BMap.mem_keySet.2 (BMap.mem_keys_iff.2 ⟨v, h⟩)
        rw [hk, ← he, ← hkeys, List.mem_toFinset, List.mem_map] at hk2
        obtain ⟨x, hx, rfl⟩ := hk2
        have := hlm x hx
        rw [h] at this
        cases this
        exact hx
  · rw [if_neg hc]
    simp only [reduceCtorEq, false_iff]
    rintro ⟨h1, h2, _⟩
    exact hc ⟨h1, h2⟩

/-- The honest case: the messages arrive in any order and each is accepted. -/
theorem collect_honest {s : Finset I} {recv : I → M → Out (RecvErr E) Pl} {arr : List (I × M)} {msg : I → M} {pl : I → Pl}
    (hp : arr.Perm ((bsetIter s).map fun j => (j, msg j))) (h : ∀ j ∈ s, recv j (msg j) = .ok (pl j)) :
    collect s recv arr = .ok (BMap.tabulate s pl) := by
  have hk : (arr.map Prod.fst).Perm (bsetIter s) := by
    have := hp.map Prod.fst
    rwa [List.map_map, show (Prod.fst ∘ fun j => (j, msg j)) = id from rfl, List.map_id] at this
  rw [collect_eq_ok]
  refine ⟨hk.nodup_iff.2 (bsetIter_nodup s), ?_, by simp, ?_⟩
  · rw [List.toFinset_eq_of_perm _ _ hk, bsetIter_toFinset]
  · intro a ha
    obtain ⟨j, hj, rfl⟩ := List.mem_map.1 (hp.mem_iff.1 ha)
    have hj' := mem_bsetIter.1 hj
    exact ⟨pl j, h j hj', by simp [hj']⟩

theorem collect_eq_panic {s : Finset I} {recv : I → M → Out (RecvErr E) Pl} {arr : List (I × M)} (h : collect s recv arr = .panic) :
    ∃ a ∈ arr, recv a.1 a.2 = .panic := by
  unfold collect at h
  split at h
  · cases hm : Out.mapM' (fun a : I × M => received a.1 (recv a.1 a.2)) arr with
    | ok l => rw [hm] at h; simp at h
    | err e => rw [hm] at h; simp at h
    | panic =>
      obtain ⟨a, ha, h'⟩ := Out.mapM'_eq_panic hm
      exact ⟨a, ha, received_eq_panic.1 h'⟩
  · simp at h

theorem collect_eq_fault {s : Finset I} {recv : I → M → Out (RecvErr E) Pl} {arr : List (I × M)} {j : I} {e : E}
    (h : collect s recv arr = .err (.fault j e)) : ∃ m, (j, m) ∈ arr ∧ recv j m = .err (.protocol e) := by
  unfold collect at h
  split at h
  · cases hm : Out.mapM' (fun a : I × M => received a.1 (recv a.1 a.2)) arr with
    | ok l => rw [hm] at h; simp at h
    | panic => rw [hm] at h; simp at h
    | err e' =>
      rw [hm] at h; simp at h; subst h
      obtain ⟨⟨i, m⟩, ha, h'⟩ := Out.mapM'_eq_err hm
      obtain ⟨rfl, h2⟩ := received_eq_fault.1 h'
      exact ⟨m, ha, h2⟩
  · simp at h

/-- The payloads of a complete round are those of the arrived messages. -/
theorem collect_entries_perm {s : Finset I} {recv : I → M → Out (RecvErr E) Pl} {arr : List (I × M)} {m : BMap I Pl} {f : I → M → Pl}
    (h : collect s recv arr = .ok m) (hf : ∀ a ∈ arr, ∀ p, recv a.1 a.2 = .ok p → p = f a.1 a.2) :
    m.entries.Perm (arr.map fun a => (a.1, f a.1 a.2)) := by
  obtain ⟨nd, ex, ks, al⟩ := collect_eq_ok.1 h
  rw [List.perm_ext_iff_of_nodup]
  · rintro ⟨k, p⟩
    rw [← BMap.get?_eq_some_iff]
    constructor
    · intro hk
      have hkm : k ∈ s := by
        rw [← ks, BMap.mem_keySet, BMap.mem_keys_iff]; exact ⟨p, hk⟩
      rw [← ex, List.mem_toFinset, List.mem_map] at hkm
      obtain ⟨a, ha, rfl⟩ := hkm
      obtain ⟨p', hp', hg'⟩ := al a ha
      rw [hk] at hg'
      cases hg'
      exact List.mem_map.2 ⟨a, ha, by rw [← hf a ha p hp']⟩
    · intro hk
      obtain ⟨a, ha, he⟩ := List.mem_map.1 hk
      obtain ⟨p', hp', hg'⟩ := al a ha
      rw [hf a ha p' hp'] at hg'
      cases he
      exact hg'
  · exact List.Nodup.of_map Prod.fst m.nodup_keys
  · refine List.Nodup.of_map Prod.fst ?_
    rw [List.map_map]; exact nd

/-- The message of an expected sender. -/
theorem collect_mem {s : Finset I} {recv : I → M → Out (RecvErr E) Pl} {arr : List (I × M)} {m : BMap I Pl} (h : collect s recv arr = .ok m)
    {j : I} (hj : j ∈ s) : ∃ x p, (j, x) ∈ arr ∧ recv j x = .ok p ∧ m.get? j = some p := by
  obtain ⟨nd, ex, ks, al⟩ := collect_eq_ok.1 h
  rw [← ex, List.mem_toFinset, List.mem_map] at hj
  obtain ⟨⟨_, v⟩, hv, rfl⟩ := hj
  obtain ⟨p, h1, h2⟩ := al _ hv
  exact ⟨v, p, hv, h1, h2⟩

theorem fromOthers_iff {ids : Finset I} {i : I} {msg : I → M} {arr : List (I × M)} :
    Spec.FromOthers ids i msg arr ↔ arr.Perm ((bsetIter (ids.erase i)).map fun j => (j, msg j)) := by
  have hn : (((bsetIter (ids.erase i)).map fun j => (j, msg j)).map Prod.fst).Nodup := by
    rw [List.map_map, show (Prod.fst ∘ fun j => (j, msg j)) = id from rfl, List.map_id]; exact bsetIter_nodup _
  constructor
  · rintro ⟨h1, h2⟩
    rw [List.perm_ext_iff_of_nodup (List.Nodup.of_map _ h1) (List.Nodup.of_map _ hn)]
    rintro ⟨j, m⟩
    rw [h2]
    simp only [List.mem_map, mem_bsetIter, Finset.mem_erase, Prod.mk.injEq]
    constructor
    · rintro ⟨h3, h4, rfl⟩; exact ⟨j, ⟨h4, h3⟩, rfl, rfl⟩
    · rintro ⟨_, ⟨h3, h4⟩, rfl, rfl⟩; exact ⟨h4, h3, rfl⟩
  · intro hp
    refine ⟨(hp.map _).nodup_iff.2 hn, ?_⟩
    rintro ⟨j, m⟩
    rw [hp.mem_iff]
    simp only [List.mem_map, mem_bsetIter, Finset.mem_erase, Prod.mk.injEq]
    constructor
    · rintro ⟨_, ⟨h3, h4⟩, rfl, rfl⟩; exact ⟨h4, h3, rfl⟩
    · rintro ⟨h3, h4, rfl⟩; exact ⟨j, ⟨h4, h3⟩, rfl, rfl⟩

theorem fromOthers_congr {ids : Finset I} {i : I} {msg msg' : I → M} {arr : List (I × M)} (h : Spec.FromOthers ids i msg arr)
    (he : ∀ j ∈ ids, msg j = msg' j) : Spec.FromOthers ids i msg' arr := by
  refine ⟨h.1, fun a => (h.2 a).trans ?_⟩
  constructor
  · rintro ⟨h1, h2, h3⟩; exact ⟨h1, h2, h3.trans (he _ h1)⟩
  · rintro ⟨h1, h2, h3⟩; exact ⟨h1, h2, h3.trans (he _ h1).symm⟩

theorem collect_others {ids : Finset I} {i : I} {recv : I → M → Out (RecvErr E) Pl} {arr : List (I × M)} {msg : I → M} {pl : I → Pl}
    (hp : Spec.FromOthers ids i msg arr) (h : ∀ j ∈ ids, j ≠ i → recv j (msg j) = .ok (pl j)) :
    collect (ids.erase i) recv arr = .ok (BMap.tabulate (ids.erase i) pl) :=
  collect_honest (fromOthers_iff.1 hp) (fun j hj => h j (Finset.mem_of_mem_erase hj) (Finset.ne_of_mem_erase hj))

theorem erase_perm {ids : Finset I} {i : I} (hi : i ∈ ids) : (i :: bsetIter (ids.erase i)).Perm (bsetIter ids) := by
  rw [List.perm_ext_iff_of_nodup]
  · intro a
    simp only [List.mem_cons, mem_bsetIter, Finset.mem_erase]
    constructor
    · rintro (rfl | h)
      · exact hi
      · exact h.2
    · intro h
      by_cases hai : a = i
      · exact Or.inl hai
      · exact Or.inr ⟨hai, h⟩
  · simp [bsetIter_nodup]
  · exact bsetIter_nodup _

theorem BMap.insert_tabulate_erase {W : Type} {ids : Finset I} {i : I} (hi : i ∈ ids) (f : I → W) :
    (BMap.tabulate (ids.erase i) f).insert i (f i) = BMap.tabulate ids f := by
  ext k v
  rw [BMap.get?_insert, BMap.get?_tabulate, BMap.get?_tabulate]
  by_cases hk : k = i
  · subst hk; simp [hi]
  · simp [hk]

theorem BMap.keySet_insert {W : Type} (m : BMap I W) (i : I) (v : W) : (m.insert i v).keySet = Insert.insert i m.keySet := by
  ext k
  rw [BMap.mem_keySet, BMap.mem_keys_iff, Finset.mem_insert, BMap.mem_keySet, BMap.mem_keys_iff]
  simp only [BMap.get?_insert]
  by_cases hk : k = i <;> simp [hk]

theorem finalizeResult_eq_ok {α : Type} {o : Out LocalErr α} {a : α} : (finalizeResult o : Out (Abort I E) α) = .ok a ↔ o = .ok a := by
  cases o <;> simp [finalizeResult]

theorem ofEntity_eq_ok {α : Type} {o : Out EntErr α} {a : α} : ofEntity o = .ok a ↔ o = .ok a := by
  cases o <;> simp [ofEntity]

/-! ### Joint random strings -/

theorem getElem?_zipWith_xor {a b : List Bool} {k : Nat} (ha : k < a.length) (hb : k < b.length) :
    (List.zipWith (· ^^ ·) a b)[k]? = some (a[k] ^^ b[k]) := by
  simp [List.getElem?_zipWith, ha, hb]

theorem bitXorAssign_eq_ok {ε : Type} {a b r : List Bool} :
    (bitXorAssign a b : Out ε (List Bool)) = .ok r ↔ a.length = b.length ∧ r = List.zipWith (· ^^ ·) a b := by
  unfold bitXorAssign
  by_cases h : a.length = b.length
  · simp [h, eq_comm]
  · simp [h]

theorem xorAll_cons {ε : Type} (a b : List Bool) (l : List (List Bool)) :
    (xorAll a (b :: l) : Out ε _) = (bitXorAssign a b).bind fun c => xorAll c l := by
  unfold xorAll
  rw [List.foldl_cons, Out.bind_ok]
  cases h : (bitXorAssign a b : Out ε (List Bool)) with
  | ok c => rfl
  | err e =>
    rw [Out.bind_err]
    clear h
    induction l with
    | nil => rfl
    | cons x l ih => rw [List.foldl_cons]; exact ih
  | panic =>
    rw [Out.bind_panic]
    clear h
    induction l with
    | nil => rfl
    | cons x l ih => rw [List.foldl_cons]; exact ih

theorem bitXorAssign_ne_err {ε : Type} {a b : List Bool} {e : ε} : bitXorAssign a b ≠ .err e := by
  unfold bitXorAssign
  by_cases h : a.length = b.length <;> simp [h]

theorem xorAll_ne_err {ε : Type} {a : List Bool} {l : List (List Bool)} {e : ε} : xorAll a l ≠ .err e := by
  induction l generalizing a with
  | nil => simp [xorAll]
  | cons b l ih =>
    rw [xorAll_cons]
    cases h : (bitXorAssign a b : Out ε (List Bool)) with
    | ok c => exact ih
    | err e => exact absurd h bitXorAssign_ne_err
    | panic => simp

theorem xorAll_eq_ok {ε : Type} {a r : List Bool} {l : List (List Bool)} :
    (xorAll a l : Out ε _) = .ok r ↔ Spec.JointBits (a :: l) r := by
  induction l generalizing a with
  | nil =>
    simp only [xorAll, List.foldl_nil, Out.ok.injEq, Spec.JointBits, List.mem_singleton, forall_eq]
    constructor
    · rintro rfl
      refine ⟨rfl, fun k hk => ?_⟩
      rw [List.getElem?_eq_getElem hk]
      cases h : a[k] <;> simp [h, hk, List.getElem?_eq_getElem]
    · rintro ⟨h1, h2⟩
      apply List.ext_getElem h1
      intro k hk hk'
      have := h2 k hk'
      rw [List.getElem?_eq_getElem hk'] at this
      cases h : a[k] <;> simp [h, hk, List.getElem?_eq_getElem] at this <;> simp [this]
  | cons b l ih =>
    rw [xorAll_cons, Out.bind_eq_ok]
    simp only [bitXorAssign_eq_ok, ih]
    constructor
    · rintro ⟨c, ⟨hl, rfl⟩, h1, h2⟩
      have hr : a.length = r.length := by
        have := h1 _ (List.mem_cons_self); rw [← this]; simp [hl]
      refine ⟨?_, fun k hk => ?_⟩
      · intro x hx
        rcases List.mem_cons.1 hx with rfl | hx
        · exact hr
        · rcases List.mem_cons.1 hx with rfl | hx
          · rw [← hl]; exact hr
          · exact h1 x (by simp [hx])
      · rw [h2 k hk]
        have ha : k < a.length := by omega
        have hb : k < b.length := by omega
        simp only [List.countP_cons, getElem?_zipWith_xor ha hb, List.getElem?_eq_getElem ha, List.getElem?_eq_getElem hb]
        congr 1
        cases a[k] <;> cases b[k] <;> simp
        omega
    · rintro ⟨h1, h2⟩
      have hr := h1 a (by simp)
      have hb' := h1 b (by simp)
      refine ⟨_, ⟨by omega, rfl⟩, ?_, fun k hk => ?_⟩
      · intro x hx
        rcases List.mem_cons.1 hx with rfl | hx
        · simp [hr, hb']
        · exact h1 x (by simp [hx])
      · rw [h2 k hk]
        have ha : k < a.length := by omega
        have hb : k < b.length := by omega
        simp only [List.countP_cons, getElem?_zipWith_xor ha hb, List.getElem?_eq_getElem ha, List.getElem?_eq_getElem hb]
        congr 1
        cases a[k] <;> cases b[k] <;> simp
        omega

theorem Spec.JointBits.unique {l : List (List Bool)} (hl : l ≠ []) {r r' : List Bool} (h : JointBits l r) (h' : JointBits l r') : r = r' := by
  obtain ⟨x, t, rfl⟩ := List.exists_cons_of_ne_nil hl
  have e : r.length = r'.length := by rw [← h.1 x (by simp), ← h'.1 x (by simp)]
  apply List.ext_getElem? 
  intro k
  by_cases hk : k < r.length
  · rw [h.2 k hk, h'.2 k (e ▸ hk)]
  · rw [List.getElem?_eq_none (by omega), List.getElem?_eq_none (by omega)]

theorem Spec.JointBits.perm {l l' : List (List Bool)} (hp : l.Perm l') {r : List Bool} (h : JointBits l r) : JointBits l' r :=
  ⟨fun x hx => h.1 x (hp.mem_iff.2 hx), fun k hk => by rw [h.2 k hk, hp.countP_eq]⟩

/-- Strings of equal length always have a joint value. -/
theorem xorAll_ok_of_lengths {ε : Type} {a : List Bool} {l : List (List Bool)} (h : ∀ x ∈ l, x.length = a.length) :
    ∃ r, (xorAll a l : Out ε _) = .ok r := by
  induction l generalizing a with
  | nil => exact ⟨a, rfl⟩
  | cons b l ih =>
    rw [xorAll_cons]
    have hb := h b (by simp)
    have : (bitXorAssign a b : Out ε (List Bool)) = .ok (List.zipWith (· ^^ ·) a b) := bitXorAssign_eq_ok.2 ⟨hb.symm, rfl⟩
    rw [this]
    exact ih (fun x hx => by rw [h x (by simp [hx])]; simp [hb])

/-- The loop panics exactly when some contribution has another length. -/
theorem xorAll_eq_panic {ε : Type} {a : List Bool} {l : List (List Bool)} :
    (xorAll a l : Out ε _) = .panic ↔ ∃ x ∈ l, x.length ≠ a.length := by
  constructor
  · intro h
    by_contra hc
    push Not at hc
    obtain ⟨r, hr⟩ := xorAll_ok_of_lengths (ε := ε) hc
    rw [hr] at h; simp at h
  · rintro ⟨x, hx, hne⟩
    cases h : (xorAll a l : Out ε _) with
    | panic => rfl
    | err e => exact absurd h xorAll_ne_err
    | ok r =>
      have := xorAll_eq_ok.1 h
      exact absurd ((this.1 x (by simp [hx])).trans (this.1 a (by simp)).symm) hne

/-- The order in which contributions are combined, and whose comes first, does not matter. -/
theorem xorAll_perm {ε : Type} {a b : List Bool} {l l' : List (List Bool)} (hp : (a :: l).Perm (b :: l')) :
    (xorAll a l : Out ε _) = xorAll b l' := by
  cases h : (xorAll a l : Out ε _) with
  | err e => exact absurd h xorAll_ne_err
  | ok r => exact (xorAll_eq_ok.2 ((xorAll_eq_ok.1 h).perm hp)).symm
  | panic =>
    cases h' : (xorAll b l' : Out ε _) with
    | err e => exact absurd h' xorAll_ne_err
    | panic => rfl
    | ok r =>
      have := (xorAll_eq_ok (ε := ε)).2 ((xorAll_eq_ok.1 h').perm hp.symm)
      rw [this] at h; simp at h

end Synedrion
