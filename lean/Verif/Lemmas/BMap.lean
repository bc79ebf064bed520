import Verif.Model.BMap
import Mathlib.Algebra.BigOperators.Group.Finset.Basic

/-!
# Lemmas about ordered maps
-/

namespace Synedrion

variable {K V W : Type} [LinearOrder K]

@[simp] theorem mem_bsetIter {s : Finset K} {k : K} : k ∈ bsetIter s ↔ k ∈ s := by
  rw [bsetIter_eq_sort]; exact Finset.mem_sort _

theorem bsetIter_nodup (s : Finset K) : (bsetIter s).Nodup := by
  rw [bsetIter_eq_sort]; exact Finset.sort_nodup _ _

@[simp] theorem bsetIter_length (s : Finset K) : (bsetIter s).length = s.card := by
  rw [bsetIter_eq_sort]; exact Finset.length_sort _

@[simp] theorem bsetIter_toFinset (s : Finset K) : (bsetIter s).toFinset = s := by
  rw [bsetIter_eq_sort]; exact Finset.sort_toFinset _ _

theorem sum_bsetIter {M : Type} [AddCommMonoid M] (s : Finset K) (f : K → M) :
    ((bsetIter s).map f).sum = ∑ k ∈ s, f k := by
  rw [← List.sum_toFinset f (bsetIter_nodup s), bsetIter_toFinset]

theorem prod_bsetIter {M : Type} [CommMonoid M] (s : Finset K) (f : K → M) :
    ((bsetIter s).map f).prod = ∏ k ∈ s, f k := by
  rw [← List.prod_toFinset f (bsetIter_nodup s), bsetIter_toFinset]

theorem bsetIter_of_sorted {l : List K} (h : l.Pairwise (· < ·)) : bsetIter l.toFinset = l := by
  apply List.Perm.eq_of_pairwise (le := (· < ·))
  · intro a b _ _ h1 h2; exact absurd h1 (not_lt.2 h2.le)
  · exact bsetIter_sorted _
  · exact h
  · rw [List.perm_ext_iff_of_nodup (bsetIter_nodup _) (h.imp ne_of_lt)]
    simp

namespace BMap

theorem nodup_keys (m : BMap K V) : m.keys.Nodup := m.sorted.imp ne_of_lt

@[simp] theorem mem_keySet {m : BMap K V} {k : K} : k ∈ m.keySet ↔ k ∈ m.keys := by
  simp [keySet]

@[simp] theorem card_keySet (m : BMap K V) : m.keySet.card = m.size := by
  unfold keySet; rw [List.toFinset_card_of_nodup m.nodup_keys]; simp [keys, size]

theorem bsetIter_keySet (m : BMap K V) : bsetIter m.keySet = m.keys := bsetIter_of_sorted m.sorted

theorem get?_eq_some_iff {m : BMap K V} {k : K} {v : V} : m.get? k = some v ↔ (k, v) ∈ m.entries := by
  obtain ⟨l, hl⟩ := m
  unfold get?
  simp only
  induction l with
  | nil => simp
  | cons p t ih =>
    obtain ⟨k', v'⟩ := p
    rw [List.map_cons, List.pairwise_cons] at hl
    by_cases h : k' = k
    · subst h
      simp only [List.find?_cons, decide_true, Option.map_some, Option.some.injEq, List.mem_cons, Prod.mk.injEq, true_and]
      constructor
      · intro h; exact Or.inl h.symm
      · rintro (h | h)
        · exact h.symm
        · exact absurd (hl.1 k' (List.mem_map.2 ⟨_, h, rfl⟩)) (lt_irrefl _)
    · simp only [List.find?_cons, h, decide_false, List.mem_cons, Prod.mk.injEq]
      rw [ih hl.2]
      constructor
      · intro h; exact Or.inr h
      · rintro (⟨h1, _⟩ | h1)
        · exact absurd h1.symm h
        · exact h1

theorem get?_eq_none_iff {m : BMap K V} {k : K} : m.get? k = none ↔ k ∉ m.keys := by
  rw [Option.eq_none_iff_forall_not_mem]
  simp only [Option.mem_def, get?_eq_some_iff, keys, List.mem_map, not_exists, Prod.exists]
  constructor
  · rintro h x v ⟨hm, rfl⟩; exact h v hm
  · intro h v hm; exact h k v ⟨hm, rfl⟩

theorem mem_keys_iff {m : BMap K V} {k : K} : k ∈ m.keys ↔ ∃ v, m.get? k = some v := by
  simp [get?_eq_some_iff, keys]

@[ext] theorem ext {m m' : BMap K V} (h : ∀ k, m.get? k = m'.get? k) : m = m' := by
  have hp : m.entries.Perm m'.entries := by
    rw [List.perm_ext_iff_of_nodup]
    · rintro ⟨k, v⟩
      rw [← get?_eq_some_iff, ← get?_eq_some_iff, h]
    · exact List.Nodup.of_map _ m.nodup_keys
    · exact List.Nodup.of_map _ m'.nodup_keys
  have he : m.entries = m'.entries := by
    apply List.Perm.eq_of_pairwise (le := fun a b => a.1 < b.1) _ _ _ hp
    · intro a b _ _ h1 h2; exact absurd h1 (not_lt.2 h2.le)
    · have := m.sorted; rwa [List.pairwise_map] at this
    · have := m'.sorted; rwa [List.pairwise_map] at this
  cases m; cases m'; simp at he; subst he; rfl

theorem ext_entries {m m' : BMap K V} (h : m.entries = m'.entries) : m = m' := by
  cases m; cases m'; simp at h; subst h; rfl

@[simp] theorem get?_empty (k : K) : (empty : BMap K V).get? k = none := rfl

theorem get?_insert (m : BMap K V) (k : K) (v : V) (x : K) :
    (m.insert k v).get? x = if x = k then some v else m.get? x := by
  obtain ⟨l, hl⟩ := m
  unfold get? insert
  simp only
  induction l with
  | nil =>
    by_cases h : x = k
    · subst h; simp [insertList]
    · have : ¬ k = x := fun e => h e.symm
      simp [insertList, h, this]
  | cons p t ih =>
    obtain ⟨k', v'⟩ := p
    rw [List.map_cons, List.pairwise_cons] at hl
    have ih := ih hl.2
    unfold insertList
    split
    · by_cases h : x = k
      · subst h; simp
      · have : ¬ k = x := fun e => h e.symm
        simp [h, this]
    · split
      · rename_i h2; subst h2
        by_cases h : x = k
        · subst h; simp
        · have : ¬ k = x := fun e => h e.symm
          simp [h, this]
      · rename_i h1 h2
        by_cases hx : k' = x
        · have : ¬ x = k := fun e => h2 (by rw [← e, hx])
          simp [hx, this]
        · simp only [List.find?_cons, hx, decide_false]
          exact ih

theorem get?_ofList_aux (l : List (K × V)) (m : BMap K V) (x : K) (hn : (l.map Prod.fst).Nodup) :
    (l.foldl (fun m p => m.insert p.1 p.2) m).get? x =
      match (l.find? (fun p => p.1 = x)).map Prod.snd with
      | some v => some v
      | none => m.get? x := by
  induction l generalizing m with
  | nil => simp
  | cons p t ih =>
    obtain ⟨k, v⟩ := p
    rw [List.map_cons, List.nodup_cons] at hn
    rw [List.foldl_cons, ih _ hn.2]
    by_cases h : k = x
    · subst h
      have : t.find? (fun p => p.1 = k) = none := by
        rw [List.find?_eq_none]
        rintro ⟨a, b⟩ hm he
        simp at he
        exact hn.1 (List.mem_map.2 ⟨_, hm, he⟩)
      simp [this, get?_insert]
    · have h' : ¬ x = k := fun e => h e.symm
      simp only [List.find?_cons, h, decide_false, get?_insert, h', if_false]

theorem get?_ofList (l : List (K × V)) (x : K) (hn : (l.map Prod.fst).Nodup) :
    (ofList l).get? x = (l.find? (fun p => p.1 = x)).map Prod.snd := by
  unfold ofList
  rw [get?_ofList_aux _ _ _ hn]
  split
  · rename_i h; exact h.symm
  · rename_i h; rw [h]; rfl

theorem get?_ofList_eq_some {l : List (K × V)} (hn : (l.map Prod.fst).Nodup) {k : K} {v : V} :
    (ofList l).get? k = some v ↔ (k, v) ∈ l := by
  rw [get?_ofList _ _ hn]
  induction l with
  | nil => simp
  | cons p t ih =>
    obtain ⟨k', v'⟩ := p
    rw [List.map_cons, List.nodup_cons] at hn
    by_cases h : k' = k
    · subst h
      simp only [List.find?_cons, decide_true, Option.map_some, Option.some.injEq, List.mem_cons, Prod.mk.injEq, true_and]
      constructor
      · intro h; exact Or.inl h.symm
      · rintro (h | h)
        · exact h.symm
        · exact absurd (List.mem_map.2 ⟨_, h, rfl⟩) hn.1
    · simp only [List.find?_cons, h, decide_false, List.mem_cons, Prod.mk.injEq]
      rw [ih hn.2]
      constructor
      · intro h; exact Or.inr h
      · rintro (⟨h1, _⟩ | h1)
        · exact absurd h1.symm h
        · exact h1

theorem ofList_perm {l l' : List (K × V)} (hn : (l.map Prod.fst).Nodup) (hp : l.Perm l') : ofList l = ofList l' := by
  have hn' : (l'.map Prod.fst).Nodup := (hp.map _).nodup_iff.1 hn
  ext k v
  rw [get?_ofList_eq_some hn, get?_ofList_eq_some hn', hp.mem_iff]

theorem ofList_entries (m : BMap K V) : ofList m.entries = m := by
  ext k v
  rw [get?_ofList_eq_some m.nodup_keys, get?_eq_some_iff]

theorem ofList_of_sorted {l : List (K × V)} (h : (l.map Prod.fst).Pairwise (· < ·)) : ofList l = ⟨l, h⟩ :=
  ofList_entries ⟨l, h⟩

@[simp] theorem get?_tabulate (s : Finset K) (f : K → V) (k : K) :
    (tabulate s f).get? k = if k ∈ s then some (f k) else none := by
  split
  · rename_i h
    rw [get?_eq_some_iff]
    simp [tabulate, h]
  · rename_i h
    rw [get?_eq_none_iff]
    simp [tabulate, keys, h]

@[simp] theorem keys_tabulate (s : Finset K) (f : K → V) : (tabulate s f).keys = bsetIter s := by
  simp [tabulate, keys, Function.comp_def]

@[simp] theorem keySet_tabulate (s : Finset K) (f : K → V) : (tabulate s f).keySet = s := by
  ext; simp

@[simp] theorem size_tabulate (s : Finset K) (f : K → V) : (tabulate s f).size = s.card := by
  rw [← card_keySet, keySet_tabulate]

theorem sum_values_tabulate {M : Type} [AddCommMonoid M] (s : Finset K) (f : K → M) :
    (tabulate s f).values.sum = ∑ k ∈ s, f k := by
  rw [← sum_bsetIter]; simp [tabulate, values, Function.comp_def]

theorem values_tabulate (s : Finset K) (f : K → V) : (tabulate s f).values = (bsetIter s).map f := by
  simp [tabulate, values, Function.comp_def]

/-- Every map is the tabulation of its own lookup function. -/
theorem eq_tabulate [Inhabited V] (m : BMap K V) : m = tabulate m.keySet (fun k => (m.get? k).getD default) := by
  ext k v
  rw [get?_tabulate]
  by_cases h : k ∈ m.keySet
  · obtain ⟨w, hw⟩ := mem_keys_iff.1 (mem_keySet.1 h)
    simp [h, hw]
  · rw [if_neg h, get?_eq_none_iff.2 (fun hk => h (mem_keySet.2 hk))]

@[simp] theorem get?_mapVals (f : K → V → W) (m : BMap K V) (k : K) :
    (m.mapVals f).get? k = (m.get? k).map (f k) := by
  obtain ⟨l, hl⟩ := m
  unfold get? mapVals
  simp only
  clear hl
  induction l with
  | nil => rfl
  | cons p t ih =>
    rw [List.map_cons]
    by_cases h : p.1 = k
    · subst h; simp
    · simp only [List.find?_cons, h, decide_false]; exact ih

@[simp] theorem keys_mapVals (f : K → V → W) (m : BMap K V) : (m.mapVals f).keys = m.keys := by
  simp [mapVals, keys, Function.comp_def]

@[simp] theorem keySet_mapVals (f : K → V → W) (m : BMap K V) : (m.mapVals f).keySet = m.keySet := by
  simp [keySet]

@[simp] theorem size_mapVals (f : K → V → W) (m : BMap K V) : (m.mapVals f).size = m.size := by
  simp [mapVals, size]

theorem get?_filterKeys (p : K → Bool) (m : BMap K V) (k : K) :
    (m.filterKeys p).get? k = if p k then m.get? k else none := by
  split
  · rename_i h
    ext v
    rw [get?_eq_some_iff, get?_eq_some_iff]
    simp [filterKeys, h]
  · rename_i h
    rw [get?_eq_none_iff]
    simp [filterKeys, keys, h]

theorem mem_keys_filterKeys (p : K → Bool) (m : BMap K V) (k : K) :
    k ∈ (m.filterKeys p).keys ↔ k ∈ m.keys ∧ p k = true := by
  simp only [filterKeys, keys, List.mem_map, List.mem_filter]
  constructor
  · rintro ⟨⟨a, b⟩, ⟨h1, h2⟩, rfl⟩; exact ⟨⟨_, h1, rfl⟩, h2⟩
  · rintro ⟨⟨⟨a, b⟩, h1, rfl⟩, h2⟩; exact ⟨_, ⟨h1, h2⟩, rfl⟩

theorem keySet_filterKeys (p : K → Bool) (m : BMap K V) :
    (m.filterKeys p).keySet = m.keySet.filter (fun k => p k) := by
  ext k; simp [mem_keys_filterKeys]

theorem sum_values_mapVals_add {M : Type} [AddCommMonoid M] (m : BMap K M) (f : K → M) :
    (m.mapVals fun k v => v + f k).values.sum = m.values.sum + (m.keys.map f).sum := by
  obtain ⟨l, hl⟩ := m
  simp only [mapVals, values, keys, List.map_map]
  clear hl
  induction l with
  | nil => simp
  | cons p t ih =>
    simp only [List.map_cons, List.sum_cons, Function.comp] at ih ⊢
    rw [ih]; exact add_add_add_comm _ _ _ _

end BMap
end Synedrion
