import Mathlib.Data.Finset.Sort
import Mathlib.Data.List.Sort

/-!
# Ordered maps and sets

`BTreeMap<K, V>` is modelled as a list of entries sorted strictly by key; `BTreeSet<K>` as a `Finset`, iterated in
increasing order.  `SerializableMap` (manul) is a transparent wrapper around `BTreeMap`.
-/

namespace Synedrion

/-- `BTreeMap<K, V>`: entries in strictly increasing key order. -/
structure BMap (K V : Type) [LinearOrder K] where
  entries : List (K × V)
  sorted : (entries.map Prod.fst).Pairwise (· < ·)

namespace BMap

variable {K V W : Type} [LinearOrder K]

instance [DecidableEq V] : DecidableEq (BMap K V) := fun a b =>
  decidable_of_iff (a.entries = b.entries) (by cases a; cases b; simp)

/-- `BTreeMap::new` -/
def empty : BMap K V := ⟨[], by simp⟩

/-- Insertion into a sorted list, replacing the value of an equal key. -/
def insertList (k : K) (v : V) : List (K × V) → List (K × V)
  | [] => [(k, v)]
  | (k', v') :: t =>
    if k < k' then (k, v) :: (k', v') :: t
    else if k = k' then (k, v) :: t
    else (k', v') :: insertList k v t

theorem insertList_keys_mem {k x : K} {v : V} {l : List (K × V)} :
    x ∈ (insertList k v l).map Prod.fst ↔ x = k ∨ x ∈ l.map Prod.fst := by
  induction l with
  | nil => simp [insertList]
  | cons p t ih =>
    obtain ⟨k', v'⟩ := p
    unfold insertList
    split
    · simp
    · split
      · rename_i h; subst h; simp
      · rw [List.map_cons, List.mem_cons, ih]; simp; tauto

theorem insertList_sorted {k : K} {v : V} {l : List (K × V)} (h : (l.map Prod.fst).Pairwise (· < ·)) :
    ((insertList k v l).map Prod.fst).Pairwise (· < ·) := by
  induction l with
  | nil => simp [insertList]
  | cons p t ih =>
    obtain ⟨k', v'⟩ := p
    rw [List.map_cons, List.pairwise_cons] at h
    unfold insertList
    split
    · rename_i hlt
      rw [List.map_cons, List.pairwise_cons]
      refine ⟨?_, by simpa using h⟩
      intro x hx
      rw [List.map_cons, List.mem_cons] at hx
      rcases hx with rfl | hx
      · exact hlt
      · exact lt_trans hlt (h.1 x hx)
    · split
      · rename_i he; subst he
        simpa using h
      · rename_i h1 h2
        rw [List.map_cons, List.pairwise_cons]
        refine ⟨?_, ih h.2⟩
        intro x hx
        rcases insertList_keys_mem.1 hx with rfl | hx
        · exact lt_of_le_of_ne (not_lt.1 h1) (Ne.symm h2)
        · exact h.1 x hx

/-- `BTreeMap::insert` -/
def insert (m : BMap K V) (k : K) (v : V) : BMap K V :=
  ⟨insertList k v m.entries, insertList_sorted m.sorted⟩

/-- `collect::<BTreeMap<_, _>>()`: later entries replace earlier ones. -/
def ofList (l : List (K × V)) : BMap K V := l.foldl (fun m p => m.insert p.1 p.2) empty

/-- `BTreeMap::get` -/
def get? (m : BMap K V) (k : K) : Option V := (m.entries.find? (fun p => p.1 = k)).map Prod.snd

/-- `BTreeMap::keys` in iteration order -/
def keys (m : BMap K V) : List K := m.entries.map Prod.fst

/-- The set of keys, `keys().cloned().collect::<BTreeSet<_>>()` -/
def keySet (m : BMap K V) : Finset K := m.keys.toFinset

/-- `BTreeMap::values` in iteration order -/
def values (m : BMap K V) : List V := m.entries.map Prod.snd

/-- `BTreeMap::len` -/
def size (m : BMap K V) : Nat := m.entries.length

/-- Mapping over the values, keeping the keys:
`map.iter().map(|(id, v)| (id, f(id, v))).collect::<BTreeMap<_, _>>()`. -/
def mapVals (f : K → V → W) (m : BMap K V) : BMap K W :=
  ⟨m.entries.map fun p => (p.1, f p.1 p.2), by
    rw [List.map_map]; exact m.sorted⟩

/-- `into_iter().filter(|(id, _)| pred(id)).collect::<BTreeMap<_, _>>()` -/
def filterKeys (pred : K → Bool) (m : BMap K V) : BMap K V :=
  ⟨m.entries.filter fun p => pred p.1,
    List.Pairwise.sublist (List.Sublist.map _ List.filter_sublist) m.sorted⟩

end BMap

theorem insertionSort_perm_eq {K : Type} [LinearOrder K] {a b : List K} (h : a.Perm b) :
    a.insertionSort (· ≤ ·) = b.insertionSort (· ≤ ·) := by
  apply List.Perm.eq_of_pairwise (le := (· ≤ ·))
  · intro a b _ _ h1 h2; exact le_antisymm h1 h2
  · exact List.pairwise_insertionSort _ _
  · exact List.pairwise_insertionSort _ _
  · exact ((List.perm_insertionSort _ a).trans h).trans (List.perm_insertionSort _ b).symm

/-- Iteration over a `BTreeSet` in increasing order. -/
def bsetIter {K : Type} [LinearOrder K] (s : Finset K) : List K :=
  Quot.liftOn s.val (List.insertionSort (· ≤ ·)) (fun _ _ h => insertionSort_perm_eq h)

theorem bsetIter_eq_sort {K : Type} [LinearOrder K] (s : Finset K) : bsetIter s = s.sort (· ≤ ·) := by
  obtain ⟨⟨l⟩, h⟩ := s
  show l.insertionSort (· ≤ ·) = l.mergeSort (· ≤ ·)
  rw [List.mergeSort_eq_insertionSort]

theorem bsetIter_sorted {K : Type} [LinearOrder K] (s : Finset K) : (bsetIter s).Pairwise (· < ·) := by
  rw [bsetIter_eq_sort]; exact (s.sortedLT_sort).pairwise

namespace BMap
variable {K V : Type} [LinearOrder K]

/-- `set.iter().map(|id| (id, f(id))).collect::<BTreeMap<_, _>>()` -/
def tabulate (s : Finset K) (f : K → V) : BMap K V :=
  ⟨(bsetIter s).map fun k => (k, f k), by
    rw [List.map_map]; simpa [Function.comp_def] using bsetIter_sorted s⟩

end BMap
end Synedrion
