import Verif.Model.KeyResharing
import Verif.Lemmas.Session
import Verif.Lemmas.Entities

/-!
# Lemmas for key resharing
-/

set_option linter.unusedSectionVars false

namespace Synedrion

open Shamir Spec

section
variable {I F G : Type} [LinearOrder I] [Field F] [LinearOrder F] [AddCommGroup G] [Module F G]

theorem joinPoints_image {ε : Type} {S : Finset I} {sid : I → F} (hinj : Set.InjOn sid S) (p : I → G) :
    (joinPoints (BMap.ofList ((bsetIter S).map fun x => (sid x, p x))) : Out ε G) =
      .ok (∑ i ∈ S, lagrange0 (S.image sid) (sid i) • p i) := by
  have hnodup : (((bsetIter S).map fun x => (sid x, p x)).map Prod.fst).Nodup := by
    rw [List.map_map]
    rw [List.nodup_map_iff_inj_on (bsetIter_nodup S)]
    intro a ha b hb h
    exact hinj (mem_bsetIter.1 ha) (mem_bsetIter.1 hb) h
  have hget : ∀ k v, (BMap.ofList ((bsetIter S).map fun x => (sid x, p x))).get? k = some v ↔
      ∃ i ∈ S, sid i = k ∧ p i = v := by
    intro k v
    rw [BMap.get?_ofList_eq_some hnodup]; simp
  have hks : (BMap.ofList ((bsetIter S).map fun x => (sid x, p x))).keySet = S.image sid := by
    ext k
    rw [BMap.mem_keySet, BMap.mem_keys_iff]
    simp only [hget, Finset.mem_image]
    constructor
    · rintro ⟨v, i, hi, h1, _⟩; exact ⟨i, hi, h1⟩
    · rintro ⟨i, hi, h1⟩; exact ⟨p i, i, hi, h1, rfl⟩
  have : Inhabited G := ⟨0⟩
  rw [joinPoints_eq, hks, Finset.sum_image hinj]
  refine congrArg Out.ok (Finset.sum_congr rfl ?_)
  intro i hi
  rw [(hget (sid i) (p i)).2 ⟨i, hi, rfl, rfl⟩]; rfl

theorem polyValue_eq_sum_range {C : Type} [AddCommGroup C] [Module F C] {l : List C} {n : Nat} (h : l.length ≤ n) (x : F) :
    polyValue l x = ∑ k ∈ Finset.range n, x ^ k • (l[k]?).getD 0 := by
  induction l generalizing n with
  | nil => simp [polyValue_nil]
  | cons c t ih =>
    obtain ⟨n, rfl⟩ : ∃ m, n = m + 1 := ⟨n - 1, by simp at h; omega⟩
    rw [polyValue_cons, ih (n := n) (by simpa using h), Finset.sum_range_succ', Finset.smul_sum]
    simp only [List.getElem?_cons_succ, List.getElem?_cons_zero, Option.getD_some, pow_zero, one_smul]
    rw [add_comm]
    congr 1
    refine Finset.sum_congr rfl fun k _ => ?_
    rw [smul_smul, pow_succ, mul_comm]

/-- A linear combination of polynomials. -/
def combine {C : Type} [AddCommGroup C] [Module F C] (S : Finset I) (w : I → F) (c : I → List C) (n : Nat) : List C :=
  (List.range n).map fun k => ∑ j ∈ S, w j • ((c j)[k]?).getD 0

theorem polyValue_combine {C : Type} [AddCommGroup C] [Module F C] (S : Finset I) (w : I → F) (c : I → List C) (n : Nat)
    (h : ∀ j ∈ S, (c j).length ≤ n) (x : F) : polyValue (combine S w c n) x = ∑ j ∈ S, w j • polyValue (c j) x := by
  rw [polyValue_eq_sum_range (n := n) (by simp [combine])]
  have e : ∀ j ∈ S, w j • polyValue (c j) x = ∑ k ∈ Finset.range n, w j • x ^ k • ((c j)[k]?).getD 0 := fun j hj => by
    rw [polyValue_eq_sum_range (h j hj), Finset.smul_sum]
  rw [Finset.sum_congr rfl e, Finset.sum_comm]
  refine Finset.sum_congr rfl fun k hk => ?_
  have : (combine S w c n)[k]? = some (∑ j ∈ S, w j • ((c j)[k]?).getD 0) := by
    simp [combine, List.getElem?_range (Finset.mem_range.1 hk)]
  rw [this, Option.getD_some, Finset.smul_sum]
  exact Finset.sum_congr rfl fun j _ => smul_comm _ _ _

theorem combine_eq_cons {C : Type} [AddCommGroup C] [Module F C] (S : Finset I) (w : I → F) (c : I → List C) {n : Nat} (hn : 0 < n)
    (hd : I → C) (h : ∀ j ∈ S, (c j).head? = some (hd j)) :
    ∃ tail, combine S w c n = (∑ j ∈ S, w j • hd j) :: tail ∧ tail.length < n := by
  obtain ⟨m, rfl⟩ : ∃ m, n = m + 1 := ⟨n - 1, by omega⟩
  refine ⟨((List.range m).map Nat.succ).map fun k => ∑ j ∈ S, w j • ((c j)[k]?).getD 0, ?_, by simp⟩
  unfold combine
  rw [List.range_succ_eq_map, List.map_cons]
  congr 1
  refine Finset.sum_congr rfl fun j hj => ?_
  have := h j hj
  rw [List.head?_eq_getElem?] at this
  rw [this]; rfl

theorem BMap.mapVals_insert {K V W : Type} [LinearOrder K] (f : V → W) (m : BMap K V) (k : K) (v : V) :
    (m.insert k v).mapVals (fun _ => f) = (m.mapVals fun _ => f).insert k (f v) := by
  ext x w
  simp only [BMap.get?_mapVals, BMap.get?_insert]
  split <;> simp

theorem BMap.ofList_map_val {K V W A : Type} [LinearOrder K] (k : A → K) (v : A → V) (f : V → W) (l : List A) :
    BMap.ofList (l.map fun a => (k a, f (v a))) = (BMap.ofList (l.map fun a => (k a, v a))).mapVals fun _ => f := by
  unfold BMap.ofList
  have : ∀ m : BMap K V, (l.map fun a => (k a, f (v a))).foldl (fun m p => m.insert p.1 p.2) (m.mapVals fun _ => f) =
      ((l.map fun a => (k a, v a)).foldl (fun m p => m.insert p.1 p.2) m).mapVals fun _ => f := by
    induction l with
    | nil => intro m; rfl
    | cons a t ih =>
      intro m
      simp only [List.map_cons, List.foldl_cons]
      rw [← BMap.mapVals_insert]
      exact ih _
  exact this BMap.empty

theorem joinPoints_mapVals {ε V : Type} [Inhabited V] (m : BMap F V) (f : V → G) :
    (joinPoints (m.mapVals fun _ => f) : Out ε G) =
      .ok (∑ i ∈ m.keySet, lagrange0 m.keySet i • f ((m.get? i).getD default)) := by
  have : Inhabited G := ⟨0⟩
  rw [joinPoints_eq, BMap.keySet_mapVals]
  refine congrArg Out.ok (Finset.sum_congr rfl ?_)
  intro i hi
  rw [BMap.mem_keySet, BMap.mem_keys_iff] at hi
  obtain ⟨v, hv⟩ := hi
  simp [BMap.get?_mapVals, hv]

theorem BMap.entries_of_keySet {K V : Type} [LinearOrder K] {m : BMap K V} {s : Finset K} (h : m.keySet = s) :
    m.keys = bsetIter s := by
  rw [← h, BMap.bsetIter_keySet]

theorem Out.mapM'_panic_of {ε α β : Type} {f : α → Out ε β} {l : List α} (h : ∀ a ∈ l, (∃ b, f a = .ok b) ∨ f a = .panic)
    (hp : ∃ a ∈ l, f a = .panic) : Out.mapM' f l = .panic := by
  cases hm : Out.mapM' f l with
  | panic => rfl
  | err e =>
    obtain ⟨a, ha, he⟩ := Out.mapM'_eq_err hm
    rcases h a ha with ⟨b, hb⟩ | hb <;> rw [hb] at he <;> simp at he
  | ok r =>
    obtain ⟨a, ha, he⟩ := hp
    have := Out.mapM'_eq_ok_iff.1 hm
    clear hm h
    exfalso
    induction this with
    | nil => simp at ha
    | cons h1 _ ih =>
      rcases List.mem_cons.1 ha with rfl | ha
      · rw [he] at h1; simp at h1
      · exact ih ha

theorem collect_panic_of {M Pl E : Type} {s : Finset I} {recv : I → M → Out (RecvErr E) Pl} {arr : List (I × M)}
    (hn : (arr.map Prod.fst).Nodup) (hs : (arr.map Prod.fst).toFinset = s)
    (h : ∀ a ∈ arr, (∃ p, recv a.1 a.2 = .ok p) ∨ recv a.1 a.2 = .panic) (hp : ∃ a ∈ arr, recv a.1 a.2 = .panic) :
    collect s recv arr = .panic := by
  unfold collect
  rw [if_pos ⟨hn, hs⟩, Out.mapM'_panic_of]
  · rfl
  · intro a ha
    rcases h a ha with ⟨p, hp⟩ | hp
    · exact Or.inl ⟨(a.1, p), by rw [hp]; rfl⟩
    · exact Or.inr (by rw [hp]; rfl)
  · obtain ⟨a, ha, he⟩ := hp
    exact ⟨a, ha, by rw [he]; rfl⟩

end

namespace KeyResharing

variable {I F G : Type} [LinearOrder I] [Field F] [LinearOrder F] [AddCommGroup G] [Module F G] [DecidableEq G]

theorem newShareIds_tabulate (N : Finset I) : ∃ sid : I → F, newShareIds F N = BMap.tabulate N sid ∧
    (bsetIter N).map sid = evaluationPoints F N.card := by
  obtain ⟨f, hf⟩ := exists_map_of_nodup (b := evaluationPoints F N.card) (bsetIter_nodup N) (by simp [evaluationPoints])
  refine ⟨f, ?_, hf.symm⟩
  unfold newShareIds
  rw [hf, zip_map_self, ofList_map_bsetIter]

theorem newShareIds_injOn {q : Nat} [CharP F q] {N : Finset I} (hN : N.card < q) {sid : I → F}
    (h : (bsetIter N).map sid = evaluationPoints F N.card) : Set.InjOn sid N := by
  have := evaluationPoints_nodup (F := F) hN
  rw [← h, List.nodup_map_iff_inj_on (bsetIter_nodup N)] at this
  intro a ha b hb hab
  exact this a (mem_bsetIter.2 ha) b (mem_bsetIter.2 hb) hab

instance : Inhabited (Msg F G) := ⟨⟨[], 0, 0⟩⟩

/-- Payloads keyed by the claimed old share id; later parties replace earlier ones. -/
def byId (P : BMap I (Msg F G)) : BMap F (Msg F G) := BMap.ofList (P.values.map fun p => (p.oldShareId, p))

theorem joinPublic_eq (P : BMap I (Msg F G)) (x : F) (h : ∀ p ∈ P.values, 1 < p.publicPolynomial.length) :
    joinPublic P x = .ok (∑ a ∈ (byId P).keySet, lagrange0 (byId P).keySet a •
      polyValue (((byId P).get? a).getD default).publicPolynomial x) := by
  unfold joinPublic
  rw [Out.mapM'_ok_of_forall (g := fun p : Msg F G => (p.oldShareId, polyValue p.publicPolynomial x)), Out.bind_ok,
    BMap.ofList_map_val (fun p : Msg F G => p.oldShareId) (fun p => p) (fun p => polyValue p.publicPolynomial x)]
  · exact joinPoints_mapVals (byId P) _
  · intro p hp
    unfold publicEvaluate
    rw [evaluatePolynomial_eq (h p hp), Out.bind_ok]

theorem joinSubshares_eq (P : BMap I (Msg F G)) {H : Finset I} (h : P.keySet = H) :
    joinSubshares H P = .ok (∑ a ∈ (byId P).keySet, lagrange0 (byId P).keySet a * (((byId P).get? a).getD default).subshare) := by
  unfold joinSubshares
  have e : Out.mapM' (fun id : I => (finGet P id).bind fun p => .ok (p.oldShareId, p.subshare)) (bsetIter H) =
      .ok (P.values.map fun p => (p.oldShareId, p.subshare)) := by
    rw [← h, BMap.bsetIter_keySet, Out.mapM'_eq_ok_iff]
    unfold BMap.keys BMap.values
    rw [List.forall₂_map_left_iff, List.map_map, List.forall₂_map_right_iff, List.forall₂_same]
    intro p hp
    simp [finGet, BMap.get?_eq_some_iff.2 hp]
  rw [e, Out.bind_ok, BMap.ofList_map_val (fun p : Msg F G => p.oldShareId) (fun p => p) (fun p => p.subshare), joinScalars_eq_joinPoints]
  exact joinPoints_mapVals (byId P) _

theorem byId_mem {P : BMap I (Msg F G)} {a : F} (ha : a ∈ (byId P).keySet) : ∃ j p, P.get? j = some p ∧ p.oldShareId = a ∧ (byId P).get? a = some p := by
  rw [BMap.mem_keySet, BMap.mem_keys_iff] at ha
  obtain ⟨p, hp⟩ := ha
  have key : ∀ (l : List (Msg F G)) (m : BMap F (Msg F G)), ((l.map fun p => (p.oldShareId, p)).foldl (fun m p => m.insert p.1 p.2) m).get? a = some p →
      (p ∈ l ∧ p.oldShareId = a) ∨ m.get? a = some p := by
    intro l
    induction l with
    | nil => intro m h; exact Or.inr h
    | cons q t ih =>
      intro m h
      rcases ih _ h with h | h
      · exact Or.inl ⟨List.mem_cons_of_mem _ h.1, h.2⟩
      · rw [BMap.get?_insert] at h
        split at h
        · rename_i he
          cases h
          exact Or.inl ⟨by simp, he.symm⟩
        · exact Or.inr h
  rcases key P.values BMap.empty hp with ⟨h1, h2⟩ | h
  · obtain ⟨e, he, rfl⟩ := List.mem_map.1 h1
    exact ⟨e.1, e.2, BMap.get?_eq_some_iff.2 he, h2, hp⟩
  · simp at h

/-! ### Distinct old share ids -/

theorem joinPublic_tabulate {S : Finset I} {m : I → Msg F G} (hinj : Set.InjOn (fun j => (m j).oldShareId) S)
    (h : ∀ j ∈ S, 1 < (m j).publicPolynomial.length) (x : F) :
    joinPublic (BMap.tabulate S m) x =
      .ok (∑ j ∈ S, lagrange0 (S.image fun j => (m j).oldShareId) (m j).oldShareId • polyValue (m j).publicPolynomial x) := by
  unfold joinPublic
  rw [Out.mapM'_ok_of_forall (g := fun p : Msg F G => (p.oldShareId, polyValue p.publicPolynomial x)), Out.bind_ok, BMap.values_tabulate,
    List.map_map]
  · exact joinPoints_image (sid := fun j => (m j).oldShareId) hinj fun j => polyValue (m j).publicPolynomial x
  · intro p hp
    rw [BMap.values_tabulate] at hp
    obtain ⟨j, hj, rfl⟩ := List.mem_map.1 hp
    unfold publicEvaluate
    rw [evaluatePolynomial_eq (h j (mem_bsetIter.1 hj)), Out.bind_ok]

theorem joinSubshares_tabulate {S : Finset I} {m : I → Msg F G} (hinj : Set.InjOn (fun j => (m j).oldShareId) S) :
    joinSubshares S (BMap.tabulate S m) =
      .ok (∑ j ∈ S, lagrange0 (S.image fun j => (m j).oldShareId) (m j).oldShareId * (m j).subshare) := by
  unfold joinSubshares
  rw [Out.mapM'_ok_of_forall (g := fun j => ((m j).oldShareId, (m j).subshare)), Out.bind_ok, joinScalars_eq_joinPoints]
  · exact joinPoints_image (sid := fun j => (m j).oldShareId) hinj fun j => (m j).subshare
  · intro j hj
    simp [finGet, mem_bsetIter.1 hj]

theorem vkeySum_tabulate {S : Finset I} {m : I → Msg F G} (hinj : Set.InjOn (fun j => (m j).oldShareId) S) {hd : I → G}
    (h : ∀ j ∈ S, (m j).publicPolynomial.head? = some (hd j)) :
    vkeySum (BMap.tabulate S m) = .ok (∑ j ∈ S, lagrange0 (S.image fun j => (m j).oldShareId) (m j).oldShareId • hd j) := by
  unfold vkeySum
  have hi : ∀ x, (interpolationCoeff ((BMap.tabulate S m).values.map Msg.oldShareId) x : Out LocalErr F) =
      .ok (lagrange0 (S.image fun j => (m j).oldShareId) x) := by
    intro x
    rw [← interpolationCoeff_image (sid := fun j => (m j).oldShareId) hinj x, BMap.values_tabulate, BMap.values_tabulate, List.map_map]
    rfl
  simp only [hi, Out.bind_ok]
  rw [BMap.values_tabulate]
  have : Out.mapM' (fun p : Msg F G => (Out.ofOption LocalErr.missing (coeff0 p.publicPolynomial)).bind fun c0 =>
      (.ok (lagrange0 (S.image fun j => (m j).oldShareId) p.oldShareId • c0) : Out LocalErr G)) ((bsetIter S).map m) =
      .ok ((bsetIter S).map fun j => lagrange0 (S.image fun j => (m j).oldShareId) (m j).oldShareId • hd j) := by
    rw [Out.mapM'_eq_ok_iff, List.forall₂_map_left_iff, List.forall₂_map_right_iff, List.forall₂_same]
    intro j hj
    simp [coeff0, h j (mem_bsetIter.1 hj)]
  rw [this, Out.bind_ok, sum_bsetIter]

end KeyResharing
end Synedrion
