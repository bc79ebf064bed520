import Verif.Model.Machines
import Verif.Lemmas.Network
import Verif.Lemmas.Session

/-!
# Lemmas about the protocols as machines
-/

set_option linter.unusedSectionVars false

namespace Synedrion

section Glue

variable {I M A E Pl : Type} [LinearOrder I]

theorem acceptPart_eq_ok {part : M → Option A} {recv : I → A → Out (RecvErr E) Pl} {j : I} {m : M} :
    acceptPart part recv j m = .ok () ↔ ∃ a p, part m = some a ∧ recv j a = .ok p := by
  unfold acceptPart
  simp only [Out.bind_eq_ok, Out.ofOption_eq_ok]
  constructor
  · rintro ⟨a, ha, x, hx, -⟩
    exact ⟨a, x.2, ha, (received_eq_ok.1 hx).1⟩
  · rintro ⟨a, p, ha, hp⟩
    exact ⟨a, ha, (j, p), received_eq_ok.2 ⟨hp, rfl⟩, trivial⟩

theorem gather_eq_ok {expected : Finset I} {part : M → Option A} {recv : I → A → Out (RecvErr E) Pl} {got : List (I × M)} {b : BMap I Pl} :
    gather expected part recv got = .ok b ↔ (got.map Prod.fst).Nodup ∧ (got.map Prod.fst).toFinset = expected ∧ b.keySet = expected ∧
      ∀ a ∈ got, ∃ x p, part a.2 = some x ∧ recv a.1 x = .ok p ∧ b.get? a.1 = some p := by
  unfold gather
  rw [Out.bind_eq_ok]
  constructor
  · rintro ⟨l, hl, hc⟩
    have hf := Out.mapM'_eq_ok_iff.1 hl
    have hf' : List.Forall₂ (fun (a : I × M) (b : I × A) => part a.2 = some b.2 ∧ b.1 = a.1) got l := hf.imp fun a b h => by
      simp only [Out.bind_eq_ok, Out.ofOption_eq_ok] at h
      obtain ⟨x, hx, hb⟩ := h
      cases hb
      exact ⟨hx, rfl⟩
    have hk : l.map Prod.fst = got.map Prod.fst := by
      clear hl hf hc
      induction hf' with
      | nil => rfl
      | cons h _ ih => rw [List.map_cons, List.map_cons, ih, h.2]
    obtain ⟨h1, h2, h3, h4⟩ := collect_eq_ok.1 hc
    rw [hk] at h1 h2
    refine ⟨h1, h2, h3, fun a ha => ?_⟩
    obtain ⟨i, hi, rfl⟩ := List.mem_iff_getElem.1 ha
    have hil : i < l.length := by rw [← hf'.length_eq]; exact hi
    have hh := hf'.get hi hil
    obtain ⟨p, hp, hg⟩ := h4 _ (List.getElem_mem hil)
    have e : l[i].1 = got[i].1 := hh.2
    rw [e] at hp hg
    exact ⟨_, p, hh.1, hp, hg⟩
  · rintro ⟨h1, h2, h3, h4⟩
    have hex : ∀ a ∈ got, ∃ y : I × A, part a.2 = some y.2 ∧ y.1 = a.1 ∧ ∃ p, recv y.1 y.2 = .ok p ∧ b.get? y.1 = some p := by
      intro a ha
      obtain ⟨x, p, hx, hp, hg⟩ := h4 a ha
      exact ⟨(a.1, x), hx, rfl, p, hp, hg⟩
    obtain ⟨l, hl⟩ := forall₂_of_forall_exists hex
    have hk : l.map Prod.fst = got.map Prod.fst := by
      clear hex h1 h2 h3 h4
      induction hl with
      | nil => rfl
      | cons h _ ih => rw [List.map_cons, List.map_cons, ih, h.2.1]
    refine ⟨l, Out.mapM'_eq_ok_iff.2 (hl.imp fun a y h => ?_), ?_⟩
    · rw [h.1]
      show Out.ok (a.1, y.2) = _
      rw [← h.2.1]
    · refine collect_eq_ok.2 ⟨by rw [hk]; exact h1, by rw [hk]; exact h2, h3, fun y hy => ?_⟩
      obtain ⟨i, hi, rfl⟩ := List.mem_iff_getElem.1 hy
      have hil : i < got.length := by rw [hl.length_eq]; exact hi
      obtain ⟨-, -, p, hp⟩ := hl.get hil hi
      exact ⟨p, hp⟩

theorem gather_perm {expected : Finset I} {part : M → Option A} {recv : I → A → Out (RecvErr E) Pl} {got got' : List (I × M)} {b : BMap I Pl}
    (hp : got.Perm got') (h : gather expected part recv got = .ok b) : gather expected part recv got' = .ok b := by
  obtain ⟨h1, h2, h3, h4⟩ := gather_eq_ok.1 h
  have hp' := hp.map Prod.fst
  exact gather_eq_ok.2 ⟨hp'.nodup_iff.1 h1, by rw [← h2]; exact (List.toFinset_eq_of_perm _ _ hp').symm, h3, fun a ha => h4 a (hp.mem_iff.2 ha)⟩

theorem gather_accepts {expected : Finset I} {part : M → Option A} {recv : I → A → Out (RecvErr E) Pl} {got : List (I × M)} {b : BMap I Pl}
    (h : gather expected part recv got = .ok b) : ∀ a ∈ got, acceptPart part recv a.1 a.2 = .ok () := by
  intro a ha
  obtain ⟨x, p, hx, hp, -⟩ := (gather_eq_ok.1 h).2.2.2 a ha
  exact acceptPart_eq_ok.2 ⟨x, p, hx, hp⟩

/-- The messages of a round, put into their common type, are processed as they are. -/
theorem gather_map {expected : Finset I} {part : M → Option A} {inj : A → M} (hinj : ∀ a, part (inj a) = some a) {recv : I → A → Out (RecvErr E) Pl}
    (arr : List (I × A)) : gather expected part recv (arr.map fun a => (a.1, inj a.2)) = collect expected recv arr := by
  unfold gather
  have : Out.mapM' (fun a : I × M => (Out.ofOption (Abort.incomplete : Abort I E) (part a.2)).bind fun x => .ok (a.1, x))
      (arr.map fun a => (a.1, inj a.2)) = .ok arr := by
    rw [Out.mapM'_eq_ok_iff, List.forall₂_map_left_iff]
    refine List.forall₂_same.2 fun a _ => ?_
    rw [hinj]
    rfl
  rw [this, Out.bind_ok]

/-- The messages of a complete round are messages of that round. -/
theorem gather_unmap {expected : Finset I} {part : M → Option A} {inj : A → M} (hinj : ∀ m a, part m = some a → m = inj a)
    {recv : I → A → Out (RecvErr E) Pl} {got : List (I × M)} {b : BMap I Pl} (h : gather expected part recv got = .ok b) :
    ∃ arr : List (I × A), got = arr.map (fun a => (a.1, inj a.2)) ∧ collect expected recv arr = .ok b := by
  unfold gather at h
  rw [Out.bind_eq_ok] at h
  obtain ⟨l, hl, hc⟩ := h
  refine ⟨l, ?_, hc⟩
  have hf := Out.mapM'_eq_ok_iff.1 hl
  clear hl hc
  induction hf with
  | nil => rfl
  | cons h _ ih =>
    rw [List.map_cons, ← ih]
    simp only [Out.bind_eq_ok, Out.ofOption_eq_ok] at h
    obtain ⟨x, hx, hb⟩ := h
    cases hb
    refine congrArg (· :: _) (Prod.ext rfl ?_)
    exact hinj _ _ hx

theorem mem_toAll {dests : Finset I} {m : M} {a : I × M} : a ∈ toAll dests m ↔ a.1 ∈ dests ∧ a.2 = m := by
  unfold toAll
  rw [List.mem_map]
  constructor
  · rintro ⟨j, hj, rfl⟩; exact ⟨mem_bsetIter.1 hj, rfl⟩
  · rintro ⟨h1, h2⟩; exact ⟨a.1, mem_bsetIter.2 h1, by rw [← h2]⟩

end Glue

namespace Spec.Machine

variable {I M S E R : Type} [LinearOrder I] {P : Machine I M S E R}

/-- The order of arrival does not matter, and a round is finished only with accepted messages. -/
structure Regular (P : Machine I M S E R) : Prop where
  perm : ∀ s got got' x, got.Perm got' → P.next s got = .ok x → P.next s got' = .ok x
  accepts : ∀ s got x, P.next s got = .ok x → ∀ a ∈ got, P.recv s a.1 a.2 = .ok ()

/-- It is enough to look at one order of arrival. -/
theorem Ideal.of_canonical (hP : Regular P) {parties : Finset I} {init : I → S} {K : Nat} {ideal : Nat → I → S} {res : I → R} (rounds : 1 ≤ K)
    (first : ∀ i ∈ parties, ideal 1 i = init i)
    (round : ∀ k i, 1 ≤ k → k ≤ K → i ∈ parties → P.round (ideal k i) = k)
    (expected : ∀ k i, 1 ≤ k → k ≤ K → i ∈ parties → P.expected (ideal k i) ⊆ parties)
    (msg : Nat → I → I → M)
    (sends : ∀ k i, 1 ≤ k → k ≤ K → i ∈ parties → ∀ j ∈ P.expected (ideal k i), ∀ m, (i, m) ∈ P.send (ideal k j) ↔ m = msg k j i)
    (advances : ∀ k i, 1 ≤ k → k < K → i ∈ parties →
      P.next (ideal k i) ((bsetIter (P.expected (ideal k i))).map fun j => (j, msg k j i)) = .ok (.inl (ideal (k + 1) i)))
    (finishes : ∀ i ∈ parties, P.next (ideal K i) ((bsetIter (P.expected (ideal K i))).map fun j => (j, msg K j i)) = .ok (.inr (res i))) :
    P.Ideal parties init K ideal res := by
  have hperm : ∀ k i, 1 ≤ k → k ≤ K → i ∈ parties → ∀ got, P.Complete (ideal k i) got → (∀ a ∈ got, (i, a.2) ∈ P.send (ideal k a.1)) →
      ((bsetIter (P.expected (ideal k i))).map fun j => (j, msg k j i)).Perm got := by
    intro k i h1 h2 hi got hc hs
    have hgot : got = (got.map Prod.fst).map fun j => (j, msg k j i) := by
      rw [List.map_map]
      conv_lhs => rw [← List.map_id got]
      refine List.map_congr_left fun a ha => ?_
      have hm : a.1 ∈ P.expected (ideal k i) := by rw [← hc.2.1, List.mem_toFinset]; exact List.mem_map_of_mem ha
      exact Prod.ext rfl ((sends k i h1 h2 hi a.1 hm a.2).1 (hs a ha))
    rw [hgot]
    refine List.Perm.map _ ?_
    refine (List.perm_ext_iff_of_nodup (bsetIter_nodup _) hc.1).2 fun j => ?_
    rw [mem_bsetIter, ← hc.2.1, List.mem_toFinset]
  refine ⟨rounds, first, round, expected, fun k i h1 h2 hi j hj => ⟨_, (sends k i h1 h2 hi j hj _).2 rfl⟩, ?_, ?_, ?_⟩
  · intro k i h1 h2 hi j hj m hm
    rw [sends k i h1 h2 hi j hj] at hm
    subst hm
    have hmem : (j, msg k j i) ∈ (bsetIter (P.expected (ideal k i))).map fun j => (j, msg k j i) := List.mem_map.2 ⟨j, mem_bsetIter.2 hj, rfl⟩
    rcases Nat.lt_or_ge k K with hk | hk
    · exact hP.accepts _ _ _ (advances k i h1 hk hi) _ hmem
    · obtain rfl : k = K := by omega
      exact hP.accepts _ _ _ (finishes i hi) _ hmem
  · intro k i h1 h2 hi got hc hs
    exact hP.perm _ _ _ _ (hperm k i h1 (le_of_lt h2) hi got hc hs) (advances k i h1 h2 hi)
  · intro i hi got hc hs
    exact hP.perm _ _ _ _ (hperm K i rounds le_rfl hi got hc hs) (finishes i hi)

end Spec.Machine

/-! ## The machines are regular -/

section

variable {I F G Sid V : Type} [LinearOrder I] [Field F] [LinearOrder F] [AddCommGroup G] [Module F G] [DecidableEq G] [DecidableEq V]

theorem bind_gather_perm {M A E Pl α : Type} {expected : Finset I} {part : M → Option A} {recv : I → A → Out (RecvErr E) Pl} {got got' : List (I × M)}
    {f : BMap I Pl → Out (Abort I E) α} {x : α} (hp : got.Perm got') (h : (gather expected part recv got).bind f = .ok x) :
    (gather expected part recv got').bind f = .ok x := by
  rw [Out.bind_eq_ok] at h
  obtain ⟨b, hb, hf⟩ := h
  rw [gather_perm hp hb, Out.bind_ok, hf]

theorem bind_gather_accepts {M A E Pl α : Type} {expected : Finset I} {part : M → Option A} {recv : I → A → Out (RecvErr E) Pl} {got : List (I × M)}
    {f : BMap I Pl → Out (Abort I E) α} {x : α} (h : (gather expected part recv got).bind f = .ok x) :
    ∀ a ∈ got, acceptPart part recv a.1 a.2 = .ok () := by
  rw [Out.bind_eq_ok] at h
  obtain ⟨b, hb, hf⟩ := h
  exact gather_accepts hb

theorem KeyInit.machine_regular (hashV : Sid → I → KeyInit.PublicData G → V) (H : SchHash G (KeyInit.SchAux I Sid) → F) (g : G) :
    (KeyInit.machine hashV H g).Regular := by
  refine ⟨fun s got got' x hp h => ?_, fun s got x h => ?_⟩
  · cases s <;> exact bind_gather_perm hp h
  · cases s <;> exact bind_gather_accepts h

theorem AuxGen.machine_regular (E : AuxEnv I Sid) (hashV : Sid → I → AuxGen.Hashed → V) : (AuxGen.machine E hashV).Regular := by
  refine ⟨fun s got got' x hp h => ?_, fun s got x h => ?_⟩
  · cases s <;> exact bind_gather_perm hp h
  · cases s <;> exact bind_gather_accepts h

theorem KeyRefresh.machine_regular (E : KeyRefresh.Env I Sid F G) (hashV : Sid → I → KeyRefresh.Hashed I G → V) : (KeyRefresh.machine E hashV).Regular := by
  refine ⟨fun s got got' x hp h => ?_, fun s got x h => ?_⟩
  · cases s <;> exact bind_gather_perm hp h
  · cases s <;> exact bind_gather_accepts h

theorem KeyResharing.machine_regular (g : G) : (KeyResharing.machine (I := I) (F := F) g).Regular :=
  ⟨fun _ _ _ _ hp h => bind_gather_perm hp h, fun _ _ _ h => bind_gather_accepts h⟩

theorem Signing.machine_regular {q : Nat} [Fact q.Prime] {Ep : Type} [Module (ZMod q) G] (E : Signing.Env q I Ep G) : (Signing.machine E).Regular := by
  refine ⟨fun s got got' x hp h => ?_, fun s got x h => ?_⟩
  · cases s <;> exact bind_gather_perm hp h
  · cases s <;> exact bind_gather_accepts h

end

end Synedrion
