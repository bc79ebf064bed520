import Verif.Spec.Blame
import Verif.Lemmas.Session

/-!
# Lemmas about what two honest parties receive
-/

set_option linter.unusedSectionVars false

namespace Synedrion

open Spec

variable {I M Ec : Type} [LinearOrder I]

/-- Two lists with the same senders and the same value for each sender hold the same values. -/
theorem values_perm {l l' : List (I × M)} {f : M → Ec} (hn : (l.map Prod.fst).Nodup) (hn' : (l'.map Prod.fst).Nodup)
    (hs : (l.map Prod.fst).toFinset = (l'.map Prod.fst).toFinset) (h : ∀ k m m', (k, m) ∈ l → (k, m') ∈ l' → f m = f m') :
    (l.map fun a => f a.2).Perm (l'.map fun a => f a.2) := by
  have hk : ∀ {L L' : List (I × M)}, (L.map Prod.fst).toFinset = (L'.map Prod.fst).toFinset → ∀ k m, (k, m) ∈ L → ∃ m', (k, m') ∈ L' := by
    intro L L' hL k m hm
    have : k ∈ (L'.map Prod.fst).toFinset := by
      rw [← hL, List.mem_toFinset]; exact List.mem_map.2 ⟨_, hm, rfl⟩
    rw [List.mem_toFinset, List.mem_map] at this
    obtain ⟨⟨_, m'⟩, hm', rfl⟩ := this
    exact ⟨m', hm'⟩
  have hnd : ∀ {L : List (I × M)}, (L.map Prod.fst).Nodup → (L.map fun a => (a.1, f a.2)).Nodup := by
    intro L hL
    refine List.Nodup.of_map Prod.fst ?_
    rw [List.map_map]; exact hL
  have hp : (l.map fun a => (a.1, f a.2)).Perm (l'.map fun a => (a.1, f a.2)) := by
    rw [List.perm_ext_iff_of_nodup (hnd hn) (hnd hn')]
    rintro ⟨k, x⟩
    simp only [List.mem_map, Prod.mk.injEq]
    constructor
    · rintro ⟨⟨_, m⟩, hm, rfl, rfl⟩
      obtain ⟨m', hm'⟩ := hk hs _ _ hm
      exact ⟨_, hm', rfl, (h _ _ _ hm hm').symm⟩
    · rintro ⟨⟨_, m'⟩, hm', rfl, rfl⟩
      obtain ⟨m, hm⟩ := hk hs.symm _ _ hm'
      exact ⟨_, hm, rfl, h _ _ _ hm hm'⟩
  have := hp.map Prod.snd
  rwa [List.map_map, List.map_map] at this

/-- Two parties that received the same echo-broadcast parts hold, with their own, the same ones. -/
theorem echo_perm {X : Type} {echo : M → Ec} {f : Ec → X} {ids : Finset I} {a b : I} (ha : a ∈ ids) (hb : b ∈ ids) (hab : a ≠ b) {ea eb : Ec} {inA inB : List (I × M)}
    (hA : EchoAgreement echo a b ea eb inA inB) (hn : (inA.map Prod.fst).Nodup) (hn' : (inB.map Prod.fst).Nodup)
    (hs : (inA.map Prod.fst).toFinset = ids.erase a) (hs' : (inB.map Prod.fst).toFinset = ids.erase b) :
    (f ea :: inA.map fun x => f (echo x.2)).Perm (f eb :: inB.map fun x => f (echo x.2)) := by
  have keys : ∀ {L : List (I × M)}, (L.map fun x => (x.1, echo x.2)).map Prod.fst = L.map Prod.fst := by
    intro L; rw [List.map_map]; rfl
  have nd : ∀ {L : List (I × M)} {i : I} {x : Ec}, (L.map Prod.fst).Nodup → (L.map Prod.fst).toFinset = ids.erase i →
      (((i, x) :: L.map fun x => (x.1, echo x.2)).map Prod.fst).Nodup := by
    intro L i x h1 h2
    rw [List.map_cons, List.nodup_cons, keys]
    refine ⟨?_, h1⟩
    intro h
    rw [← List.mem_toFinset, h2] at h; simp at h
  have st : ∀ {L : List (I × M)} {i : I} {x : Ec}, i ∈ ids → (L.map Prod.fst).toFinset = ids.erase i →
      (((i, x) :: L.map fun x => (x.1, echo x.2)).map Prod.fst).toFinset = ids := by
    intro L i x hi h
    rw [List.map_cons, List.toFinset_cons, keys, h, Finset.insert_erase hi]
  have := values_perm (l := (a, ea) :: inA.map fun x => (x.1, echo x.2)) (l' := (b, eb) :: inB.map fun x => (x.1, echo x.2)) (f := f) (nd hn hs) (nd hn' hs')
    ((st ha hs).trans (st hb hs').symm) ?_
  · simpa [Function.comp_def] using this
  · intro k x x' h h'
    refine congrArg f ?_
    simp only [List.mem_cons, Prod.mk.injEq, List.mem_map, Prod.exists] at h h'
    rcases h with ⟨rfl, rfl⟩ | ⟨k1, m, hm, rfl, rfl⟩ <;> rcases h' with ⟨h1, rfl⟩ | ⟨k2, m', hm', h2, rfl⟩
    · exact absurd h1 hab
    · subst h2; exact (hA.fromA _ hm').symm
    · subst h1; exact hA.fromB _ hm
    · subst h2; exact hA.fromThird _ _ _ hm hm'

/-- Two parties that received the same echo-broadcast parts received them from a common table. -/
theorem echo_table {echo : M → Ec} {ids : Finset I} {a b : I} (hb : b ∈ ids) (hab : a ≠ b) {ea eb : Ec} {inA inB : List (I × M)}
    (hA : EchoAgreement echo a b ea eb inA inB) (hn : (inA.map Prod.fst).Nodup) (hs : (inA.map Prod.fst).toFinset = ids.erase a)
    (hs' : (inB.map Prod.fst).toFinset = ids.erase b) :
    ∃ bc : I → Ec, bc a = ea ∧ bc b = eb ∧ (∀ x ∈ inA, echo x.2 = bc x.1) ∧ ∀ x ∈ inB, echo x.2 = bc x.1 := by
  have hex : ∀ k, ∃ c : Ec, (k = a → c = ea) ∧ ∀ m, k ≠ a → (k, m) ∈ inA → echo m = c := by
    intro k
    by_cases hk : k = a
    · exact ⟨ea, fun _ => rfl, fun m h => absurd hk h⟩
    · by_cases hm : ∃ m, (k, m) ∈ inA
      · obtain ⟨m, hm⟩ := hm
        refine ⟨echo m, fun h => absurd h hk, fun m' _ hm' => ?_⟩
        rw [show m' = m from congrArg Prod.snd (List.inj_on_of_nodup_map hn hm' hm rfl)]
      · exact ⟨ea, fun _ => rfl, fun m _ h => absurd ⟨m, h⟩ hm⟩
  choose bc h1 h2 using hex
  have hin : ∀ k, k ∈ ids → k ≠ a → ∃ m, (k, m) ∈ inA := by
    intro k hk hka
    have : k ∈ (inA.map Prod.fst).toFinset := by rw [hs]; exact Finset.mem_erase.2 ⟨hka, hk⟩
    rw [List.mem_toFinset, List.mem_map] at this
    obtain ⟨⟨_, m⟩, h, rfl⟩ := this
    exact ⟨m, h⟩
  have hmem : ∀ {L : List (I × M)} {i : I} {x : I × M}, (L.map Prod.fst).toFinset = ids.erase i → x ∈ L → x.1 ≠ i ∧ x.1 ∈ ids := by
    intro L i x hL hx
    refine Finset.mem_erase.1 ?_
    rw [← hL, List.mem_toFinset]; exact List.mem_map.2 ⟨_, hx, rfl⟩
  obtain ⟨mb, hmb⟩ := hin b hb hab.symm
  refine ⟨bc, h1 a rfl, ?_, ?_, ?_⟩
  · rw [← h2 b mb hab.symm hmb]; exact hA.fromB _ hmb
  · rintro ⟨k, m⟩ hx
    exact h2 k m (hmem hs hx).1 hx
  · rintro ⟨k, m'⟩ hx
    obtain ⟨hkb, hk⟩ := hmem hs' hx
    by_cases hka : k = a
    · subst hka; rw [h1 k rfl]; exact hA.fromA _ hx
    · obtain ⟨m, hm⟩ := hin k hk hka
      rw [← h2 k m hka hm]; exact (hA.fromThird _ _ _ hm hx).symm

/-- A party is only accused in a round in which the expected senders' messages are processed. -/
theorem collect_fault_senders {E Pl : Type} {s : Finset I} {recv : I → M → Out (RecvErr E) Pl} {arr : List (I × M)} {j : I} {e : E}
    (h : collect s recv arr = .err (.fault j e)) : (arr.map Prod.fst).toFinset = s := by
  unfold collect at h
  split at h
  · rename_i hc; exact hc.2
  · cases h

theorem exists_from {s : Finset I} {arr : List (I × M)} {j : I} (h : (arr.map Prod.fst).toFinset = s) (hj : j ∈ s) : ∃ m, (j, m) ∈ arr := by
  rw [← h, List.mem_toFinset, List.mem_map] at hj
  obtain ⟨⟨_, m⟩, h, rfl⟩ := hj
  exact ⟨m, h⟩

end Synedrion
