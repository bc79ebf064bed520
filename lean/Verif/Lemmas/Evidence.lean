import Verif.Spec.Evidence
import Verif.Lemmas.Session

/-!
# Lemmas about echoes
-/

namespace Synedrion

variable {I E : Type} [LinearOrder I]

/-- The accused party's own message together with the echoes of the others are the messages of all parties. -/
theorem Spec.EchosAgainst.perm {ids : Finset I} {me j : I} {own : E} {received : List (I × E)} {echos : BMap I E}
    (h : Spec.EchosAgainst ids me j own received echos) (nd : (received.map Prod.fst).Nodup)
    (ex : (received.map Prod.fst).toFinset = ids.erase me) {ej : E} (hj : (j, ej) ∈ received) :
    ((j, ej) :: echos.entries).Perm ((me, own) :: received) := by
  obtain ⟨hk, hown, hother⟩ := h
  have hmem : ∀ a : I × E, a ∈ received → a.1 ∈ ids ∧ a.1 ≠ me := by
    intro a ha
    have : a.1 ∈ (received.map Prod.fst).toFinset := by rw [List.mem_toFinset]; exact List.mem_map.2 ⟨_, ha, rfl⟩
    rw [ex] at this
    exact ⟨Finset.mem_of_mem_erase this, Finset.ne_of_mem_erase this⟩
  have hjm := hmem _ hj
  rw [List.perm_ext_iff_of_nodup]
  · rintro ⟨k, r⟩
    simp only [List.mem_cons, Prod.mk.injEq, ← BMap.get?_eq_some_iff]
    constructor
    · rintro (⟨rfl, rfl⟩ | hg)
      · exact Or.inr hj
      · by_cases hkm : k = me
        · subst hkm; rw [hown] at hg; cases hg; exact Or.inl ⟨rfl, rfl⟩
        · have hk2 : k ∈ echos.keySet := by rw [BMap.mem_keySet, BMap.mem_keys_iff]; exact ⟨r, hg⟩
          rw [hk, Finset.mem_erase] at hk2
          have hk3 : k ∈ ids.erase me := Finset.mem_erase.2 ⟨hkm, hk2.2⟩
          rw [← ex, List.mem_toFinset, List.mem_map] at hk3
          obtain ⟨a, ha, rfl⟩ := hk3
          have h2 := hother a ha hk2.1
          rw [hg] at h2
          cases h2
          exact Or.inr ha
    · rintro (⟨rfl, rfl⟩ | hr)
      · exact Or.inr hown
      · by_cases hkj : k = j
        · subst hkj
          have := List.inj_on_of_nodup_map nd hr hj rfl
          cases this; exact Or.inl ⟨rfl, rfl⟩
        · exact Or.inr (hother _ hr hkj)
  · refine List.nodup_cons.2 ⟨?_, List.Nodup.of_map Prod.fst (BMap.nodup_keys _)⟩
    rw [← BMap.get?_eq_some_iff]
    intro hc
    have : j ∈ echos.keySet := by rw [BMap.mem_keySet, BMap.mem_keys_iff]; exact ⟨_, hc⟩
    rw [hk] at this; simp at this
  · refine List.nodup_cons.2 ⟨?_, List.Nodup.of_map Prod.fst nd⟩
    intro hc
    exact (hmem _ hc).2 rfl

end Synedrion
