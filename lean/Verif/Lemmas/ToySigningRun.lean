import Verif.Lemmas.ToySigning
import Verif.Lemmas.SigningRun
import Verif.Spec.Evidence

/-!
# A concrete signing run of three honest parties, for the examples beside the theorems
-/

namespace Synedrion.Toy

open Spec Signing

attribute [local instance] Toy.fact11 Toy.order11

def arrivals {M : Type} (f : Nat → M) (i : Nat) : List (Nat × M) := (bsetIter (Toy.parties.erase i)).map fun j => (j, f j)

theorem arrivals_fromOthers {M : Type} (f : Nat → M) (i : Nat) : FromOthers Toy.parties i f (arrivals f i) := fromOthers_iff.2 (List.Perm.refl _)

theorem mem_arrivals {M : Type} {f : Nat → M} {i j : Nat} (hj : j ∈ Toy.parties) (hne : j ≠ i) : (j, f j) ∈ arrivals f i :=
  List.mem_map.2 ⟨j, mem_bsetIter.2 (Finset.mem_erase.2 ⟨hne, hj⟩), rfl⟩

theorem echosOf {M V : Type} (f : Nat → M) (g : M → V) {i j : Nat} (hi : i ∈ Toy.parties) (hne : i ≠ j) :
    EchosAgainst Toy.parties i j (g (f i)) ((arrivals f i).map fun a => (a.1, g a.2)) (BMap.tabulate (Toy.parties.erase j) fun k => g (f k)) := by
  refine ⟨BMap.keySet_tabulate _ _, by rw [BMap.get?_tabulate, if_pos (Finset.mem_erase.2 ⟨hne, hi⟩)], ?_⟩
  intro a ha haj
  obtain ⟨b, hb, rfl⟩ := List.mem_map.1 ha
  obtain ⟨k, hk, rfl⟩ := List.mem_map.1 hb
  rw [BMap.get?_tabulate, if_pos (Finset.mem_erase.2 ⟨haj, Finset.mem_of_mem_erase (mem_bsetIter.1 hk)⟩)]

/-- The run of three honest parties -/
theorem signRun : ∃ (infos : Nat → AuxInfo Nat PaillierKey PublicAux) (S : Run 11 Nat Nat (ZMod 11)) (m1 : Nat → Nat → Msg1 11 (ZMod 11))
    (o : Nat → Nat → MtaOut 11 (ZMod 11) × MtaOut 11 (ZMod 11)), UsableAux Toy.signEnv.P Toy.parties infos Toy.ringPedersen ∧
    SigningDrawsValid Toy.signEnv.P Toy.parties (fun i => (infos i).secret.modulus) (fun i => (Toy.ringPedersen i).modulus) Toy.signDraws ∧
    (∀ i, (infos i).secret.modulus = Toy.primeP * Toy.primeQ) ∧
    S.Good 6 ∧ S.E = Toy.signEnv ∧ S.ids = Toy.parties ∧ S.d = Toy.signDraws ∧ S.shares = Toy.signShares ∧ S.BothDone o ∧
    (∀ i ∈ Toy.parties, start Toy.signEnv (fun _ _ => 7) (5 : ZMod 11) (Toy.signShares i) (infos i) i (Toy.signDraws i) = .ok (S.r1 i)) ∧
    (∀ i ∈ Toy.parties, ∀ j ∈ Toy.parties, i ≠ j → S.Sent1 i j (m1 i j)) ∧
    (∀ i ∈ Toy.parties, toRound2 Toy.signEnv (S.r1 i) (arrivals (fun j => m1 j i) i) = .ok (S.r2 o i)) ∧
    ∀ i ∈ Toy.parties, toRound3 Toy.signEnv (S.r1 i) (arrivals (fun j => m1 j i) i) (arrivals (fun j => msg2 (S.r2 o j)) i) = .ok (S.r3 o i) := by
  obtain ⟨infos, haux, hmod⟩ := Toy.exists_signInfos
  have hd : SigningDrawsValid Toy.signEnv.P Toy.parties (fun i => (infos i).secret.modulus) (fun i => (Toy.ringPedersen i).modulus) Toy.signDraws := by
    rw [funext hmod]; exact Toy.signDraws_valid
  have good := honest_good Toy.signEnv Toy.signEnv_setting (fun _ _ => 7) 5 6 Toy.parties Toy.signShares Toy.signShares_valid infos Toy.ringPedersen haux Toy.signDraws hd
  obtain ⟨m1, o, ho, h1, hrun⟩ := Run.good_rounds good
  obtain ⟨h2, h3⟩ := hrun (fun i => arrivals (fun j => m1 j i) i) (fun i _ => arrivals_fromOthers _ i)
  have h3' := h3 (fun i => arrivals (fun j => msg2 (Run.r2 _ o j)) i) (fun i _ => arrivals_fromOthers _ i)
  exact ⟨infos, _, m1, o, haux, hd, hmod, good, rfl, rfl, rfl, rfl, ho,
    fun i hi => honest_start Toy.signEnv Toy.signEnv_setting (fun _ _ => 7) 5 6 Toy.parties Toy.signShares Toy.signShares_valid infos Toy.ringPedersen haux Toy.signDraws hi,
    h1, h2, h3'⟩

theorem signNew {infos : Nat → AuxInfo Nat PaillierKey PublicAux} (haux : UsableAux Toy.signEnv.P Toy.parties infos Toy.ringPedersen) {i : Nat}
    (hi : i ∈ Toy.parties) : Signing.new (Toy.signShares i) (infos i) = .ok () := by
  unfold Signing.new
  rw [if_neg (by rw [haux.consistent.owner i hi]; simp [Toy.signShares]),
    if_neg (by rw [haux.consistent.holders i hi, Toy.signShares_valid.holders i hi]; simp)]

theorem signSelf {infos : Nat → AuxInfo Nat PaillierKey PublicAux} (haux : UsableAux Toy.signEnv.P Toy.parties infos Toy.ringPedersen) {i : Nat}
    (hi : i ∈ Toy.parties) : ∀ a, (infos i).pub.get? i = some a → a.pk = (infos i).secret.modulus := by
  intro a ha
  rw [haux.consistent.public_agree i hi i hi] at ha
  cases ha
  rfl

end Synedrion.Toy
