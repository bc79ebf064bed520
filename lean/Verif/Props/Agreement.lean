import Verif.Props.KeyInit
import Verif.Props.AuxGen
import Verif.Lemmas.ToySigningRun

/-!
# C57: parties that finish key generation or the generation of auxiliary info agree on the public results
-/

set_option linter.unusedSectionVars false

namespace Synedrion.Props

open Spec

section KeyGen

open KeyInit

variable {I F G Sid V : Type} [LinearOrder I] [Field F] [LinearOrder F] [AddCommGroup G] [Module F G] [DecidableEq G] [DecidableEq V]

/-- **C57 (key generation).** Let two parties that started honestly in the same session both finish, whatever all others (and the network) do, with echoed
round 1 broadcasts: each got the other's, and they got the same from everyone else. If the commitment hash has no collisions, then they hold the same public
shares, hence the same key, and each one's secret share matches what the other one has as its public share. -/
theorem C57_key_init_agreement (hashV : Sid → I → PublicData G → V) (hinj : ∀ s i h h', hashV s i h = hashV s i h' → h = h')
    (H : SchHash G (SchAux I Sid) → F) (g : G) (ids : Finset I) (sid : Sid) (a b : I) (hab : a ≠ b) (da db : Draws F) (ca cb : Context I F G Sid)
    (hca : start g ids sid a da = .ok ca) (hcb : start g ids sid b db = .ok cb)
    (in1a in1b : List (I × V)) (in2a in2b : List (I × Msg2 G)) (in3a in3b : List (I × SchProof F))
    (hba : (b, msg1 hashV cb) ∈ in1a) (hab' : (a, msg1 hashV ca) ∈ in1b) (hecho : ∀ j v w, (j, v) ∈ in1a → (j, w) ∈ in1b → v = w)
    (ksA ksB : KeyShare I F G) (hA : run hashV H g ca in1a in2a in3a = .ok ksA) (hB : run hashV H g cb in1b in2b in3b = .ok ksB) :
    ksA.pub = ksB.pub ∧ ksA.verifyingKeyAsPoint = ksB.verifyingKeyAsPoint ∧
      ksA.pub.get? b = some (ksB.secret • g) ∧ ksB.pub.get? a = some (ksA.secret • g) := by
  obtain ⟨-, xA, kA, ownA, -, _, -, oA⟩ := C37_finishing_party hashV H g ids sid a da ca hca in1a in2a in3a ksA hA
  obtain ⟨-, xB, kB, ownB, -, _, -, oB⟩ := C37_finishing_party hashV H g ids sid b db cb hcb in1b in2b in3b ksB hB
  have nd : ∀ {c : Context I F G Sid} {i1 : List (I × V)} {i2 i3 r}, run hashV H g c i1 i2 i3 = .ok r → (i1.map Prod.fst).Nodup := by
    intro c i1 i2 i3 r h
    unfold run toRound3 at h
    simp only [Out.bind_eq_ok] at h
    obtain ⟨_, ⟨_, h1, _⟩, _⟩ := h
    exact (collect_eq_ok.1 h1).1
  have uA : ∀ {j v w}, (j, v) ∈ in1a → (j, w) ∈ in1a → v = w := fun h h' => congrArg Prod.snd (List.inj_on_of_nodup_map (nd hA) h h' rfl)
  have uB : ∀ {j v w}, (j, v) ∈ in1b → (j, w) ∈ in1b → v = w := fun h h' => congrArg Prod.snd (List.inj_on_of_nodup_map (nd hB) h h' rfl)
  have st : ∀ {i : I} {d : Draws F} {c : Context I F G Sid}, start g ids sid i d = .ok c →
      i ∈ ids ∧ c.sid = sid ∧ c.myId = i ∧ c.data.capX = d.x • g := by
    intro i d c h
    unfold start at h
    split at h
    · cases h
    · rename_i hi
      cases h
      exact ⟨not_not.1 hi, rfl, rfl, rfl⟩
  obtain ⟨hia, sa, ia, dca⟩ := st hca
  obtain ⟨hib, sb, ib, dcb⟩ := st hcb
  unfold msg1 at hba hab'
  rw [sb, ib] at hba
  rw [sa, ia] at hab'
  have key : ∀ j ∈ ids, ksA.pub.get? j = ksB.pub.get? j := by
    intro j hj
    by_cases hja : j = a
    · subst hja
      obtain ⟨v, m, _, hv, -, -, hh, hget, -⟩ := oB j hj hab
      have he := hinj _ _ _ _ (hh.trans (uB hv hab'))
      have e1 : m.capX = ca.data.capX := congrArg PublicData.capX he
      rw [ownA, hget, e1, dca]
    by_cases hjb : j = b
    · subst hjb
      obtain ⟨v, m, _, hv, -, -, hh, hget, -⟩ := oA j hj (Ne.symm hab)
      have he := hinj _ _ _ _ (hh.trans (uA hv hba))
      have e1 : m.capX = cb.data.capX := congrArg PublicData.capX he
      rw [ownB, hget, e1, dcb]
    obtain ⟨v, m, _, hv, -, -, hh, hget, -⟩ := oA j hj hja
    obtain ⟨v', m', _, hv', -, -, hh', hget', -⟩ := oB j hj hjb
    have he := hinj _ _ _ _ (hh.trans ((hecho _ _ _ hv hv').trans hh'.symm))
    have e1 : m.capX = m'.capX := congrArg PublicData.capX he
    rw [hget, hget', e1]
  have e : ksA.pub = ksB.pub := by
    ext k
    by_cases hk : k ∈ ids
    · rw [key k hk]
    · rw [BMap.get?_eq_none_iff.2, BMap.get?_eq_none_iff.2]
      · rw [← BMap.mem_keySet, kB]; exact hk
      · rw [← BMap.mem_keySet, kA]; exact hk
  refine ⟨e, ?_, ?_, ?_⟩
  · unfold KeyShare.verifyingKeyAsPoint
    rw [e]
  · rw [e, ownB, xB]
  · rw [← e, ownA, xA]

section KeyGenExample

attribute [local instance] Toy.fact11 Toy.order11

private def kiHashV : Nat → Nat → PublicData (ZMod 11) → Nat × Nat × PublicData (ZMod 11) := fun s i d => (s, i, d)
private def kiH : SchHash (ZMod 11) (SchAux Nat Nat) → ZMod 11 := fun h => h.capX * 3 + h.commitment * 5 + (h.aux.id : ZMod 11)
private def kiDraws (i : Nat) : Draws (ZMod 11) := ⟨(i : ZMod 11) * 2 + 1, (i : ZMod 11) + 4, [i % 2 = 0, true, i = 2], [true]⟩
private def kiCtx (i : Nat) : Context Nat (ZMod 11) (ZMod 11) Nat :=
  ⟨({1, 2, 3} : Finset Nat).erase i, i, (kiDraws i).x, (kiDraws i).tau, ⟨(kiDraws i).x, (kiDraws i).tau, (kiDraws i).rho, (kiDraws i).u⟩, 7⟩
private def kiR3 (i : Nat) : Round3 Nat (ZMod 11) (ZMod 11) Nat :=
  ⟨kiCtx i, BMap.tabulate (({1, 2, 3} : Finset Nat).erase i) fun j => (kiDraws j).x, BMap.tabulate (({1, 2, 3} : Finset Nat).erase i) fun j => (kiDraws j).tau,
    [true, true, true]⟩
private def kiIn {M : Type} (f : Nat → M) : Nat → List (Nat × M)
  | 2 => [(3, f 3), (1, f 1)]
  | _ => [(1, f 1), (2, f 2)]

/-- Parties 2 and 3 of a key generation meet the hypotheses of `C57_key_init_agreement`. -/
example : (∀ s i h h', kiHashV s i h = kiHashV s i h' → h = h') ∧
    start (1 : ZMod 11) ({1, 2, 3} : Finset Nat) 7 2 (kiDraws 2) = .ok (kiCtx 2) ∧ start (1 : ZMod 11) ({1, 2, 3} : Finset Nat) 7 3 (kiDraws 3) = .ok (kiCtx 3) ∧
    (3, msg1 kiHashV (kiCtx 3)) ∈ kiIn (fun j => msg1 kiHashV (kiCtx j)) 2 ∧ (2, msg1 kiHashV (kiCtx 2)) ∈ kiIn (fun j => msg1 kiHashV (kiCtx j)) 3 ∧
    (∀ j v w, (j, v) ∈ kiIn (fun j => msg1 kiHashV (kiCtx j)) 2 → (j, w) ∈ kiIn (fun j => msg1 kiHashV (kiCtx j)) 3 → v = w) ∧
    run kiHashV kiH (1 : ZMod 11) (kiCtx 2) (kiIn (fun j => msg1 kiHashV (kiCtx j)) 2) (kiIn (fun j => msg2 (kiCtx j)) 2)
      (kiIn (fun j => msg3 kiH (kiR3 j)) 2) = .ok ⟨2, 5, BMap.ofList [(1, 3), (2, 5), (3, 7)]⟩ ∧
    run kiHashV kiH (1 : ZMod 11) (kiCtx 3) (kiIn (fun j => msg1 kiHashV (kiCtx j)) 3) (kiIn (fun j => msg2 (kiCtx j)) 3)
      (kiIn (fun j => msg3 kiH (kiR3 j)) 3) = .ok ⟨3, 7, BMap.ofList [(1, 3), (2, 5), (3, 7)]⟩ := by
  refine ⟨fun s i h h' e => (Prod.mk.inj (Prod.mk.inj e).2).2, rfl, rfl, by simp [kiIn], by simp [kiIn], ?_, by decide +kernel, by decide +kernel⟩
  intro j v w hv hw
  simp only [kiIn, List.mem_cons, Prod.mk.injEq, List.not_mem_nil, or_false] at hv hw
  rcases hv with ⟨rfl, rfl⟩ | ⟨rfl, rfl⟩ <;> rcases hw with ⟨h, rfl⟩ | ⟨h, rfl⟩ <;> first | rfl | (exact absurd h (by decide))

end KeyGenExample

end KeyGen

section Aux

open AuxGen

variable {I Sid V : Type} [LinearOrder I] [DecidableEq V]

/-- **C57 (auxiliary info).** Let two parties that started honestly in the same session both finish, whatever all others (and the network) do, with echoed
round 1 broadcasts: each got the other's, and they got the same from everyone else. If the commitment hash has no collisions, then they have the same public
auxiliary info, and each one's primes are those of the modulus that the other one has for it. -/
theorem C57_aux_gen_agreement (E : AuxEnv I Sid) (hashV : Sid → I → Hashed → V) (hinj : ∀ s i h h', hashV s i h = hashV s i h' → h = h')
    (ids : Finset I) (sid : Sid) (a b : I) (hab : a ≠ b) (da db : AuxDraws I) (ca cb : Context I Sid)
    (hca : start E ids sid a da = .ok ca) (hcb : start E ids sid b db = .ok cb)
    (in1a in1b : List (I × V)) (in2a in2b : List (I × Msg2)) (in3a in3b : List (I × Msg3))
    (hba : (b, msg1 hashV cb) ∈ in1a) (hab' : (a, msg1 hashV ca) ∈ in1b) (hecho : ∀ j v w, (j, v) ∈ in1a → (j, w) ∈ in1b → v = w)
    (infoA infoB : AuxInfo I PaillierKey PublicAux) (hA : run E hashV ca in1a in2a in3a = .ok infoA) (hB : run E hashV cb in1b in2b in3b = .ok infoB) :
    infoA.pub = infoB.pub ∧ (∃ x, infoA.pub.get? b = some x ∧ x.pk = infoB.secret.p * infoB.secret.q) ∧
      ∃ x, infoB.pub.get? a = some x ∧ x.pk = infoA.secret.p * infoA.secret.q := by
  obtain ⟨-, pA, qA, kA, ownA, _, -, oA⟩ := C54_finishing_party E hashV ids sid a da ca hca in1a in2a in3a infoA hA
  obtain ⟨-, pB, qB, kB, ownB, _, -, oB⟩ := C54_finishing_party E hashV ids sid b db cb hcb in1b in2b in3b infoB hB
  have nd : ∀ {c : Context I Sid} {i1 : List (I × V)} {i2 i3 r}, run E hashV c i1 i2 i3 = .ok r → (i1.map Prod.fst).Nodup := by
    intro c i1 i2 i3 r h
    unfold run toRound3 at h
    simp only [Out.bind_eq_ok] at h
    obtain ⟨_, ⟨_, h1, _⟩, _⟩ := h
    exact (collect_eq_ok.1 h1).1
  have uA : ∀ {j v w}, (j, v) ∈ in1a → (j, w) ∈ in1a → v = w := fun h h' => congrArg Prod.snd (List.inj_on_of_nodup_map (nd hA) h h' rfl)
  have uB : ∀ {j v w}, (j, v) ∈ in1b → (j, w) ∈ in1b → v = w := fun h h' => congrArg Prod.snd (List.inj_on_of_nodup_map (nd hB) h h' rfl)
  obtain ⟨hia, -, ska, -, rfl⟩ := start_ok hca
  obtain ⟨hib, -, skb, -, rfl⟩ := start_ok hcb
  unfold msg1 at hba hab'
  have key : ∀ j ∈ ids, infoA.pub.get? j = infoB.pub.get? j := by
    intro j hj
    by_cases hja : j = a
    · subst hja
      obtain ⟨v, m, _, rpj, hv, -, -, -, -, hh, hget, -⟩ := oB j hj hab
      have he := hinj _ _ _ _ (hh.trans (uB hv hab'))
      have e2 : m.pk = da.p * da.q := congrArg (fun z => z.pk) he
      have e3 : rpj.toWire = (RPParams.withSecret (da.rpP * da.rpQ) E.P.modBits da.lambda da.tDraw).toWire := congrArg (fun z => z.rp) he
      rw [ownA, hget, e2, e3]
    by_cases hjb : j = b
    · subst hjb
      obtain ⟨v, m, _, rpj, hv, -, -, -, -, hh, hget, -⟩ := oA j hj (Ne.symm hab)
      have he := hinj _ _ _ _ (hh.trans (uA hv hba))
      have e2 : m.pk = db.p * db.q := congrArg (fun z => z.pk) he
      have e3 : rpj.toWire = (RPParams.withSecret (db.rpP * db.rpQ) E.P.modBits db.lambda db.tDraw).toWire := congrArg (fun z => z.rp) he
      rw [ownB, hget, e2, e3]
    obtain ⟨v, m, _, rpj, hv, -, -, -, -, hh, hget, -⟩ := oA j hj hja
    obtain ⟨v', m', _, rpj', hv', -, -, -, -, hh', hget', -⟩ := oB j hj hjb
    have he := hinj _ _ _ _ (hh.trans ((hecho _ _ _ hv hv').trans hh'.symm))
    have e2 : m.pk = m'.pk := congrArg (fun z => z.pk) he
    have e3 : rpj.toWire = rpj'.toWire := congrArg (fun z => z.rp) he
    rw [hget, hget', e2, e3]
  have e : infoA.pub = infoB.pub := by
    ext k
    by_cases hk : k ∈ ids
    · rw [key k hk]
    · rw [BMap.get?_eq_none_iff.2, BMap.get?_eq_none_iff.2]
      · rw [← BMap.mem_keySet, kB]; exact hk
      · rw [← BMap.mem_keySet, kA]; exact hk
  refine ⟨e, ⟨_, by rw [e, ownB], ?_⟩, ⟨_, by rw [← e, ownA], ?_⟩⟩
  · rw [pB, qB]
  · rw [pA, qA]

private def auxHashV : Nat → Nat → Hashed → Nat × Nat × Hashed := fun s i d => (s, i, d)

/-- Three honest parties, any two of which meet the hypotheses of `C57_aux_gen_agreement`. -/
example : ∃ (ctx : Nat → Context Nat Nat) (in1 : Nat → List (Nat × (Nat × Nat × Hashed))) (in2 : Nat → List (Nat × Msg2)) (in3 : Nat → List (Nat × Msg3))
    (infos : Nat → AuxInfo Nat PaillierKey PublicAux), (∀ s i h h', auxHashV s i h = auxHashV s i h' → h = h') ∧
    (∀ i ∈ Toy.parties, start Toy.auxEnv Toy.parties 7 i (Toy.auxDraws i) = .ok (ctx i)) ∧
    (∀ i ∈ Toy.parties, run Toy.auxEnv auxHashV (ctx i) (in1 i) (in2 i) (in3 i) = .ok (infos i)) ∧
    (∀ i ∈ Toy.parties, ∀ j ∈ Toy.parties, j ≠ i → (j, msg1 auxHashV (ctx j)) ∈ in1 i) ∧
    ∀ i ∈ Toy.parties, ∀ i' ∈ Toy.parties, ∀ j v w, (j, v) ∈ in1 i → (j, w) ∈ in1 i' → v = w := by
  have hst := fun i (hi : i ∈ Toy.parties) => C54_start Toy.auxEnv 2 Toy.parties 7 i hi (Toy.auxDraws i)
    (Toy.auxDraws_valid i (by simp [Toy.parties] at hi; omega))
  obtain ⟨c1, h1, -⟩ := hst 1 (by decide)
  have hex : ∀ i, ∃ c, i ∈ Toy.parties → start Toy.auxEnv Toy.parties 7 i (Toy.auxDraws i) = .ok c := by
    intro i
    by_cases hi : i ∈ Toy.parties
    · obtain ⟨c, h, -⟩ := hst i hi; exact ⟨c, fun _ => h⟩
    · exact ⟨c1, fun h => absurd h hi⟩
  choose ctx hctx using hex
  have hlen : ∀ i ∈ Toy.parties, (Toy.auxDraws i).rid.length = 3 := fun i _ => rfl
  obtain ⟨r3, m3, hr3, hm3, hfin⟩ := C54_honest_aux_gen Toy.auxEnv 2 Toy.auxEnv_valid auxHashV Toy.parties 7 Toy.auxDraws
    (fun i hi => Toy.auxDraws_valid i (by simp [Toy.parties] at hi; omega)) (fun i _ j _ _ => Toy.facDraws_valid i j) 3 hlen ctx hctx
    (fun i => Toy.arrivals (fun j => msg1 auxHashV (ctx j)) i) (fun i => Toy.arrivals (fun j => msg2 (ctx j)) i)
    (fun i _ => Toy.arrivals_fromOthers _ i) (fun i _ => Toy.arrivals_fromOthers _ i)
  obtain ⟨infos, hrun, -⟩ := hfin (fun i => Toy.arrivals (fun j => m3 j i) i) fun i _ => Toy.arrivals_fromOthers _ i
  refine ⟨ctx, _, _, _, infos, fun s i h h' e => (Prod.mk.inj (Prod.mk.inj e).2).2, hctx, hrun, fun i _ j hj hne => Toy.mem_arrivals hj hne, ?_⟩
  intro i _ i' _ j v w hv hw
  obtain ⟨k, -, e⟩ := List.mem_map.1 hv
  obtain ⟨k', -, e'⟩ := List.mem_map.1 hw
  cases e
  cases e'
  rfl

end Aux

end Synedrion.Props
