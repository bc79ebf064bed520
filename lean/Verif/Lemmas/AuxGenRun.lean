import Verif.Lemmas.AuxGen
import Verif.Props.Session

/-!
# Auxiliary info generation when the parties have acceptable public data

The honest run, with the ring-Pedersen parameters and their proofs left open: they only have to be accepted in round 2 and to be usable for commitments.
-/

set_option linter.unusedSectionVars false

namespace Synedrion.AuxGen

open Spec Props

variable {I Sid V : Type} [LinearOrder I] [DecidableEq V]

theorem run_core (E : AuxEnv I Sid) (k : Nat) (hE : HashesValid E k) (hashV : Sid → I → Hashed → V) (ids : Finset I) (sid : Sid)
    (d : I → AuxDraws I) (hd : ∀ i ∈ ids, DrawsValid E k (d i)) (data : I → PublicData) (hpk : ∀ i ∈ ids, (data i).pk = (d i).p * (d i).q)
    (hdrid : ∀ i ∈ ids, (data i).rid = (d i).rid)
    (hacc : ∀ i ∈ ids, ∀ capVs : BMap I V, capVs.get? i = some (hashV sid i (data i).hashed) → recv2 E hashV sid capVs i (data i).msg2 = .ok (data i).payload)
    (hrp : ∀ i ∈ ids, 0 < (data i).rp.modulus ∧ (data i).rp.modulus < 2 ^ E.P.modBits ∧ (data i).rp.rp.Valid)
    (hfac : ∀ i ∈ ids, ∀ j ∈ ids, i ≠ j → FacDrawsValid E.P ((d i).p * (d i).q) (data j).rp.modulus ((d i).facMasks j))
    (len : Nat) (hlen : ∀ i ∈ ids, (d i).rid.length = len)
    (sk : ∀ i, SecretKey (d i).p (d i).q) (ctx : I → Context I Sid)
    (hsk : ∀ i ∈ ids, (SecretKey.new (d i).p (d i).q : Out LocalErr _) = .ok (sk i) ∧
      ctx i = ⟨⟨(d i).p, (d i).q, sk i⟩, (data i).rp, i, ids.erase i, sid, data i, (d i).modDraw, (d i).modBit, (d i).facMasks⟩)
    (in1 : I → List (I × V)) (in2 : I → List (I × Msg2))
    (h1 : ∀ i ∈ ids, FromOthers ids i (fun j => msg1 hashV (ctx j)) (in1 i))
    (h2 : ∀ i ∈ ids, FromOthers ids i (fun j => msg2 (ctx j)) (in2 i)) :
    ∃ (r3 : I → Round3 I Sid) (m3 : I → I → Msg3) (rid : List Bool), (∀ i ∈ ids, toRound3 E hashV (ctx i) (in1 i) (in2 i) = .ok (r3 i)) ∧
      (∀ i ∈ ids, ∀ j ∈ ids, i ≠ j → msg3 E (r3 i) j = .ok (m3 i j)) ∧
      (∀ i ∈ ids, ∀ j ∈ ids, i ≠ j →
        (makeFac E ⟨(d i).p, (d i).q, sk i⟩ (data j).rp (sid, i, rid) ((d i).facMasks j) : Out LocalErr _) = .ok (m3 i j).psi) ∧
      (∀ in3 : I → List (I × Msg3), (∀ i ∈ ids, FromOthers ids i (fun j => m3 j i) (in3 i)) →
        ∃ infos : I → AuxInfo I PaillierKey PublicAux, (∀ i ∈ ids, run E hashV (ctx i) (in1 i) (in2 i) (in3 i) = .ok (infos i)) ∧
          (ConsistentAux ids infos fun j => ⟨(d j).p * (d j).q, (data j).rp.rp.toWire⟩) ∧
          (∀ i ∈ ids, (infos i).secret.p = (d i).p ∧ (infos i).secret.q = (d i).q) ∧
          ∀ i ∈ ids, ∃ ε, (SecretKey.new (infos i).secret.p (infos i).secret.q : Out ε _) = .ok (infos i).secret.sk) := by
  rcases ids.eq_empty_or_nonempty with rfl | ⟨i0, hi0⟩
  · refine ⟨fun i => ⟨ctx i, BMap.empty, [], ⟨0, [], []⟩⟩, fun _ _ => ⟨⟨0, [], []⟩, ⟨⟨0, 0⟩, 0, 0, 0, 0, 0, ⟨0, 0⟩, ⟨0, 0⟩, ⟨0, 0⟩, ⟨0, 0⟩, ⟨0, 0⟩⟩⟩, [], by simp, by simp, by simp,
      fun _ _ => ⟨fun i => ⟨i, (ctx i).key, BMap.empty⟩, by simp, ⟨by simp, by simp, by simp, by simp⟩, by simp, by simp⟩⟩
  have hdat : ∀ i ∈ ids, (ctx i).data = data i := fun i hi => by rw [(hsk i hi).2]
  have hsid : ∀ i ∈ ids, (ctx i).sid = sid := fun i hi => by rw [(hsk i hi).2]
  have hid : ∀ i ∈ ids, (ctx i).myId = i := fun i hi => by rw [(hsk i hi).2]
  have hoth : ∀ i ∈ ids, (ctx i).otherIds = ids.erase i := fun i hi => by rw [(hsk i hi).2]
  -- the joint random string
  have hx : ∀ i ∈ ids, ∃ r, (xorAll (d i).rid ((bsetIter (ids.erase i)).map fun j => (d j).rid) : Out (Abort I (Err I)) _) = .ok r := by
    intro i hi
    apply xorAll_ok_of_lengths
    intro x hx
    obtain ⟨j, hj, rfl⟩ := List.mem_map.1 hx
    have hj' := Finset.mem_of_mem_erase (mem_bsetIter.1 hj)
    rw [hlen j hj', hlen i hi]
  obtain ⟨rid, hrid⟩ := hx i0 hi0
  have hrid' : ∀ i ∈ ids, (xorAll (d i).rid ((bsetIter (ids.erase i)).map fun j => (d j).rid) : Out (Abort I (Err I)) _) = .ok rid := by
    intro i hi
    rw [← hrid]
    exact xorAll_perm (((erase_perm hi).trans (erase_perm hi0).symm).map fun i => (d i).rid)
  -- the proofs
  have hmod : ∀ i, ∃ prf, i ∈ ids → (makeMod E ⟨(d i).p, (d i).q, sk i⟩ (d i).modDraw (d i).modBit (sid, i, rid) : Out (Abort I (Err I)) _) = .ok prf ∧
      prf.verify E.P E.modH E.isPrime ((d i).p * (d i).q) (sid, i, rid) = true := by
    intro i
    by_cases hi : i ∈ ids
    · obtain ⟨prf, h⟩ := honest_mod (ε' := Abort I (Err I)) hE (hd i hi) (hsk i hi).1 (sid, i, rid)
      exact ⟨prf, fun _ => h⟩
    · exact ⟨⟨0, [], []⟩, fun h => absurd h hi⟩
  choose psiP hmod using hmod
  have hfc : ∀ i j, ∃ prf, i ∈ ids → j ∈ ids → i ≠ j →
      (makeFac E ⟨(d i).p, (d i).q, sk i⟩ (data j).rp (sid, i, rid) ((d i).facMasks j) :
        Out LocalErr _) = .ok prf ∧
      ∀ ε', (prf.verify E.P E.facH ((d i).p * (d i).q) (data j).rp.rp (sid, i, rid) : Out ε' _) =
        .ok true := by
    intro i j
    by_cases hi : i ∈ ids ∧ j ∈ ids ∧ i ≠ j
    · obtain ⟨prf, h⟩ := honest_fac (ε := LocalErr) hE (hd i hi.1) (rp := (data j).rp)
        (hrp j hi.2.1).1 (hrp j hi.2.1).2.1 (hrp j hi.2.1).2.2 (hfac i hi.1 j hi.2.1 hi.2.2) (sk i) (sid, i, rid)
      exact ⟨prf, fun _ _ _ => h⟩
    · exact ⟨⟨⟨0, 0⟩, 0, 0, 0, 0, 0, ⟨0, 0⟩, ⟨0, 0⟩, ⟨0, 0⟩, ⟨0, 0⟩, ⟨0, 0⟩⟩, fun h h' h'' => absurd ⟨h, h', h''⟩ hi⟩
  choose psi hfc using hfc
  let r3 : I → Round3 I Sid := fun i => ⟨ctx i, BMap.tabulate ids fun j => (data j).payload, rid, psiP i⟩
  let m3 : I → I → Msg3 := fun i j => ⟨psiP i, psi i j⟩
  have hto : ∀ i ∈ ids, toRound3 E hashV (ctx i) (in1 i) (in2 i) = .ok (r3 i) := by
    intro i hi
    unfold toRound3
    rw [hoth i hi, collect_others (recv := recv1) (pl := fun j => msg1 hashV (ctx j)) (h1 i hi) (fun j _ _ => rfl), Out.bind_ok]
    have e2 : collect (ids.erase i) (recv2 E hashV (ctx i).sid (BMap.tabulate (ids.erase i) fun j => msg1 hashV (ctx j))) (in2 i) =
        .ok (BMap.tabulate (ids.erase i) fun j => (data j).payload) := by
      refine collect_others (h2 i hi) fun j hji hne => ?_
      have hj := Finset.mem_erase.2 ⟨hne, hji⟩
      rw [msg2, hdat j hji, hsid i hi]
      refine hacc j hji _ ?_
      rw [BMap.get?_tabulate, if_pos hj, msg1, hdat j hji, hsid j hji, hid j hji]
    simp only [e2, Out.bind_ok, finalize2]
    have e3 : (BMap.tabulate (ids.erase i) fun j => (data j).payload).values.map Payload2.rid =
        (bsetIter (ids.erase i)).map fun j => (d j).rid := by
      rw [BMap.values_tabulate, List.map_map]
      exact List.map_congr_left fun j hj => hdrid j (Finset.mem_of_mem_erase (mem_bsetIter.1 hj))
    rw [e3, hdat i hi, hdrid i hi, hrid' i hi, Out.bind_ok, hid i hi, hsid i hi]
    have e4 : makeMod E (ctx i).key (ctx i).modDraw (ctx i).modBit (sid, i, rid) = (.ok (psiP i) : Out (Abort I (Err I)) _) := by
      rw [(hsk i hi).2]; exact (hmod i hi).1
    rw [e4, Out.bind_ok, BMap.insert_tabulate_erase hi fun j => (data j).payload]
  have hm3 : ∀ i ∈ ids, ∀ j ∈ ids, i ≠ j → msg3 E (r3 i) j = .ok (m3 i j) := by
    intro i hi j hj hne
    simp only [msg3, finGet, r3, BMap.get?_tabulate, if_pos hj, Out.ofOption_some, Out.bind_ok]
    rw [hsid i hi, hid i hi]
    have e4 : makeFac E (ctx i).key (data j).payload.rp (sid, i, rid) ((ctx i).facMasks j) = (.ok (psi i j) : Out LocalErr _) := by
      rw [(hsk i hi).2]; exact (hfc i j hi hj hne).1
    rw [e4, Out.bind_ok]
  refine ⟨r3, m3, rid, hto, hm3, fun i hi j hj hne => (hfc i j hi hj hne).1, fun in3 h3 => ?_⟩
  have hpq : ∀ i ∈ ids, (finalize3 (r3 i)).secret.p = (d i).p ∧ (finalize3 (r3 i)).secret.q = (d i).q := by
    intro i hi
    show (ctx i).key.p = _ ∧ (ctx i).key.q = _
    rw [(hsk i hi).2]
    exact ⟨rfl, rfl⟩
  have hcons : ConsistentAux ids (fun i => finalize3 (r3 i)) fun j =>
      ⟨(d j).p * (d j).q, (data j).rp.rp.toWire⟩ := by
    constructor
    · intro i hi; exact hid i hi
    · intro i hi
      show ((BMap.tabulate ids fun j => (data j).payload).mapVals fun _ p => p.toAux).keySet = ids
      rw [BMap.keySet_mapVals, BMap.keySet_tabulate]
    · intro i hi j hj
      show ((BMap.tabulate ids fun j => (data j).payload).mapVals fun _ p => p.toAux).get? j = _
      rw [BMap.get?_mapVals, BMap.get?_tabulate, if_pos hj]
      show some (⟨(data j).pk, _⟩ : PublicAux) = _
      rw [hpk j hj]; rfl
    · intro i hi
      show (ctx i).key.p * (ctx i).key.q = _
      rw [(hsk i hi).2]
  have hnew : ∀ i ∈ ids, ∃ ε, (SecretKey.new (finalize3 (r3 i)).secret.p (finalize3 (r3 i)).secret.q : Out ε _) = .ok (finalize3 (r3 i)).secret.sk := by
    intro i hi
    refine ⟨LocalErr, ?_⟩
    show (SecretKey.new (ctx i).key.p (ctx i).key.q : Out LocalErr _) = .ok (ctx i).key.sk
    rw [(hsk i hi).2]
    exact (hsk i hi).1
  refine ⟨fun i => finalize3 (r3 i), fun i hi => ?_, hcons, hpq, hnew⟩
  · unfold run
    rw [hto i hi, Out.bind_ok]
    have es : send3 E (r3 i) = .ok ((bsetIter (ids.erase i)).map fun j => (j, m3 i j)) := by
      unfold send3
      rw [show (r3 i).ctx.otherIds = ids.erase i from hoth i hi]
      refine Out.mapM'_ok_of_forall (g := fun j => (j, m3 i j)) fun j hj => ?_
      have hj' := Finset.mem_erase.1 (mem_bsetIter.1 hj)
      rw [hm3 i hi j hj'.2 (Ne.symm hj'.1)]; rfl
    rw [es, Out.bind_ok]
    have e3 : collect (ctx i).otherIds (recv3 E (r3 i)) (in3 i) = .ok (BMap.tabulate (ids.erase i) fun _ => ()) := by
      rw [hoth i hi]
      refine collect_others (h3 i hi) fun j hj hne => ?_
      simp only [recv3, recvGet, r3, BMap.get?_tabulate, if_pos hj, Out.ofOption_some, Out.bind_ok]
      rw [hsid i hi, if_neg (by rw [not_not]; show ModProof.verify _ _ _ _ (data j).pk _ = true; rw [hpk j hj]; exact (hmod j hj).2)]
      have e4 : ((m3 j i).psi.verify E.P E.facH (data j).payload.pk (ctx i).rp.rp (sid, j, rid) : Out (RecvErr (Err I)) _) = .ok true := by
        rw [(hsk i hi).2]; show (psi j i |>.verify E.P E.facH (data j).pk _ _ : Out (RecvErr (Err I)) _) = _; rw [hpk j hj]; exact (hfc j i hj hi hne).2 _
      rw [e4, Out.bind_ok]; rfl
    rw [e3, Out.bind_ok]

end Synedrion.AuxGen
