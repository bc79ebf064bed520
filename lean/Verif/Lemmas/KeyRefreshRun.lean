import Verif.Lemmas.KeyRefresh
import Verif.Props.Session

/-!
# Key refresh when the parties have acceptable public data

The honest run, with the ring-Pedersen parameters and their proofs left open: they only have to be accepted in round 2 and to be usable for commitments.
-/

set_option linter.unusedSectionVars false

namespace Synedrion.KeyRefresh

open Spec Props

variable {I F G Sid V : Type} [LinearOrder I] [Field F] [LinearOrder F] [AddCommGroup G] [Module F G] [DecidableEq G] [DecidableEq V]

/-- The public data of a party, with the part for the auxiliary info left open. -/
def tdata (E : Env I Sid F G) (ids : Finset I) (d : Draws I F) (x : I → F) (base : AuxGen.PublicData) : PublicData I G :=
  ⟨base, BMap.tabulate ids fun j => x j • E.g, BMap.tabulate ids fun j => d.ys j • E.g, BMap.tabulate ids fun j => d.taus j • E.g⟩

/-- The context of a party, with the public part for the auxiliary info left open. -/
def tctx (E : Env I Sid F G) (ids : Finset I) (sid : Sid) (i : I) (d : Draws I F) (x : I → F) (sk : SecretKey d.aux.p d.aux.q) (base : AuxGen.PublicData) :
    Context I F G Sid :=
  ⟨⟨d.aux.p, d.aux.q, sk⟩, base.rp, BMap.tabulate ids x, BMap.tabulate ids d.ys, BMap.tabulate ids d.taus, i, ids.erase i, ids, sid, tdata E ids d x base,
    d.aux.modDraw, d.aux.modBit, d.aux.facMasks⟩

theorem finalize2_tctx {E : Env I Sid F G} {ids : Finset I} {sid : Sid} {i : I} {d : Draws I F} {x : I → F} {sk : SecretKey d.aux.p d.aux.q} {base : AuxGen.PublicData}
    (hrid : base.rid = d.aux.rid) {pls : BMap I (Payload2 I G)} :
    finalize2 E (tctx E ids sid i d x sk base) pls =
      (xorAll d.aux.rid (pls.values.map fun p => p.base.rid)).bind fun rid =>
      (AuxGen.makeMod E.aux ⟨d.aux.p, d.aux.q, sk⟩ d.aux.modDraw d.aux.modBit (sid, i, rid)).bind fun psiPrime =>
      .ok ⟨tctx E ids sid i d x sk base, rid, pls.insert i (tdata E ids d x base).payload, psiPrime, BMap.tabulate ids (hatPsi E sid i d x rid)⟩ := by
  have hs : ∀ rid, Out.mapM' (makeSch E (tctx E ids sid i d x sk base) rid) (bsetIter ids) = .ok ((bsetIter ids).map fun k => (k, hatPsi E sid i d x rid k)) := by
    intro rid
    refine Out.mapM'_ok_of_forall (g := fun k => (k, hatPsi E sid i d x rid k)) fun k hk => ?_
    have hk' := mem_bsetIter.1 hk
    simp only [makeSch, finGet, tctx, tdata, BMap.get?_tabulate, if_pos hk', Out.ofOption_some, Out.bind_ok, hatPsi]
  unfold finalize2
  have h1 : (tctx E ids sid i d x sk base).allIds = ids := rfl
  have h2 : (tctx E ids sid i d x sk base).data.base.rid = d.aux.rid := hrid
  rw [h1, h2]
  simp only [hs, Out.bind_ok, ofList_map_bsetIter]
  rfl

theorem run_core (E : Env I Sid F G) (k : Nat) (hE : HashesValid E.aux k) (hashV : Sid → I → Hashed I G → V) (ids : Finset I) (sid : Sid)
    (d : I → Draws I F) (hd : ∀ i ∈ ids, DrawsValid E.aux k (d i).aux) (x : I → I → F) (base : I → AuxGen.PublicData)
    (hpk : ∀ i ∈ ids, (base i).pk = (d i).aux.p * (d i).aux.q) (hdrid : ∀ i ∈ ids, (base i).rid = (d i).aux.rid)
    (hacc : ∀ i ∈ ids, ∀ capVs : BMap I V, capVs.get? i = some (hashV sid i (tdata E ids (d i) (x i) (base i)).hashed) →
      recv2 E hashV sid ids capVs i (tdata E ids (d i) (x i) (base i)).msg2 = .ok (tdata E ids (d i) (x i) (base i)).payload)
    (hrp : ∀ i ∈ ids, 0 < (base i).rp.modulus ∧ (base i).rp.modulus < 2 ^ E.aux.P.modBits ∧ (base i).rp.rp.Valid)
    (hfac : ∀ i ∈ ids, ∀ j ∈ ids, i ≠ j → FacDrawsValid E.aux.P ((d i).aux.p * (d i).aux.q) (base j).rp.modulus ((d i).aux.facMasks j))
    (len : Nat) (hlen : ∀ i ∈ ids, (d i).aux.rid.length = len)
    (sk : ∀ i, SecretKey (d i).aux.p (d i).aux.q) (ctx : I → Context I F G Sid)
    (hsk : ∀ i ∈ ids, (SecretKey.new (d i).aux.p (d i).aux.q : Out LocalErr _) = .ok (sk i) ∧ ∑ j ∈ ids, x i j = 0 ∧
      ctx i = tctx E ids sid i (d i) (x i) (sk i) (base i))
    (in1 : I → List (I × V)) (in2 : I → List (I × Msg2 I G))
    (h1 : ∀ i ∈ ids, FromOthers ids i (fun j => msg1 hashV (ctx j)) (in1 i))
    (h2 : ∀ i ∈ ids, FromOthers ids i (fun j => msg2 (ctx j)) (in2 i)) :
    ∃ (r3 : I → Round3 I F G Sid) (m3 : I → I → Msg3 I F) (rid : List Bool), (∀ i ∈ ids, toRound3 E hashV (ctx i) (in1 i) (in2 i) = .ok (r3 i)) ∧
      (∀ i ∈ ids, ∀ j ∈ ids, i ≠ j → msg3 E (r3 i) j = .ok (m3 i j)) ∧
      (∀ i ∈ ids, ∀ j ∈ ids, i ≠ j →
        (AuxGen.makeFac E.aux ⟨(d i).aux.p, (d i).aux.q, sk i⟩ (base j).rp (sid, i, rid) ((d i).aux.facMasks j) : Out LocalErr _) = .ok (m3 i j).psi) ∧
      (∀ in3 : I → List (I × Msg3 I F), (∀ i ∈ ids, FromOthers ids i (fun j => m3 j i) (in3 i)) →
        ∃ (changes : I → KeyShareChange I F G) (infos : I → AuxInfo I PaillierKey PublicAux),
          (∀ i ∈ ids, run E hashV (ctx i) (in1 i) (in2 i) (in3 i) = .ok (changes i, infos i)) ∧ ZeroSumChange E.g ids changes ∧
          (ConsistentAux ids infos fun j => ⟨(d j).aux.p * (d j).aux.q, (base j).rp.rp.toWire⟩) ∧
          (∀ i ∈ ids, (infos i).secret.p = (d i).aux.p ∧ (infos i).secret.q = (d i).aux.q) ∧
          ∀ i ∈ ids, ∃ ε, (SecretKey.new (infos i).secret.p (infos i).secret.q : Out ε _) = .ok (infos i).secret.sk) := by
  have hc : ∀ i ∈ ids, ctx i = tctx E ids sid i (d i) (x i) (sk i) (base i) := fun i hi => (hsk i hi).2.2
  -- the joint random string
  have hx : ∃ rid, ∀ i ∈ ids, (xorAll (d i).aux.rid ((bsetIter (ids.erase i)).map fun j => (d j).aux.rid) : Out LocalErr _) = .ok rid := by
    rcases ids.eq_empty_or_nonempty with rfl | ⟨i0, hi0⟩
    · exact ⟨[], by simp⟩
    have h0 : ∃ r, (xorAll (d i0).aux.rid ((bsetIter (ids.erase i0)).map fun j => (d j).aux.rid) : Out LocalErr _) = .ok r := by
      apply xorAll_ok_of_lengths
      intro x hx
      obtain ⟨j, hj, rfl⟩ := List.mem_map.1 hx
      rw [hlen j (Finset.mem_of_mem_erase (mem_bsetIter.1 hj)), hlen i0 hi0]
    obtain ⟨rid, hrid⟩ := h0
    refine ⟨rid, fun i hi => ?_⟩
    rw [← hrid]
    exact xorAll_perm (((erase_perm hi).trans (erase_perm hi0).symm).map fun i => (d i).aux.rid)
  obtain ⟨rid, hrid⟩ := hx
  -- the proofs
  have hmod : ∀ i, ∃ prf, i ∈ ids → (AuxGen.makeMod E.aux ⟨(d i).aux.p, (d i).aux.q, sk i⟩ (d i).aux.modDraw (d i).aux.modBit (sid, i, rid) : Out LocalErr _) = .ok prf ∧
      prf.verify E.aux.P E.aux.modH E.aux.isPrime ((d i).aux.p * (d i).aux.q) (sid, i, rid) = true := by
    intro i
    by_cases hi : i ∈ ids
    · obtain ⟨prf, h⟩ := honest_mod (ε' := LocalErr) hE (hd i hi) (hsk i hi).1 (sid, i, rid)
      exact ⟨prf, fun _ => h⟩
    · exact ⟨⟨0, [], []⟩, fun h => absurd h hi⟩
  choose psiP hmod using hmod
  have hfc : ∀ i j, ∃ prf, i ∈ ids → j ∈ ids → i ≠ j →
      (AuxGen.makeFac E.aux ⟨(d i).aux.p, (d i).aux.q, sk i⟩
        (base j).rp (sid, i, rid) ((d i).aux.facMasks j) :
        Out LocalErr _) = .ok prf ∧
      ∀ ε', (prf.verify E.aux.P E.aux.facH ((d i).aux.p * (d i).aux.q)
        (base j).rp.rp (sid, i, rid) : Out ε' _) = .ok true := by
    intro i j
    by_cases hi : i ∈ ids ∧ j ∈ ids ∧ i ≠ j
    · obtain ⟨prf, h⟩ := honest_fac (ε := LocalErr) hE (hd i hi.1)
        (rp := (base j).rp)
        (hrp j hi.2.1).1 (hrp j hi.2.1).2.1 (hrp j hi.2.1).2.2 (hfac i hi.1 j hi.2.1 hi.2.2) (sk i) (sid, i, rid)
      exact ⟨prf, fun _ _ _ => h⟩
    · exact ⟨⟨⟨0, 0⟩, 0, 0, 0, 0, 0, ⟨0, 0⟩, ⟨0, 0⟩, ⟨0, 0⟩, ⟨0, 0⟩, ⟨0, 0⟩⟩, fun h h' h'' => absurd ⟨h, h', h''⟩ hi⟩
  choose psi hfc using hfc
  let pl : I → Payload2 I G := fun j => (tdata E ids (d j) (x j) (base j)).payload
  let r3 : I → Round3 I F G Sid := fun i =>
    ⟨tctx E ids sid i (d i) (x i) (sk i) (base i), rid, BMap.tabulate ids pl, psiP i, BMap.tabulate ids (hatPsi E sid i (d i) (x i) rid)⟩
  let m3 : I → I → Msg3 I F := fun i j =>
    ⟨BMap.tabulate ids (hatPsi E sid i (d i) (x i) rid), psiP i, psi i j, x i j + E.rhoH sid rid i ((d i).ys j • (d j).ys i • E.g)⟩
  have hto : ∀ i ∈ ids, toRound3 E hashV (ctx i) (in1 i) (in2 i) = .ok (r3 i) := by
    intro i hi
    rw [hc i hi]
    unfold toRound3
    show ((collect (ids.erase i) recv1 (in1 i)).bind fun capVs => (collect (ids.erase i) (recv2 E hashV sid ids capVs) (in2 i)).bind fun payloads =>
      finalizeResult (finalize2 E (tctx E ids sid i (d i) (x i) (sk i) (base i)) payloads)) = _
    rw [collect_others (recv := recv1) (pl := fun j => msg1 hashV (ctx j)) (h1 i hi) (fun j _ _ => rfl), Out.bind_ok]
    have e2 : collect (ids.erase i) (recv2 E hashV sid ids (BMap.tabulate (ids.erase i) fun j => msg1 hashV (ctx j))) (in2 i) =
        .ok (BMap.tabulate (ids.erase i) pl) := by
      refine collect_others (h2 i hi) fun j hji hne => ?_
      have hj := Finset.mem_erase.2 ⟨hne, hji⟩
      rw [hc j hji]
      refine hacc j hji _ ?_
      rw [BMap.get?_tabulate, if_pos hj, hc j hji]; rfl
    rw [e2, Out.bind_ok, finalize2_tctx (hdrid i hi)]
    have e3 : (BMap.tabulate (ids.erase i) pl).values.map (fun p => p.base.rid) = (bsetIter (ids.erase i)).map fun j => (d j).aux.rid := by
      rw [BMap.values_tabulate, List.map_map]
      exact List.map_congr_left fun j hj => hdrid j (Finset.mem_of_mem_erase (mem_bsetIter.1 hj))
    rw [e3, hrid i hi, Out.bind_ok, (hmod i hi).1, Out.bind_ok]
    have e5 := BMap.insert_tabulate_erase hi pl
    simp only [pl] at e5
    simp only [pl, r3, e5]
    rfl
  have hm3 : ∀ i ∈ ids, ∀ j ∈ ids, i ≠ j → msg3 E (r3 i) j = .ok (m3 i j) := by
    intro i hi j hj hne
    simp only [msg3, finGet, r3, BMap.get?_tabulate, if_pos hj, Out.ofOption_some, Out.bind_ok]
    have e4 : AuxGen.makeFac E.aux (tctx E ids sid i (d i) (x i) (sk i) (base i)).key (pl j).base.rp (sid, i, rid) ((d i).aux.facMasks j) = (.ok (psi i j) : Out LocalErr _) :=
      (hfc i j hi hj hne).1
    have e5 : (pl j).capYs.get? i = some ((d j).ys i • E.g) := by
      show (BMap.tabulate ids fun l => (d j).ys l • E.g).get? i = _
      rw [BMap.get?_tabulate, if_pos hi]
    have e6 : (tctx E ids sid i (d i) (x i) (sk i) (base i)).ys.get? j = some ((d i).ys j) := by
      show (BMap.tabulate ids (d i).ys).get? j = _
      rw [BMap.get?_tabulate, if_pos hj]
    have e7 : (tctx E ids sid i (d i) (x i) (sk i) (base i)).xs.get? j = some (x i j) := by
      show (BMap.tabulate ids (x i)).get? j = _
      rw [BMap.get?_tabulate, if_pos hj]
    show ((AuxGen.makeFac E.aux (tctx E ids sid i (d i) (x i) (sk i) (base i)).key (pl j).base.rp (sid, i, rid) ((d i).aux.facMasks j)).bind fun psi =>
      (Out.ofOption _ ((pl j).capYs.get? i)).bind fun capY => _) = _
    rw [e4, Out.bind_ok, e5, e6, e7]
    rfl
  refine ⟨r3, m3, rid, hto, hm3, fun i hi j hj hne => (hfc i j hi hj hne).1, fun in3 h3 => ?_⟩
  refine ⟨fun i => ⟨i, (∑ j ∈ ids, x j i), BMap.tabulate ids fun l => ∑ j ∈ ids, x j l • E.g⟩,
    fun i => ⟨i, ⟨(d i).aux.p, (d i).aux.q, sk i⟩, (BMap.tabulate ids pl).mapVals fun _ p => p.base.toAux⟩, fun i hi => ?_, ?_, ?_⟩
  · unfold run
    rw [hto i hi, Out.bind_ok]
    have es : send3 E (r3 i) = .ok ((bsetIter (ids.erase i)).map fun j => (j, m3 i j)) := by
      unfold send3
      refine Out.mapM'_ok_of_forall (g := fun j => (j, m3 i j)) fun j hj => ?_
      have hj' := Finset.mem_erase.1 (mem_bsetIter.1 hj)
      rw [hm3 i hi j hj'.2 (Ne.symm hj'.1)]; rfl
    rw [es, Out.bind_ok]
    have e3 : collect (ctx i).otherIds (recv3 E (r3 i)) (in3 i) = .ok (BMap.tabulate (ids.erase i) fun j => x j i) := by
      rw [hc i hi]
      refine collect_others (h3 i hi) fun j hj hne => ?_
      simp only [recv3, recvGet, r3, BMap.get?_tabulate, if_pos hj, Out.ofOption_some, Out.bind_ok]
      have e5 : (pl j).capYs.get? i = some ((d j).ys i • E.g) := by
        show (BMap.tabulate ids fun l => (d j).ys l • E.g).get? i = _
        rw [BMap.get?_tabulate, if_pos hi]
      have e6 : (tctx E ids sid i (d i) (x i) (sk i) (base i)).ys.get? j = some ((d i).ys j) := by
        show (BMap.tabulate ids (d i).ys).get? j = _
        rw [BMap.get?_tabulate, if_pos hj]
      have e7 : (pl j).capXs.get? i = some (x j i • E.g) := by
        show (BMap.tabulate ids fun l => x j l • E.g).get? i = _
        rw [BMap.get?_tabulate, if_pos hi]
      have e8 : (m3 j i).capC - E.rhoH sid rid j ((d i).ys j • (d j).ys i • E.g) = x j i := by
        show x j i + E.rhoH sid rid j ((d j).ys i • (d i).ys j • E.g) - _ = _
        rw [smul_smul, smul_smul, mul_comm, add_sub_cancel_right]
      show ((Out.ofOption _ ((pl j).capYs.get? i)).bind fun capY => (Out.ofOption _ ((tctx E ids sid i (d i) (x i) (sk i) (base i)).ys.get? j)).bind fun y =>
        (Out.ofOption _ ((pl j).capXs.get? i)).bind fun myCapX => if ((m3 j i).capC - E.rhoH sid rid j (y • capY)) • E.g ≠ myCapX then _ else _) = _
      rw [e5, e6, e7]
      simp only [Out.ofOption_some, Out.bind_ok]
      rw [e8, if_neg (not_not.2 rfl), if_neg (by rw [not_not]; show ModProof.verify _ _ _ _ (base j).pk _ = true; rw [hpk j hj]; exact (hmod j hj).2)]
      have e4 : ((m3 j i).psi.verify E.aux.P E.aux.facH (pl j).base.pk (tctx E ids sid i (d i) (x i) (sk i) (base i)).rp.rp (sid, j, rid) : Out (RecvErr (Err I F)) _) = .ok true := by
        show (FacProof.verify _ _ _ (base j).pk _ _ : Out (RecvErr (Err I F)) _) = _
        rw [hpk j hj]; exact (hfc j i hj hi hne).2 _
      show (((m3 j i).psi.verify E.aux.P E.aux.facH (pl j).base.pk (tctx E ids sid i (d i) (x i) (sk i) (base i)).rp.rp (sid, j, rid) : Out (RecvErr (Err I F)) _).bind _) = _
      have e12 : (m3 j i).hatPsis.keySet = (tctx E ids sid i (d i) (x i) (sk i) (base i)).allIds := BMap.keySet_tabulate ..
      rw [e4, Out.bind_ok, if_neg (by simp), if_neg (not_not.2 e12)]
      have e9 : checkSch E (pl j) (sid, j, rid) (m3 j i).hatPsis.entries = .ok () := by
        rw [checkSch_eq_ok]
        rintro ⟨l, prf⟩ ha
        rw [← BMap.get?_eq_some_iff] at ha
        have ha' : (BMap.tabulate ids (hatPsi E sid j (d j) (x j) rid)).get? l = some prf := ha
        rw [BMap.get?_tabulate] at ha'
        split at ha'
        · rename_i hl
          cases ha'
          refine ⟨(d j).taus l • E.g, x j l • E.g, ?_, ?_, ?_⟩
          · show (BMap.tabulate ids fun l => (d j).taus l • E.g).get? l = _
            rw [BMap.get?_tabulate, if_pos hl]
          · show (BMap.tabulate ids fun l => x j l • E.g).get? l = _
            rw [BMap.get?_tabulate, if_pos hl]
          · exact C25_complete E.schH E.g ((d j).taus l) (x j l) (sid, j, rid)
        · cases ha'
      show ((checkSch E (pl j) (sid, j, rid) (m3 j i).hatPsis.entries).bind _) = _
      rw [e9, Out.bind_ok]
      exact congrArg Out.ok e8
    rw [e3, Out.bind_ok]
    have e10 : (tctx E ids sid i (d i) (x i) (sk i) (base i)).xs.get? i = some (x i i) := by
      show (BMap.tabulate ids (x i)).get? i = _
      rw [BMap.get?_tabulate, if_pos hi]
    have e11 : finalize3 (r3 i) (BMap.tabulate (ids.erase i) fun j => x j i) =
        .ok (⟨i, (∑ j ∈ ids, x j i), BMap.tabulate ids fun l => ∑ j ∈ ids, x j l • E.g⟩,
          ⟨i, ⟨(d i).aux.p, (d i).aux.q, sk i⟩, (BMap.tabulate ids pl).mapVals fun _ p => p.base.toAux⟩) := by
      unfold finalize3 finGet
      show ((Out.ofOption _ ((tctx E ids sid i (d i) (x i) (sk i) (base i)).xs.get? i)).bind fun myX =>
        (Out.mapM' (sumChanges (BMap.tabulate ids pl).values) (bsetIter ids)).bind fun capXStar => _) = _
      rw [e10, Out.ofOption_some, Out.bind_ok, sumChanges_tabulate (capX := fun j l => x j l • E.g), Out.bind_ok, ofList_map_bsetIter,
        BMap.sum_values_tabulate, Finset.sum_erase_add _ _ hi]
      · rfl
      · intro j hj l hl
        show (BMap.tabulate ids fun l => x j l • E.g).get? l = _
        rw [BMap.get?_tabulate, if_pos hl]
    rw [e11]; rfl
  · constructor
    · intro i hi; rfl
    · intro i hi; exact BMap.keySet_tabulate ..
    · intro i hi j hj
      show (BMap.tabulate ids _).get? j = _
      rw [BMap.get?_tabulate, if_pos hj, Finset.sum_smul]
    · show ∑ i ∈ ids, ∑ j ∈ ids, x j i = 0
      rw [Finset.sum_comm]
      exact Finset.sum_eq_zero fun j hj => (hsk j hj).2.1
  · have hcons : ConsistentAux ids
        (fun i => (⟨i, ⟨(d i).aux.p, (d i).aux.q, sk i⟩, (BMap.tabulate ids pl).mapVals fun _ p => p.base.toAux⟩ : AuxInfo I PaillierKey PublicAux)) fun j =>
          ⟨(d j).aux.p * (d j).aux.q, (base j).rp.rp.toWire⟩ := by
      constructor
      · intro i hi; rfl
      · intro i hi
        show ((BMap.tabulate ids pl).mapVals fun _ p => p.base.toAux).keySet = ids
        rw [BMap.keySet_mapVals, BMap.keySet_tabulate]
      · intro i hi j hj
        show ((BMap.tabulate ids pl).mapVals fun _ p => p.base.toAux).get? j = _
        rw [BMap.get?_mapVals, BMap.get?_tabulate, if_pos hj]
        show some (⟨(base j).pk, _⟩ : PublicAux) = _
        rw [hpk j hj]; rfl
      · intro i hi; rfl
    exact ⟨hcons, fun _ _ => ⟨rfl, rfl⟩, fun i hi => ⟨LocalErr, (hsk i hi).1⟩⟩

end Synedrion.KeyRefresh
