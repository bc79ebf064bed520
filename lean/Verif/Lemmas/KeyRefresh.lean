import Verif.Model.KeyRefresh
import Verif.Lemmas.AuxGen
import Verif.Lemmas.Entities
import Verif.Props.ZkCurve
import Verif.Props.Sharing

/-!
# Helper lemmas for key refresh
-/

set_option linter.unusedSectionVars false

namespace Synedrion.KeyRefresh

open Spec Props

variable {I F G Sid V : Type} [LinearOrder I] [Field F] [LinearOrder F] [AddCommGroup G] [Module F G] [DecidableEq G] [DecidableEq V]

theorem makeData_ok {ε : Type} {E : AuxEnv I Sid} {sid : Sid} {i : I} {d : AuxDraws I} {x : PaillierKey × AuxGen.PublicData}
    (h : (AuxGen.makeData E sid i d : Out ε _) = .ok x) :
    d.rpP * d.rpQ % 2 = 1 ∧ ∃ sk, (SecretKey.new d.p d.q : Out ε _) = .ok sk ∧ x = (⟨d.p, d.q, sk⟩, AuxGen.hdata E sid i d) := by
  simp only [AuxGen.makeData, Out.bind_eq_ok, publicModulusNew] at h
  obtain ⟨sk, hsk, y, hy, hx⟩ := h
  split at hy
  · rename_i hodd
    cases hx
    exact ⟨hodd, sk, hsk, rfl⟩
  · simp at hy

theorem makeData_valid {ε : Type} {E : AuxEnv I Sid} {k : Nat} {d : AuxDraws I} (hd : DrawsValid E k d) (sid : Sid) (i : I) :
    ∃ sk, (AuxGen.makeData E sid i d : Out ε _) = .ok (⟨d.p, d.q, sk⟩, AuxGen.hdata E sid i d) := by
  obtain ⟨sk, hsk⟩ := hd.new_ok (ε := ε)
  refine ⟨sk, ?_⟩
  unfold AuxGen.makeData publicModulusNew
  simp only [hsk, Out.bind_ok, odd_of_primes hd.rpKey.primes, if_true]
  rfl

/-- Parts of zero handed to the parties `ids`. -/
theorem split_tabulate {ε : Type} {ids : Finset I} {draw : Nat → F} {l : List F} (h : (Shamir.secretSplit (0 : F) ids.card draw : Out ε _) = .ok l) :
    ∃ x : I → F, BMap.ofList ((bsetIter ids).zip l) = BMap.tabulate ids x ∧ ∑ j ∈ ids, x j = 0 := by
  have hne : 1 ≤ ids.card := by
    by_contra hn
    rw [(C11_additive_split (ε := ε) (0 : F) ids.card draw).2 (by omega)] at h
    cases h
  obtain ⟨parts, hp, hlen, hsum⟩ := (C11_additive_split (ε := ε) (0 : F) ids.card draw).1 hne
  rw [hp] at h
  cases h
  obtain ⟨x, hx⟩ : ∃ x : I → F, l = (bsetIter ids).map x := by
    refine ⟨fun i => (l[(bsetIter ids).idxOf i]?).getD 0, ?_⟩
    apply List.ext_getElem
    · simp [hlen]
    · intro i h1 h2
      have h3 : i < (bsetIter ids).length := by simpa using h2
      rw [List.getElem_map, (bsetIter_nodup ids).idxOf_getElem i h3, List.getElem?_eq_getElem h1, Option.getD_some]
  refine ⟨x, ?_, ?_⟩
  · rw [hx, zip_map_self, ofList_map_bsetIter]
  · rw [← sum_bsetIter, ← hx, hsum]

/-- The public data an honest party makes from its draws; `x` are its parts of zero. -/
def hdata (E : Env I Sid F G) (ids : Finset I) (sid : Sid) (i : I) (d : Draws I F) (x : I → F) : PublicData I G :=
  ⟨AuxGen.hdata E.aux sid i d.aux, BMap.tabulate ids fun j => x j • E.g, BMap.tabulate ids fun j => d.ys j • E.g, BMap.tabulate ids fun j => d.taus j • E.g⟩

/-- The context of an honest party. -/
def hctx (E : Env I Sid F G) (ids : Finset I) (sid : Sid) (i : I) (d : Draws I F) (x : I → F) (sk : SecretKey d.aux.p d.aux.q) : Context I F G Sid :=
  ⟨⟨d.aux.p, d.aux.q, sk⟩, ⟨_, RPParams.withSecret (d.aux.rpP * d.aux.rpQ) E.aux.P.modBits d.aux.lambda d.aux.tDraw⟩, BMap.tabulate ids x,
    BMap.tabulate ids d.ys, BMap.tabulate ids d.taus, i, ids.erase i, ids, sid, hdata E ids sid i d x, d.aux.modDraw, d.aux.modBit, d.aux.facMasks⟩

theorem mapVals_tabulate {W W' : Type} (s : Finset I) (f : I → W) (h : I → W → W') :
    (BMap.tabulate s f).mapVals h = BMap.tabulate s fun i => h i (f i) := by
  apply BMap.eq_tabulate_of
  · rw [BMap.keySet_mapVals, BMap.keySet_tabulate]
  · intro i hi
    rw [BMap.get?_mapVals, BMap.get?_tabulate, if_pos hi]; rfl

theorem start_ok {E : Env I Sid F G} {ids : Finset I} {sid : Sid} {i : I} {d : Draws I F} {c : Context I F G Sid} (h : start E ids sid i d = .ok c) :
    i ∈ ids ∧ d.aux.rpP * d.aux.rpQ % 2 = 1 ∧ ∃ sk x, (SecretKey.new d.aux.p d.aux.q : Out LocalErr _) = .ok sk ∧ ∑ j ∈ ids, x j = 0 ∧
      c = hctx E ids sid i d x sk := by
  unfold start at h
  split at h
  · simp at h
  rename_i hi
  simp only [Out.bind_eq_ok] at h
  obtain ⟨y, hy, l, hl, hc⟩ := h
  obtain ⟨hodd, sk, hsk, rfl⟩ := makeData_ok hy
  obtain ⟨x, hx, hsum⟩ := split_tabulate hl
  rw [hx, mapVals_tabulate, mapVals_tabulate, mapVals_tabulate] at hc
  cases hc
  exact ⟨not_not.1 hi, hodd, sk, x, hsk, hsum, rfl⟩

theorem start_valid {E : Env I Sid F G} {k : Nat} {ids : Finset I} {sid : Sid} {i : I} (hi : i ∈ ids) {d : Draws I F} (hd : DrawsValid E.aux k d.aux) :
    ∃ c, start E ids sid i d = .ok c := by
  obtain ⟨sk, h1⟩ := makeData_valid (ε := LocalErr) hd sid i
  obtain ⟨parts, h2, -⟩ := (C11_additive_split (ε := LocalErr) (0 : F) ids.card d.split).1 (Finset.card_pos.2 ⟨i, hi⟩)
  unfold start
  rw [if_neg (not_not.2 hi), h1, Out.bind_ok]
  simp only [h2, Out.bind_ok]
  exact ⟨_, rfl⟩

theorem base_msg2 (d : PublicData I G) : d.msg2.base = d.base.msg2 := rfl

/-- What a received message means to the receiver. -/
def payloadOf (m : Msg2 I G) : Payload2 I G := ⟨m.capXs, m.capAs, m.echo.capYs, ⟨m.pk, AuxGen.rpOf m.base, m.echo.rid⟩⟩

theorem open_eq {ε : Type} {m : Msg2 I G} {d : PublicData I G} (h : (m.open : Out ε _) = .ok d) :
    d = ⟨⟨m.pk, AuxGen.rpOf m.base, m.psi, m.echo.rid, m.u⟩, m.capXs, m.echo.capYs, m.capAs⟩ ∧ m.pk % 2 = 1 ∧ m.echo.rp.modulus % 2 = 1 := by
  unfold Msg2.open at h
  obtain ⟨b, hb, h⟩ := Out.bind_eq_ok.1 h
  cases h
  have h1 := AuxGen.open_explicit hb
  have h2 := Msg2.open_eq_ok hb
  refine ⟨?_, h2.2.2.2.2.2.1, h2.2.2.2.2.2.2.1⟩
  rw [h1]; rfl

theorem open_of_odd {ε : Type} {m : Msg2 I G} (h1 : m.pk % 2 = 1) (h2 : m.echo.rp.modulus % 2 = 1) :
    (m.open : Out ε _) = .ok ⟨⟨m.pk, AuxGen.rpOf m.base, m.psi, m.echo.rid, m.u⟩, m.capXs, m.echo.capYs, m.capAs⟩ := by
  cases h : (m.open : Out ε _) with
  | ok d => rw [(open_eq h).1]
  | err e =>
    unfold Msg2.open at h
    cases hb : (m.base.open : Out ε _) with
    | err e => exact absurd hb Msg2.open_ne_err
    | panic => rw [hb] at h; cases h
    | ok b => rw [hb] at h; cases h
  | panic =>
    unfold Msg2.open at h
    cases hb : (m.base.open : Out ε _) with
    | err e => exact absurd hb Msg2.open_ne_err
    | panic =>
      have := Msg2.open_eq_panic.1 hb
      have h3 : m.pk % 2 = 0 ∨ m.echo.rp.modulus % 2 = 0 := this
      omega
    | ok b => rw [hb] at h; cases h

theorem open_of_even {ε : Type} {m : Msg2 I G} (h : m.pk % 2 = 0 ∨ m.echo.rp.modulus % 2 = 0) : (m.open : Out ε _) = .panic := by
  unfold Msg2.open
  rw [Msg2.open_eq_panic.2 h]; rfl

theorem recv2_ok {E : Env I Sid F G} {hashV : Sid → I → Hashed I G → V} {sid : Sid} {ids : Finset I} {capVs : BMap I V} {j : I} {m : Msg2 I G}
    {p : Payload2 I G} (h : recv2 E hashV sid ids capVs j m = .ok p) :
    ∃ v, capVs.get? j = some v ∧ hashV sid j ⟨m.capXs, m.echo.capYs, m.capAs, ⟨m.pk, (AuxGen.rpOf m.base).rp.toWire, m.psi, m.echo.rid, m.u⟩⟩ = v ∧
      m.capXs.keySet = ids ∧ m.echo.capYs.keySet = ids ∧ m.capAs.keySet = ids ∧ m.pk % 2 = 1 ∧ m.echo.rp.modulus % 2 = 1 ∧
      ¬ bitLen m.pk < E.aux.P.modBits - 2 ∧ ¬ bitLen m.echo.rp.modulus < E.aux.P.modBits - 2 ∧ m.capXs.values.sum = 0 ∧
      m.psi.verify E.aux.prmH (AuxGen.rpOf m.base).rp (sid, j) = true ∧ p = payloadOf m := by
  unfold recv2 at h
  obtain ⟨data, ho, h⟩ := Out.bind_eq_ok.1 h
  obtain ⟨v, hv, h⟩ := Out.bind_eq_ok.1 h
  obtain ⟨rfl, o1, o2⟩ := open_eq ho
  have hv' : capVs.get? j = some v := by
    unfold recvGet at hv; cases hg : capVs.get? j with
    | none => simp [hg] at hv
    | some x => simpa [hg] using hv
  split at h
  · simp at h
  split at h
  · simp at h
  split at h
  · simp at h
  split at h
  · simp at h
  split at h
  · simp at h
  split at h
  · simp at h
  split at h
  · simp at h
  split at h
  · simp at h
  rename_i h1 h2 h3 h4 h5 h6 h7 h8
  cases h
  exact ⟨v, hv', not_not.1 h1, not_not.1 h2, not_not.1 h3, not_not.1 h4, o1, o2, h5, h6, not_not.1 h7, not_not.1 h8, rfl⟩

theorem hdata_payload (E : Env I Sid F G) (ids : Finset I) (sid : Sid) (i : I) (d : Draws I F) (x : I → F) :
    (hdata E ids sid i d x).payload = ⟨BMap.tabulate ids fun j => x j • E.g, BMap.tabulate ids fun j => d.taus j • E.g, BMap.tabulate ids fun j => d.ys j • E.g,
      (AuxGen.hdata E.aux sid i d.aux).payload⟩ := rfl

theorem hdata_accepted {E : Env I Sid F G} {k : Nat} (hE : HashesValid E.aux k) {ids : Finset I} {d : Draws I F} (hd : DrawsValid E.aux k d.aux) (sid : Sid)
    (i : I) {x : I → F} (hx : ∑ j ∈ ids, x j = 0) (hashV : Sid → I → Hashed I G → V) (capVs : BMap I V)
    (hv : capVs.get? i = some (hashV sid i (hdata E ids sid i d x).hashed)) :
    recv2 E hashV sid ids capVs i (hdata E ids sid i d x).msg2 = .ok (hdata E ids sid i d x).payload := by
  unfold recv2 Msg2.open
  rw [base_msg2]
  have ho : ((hdata E ids sid i d x).base.msg2.open : Out (RecvErr (Err I F)) _) = .ok (AuxGen.hdata E.aux sid i d.aux) :=
    open_msg2 (odd_of_primes hd.key.primes) (odd_of_primes hd.rpKey.primes)
  rw [ho, Out.bind_ok, Out.bind_ok]
  unfold recvGet
  rw [hv, Out.ofOption_some, Out.bind_ok]
  have b1 : ¬ bitLen (AuxGen.hdata E.aux sid i d.aux).pk < E.aux.P.modBits - 2 := FullSizePrimes.size hd.key (HashesValid.modBits_eq hE)
  have b2 : ¬ bitLen (AuxGen.hdata E.aux sid i d.aux).rp.modulus < E.aux.P.modBits - 2 := FullSizePrimes.size hd.rpKey (HashesValid.modBits_eq hE)
  have s : (BMap.tabulate ids fun j => x j • E.g).values.sum = 0 := by
    rw [BMap.sum_values_tabulate, ← Finset.sum_smul, hx, zero_smul]
  show (if hashV sid i (hdata E ids sid i d x).hashed ≠ hashV sid i (hdata E ids sid i d x).hashed then _
    else if (BMap.tabulate ids fun j => x j • E.g).keySet ≠ ids then _
    else if (BMap.tabulate ids fun j => d.ys j • E.g).keySet ≠ ids then _
    else if (BMap.tabulate ids fun j => d.taus j • E.g).keySet ≠ ids then _
    else if bitLen (AuxGen.hdata E.aux sid i d.aux).pk < E.aux.P.modBits - 2 then _
    else if bitLen (AuxGen.hdata E.aux sid i d.aux).rp.modulus < E.aux.P.modBits - 2 then _
    else if (BMap.tabulate ids fun j => x j • E.g).values.sum ≠ 0 then _ else _) = _
  rw [if_neg (not_not.2 rfl), if_neg (not_not.2 (BMap.keySet_tabulate ..)), if_neg (not_not.2 (BMap.keySet_tabulate ..)),
    if_neg (not_not.2 (BMap.keySet_tabulate ..)), if_neg b1, if_neg b2, if_neg (not_not.2 s), if_neg]
  · rfl
  · rw [not_not]; exact hd.prm_ok hE (sid, i)

/-- The Schnorr proofs of an honest party. -/
def hatPsi (E : Env I Sid F G) (sid : Sid) (i : I) (d : Draws I F) (x : I → F) (rid : List Bool) (k : I) : SchProof F :=
  SchProof.prove E.schH (d.taus k) (x k) (d.taus k • E.g) (x k • E.g) (sid, i, rid)

theorem makeSch_honest {E : Env I Sid F G} {ids : Finset I} {sid : Sid} {i : I} {d : Draws I F} {x : I → F} {sk : SecretKey d.aux.p d.aux.q} {rid : List Bool} :
    Out.mapM' (makeSch E (hctx E ids sid i d x sk) rid) (bsetIter ids) = .ok ((bsetIter ids).map fun k => (k, hatPsi E sid i d x rid k)) := by
  refine Out.mapM'_ok_of_forall (g := fun k => (k, hatPsi E sid i d x rid k)) fun k hk => ?_
  have hk' := mem_bsetIter.1 hk
  simp only [makeSch, finGet, hctx, hdata, BMap.get?_tabulate, if_pos hk', Out.ofOption_some, Out.bind_ok, hatPsi]

theorem finalize2_eq {E : Env I Sid F G} {ids : Finset I} {sid : Sid} {i : I} {d : Draws I F} {x : I → F} {sk : SecretKey d.aux.p d.aux.q}
    {pls : BMap I (Payload2 I G)} :
    finalize2 E (hctx E ids sid i d x sk) pls =
      (xorAll d.aux.rid (pls.values.map fun p => p.base.rid)).bind fun rid =>
      (AuxGen.makeMod E.aux ⟨d.aux.p, d.aux.q, sk⟩ d.aux.modDraw d.aux.modBit (sid, i, rid)).bind fun psiPrime =>
      .ok ⟨hctx E ids sid i d x sk, rid, pls.insert i (hdata E ids sid i d x).payload, psiPrime, BMap.tabulate ids (hatPsi E sid i d x rid)⟩ := by
  unfold finalize2
  have h1 : (hctx E ids sid i d x sk).allIds = ids := rfl
  rw [h1]
  simp only [makeSch_honest, Out.bind_ok, ofList_map_bsetIter]
  rfl

theorem checkSch_eq_ok {E : Env I Sid F G} {pl : Payload2 I G} {aux : Sid × I × List Bool} {l : List (I × SchProof F)} :
    checkSch E pl aux l = .ok () ↔ ∀ a ∈ l, ∃ capA capX, pl.capAs.get? a.1 = some capA ∧ pl.capXs.get? a.1 = some capX ∧
      a.2.verify E.schH E.g capA capX aux = true := by
  induction l with
  | nil => simp [checkSch]
  | cons a l ih =>
    obtain ⟨id, psi⟩ := a
    simp only [checkSch, recvGet, List.forall_mem_cons]
    cases h1 : pl.capAs.get? id with
    | none => simp
    | some capA =>
      cases h2 : pl.capXs.get? id with
      | none => simp
      | some capX =>
        simp only [Out.ofOption_some, Out.bind_ok]
        by_cases hv : psi.verify E.schH E.g capA capX aux = true
        · rw [if_neg (not_not.2 hv), ih]; simp [hv]
        · rw [if_pos hv]; simp [hv]

/-- When the loop over the Schnorr proofs rejects. -/
theorem checkSch_eq_protocol {E : Env I Sid F G} {pl : Payload2 I G} {aux : Sid × I × List Bool} {l : List (I × SchProof F)} {e : Err I F}
    (h : checkSch E pl aux l = .err (.protocol e)) : ∃ a ∈ l, ∃ capA capX, e = .r3SchFailed a.1 ∧ pl.capAs.get? a.1 = some capA ∧
      pl.capXs.get? a.1 = some capX ∧ a.2.verify E.schH E.g capA capX aux = false := by
  induction l with
  | nil => simp [checkSch] at h
  | cons a l ih =>
    obtain ⟨id, psi⟩ := a
    simp only [checkSch, recvGet] at h
    cases h1 : pl.capAs.get? id with
    | none => rw [h1] at h; simp at h
    | some capA =>
      cases h2 : pl.capXs.get? id with
      | none => rw [h1, h2] at h; simp at h
      | some capX =>
        rw [h1, h2] at h
        simp only [Out.ofOption_some, Out.bind_ok] at h
        by_cases hv : psi.verify E.schH E.g capA capX aux = true
        · rw [if_neg (not_not.2 hv)] at h
          obtain ⟨a, ha, h'⟩ := ih h
          exact ⟨a, by simp [ha], h'⟩
        · rw [if_pos hv] at h
          cases h
          exact ⟨(id, psi), by simp, capA, capX, rfl, h1, h2, by simpa using hv⟩

theorem checkSch_ne_panic {E : Env I Sid F G} {pl : Payload2 I G} {aux : Sid × I × List Bool} {l : List (I × SchProof F)} : checkSch E pl aux l ≠ .panic := by
  induction l with
  | nil => simp [checkSch]
  | cons a l ih =>
    obtain ⟨id, psi⟩ := a
    simp only [checkSch, recvGet]
    cases h1 : pl.capAs.get? id with
    | none => simp
    | some capA =>
      cases h2 : pl.capXs.get? id with
      | none => simp
      | some capX =>
        simp only [Out.ofOption_some, Out.bind_ok]
        split
        · simp
        · exact ih

theorem sumChanges_ok {pls : List (Payload2 I G)} {k : I} {f : Payload2 I G → G} (h : ∀ p ∈ pls, p.capXs.get? k = some (f p)) :
    sumChanges pls k = .ok (k, (pls.map f).sum) := by
  have : ∀ (a : G), pls.foldl (fun (acc : Out LocalErr G) p => acc.bind fun result => (finGet p.capXs k).bind fun capX => .ok (result + capX)) (.ok a) =
      .ok (a + (pls.map f).sum) := by
    induction pls with
    | nil => simp
    | cons p pls ih =>
      intro a
      rw [List.foldl_cons]
      have h1 : (finGet p.capXs k) = .ok (f p) := by unfold finGet; rw [h p (by simp)]; rfl
      rw [Out.bind_ok, h1, Out.bind_ok, ih fun q hq => h q (by simp [hq])]
      simp [add_assoc]
  unfold sumChanges
  rw [this 0, Out.bind_ok, zero_add]

theorem sumChanges_tabulate {ids : Finset I} {pl : I → Payload2 I G} {capX : I → I → G} (h : ∀ j ∈ ids, ∀ k ∈ ids, (pl j).capXs.get? k = some (capX j k)) :
    Out.mapM' (sumChanges (BMap.tabulate ids pl).values) (bsetIter ids) = .ok ((bsetIter ids).map fun k => (k, ∑ j ∈ ids, capX j k)) := by
  refine Out.mapM'_ok_of_forall (g := fun k => (k, ∑ j ∈ ids, capX j k)) fun k hk => ?_
  have hk' := mem_bsetIter.1 hk
  rw [BMap.values_tabulate]
  have h1 := sumChanges_ok (pls := (bsetIter ids).map pl) (k := k) (f := fun p => (p.capXs.get? k).getD 0) (by
    intro p hp
    obtain ⟨j, hj, rfl⟩ := List.mem_map.1 hp
    rw [h j (mem_bsetIter.1 hj) k hk']; rfl)
  rw [h1, List.map_map]
  have h2 : ((bsetIter ids).map ((fun p : Payload2 I G => (p.capXs.get? k).getD 0) ∘ pl)) = (bsetIter ids).map fun j => capX j k := by
    refine List.map_congr_left fun j hj => ?_
    simp [h j (mem_bsetIter.1 hj) k hk']
  rw [h2, sum_bsetIter]

/-- The state of a party that reached round 3, whatever it received. -/
theorem toRound3_ok {E : Env I Sid F G} {hashV : Sid → I → Hashed I G → V} {ids : Finset I} {sid : Sid} {me : I} (hme : me ∈ ids) {d : Draws I F} {x : I → F}
    {sk : SecretKey d.aux.p d.aux.q} {in1 : List (I × V)} {in2 : List (I × Msg2 I G)} {r3 : Round3 I F G Sid}
    (h : toRound3 E hashV (hctx E ids sid me d x sk) in1 in2 = .ok r3) :
    ∃ (rid : List Bool) (psiPrime : ModProof) (pl : I → Payload2 I G),
      r3 = ⟨hctx E ids sid me d x sk, rid, BMap.tabulate ids pl, psiPrime, BMap.tabulate ids (hatPsi E sid me d x rid)⟩ ∧
      (in2.map Prod.fst).Nodup ∧ (in2.map Prod.fst).toFinset = ids.erase me ∧ pl me = (hdata E ids sid me d x).payload ∧
      (∀ j m, (j, m) ∈ in2 → pl j = payloadOf m ∧ m.capXs.keySet = ids ∧ m.echo.capYs.keySet = ids ∧ m.capAs.keySet = ids ∧
        m.pk % 2 = 1 ∧ m.echo.rp.modulus % 2 = 1 ∧ ¬ bitLen m.pk < E.aux.P.modBits - 2 ∧ ¬ bitLen m.echo.rp.modulus < E.aux.P.modBits - 2 ∧
        m.capXs.values.sum = 0 ∧ m.psi.verify E.aux.prmH (AuxGen.rpOf m.base).rp (sid, j) = true ∧
        (j, hashV sid j ⟨m.capXs, m.echo.capYs, m.capAs, ⟨m.pk, (AuxGen.rpOf m.base).rp.toWire, m.psi, m.echo.rid, m.u⟩⟩) ∈ in1) ∧
      JointBits (d.aux.rid :: in2.map fun a => a.2.echo.rid) rid ∧
      (AuxGen.makeMod E.aux ⟨d.aux.p, d.aux.q, sk⟩ d.aux.modDraw d.aux.modBit (sid, me, rid) : Out LocalErr _) = .ok psiPrime := by
  unfold toRound3 at h
  simp only [Out.bind_eq_ok, finalizeResult_eq_ok] at h
  obtain ⟨capVs, hv, pls, hp, hf2⟩ := h
  rw [finalize2_eq] at hf2
  simp only [Out.bind_eq_ok] at hf2
  obtain ⟨rid, hrid, psiP, hpsi, hr3⟩ := hf2
  cases hr3
  have hp' : collect (ids.erase me) (recv2 E hashV sid ids capVs) in2 = .ok pls := hp
  have hv' : collect (ids.erase me) (recv1 : I → V → Out (RecvErr (Err I F)) V) in1 = .ok capVs := hv
  obtain ⟨nd1, ex1, k1, a1⟩ := collect_eq_ok.1 hv'
  obtain ⟨nd2, ex2, k2, a2⟩ := collect_eq_ok.1 hp'
  have hin : ∀ j ∈ ids.erase me, ∃ m, (j, m) ∈ in2 := by
    intro j hj
    rw [← ex2, List.mem_toFinset] at hj
    obtain ⟨⟨_, m⟩, hm, rfl⟩ := List.mem_map.1 hj
    exact ⟨m, hm⟩
  have hg : ∀ j m, (j, m) ∈ in2 → pls.get? j = some (payloadOf m) := by
    intro j m hm
    obtain ⟨p, h1, h2⟩ := a2 _ hm
    obtain ⟨_, _, _, _, _, _, _, _, _, _, _, _, rfl⟩ := recv2_ok h1
    exact h2
  let pl : I → Payload2 I G := fun j => if j = me then (hdata E ids sid me d x).payload else (pls.get? j).getD (hdata E ids sid me d x).payload
  have hpl : pls.insert me (hdata E ids sid me d x).payload = BMap.tabulate ids pl := by
    apply BMap.eq_tabulate_of
    · rw [BMap.keySet_insert, k2]; exact Finset.insert_erase hme
    · intro j hj
      rw [BMap.get?_insert]
      by_cases hjm : j = me
      · simp [pl, hjm]
      · obtain ⟨m, hm⟩ := hin j (Finset.mem_erase.2 ⟨hjm, hj⟩)
        simp [pl, hjm, hg j m hm]
  refine ⟨rid, psiP, pl, by rw [hpl], nd2, ex2, by simp [pl], ?_, ?_, hpsi⟩
  · intro j m hm
    have hj : j ∈ ids.erase me := by rw [← ex2, List.mem_toFinset]; exact List.mem_map.2 ⟨_, hm, rfl⟩
    obtain ⟨p, h1, h2⟩ := a2 _ hm
    obtain ⟨v, hgv, hh, x1, x2, x3, o1, o2, b1, b2, hs, hver, rfl⟩ := recv2_ok h1
    obtain ⟨v', v'', hv1, hv2, hgv'⟩ := collect_mem hv' hj
    cases hv2
    rw [hgv] at hgv'; cases hgv'
    refine ⟨?_, x1, x2, x3, o1, o2, b1, b2, hs, hver, ?_⟩
    · simp [pl, (Finset.mem_erase.1 hj).1, hg j m hm]
    · rw [show hashV sid j _ = v from hh]; exact hv1
  · refine (xorAll_eq_ok.1 hrid).perm (List.Perm.cons _ ?_)
    have hpe := collect_entries_perm (f := fun _ m => payloadOf m) hp' (by
      intro a _ p hp''
      obtain ⟨_, _, _, _, _, _, _, _, _, _, _, _, rfl⟩ := recv2_ok hp''
      rfl)
    have := hpe.map fun p => p.2.base.rid
    rw [List.map_map] at this
    show ((pls.entries.map Prod.snd).map fun p : Payload2 I G => p.base.rid).Perm _
    rw [List.map_map]
    exact this

theorem toPrecomputed_of_odd {ε : Type} {m : Msg2 I G} (h : m.echo.rp.modulus % 2 = 1) : (m.echo.rp.toPrecomputed : Out ε _) = .ok (AuxGen.rpOf m.base).rp := by
  simp [RPParamsWire.toPrecomputed, publicModulusNew, h, AuxGen.rpOf, Msg2.base]

/-- The random string reconstructed from the accused party's message and the echoes is the one the receiver computed. -/
theorem reconstructRid_eq {ids : Finset I} {me j : I} {own : Echo2 I G} {in2 : List (I × Msg2 I G)} {echos : BMap I (Echo2 I G)} {rid : List Bool}
    (he : EchosAgainst ids me j own (in2.map fun a => (a.1, a.2.echo)) echos) (nd : (in2.map Prod.fst).Nodup)
    (ex : (in2.map Prod.fst).toFinset = ids.erase me) {m2 : Msg2 I G} (hj : (j, m2) ∈ in2)
    (hjoint : JointBits (own.rid :: in2.map fun a => a.2.echo.rid) rid) : reconstructRid m2.echo echos = .ok rid := by
  have hperm := (he.perm (ej := m2.echo) (by rw [List.map_map]; exact nd) (by rw [List.map_map]; exact ex) (List.mem_map.2 ⟨_, hj, rfl⟩)).map fun x => x.2.rid
  unfold reconstructRid
  rw [xorAll_eq_ok]
  refine hjoint.perm ?_
  refine List.Perm.trans ?_ (hperm.symm.trans ?_)
  · simp only [List.map_cons, List.map_map]
    exact List.Perm.refl _
  · rw [List.map_cons]
    refine List.Perm.cons _ (List.Perm.of_eq ?_)
    simp [BMap.values, List.map_map, Function.comp_def]

theorem reconstructRid_own {own : Echo2 I G} {in2 : List (I × Msg2 I G)} {echos : BMap I (Echo2 I G)} {rid : List Bool}
    (hperm : echos.entries.Perm (in2.map fun a => (a.1, a.2.echo)))
    (hjoint : JointBits (own.rid :: in2.map fun a => a.2.echo.rid) rid) : reconstructRid own echos = .ok rid := by
  unfold reconstructRid
  rw [xorAll_eq_ok]
  refine hjoint.perm (List.Perm.cons _ ?_)
  have := (hperm.map fun x => x.2.rid).symm
  rw [List.map_map] at this
  refine this.trans (List.Perm.of_eq ?_)
  simp [BMap.values, List.map_map, Function.comp_def]

/-- The round 3 message of an honest party to a party whose round 2 message it accepted. -/
theorem msg3_eq {E : Env I Sid F G} {ids : Finset I} {sid : Sid} {me j : I} {d : Draws I F} {x : I → F} {sk : SecretKey d.aux.p d.aux.q}
    {rid : List Bool} {psiP : ModProof} {hat : BMap I (SchProof F)} {pls : BMap I (Payload2 I G)} {m : Msg2 I G} (hpl : pls.get? j = some (payloadOf m))
    {capY : G} (hY : m.echo.capYs.get? me = some capY) (hj : j ∈ ids) :
    msg3 E ⟨hctx E ids sid me d x sk, rid, pls, psiP, hat⟩ j =
      (AuxGen.makeFac E.aux ⟨d.aux.p, d.aux.q, sk⟩ (AuxGen.rpOf m.base) (sid, me, rid) (d.aux.facMasks j)).bind fun psi =>
        .ok ⟨hat, psiP, psi, x j + E.rhoH sid rid me (d.ys j • capY)⟩ := by
  have a1 : (payloadOf m).capYs.get? (hctx E ids sid me d x sk).myId = some capY := hY
  have a2 : (hctx E ids sid me d x sk).ys.get? j = some (d.ys j) := by
    show (BMap.tabulate ids d.ys).get? j = _
    rw [BMap.get?_tabulate, if_pos hj]
  have a3 : (hctx E ids sid me d x sk).xs.get? j = some (x j) := by
    show (BMap.tabulate ids x).get? j = _
    rw [BMap.get?_tabulate, if_pos hj]
  unfold msg3
  simp only [finGet, hpl, Out.ofOption_some, Out.bind_ok, a1, a2, a3]
  rfl

/-- A malicious round 2 message: everything is well-formed, but both ring-Pedersen bases are zero. -/
def badMsg2 (E : Env I Sid F G) (ids : Finset I) (sid : Sid) (j : I) (k : Nat) (rid : List Bool) : Msg2 I G :=
  ⟨⟨⟨2 ^ E.aux.P.modBits - 1, 0, 0⟩, BMap.tabulate ids fun _ => 0, rid⟩, BMap.tabulate ids fun _ => 0, BMap.tabulate ids fun _ => 0, 2 ^ E.aux.P.modBits - 1,
    (AuxGen.badMsg2 E.aux sid j k rid).psi, []⟩

theorem badMsg2_base (E : Env I Sid F G) (ids : Finset I) (sid : Sid) (j : I) (k : Nat) (rid : List Bool) :
    (badMsg2 E ids sid j k rid).base = AuxGen.badMsg2 E.aux sid j k rid := rfl

/-- What that message commits to in round 1. -/
def badMsg1 (E : Env I Sid F G) (hashV : Sid → I → Hashed I G → V) (ids : Finset I) (sid : Sid) (j : I) (k : Nat) (rid : List Bool) : V :=
  hashV sid j ⟨BMap.tabulate ids fun _ => 0, BMap.tabulate ids fun _ => 0, BMap.tabulate ids fun _ => 0,
    ⟨2 ^ E.aux.P.modBits - 1, (AuxGen.rpOf (badMsg2 E ids sid j k rid).base).rp.toWire, (badMsg2 E ids sid j k rid).psi, rid, []⟩⟩

theorem badMsg2_accepted {E : Env I Sid F G} {k : Nat} (hE : HashesValid E.aux k) (hpos : 0 < E.aux.P.modBits) (hashV : Sid → I → Hashed I G → V)
    (ids : Finset I) (sid : Sid) (j : I) (rid : List Bool) (capVs : BMap I V) (hv : capVs.get? j = some (badMsg1 E hashV ids sid j k rid)) :
    recv2 E hashV sid ids capVs j (badMsg2 E ids sid j k rid) = .ok (payloadOf (badMsg2 E ids sid j k rid)) := by
  obtain ⟨data, v, ho, -, -, h1, h2, h3, -⟩ := AuxGen.recv2_ok (AuxGen.badMsg2_accepted (V := Unit) hE hpos (fun _ _ _ => ()) sid j rid
    ((BMap.empty : BMap I Unit).insert j ()) (by simp [BMap.get?_insert]))
  have h4 := AuxGen.open_explicit (ho Unit)
  have h5 := Msg2.open_eq_ok (ho Unit)
  have o1 : (badMsg2 E ids sid j k rid).pk % 2 = 1 := h5.2.2.2.2.2.1
  have o2 : (badMsg2 E ids sid j k rid).echo.rp.modulus % 2 = 1 := h5.2.2.2.2.2.2.1
  subst h4
  unfold recv2
  rw [open_of_odd o1 o2, Out.bind_ok]
  unfold recvGet
  rw [hv, Out.ofOption_some, Out.bind_ok]
  have hs : ((BMap.tabulate ids fun _ => (0 : G)).values).sum = 0 := by rw [BMap.sum_values_tabulate]; simp
  have ks : (BMap.tabulate ids fun _ => (0 : G)).keySet = ids := BMap.keySet_tabulate ..
  show (if badMsg1 E hashV ids sid j k rid ≠ badMsg1 E hashV ids sid j k rid then _
    else if (BMap.tabulate ids fun _ => (0 : G)).keySet ≠ ids then _
    else if (BMap.tabulate ids fun _ => (0 : G)).keySet ≠ ids then _
    else if (BMap.tabulate ids fun _ => (0 : G)).keySet ≠ ids then _
    else if bitLen (AuxGen.badMsg2 E.aux sid j k rid).pk < E.aux.P.modBits - 2 then _
    else if bitLen (AuxGen.badMsg2 E.aux sid j k rid).echo.rp.modulus < E.aux.P.modBits - 2 then _
    else if ((BMap.tabulate ids fun _ => (0 : G)).values).sum ≠ 0 then _ else _) = _
  rw [if_neg (not_not.2 rfl), if_neg (not_not.2 ks), if_neg (not_not.2 ks), if_neg (not_not.2 ks), if_neg h1, if_neg h2, if_neg (not_not.2 hs), if_neg]
  · rfl
  · rw [not_not]; exact h3

/-- What an accepted round 3 message guarantees. -/
theorem recv3_ok {E : Env I Sid F G} {r3 : Round3 I F G Sid} {j : I} {m : Msg3 I F} {xv : F} (h : recv3 E r3 j m = .ok xv) :
    ∃ pl capY y, r3.payloads.get? j = some pl ∧ pl.capYs.get? r3.ctx.myId = some capY ∧ r3.ctx.ys.get? j = some y ∧
      xv = m.capC - E.rhoH r3.ctx.sid r3.rid j (y • capY) ∧ pl.capXs.get? r3.ctx.myId = some (xv • E.g) ∧
      m.psiPrime.verify E.aux.P E.aux.modH E.aux.isPrime pl.base.pk (r3.ctx.sid, j, r3.rid) = true ∧
      (∀ ε', (m.psi.verify E.aux.P E.aux.facH pl.base.pk r3.ctx.rp.rp (r3.ctx.sid, j, r3.rid) : Out ε' _) = .ok true) ∧
      m.hatPsis.keySet = r3.ctx.allIds ∧
      ∀ a ∈ m.hatPsis.entries, ∃ capA capX, pl.capAs.get? a.1 = some capA ∧ pl.capXs.get? a.1 = some capX ∧
        a.2.verify E.schH E.g capA capX (r3.ctx.sid, j, r3.rid) = true := by
  simp only [recv3, recvGet, Out.bind_eq_ok, Out.ofOption_eq_ok] at h
  obtain ⟨pl, hpl, capY, hY, y, hy, capX, hX, h⟩ := h
  split at h
  · simp at h
  rename_i h1
  split at h
  · simp at h
  rename_i h2
  obtain ⟨ok, hf, h⟩ := Out.bind_eq_ok.1 h
  split at h
  · simp at h
  rename_i h3
  split at h
  · simp at h
  rename_i h4
  obtain ⟨_, hs, h⟩ := Out.bind_eq_ok.1 h
  cases h
  rw [not_not] at h1 h2 h3 h4
  subst h3
  refine ⟨pl, capY, y, hpl, hY, hy, rfl, h1 ▸ hX, h2, fun ε' => Out.eq_ok_of_cast (FacProof.verify_cast ..) hf, h4, checkSch_eq_ok.1 hs⟩

end Synedrion.KeyRefresh
