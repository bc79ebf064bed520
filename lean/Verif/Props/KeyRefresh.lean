import Verif.Lemmas.KeyRefreshRun
import Verif.Props.Session
import Verif.Props.Entities
import Verif.Lemmas.ToyAux

/-!
# C38 and the part of C45–C48 about key refresh
-/

set_option linter.unusedSectionVars false

namespace Synedrion.Props

open Spec KeyRefresh

variable {I F G Sid V : Type} [LinearOrder I] [Field F] [LinearOrder F] [AddCommGroup G] [Module F G] [DecidableEq G] [DecidableEq V]

/-- **C38 (start).** A member of `ids` with honest draws starts; a non-member gets an error. -/
theorem C38_start (E : Env I Sid F G) (k : Nat) (ids : Finset I) (sid : Sid) (i : I) (d : Draws I F) (hd : DrawsValid E.aux k d.aux) :
    (i ∈ ids → ∃ c, start E ids sid i d = .ok c) ∧ (i ∉ ids → start E ids sid i d = .err .notMember) := by
  refine ⟨fun hi => start_valid hi hd, fun hi => ?_⟩
  unfold start
  rw [if_pos hi]

/-- **C38 (honest).** If every party of `ids` starts key refresh with the same session id and honest draws, and the messages of each round arrive in any
order, then every party reaches round 3 and can make its messages, nobody is blamed, and the parties end with changes that match each other and add up to
zero, and with consistent auxiliary info. -/
theorem C38_honest_refresh (E : Env I Sid F G) (k : Nat) (hE : HashesValid E.aux k) (hashV : Sid → I → Hashed I G → V) (ids : Finset I) (sid : Sid)
    (d : I → Draws I F) (hd : ∀ i ∈ ids, DrawsValid E.aux k (d i).aux)
    (hfac : ∀ i ∈ ids, ∀ j ∈ ids, i ≠ j →
      FacDrawsValid E.aux.P ((d i).aux.p * (d i).aux.q) ((d j).aux.rpP * (d j).aux.rpQ) ((d i).aux.facMasks j))
    (len : Nat) (hlen : ∀ i ∈ ids, (d i).aux.rid.length = len)
    (ctx : I → Context I F G Sid) (hst : ∀ i ∈ ids, start E ids sid i (d i) = .ok (ctx i))
    (in1 : I → List (I × V)) (in2 : I → List (I × Msg2 I G))
    (h1 : ∀ i ∈ ids, FromOthers ids i (fun j => msg1 hashV (ctx j)) (in1 i))
    (h2 : ∀ i ∈ ids, FromOthers ids i (fun j => msg2 (ctx j)) (in2 i)) :
    ∃ (r3 : I → Round3 I F G Sid) (m3 : I → I → Msg3 I F), (∀ i ∈ ids, toRound3 E hashV (ctx i) (in1 i) (in2 i) = .ok (r3 i)) ∧
      (∀ i ∈ ids, ∀ j ∈ ids, i ≠ j → msg3 E (r3 i) j = .ok (m3 i j)) ∧
      (∀ in3 : I → List (I × Msg3 I F), (∀ i ∈ ids, FromOthers ids i (fun j => m3 j i) (in3 i)) →
        ∃ (changes : I → KeyShareChange I F G) (infos : I → AuxInfo I PaillierKey PublicAux),
          (∀ i ∈ ids, run E hashV (ctx i) (in1 i) (in2 i) (in3 i) = .ok (changes i, infos i)) ∧ ZeroSumChange E.g ids changes ∧
          (ConsistentAux ids infos fun j => ⟨(d j).aux.p * (d j).aux.q,
            (RPParams.withSecret ((d j).aux.rpP * (d j).aux.rpQ) E.aux.P.modBits (d j).aux.lambda (d j).aux.tDraw).toWire⟩) ∧
          (∀ i ∈ ids, (infos i).secret.p = (d i).aux.p ∧ (infos i).secret.q = (d i).aux.q) ∧
          UsableAux E.aux.P ids infos fun j => ⟨_, RPParams.withSecret ((d j).aux.rpP * (d j).aux.rpQ) E.aux.P.modBits (d j).aux.lambda (d j).aux.tDraw⟩) := by
  have hsk : ∀ i, ∃ (sk : SecretKey (d i).aux.p (d i).aux.q) (x : I → F), i ∈ ids → (SecretKey.new (d i).aux.p (d i).aux.q : Out LocalErr _) = .ok sk ∧
      ∑ j ∈ ids, x j = 0 ∧ ctx i = hctx E ids sid i (d i) x sk := by
    intro i
    by_cases hi : i ∈ ids
    · obtain ⟨_, _, sk, x, h⟩ := start_ok (hst i hi); exact ⟨sk, x, fun _ => h⟩
    · exact ⟨⟨0, 0, 0, 0, 0⟩, 0, fun h => absurd h hi⟩
  choose sk x hsk using hsk
  obtain ⟨r3, m3, rid, hto, hm3, -, hfin⟩ := run_core E k hE hashV ids sid d hd x (fun i => AuxGen.hdata E.aux sid i (d i).aux) (fun _ _ => rfl) (fun _ _ => rfl)
    (fun i hi capVs hv => hdata_accepted hE (hd i hi) sid i (hsk i hi).2.1 hashV capVs hv)
    (fun i hi => ⟨(hd i hi).rpKey.primes.pos, (hd i hi).rp_lt hE, (hd i hi).rp_valid⟩) hfac len hlen sk ctx hsk in1 in2 h1 h2
  refine ⟨r3, m3, hto, hm3, fun in3 h3 => ?_⟩
  obtain ⟨changes, infos, hrun, hz, hcons, hpq, hnew⟩ := hfin in3 h3
  exact ⟨changes, infos, hrun, hz, hcons, hpq, DrawsValid.usable (d := fun i => (d i).aux) hE hd hcons hpq hnew⟩

/-! ### Guarantees of a party that finishes, whatever the others send -/

/-- **C38 (adversarial).** Whatever the other parties send, a party that finishes has a change of its own share over exactly the parties `ids`, whose public
parts add up to the identity and whose own secret part matches its own public part; the public part of each party is the sum of what the parties published for it
in round 2, everyone's contribution was committed to in round 1, adds up to the identity, and comes with accepted Schnorr proofs bound to the random
string of all parties. The auxiliary info has the guarantees of C54. -/
theorem C38_finishing_party (E : Env I Sid F G) (hashV : Sid → I → Hashed I G → V) (ids : Finset I) (sid : Sid) (me : I) (d : Draws I F)
    (c : Context I F G Sid) (hc : start E ids sid me d = .ok c) (in1 : List (I × V)) (in2 : List (I × Msg2 I G)) (in3 : List (I × Msg3 I F))
    (change : KeyShareChange I F G) (info : AuxInfo I PaillierKey PublicAux) (h : run E hashV c in1 in2 in3 = .ok (change, info)) :
    let rp := RPParams.withSecret (d.aux.rpP * d.aux.rpQ) E.aux.P.modBits d.aux.lambda d.aux.tDraw
    change.owner = me ∧ change.publicShareChanges.keySet = ids ∧ change.publicShareChanges.values.sum = 0 ∧
      change.publicShareChanges.get? me = some (change.secretShareChange • E.g) ∧
      info.owner = me ∧ info.secret.p = d.aux.p ∧ info.secret.q = d.aux.q ∧ info.pub.keySet = ids ∧
      info.pub.get? me = some ⟨d.aux.p * d.aux.q, rp.toWire⟩ ∧
      ∃ (rid : List Bool) (capX : I → I → G), JointBits (d.aux.rid :: in2.map fun a => a.2.echo.rid) rid ∧
        (∀ k ∈ ids, change.publicShareChanges.get? k = some (∑ j ∈ ids, capX j k)) ∧ (∀ k ∈ ids, (msg2 c).capXs.get? k = some (capX me k)) ∧
        ∀ j ∈ ids, j ≠ me → ∃ (m : Msg2 I G) (m3 : Msg3 I F) (rpj : RPParams m.echo.rp.modulus), (j, m) ∈ in2 ∧ (j, m3) ∈ in3 ∧
          (∀ k ∈ ids, m.capXs.get? k = some (capX j k)) ∧ ∑ k ∈ ids, capX j k = 0 ∧
          rpj.s = (m.echo.rp.baseValue : ZMod m.echo.rp.modulus) ∧ rpj.t = (m.echo.rp.baseRandomizer : ZMod m.echo.rp.modulus) ∧
          (j, hashV sid j ⟨m.capXs, m.echo.capYs, m.capAs, ⟨m.pk, rpj.toWire, m.psi, m.echo.rid, m.u⟩⟩) ∈ in1 ∧
          info.pub.get? j = some ⟨m.pk, rpj.toWire⟩ ∧
          m.pk % 2 = 1 ∧ E.aux.P.modBits - 2 ≤ bitLen m.pk ∧ m.echo.rp.modulus % 2 = 1 ∧ E.aux.P.modBits - 2 ≤ bitLen m.echo.rp.modulus ∧
          m.psi.verify E.aux.prmH rpj (sid, j) = true ∧ m3.psiPrime.verify E.aux.P E.aux.modH E.aux.isPrime m.pk (sid, j, rid) = true ∧
          (m3.psi.verify E.aux.P E.aux.facH m.pk rp (sid, j, rid) : Out Empty _) = .ok true ∧
          ∀ k ∈ ids, ∃ hatPsi capA, m3.hatPsis.get? k = some hatPsi ∧ m.capAs.get? k = some capA ∧
            hatPsi.verify E.schH E.g capA (capX j k) (sid, j, rid) = true := by
  intro rp
  obtain ⟨hme, _, sk, x, hsk, hx0, rfl⟩ := start_ok hc
  unfold run at h
  simp only [Out.bind_eq_ok, finalizeResult_eq_ok] at h
  obtain ⟨r3, ht, _, hs, xs, h3, hfin⟩ := h
  obtain ⟨rid, psiP, pl, rfl, nd, ex, hown, hget, hjoint, -⟩ := toRound3_ok hme ht
  have h3' : collect (ids.erase me) (recv3 E ⟨hctx E ids sid me d x sk, rid, BMap.tabulate ids pl, psiP, BMap.tabulate ids (hatPsi E sid me d x rid)⟩) in3 =
    .ok xs := h3
  have hin : ∀ j, ∃ m, j ∈ ids.erase me → (j, m) ∈ in2 := by
    intro j
    by_cases hj : j ∈ ids.erase me
    · have hj' := hj
      rw [← ex, List.mem_toFinset] at hj'
      obtain ⟨⟨_, m⟩, hm, rfl⟩ := List.mem_map.1 hj'
      exact ⟨m, fun _ => hm⟩
    · exact ⟨(hdata E ids sid me d x).msg2, fun h => absurd h hj⟩
  choose m hin using hin
  have hin3 : ∀ j, ∃ (m3 : Msg3 I F) (xv : F), j ∈ ids.erase me → (j, m3) ∈ in3 ∧
      recv3 E ⟨hctx E ids sid me d x sk, rid, BMap.tabulate ids pl, psiP, BMap.tabulate ids (hatPsi E sid me d x rid)⟩ j m3 = .ok xv ∧ xs.get? j = some xv := by
    intro j
    by_cases hj : j ∈ ids.erase me
    · obtain ⟨m3, xv, h⟩ := collect_mem h3' hj; exact ⟨m3, xv, fun _ => h⟩
    · exact ⟨⟨BMap.empty, ⟨0, [], []⟩, ⟨⟨0, 0⟩, 0, 0, 0, 0, 0, ⟨0, 0⟩, ⟨0, 0⟩, ⟨0, 0⟩, ⟨0, 0⟩, ⟨0, 0⟩⟩, 0⟩, 0, fun h => absurd h hj⟩
  choose m3 xv hin3 using hin3
  have hpl : ∀ j ∈ ids.erase me, pl j = payloadOf (m j) := fun j hj => (hget j (m j) (hin j hj)).1
  -- the table of public changes
  let capX : I → I → G := fun j k => ((pl j).capXs.get? k).getD 0
  have hcap : ∀ j ∈ ids, ∀ k ∈ ids, (pl j).capXs.get? k = some (capX j k) := by
    intro j hj k hk
    have hks : (pl j).capXs.keySet = ids := by
      by_cases hjm : j = me
      · rw [hjm, hown]; exact BMap.keySet_tabulate ..
      · have hje := Finset.mem_erase.2 ⟨hjm, hj⟩
        rw [hpl j hje]
        exact (hget j (m j) (hin j hje)).2.1
    obtain ⟨v, hv⟩ := BMap.mem_keys_iff.1 (BMap.mem_keySet.1 (hks ▸ hk))
    simp [capX, hv]
  have hcapsum : ∀ j ∈ ids, ∑ k ∈ ids, capX j k = 0 := by
    intro j hj
    have hks : (pl j).capXs = BMap.tabulate ids (capX j) := by
      refine BMap.eq_tabulate_of ?_ (hcap j hj)
      by_cases hjm : j = me
      · rw [hjm, hown]; exact BMap.keySet_tabulate ..
      · have hje := Finset.mem_erase.2 ⟨hjm, hj⟩
        rw [hpl j hje]
        exact (hget j (m j) (hin j hje)).2.1
    rw [← BMap.sum_values_tabulate, ← hks]
    by_cases hjm : j = me
    · rw [hjm, hown]
      show (BMap.tabulate ids fun j => x j • E.g).values.sum = 0
      rw [BMap.sum_values_tabulate, ← Finset.sum_smul, hx0, zero_smul]
    · have hje := Finset.mem_erase.2 ⟨hjm, hj⟩
      rw [hpl j hje]
      exact (hget j (m j) (hin j hje)).2.2.2.2.2.2.2.2.1
  have hown' : ∀ k ∈ ids, capX me k = x k • E.g := by
    intro k hk
    have h1 := hcap me hme k hk
    rw [hown] at h1
    have h2 : (BMap.tabulate ids fun j => x j • E.g).get? k = some (capX me k) := h1
    rw [BMap.get?_tabulate, if_pos hk] at h2
    exact (Option.some.inj h2).symm
  have hrecv : ∀ j ∈ ids.erase me, capX j me = xv j • E.g := by
    intro j hj
    obtain ⟨pl', capY, y, e1, e2, e3, e4, e5, -⟩ := recv3_ok (hin3 j hj).2.1
    have e1' : (BMap.tabulate ids pl).get? j = some pl' := e1
    rw [BMap.get?_tabulate, if_pos (Finset.mem_of_mem_erase hj)] at e1'
    cases e1'
    have e5' : (pl j).capXs.get? me = some (xv j • E.g) := e5
    rw [hcap j (Finset.mem_of_mem_erase hj) me hme] at e5'
    exact Option.some.inj e5'
  have hxs : xs = BMap.tabulate (ids.erase me) xv := by
    refine BMap.eq_tabulate_of ?_ fun j hj => (hin3 j hj).2.2
    exact (collect_eq_ok.1 h3').2.2.1
  -- the result
  have hfin' : (change, info) = (⟨me, ∑ j ∈ ids.erase me, xv j + x me, BMap.tabulate ids fun k => ∑ j ∈ ids, capX j k⟩,
      ⟨me, ⟨d.aux.p, d.aux.q, sk⟩, (BMap.tabulate ids pl).mapVals fun _ p => p.base.toAux⟩) := by
    unfold finalize3 finGet at hfin
    have e10 : (hctx E ids sid me d x sk).xs.get? me = some (x me) := by
      show (BMap.tabulate ids x).get? me = _
      rw [BMap.get?_tabulate, if_pos hme]
    have hfin2 : ((Out.ofOption LocalErr.missing ((hctx E ids sid me d x sk).xs.get? me)).bind fun myX =>
      (Out.mapM' (sumChanges (BMap.tabulate ids pl).values) (bsetIter ids)).bind fun capXStar =>
      .ok ((⟨me, xs.values.sum + myX, BMap.ofList capXStar⟩ : KeyShareChange I F G),
        (⟨me, ⟨d.aux.p, d.aux.q, sk⟩, (BMap.tabulate ids pl).mapVals fun _ p => p.base.toAux⟩ : AuxInfo I PaillierKey PublicAux))) = .ok (change, info) := hfin
    rw [e10, Out.ofOption_some, Out.bind_ok, sumChanges_tabulate hcap, Out.bind_ok, ofList_map_bsetIter, hxs, BMap.sum_values_tabulate] at hfin2
    exact (Out.ok.inj hfin2).symm
  obtain ⟨rfl, rfl⟩ := Prod.mk.inj hfin'
  refine ⟨rfl, BMap.keySet_tabulate .., ?_, ?_, rfl, rfl, rfl, ?_, ?_, rid, capX, hjoint, ?_, ?_, ?_⟩
  · rw [BMap.sum_values_tabulate, Finset.sum_comm]
    exact Finset.sum_eq_zero hcapsum
  · rw [BMap.get?_tabulate, if_pos hme, ← Finset.sum_erase_add _ _ hme, hown' me hme, Finset.sum_congr rfl hrecv, add_smul, Finset.sum_smul]
  · rw [BMap.keySet_mapVals, BMap.keySet_tabulate]
  · rw [BMap.get?_mapVals, BMap.get?_tabulate, if_pos hme, hown]; rfl
  · intro k hk; rw [BMap.get?_tabulate, if_pos hk]
  · intro k hk
    rw [hown' k hk]
    show (BMap.tabulate ids fun j => x j • E.g).get? k = _
    rw [BMap.get?_tabulate, if_pos hk]
  · intro j hj hne
    have hje := Finset.mem_erase.2 ⟨hne, hj⟩
    obtain ⟨-, x1, x2, x3, o1, o2, b1, b2, hs0, hver, hv1⟩ := hget j (m j) (hin j hje)
    obtain ⟨pl', capY, y, e1, e2, e3, e4, e5, e6, e7, e8, e9⟩ := recv3_ok (hin3 j hje).2.1
    have e1' : (BMap.tabulate ids pl).get? j = some pl' := e1
    rw [BMap.get?_tabulate, if_pos hj] at e1'
    cases e1'
    have hplj := hpl j hje
    refine ⟨m j, m3 j, (AuxGen.rpOf (m j).base).rp, hin j hje, (hin3 j hje).1, ?_, hcapsum j hj, rfl, rfl, hv1, ?_, o1, not_lt.1 b1, o2, not_lt.1 b2, hver, ?_,
      ?_, ?_⟩
    · intro k hk
      have := hcap j hj k hk
      rw [hplj] at this; exact this
    · rw [BMap.get?_mapVals, BMap.get?_tabulate, if_pos hj, hplj]; rfl
    · rw [hplj] at e6; exact e6
    · have e7' := e7 Empty
      rw [hplj] at e7'; exact e7'
    · intro k hk
      have e8' : (m3 j).hatPsis.keySet = ids := e8
      obtain ⟨psi, hpsi⟩ := BMap.mem_keys_iff.1 (BMap.mem_keySet.1 (e8' ▸ hk))
      obtain ⟨capA, capX', a1, a2, a3⟩ := e9 (k, psi) (BMap.get?_eq_some_iff.1 hpsi)
      simp only at a1 a2 a3
      rw [hcap j hj k hk] at a2
      cases a2
      rw [hplj] at a1
      exact ⟨psi, capA, hpsi, a1, a3⟩

/-- **C38 (update).** Whatever the other parties send, a party that finishes can update a key share over `ids` that it owns; the verifying key stays
the same, and if the secret share matched its public share before, it does so afterwards. -/
theorem C38_update (E : Env I Sid F G) (hashV : Sid → I → Hashed I G → V) (ids : Finset I) (sid : Sid) (me : I) (d : Draws I F)
    (c : Context I F G Sid) (hc : start E ids sid me d = .ok c) (in1 : List (I × V)) (in2 : List (I × Msg2 I G)) (in3 : List (I × Msg3 I F))
    (change : KeyShareChange I F G) (info : AuxInfo I PaillierKey PublicAux) (h : run E hashV c in1 in2 in3 = .ok (change, info))
    (ks : KeyShare I F G) (ho : ks.owner = me) (hk : ks.pub.keySet = ids) :
    ∃ ks', ks.update change = .ok ks' ∧ ks'.owner = me ∧ ks'.pub.keySet = ids ∧ ks'.verifyingKeyAsPoint = ks.verifyingKeyAsPoint ∧
      (ks.pub.get? me = some (ks.secret • E.g) → ks'.pub.get? me = some (ks'.secret • E.g)) := by
  obtain ⟨h1, h2, h3, h4, -⟩ := C38_finishing_party E hashV ids sid me d c hc in1 in2 in3 change info h
  have hme := (start_ok hc).1
  let s : I → G := fun k => (ks.pub.get? k).getD 0
  let δ : I → G := fun k => (change.publicShareChanges.get? k).getD 0
  have hs : ks.pub = BMap.tabulate ids s := BMap.eq_tabulate_of hk fun i hi => by
    obtain ⟨v, hv⟩ := BMap.mem_keys_iff.1 (BMap.mem_keySet.1 (hk ▸ hi)); simp [s, hv]
  have hδ : change.publicShareChanges = BMap.tabulate ids δ := BMap.eq_tabulate_of h2 fun i hi => by
    obtain ⟨v, hv⟩ := BMap.mem_keys_iff.1 (BMap.mem_keySet.1 (h2 ▸ hi)); simp [δ, hv]
  refine ⟨⟨me, ks.secret + change.secretShareChange, BMap.tabulate ids fun k => s k + δ k⟩, ?_, rfl, BMap.keySet_tabulate .., ?_, ?_⟩
  · unfold KeyShare.update
    rw [if_neg (by rw [ho, h1]; simp), if_neg (by rw [hs, hδ]; simp), hs, hδ]
    have : Out.mapM' (fun p : I × G => (Out.ofOption EntErr.missingId ((BMap.tabulate ids δ).get? p.1)).bind fun d => .ok (p.1, p.2 + d))
        (BMap.tabulate ids s).entries = .ok ((bsetIter ids).map fun k => (k, s k + δ k)) := by
      show Out.mapM' _ ((bsetIter ids).map fun k => (k, s k)) = _
      have hmap : ((bsetIter ids).map fun k => (k, s k + δ k)) = ((bsetIter ids).map fun k => (k, s k)).map fun p => (p.1, p.2 + δ p.1) := by
        rw [List.map_map]; rfl
      rw [hmap]
      refine Out.mapM'_ok_of_forall (g := fun p : I × G => (p.1, p.2 + δ p.1)) fun p hp => ?_
      obtain ⟨k, hk', rfl⟩ := List.mem_map.1 hp
      rw [BMap.get?_tabulate, if_pos (mem_bsetIter.1 hk')]; rfl
    rw [this, Out.bind_ok, ofList_map_bsetIter, ho]
  · unfold KeyShare.verifyingKeyAsPoint
    rw [hs, BMap.sum_values_tabulate, BMap.sum_values_tabulate, Finset.sum_add_distrib]
    rw [hδ, BMap.sum_values_tabulate] at h3
    rw [h3, add_zero]
  · intro hm
    rw [hs, BMap.get?_tabulate, if_pos hme] at hm
    rw [hδ, BMap.get?_tabulate, if_pos hme] at h4
    rw [BMap.get?_tabulate, if_pos hme, Option.some.inj hm, Option.some.inj h4, add_smul]

/-- **C38 (agreement).** Let two parties that started honestly in the same session both finish, whatever all others (and the network) do, with echoed round 1
broadcasts: each got the other's, and they got the same from everyone else. If the commitment hash has no collisions, then they have the same public changes and
the same public auxiliary info, and each one's secret change matches what the other one has as its public change. -/
theorem C38_agreement (E : Env I Sid F G) (hashV : Sid → I → Hashed I G → V) (hinj : ∀ s i h h', hashV s i h = hashV s i h' → h = h') (ids : Finset I) (sid : Sid)
    (a b : I) (hab : a ≠ b) (da db : Draws I F) (ca cb : Context I F G Sid) (hca : start E ids sid a da = .ok ca) (hcb : start E ids sid b db = .ok cb)
    (in1a in1b : List (I × V)) (in2a in2b : List (I × Msg2 I G)) (in3a in3b : List (I × Msg3 I F))
    (hba : (b, msg1 hashV cb) ∈ in1a) (hab' : (a, msg1 hashV ca) ∈ in1b) (hecho : ∀ j v w, (j, v) ∈ in1a → (j, w) ∈ in1b → v = w)
    (chA chB : KeyShareChange I F G) (infoA infoB : AuxInfo I PaillierKey PublicAux)
    (hA : run E hashV ca in1a in2a in3a = .ok (chA, infoA)) (hB : run E hashV cb in1b in2b in3b = .ok (chB, infoB)) :
    chA.publicShareChanges = chB.publicShareChanges ∧ infoA.pub = infoB.pub ∧
      chA.publicShareChanges.get? b = some (chB.secretShareChange • E.g) ∧ chB.publicShareChanges.get? a = some (chA.secretShareChange • E.g) := by
  obtain ⟨-, kA, -, mA, -, -, -, kiA, ownA, ridA, xA, -, sA, cA, oA⟩ := C38_finishing_party E hashV ids sid a da ca hca in1a in2a in3a chA infoA hA
  obtain ⟨-, kB, -, mB, -, -, -, kiB, ownB, ridB, xB, -, sB, cB, oB⟩ := C38_finishing_party E hashV ids sid b db cb hcb in1b in2b in3b chB infoB hB
  have nd : ∀ {c : Context I F G Sid} {i1 : List (I × V)} {i2 i3 r}, run E hashV c i1 i2 i3 = .ok r → (i1.map Prod.fst).Nodup := by
    intro c i1 i2 i3 r h
    unfold run toRound3 at h
    simp only [Out.bind_eq_ok] at h
    obtain ⟨_, ⟨_, h1, _⟩, _⟩ := h
    exact (collect_eq_ok.1 h1).1
  have uA : ∀ {j v w}, (j, v) ∈ in1a → (j, w) ∈ in1a → v = w := fun h h' => congrArg Prod.snd (List.inj_on_of_nodup_map (nd hA) h h' rfl)
  have uB : ∀ {j v w}, (j, v) ∈ in1b → (j, w) ∈ in1b → v = w := fun h h' => congrArg Prod.snd (List.inj_on_of_nodup_map (nd hB) h h' rfl)
  obtain ⟨hia, -, ska, x, -, -, rfl⟩ := start_ok hca
  obtain ⟨hib, -, skb, y, -, -, rfl⟩ := start_ok hcb
  -- what both know about each contributor is the same
  have key : ∀ j ∈ ids, (∀ k ∈ ids, xA j k = xB j k) ∧ infoA.pub.get? j = infoB.pub.get? j := by
    intro j hj
    by_cases hja : j = a
    · subst hja
      obtain ⟨m, m3, rpj, -, -, hx, -, -, -, hv, hi, -⟩ := oB j hj hab
      have he := hinj _ _ _ _ (uB hv hab')
      have e1 : m.capXs = (hdata E ids sid j da x).capXs := congrArg Hashed.capXs he
      have e2 : m.pk = da.aux.p * da.aux.q := congrArg (fun z => z.base.pk) he
      have e3 : rpj.toWire = (RPParams.withSecret (da.aux.rpP * da.aux.rpQ) E.aux.P.modBits da.aux.lambda da.aux.tDraw).toWire := congrArg (fun z => z.base.rp) he
      refine ⟨fun k hk => ?_, ?_⟩
      · have h1 := cA k hk
        have h2 := hx k hk
        rw [e1] at h2
        exact Option.some.inj (h1.symm.trans h2)
      · rw [ownA, hi, e2, e3]
    by_cases hjb : j = b
    · subst hjb
      obtain ⟨m, m3, rpj, -, -, hx, -, -, -, hv, hi, -⟩ := oA j hj (Ne.symm hab)
      have he := hinj _ _ _ _ (uA hv hba)
      have e1 : m.capXs = (hdata E ids sid j db y).capXs := congrArg Hashed.capXs he
      have e2 : m.pk = db.aux.p * db.aux.q := congrArg (fun z => z.base.pk) he
      have e3 : rpj.toWire = (RPParams.withSecret (db.aux.rpP * db.aux.rpQ) E.aux.P.modBits db.aux.lambda db.aux.tDraw).toWire := congrArg (fun z => z.base.rp) he
      refine ⟨fun k hk => ?_, ?_⟩
      · have h1 := cB k hk
        have h2 := hx k hk
        rw [e1] at h2
        exact Option.some.inj (h2.symm.trans h1)
      · rw [ownB, hi, e2, e3]
    obtain ⟨m, m3, rpj, -, -, hx, -, -, -, hv, hi, -⟩ := oA j hj hja
    obtain ⟨m', m3', rpj', -, -, hx', -, -, -, hv', hi', -⟩ := oB j hj hjb
    have he := hinj _ _ _ _ (hecho _ _ _ hv hv')
    have e1 : m.capXs = m'.capXs := congrArg Hashed.capXs he
    have e2 : m.pk = m'.pk := congrArg (fun z => z.base.pk) he
    have e3 : rpj.toWire = rpj'.toWire := congrArg (fun z => z.base.rp) he
    refine ⟨fun k hk => ?_, ?_⟩
    · have h1 := hx k hk
      rw [e1, hx' k hk] at h1
      exact (Option.some.inj h1).symm
    · rw [hi, hi', e2, e3]
  have e1 : chA.publicShareChanges = chB.publicShareChanges := by
    rw [BMap.eq_tabulate_of kA sA]
    symm
    refine BMap.eq_tabulate_of kB fun k hk => ?_
    rw [sB k hk]
    exact congrArg some (Finset.sum_congr rfl fun j hj => ((key j hj).1 k hk).symm)
  refine ⟨e1, ?_, ?_, ?_⟩
  · ext k
    by_cases hk : k ∈ ids
    · rw [(key k hk).2]
    · rw [BMap.get?_eq_none_iff.2, BMap.get?_eq_none_iff.2]
      · rw [← BMap.mem_keySet, kiB]; exact hk
      · rw [← BMap.mem_keySet, kiA]; exact hk
  · rw [e1]; exact mB
  · rw [← e1]; exact mA

/-! ### Evidence -/

/-- **C45, C46 (key refresh, round 2).** If a receiver that has collected the round 1 messages rejects a round 2 message with an error that blames the
sender, the third-party check of that error confirms it from the sender's messages; if it accepts the message, the check confirms no error. -/
theorem C45_refresh_round2 (E : Env I Sid F G) (hashV : Sid → I → Hashed I G → V) (c : Context I F G Sid) (in1 : List (I × V)) (capVs : BMap I V)
    (h1 : collect c.otherIds (recv1 : I → V → Out (RecvErr (Err I F)) V) in1 = .ok capVs) (j : I) (v : V) (hj : (j, v) ∈ in1) (m : Msg2 I G) :
    (∀ e, recv2 E hashV c.sid c.allIds capVs j m = .err (.protocol e) → evidence2 E hashV c.sid c.allIds j v m e = .ok true) ∧
    ((∃ p, recv2 E hashV c.sid c.allIds capVs j m = .ok p) → ∀ e, evidence2 E hashV c.sid c.allIds j v m e ≠ .ok true) := by
  obtain ⟨_, _, _, al⟩ := collect_eq_ok.1 h1
  obtain ⟨v', hv', hg⟩ := al _ hj
  cases hv'
  simp only at hg
  by_cases hodd : m.pk % 2 = 1 ∧ m.echo.rp.modulus % 2 = 1
  swap
  · have hp : recv2 E hashV c.sid c.allIds capVs j m = .panic := by
      unfold recv2
      rw [open_of_even (by omega)]; rfl
    rw [hp]
    exact ⟨fun e h => (by cases h), fun ⟨p, h⟩ => (by cases h)⟩
  have hrp := toPrecomputed_of_odd (ε := Unit) hodd.2
  have eprm : evidence2 E hashV c.sid c.allIds j v m .r2PrmFailed = .ok (!m.psi.verify E.aux.prmH (AuxGen.rpOf m.base).rp (c.sid, j)) :=
    congrArg (fun x : Out Unit (RPParams m.echo.rp.modulus) => x.bind fun rp => .ok (!m.psi.verify E.aux.prmH rp (c.sid, j))) hrp
  unfold recv2
  rw [open_of_odd hodd.1 hodd.2, Out.bind_ok]
  simp only [recvGet, hg, Out.ofOption_some, Out.bind_ok]
  by_cases a1 : hashV c.sid j (PublicData.hashed ⟨⟨m.pk, AuxGen.rpOf m.base, m.psi, m.echo.rid, m.u⟩, m.capXs, m.echo.capYs, m.capAs⟩) ≠ v
  · rw [if_pos a1]
    refine ⟨fun e he => ?_, fun ⟨p, hp⟩ => by cases hp⟩
    cases he
    unfold evidence2
    rw [open_of_odd hodd.1 hodd.2, Out.bind_ok, decide_eq_true a1]
  rw [if_neg a1]
  by_cases a2 : m.capXs.keySet ≠ c.allIds
  · rw [if_pos a2]
    refine ⟨fun e he => ?_, fun ⟨p, hp⟩ => by cases hp⟩
    cases he
    unfold evidence2
    rw [decide_eq_true a2]
  rw [if_neg a2]
  by_cases a3 : m.echo.capYs.keySet ≠ c.allIds
  · rw [if_pos a3]
    refine ⟨fun e he => ?_, fun ⟨p, hp⟩ => by cases hp⟩
    cases he
    unfold evidence2
    rw [decide_eq_true a3]
  rw [if_neg a3]
  by_cases a4 : m.capAs.keySet ≠ c.allIds
  · rw [if_pos a4]
    refine ⟨fun e he => ?_, fun ⟨p, hp⟩ => by cases hp⟩
    cases he
    unfold evidence2
    rw [decide_eq_true a4]
  rw [if_neg a4]
  by_cases a5 : bitLen m.pk < E.aux.P.modBits - 2
  · rw [if_pos a5]
    refine ⟨fun e he => ?_, fun ⟨p, hp⟩ => by cases hp⟩
    cases he
    unfold evidence2
    rw [decide_eq_true a5]
  rw [if_neg a5]
  by_cases a6 : bitLen m.echo.rp.modulus < E.aux.P.modBits - 2
  · have a6' : bitLen (AuxGen.rpOf m.base).modulus < E.aux.P.modBits - 2 := a6
    rw [if_pos a6']
    refine ⟨fun e he => ?_, fun ⟨p, hp⟩ => by cases hp⟩
    cases he
    unfold evidence2
    rw [decide_eq_true a6]
  have a6' : ¬ bitLen (AuxGen.rpOf m.base).modulus < E.aux.P.modBits - 2 := a6
  rw [if_neg a6']
  by_cases a7 : m.capXs.values.sum ≠ 0
  · rw [if_pos a7]
    refine ⟨fun e he => ?_, fun ⟨p, hp⟩ => by cases hp⟩
    cases he
    unfold evidence2
    rw [decide_eq_true a7]
  rw [if_neg a7]
  by_cases a8 : m.psi.verify E.aux.prmH (AuxGen.rpOf m.base).rp (c.sid, j) = true
  swap
  · rw [if_pos a8]
    refine ⟨fun e he => ?_, fun ⟨p, hp⟩ => by cases hp⟩
    cases he
    rw [eprm, Bool.eq_false_of_not_eq_true a8]; rfl
  rw [if_neg (not_not.2 a8)]
  refine ⟨fun e he => (by cases he), fun _ e => ?_⟩
  cases e with
  | r2HashMismatch =>
    unfold evidence2
    rw [open_of_odd hodd.1 hodd.2, Out.bind_ok, decide_eq_false a1]; simp
  | r2WrongIdsX => unfold evidence2; rw [decide_eq_false a2]; simp
  | r2WrongIdsY => unfold evidence2; rw [decide_eq_false a3]; simp
  | r2WrongIdsA => unfold evidence2; rw [decide_eq_false a4]; simp
  | r2PaillierModulusTooSmall => unfold evidence2; rw [decide_eq_false a5]; simp
  | r2RPModulusTooSmall => unfold evidence2; rw [decide_eq_false a6]; simp
  | r2NonZeroSumOfChanges => unfold evidence2; rw [decide_eq_false a7]; simp
  | r2PrmFailed => rw [eprm, a8]; simp
  | _ => simp [evidence2]

/-- **C45, C46 (key refresh, round 3).** If a party in round 3 rejects a message with an error that blames the sender, the third-party check of that
error confirms it from the sender's messages of rounds 2 and 3 and the round 2 echoes of all others; if the party accepts the message, none of the errors
it could have reported is confirmed. -/
theorem C45_refresh_round3 (E : Env I Sid F G) (hg : E.g ≠ 0) (hashV : Sid → I → Hashed I G → V) (ids : Finset I) (sid : Sid) (me : I) (d : Draws I F)
    (c : Context I F G Sid) (hc : start E ids sid me d = .ok c) (in1 : List (I × V)) (in2 : List (I × Msg2 I G)) (r3 : Round3 I F G Sid)
    (h : toRound3 E hashV c in1 in2 = .ok r3) (j : I) (m2 : Msg2 I G) (hj : (j, m2) ∈ in2) (m3 : Msg3 I F) (echos : BMap I (Echo2 I G))
    (he : EchosAgainst ids me j (msg2 c).echo (in2.map fun a => (a.1, a.2.echo)) echos) :
    (∀ e, recv3 E r3 j m3 = .err (.protocol e) → evidence3 E sid ids j m2 m3 echos e = .ok true) ∧
    ((∃ x, recv3 E r3 j m3 = .ok x) →
      (∀ y, evidence3 E sid ids j m2 m3 echos (.r3ShareChangeMismatch me y) ≠ .ok true) ∧ evidence3 E sid ids j m2 m3 echos .r3ModFailed = .ok false ∧
      evidence3 E sid ids j m2 m3 echos (.r3FacFailed me) = .ok false ∧ evidence3 E sid ids j m2 m3 echos .r3WrongIdsHatPsi = .ok false ∧
      ∀ k, evidence3 E sid ids j m2 m3 echos (.r3SchFailed k) ≠ .ok true) := by
  obtain ⟨hme, hodd, sk, x, hsk, hx0, rfl⟩ := start_ok hc
  obtain ⟨rid, psiP, pl, rfl, nd, ex, hown, hget, hjoint, -⟩ := toRound3_ok hme h
  obtain ⟨hpl, x1, x2, x3, o1, o2, -⟩ := hget j m2 hj
  have hjmem : j ∈ ids.erase me := by rw [← ex, List.mem_toFinset]; exact List.mem_map.2 ⟨_, hj, rfl⟩
  have hji := Finset.mem_of_mem_erase hjmem
  have hrid := reconstructRid_eq he nd ex hj hjoint
  have hpk : (publicModulusNew m2.pk : Out Unit _) = .ok m2.pk := by simp [publicModulusNew, o1]
  obtain ⟨capY, hY⟩ := BMap.mem_keys_iff.1 (BMap.mem_keySet.1 (x2 ▸ hme))
  obtain ⟨capX, hX⟩ := BMap.mem_keys_iff.1 (BMap.mem_keySet.1 (x1 ▸ hme))
  have hownY : (msg2 (hctx E ids sid me d x sk)).echo.capYs.get? j = some (d.ys j • E.g) := by
    show (BMap.tabulate ids fun j => d.ys j • E.g).get? j = _
    rw [BMap.get?_tabulate, if_pos hji]
  -- the five checks
  have e1 : evidence3 E sid ids j m2 m3 echos (.r3ShareChangeMismatch me (d.ys j)) =
      .ok (decide ((m3.capC - E.rhoH sid rid j (d.ys j • capY)) • E.g ≠ capX)) := by
    simp only [evidence3, he.2.1, Out.ofOption_some, Out.bind_ok, hownY, hrid, hY, hX]
    rw [if_neg (not_not.2 rfl)]
  have e1' : ∀ y, y ≠ d.ys j → evidence3 E sid ids j m2 m3 echos (.r3ShareChangeMismatch me y) = .err () := by
    intro y hy
    simp only [evidence3, he.2.1, Out.ofOption_some, Out.bind_ok, hownY]
    rw [if_pos]
    intro hh
    exact hy (smul_left_injective F hg hh)
  have e2 : evidence3 E sid ids j m2 m3 echos .r3ModFailed = .ok (!m3.psiPrime.verify E.aux.P E.aux.modH E.aux.isPrime m2.pk (sid, j, rid)) := by
    simp only [evidence3, hrid, hpk, Out.bind_ok]
  have e3 : evidence3 E sid ids j m2 m3 echos (.r3FacFailed me) =
      (m3.psi.verify E.aux.P E.aux.facH m2.pk (RPParams.withSecret (d.aux.rpP * d.aux.rpQ) E.aux.P.modBits d.aux.lambda d.aux.tDraw) (sid, j, rid)).bind fun ok =>
        .ok (!ok) := by
    simp only [evidence3, hrid, hpk, he.2.1, Out.ofOption_some, Out.bind_ok]
    have hown := toPrecomputed_toWire (ε := Unit) hodd (RPParams.withSecret (d.aux.rpP * d.aux.rpQ) E.aux.P.modBits d.aux.lambda d.aux.tDraw)
    exact (congrArg (fun x : Out Unit (RPParams (d.aux.rpP * d.aux.rpQ)) => x.bind fun rp =>
      (m3.psi.verify E.aux.P E.aux.facH m2.pk rp (sid, j, rid)).bind fun ok => .ok (!ok)) hown)
  have e5 : ∀ k psi capA capX', m2.capAs.get? k = some capA → m2.capXs.get? k = some capX' → m3.hatPsis.get? k = some psi →
      evidence3 E sid ids j m2 m3 echos (.r3SchFailed k) = .ok (!psi.verify E.schH E.g capA capX' (sid, j, rid)) := by
    intro k psi capA capX' a1 a2 a3
    simp only [evidence3, hrid, Out.bind_ok, a1, a2, a3, Out.ofOption_some]
  have hrecv : recv3 E ⟨hctx E ids sid me d x sk, rid, BMap.tabulate ids pl, psiP, BMap.tabulate ids (hatPsi E sid me d x rid)⟩ j m3 =
      (if (m3.capC - E.rhoH sid rid j (d.ys j • capY)) • E.g ≠ capX then .err (.protocol (.r3ShareChangeMismatch me (d.ys j)))
      else if ¬ m3.psiPrime.verify E.aux.P E.aux.modH E.aux.isPrime m2.pk (sid, j, rid) then .err (.protocol .r3ModFailed)
      else (m3.psi.verify E.aux.P E.aux.facH m2.pk (RPParams.withSecret (d.aux.rpP * d.aux.rpQ) E.aux.P.modBits d.aux.lambda d.aux.tDraw) (sid, j, rid)).bind fun ok =>
        if ¬ ok then .err (.protocol (.r3FacFailed me))
        else if m3.hatPsis.keySet ≠ ids then .err (.protocol .r3WrongIdsHatPsi)
        else (checkSch E (payloadOf m2) (sid, j, rid) m3.hatPsis.entries).bind fun _ => .ok (m3.capC - E.rhoH sid rid j (d.ys j • capY))) := by
    unfold recv3
    simp only [recvGet, BMap.get?_tabulate, if_pos hji, Out.ofOption_some, Out.bind_ok]
    rw [hpl]
    have a1 : (payloadOf m2).capYs.get? (hctx E ids sid me d x sk).myId = some capY := hY
    have a2 : (hctx E ids sid me d x sk).ys.get? j = some (d.ys j) := by
      show (BMap.tabulate ids d.ys).get? j = _
      rw [BMap.get?_tabulate, if_pos hji]
    have a3 : (payloadOf m2).capXs.get? (hctx E ids sid me d x sk).myId = some capX := hX
    rw [a1, a2, a3]
    rfl
  rw [hrecv]
  by_cases b1 : (m3.capC - E.rhoH sid rid j (d.ys j • capY)) • E.g ≠ capX
  · rw [if_pos b1]
    refine ⟨fun e hee => ?_, fun ⟨_, hee⟩ => by cases hee⟩
    cases hee
    rw [e1, decide_eq_true b1]
  rw [if_neg b1]
  by_cases b2 : m3.psiPrime.verify E.aux.P E.aux.modH E.aux.isPrime m2.pk (sid, j, rid) = true
  swap
  · rw [if_pos b2]
    refine ⟨fun e hee => ?_, fun ⟨_, hee⟩ => by cases hee⟩
    cases hee
    rw [e2, Bool.eq_false_of_not_eq_true b2]; rfl
  rw [if_neg (not_not.2 b2)]
  rcases verifyFac_cases (ε := RecvErr (Err I F)) E.aux.P E.aux.facH (N0 := m2.pk)
      (RPParams.withSecret (d.aux.rpP * d.aux.rpQ) E.aux.P.modBits d.aux.lambda d.aux.tDraw) (sid, j, rid) m3.psi with hv | ⟨b, hv⟩
  · rw [hv]
    exact ⟨fun e hee => (by cases hee), fun ⟨_, hee⟩ => (by cases hee)⟩
  have hv' : (m3.psi.verify E.aux.P E.aux.facH m2.pk (RPParams.withSecret (d.aux.rpP * d.aux.rpQ) E.aux.P.modBits d.aux.lambda d.aux.tDraw) (sid, j, rid) :
      Out Unit _) = .ok b := Out.eq_ok_of_cast (FacProof.verify_cast ..) hv
  rw [hv, Out.bind_ok]
  cases b with
  | false =>
    rw [if_pos (by simp)]
    refine ⟨fun e hee => ?_, fun ⟨_, hee⟩ => by cases hee⟩
    cases hee
    rw [e3, hv']; rfl
  | true =>
    rw [if_neg (by simp)]
    by_cases b4 : m3.hatPsis.keySet ≠ ids
    · rw [if_pos b4]
      refine ⟨fun e hee => ?_, fun ⟨_, hee⟩ => by cases hee⟩
      cases hee
      simp only [evidence3]
      rw [decide_eq_true b4]
    rw [if_neg b4]
    constructor
    · intro e hee
      cases hs : checkSch E (payloadOf m2) (sid, j, rid) m3.hatPsis.entries with
      | ok u => rw [hs] at hee; cases hee
      | panic => exact absurd hs checkSch_ne_panic
      | err e' =>
        rw [hs] at hee
        cases hee
        obtain ⟨⟨k, psi⟩, ha, capA, capX', rfl, h1, h2, h3⟩ := checkSch_eq_protocol hs
        rw [e5 k psi capA capX' h1 h2 (BMap.get?_eq_some_iff.2 ha), h3]; rfl
    · rintro ⟨xv, hee⟩
      obtain ⟨_, hs, -⟩ := Out.bind_eq_ok.1 hee
      refine ⟨fun y => ?_, ?_, ?_, ?_, fun k => ?_⟩
      · by_cases hy : y = d.ys j
        · rw [hy, e1, decide_eq_false b1]; simp
        · rw [e1' y hy]; simp
      · rw [e2, b2]; rfl
      · rw [e3, hv']; rfl
      · simp only [evidence3]; rw [decide_eq_false b4]
      · cases hpsi : m3.hatPsis.get? k with
        | none =>
          simp only [evidence3, hrid, Out.bind_ok, hpsi]
          intro hh
          obtain ⟨_, _, hh⟩ := Out.bind_eq_ok.1 hh
          obtain ⟨_, _, hh⟩ := Out.bind_eq_ok.1 hh
          simp at hh
        | some psi =>
          obtain ⟨capA, capX', h1, h2, h3⟩ := checkSch_eq_ok.1 hs (k, psi) (BMap.get?_eq_some_iff.1 hpsi)
          rw [e5 k psi capA capX' h1 h2 hpsi, h3]; simp

/-- **C46 (key refresh).** A party that follows the protocol with honest draws cannot be blamed, whatever the other parties do: no error of round 2 is
confirmed from its messages, and no error of round 3 from its messages to the reporting party, given the echoes of the round 2 broadcasts it received. For
the factoring proof the reporting party's ring-Pedersen parameters must be of the right size with invertible bases. -/
theorem C46_refresh_no_framing (E : Env I Sid F G) (hg : E.g ≠ 0) (k : Nat) (hE : HashesValid E.aux k) (hashV : Sid → I → Hashed I G → V) (ids : Finset I)
    (sid : Sid) (me : I) (d : Draws I F) (hd : DrawsValid E.aux k d.aux) (c : Context I F G Sid) (hc : start E ids sid me d = .ok c) :
    (∀ e, evidence2 E hashV sid ids me (msg1 hashV c) (msg2 c) e ≠ .ok true) ∧
    ∀ (in1 : List (I × V)) (in2 : List (I × Msg2 I G)) (r3 : Round3 I F G Sid) (echos : BMap I (Echo2 I G)),
      toRound3 E hashV c in1 in2 = .ok r3 → echos.entries.Perm (in2.map fun a => (a.1, a.2.echo)) →
      ∀ (dest : I) (m : Msg2 I G), (dest, m) ∈ in2 → ∀ (m3 : Msg3 I F), msg3 E r3 dest = .ok m3 →
        (∀ y, evidence3 E sid ids me (msg2 c) m3 echos (.r3ShareChangeMismatch dest y) ≠ .ok true) ∧
        evidence3 E sid ids me (msg2 c) m3 echos .r3ModFailed = .ok false ∧
        evidence3 E sid ids me (msg2 c) m3 echos .r3WrongIdsHatPsi = .ok false ∧
        (∀ j, evidence3 E sid ids me (msg2 c) m3 echos (.r3SchFailed j) ≠ .ok true) ∧
        (m.echo.rp.modulus < 2 ^ E.aux.P.modBits → Nat.Coprime m.echo.rp.baseValue m.echo.rp.modulus →
          Nat.Coprime m.echo.rp.baseRandomizer m.echo.rp.modulus →
          FacDrawsValid E.aux.P (d.aux.p * d.aux.q) m.echo.rp.modulus (d.aux.facMasks dest) →
          evidence3 E sid ids me (msg2 c) m3 echos (.r3FacFailed dest) = .ok false) := by
  obtain ⟨hme, hodd, sk, x, hsk, hx0, rfl⟩ := start_ok hc
  refine ⟨?_, ?_⟩
  · intro e he
    have hacc := hdata_accepted (V := V) hE hd sid me hx0 hashV ((BMap.empty : BMap I V).insert me (hashV sid me (hdata E ids sid me d x).hashed))
      (by simp [BMap.get?_insert])
    have := C45_refresh_round2 E hashV ({ hctx E ids sid me d x sk with otherIds := {me} } : Context I F G Sid)
      [(me, hashV sid me (hdata E ids sid me d x).hashed)] ((BMap.empty : BMap I V).insert me (hashV sid me (hdata E ids sid me d x).hashed))
      (by rw [collect_eq_ok]; simp [recv1, BMap.get?_insert, BMap.keySet_insert]; rfl) me (hashV sid me (hdata E ids sid me d x).hashed) (by simp)
      (hdata E ids sid me d x).msg2
    exact this.2 ⟨_, hacc⟩ e he
  · intro in1 in2 r3 echos h hperm dest m hm m3 hm3
    obtain ⟨rid, psiP, pl, rfl, nd, ex, hown, hget, hjoint, hpsi⟩ := toRound3_ok hme h
    obtain ⟨hpl, x1, x2, x3, o1, o2, -⟩ := hget dest m hm
    have hdm : dest ∈ ids := Finset.mem_of_mem_erase (a := me) (by rw [← ex, List.mem_toFinset]; exact List.mem_map.2 ⟨_, hm, rfl⟩)
    obtain ⟨capY, hY⟩ := BMap.mem_keys_iff.1 (BMap.mem_keySet.1 (x2 ▸ hme))
    have hrid : reconstructRid (msg2 (hctx E ids sid me d x sk)).echo echos = .ok rid := reconstructRid_own hperm hjoint
    have hpk : (publicModulusNew (d.aux.p * d.aux.q) : Out Unit _) = .ok (d.aux.p * d.aux.q) := by simp [publicModulusNew, odd_of_primes hd.key.primes]
    have hgc : echos.get? dest = some m.echo := by
      rw [BMap.get?_eq_some_iff]; exact hperm.mem_iff.2 (List.mem_map.2 ⟨_, hm, rfl⟩)
    rw [msg3_eq (by rw [BMap.get?_tabulate, if_pos hdm, hpl]) hY hdm] at hm3
    obtain ⟨psi, hpsi2, hm3⟩ := Out.bind_eq_ok.1 hm3
    cases hm3
    have htab : ∀ (f : I → G) (j : I), j ∈ ids → (BMap.tabulate ids f).get? j = some (f j) := fun f j hj => by rw [BMap.get?_tabulate, if_pos hj]
    refine ⟨fun y => ?_, ?_, ?_, fun j => ?_, ?_⟩
    · by_cases hy : y • E.g ≠ capY
      · simp only [evidence3, hgc, Out.ofOption_some, Out.bind_ok, hY]
        rw [if_pos hy]; simp
      · rw [not_not] at hy
        have a1 : (msg2 (hctx E ids sid me d x sk)).echo.capYs.get? dest = some (d.ys dest • E.g) := htab _ _ hdm
        have a2 : (msg2 (hctx E ids sid me d x sk)).capXs.get? dest = some (x dest • E.g) := htab _ _ hdm
        simp only [evidence3, hgc, Out.ofOption_some, Out.bind_ok, hY]
        rw [if_neg (not_not.2 hy), hrid, Out.bind_ok, a1, Out.ofOption_some, Out.bind_ok, a2, Out.ofOption_some, Out.bind_ok, ← hy, smul_comm, add_sub_cancel_right]
        simp
    · obtain ⟨prf, hprf, hver⟩ := honest_mod (ε' := LocalErr) hE hd hsk (sid, me, rid)
      rw [hpsi] at hprf
      cases hprf
      simp only [evidence3, hrid, Out.bind_ok]
      show ((publicModulusNew (d.aux.p * d.aux.q) : Out Unit _).bind _) = _
      rw [hpk, Out.bind_ok, hver]; rfl
    · simp only [evidence3, BMap.keySet_tabulate]
      simp
    · by_cases hj : j ∈ ids
      · have a1 : (msg2 (hctx E ids sid me d x sk)).capAs.get? j = some (d.taus j • E.g) := htab _ _ hj
        have a2 : (msg2 (hctx E ids sid me d x sk)).capXs.get? j = some (x j • E.g) := htab _ _ hj
        have a3 : (BMap.tabulate ids (hatPsi E sid me d x rid)).get? j = some (hatPsi E sid me d x rid j) := by rw [BMap.get?_tabulate, if_pos hj]
        simp only [evidence3, hrid, Out.bind_ok, a1, a2, a3, Out.ofOption_some]
        have := C25_complete E.schH E.g (d.taus j) (x j) (sid, me, rid)
        unfold hatPsi
        unfold schCommitment at this
        rw [this]; simp
      · have a3 : (BMap.tabulate ids (hatPsi E sid me d x rid)).get? j = none := by rw [BMap.get?_tabulate, if_neg hj]
        simp only [evidence3, hrid, Out.bind_ok, a3]
        intro hh
        obtain ⟨_, _, hh⟩ := Out.bind_eq_ok.1 hh
        obtain ⟨_, _, hh⟩ := Out.bind_eq_ok.1 hh
        simp at hh
    · intro hlt hc1 hc2 hmask
      have hrp := toPrecomputed_of_odd (ε := Unit) o2
      obtain ⟨prf, h1, h2⟩ := honest_fac (ε := LocalErr) hE hd (rp := AuxGen.rpOf m.base) (by show 0 < m.echo.rp.modulus; omega) hlt
        ⟨(ZMod.isUnit_iff_coprime _ _).2 hc1, (ZMod.isUnit_iff_coprime _ _).2 hc2⟩ hmask sk (sid, me, rid)
      rw [h1] at hpsi2
      cases hpsi2
      simp only [evidence3, hrid, Out.bind_ok, hgc, Out.ofOption_some]
      show ((publicModulusNew (d.aux.p * d.aux.q) : Out Unit _).bind _) = _
      rw [hpk, Out.bind_ok]
      have h3 := congrArg (fun x : Out Unit (RPParams m.echo.rp.modulus) => x.bind fun rp =>
        (psi.verify E.aux.P E.aux.facH (d.aux.p * d.aux.q) rp (sid, me, rid)).bind fun ok => .ok (!ok)) hrp
      refine h3.trans ?_
      have h4 := congrArg (fun x : Out Unit Bool => x.bind fun ok => .ok (!ok)) (h2 Unit)
      exact h4

/-- **C46 depends on the session layer here.** The check of a reported share change does not tie the direct message to its addressee: if two misbehaving
parties could pass off the honest party's message to one of them as its message to the other, the honest party would be found guilty unless both messages
happen to contain the same value. -/
theorem C46_refresh_needs_addressee (E : Env I Sid F G) (hg : E.g ≠ 0) (hashV : Sid → I → Hashed I G → V) (ids : Finset I)
    (sid : Sid) (me : I) (d : Draws I F) (c : Context I F G Sid) (hc : start E ids sid me d = .ok c)
    (in1 : List (I × V)) (in2 : List (I × Msg2 I G)) (r3 : Round3 I F G Sid) (echos : BMap I (Echo2 I G))
    (h : toRound3 E hashV c in1 in2 = .ok r3) (hperm : echos.entries.Perm (in2.map fun a => (a.1, a.2.echo)))
    (a b : I) (ma mb : Msg2 I G) (ha : (a, ma) ∈ in2) (hb : (b, mb) ∈ in2) (m3a m3b : Msg3 I F) (h3a : msg3 E r3 a = .ok m3a) (h3b : msg3 E r3 b = .ok m3b)
    (y : F) (hy : ma.echo.capYs.get? me = some (y • E.g)) :
    evidence3 E sid ids me (msg2 c) m3b echos (.r3ShareChangeMismatch a y) = .ok (decide (m3a.capC ≠ m3b.capC)) := by
  obtain ⟨hme, hodd, sk, x, hsk, hx0, rfl⟩ := start_ok hc
  obtain ⟨rid, psiP, pl, rfl, nd, ex, hown, hget, hjoint, hpsi⟩ := toRound3_ok hme h
  obtain ⟨hpla, -, x2a, -⟩ := hget a ma ha
  obtain ⟨hplb, -, x2b, -⟩ := hget b mb hb
  have hai : a ∈ ids := Finset.mem_of_mem_erase (a := me) (by rw [← ex, List.mem_toFinset]; exact List.mem_map.2 ⟨_, ha, rfl⟩)
  have hbi : b ∈ ids := Finset.mem_of_mem_erase (a := me) (by rw [← ex, List.mem_toFinset]; exact List.mem_map.2 ⟨_, hb, rfl⟩)
  obtain ⟨capY, hY⟩ := BMap.mem_keys_iff.1 (BMap.mem_keySet.1 (x2b ▸ hme))
  have hrid : reconstructRid (msg2 (hctx E ids sid me d x sk)).echo echos = .ok rid := reconstructRid_own hperm hjoint
  have hgc : echos.get? a = some ma.echo := by
    rw [BMap.get?_eq_some_iff]; exact hperm.mem_iff.2 (List.mem_map.2 ⟨_, ha, rfl⟩)
  rw [msg3_eq (by rw [BMap.get?_tabulate, if_pos hai, hpla]) hy hai] at h3a
  rw [msg3_eq (by rw [BMap.get?_tabulate, if_pos hbi, hplb]) hY hbi] at h3b
  obtain ⟨_, -, h3a⟩ := Out.bind_eq_ok.1 h3a
  obtain ⟨_, -, h3b⟩ := Out.bind_eq_ok.1 h3b
  cases h3a
  cases h3b
  have htab : ∀ (f : I → G) (j : I), j ∈ ids → (BMap.tabulate ids f).get? j = some (f j) := fun f j hj => by rw [BMap.get?_tabulate, if_pos hj]
  have a1 : (msg2 (hctx E ids sid me d x sk)).echo.capYs.get? a = some (d.ys a • E.g) := htab _ _ hai
  have a2 : (msg2 (hctx E ids sid me d x sk)).capXs.get? a = some (x a • E.g) := htab _ _ hai
  simp only [evidence3, hgc, Out.ofOption_some, Out.bind_ok, hy]
  rw [if_neg (not_not.2 rfl), hrid, Out.bind_ok, a1, Out.ofOption_some, Out.bind_ok, a2, Out.ofOption_some, Out.bind_ok, smul_comm y]
  refine congrArg Out.ok (decide_eq_decide.2 (not_congr ?_))
  rw [(smul_left_injective F hg).eq_iff, sub_eq_iff_eq_add]
  exact ⟨fun h => h.symm, fun h => h.symm⟩

/-! ### Remote panics -/

/-- **C47 (key refresh, partial).** Full property: no message of a peer makes a party panic. Proved: a party with honest draws can be made to panic
only by a round 2 message with an even modulus, a modulus beyond the parameter size, a random string of the wrong length or a ring-Pedersen
base that is not invertible, or by a round 3 factoring proof one of whose first two commitments is not invertible. -/
theorem C47_refresh_partial (E : Env I Sid F G) (k : Nat) (hE : HashesValid E.aux k) (hashV : Sid → I → Hashed I G → V) (ids : Finset I) (sid : Sid) (me : I)
    (d : Draws I F) (hd : DrawsValid E.aux k d.aux) (c : Context I F G Sid) (hc : start E ids sid me d = .ok c) (in1 : List (I × V)) (in2 : List (I × Msg2 I G))
    (in3 : List (I × Msg3 I F)) (hmask : ∀ a ∈ in2, FacMasksValid E.aux.P (d.aux.p * d.aux.q) a.2.echo.rp.modulus (d.aux.facMasks a.1))
    (h : run E hashV c in1 in2 in3 = .panic) :
    (∃ a ∈ in2, a.2.pk % 2 = 0 ∨ 2 ^ E.aux.P.modBits ≤ a.2.pk ∨ a.2.echo.rp.modulus % 2 = 0 ∨ 2 ^ E.aux.P.modBits ≤ a.2.echo.rp.modulus ∨
      a.2.echo.rid.length ≠ d.aux.rid.length ∨ ¬ Nat.Coprime a.2.echo.rp.baseValue a.2.echo.rp.modulus ∨
      ¬ Nat.Coprime a.2.echo.rp.baseRandomizer a.2.echo.rp.modulus) ∨
    (∃ a ∈ in3, ¬ Nat.Coprime a.2.psi.capP (d.aux.rpP * d.aux.rpQ) ∨ ¬ Nat.Coprime a.2.psi.capQ (d.aux.rpP * d.aux.rpQ)) := by
  obtain ⟨hme, hodd, sk, x, hsk, hx0, rfl⟩ := start_ok hc
  by_contra hno
  push Not at hno
  obtain ⟨hno2, hno3⟩ := hno
  have hrecv2 : ∀ capVs, ∀ a ∈ in2, recv2 E hashV sid ids capVs a.1 a.2 ≠ .panic := by
    intro capVs a ha hp
    have hn := hno2 a ha
    unfold recv2 recvGet at hp
    rw [open_of_odd (by omega) (by omega), Out.bind_ok] at hp
    cases hg : capVs.get? a.1 with
    | none => simp [hg] at hp
    | some v =>
      rw [hg, Out.ofOption_some, Out.bind_ok] at hp
      repeat' split at hp
      all_goals simp at hp
  unfold run at h
  cases ht : toRound3 E hashV (hctx E ids sid me d x sk) in1 in2 with
  | err e => rw [ht] at h; simp at h
  | panic =>
    unfold toRound3 at ht
    cases hc1 : collect (ids.erase me) (recv1 : I → V → Out (RecvErr (Err I F)) V) in1 with
    | err e =>
      have hc1' : collect (hctx E ids sid me d x sk).otherIds (recv1 : I → V → Out (RecvErr (Err I F)) V) in1 = _ := hc1
      rw [hc1'] at ht; simp at ht
    | panic => obtain ⟨a, _, ha⟩ := collect_eq_panic hc1; simp [recv1] at ha
    | ok capVs =>
      have hc1' : collect (hctx E ids sid me d x sk).otherIds (recv1 : I → V → Out (RecvErr (Err I F)) V) in1 = _ := hc1
      rw [hc1', Out.bind_ok] at ht
      cases hc2 : collect (ids.erase me) (recv2 E hashV sid ids capVs) in2 with
      | err e =>
        have hc2' : collect (hctx E ids sid me d x sk).otherIds (recv2 E hashV (hctx E ids sid me d x sk).sid (hctx E ids sid me d x sk).allIds capVs) in2 = _ := hc2
        rw [hc2'] at ht; simp at ht
      | panic => obtain ⟨a, ham, ha⟩ := collect_eq_panic hc2; exact hrecv2 _ _ ham ha
      | ok pls =>
        have hc2' : collect (hctx E ids sid me d x sk).otherIds (recv2 E hashV (hctx E ids sid me d x sk).sid (hctx E ids sid me d x sk).allIds capVs) in2 = _ := hc2
        rw [hc2', Out.bind_ok, finalize2_eq] at ht
        cases hx : (xorAll d.aux.rid (pls.values.map fun p => p.base.rid) : Out LocalErr _) with
        | ok r =>
          rw [hx, Out.bind_ok] at ht
          obtain ⟨prf, hprf, -⟩ := honest_mod (ε' := LocalErr) hE hd hsk (sid, me, r)
          rw [hprf] at ht; simp [finalizeResult] at ht
        | err e => exact absurd hx xorAll_ne_err
        | panic =>
          obtain ⟨y, hx1, hx2⟩ := xorAll_eq_panic.1 hx
          obtain ⟨p, hp1, rfl⟩ := List.mem_map.1 hx1
          have hpe := collect_entries_perm (f := fun _ m => payloadOf m) hc2 (by
            intro a _ p hp'
            obtain ⟨_, _, _, _, _, _, _, _, _, _, _, _, rfl⟩ := recv2_ok hp'
            rfl)
          have hp2 := (hpe.map Prod.snd).mem_iff.1 hp1
          rw [List.map_map] at hp2
          obtain ⟨a, ha, rfl⟩ := List.mem_map.1 hp2
          exact hx2 (hno2 a ha).2.2.2.2.1
  | ok r3 =>
    rw [ht, Out.bind_ok] at h
    obtain ⟨rid, psiP, pl, rfl, nd, ex, hown, hget, hjoint, hpsi⟩ := toRound3_ok hme ht
    have hin : ∀ j ∈ ids.erase me, ∃ m, (j, m) ∈ in2 := by
      intro j hj
      rw [← ex, List.mem_toFinset] at hj
      obtain ⟨⟨_, m⟩, hm, rfl⟩ := List.mem_map.1 hj
      exact ⟨m, hm⟩
    cases hs : send3 E ⟨hctx E ids sid me d x sk, rid, BMap.tabulate ids pl, psiP, BMap.tabulate ids (hatPsi E sid me d x rid)⟩ with
    | err e => rw [hs] at h; simp at h
    | panic =>
      obtain ⟨j, hj, hjp⟩ := AuxGen.mapM'_panic_cases hs
      have hj' : j ∈ ids.erase me := mem_bsetIter.1 hj
      obtain ⟨m, hm⟩ := hin j hj'
      obtain ⟨hg, x1, x2, x3, o1, o2, -⟩ := hget j m hm
      have hn := hno2 _ hm
      simp only at hn
      obtain ⟨capY, hY⟩ := BMap.mem_keys_iff.1 (BMap.mem_keySet.1 (x2 ▸ hme))
      obtain ⟨prf, hprf⟩ := makeFac_ok (ε := LocalErr) hE hd (rp := AuxGen.rpOf m.base) (by show 0 < m.echo.rp.modulus; omega) hn.2.2.2.1
        ⟨(ZMod.isUnit_iff_coprime _ _).2 hn.2.2.2.2.2.1, (ZMod.isUnit_iff_coprime _ _).2 hn.2.2.2.2.2.2⟩ (hmask _ hm) sk (sid, me, rid)
      rw [msg3_eq (by rw [BMap.get?_tabulate, if_pos (Finset.mem_of_mem_erase hj'), hg]) hY (Finset.mem_of_mem_erase hj'), hprf] at hjp
      simp [finalizeResult] at hjp
    | ok ms =>
      rw [hs, Out.bind_ok] at h
      cases hc3 : collect (ids.erase me) (recv3 E ⟨hctx E ids sid me d x sk, rid, BMap.tabulate ids pl, psiP, BMap.tabulate ids (hatPsi E sid me d x rid)⟩) in3 with
      | err e =>
        have hc3' : collect (hctx E ids sid me d x sk).otherIds _ in3 = _ := hc3
        rw [hc3'] at h; simp at h
      | ok u =>
        have hc3' : collect (hctx E ids sid me d x sk).otherIds _ in3 = _ := hc3
        rw [hc3', Out.bind_ok] at h
        -- the result is always computed
        have hcx : ∀ j ∈ ids, ∀ k ∈ ids, ∃ X, (pl j).capXs.get? k = some X := by
          intro j hj k hk
          by_cases hjm : j = me
          · subst hjm
            refine ⟨x k • E.g, ?_⟩
            rw [hown]
            show (BMap.tabulate ids fun j => x j • E.g).get? k = _
            rw [BMap.get?_tabulate, if_pos hk]
          · obtain ⟨m, hm⟩ := hin j (Finset.mem_erase.2 ⟨hjm, hj⟩)
            obtain ⟨hg, x1, -⟩ := hget j m hm
            rw [hg]
            exact BMap.mem_keys_iff.1 (BMap.mem_keySet.1 (x1 ▸ hk))
        have hsum := sumChanges_tabulate (pl := pl) (capX := fun j k => ((pl j).capXs.get? k).getD 0) (ids := ids) (by
          intro j hj k hk
          obtain ⟨X, hX⟩ := hcx j hj k hk
          rw [hX]; rfl)
        have hfin : finalize3 (⟨hctx E ids sid me d x sk, rid, BMap.tabulate ids pl, psiP, BMap.tabulate ids (hatPsi E sid me d x rid)⟩ : Round3 I F G Sid) u ≠ .panic := by
          unfold finalize3 finGet
          have a1 : (hctx E ids sid me d x sk).xs.get? (hctx E ids sid me d x sk).myId = some (x me) := by
            show (BMap.tabulate ids x).get? me = _
            rw [BMap.get?_tabulate, if_pos hme]
          simp only [a1, Out.ofOption_some, Out.bind_ok]
          show ((Out.mapM' (sumChanges (BMap.tabulate ids pl).values) (bsetIter ids)).bind _) ≠ _
          rw [hsum]
          simp
        cases hf : finalize3 (⟨hctx E ids sid me d x sk, rid, BMap.tabulate ids pl, psiP, BMap.tabulate ids (hatPsi E sid me d x rid)⟩ : Round3 I F G Sid) u with
        | ok r => rw [hf] at h; simp [finalizeResult] at h
        | err e => rw [hf] at h; simp [finalizeResult] at h
        | panic => exact hfin hf
      | panic =>
        obtain ⟨⟨j, m3⟩, ham, ha⟩ := collect_eq_panic hc3
        have hn3 := hno3 _ ham
        simp only at ha hn3
        unfold recv3 at ha
        simp only [recvGet] at ha
        cases hg : (BMap.tabulate ids pl).get? j with
        | none => simp [hg] at ha
        | some p =>
          rw [hg, Out.ofOption_some, Out.bind_ok] at ha
          rw [BMap.get?_tabulate] at hg
          split at hg
          swap
          · cases hg
          rename_i hji
          cases hg
          have hplt : (pl j).base.pk < 2 ^ E.aux.P.modBits := by
            by_cases hjm : j = me
            · subst hjm
              rw [hown]
              exact hd.key_lt hE
            · obtain ⟨m, hm⟩ := hin j (Finset.mem_erase.2 ⟨hjm, hji⟩)
              obtain ⟨hg, -⟩ := hget j m hm
              rw [hg]
              exact (hno2 _ hm).2.1
          cases hY : (pl j).capYs.get? (hctx E ids sid me d x sk).myId with
          | none => rw [hY] at ha; simp at ha
          | some capY =>
            rw [hY, Out.ofOption_some, Out.bind_ok] at ha
            cases hy : (hctx E ids sid me d x sk).ys.get? j with
            | none => rw [hy] at ha; simp at ha
            | some y =>
              rw [hy, Out.ofOption_some, Out.bind_ok] at ha
              cases hX : (pl j).capXs.get? (hctx E ids sid me d x sk).myId with
              | none => rw [hX] at ha; simp at ha
              | some capX =>
                rw [hX, Out.ofOption_some, Out.bind_ok] at ha
                split at ha
                · simp at ha
                split at ha
                · simp at ha
                have hmw : E.aux.P.modBits < E.aux.P.wide := by
                  have h1 := hE.consistent.2.1.2.2.2.2.1
                  have h2 := HashesValid.modBits_eq hE
                  have h3 := FullSizePrimes.primeBits_pos hd.key
                  omega
                obtain ⟨b, hb⟩ := FacProof.verify_no_panic (ε := RecvErr (Err I F)) (P := E.aux.P) hmw E.aux.facH hplt
                  (RPParams.withSecret (d.aux.rpP * d.aux.rpQ) E.aux.P.modBits d.aux.lambda d.aux.tDraw) hd.rp_valid (sid, j, rid) m3.psi
                  ((ZMod.isUnit_iff_coprime _ _).2 hn3.1) ((ZMod.isUnit_iff_coprime _ _).2 hn3.2)
                have hb' : (m3.psi.verify E.aux.P E.aux.facH (pl j).base.pk (hctx E ids sid me d x sk).rp.rp ((hctx E ids sid me d x sk).sid, j, rid) :
                  Out (RecvErr (Err I F)) Bool) = .ok b := hb
                rw [hb', Out.bind_ok] at ha
                split at ha
                · simp at ha
                split at ha
                · simp at ha
                cases hs : checkSch E (pl j) ((hctx E ids sid me d x sk).sid, j, rid) m3.hatPsis.entries with
                | ok u => rw [hs] at ha; simp at ha
                | err e => rw [hs] at ha; simp at ha
                | panic => exact checkSch_ne_panic hs

/-- **C47 is false of key refresh.** Any single other party `j` can make a party with honest draws panic, whatever the draws and the
behaviour of everyone else:

1. with a round 2 message that contains an even modulus;
2. with a round 2 message that is accepted and has a random string one bit too long: the run panics as soon as all round 2 messages have been accepted;
3. with a round 2 message that is accepted and has both ring-Pedersen bases zero: the same. -/
theorem C47_refresh_remote_panic (E : Env I Sid F G) (k : Nat) (hE : HashesValid E.aux k) (hashV : Sid → I → Hashed I G → V) (ids : Finset I) (sid : Sid) (me : I)
    (d : Draws I F) (hd : DrawsValid E.aux k d.aux) (c : Context I F G Sid) (hc : start E ids sid me d = .ok c) (j : I) (hj : j ∈ ids) (hne : j ≠ me) :
    (∀ (m : Msg2 I G) capVs, m.pk % 2 = 0 ∨ m.echo.rp.modulus % 2 = 0 → recv2 E hashV sid ids capVs j m = .panic) ∧
    ∀ rid : List Bool, ∃ (v : V) (m : Msg2 I G), m.echo.rid = rid ∧ (m.echo.rp.baseValue = 0 ∧ m.echo.rp.baseRandomizer = 0) ∧
      (∀ capVs : BMap I V, capVs.get? j = some v → ∃ p, recv2 E hashV sid ids capVs j m = .ok p) ∧
      ∀ (in1 : List (I × V)) (in2 : List (I × Msg2 I G)) (in3 : List (I × Msg3 I F)) capVs pls, (j, v) ∈ in1 → (j, m) ∈ in2 →
        collect c.otherIds (recv1 : I → V → Out (RecvErr (Err I F)) V) in1 = .ok capVs → collect c.otherIds (recv2 E hashV sid ids capVs) in2 = .ok pls →
        run E hashV c in1 in2 in3 = .panic ∧ (rid.length ≠ d.aux.rid.length → toRound3 E hashV c in1 in2 = .panic) := by
  obtain ⟨hme, hodd, sk, x, hsk, hx0, rfl⟩ := start_ok hc
  have hpos : 0 < E.aux.P.modBits := by
    have h2 := HashesValid.modBits_eq hE
    have h3 := FullSizePrimes.primeBits_pos hd.key
    omega
  have h4 : 4 ≤ 2 ^ E.aux.P.modBits := by
    have h2 := HashesValid.modBits_eq hE
    have h3 := FullSizePrimes.primeBits_pos hd.key
    calc 4 = 2 ^ 2 := rfl
      _ ≤ _ := Nat.pow_le_pow_right (by norm_num) (by omega)
  refine ⟨?_, fun rid => ?_⟩
  · intro m capVs h
    unfold recv2
    rw [open_of_even h]; rfl
  refine ⟨badMsg1 E hashV ids sid j k rid, badMsg2 E ids sid j k rid, rfl, ⟨rfl, rfl⟩, fun capVs hv => ⟨_, badMsg2_accepted hE hpos hashV ids sid j rid capVs hv⟩, ?_⟩
  intro in1 in2 in3 capVs pls hj1 hj2 hc1 hc2
  have hgj : pls.get? j = some (payloadOf (badMsg2 E ids sid j k rid)) := by
    obtain ⟨_, _, _, a1⟩ := collect_eq_ok.1 hc1
    obtain ⟨_, _, _, a2⟩ := collect_eq_ok.1 hc2
    obtain ⟨v, hv, hgv⟩ := a1 _ hj1
    cases hv
    obtain ⟨p, hp, hgp⟩ := a2 _ hj2
    rw [badMsg2_accepted hE hpos hashV ids sid j rid capVs hgv] at hp
    cases hp
    exact hgp
  have hr3 : toRound3 E hashV (hctx E ids sid me d x sk) in1 in2 = finalizeResult (finalize2 E (hctx E ids sid me d x sk) pls) := by
    unfold toRound3
    rw [hc1, Out.bind_ok]
    have hc2' : collect (hctx E ids sid me d x sk).otherIds (recv2 E hashV (hctx E ids sid me d x sk).sid (hctx E ids sid me d x sk).allIds capVs) in2 = _ := hc2
    rw [hc2', Out.bind_ok]
  have hkey : ∀ i ∈ ids.erase me, ∃ m capY, pls.get? i = some (payloadOf m) ∧ m.echo.capYs.get? me = some capY := by
    intro i hi
    obtain ⟨m, p, hm, hp, hgp⟩ := collect_mem hc2 hi
    obtain ⟨_, _, _, _, x2, _, _, _, _, _, _, _, rfl⟩ := recv2_ok hp
    obtain ⟨capY, hY⟩ := BMap.mem_keys_iff.1 (BMap.mem_keySet.1 (x2 ▸ hme))
    exact ⟨m, capY, hgp, hY⟩
  constructor
  · unfold run
    rw [hr3, finalize2_eq]
    cases hx : (xorAll d.aux.rid (pls.values.map fun p => p.base.rid) : Out LocalErr _) with
    | err e => exact absurd hx xorAll_ne_err
    | panic => rfl
    | ok r =>
      rw [Out.bind_ok]
      rcases makeMod_cases (ε := LocalErr) E.aux ⟨d.aux.p, d.aux.q, sk⟩ d.aux.modDraw d.aux.modBit (sid, me, r) with h | ⟨psi, h⟩
      · rw [h]; rfl
      rw [h, Out.bind_ok]
      have hs : send3 E ⟨hctx E ids sid me d x sk, r, pls.insert me (hdata E ids sid me d x).payload, psi, BMap.tabulate ids (hatPsi E sid me d x r)⟩ = .panic := by
        unfold send3
        refine AuxGen.mapM'_panic_of_mem (a := j) ?_ (mem_bsetIter.2 (Finset.mem_erase.2 ⟨hne, hj⟩)) ?_
        · intro i hi
          have hi' : i ∈ ids.erase me := mem_bsetIter.1 hi
          obtain ⟨m, capY, hpl, hY⟩ := hkey i hi'
          rw [msg3_eq (by rw [BMap.get?_insert, if_neg (Finset.mem_erase.1 hi').1, hpl]) hY (Finset.mem_of_mem_erase hi')]
          rcases makeFac_cases (ε := LocalErr) E.aux ⟨d.aux.p, d.aux.q, sk⟩ (AuxGen.rpOf m.base) (sid, me, r) (d.aux.facMasks i) with h | ⟨psi, h⟩
          · left; rw [h]; rfl
          · right; rw [h]; exact ⟨_, rfl⟩
        · rw [msg3_eq (m := badMsg2 E ids sid j k rid) (capY := 0) (by rw [BMap.get?_insert, if_neg hne, hgj])
            (by show (BMap.tabulate ids fun _ => (0 : G)).get? me = _; rw [BMap.get?_tabulate, if_pos hme]) hj]
          rcases makeFac_cases (ε := LocalErr) E.aux ⟨d.aux.p, d.aux.q, sk⟩ (AuxGen.rpOf (badMsg2 E ids sid j k rid).base) (sid, me, r) (d.aux.facMasks j) with
            h | ⟨psi, h⟩
          · rw [h]; rfl
          · exact absurd h (FacProof.prove_zero_base E.aux.facH (by show 1 < 2 ^ E.aux.P.modBits - 1; omega) hd.key.primes.prime_p.pos _
              (Nat.cast_zero (R := ZMod (2 ^ E.aux.P.modBits - 1))) _ _ _)
      show (send3 E _).bind _ = _
      rw [hs]; rfl
  · intro hl
    rw [hr3, finalize2_eq]
    have hx : (xorAll d.aux.rid (pls.values.map fun p => p.base.rid) : Out LocalErr _) = .panic := by
      rw [xorAll_eq_panic]
      refine ⟨rid, ?_, hl⟩
      rw [List.mem_map]
      refine ⟨payloadOf (badMsg2 E ids sid j k rid), ?_, rfl⟩
      unfold BMap.values
      exact List.mem_map.2 ⟨_, BMap.get?_eq_some_iff.1 hgj, rfl⟩
    rw [hx]; rfl

/-- **C48 (key refresh).** The result of a run does not depend on the order in which the messages of each round arrive. -/
theorem C48_refresh_order (E : Env I Sid F G) (hashV : Sid → I → Hashed I G → V) (c : Context I F G Sid) (in1 in1' : List (I × V))
    (in2 in2' : List (I × Msg2 I G)) (in3 in3' : List (I × Msg3 I F)) (h1 : in1.Perm in1') (h2 : in2.Perm in2') (h3 : in3.Perm in3')
    (r : KeyShareChange I F G × AuxInfo I PaillierKey PublicAux) :
    run E hashV c in1 in2 in3 = .ok r ↔ run E hashV c in1' in2' in3' = .ok r := by
  simp only [run, toRound3, Out.bind_eq_ok, C48_round_order _ _ _ _ h1, C48_round_order _ _ _ _ h2, C48_round_order _ _ _ _ h3]

/-! ### A concrete case

Three parties at the crate's test parameters, with 128-bit primes and a transparent commitment hash; the curve is the additive group of `ZMod 11`. -/

section Concrete

attribute [local instance] Toy.fact11 Toy.order11

/-- The commitment hash of the concrete case -/
def refreshCaseHash : Nat → Nat → Hashed Nat (ZMod 11) → Nat × Nat × Hashed Nat (ZMod 11) := fun s i h => (s, i, h)

/-- The setting of the concrete case -/
def refreshCaseEnv : Env Nat Nat (ZMod 11) (ZMod 11) := ⟨Toy.auxEnv, 1, fun h => h.commitment + 2 * h.capX + 3, fun _ _ i p => p + i⟩

/-- The draws of the concrete case -/
def refreshCaseDraws (i : Nat) : Draws Nat (ZMod 11) := ⟨Toy.auxDraws i, fun n => (n + i : ℕ), fun j => (3 * i + j : ℕ), fun j => (i + 5 * j : ℕ)⟩

private theorem toyStart' (i : Nat) (hi : i ∈ ({1, 2, 3} : Finset Nat)) : ∃ c, start refreshCaseEnv ({1, 2, 3} : Finset Nat) 7 i (refreshCaseDraws i) = .ok c :=
  (C38_start refreshCaseEnv 2 {1, 2, 3} 7 i (refreshCaseDraws i) (Toy.auxDraws_valid i (by simp at hi; omega))).1 hi

/-- All hypotheses of C38 can be met: the three parties start, and when everyone's messages are delivered in the order of the ids they all end with
share changes that add up to zero. -/
theorem refreshCaseRun : ∃ (ctx : Nat → Context Nat (ZMod 11) (ZMod 11) Nat) (in1 : Nat → List (Nat × (Nat × Nat × Hashed Nat (ZMod 11))))
    (in2 : Nat → List (Nat × Msg2 Nat (ZMod 11))) (in3 : Nat → List (Nat × Msg3 Nat (ZMod 11))) (changes : Nat → KeyShareChange Nat (ZMod 11) (ZMod 11))
    (infos : Nat → AuxInfo Nat PaillierKey PublicAux),
    (∀ i ∈ ({1, 2, 3} : Finset Nat), start refreshCaseEnv {1, 2, 3} 7 i (refreshCaseDraws i) = .ok (ctx i)) ∧
    (∀ i, FromOthers {1, 2, 3} i (fun j => msg2 (ctx j)) (in2 i)) ∧
    (∀ i ∈ ({1, 2, 3} : Finset Nat), run refreshCaseEnv refreshCaseHash (ctx i) (in1 i) (in2 i) (in3 i) = .ok (changes i, infos i)) ∧
    ZeroSumChange (1 : ZMod 11) {1, 2, 3} changes ∧ (infos 2).secret.p * (infos 2).secret.q = Toy.primeP * Toy.primeQ := by
  obtain ⟨c1, h1⟩ := toyStart' 1 (by decide)
  have hex : ∀ i, ∃ c, i ∈ ({1, 2, 3} : Finset Nat) → start refreshCaseEnv ({1, 2, 3} : Finset Nat) 7 i (refreshCaseDraws i) = .ok c := by
    intro i
    by_cases hi : i ∈ ({1, 2, 3} : Finset Nat)
    · obtain ⟨c, h⟩ := toyStart' i hi; exact ⟨c, fun _ => h⟩
    · exact ⟨c1, fun h => absurd h hi⟩
  choose ctx hctx using hex
  have hmsgs : ∀ {M : Type} (m : Nat → M) i, FromOthers ({1, 2, 3} : Finset Nat) i m ((bsetIter (({1, 2, 3} : Finset Nat).erase i)).map fun j => (j, m j)) :=
    fun m i => fromOthers_iff.2 (List.Perm.refl _)
  have hlen : ∀ i ∈ ({1, 2, 3} : Finset Nat), (refreshCaseDraws i).aux.rid.length = 3 := fun i _ => rfl
  obtain ⟨r3, m3, hr3, hm3, hfin⟩ := C38_honest_refresh refreshCaseEnv 2 Toy.auxEnv_valid refreshCaseHash {1, 2, 3} 7 refreshCaseDraws
    (fun i hi => Toy.auxDraws_valid i (by simp at hi; omega)) (fun i _ j _ _ => Toy.facDraws_valid i j) 3 hlen ctx hctx
    (fun i => (bsetIter (({1, 2, 3} : Finset Nat).erase i)).map fun j => (j, msg1 refreshCaseHash (ctx j)))
    (fun i => (bsetIter (({1, 2, 3} : Finset Nat).erase i)).map fun j => (j, msg2 (ctx j))) (fun i _ => hmsgs _ i) (fun i _ => hmsgs _ i)
  obtain ⟨changes, infos, hrun, hz, hcons, -⟩ := hfin (fun i => (bsetIter (({1, 2, 3} : Finset Nat).erase i)).map fun j => (j, m3 j i)) fun i _ => hmsgs _ i
  exact ⟨ctx, _, _, _, changes, infos, hctx, fun i => hmsgs _ i, hrun, hz, hcons.secret_matches 2 (by decide)⟩

end Concrete

end Synedrion.Props
