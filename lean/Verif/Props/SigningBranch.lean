import Verif.Spec.SigningBranch
import Verif.Lemmas.SigningAgreement
import Verif.Lemmas.SigningCulprit
import Verif.Lemmas.SigningCheat
import Verif.Lemmas.ToySigningRun

/-!
# C62: signers go the same way after round 3
-/

set_option linter.unusedSectionVars false

namespace Synedrion.Props

open Synedrion Spec Signing

variable {q : Nat} [Fact q.Prime] {I Ep G : Type} [LinearOrder I] [AddCommGroup G] [Module (ZMod q) G] [DecidableEq G]

/-- The way taken is determined by the sums of what was announced. -/
private theorem branch_of_sums {E : Env q I Ep G} {r : Round3 q I Ep G} {payloads : BMap I (Payload3 q G)} {a : After3 q I Ep G}
    (h : finalize3 E r payloads = .ok a) {ids : Finset I} (hids : insert r.ctx.myId payloads.keySet = ids) {delta : I → ZMod q} {capDelta capS : I → G}
    (hown : r.msg.payload = ⟨delta r.ctx.myId, capDelta r.ctx.myId, capS r.ctx.myId⟩)
    (hothers : ∀ i ∈ payloads.keySet, payloads.get? i = some ⟨delta i, capDelta i, capS i⟩) :
    branchOf a = if (∑ i ∈ ids, delta i) • E.C.g ≠ ∑ i ∈ ids, capDelta i then .wrongNonce
      else if ∑ i ∈ ids, capS i ≠ (∑ i ∈ ids, delta i) • verifyingKeyPoint r.ctx.keyShare then .wrongKey else .signatureShares := by
  have hget : ∀ i ∈ ids, (payloads.insert r.ctx.myId r.msg.payload).get? i = some ⟨delta i, capDelta i, capS i⟩ := by
    intro i hi
    rw [BMap.get?_insert]
    split
    · rename_i he; rw [hown, he]
    · rename_i hne
      rw [← hids, Finset.mem_insert] at hi
      exact hothers i (hi.resolve_left hne)
  have hsum : ∀ {M : Type} [AddCommMonoid M] (f : Payload3 q G → M), ((payloads.insert r.ctx.myId r.msg.payload).values.map f).sum =
      ∑ i ∈ ids, f ⟨delta i, capDelta i, capS i⟩ := by
    intro M _ f
    exact sum_values_of (by rw [BMap.keySet_insert, hids]) fun i hi => ⟨_, hget i hi, rfl⟩
  unfold finalize3 at h
  simp only [hsum] at h
  split at h
  · rename_i h1
    cases h
    rw [if_pos h1]; rfl
  · rename_i h1
    rw [if_neg h1]
    split at h
    · rename_i h2
      cases h
      rw [if_pos h2]; rfl
    · rename_i h2
      rw [if_neg h2]
      split at h
      · cases h
      · cases h; rfl

/-- A true statement fixes `Delta`. -/
private theorem deltaTrue_unique {g : G} (hg : g ≠ 0) {e : Echo1 G} {D D' capG : G} (h : DeltaTrue (q := q) g e D capG) (h' : DeltaTrue (q := q) g e D' capG) : D = D' := by
  obtain ⟨k, a, h1, h2, h3⟩ := h
  obtain ⟨k', a', h1', h2', h3'⟩ := h'
  have ha : a = a' := smul_left_injective _ hg (h1.symm.trans h1')
  subst ha
  have hk : k = k' := smul_left_injective _ hg (add_right_cancel (h2.symm.trans h2'))
  subst hk
  rw [h3, h3']

/-- What a party's own message of round 3 says. -/
private theorem own_true {E : Env q I Ep G} {epidOf : BMap I G → BMap I PublicAux → Ep} {message : ZMod q} {keyShare : KeyShare I (ZMod q) G}
    {auxInfo : AuxInfo I PaillierKey PublicAux} {me : I} {d : Draws q I} {r : Round1 q I Ep G} (hr : start E epidOf message keyShare auxInfo me d = .ok r)
    {in1 : List (I × Msg1 q G)} {in2 : List (I × Msg2 q I G)} {r3 : Round3 q I Ep G} (h : toRound3 E r in1 in2 = .ok r3) :
    DeltaTrue (q := q) E.C.g r.echo r3.msg.capDelta r3.capGammaCombined := by
  obtain ⟨hctx, hown⟩ := toRound3_ok h
  refine ⟨r.ctx.d.k, r.ctx.d.a, ?_, ?_, by rw [hown.capDelta, hctx]⟩ <;>
  · unfold start at hr
    split at hr
    · cases hr
    · simp only [Out.bind_eq_ok] at hr
      obtain ⟨_, _, _, _, _, _, _, _, _, _, he⟩ := hr
      cases he
      first | rfl | exact add_comm _ _

/-- The points `Delta` of all parties as seen by one of them -/
private theorem saw_branch {E : Env q I Ep G} (hg : E.C.g ≠ 0) {epidOf : BMap I G → BMap I PublicAux → Ep} {message : ZMod q} {keyShare : KeyShare I (ZMod q) G}
    {auxInfo : AuxInfo I PaillierKey PublicAux} {me : I} (hme : me ∈ keyShare.pub.keySet) {d : Draws q I} {r : Round1 q I Ep G}
    (hr : start E epidOf message keyShare auxInfo me d = .ok r) {in1 : List (I × Msg1 q G)} {in2 : List (I × Msg2 q I G)} {in3 : List (I × Msg3 q G)}
    {r3 : Round3 q I Ep G} (h3 : toRound3 E r in1 in2 = .ok r3) {a : After3 q I Ep G} (h : toRound4 E r in1 in2 in3 = .ok a) {bc : I → Announced q G}
    (hsaw : Saw E.C.g bc me r r3 in1 in2 in3) :
    ∃ D : I → G, (∀ i ∈ keyShare.pub.keySet, DeltaTrue (q := q) E.C.g (bc i).round1 (D i) (∑ i ∈ keyShare.pub.keySet, (bc i).capGamma)) ∧
      branchOf a = if (∑ i ∈ keyShare.pub.keySet, (bc i).delta) • E.C.g ≠ ∑ i ∈ keyShare.pub.keySet, D i then .wrongNonce
        else if ∑ i ∈ keyShare.pub.keySet, (bc i).capS ≠ (∑ i ∈ keyShare.pub.keySet, (bc i).delta) • verifyingKeyPoint keyShare then .wrongKey
        else .signatureShares := by
  obtain ⟨_, _, hmsg, hid, hks, hall, hoth, hd, _⟩ := start_eq_ok hr
  obtain ⟨r3', payloads, h3', hctx, hown, hc, hf⟩ := toRound4_ok h
  rw [h3] at h3'
  cases Out.ok.inj h3'
  obtain ⟨nd, hto, hkeys, hget⟩ := collect_eq_ok.1 hc
  rw [hoth] at hkeys hto
  have hset : insert me (keyShare.pub.keySet.erase me) = keyShare.pub.keySet := Finset.insert_erase hme
  have hcomb := toRound3_nonce (by rw [hid, hoth]; simp) h3 (fun i => (bc i).capGamma) (by rw [hid]; exact hsaw.own2) hsaw.round2
  rw [hid, hoth, hset] at hcomb
  let D : I → G := fun i => if i = me then r3.msg.capDelta else ((payloads.get? i).map fun p => p.capDelta).getD 0
  have hmem : ∀ i ∈ keyShare.pub.keySet.erase me, ∃ m : Msg3 q G, (i, m) ∈ in3 ∧ payloads.get? i = some m.payload := by
    intro i hi
    rw [← hto, List.mem_toFinset, List.mem_map] at hi
    obtain ⟨⟨j, m⟩, ha, rfl⟩ := hi
    obtain ⟨p, hp, hpg⟩ := hget _ ha
    refine ⟨m, ha, ?_⟩
    unfold recv3 at hp
    obtain ⟨_, _, hp⟩ := Out.bind_eq_ok.1 hp
    split at hp
    · cases hp
    · cases hp; exact hpg
  refine ⟨D, ?_, ?_⟩
  · intro i hi
    by_cases him : i = me
    · subst him
      simp only [D, if_pos]
      rw [hsaw.own1, ← hcomb]
      exact own_true hr h3
    · obtain ⟨m, hm, hp⟩ := hmem i (Finset.mem_erase.2 ⟨him, hi⟩)
      simp only [D, if_neg him, hp, Option.map_some, Option.getD_some]
      rw [← hcomb]
      exact hsaw.proofs _ hm
  · have hmyid : r3.ctx.myId = me := by rw [hctx, hid]
    have hb := branch_of_sums hf (ids := keyShare.pub.keySet) (by rw [hkeys, hmyid, hset]) (delta := fun i => (bc i).delta) (capDelta := D)
      (capS := fun i => (bc i).capS) ?_ ?_
    · rw [hctx, hks] at hb
      exact hb
    · simp only [hmyid, D, if_true, hsaw.own3.1, hsaw.own3.2]; rfl
    · intro i hi
      rw [hkeys] at hi
      obtain ⟨m, hm, hp⟩ := hmem i hi
      have hne := (Finset.mem_erase.1 hi).1
      simp only [D, if_neg hne, hp, Option.map_some, Option.getD_some, ← hsaw.delta _ hm, ← hsaw.capS _ hm]; rfl

/-- **C62 (partly).** Two holders of the same public shares that end round 3, and that saw the same broadcasts, go the same way: both send signature shares, or both go
to the same error round. Their views have to agree about the values `S` of round 3 too, and the proofs about the values `Delta`, which may differ, have to be about true
statements.

What is missing: agreement about `S` is not ensured, because `S` is not part of the echo broadcast, and nothing is proved about it in round 3. So the full property, without
this hypothesis, is false: `C62_signers_split`. -/
theorem C62_same_way_partial (E : Env q I Ep G) (hg : E.C.g ≠ 0) (epidOf epidOf' : BMap I G → BMap I PublicAux → Ep) (message message' : ZMod q)
    (keyShare keyShare' : KeyShare I (ZMod q) G) (hpub : keyShare'.pub = keyShare.pub) (auxInfo auxInfo' : AuxInfo I PaillierKey PublicAux)
    (me me' : I) (hme : me ∈ keyShare.pub.keySet) (hme' : me' ∈ keyShare.pub.keySet) (d d' : Draws q I) (r r' : Round1 q I Ep G)
    (hr : start E epidOf message keyShare auxInfo me d = .ok r) (hr' : start E epidOf' message' keyShare' auxInfo' me' d' = .ok r')
    (in1 in1' : List (I × Msg1 q G)) (in2 in2' : List (I × Msg2 q I G)) (in3 in3' : List (I × Msg3 q G)) (r3 r3' : Round3 q I Ep G)
    (h3 : toRound3 E r in1 in2 = .ok r3) (h3' : toRound3 E r' in1' in2' = .ok r3') (a a' : After3 q I Ep G)
    (h : toRound4 E r in1 in2 in3 = .ok a) (h' : toRound4 E r' in1' in2' in3' = .ok a')
    (bc : I → Announced q G) (hsaw : Saw E.C.g bc me r r3 in1 in2 in3) (hsaw' : Saw E.C.g bc me' r' r3' in1' in2' in3') :
    branchOf a = branchOf a' := by
  obtain ⟨D, hD, hb⟩ := saw_branch hg hme hr h3 h hsaw
  obtain ⟨D', hD', hb'⟩ := saw_branch hg (by rw [hpub]; exact hme') hr' h3' h' hsaw'
  unfold verifyingKeyPoint at hb hb'
  rw [hpub] at hD' hb'
  have hsum : ∑ i ∈ keyShare.pub.keySet, D' i = ∑ i ∈ keyShare.pub.keySet, D i :=
    Finset.sum_congr rfl fun i hi => (deltaTrue_unique hg (hD' i hi) (hD i hi))
  rw [hb, hb', hsum]

/-- The end of round 3, if one of the points `S` that are received is wrong. -/
private theorem finalize3_wrongS {S : Run q I Ep G} {sk : ZMod q} (good : S.Good sk) {o : I → I → MtaOut q G × MtaOut q G} {i cheater : I} (hi : i ∈ S.ids)
    (hch : cheater ∈ S.ids) (hne : i ≠ cheater) (T : G) (hT : T ≠ 0) :
    ∃ rErr, finalize3 S.E (S.r3 o i) (BMap.tabulate (S.ids.erase i) fun j =>
      (if j = cheater then { S.msg3 j with capS := (S.msg3 j).capS + T } else S.msg3 j).payload) = .ok (.error rErr) ∧ rErr.hat = true := by
  let f : I → Msg3 q G := fun j => if j = cheater then { S.msg3 j with capS := (S.msg3 j).capS + T } else S.msg3 j
  unfold Signing.finalize3
  have hown : (S.r3 o i).msg.payload = (f i).payload := by simp only [f, if_neg hne]; rfl
  have hins : (BMap.tabulate (S.ids.erase i) fun j => (f j).payload).insert (S.r3 o i).ctx.myId (S.r3 o i).msg.payload =
      BMap.tabulate S.ids fun j => (f j).payload := by rw [hown]; exact BMap.insert_tabulate_erase hi fun j => (f j).payload
  have hs : ∀ {M : Type} [AddCommMonoid M] (h : Payload3 q G → M), ((BMap.tabulate S.ids fun j => (f j).payload).values.map h).sum =
      ∑ j ∈ S.ids, h (f j).payload := by
    intro M _ h; rw [BMap.values_tabulate, List.map_map, sum_bsetIter]; rfl
  have e1 : ∑ j ∈ S.ids, (f j).payload.delta = S.gammaAll * S.kAll := by
    rw [← S.sum_delta]
    refine Finset.sum_congr rfl fun j _ => ?_
    simp only [f]; split <;> rfl
  have e2 : ∑ j ∈ S.ids, (f j).payload.capDelta = (S.gammaAll * S.kAll) • S.E.C.g := by
    have : ∑ j ∈ S.ids, (f j).payload.capDelta = ∑ j ∈ S.ids, (S.d j).k • S.capGammaAll := by
      refine Finset.sum_congr rfl fun j _ => ?_
      simp only [f]; split <;> rfl
    rw [this, ← Finset.sum_smul]
    show S.kAll • S.gammaAll • S.E.C.g = _
    rw [smul_smul, mul_comm]
  have e3 : ∑ j ∈ S.ids, (f j).payload.capS = (S.gammaAll * S.kAll) • verifyingKeyPoint (S.r3 o i).ctx.keyShare + T := by
    have : ∑ j ∈ S.ids, (f j).payload.capS = ∑ j ∈ S.ids, (S.chi j • S.capGammaAll + if j = cheater then T else 0) := by
      refine Finset.sum_congr rfl fun j _ => ?_
      simp only [f]
      split
      · rfl
      · rw [add_zero]; rfl
    rw [this, Finset.sum_add_distrib, Finset.sum_ite_eq' S.ids cheater, if_pos hch]
    congr 1
    show ∑ j ∈ S.ids, S.chi j • S.capGammaAll = (S.gammaAll * S.kAll) • verifyingKeyPoint (S.shares i)
    rw [← Finset.sum_smul, good.sum_chi, good.key_eq hi]
    show (sk * S.kAll) • S.gammaAll • S.E.C.g = _
    rw [smul_smul, smul_smul]; congr 1; ring
  have hins' := hins
  simp only [f] at hins'
  simp only [hins']
  have hs1 := hs (fun p => p.delta)
  have hs2 := hs (fun p => p.capDelta)
  have hs3 := hs (fun p => p.capS)
  simp only [f] at hs1 hs2 hs3 e1 e2 e3
  rw [hs1, hs2, hs3, e1, e2, e3, if_neg (by simp), if_pos (by simpa using hT)]
  exact ⟨_, rfl, rfl⟩

/-- **C62 is false of the code: signers can be split.** All parties of `ids` have matching key shares and auxiliary info. All of them follow the protocol, only that in
round 3 the party `cheater` sends a wrong `S` to the parties in `deceived`, and the right one to the others; its echo broadcasts are the same for everybody. Then every party
in `deceived` goes to the second error round, and every other party goes on to round 4. No message was rejected, so nobody is blamed, and no party can finish: those in round 4
need the signature shares of all others, which the deceived parties do not send (last part, for whatever else they get); those in the error round need the proofs of all others.
(The nonce and the masked nonce must not be zero, which holds except with negligible probability.) -/
theorem C62_signers_split (E : Env q I Ep G) (hE : SigningSetting E) (epidOf : BMap I G → BMap I PublicAux → Ep) (message sk : ZMod q)
    (ids : Finset I) (shares : I → KeyShare I (ZMod q) G) (hshares : SharesKey E.C.g ids shares sk) (infos : I → AuxInfo I PaillierKey PublicAux) (setup : I → RPSetup)
    (haux : UsableAux E.P ids infos setup) (d : I → Draws q I)
    (hd : SigningDrawsValid E.P ids (fun i => (infos i).secret.modulus) (fun i => (setup i).modulus) d)
    (r1 : I → Round1 q I Ep G) (hst : ∀ i ∈ ids, start E epidOf message (shares i) (infos i) i (d i) = .ok (r1 i))
    (hk : ∑ i ∈ ids, (d i).k ≠ 0) (hgamma : ∑ i ∈ ids, (d i).gamma ≠ 0)
    (cheater : I) (hch : cheater ∈ ids) (deceived : Finset I) (hdec : deceived ⊆ ids.erase cheater) (T : G) (hT : T ≠ 0) :
    ∃ (m1 : I → I → Msg1 q G) (r2 : I → Round2 q I Ep G) (r3 : I → Round3 q I Ep G),
      (∀ i ∈ ids, ∀ j ∈ ids, i ≠ j → msg1 E (r1 i) j = .ok (m1 i j)) ∧
      ∀ in1 : I → List (I × Msg1 q G), (∀ i ∈ ids, FromOthers ids i (fun j => m1 j i) (in1 i)) →
        (∀ i ∈ ids, toRound2 E (r1 i) (in1 i) = .ok (r2 i)) ∧
        ∀ in2 : I → List (I × Msg2 q I G), (∀ i ∈ ids, FromOthers ids i (fun j => msg2 (r2 j)) (in2 i)) →
          (∀ i ∈ ids, toRound3 E (r1 i) (in1 i) (in2 i) = .ok (r3 i)) ∧
          ∀ in3 : I → List (I × Msg3 q G),
            (∀ i ∈ ids, FromOthers ids i (fun j => if j = cheater ∧ i ∈ deceived then { (r3 j).msg with capS := (r3 j).msg.capS + T } else (r3 j).msg) (in3 i)) →
            (∀ i ∈ ids, i ≠ cheater → ∃ a, toRound4 E (r1 i) (in1 i) (in2 i) (in3 i) = .ok a ∧
              branchOf a = if i ∈ deceived then .wrongKey else .signatureShares) ∧
            ∀ i ∈ ids \ deceived, i ≠ cheater → ∀ j ∈ deceived, ∀ (in4 : List (I × ZMod q)) (inErr : List (I × MsgErr I G)), (∀ a ∈ in4, a.1 ≠ j) →
              run E (r1 i) (in1 i) (in2 i) (in3 i) in4 inErr = .err .incomplete := by
  obtain ⟨S, hS⟩ : ∃ S, S = honest E epidOf message ids shares infos setup d := ⟨_, rfl⟩
  have good : S.Good sk := hS ▸ honest_good E hE epidOf message sk ids shares hshares infos setup haux d hd
  have hr1 : ∀ i ∈ ids, r1 i = S.r1 i := by
    intro i hi
    have h := hst i hi
    rw [honest_start E hE epidOf message sk ids shares hshares infos setup haux d hi] at h
    rw [hS]; exact (Out.ok.inj h).symm
  have hids : S.ids = ids := by rw [hS]; rfl
  have hSE : S.E = E := by rw [hS]; rfl
  have hne : S.gammaAll * S.kAll ≠ 0 := mul_ne_zero (by rw [hS]; exact hgamma) (by rw [hS]; exact hk)
  obtain ⟨m1, o, ho, hm1, hrounds⟩ := Run.good_rounds good
  clear hS
  subst hids hSE
  refine ⟨m1, S.r2 o, S.r3 o, ?_, ?_⟩
  · intro i hi j hj hij
    rw [hr1 i hi]; exact (hm1 i hi j hj hij).sent
  intro in1 h1
  obtain ⟨t2, hr3⟩ := hrounds in1 h1
  refine ⟨fun i hi => by rw [hr1 i hi]; exact t2 i hi, fun in2 h2 => ?_⟩
  have t3 : ∀ i ∈ S.ids, toRound3 S.E (r1 i) (in1 i) (in2 i) = .ok (S.r3 o i) := fun i hi => by rw [hr1 i hi]; exact hr3 in2 h2 i hi
  refine ⟨t3, fun in3 h3 => ?_⟩
  -- the messages of round 3 are accepted, with whatever `S`
  have hrecv : ∀ (j i : I) (X : G), j ∈ S.ids → recv3 S.E (S.r3 o i) j { S.msg3 j with capS := X } = .ok ({ S.msg3 j with capS := X } : Msg3 q G).payload := by
    intro j i X hj
    have h := Run.recv3_ok (S := S) (o := o) (i := j) (j := i) hj
    unfold recv3 at h ⊢
    simp only [Out.bind_eq_ok] at h
    obtain ⟨p, hp, h⟩ := h
    rw [hp, Out.bind_ok]
    split at h
    · cases h
    · rename_i hv
      exact if_neg hv
  have tdec : ∀ i ∈ deceived, ∃ rErr, toRound4 S.E (r1 i) (in1 i) (in2 i) (in3 i) = .ok (.error rErr) ∧ rErr.hat = true := by
    intro i hi
    have hi' := Finset.mem_erase.1 (hdec hi)
    obtain ⟨rErr, hf, hhat⟩ := finalize3_wrongS good (o := o) hi'.2 hch hi'.1 T hT
    refine ⟨rErr, ?_, hhat⟩
    unfold toRound4
    rw [t3 i hi'.2, Out.bind_ok]
    have hc := collect_others (h3 i hi'.2) (recv := recv3 S.E (S.r3 o i))
      (pl := fun j => (if j = cheater then { S.msg3 j with capS := (S.msg3 j).capS + T } else S.msg3 j).payload) (fun j hj _ => by
        by_cases hjc : j = cheater
        · rw [if_pos ⟨hjc, hi⟩, if_pos hjc]; exact hrecv j i _ hj
        · rw [if_neg (fun h => hjc h.1), if_neg hjc]; exact hrecv j i (S.msg3 j).capS hj)
    refine (congrArg (fun x => Out.bind x _) hc).trans ?_
    rw [Out.bind_ok, hf]; rfl
  have toth : ∀ i ∈ S.ids, i ∉ deceived → toRound4 S.E (r1 i) (in1 i) (in2 i) (in3 i) = .ok (.round4 (S.r4 i)) := by
    intro i hi hid
    unfold toRound4
    rw [t3 i hi, Out.bind_ok]
    have hc := collect_others (h3 i hi) (recv := recv3 S.E (S.r3 o i)) (pl := fun j => (S.msg3 j).payload) (fun j hj _ => by
        rw [if_neg (fun h => hid h.2)]; exact hrecv j i (S.msg3 j).capS hj)
    refine (congrArg (fun x => Out.bind x _) hc).trans ?_
    rw [Out.bind_ok, good.finalize3 hi, if_neg hne]; rfl
  refine ⟨fun i hi hic => ?_, fun i hi hic j hj in4 inErr h4 => ?_⟩
  · by_cases hid : i ∈ deceived
    · obtain ⟨rErr, hr, hhat⟩ := tdec i hid
      refine ⟨_, hr, ?_⟩
      rw [if_pos hid]
      unfold branchOf
      simp only [hhat, if_true]
    · exact ⟨_, toth i hi hid, by rw [if_neg hid]; rfl⟩
  · obtain ⟨hi1, hi2⟩ := Finset.mem_sdiff.1 hi
    unfold run
    rw [toth i hi1 hi2, Out.bind_ok]
    unfold last
    simp only
    have hc : collect (S.r4 i).ctx.otherIds (recv4 S.E (S.r4 i)) in4 = .err .incomplete := by
      unfold collect
      refine if_neg ?_
      rintro ⟨-, hto⟩
      have hjm : j ∈ (S.r4 i).ctx.otherIds := by
        show j ∈ S.ids.erase i
        refine Finset.mem_erase.2 ⟨?_, (Finset.mem_erase.1 (hdec hj)).2⟩
        rintro rfl; exact hi2 hj
      rw [← hto, List.mem_toFinset, List.mem_map] at hjm
      obtain ⟨a, ha, haj⟩ := hjm
      exact h4 a ha haj
    rw [hc]; rfl

section Examples

attribute [local instance] Toy.fact11 Toy.order11

private theorem toyStart {infos : Nat → AuxInfo Nat PaillierKey PublicAux} (haux : UsableAux Toy.signEnv.P Toy.parties infos Toy.ringPedersen) :
    ∃ r1 : Nat → Round1 11 Nat Nat (ZMod 11), ∀ i ∈ Toy.parties,
      start Toy.signEnv (fun _ _ => 7) (5 : ZMod 11) (Toy.signShares i) (infos i) i (Toy.signDraws i) = .ok (r1 i) :=
  ⟨_, fun _ hi => honest_start Toy.signEnv Toy.signEnv_setting _ 5 6 Toy.parties Toy.signShares Toy.signShares_valid infos Toy.ringPedersen haux Toy.signDraws hi⟩

/-- Of three parties with 256-bit Paillier keys, party 3 deceives party 2: party 1 waits in round 4, party 2 in the error round. -/
example : ∃ (infos : Nat → AuxInfo Nat PaillierKey PublicAux) (r1 : Nat → Round1 11 Nat Nat (ZMod 11)) (in1 : Nat → List (Nat × Msg1 11 (ZMod 11)))
    (in2 : Nat → List (Nat × Msg2 11 Nat (ZMod 11))) (in3 : Nat → List (Nat × Msg3 11 (ZMod 11))) (a : Nat → After3 11 Nat Nat (ZMod 11)),
    (∀ i ∈ Toy.parties, start Toy.signEnv (fun _ _ => 7) (5 : ZMod 11) (Toy.signShares i) (infos i) i (Toy.signDraws i) = .ok (r1 i)) ∧
    (∀ i, i = 1 ∨ i = 2 → toRound4 Toy.signEnv (r1 i) (in1 i) (in2 i) (in3 i) = .ok (a i)) ∧
    branchOf (a 1) = .signatureShares ∧ branchOf (a 2) = .wrongKey := by
  obtain ⟨infos, haux, hmod⟩ := Toy.exists_signInfos
  have hd : SigningDrawsValid Toy.signEnv.P Toy.parties (fun i => (infos i).secret.modulus) (fun i => (Toy.ringPedersen i).modulus) Toy.signDraws := by
    rw [funext hmod]; exact Toy.signDraws_valid
  obtain ⟨r1, hr1⟩ := toyStart haux
  obtain ⟨m1, r2, r3, -, hrun⟩ := C62_signers_split Toy.signEnv Toy.signEnv_setting (fun _ _ => 7) 5 6 Toy.parties Toy.signShares
    Toy.signShares_valid infos Toy.ringPedersen haux Toy.signDraws hd r1 hr1 (by decide +kernel) (by decide +kernel) 3 (by decide) {2} (by decide) 4 (by decide)
  obtain ⟨-, hrun⟩ := hrun (fun i => Toy.arrivals (fun j => m1 j i) i) (fun i _ => Toy.arrivals_fromOthers _ i)
  obtain ⟨-, hrun⟩ := hrun (fun i => Toy.arrivals (fun j => msg2 (r2 j)) i) (fun i _ => Toy.arrivals_fromOthers _ i)
  obtain ⟨h4, -⟩ := hrun (fun i => Toy.arrivals (fun j => if j = 3 ∧ i ∈ ({2} : Finset Nat) then { (r3 j).msg with capS := (r3 j).msg.capS + 4 } else (r3 j).msg) i)
    (fun i _ => Toy.arrivals_fromOthers _ i)
  obtain ⟨a1, h1, hb1⟩ := h4 1 (by decide) (by decide)
  obtain ⟨a2, h2, hb2⟩ := h4 2 (by decide) (by decide)
  refine ⟨infos, r1, fun i => Toy.arrivals (fun j => m1 j i) i, fun i => Toy.arrivals (fun j => msg2 (r2 j)) i,
    fun i => Toy.arrivals (fun j => if j = 3 ∧ i ∈ ({2} : Finset Nat) then { (r3 j).msg with capS := (r3 j).msg.capS + 4 } else (r3 j).msg) i,
    fun i => if i = 1 then a1 else a2, hr1, ?_, hb1, hb2⟩
  rintro i (rfl | rfl)
  · exact h1
  · exact h2

/-- If all three are honest, then party 1 and party 2 see the same broadcasts, so that they meet the hypotheses of `C62_same_way_partial`. -/
example : ∃ (infos : Nat → AuxInfo Nat PaillierKey PublicAux) (r1 : Nat → Round1 11 Nat Nat (ZMod 11)) (r3 : Nat → Round3 11 Nat Nat (ZMod 11))
    (in1 : Nat → List (Nat × Msg1 11 (ZMod 11))) (in2 : Nat → List (Nat × Msg2 11 Nat (ZMod 11))) (in3 : Nat → List (Nat × Msg3 11 (ZMod 11)))
    (a : Nat → After3 11 Nat Nat (ZMod 11)) (bc : Nat → Announced 11 (ZMod 11)), (Toy.signShares 2).pub = (Toy.signShares 1).pub ∧
    ∀ i ∈ Toy.parties, start Toy.signEnv (fun _ _ => 7) (5 : ZMod 11) (Toy.signShares i) (infos i) i (Toy.signDraws i) = .ok (r1 i) ∧
      i ∈ (Toy.signShares 1).pub.keySet ∧ toRound3 Toy.signEnv (r1 i) (in1 i) (in2 i) = .ok (r3 i) ∧ toRound4 Toy.signEnv (r1 i) (in1 i) (in2 i) (in3 i) = .ok (a i) ∧
      Saw Toy.signEnv.C.g bc i (r1 i) (r3 i) (in1 i) (in2 i) (in3 i) := by
  obtain ⟨infos, S, m1, o, haux, -, -, good, hSE, hSi, hSd, hSs, ho, hst, hm1, h2, h3⟩ := Toy.signRun
  have hne : S.gammaAll * S.kAll ≠ 0 := by
    unfold Run.gammaAll Run.kAll
    rw [hSi, hSd]; decide +kernel
  have h4 : ∀ i ∈ Toy.parties, toRound4 Toy.signEnv (S.r1 i) (Toy.arrivals (fun j => m1 j i) i) (Toy.arrivals (fun j => msg2 (S.r2 o j)) i)
      (Toy.arrivals S.msg3 i) = .ok (.round4 (S.r4 i)) := by
    intro i hi
    unfold toRound4
    rw [h3 i hi, Out.bind_ok, ← hSE]
    have hc := collect_others (ids := S.ids) (i := i) (by rw [hSi]; exact Toy.arrivals_fromOthers S.msg3 i) (recv := recv3 S.E (S.r3 o i))
      (pl := fun j => (S.msg3 j).payload) (fun j hj _ => Run.recv3_ok hj)
    refine (congrArg (fun x => Out.bind x _) hc).trans ?_
    rw [Out.bind_ok, good.finalize3 (hSi ▸ hi), if_neg hne]; rfl
  refine ⟨infos, S.r1, S.r3 o, fun i => Toy.arrivals (fun j => m1 j i) i, fun i => Toy.arrivals (fun j => msg2 (S.r2 o j)) i, Toy.arrivals S.msg3, _,
    fun i => ⟨S.echo i, (S.d i).gamma • Toy.signEnv.C.g, S.delta i, S.chi i • S.capGammaAll⟩, rfl, fun i hi =>
    ⟨hst i hi, by rw [Toy.signShares_valid.holders 1 (by decide)]; exact hi, h3 i hi, h4 i hi, ?_, ?_, ?_, ?_, ?_, rfl, rfl, rfl, rfl⟩⟩
  all_goals
    intro a ha
    obtain ⟨j, hj, rfl⟩ := List.mem_map.1 ha
    obtain ⟨hne, hj'⟩ := Finset.mem_erase.1 (mem_bsetIter.1 hj)
  · have h := (hm1 j hj' i hi hne).sent
    unfold msg1 at h
    simp only [Out.bind_eq_ok] at h
    obtain ⟨_, _, _, _, _, _, _, _, _, _, he⟩ := h
    exact congrArg Msg1.echo (Out.ok.inj he).symm
  · rw [← hSE]; rfl
  · rfl
  · rfl
  · refine ⟨(S.d j).k, (S.d j).a, ?_, ?_, rfl⟩
    · rw [← hSE]; rfl
    · rw [← hSE]; exact add_comm _ _

end Examples

end Synedrion.Props
