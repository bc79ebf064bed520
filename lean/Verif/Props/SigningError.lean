import Verif.Lemmas.SigningCulprit
import Verif.Lemmas.SigningCheat
import Verif.Lemmas.ToySigning

/-!
# The error rounds of signing

If the sum check after round 3 fails, every party has to show that it is innocent.
-/

set_option linter.unusedSectionVars false

namespace Synedrion.Props

open Spec Signing

variable {q : Nat} [Fact q.Prime] {I Ep G : Type} [LinearOrder I] [AddCommGroup G] [Module (ZMod q) G] [DecidableEq G]

/-- **C51 (the bounds).** For the shipped parameter sets, the bounds on the number of parties that are needed for the error rounds hold for up to `2^29`
parties. -/
theorem C51_bounds (P : Params) (hP : P ∈ [Params.production112, Params.production128, Params.test]) (n : Nat) (h2 : 2 ≤ n) (hn : n ≤ 2 ^ 29) :
    ∃ c, FewParties P n c := by
  obtain ⟨c, _, hc⟩ := C30_interval_width (ε := Unit) n h2
  have hc29 : c ≤ 29 := hc.2 29 hn
  refine ⟨c, h2, hc, ?_, ?_, ?_⟩ <;>
    simp only [List.mem_cons, List.not_mem_nil, or_false] at hP <;>
    rcases hP with rfl | rfl | rfl <;>
    simp only [Params.production112, Params.production128, Params.test, Params.L, Params.kappa, Params.LP, Params.EPS] <;> omega

example : ∃ c, FewParties Params.test 3 c := C51_bounds _ (by simp) 3 (by norm_num) (by norm_num)

/-- **C51 (honest parties can always show their innocence).** Whatever the other parties send in rounds 1 to 3: if an honest party ends up in an error round, then it
does not fail there on its own (no panic, no local error, in particular its decrypted value passes the range check), and its message is accepted by every
party with the same view of the public values. The hypotheses on the other parties are what the proofs that it has accepted are meant to guarantee: their
ciphertexts are invertible, and what they have encrypted for it is in the range of aff-g proofs (`InMtaRange`). -/
theorem C51_honest_survives_error_round {E : Env q I Ep G} (hE : SigningSetting E) (epidOf : BMap I G → BMap I PublicAux → Ep) (message : ZMod q)
    (keyShare : KeyShare I (ZMod q) G) (auxInfo : AuxInfo I PaillierKey PublicAux) (id : I) (d : Draws q I)
    -- the key share and the auxiliary info of the party
    (hmem : id ∈ keyShare.pub.keySet) (hshare : keyShare.pub.get? id = some (keyShare.secret • E.C.g))
    (pk : I → PublicAux) (hpk : ∀ j ∈ keyShare.pub.keySet, auxInfo.pub.get? j = some (pk j)) (hpkMe : (pk id).pk = auxInfo.secret.p * auxInfo.secret.q)
    (hprimes : FullSizePrimes E.P auxInfo.secret.p auxInfo.secret.q) (hkey : (SecretKey.new auxInfo.secret.p auxInfo.secret.q : Out Unit _) = .ok auxInfo.secret.sk)
    -- its draws
    (c : Nat) (hfew : FewParties E.P keyShare.pub.keySet.card c)
    (hd : ErrorDrawsValid E (keyShare.pub.keySet.erase id) (auxInfo.secret.p * auxInfo.secret.q) (fun j => (pk j).pk) c d)
    (r1 : Round1 q I Ep G) (h0 : start E epidOf message keyShare auxInfo id d = .ok r1)
    -- the messages of the others
    (in1 : List (I × Msg1 q G)) (in2 : List (I × Msg2 q I G)) (in3 : List (I × Msg3 q G))
    (hin1 : ∀ j m, (j, m) ∈ in1 → IsUnit (ctOfWire (pk j).pk m.echo.capK))
    (hin2 : ∀ j m, (j, m) ∈ in2 → ∀ w, (m.capDs.get? id = some w ∨ m.hatCapDs.get? id = some w) → InMtaRange E.P (auxInfo.secret.p * auxInfo.secret.q) w)
    (r : ErrRound q I Ep G) (h : toRound4 E r1 in1 in2 in3 = .ok (.error r)) :
    ∃ msg, msgErr E r = .ok msg ∧ ∀ r', SameView r r' → recvErr E r' id msg = .ok () := by
  obtain ⟨hid, hall, hk, pk', k, capK, cd, md, hown, hdraws, hmd⟩ := error_round hE hfew hmem hshare hpk hpkMe hprimes hkey hd h0 hin1 hin2 h
  obtain ⟨msg, h1, h2⟩ := own_ok hE hown hdraws (by rw [hall]; exact hfew) (by rw [hk]; exact hprimes) (by rw [hk]; exact hkey) hmd
  exact ⟨msg, h1, fun r' hv => hid ▸ h2 r' hv⟩

/-- **C52 (there is a culprit).** If a party ends up in an error round, then not all of the statements that have to be proved in rounds 1 to 3 and in the error round
are true: the ciphertexts and points of round 1, 2 and of the error round (`AllTruthful`), and that the `Delta` of every party is the nonce share in its ciphertext times
the combined `Gamma`. So at least one party would have to prove something false.

What is missing: that this party is found, which would need the soundness of the proofs. It is not the case: `C52_dec_proves_any_value`, `C52_cheater_not_found`. -/
theorem C52_culprit_exists_partial {E : Env q I Ep G} (hE : SigningSetting E) (hg : E.C.g ≠ 0) (epidOf : BMap I G → BMap I PublicAux → Ep) (message : ZMod q)
    (keyShare : KeyShare I (ZMod q) G) (auxInfo : AuxInfo I PaillierKey PublicAux) (id : I) (d : Draws q I) (hmem : id ∈ keyShare.pub.keySet)
    (r1 : Round1 q I Ep G) (h0 : start E epidOf message keyShare auxInfo id d = .ok r1)
    (in1 : List (I × Msg1 q G)) (in2 : List (I × Msg2 q I G)) (in3 : List (I × Msg3 q G))
    (r3 : Round3 q I Ep G) (h3 : toRound3 E r1 in1 in2 = .ok r3) (r : ErrRound q I Ep G) (h : toRound4 E r1 in1 in2 in3 = .ok (.error r))
    -- the keys of the parties
    (keys : I → PaillierKey) (hprimes : ∀ i ∈ keyShare.pub.keySet, FullSizePrimes E.P (keys i).p (keys i).q)
    (hkeys : ∀ i ∈ keyShare.pub.keySet, (SecretKey.new (keys i).p (keys i).q : Out Unit _) = .ok (keys i).sk)
    (c : Nat) (hfew : FewParties E.P keyShare.pub.keySet.card c) (k : I → Int) (hk : ((k id : Int) : ZMod q) = d.k) :
    ¬ (AllTruthful E r (fun i => (keys i).p * (keys i).q) c k ∧ ∀ j m, (j, m) ∈ in3 → m.capDelta = ((k j : Int) : ZMod q) • r3.capGammaCombined) := by
  rintro ⟨htrue, hdelta⟩
  obtain ⟨hid, hall, hoth, hks, hdc⟩ : r1.ctx.myId = id ∧ r1.ctx.allIds = keyShare.pub.keySet ∧ r1.ctx.otherIds = keyShare.pub.keySet.erase id ∧
      r1.ctx.keyShare = keyShare ∧ r1.ctx.d = d := by
    unfold start at h0
    split at h0
    · cases h0
    · simp only [Out.bind_eq_ok] at h0
      obtain ⟨pubAux, hp, _, _, capG, hG, _, _, capK, hK, he⟩ := h0
      cases he
      exact ⟨rfl, rfl, rfl, rfl, rfl⟩
  unfold toRound4 at h
  rw [h3, Out.bind_ok] at h
  unfold toRound3 at h3
  simp only [Out.bind_eq_ok, finalizeResult_eq_ok] at h h3
  obtain ⟨p3, hp3, hf3⟩ := h
  obtain ⟨r2, h2, p2, hp2, hf2⟩ := h3
  obtain ⟨p1, hp1, hc2, hpay, hgam, hok, hout⟩ := toRound2_state hE h2
  unfold finalize2 at hf2
  simp only [Out.bind_eq_ok, finGet, Out.ofOption_eq_ok] at hf2
  obtain ⟨pm, hpm, he⟩ := hf2
  cases he
  simp only [hc2, hid, hoth, hdc, hks] at hp3 hf3 hdelta
  have hk2 : p2.keySet = keyShare.pub.keySet.erase id := by rw [← hoth, ← hc2]; exact (collect_eq_ok.1 hp2).2.2.1
  have hk3 : p3.keySet = keyShare.pub.keySet.erase id := (collect_eq_ok.1 hp3).2.2.1
  -- the announced values `Delta`
  generalize hG : ((p2.mapVals fun _ p => p.capGamma).insert id r2.capGamma).values.sum = capGamma at *
  have hD3 : ∀ i ∈ keyShare.pub.keySet.erase id, ∃ p, p3.get? i = some p ∧ p.capDelta = ((k i : Int) : ZMod q) • capGamma := by
    intro i hi
    obtain ⟨m, p, hm, hr, hp⟩ := collect_mem hp3 hi
    refine ⟨p, hp, ?_⟩
    unfold recv3 at hr
    simp only [Out.bind_eq_ok] at hr
    obtain ⟨_, _, hr⟩ := hr
    split at hr
    · cases hr
    · cases hr
      exact hdelta i m hm
  have hsumD : ∀ (v : Payload3 q G), v.capDelta = d.k • capGamma →
      (((p3.insert id v).values.map fun p => p.capDelta).sum = (∑ i ∈ keyShare.pub.keySet, ((k i : Int) : ZMod q)) • capGamma) := by
    intro v hv
    rw [Finset.sum_smul]
    refine sum_values_of (by rw [BMap.keySet_insert, hk3, Finset.insert_erase hmem]) fun i hi => ?_
    rw [BMap.get?_insert]
    by_cases hii : i = id
    · rw [if_pos hii]; exact ⟨v, rfl, by rw [hv, hii, hk]⟩
    · rw [if_neg hii]; exact hD3 i (Finset.mem_erase.2 ⟨hii, hi⟩)
  have hget3 : ∀ (v : Payload3 q G), ∀ i ∈ keyShare.pub.keySet, ∃ p, (p3.insert id v).get? i = some p := by
    intro v i hi
    rw [BMap.get?_insert]
    by_cases hii : i = id
    · rw [if_pos hii]; exact ⟨v, rfl⟩
    · rw [if_neg hii]; exact ⟨_, (hD3 i (Finset.mem_erase.2 ⟨hii, hi⟩)).choose_spec.1⟩
  unfold finalize3 at hf3
  simp only [hid, hdc, hks, hoth] at hf3
  split at hf3
  · rename_i hne
    cases hf3
    apply hne
    obtain ⟨x, s, hx, hs, hsum⟩ := truthful_sum hE hg (keys := keys) (by show FewParties _ r1.ctx.allIds.card _; rw [hall]; exact hfew)
      (by show ∀ i ∈ r1.ctx.allIds, _; rw [hall]; exact hprimes) (by show ∀ i ∈ r1.ctx.allIds, _; rw [hall]; exact hkeys) htrue
    simp only [hall, hks, hid, hdc, hoth] at hx hs hsum
    have hΓ : capGamma = (∑ i ∈ keyShare.pub.keySet, x i) • E.C.g := by
      rw [← hG, Finset.sum_smul]
      have := sum_values_of (m := (p2.mapVals fun _ p => p.capGamma).insert id r2.capGamma) (f := fun v => v) (φ := fun i => x i • E.C.g)
        (by rw [BMap.keySet_insert, BMap.keySet_mapVals, hk2, Finset.insert_erase hmem]) (fun i hi => ⟨_, hx i hi, rfl⟩)
      simpa using this
    refine Eq.trans ?_ (hsumD _ rfl).symm
    refine Eq.trans ?_ (congrArg ((∑ i ∈ keyShare.pub.keySet, ((k i : Int) : ZMod q)) • ·) hΓ).symm
    refine Eq.trans ?_ (smul_smul _ _ _).symm
    rw [← hsum]
    congr 1
    refine sum_values_of (by rw [BMap.keySet_insert, hk3, Finset.insert_erase hmem]) fun i hi => ?_
    obtain ⟨p, hp⟩ := hget3 _ i hi
    refine ⟨p, hp, ?_⟩
    have h1 := hs i hi
    rw [BMap.get?_mapVals, hp] at h1
    exact smul_left_injective _ hg (Option.some.inj h1)
  rename_i heq
  split at hf3
  · rename_i hne
    cases hf3
    apply hne
    obtain ⟨x, s, hx, hs, hsum⟩ := truthful_sum hE hg (keys := keys) (by show FewParties _ r1.ctx.allIds.card _; rw [hall]; exact hfew)
      (by show ∀ i ∈ r1.ctx.allIds, _; rw [hall]; exact hprimes) (by show ∀ i ∈ r1.ctx.allIds, _; rw [hall]; exact hkeys) htrue
    simp only [hall, hks, hid, hdc, hoth] at hx hs hsum
    have hX : verifyingKeyPoint keyShare = (∑ i ∈ keyShare.pub.keySet, x i) • E.C.g := by
      unfold verifyingKeyPoint
      rw [Finset.sum_smul]
      have := sum_values_of (m := keyShare.pub) (f := fun v => v) (φ := fun i => x i • E.C.g) rfl (fun i hi => ⟨_, hx i hi, rfl⟩)
      simpa using this
    rw [not_not] at heq
    rw [hX, smul_comm, heq, hsumD _ rfl, smul_smul, mul_comm (∑ i ∈ keyShare.pub.keySet, x i), ← hsum, Finset.sum_smul]
    refine sum_values_of (by rw [BMap.keySet_insert, hk3, Finset.insert_erase hmem]) fun i hi => ?_
    obtain ⟨p, hp⟩ := hget3 _ i hi
    refine ⟨p, hp, ?_⟩
    have h1 := hs i hi
    rw [BMap.get?_mapVals, hp] at h1
    exact Option.some.inj h1
  split at hf3
  · cases hf3
  · cases hf3

/-- **C52 is false of the code: a cheater that is never found.** All parties of `ids` have matching key shares and auxiliary info, and follow the protocol in rounds 1
and 2. In round 3 the party `cheater` announces a wrong `delta`. So nobody gets a signature, and all parties go to the error round. There the cheater has a message
which every other party accepts, so that all of the others, which follow the protocol, end with a local error, and no party is blamed. This can be repeated forever.
(The cheater's Paillier modulus has to be coprime to the order of the group, which is the case for all key sizes larger than the order.) -/
theorem C52_cheater_not_found (E : Env q I Ep G) (hE : SigningSetting E) (hg : E.C.g ≠ 0) (epidOf : BMap I G → BMap I PublicAux → Ep) (message sk : ZMod q)
    (ids : Finset I) (shares : I → KeyShare I (ZMod q) G) (hshares : SharesKey E.C.g ids shares sk) (infos : I → AuxInfo I PaillierKey PublicAux) (setup : I → RPSetup)
    (haux : UsableAux E.P ids infos setup) (d : I → Draws q I)
    (hd : SigningDrawsValid E.P ids (fun i => (infos i).secret.modulus) (fun i => (setup i).modulus) d) (c : Nat) (hfew : FewParties E.P ids.card c)
    (hderr : ∀ i ∈ ids, ErrorDrawsValid E (ids.erase i) (infos i).secret.modulus (fun j => (infos j).secret.modulus) c (d i))
    (r1 : I → Round1 q I Ep G) (hst : ∀ i ∈ ids, start E epidOf message (shares i) (infos i) i (d i) = .ok (r1 i))
    (cheater : I) (hch : cheater ∈ ids) (hcop : Nat.Coprime (infos cheater).secret.modulus q) (t : ZMod q) (ht : t ≠ 0) :
    ∃ (m1 : I → I → Msg1 q G) (r2 : I → Round2 q I Ep G) (r3 : I → Round3 q I Ep G) (rErr : I → ErrRound q I Ep G) (mErr : I → MsgErr I G),
      (∀ i ∈ ids, ∀ j ∈ ids, i ≠ j → msg1 E (r1 i) j = .ok (m1 i j)) ∧ (∀ i ∈ ids, i ≠ cheater → msgErr E (rErr i) = .ok (mErr i)) ∧
      ∀ in1 : I → List (I × Msg1 q G), (∀ i ∈ ids, FromOthers ids i (fun j => m1 j i) (in1 i)) →
        (∀ i ∈ ids, toRound2 E (r1 i) (in1 i) = .ok (r2 i)) ∧
        ∀ in2 : I → List (I × Msg2 q I G), (∀ i ∈ ids, FromOthers ids i (fun j => msg2 (r2 j)) (in2 i)) →
          (∀ i ∈ ids, toRound3 E (r1 i) (in1 i) (in2 i) = .ok (r3 i)) ∧
          ∀ in3 : I → List (I × Msg3 q G),
            (∀ i ∈ ids, FromOthers ids i (fun j => if j = cheater then { (r3 j).msg with delta := (r3 j).msg.delta + t } else (r3 j).msg) (in3 i)) →
            (∀ i ∈ ids, i ≠ cheater → toRound4 E (r1 i) (in1 i) (in2 i) (in3 i) = .ok (.error (rErr i))) ∧
            ∀ (in4 : I → List (I × ZMod q)) (inErr : I → List (I × MsgErr I G)), (∀ i ∈ ids, FromOthers ids i mErr (inErr i)) →
              ∀ i ∈ ids, i ≠ cheater → run E (r1 i) (in1 i) (in2 i) (in3 i) (in4 i) (inErr i) = .err (.localErr .finalCheck) := by
  obtain ⟨S, hS⟩ : ∃ S, S = honest E epidOf message ids shares infos setup d := ⟨_, rfl⟩
  have good : S.Good sk := hS ▸ honest_good E hE epidOf message sk ids shares hshares infos setup haux d hd
  have hr1 : ∀ i ∈ ids, r1 i = S.r1 i := by
    intro i hi
    have h := hst i hi
    rw [honest_start E hE epidOf message sk ids shares hshares infos setup haux d hi] at h
    rw [hS]; exact (Out.ok.inj h).symm
  have hids : S.ids = ids := by rw [hS]; rfl
  have hSE : S.E = E := by rw [hS]; rfl
  obtain ⟨m1, o, ho, hm1, hrounds⟩ := Run.good_rounds good
  -- the `delta` that are announced
  have hsum : ∀ k ∈ S.ids, ∑ j ∈ S.ids, (S.delta j + if j = k then t else 0) ≠ S.gammaAll * S.kAll := by
    intro k hk
    rw [Finset.sum_add_distrib, S.sum_delta, Finset.sum_ite_eq' S.ids k, if_pos hk]
    intro h
    exact ht (by simpa using h)
  have hbel := fun {delta} => claim_believed E hE epidOf message sk ids shares hshares infos setup haux d hd hg hfew hderr hS ho hm1 hrounds (delta := delta)
  have hch' : cheater ∈ S.ids := hids ▸ hch
  -- the message of the cheater
  obtain ⟨other, hother, hoc⟩ : ∃ k ∈ S.ids, k ≠ cheater := by
    by_contra hcon
    push Not at hcon
    have h2 := hfew.parties
    have h1 : ids.card ≤ 1 := Finset.card_le_one.2 fun a ha b hb => by rw [hcon a (hids ▸ ha), hcon b (hids ▸ hb)]
    omega
  obtain ⟨cheat, hcheat⟩ := (hbel (hsum other hother) hch' (by rw [if_neg (Ne.symm hoc), add_zero])).2 (S.delta cheater + t) hcop
  -- the messages of the others
  have hhon : ∀ i, ∃ m : MsgErr I G, i ∈ S.ids → i ≠ cheater →
      msgErr E (S.errRound o (fun j => S.delta j + if j = cheater then t else 0) i) = .ok m ∧
      ∀ r', SameView (S.errRound o (fun j => S.delta j + if j = cheater then t else 0) i) r' → recvErr E r' i m = .ok () := by
    intro i
    by_cases hi : i ∈ S.ids ∧ i ≠ cheater
    · obtain ⟨m, hm⟩ := (hbel (hsum cheater hch') hi.1 (by rw [if_neg hi.2, add_zero])).1
      exact ⟨m, fun _ _ => hm⟩
    · exact ⟨cheat, fun h1 h2 => absurd ⟨h1, h2⟩ hi⟩
  choose mErr hmErr using hhon
  clear hbel
  clear hS
  subst hids hSE
  refine ⟨m1, S.r2 o, S.r3 o, S.errRound o fun j => S.delta j + if j = cheater then t else 0, fun i => if i = cheater then cheat else mErr i, ?_, ?_, ?_⟩
  · intro i hi j hj hij
    rw [hr1 i hi]; exact (hm1 i hi j hj hij).sent
  · intro i hi hic
    simp only [if_neg hic]; exact (hmErr i hi hic).1
  intro in1 h1
  obtain ⟨t2, hr3⟩ := hrounds in1 h1
  refine ⟨fun i hi => by rw [hr1 i hi]; exact t2 i hi, fun in2 h2 => ?_⟩
  have t3 : ∀ i ∈ S.ids, toRound3 S.E (r1 i) (in1 i) (in2 i) = .ok (S.r3 o i) := fun i hi => by rw [hr1 i hi]; exact hr3 in2 h2 i hi
  refine ⟨t3, fun in3 h3 => ?_⟩
  have t4 : ∀ i ∈ S.ids, i ≠ cheater → toRound4 S.E (r1 i) (in1 i) (in2 i) (in3 i) =
      .ok (.error (S.errRound o (fun j => S.delta j + if j = cheater then t else 0) i)) := by
    intro i hi hic
    refine Run.toRound4_claim hg (hsum cheater hch') hi (by rw [if_neg hic, add_zero]) (t3 i hi) ?_
    have heq : (S.claim fun j => S.delta j + if j = cheater then t else 0) =
        fun j => if j = cheater then { (S.r3 o j).msg with delta := (S.r3 o j).msg.delta + t } else (S.r3 o j).msg := by
      funext j
      unfold Run.claim
      by_cases hj : j = cheater
      · simp only [if_pos hj]; rfl
      · simp only [if_neg hj, add_zero]; rfl
    rw [heq]
    exact h3 i hi
  refine ⟨t4, fun in4 inErr hErr i hi hic => ?_⟩
  unfold run
  rw [t4 i hi hic, Out.bind_ok]
  unfold last
  simp only
  rw [finalizeResult_eq_ok.2 (hmErr i hi hic).1, Out.bind_ok]
  have hc := collect_others (hErr i hi) (recv := recvErr S.E (S.errRound o (fun j => S.delta j + if j = cheater then t else 0) i)) (pl := fun _ => ()) (fun j hj hji => by
    by_cases hjc : j = cheater
    · subst hjc
      rw [if_pos rfl]
      refine hcheat (BMap.tabulate S.ids fun k => (S.delta k + if k = j then t else 0) • S.E.C.g) ?_ _ ⟨rfl, rfl, rfl, rfl, rfl, rfl, rfl, rfl, rfl, rfl⟩
      rw [BMap.get?_tabulate, if_pos hj, if_pos rfl]
    · rw [if_neg hjc]
      exact (hmErr j hj hjc).2 _ ⟨rfl, rfl, rfl, rfl, rfl, rfl, rfl, rfl, rfl, rfl⟩)
  refine (congrArg (fun x => Out.bind x _) hc).trans ?_
  rfl

/-! ### A concrete case -/

section Examples

attribute [local instance] Toy.fact11

private def inOrder {M : Type} (f : Nat → M) (i : Nat) : List (Nat × M) := (bsetIter (Toy.parties.erase i)).map fun j => (j, f j)

private theorem inOrder_fromOthers {M : Type} (f : Nat → M) (i : Nat) : FromOthers Toy.parties i f (inOrder f i) := fromOthers_iff.2 (List.Perm.refl _)

/-- Party 2 of three parties with 256-bit Paillier keys adds 4 to its `delta`. The parties 1 and 3 go to the error round, where they accept all messages. -/
example : ∃ (infos : Nat → AuxInfo Nat PaillierKey PublicAux) (r1 : Nat → Round1 11 Nat Nat (ZMod 11)) (rErr : Nat → ErrRound 11 Nat Nat (ZMod 11))
    (in1 : Nat → List (Nat × Msg1 11 (ZMod 11))) (in2 : Nat → List (Nat × Msg2 11 Nat (ZMod 11))) (in3 : Nat → List (Nat × Msg3 11 (ZMod 11)))
    (inErr : Nat → List (Nat × MsgErr Nat (ZMod 11))),
    (∀ i ∈ Toy.parties, start Toy.signEnv (fun _ _ => 7) (5 : ZMod 11) (Toy.signShares i) (infos i) i (Toy.signDraws i) = .ok (r1 i)) ∧
    ∀ i, i = 1 ∨ i = 3 → toRound4 Toy.signEnv (r1 i) (in1 i) (in2 i) (in3 i) = .ok (.error (rErr i)) ∧
      run Toy.signEnv (r1 i) (in1 i) (in2 i) (in3 i) [] (inErr i) = .err (.localErr .finalCheck) := by
  obtain ⟨infos, haux, hmod⟩ := Toy.exists_signInfos
  have hd : SigningDrawsValid Toy.signEnv.P Toy.parties (fun i => (infos i).secret.modulus) (fun i => (Toy.ringPedersen i).modulus) Toy.signDraws := by
    rw [funext hmod]; exact Toy.signDraws_valid
  have hst' : ∀ i, ∃ r : Round1 11 Nat Nat (ZMod 11), i ∈ Toy.parties →
      start Toy.signEnv (fun _ _ => 7) (5 : ZMod 11) (Toy.signShares i) (infos i) i (Toy.signDraws i) = .ok r := by
    intro i
    by_cases hi : i ∈ Toy.parties
    · exact ⟨_, fun _ => honest_start Toy.signEnv Toy.signEnv_setting _ 5 6 Toy.parties Toy.signShares Toy.signShares_valid infos Toy.ringPedersen haux Toy.signDraws hi⟩
    · exact ⟨(honest Toy.signEnv (fun _ _ => 7) (5 : ZMod 11) Toy.parties Toy.signShares infos Toy.ringPedersen Toy.signDraws).r1 i, fun h => absurd h hi⟩
  choose r1 hr1 using hst'
  obtain ⟨m1, r2, r3, rErr, mErr, -, -, hrun⟩ := C52_cheater_not_found Toy.signEnv Toy.signEnv_setting (by decide +kernel) (fun _ _ => 7) 5 6 Toy.parties Toy.signShares
    Toy.signShares_valid infos Toy.ringPedersen haux Toy.signDraws hd 2 Toy.fewParties (fun i _ => by rw [hmod, funext hmod]; exact Toy.errorDraws_valid i) r1 hr1 2
    (by decide) (by rw [hmod]; decide +kernel) 4 (by decide)
  obtain ⟨-, hrun⟩ := hrun (fun i => inOrder (fun j => m1 j i) i) (fun i _ => inOrder_fromOthers _ i)
  obtain ⟨-, hrun⟩ := hrun (fun i => inOrder (fun j => msg2 (r2 j)) i) (fun i _ => inOrder_fromOthers _ i)
  obtain ⟨h4, hrun⟩ := hrun (fun i => inOrder (fun j => if j = 2 then { (r3 j).msg with delta := (r3 j).msg.delta + 4 } else (r3 j).msg) i)
    (fun i _ => inOrder_fromOthers _ i)
  have hrun := hrun (fun _ => []) (fun i => inOrder mErr i) (fun i _ => inOrder_fromOthers _ i)
  have hp : ∀ i, i = 1 ∨ i = 3 → i ∈ Toy.parties ∧ i ≠ 2 := by rintro i (rfl | rfl) <;> decide
  exact ⟨infos, r1, rErr, _, _, _, _, hr1, fun i hi => ⟨h4 i (hp i hi).1 (hp i hi).2, hrun i (hp i hi).1 (hp i hi).2⟩⟩

end Examples

end Synedrion.Props
