import Verif.Lemmas.SigningErrPanics
import Verif.Lemmas.ToySigningRun
import Verif.Props.Session
import Verif.Props.SigningHonest

/-!
# C47 and C48 for interactive signing: which messages make a party panic, and the order of the messages
-/

set_option linter.unusedSectionVars false

namespace Synedrion.Props

open Spec Signing

variable {q : Nat} [Fact q.Prime] {I Ep G : Type} [LinearOrder I] [AddCommGroup G] [Module (ZMod q) G] [DecidableEq G]

/-- **C47 (signing, partial).** Full property: no message of a peer makes a party panic. Proved, for a party whose key share and auxiliary info are well-formed
(so in particular the ring-Pedersen parameters of all parties), for whole runs, including the error rounds: it can be made to panic only by a round 1 message whose
ciphertext `K` is not invertible, or a round 2 message with a ciphertext `F` that is not invertible. `herr` says that the draws for an error round, if there is one, are
valid, and that the number of parties is within the bounds of `C51_bounds`. That a point cannot be serialized is not seen here, see `C58_signing_identity_panics`. -/
theorem C47_signing_partial (E : Env q I Ep G) (hE : SigningSetting E) (epidOf : BMap I G → BMap I PublicAux → Ep) (message sk : ZMod q)
    (ids : Finset I) (shares : I → KeyShare I (ZMod q) G) (hshares : SharesKey E.C.g ids shares sk) (infos : I → AuxInfo I PaillierKey PublicAux) (setup : I → RPSetup)
    (haux : UsableAux E.P ids infos setup) (d : I → Draws q I)
    (hd : SigningDrawsValid E.P ids (fun i => (infos i).secret.modulus) (fun i => (setup i).modulus) d) (me : I) (hme : me ∈ ids)
    (r : Round1 q I Ep G) (hst : start E epidOf message (shares me) (infos me) me (d me) = .ok r)
    (in1 : List (I × Msg1 q G)) (in2 : List (I × Msg2 q I G)) (in3 : List (I × Msg3 q G)) (in4 : List (I × ZMod q))
    (inErr : List (I × MsgErr I G)) (herr : ∀ rErr, toRound4 E r in1 in2 in3 = .ok (.error rErr) → ∃ c, FewParties E.P ids.card c ∧
      ErrorDrawsValid E (ids.erase me) (infos me).secret.modulus (fun j => (infos j).secret.modulus) c (d me))
    (h : run E r in1 in2 in3 in4 inErr = .panic) :
    (∃ a ∈ in1, ¬ Nat.Coprime a.2.echo.capK (infos a.1).secret.modulus) ∨
    ∃ a ∈ in2, ∃ id w, (a.2.echo.capFs.get? id = some w ∨ a.2.echo.hatCapFs.get? id = some w) ∧ ¬ Nat.Coprime w (infos a.1).secret.modulus := by
  have : NeZero q := ⟨(Fact.out : q.Prime).ne_zero⟩
  obtain ⟨S, hS⟩ : ∃ S, S = honest E epidOf message ids shares infos setup d := ⟨_, rfl⟩
  have good : S.Good sk := hS ▸ honest_good E hE epidOf message sk ids shares hshares infos setup haux d hd
  have hids : S.ids = ids := by rw [hS]; rfl
  have hSE : S.E = E := by rw [hS]; rfl
  have hN : ∀ i, S.N i = (infos i).secret.modulus := fun i => by rw [hS]; rfl
  have hr : r = S.r1 me := by
    have := honest_start E hE epidOf message sk ids shares hshares infos setup haux d hme
    rw [hst] at this
    rw [hS]; exact Out.ok.inj this
  subst hSE
  rw [← hids] at hme
  clear hst
  subst hr
  by_contra hno
  push Not at hno
  obtain ⟨hno1, hno2⟩ := hno
  simp only [← hN] at hno1 hno2
  have hfin : ∀ {α : Type} {x : Out LocalErr α}, (finalizeResult x : Out (Abort I (Err I)) α) = .panic → x = .panic := by
    intro α x hx; cases x with
    | ok a => cases hx
    | err e => cases hx
    | panic => rfl
  -- round 1
  have hsend : send1 S.E (S.r1 me) ≠ .panic := by
    unfold send1
    refine mapM'_ne_panic fun j hj => ?_
    obtain ⟨hne, hj⟩ := Finset.mem_erase.1 (mem_bsetIter.1 hj)
    obtain ⟨m, hm⟩ := good.sent1 hme hj (Ne.symm hne)
    rw [hm.sent]
    simp [finalizeResult]
  have hrecv1 : ∀ j m, recv1 S.E (S.ctx me) j m ≠ .panic := by
    intro j m
    unfold recv1
    refine Out.bind_ne_panic ofOption_ne_panic fun mine hmine => Out.bind_ne_panic ofOption_ne_panic fun theirs _ => ?_
    have hv : mine.rp.rp.Valid := by
      simp only [recvGet, Run.ctx, Run.pubAux, BMap.get?_tabulate, hme, if_true, Out.ofOption_some, Out.ok.injEq] at hmine
      rw [← hmine]; exact good.rpValid me hme
    refine Out.bind_ne_panic (encElg_ne_panic good.setting.order _ _ _ _ hv _) fun ok0 _ => ?_
    split
    · simp
    · refine Out.bind_ne_panic (encElg_ne_panic good.setting.order _ _ _ _ hv _) fun ok1 _ => ?_
      split <;> simp
  have hget : ∀ {payloads j p}, collect (S.ids.erase me) (recv1 S.E (S.ctx me)) in1 = .ok payloads → j ∈ S.ids.erase me →
      payloads.get? j = some p → ∃ K : Ct (S.N j), p.capK = ⟨S.N j, K⟩ ∧ IsUnit K := by
    intro payloads j p hc hj hp
    obtain ⟨m, p', hm, hr, hg⟩ := collect_mem hc hj
    rw [hg] at hp
    cases hp
    unfold recv1 at hr
    simp only [Out.bind_eq_ok] at hr
    obtain ⟨mine, _, theirs, ht, ok0, _, hr⟩ := hr
    simp only [recvGet, Run.ctx, Run.pubAux, BMap.get?_tabulate, (Finset.mem_erase.1 hj).2, if_true, Out.ofOption_some, Out.ok.injEq] at ht
    split at hr
    · cases hr
    · obtain ⟨ok1, _, hr⟩ := Out.bind_eq_ok.1 hr
      split at hr
      · cases hr
      · cases hr
        rw [← ht]
        exact ⟨_, rfl, isUnit_ctOfWire (hno1 _ hm)⟩
  have hfin1 : ∀ payloads, collect (S.ids.erase me) (recv1 S.E (S.ctx me)) in1 = .ok payloads → finalize1 S.E (S.r1 me) payloads ≠ .panic := by
    intro payloads hc
    unfold Signing.finalize1
    simp only [signedOfSecret_ok good.setting, Out.bind_ok]
    refine Out.bind_ne_panic ofOption_ne_panic fun capX hX => Out.bind_ne_panic (buildMap_ne_panic fun j hj => ?_) fun _ _ => by simp
    refine Out.bind_ne_panic ofOption_ne_panic fun target ht => Out.bind_ne_panic ofOption_ne_panic fun p hp => ?_
    obtain ⟨hne, hjm⟩ := Finset.mem_erase.1 hj
    simp only [finGet, Run.r1, Run.ctx, Run.pubAux, BMap.get?_tabulate, hjm, if_true, Out.ofOption_some, Out.ok.injEq] at ht
    simp only [finGet, Out.ofOption_eq_ok, BMap.get?_insert] at hp
    rw [if_neg (show ¬ j = (S.r1 me).ctx.myId from hne)] at hp
    obtain ⟨K, hK, hu⟩ := hget hc hj hp
    simp only [finGet, Run.r1, Run.ctx, good.keys.public_matches me hme me hme, Out.ofOption_some, Out.ok.injEq] at hX
    subst ht hX
    rw [hK]
    have hkeys : MtaKeys S.E.P (S.N j) (S.N me) (S.setup j) := ⟨good.pos hjm, good.pos hme, good.rpPos j hjm, good.rpSize j hjm, good.rpValid j hjm⟩
    obtain ⟨o1, h1⟩ := mtaSend_unit good.setting (c := (S.r1 me).ctx) (target := ⟨S.N j, S.setup j⟩) hkeys hu (S.d me).gamma (S.d me).mta j
      (good.draws.mta me hme j hjm (Ne.symm hne))
    obtain ⟨o2, h2⟩ := mtaSend_unit good.setting (c := (S.r1 me).ctx) (target := ⟨S.N j, S.setup j⟩) hkeys hu (S.shares me).secret (S.d me).hatMta j
      (good.draws.hatMta me hme j hjm (Ne.symm hne))
    refine Out.bind_ne_panic (fun hp => ?_) fun _ _ => Out.bind_ne_panic (fun hp => ?_) fun _ _ => by simp
    · exact absurd (h1.symm.trans hp) (by simp)
    · exact absurd (h2.symm.trans hp) (by simp)
  have ht2 : toRound2 S.E (S.r1 me) in1 ≠ .panic := by
    unfold toRound2
    refine Out.bind_ne_panic hsend fun _ _ => Out.bind_ne_panic (fun hp => ?_) fun payloads hc => fun hp => hfin1 payloads hc (hfin hp)
    obtain ⟨a, _, ha⟩ := collect_eq_panic hp
    exact hrecv1 _ _ ha
  -- round 2
  have hver : ∀ {r2 : Round2 q I Ep G} (_ : toRound2 S.E (S.r1 me) in1 = .ok r2) {j : I} (_ : j ∈ S.ids) {m : Msg2 q I G}
      {capX : Out (RecvErr (Err I)) G} (_ : capX ≠ .panic) {failed psis capDs capFs},
      (∀ id w, capFs.get? id = some w → Nat.Coprime w (S.N j)) → mtaVerify S.E r2.ctx r2.payloads1 j (S.N j) capX failed psis capDs capFs ≠ .panic := by
    intro r2 h2 j hj m capX hcap failed psis capDs capFs hF
    obtain ⟨payloads, hc, hctx, hpl, -⟩ := toRound2_state good.setting h2
    unfold mtaVerify
    refine traverse_ne_panic fun id psi _ => Out.bind_ne_panic ofOption_ne_panic fun target ht => Out.bind_ne_panic ofOption_ne_panic fun p hp =>
      Out.bind_ne_panic ofOption_ne_panic fun dd _ => Out.bind_ne_panic ofOption_ne_panic fun f hf => Out.bind_ne_panic hcap fun x _ => ?_
    rw [hctx] at ht
    have hidm : id ∈ S.ids := by
      by_contra hn
      simp [recvGet, Run.r1, Run.ctx, Run.pubAux, BMap.get?_tabulate, hn, Out.ofOption] at ht
    simp only [recvGet, Run.r1, Run.ctx, Run.pubAux, BMap.get?_tabulate, hidm, if_true, Out.ofOption_some, Out.ok.injEq] at ht
    subst ht
    simp only [recvGet, Out.ofOption_eq_ok] at hp hf
    obtain ⟨K, hK, hu⟩ : ∃ K : Ct (S.N id), p.capK = ⟨S.N id, K⟩ ∧ IsUnit K := by
      rw [hpl, BMap.get?_insert] at hp
      by_cases hid : id = me
      · subst hid
        rw [if_pos (show id = (S.r1 id).ctx.myId from rfl)] at hp
        cases hp
        obtain ⟨U, hU⟩ := (good.capK_holds hme).unit
        have : ((S.r1 id).echo.payload (S.r1 id).ctx.key.modulus).capK = ⟨S.N id, S.capK id⟩ := congrArg Payload1.capK (good.payload_eq hme)
        exact ⟨_, this.trans hU, U.isUnit⟩
      · rw [if_neg (show ¬ id = (S.r1 me).ctx.myId from hid)] at hp
        exact hget hc (Finset.mem_erase.2 ⟨hid, hidm⟩) hp
    refine Out.bind_ne_panic ?_ fun ok _ => by split <;> simp
    unfold affGVerify
    rw [hK]
    simp only [Cipher.ofWire, Cipher.under_self, Out.bind_ok]
    exact affG_ne_panic good.setting.order _ _ _ _ hu (isUnit_ctOfWire (hF id f hf)) (good.rpValid id hidm) _
  have hdec : ∀ w, ((S.key me).decryptCipher S.E.P (.ofWire (S.N me) w) : Out (RecvErr (Err I)) _) ≠ .panic := by
    intro w
    unfold PaillierKey.decryptCipher
    simp only [Cipher.ofWire, Run.N, Cipher.under_self, Out.bind_ok]
    exact decrypt_ne_panic (good.key me hme) (good.size me hme) good.setting.consistent.2.1.2.2.1 _
  have hrecv2 : ∀ r2, toRound2 S.E (S.r1 me) in1 = .ok r2 → ∀ a ∈ in2, recv2 S.E r2 a.1 a.2 ≠ .panic := by
    intro r2 h2 a ha
    obtain ⟨payloads, hc, hctx, hpl, -⟩ := toRound2_state good.setting h2
    unfold recv2
    refine Out.bind_ne_panic ofOption_ne_panic fun theirs ht => ?_
    rw [hctx] at ht
    have hjm : a.1 ∈ S.ids := by
      by_contra hn
      simp [recvGet, Run.r1, Run.ctx, Run.pubAux, BMap.get?_tabulate, hn, Out.ofOption] at ht
    simp only [recvGet, Run.r1, Run.ctx, Run.pubAux, BMap.get?_tabulate, hjm, if_true, Out.ofOption_some, Out.ok.injEq] at ht
    subst ht
    simp only
    split
    · simp
    split
    · simp
    split
    · simp
    have hlook : ∀ {dfs : BMap I (Cipher × Cipher)} {capX failed psis capDs capFs df},
        mtaVerify S.E r2.ctx r2.payloads1 a.1 (S.N a.1) capX failed psis capDs capFs = .ok dfs → dfs.get? r2.ctx.myId = some df →
        ((r2.ctx.key).decryptCipher S.E.P df.1 : Out (RecvErr (Err I)) _) ≠ .panic := by
      intro dfs capX failed psis capDs capFs df hv hg
      obtain ⟨_, h⟩ := mtaVerify_state hv
      obtain ⟨target, w, f, ht, _, _, rfl⟩ := h _ _ hg
      rw [hctx] at ht ⊢
      simp only [Run.r1, Run.ctx, Run.pubAux, BMap.get?_tabulate, hme, if_true, Option.some.injEq] at ht
      subst ht
      exact hdec w
    refine Out.bind_ne_panic ofOption_ne_panic fun p _ => Out.bind_ne_panic
      (hver h2 hjm (m := a.2) (by simp) fun id w hw => hno2 a ha id w (Or.inl hw)) fun dfs hdfs => Out.bind_ne_panic
      (hver h2 hjm (m := a.2) ofOption_ne_panic fun id w hw => hno2 a ha id w (Or.inr hw)) fun hatDfs hhat => ?_
    split
    · simp
    refine Out.bind_ne_panic ofOption_ne_panic fun df hdf => Out.bind_ne_panic (hlook hdfs (Out.ofOption_eq_ok.1 hdf)) fun _ _ =>
      Out.bind_ne_panic ofOption_ne_panic fun hdf hhdf => Out.bind_ne_panic (hlook hhat (Out.ofOption_eq_ok.1 hhdf)) fun _ _ => by simp
  have ht3 : toRound3 S.E (S.r1 me) in1 in2 ≠ .panic := by
    unfold toRound3
    refine Out.bind_ne_panic ht2 fun r2 h2 => Out.bind_ne_panic (fun hp => ?_) fun payloads _ => fun hp => ?_
    · obtain ⟨a, ha, hp⟩ := collect_eq_panic hp
      exact hrecv2 r2 h2 a ha hp
    · have := hfin hp
      unfold finalize2 at this
      exact Out.bind_ne_panic ofOption_ne_panic (fun _ _ => by simp) this
  -- round 3
  have ht4 : toRound4 S.E (S.r1 me) in1 in2 in3 ≠ .panic := by
    unfold toRound4
    refine Out.bind_ne_panic ht3 fun r3 _ => Out.bind_ne_panic (fun hp => ?_) fun payloads _ => fun hp => ?_
    · obtain ⟨a, ha, hp⟩ := collect_eq_panic hp
      unfold recv3 at hp
      refine Out.bind_ne_panic ofOption_ne_panic (fun _ _ => ?_) hp
      split <;> simp
    · have := hfin hp
      unfold Signing.finalize3 at this
      simp only at this
      split at this
      · cases this
      · split at this
        · cases this
        · split at this <;> cases this
  -- round 4
  unfold run at h
  refine Out.bind_ne_panic ht4 (fun r4 h4 => ?_) h
  cases r4 with
  | error r =>
    obtain ⟨c, hfew, hdr⟩ := herr r h4
    obtain ⟨hctx, hkeyed, ⟨capK, hs⟩, hsel⟩ := keyed_state good hme hno1 hno2 h4
    have hNf : (fun j => (infos j).secret.modulus) = S.N := funext fun j => (hN j).symm
    have hdm : d me = S.d me := by rw [hS]; rfl
    rw [hNf, ← hN, ← hids, hdm] at hdr
    have hd' : OwnDraws S.E r (fun i => ⟨S.N i, S.setup i⟩) c := by
      have ho : r.ctx.otherIds = S.ids.erase me := by rw [hctx]; rfl
      have hk : r.ctx.key.modulus = S.N me := by rw [hctx]; rfl
      rcases hsel with ⟨e1, e2, e3⟩ | ⟨e1, e2, e3⟩
      · refine ⟨?_, ?_, ?_, ?_, ?_, ?_, ?_⟩ <;> simp only [ho, hk, e1, e2, e3]
        · exact fun j hj => (hdr.beta j hj).1
        · exact fun j hj => (hdr.r j hj).1
        · exact fun j hj => (hdr.s j hj).1
        · exact hdr.dec.1
        · exact fun j hj => (hdr.star j hj).1
        · exact fun t => (hdr.decCount t).1
        · exact fun t j hj => (hdr.starCount t j hj).1
      · refine ⟨?_, ?_, ?_, ?_, ?_, ?_, ?_⟩ <;> simp only [ho, hk, e1, e2, e3]
        · exact fun j hj => (hdr.beta j hj).2
        · exact fun j hj => (hdr.r j hj).2
        · exact fun j hj => (hdr.s j hj).2
        · exact hdr.dec.2
        · exact fun j hj => (hdr.star j hj).2
        · exact fun t => (hdr.decCount t).2
        · exact fun t j hj => (hdr.starCount t j hj).2
    have hmsg : msgErr S.E r ≠ .panic := msgErr_ne_panic good.setting hkeyed hs hd' (by rw [hctx, ← hids] at *; exact hfew)
      (by rw [hctx]; exact good.key me hme) (by rw [hctx]; exact good.size me hme)
    unfold last
    refine Out.bind_ne_panic (fun hp => hmsg (hfin hp)) fun _ _ => Out.bind_ne_panic (fun hp => ?_) fun _ _ => fun hp => ?_
    · obtain ⟨a, ha, hp⟩ := collect_eq_panic hp
      exact recvErr_ne_panic hkeyed _ _ hp
    · have := hfin hp
      cases this
  | round4 r4 =>
    unfold last
    refine Out.bind_ne_panic (fun hp => ?_) (fun payloads _ => fun hp => ?_)
    · obtain ⟨a, ha, hp⟩ := collect_eq_panic hp
      unfold recv4 at hp
      refine Out.bind_ne_panic ofOption_ne_panic (fun _ _ => Out.bind_ne_panic ofOption_ne_panic fun _ _ => ?_) hp
      split <;> simp
    · exact ofOption_ne_panic (hfin hp)

/-- **C47 is false of signing (round 1).** Any participant can make every other participant panic with a single message: its ciphertext `K` is 0, with forged proofs
that are accepted (`C53_enc_elg_forgery`), and multiplying it by the party's non-zero `gamma` panics. This needs nothing of the other parties' messages but that
they are accepted. -/
theorem C47_signing_zero_ciphertext (E : Env q I Ep G) (hE : SigningSetting E) (epidOf : BMap I G → BMap I PublicAux → Ep) (message : ZMod q)
    (keyShare : KeyShare I (ZMod q) G) (auxInfo : AuxInfo I PaillierKey PublicAux) (me : I) (d : Draws q I) (hnew : Signing.new keyShare auxInfo = .ok ())
    (r : Round1 q I Ep G) (hst : start E epidOf message keyShare auxInfo me d = .ok r) (hmem : me ∈ keyShare.pub.keySet) (hgamma : d.gamma ≠ 0)
    (bad : I) (hbad : bad ∈ keyShare.pub.keySet) (hne : bad ≠ me) (hpk : ∀ a, auxInfo.pub.get? bad = some a → 1 < a.pk) :
    ∃ m : Msg1 q G, m.echo.capK = 0 ∧ ∀ in1, (in1.map Prod.fst).Nodup → (in1.map Prod.fst).toFinset = keyShare.pub.keySet.erase me → (bad, m) ∈ in1 →
      (∀ a ∈ in1, a.1 ≠ bad → ∃ p, recv1 E r.ctx a.1 a.2 = .ok p) → toRound2 E r in1 = .panic := by
  have : NeZero q := ⟨(Fact.out : q.Prime).ne_zero⟩
  obtain ⟨-, -, -, hid, hks, hall, hoth, hdr, -, hkey⟩ := start_eq_ok hst
  obtain ⟨hpks, hpre⟩ := start_pubAux hst
  have hkeys : keyShare.pub.keySet = auxInfo.pub.keySet := by
    unfold Signing.new at hnew
    split at hnew
    · cases hnew
    · split at hnew
      · cases hnew
      · rename_i h; simpa using h
  have hall : ∀ j ∈ keyShare.pub.keySet, ∃ b, r.ctx.pubAux.get? j = some b := by
    intro j hj
    rw [hkeys, ← hpks, BMap.mem_keySet, BMap.mem_keys_iff] at hj
    exact hj
  obtain ⟨mine, hmine⟩ := hall me hmem
  obtain ⟨theirs, htheirs⟩ := hall bad hbad
  obtain ⟨a, ha, hb⟩ := hpre _ _ htheirs
  have hpk1 : 1 < theirs.pk := by rw [(precompute_ok hb).1]; exact hpk a ha
  have hNh : 0 < mine.rp.modulus := by
    obtain ⟨a', ha', hb'⟩ := hpre _ _ hmine
    unfold precompute at hb'
    simp only [Out.bind_eq_ok] at hb'
    obtain ⟨_, _, rp, hrp, he⟩ := hb'
    cases he
    unfold RPParamsWire.toPrecomputed publicModulusNew at hrp
    show 0 < a'.rp.modulus
    split at hrp
    · omega
    · cases hrp
  have hL : 0 < E.P.L := hE.curve
  have h1L : 1 < 2 ^ E.P.L := Nat.one_lt_two_pow (by omega)
  obtain ⟨psi, hpsi⟩ := C53_enc_elg_forgery (ε := RecvErr (Err I)) hE.consistent hE.curve hE.order E.encH E.C.g (show 0 < theirs.pk by omega) hNh mine.rp.rp
    (r.ctx.epid, bad) (ctOfWire theirs.pk 0) E.C.g 1 1 h1L h1L 1 1
  refine ⟨⟨⟨0, 0, E.C.g, (1 : ZMod q) • E.C.g, ((1 : Nat) : ZMod q) • E.C.g + (1 : ZMod q) • E.C.g, (1 : ZMod q) • E.C.g,
    ((1 : Nat) : ZMod q) • E.C.g + (1 : ZMod q) • E.C.g⟩, psi, psi⟩, rfl, fun in1 nd ex hm hacc => ?_⟩
  have hrecv : recv1 E r.ctx bad ⟨⟨0, 0, E.C.g, (1 : ZMod q) • E.C.g, ((1 : Nat) : ZMod q) • E.C.g + (1 : ZMod q) • E.C.g, (1 : ZMod q) • E.C.g,
    ((1 : Nat) : ZMod q) • E.C.g + (1 : ZMod q) • E.C.g⟩, psi, psi⟩ = .ok ⟨.ofWire theirs.pk 0, E.C.g, (1 : ZMod q) • E.C.g,
      ((1 : Nat) : ZMod q) • E.C.g + (1 : ZMod q) • E.C.g, (1 : ZMod q) • E.C.g, ((1 : Nat) : ZMod q) • E.C.g + (1 : ZMod q) • E.C.g⟩ := by
    unfold recv1
    simp only [recvGet, hid, hmine, htheirs, Out.ofOption_some, Out.bind_ok]
    refine (congrArg (fun o => Out.bind o _) hpsi).trans ?_
    rw [Out.bind_ok, if_neg (by simp)]
    refine (congrArg (fun o => Out.bind o _) hpsi).trans ?_
    rw [Out.bind_ok, if_neg (by simp)]
    rfl
  -- neither success nor an error is possible
  cases hres : toRound2 E r in1 with
  | panic => rfl
  | ok r2 =>
    exfalso
    obtain ⟨payloads, hc, hctx, hpl, -, hko, houts⟩ := toRound2_state hE hres
    have hbo : bad ∈ r2.outs.keySet := by rw [hko, hoth]; exact Finset.mem_erase.2 ⟨hne, hbad⟩
    rw [BMap.mem_keySet, BMap.mem_keys_iff] at hbo
    obtain ⟨o, ho⟩ := hbo
    obtain ⟨target, p, capX, ht, hp, -, h1, -⟩ := houts bad o ho
    rw [htheirs] at ht
    cases ht
    rw [hpl, BMap.get?_insert, if_neg (by rw [hid]; exact hne)] at hp
    obtain ⟨-, -, -, hg⟩ := collect_eq_ok.1 hc
    obtain ⟨p', hp', hg⟩ := hg _ hm
    rw [hrecv] at hp'
    cases hp'
    rw [hg] at hp
    cases hp
    rw [hdr] at h1
    have hzero : ¬ IsUnit (ctOfWire theirs.pk 0) := by
      unfold ctOfWire
      rw [Nat.cast_zero]
      have : Fact (1 < theirs.pk ^ 2) := ⟨Nat.one_lt_pow (by norm_num) hpk1⟩
      exact not_isUnit_zero
    have := mtaSend_not_unit (c := r.ctx) hE hpk1 hzero hgamma (d.gamma • E.C.g) d.mta bad
    exact absurd (h1.symm.trans this) (by simp)
  | err e =>
    exfalso
    have hc : ∀ {α : Type} {x : Out Empty α} {y : Out LocalErr α}, Out.cast LocalErr x = y → ∀ e, y ≠ .err e := by
      intro α x y h e he
      rcases Out.ok_or_panic_of_cast h with h | ⟨a, h⟩ <;> rw [h] at he <;> cases he
    have hfin : ∀ {α : Type} {x : Out LocalErr α}, (∀ e, x ≠ .err e) → ∀ e, (finalizeResult x : Out (Abort I (Err I)) α) ≠ .err e := by
      intro α x hx e he; cases x with
      | ok a => cases he
      | err e => exact hx e rfl
      | panic => cases he
    have hb : ∀ {ε α β : Type} {x : Out ε α} {f : α → Out ε β}, (∀ e, x ≠ .err e) → (∀ a, x = .ok a → ∀ e, f a ≠ .err e) → ∀ e, x.bind f ≠ .err e := by
      intro ε α β x f hx hf e
      cases x with
      | ok a => exact hf a rfl e
      | err e' => exact absurd rfl (hx e')
      | panic => intro h; cases h
    have hothers : ∀ j ∈ r.ctx.otherIds, ∃ b, r.ctx.pubAux.get? j = some b := fun j hj => hall j (Finset.mem_of_mem_erase (hoth ▸ hj))
    have hsend : ∀ e, send1 E r ≠ .err e := by
      intro e he
      obtain ⟨j, hj, hje⟩ := Out.mapM'_eq_err he
      obtain ⟨b, hbj⟩ := hothers j (mem_bsetIter.1 hj)
      revert hje
      refine hb (hfin ?_) (by simp) e
      unfold msg1
      simp only [signedOfSecret_ok hE, finGet, hbj, Out.ofOption_some, Out.bind_ok]
      exact hb (hc (EncElgProof.prove_cast (ε := Empty) ..)) fun _ _ => hb (hc (EncElgProof.prove_cast (ε := Empty) ..)) (by simp)
    have hcol : ∃ payloads, collect r.ctx.otherIds (recv1 E r.ctx) in1 = .ok payloads := by
      unfold collect
      rw [if_pos ⟨nd, by rw [hoth]; exact ex⟩]
      obtain ⟨l, hl⟩ := forall₂_of_forall_exists (R := fun (a : I × Msg1 q G) (b : I × Payload1 G) => received a.1 (recv1 E r.ctx a.1 a.2) = .ok b) (l := in1) (by
        intro a ha
        by_cases hab : a.1 = bad
        · rw [List.inj_on_of_nodup_map nd ha hm hab]
          exact ⟨(bad, _), received_eq_ok.2 ⟨hrecv, rfl⟩⟩
        · obtain ⟨p, hp⟩ := hacc a ha hab
          exact ⟨(a.1, p), received_eq_ok.2 ⟨hp, rfl⟩⟩)
      rw [Out.mapM'_eq_ok_iff.2 hl]
      exact ⟨_, rfl⟩
    obtain ⟨payloads, hcol⟩ := hcol
    revert hres
    unfold toRound2
    rw [hcol]
    refine hb hsend (fun _ _ => hfin ?_) e
    unfold finalize1
    simp only [signedOfSecret_ok hE, Out.bind_ok]
    have hX : ∃ X, r.ctx.keyShare.pub.get? r.ctx.myId = some X := by
      rw [hks, hid]
      rw [BMap.mem_keySet, BMap.mem_keys_iff] at hmem
      exact hmem
    obtain ⟨X, hX⟩ := hX
    simp only [finGet, hX, Out.ofOption_some, Out.bind_ok]
    refine hb (hb (fun e he => ?_) (by simp)) (by simp)
    obtain ⟨j, hj, hje⟩ := Out.mapM'_eq_err he
    have hj := mem_bsetIter.1 hj
    obtain ⟨b, hbj⟩ := hothers j hj
    obtain ⟨p, hp⟩ : ∃ p, (payloads.insert r.ctx.myId (r.echo.payload r.ctx.key.modulus)).get? j = some p := by
      rw [BMap.get?_insert]
      split
      · exact ⟨_, rfl⟩
      · obtain ⟨_, p, _, _, hp⟩ := collect_mem hcol hj
        exact ⟨p, hp⟩
    revert hje
    simp only [hbj, hp, Out.ofOption_some, Out.bind_ok]
    exact hb (hb (fun _ => mtaSend_ne_err) fun _ _ => hb (fun _ => mtaSend_ne_err) (by simp)) (by simp) e

/-- A proof for the ciphertext `Y = 0` that makes the verifier panic -/
theorem affG_panic {E : Env q I Ep G} (hE : SigningSetting E) {N0 N1 Nh : Nat} (hN0 : 0 < N0) (hN1 : 1 < N1) (setup : RPParams Nh) (aux : Ep × I) (capC capD : Ct N0) :
    ∃ prf : AffGProof q G, (∃ t, t.aux = aux ∧ prf.e = E.affH t) ∧ (prf.e ≠ 0 → ∀ ε, (prf.verify E.P E.affH E.C.g (⟨capC, capD, ctOfWire N1 0, E.C.g⟩ : AffGPublic N0 N1 G) setup aux : Out ε _) = .panic) := by
  have : NeZero q := ⟨(Fact.out : q.Prime).ne_zero⟩
  obtain ⟨hc0, ⟨hm1, hm2, hm3, hm4, hm5, hm6⟩, hs1, hs2, hs3, hs4, hs5, hs6, hs7⟩ := hE.consistent
  have hL : 0 < E.P.L := hE.curve
  have hLn : E.P.L = E.P.numBits := rfl
  generalize hpub : (⟨capC, capD, ctOfWire N1 0, E.C.g⟩ : AffGPublic N0 N1 G) = pub
  generalize he : E.affH (affGHash 0 E.C.g 0 0 0 0 0 pub setup aux) = e
  have hev : e.val < 2 ^ E.P.L := lt_trans (ZMod.val_lt _) hE.order
  refine ⟨⟨e, 0, E.C.g, 0, 0, 0, 0, 0, ⟨E.P.L + 1, ((1 + e.val : Nat) : Int)⟩, ⟨0, ((0 : Nat) : Int)⟩, ⟨0, 0⟩, ⟨0, 0⟩, 0, 0⟩, ⟨_, rfl, he.symm⟩, fun hne ε => ?_⟩
  have hz : 1 + e.val < 2 ^ (E.P.L + 1) := by rw [pow_succ]; omega
  have hz' : 1 + e.val < 2 ^ (E.P.L + E.P.EPS - 1) := lt_of_lt_of_le hz (Nat.pow_le_pow_right (by norm_num) (by omega))
  have r1 : SInt.inRange ⟨E.P.L + 1, ((1 + e.val : Nat) : Int)⟩ (E.P.L + E.P.EPS) = true := by
    rw [SInt.inRange_eq]
    exact decide_eq_true (natInPm hz')
  have r2 : SInt.inRange ⟨0, ((0 : Nat) : Int)⟩ (E.P.LP + E.P.EPS) = true := by
    rw [SInt.inRange_eq]
    exact decide_eq_true (natInPm (by positivity))
  simp only [AffGProof.verify]
  rw [he, decide_eq_true rfl, Out.check_true, r1, Out.check_true, r2, Out.check_true]
  unfold ctMulPublic
  rw [powPublic_nonneg _ hz, Out.bind_ok, powPublic_scalar hE.order, Out.bind_ok]
  have e1 : ctAdd (pub.capC ^ (1 + e.val)) (encPublic N0 ⟨0, ((0 : Nat) : Int)⟩ 0) = ctAdd (pub.capD ^ e.val) (ctOfWire N0 0) := by
    rw [encPublic_zero hN0]
    unfold ctAdd ctOfWire
    rw [Nat.cast_zero]
    exact (mul_zero _).trans (mul_zero _).symm
  have hcast : scalarOfSigned q ⟨E.P.L + 1, ((1 + e.val : Nat) : Int)⟩ = 1 + e := by
    unfold scalarOfSigned; push_cast; simp
  have e2 : scalarOfSigned q ⟨E.P.L + 1, ((1 + e.val : Nat) : Int)⟩ • E.C.g = E.C.g + e • pub.capX := by
    rw [hcast, ← hpub]; module
  rw [decide_eq_true e1, Out.check_true, decide_eq_true e2, Out.check_true]
  have hzero : ¬ IsUnit (ctOfWire N1 0) := by
    unfold ctOfWire
    rw [Nat.cast_zero]
    have : Fact (1 < N1 ^ 2) := ⟨Nat.one_lt_pow (by norm_num) hN1⟩
    exact not_isUnit_zero
  have hpos : 0 < e.val := Nat.pos_of_ne_zero fun h => hne ((ZMod.val_eq_zero _).1 h)
  have hp : (powPublic pub.capY (signedOfScalar E.P e).neg : Out ε _) = .panic := by
    rw [← hpub]
    refine (C20_non_unit_panics (ε := ε) N1 hN1 _ hzero _ (SInt.neg_fits (signedOfScalar_fits hE.order e)) ?_).2.2 ?_
    · show -((e.val : Nat) : Int) ≠ 0; omega
    · show -((e.val : Nat) : Int) < 0; omega
  rw [hp]
  rfl

/-- **C47 is false of signing (round 2).** In round 2 too: a participant that sends ciphertexts `F = 0` makes the receiver's check of the proofs panic (unless a
challenge, which is the hash of data including the proof, happens to be 0), before it is decided whether the proof is valid. -/
theorem C47_signing_zero_mask (E : Env q I Ep G) (hE : SigningSetting E) (epidOf : BMap I G → BMap I PublicAux → Ep) (message : ZMod q)
    (keyShare : KeyShare I (ZMod q) G) (auxInfo : AuxInfo I PaillierKey PublicAux) (me : I) (d : Draws q I) (hnew : Signing.new keyShare auxInfo = .ok ())
    (r : Round1 q I Ep G) (hst : start E epidOf message keyShare auxInfo me d = .ok r) (hmem : me ∈ keyShare.pub.keySet)
    (hself : ∀ a, auxInfo.pub.get? me = some a → a.pk = auxInfo.secret.modulus)
    (in1 : List (I × Msg1 q G)) (r2 : Round2 q I Ep G) (h2 : toRound2 E r in1 = .ok r2)
    (bad : I) (hbad : bad ∈ keyShare.pub.keySet) (hne : bad ≠ me) (hpk : ∀ a, auxInfo.pub.get? bad = some a → 1 < a.pk) :
    ∃ m : Msg2 q I G, (∀ id w, m.echo.capFs.get? id = some w → w = 0) ∧
      (∀ id psi, m.psis.get? id = some psi → ∃ t, t.aux = (r.ctx.epid, bad) ∧ psi.e = E.affH t) ∧
      ((∀ id psi, m.psis.get? id = some psi → psi.e ≠ 0) → recv2 E r2 bad m = .panic) := by
  have : NeZero q := ⟨(Fact.out : q.Prime).ne_zero⟩
  obtain ⟨-, -, -, hid, hks, hall, hoth, hdr, -, hkey⟩ := start_eq_ok hst
  obtain ⟨hpks, hpre⟩ := start_pubAux hst
  have hkeys : keyShare.pub.keySet = auxInfo.pub.keySet := by
    unfold Signing.new at hnew
    split at hnew
    · cases hnew
    · split at hnew
      · cases hnew
      · rename_i h; simpa using h
  have hget : ∀ j ∈ keyShare.pub.keySet, ∃ b, r.ctx.pubAux.get? j = some b := by
    intro j hj
    rw [hkeys, ← hpks, BMap.mem_keySet, BMap.mem_keys_iff] at hj
    exact hj
  obtain ⟨theirs, htheirs⟩ := hget bad hbad
  obtain ⟨a, ha, hb⟩ := hpre _ _ htheirs
  have hpk1 : 1 < theirs.pk := by rw [(precompute_ok hb).1]; exact hpk a ha
  obtain ⟨hctx, nd, ex, hown, hoths⟩ := toRound2_payloads h2
  have hpay : ∀ j ∈ keyShare.pub.keySet, ∃ b p K, r.ctx.pubAux.get? j = some b ∧ r2.payloads1.get? j = some p ∧ p.capK = ⟨b.pk, K⟩ := by
    intro j hj
    by_cases hjm : j = me
    · subst hjm
      obtain ⟨b, hb⟩ := hget j hj
      obtain ⟨a, ha, hab⟩ := hpre _ _ hb
      refine ⟨b, r.echo.payload r.ctx.key.modulus, ctOfWire _ r.echo.capK, hb, by rw [← hid]; exact hown, ?_⟩
      have : r.ctx.key.modulus = b.pk := by rw [(precompute_ok hab).1, hself a ha, hkey]
      rw [this]; rfl
    · obtain ⟨m, b, _, hb, hp⟩ := hoths j (by rw [hoth]; exact Finset.mem_erase.2 ⟨hjm, hj⟩) (by rw [hid]; exact hjm)
      exact ⟨b, _, _, hb, hp, rfl⟩
  have hpsi : ∀ id, ∃ psi : AffGProof q G, (id ∈ keyShare.pub.keySet → ∃ t, t.aux = (r.ctx.epid, bad) ∧ psi.e = E.affH t) ∧ (id ∈ keyShare.pub.keySet → psi.e ≠ 0 → ∃ b p, r.ctx.pubAux.get? id = some b ∧ r2.payloads1.get? id = some p ∧
      (affGVerify E b.pk theirs.pk psi p.capK (.ofWire b.pk 0) (.ofWire theirs.pk 0) E.C.g b.rp (r.ctx.epid, bad) : Out (RecvErr (Err I)) _) = .panic) := by
    intro id
    by_cases hidm : id ∈ keyShare.pub.keySet
    · obtain ⟨b, p, K, h1, h2, h3⟩ := hpay id hidm
      have hb0 : 0 < b.pk := by
        obtain ⟨a, _, hab⟩ := hpre _ _ h1
        have := precompute_ok hab
        omega
      obtain ⟨psi, ht, hpsi⟩ := affG_panic hE hb0 hpk1 b.rp.rp (r.ctx.epid, bad) K (ctOfWire b.pk 0)
      refine ⟨psi, fun _ => ht, fun _ hne => ⟨b, p, h1, h2, ?_⟩⟩
      unfold affGVerify
      rw [h3]
      simp only [Cipher.ofWire, Cipher.under_self, Out.bind_ok]
      exact hpsi hne _
    · exact ⟨⟨0, 0, 0, 0, 0, 0, 0, 0, ⟨0, 0⟩, ⟨0, 0⟩, ⟨0, 0⟩, ⟨0, 0⟩, 0, 0⟩, fun h => absurd h hidm, fun h => absurd h hidm⟩
  choose psi hpe hpsi using hpsi
  have hgz : ∀ id, id ∈ keyShare.pub.keySet.erase bad → (BMap.tabulate (keyShare.pub.keySet.erase bad) fun _ => 0).get? id = some 0 := by
    intro id hid; rw [BMap.get?_tabulate, if_pos hid]
  refine ⟨⟨⟨E.C.g, BMap.tabulate (keyShare.pub.keySet.erase bad) fun _ => 0, BMap.tabulate (keyShare.pub.keySet.erase bad) fun _ => 0⟩,
    BMap.tabulate (keyShare.pub.keySet.erase bad) fun _ => 0, BMap.tabulate (keyShare.pub.keySet.erase bad) fun _ => 0,
    ElogProof.prove E.elogH E.C.g 0 0 ⟨0, 0, 0, 0, E.C.g⟩ (r.ctx.epid, bad) 0 0, BMap.tabulate (keyShare.pub.keySet.erase bad) psi,
    BMap.tabulate (keyShare.pub.keySet.erase bad) psi⟩, ?_, ?_, ?_⟩
  · intro id w hw
    rw [BMap.get?_tabulate] at hw
    split at hw
    · cases hw; rfl
    · cases hw
  · intro id v hv
    rw [BMap.get?_tabulate] at hv
    split at hv
    · rename_i hidm
      cases hv
      exact hpe id (Finset.mem_of_mem_erase hidm)
    · cases hv
  · intro he
    unfold recv2
    rw [hctx]
    simp only [recvGet, htheirs, hall, BMap.keySet_tabulate, Out.ofOption_some, Out.bind_ok, ne_eq, not_true_eq_false, if_false]
    obtain ⟨_, p, _, _, hp, _⟩ := hpay bad hbad
    rw [hp, Out.ofOption_some, Out.bind_ok]
    have hpanic : mtaVerify E r.ctx r2.payloads1 bad theirs.pk (.ok E.C.g) .r2AffGPsiFailed (BMap.tabulate (keyShare.pub.keySet.erase bad) psi)
        (BMap.tabulate (keyShare.pub.keySet.erase bad) fun _ => 0) (BMap.tabulate (keyShare.pub.keySet.erase bad) fun _ => 0) = .panic := by
      have hme : me ∈ keyShare.pub.keySet.erase bad := Finset.mem_erase.2 ⟨Ne.symm hne, hmem⟩
      unfold mtaVerify
      refine traverse_panic (i := me) (v := psi me) (by rw [BMap.get?_tabulate, if_pos hme]) fun id v hv => ?_
      have hv' := hv
      rw [BMap.get?_tabulate] at hv
      split at hv
      · rename_i hidm
        cases hv
        obtain ⟨b, p, h1, h2, h3⟩ := hpsi id (Finset.mem_of_mem_erase hidm) (he id _ hv')
        simp only [recvGet, h1, h2, hgz id hidm, Out.ofOption_some, Out.bind_ok]
        rw [h3]; rfl
      · cases hv
    rw [hpanic]
    rfl

/-- **C48 (signing).** The order in which messages arrive does not matter: permuting the arrivals within each round gives the same signature. -/
theorem C48_signing_order (E : Env q I Ep G) (r : Round1 q I Ep G) (in1 in1' : List (I × Msg1 q G)) (in2 in2' : List (I × Msg2 q I G))
    (in3 in3' : List (I × Msg3 q G)) (in4 in4' : List (I × ZMod q)) (inErr inErr' : List (I × MsgErr I G)) (h1 : in1.Perm in1') (h2 : in2.Perm in2')
    (h3 : in3.Perm in3') (h4 : in4.Perm in4') (hErr : inErr.Perm inErr') (sig : RecoverableSignature q) :
    run E r in1 in2 in3 in4 inErr = .ok sig ↔ run E r in1' in2' in3' in4' inErr' = .ok sig := by
  have hl : ∀ a sig, last E in4 inErr a = .ok sig ↔ last E in4' inErr' a = .ok sig := by
    intro a sig
    cases a with
    | round4 r => simp only [last, Out.bind_eq_ok, C48_round_order _ _ _ _ h4]
    | error r => simp only [last, Out.bind_eq_ok, C48_round_order _ _ _ _ hErr]
  simp only [run, toRound4, toRound3, toRound2, Out.bind_eq_ok, C48_round_order _ _ _ _ h1, C48_round_order _ _ _ _ h2, C48_round_order _ _ _ _ h3, hl]

/-- **C45 is false of signing (the proofs for the signature share).** A round 2 message that would be accepted, with its `hat_psis` removed, is not accepted, but nobody is
blamed for it: the receiver stops with an error of its own. The code compares the ids in `cap_ds`, `cap_fs` and `psis` with the expected ones, but not those in
`hat_cap_ds`, `hat_cap_fs` and `hat_psis`. -/
theorem C45_signing_hat_ids_unattributed (E : Env q I Ep G) (r : Round2 q I Ep G) (bad : I) (m : Msg2 q I G) (p : Payload2 q I G) (h : recv2 E r bad m = .ok p) :
    recv2 E r bad { m with hatPsis := BMap.empty } = .err (.localErr .missing) := by
  unfold recv2 at h ⊢
  simp only at h ⊢
  obtain ⟨theirs, ht, h⟩ := Out.bind_eq_ok.1 h
  rw [ht, Out.bind_ok]
  split at h
  · cases h
  rename_i c1
  split at h
  · cases h
  rename_i c2
  split at h
  · cases h
  rename_i c3
  rw [if_neg c1, if_neg c2, if_neg c3]
  simp only [Out.bind_eq_ok] at h
  obtain ⟨p1, hp1, dfs, hdfs, hatDfs, hhat, h⟩ := h
  have he : mtaVerify E r.ctx r.payloads1 bad theirs.pk (recvGet r.ctx.keyShare.pub bad) .r2AffGHatPsiFailed BMap.empty m.hatCapDs m.echo.hatCapFs = .ok BMap.empty := rfl
  rw [hp1, Out.bind_ok, hdfs, Out.bind_ok, he, Out.bind_ok]
  split at h
  · cases h
  rename_i c4
  rw [if_neg c4]
  simp only [Out.bind_eq_ok] at h
  obtain ⟨df, hdf, a, ha, -⟩ := h
  rw [hdf, Out.bind_ok, ha, Out.bind_ok]
  rfl

section Examples

attribute [local instance] Toy.fact11 Toy.order11

open Toy (arrivals arrivals_fromOthers mem_arrivals)

/-- `C45_signing_hat_ids_unattributed`: in the run of three parties, party 2 accepts the message of party 1, but stops without blaming it if the proofs are missing -/
example : ∃ (infos : Nat → AuxInfo Nat PaillierKey PublicAux) (r1 : Round1 11 Nat Nat (ZMod 11)) (in1 : List (Nat × Msg1 11 (ZMod 11)))
    (r2 : Round2 11 Nat Nat (ZMod 11)) (m2 : Msg2 11 Nat (ZMod 11)) (p : Payload2 11 Nat (ZMod 11)),
    start Toy.signEnv (fun _ _ => 7) (5 : ZMod 11) (Toy.signShares 2) (infos 2) 2 (Toy.signDraws 2) = .ok r1 ∧ toRound2 Toy.signEnv r1 in1 = .ok r2 ∧
    recv2 Toy.signEnv r2 1 m2 = .ok p ∧ recv2 Toy.signEnv r2 1 { m2 with hatPsis := BMap.empty } = .err (.localErr .missing) := by
  obtain ⟨infos, S, m1, o, haux, -, -, good, hE, hids, hd, hsh, ho, hst, -, h2, -⟩ := Toy.signRun
  have hp1 : 1 ∈ Toy.parties := by decide
  have hp2 : 2 ∈ Toy.parties := by decide
  have hr := good.recv2 ho (i := 1) (j := 2) (hids ▸ hp1) (hids ▸ hp2) (by decide)
  rw [hE] at hr
  exact ⟨infos, _, _, _, _, _, hst 2 hp2, h2 2 hp2, hr, C45_signing_hat_ids_unattributed _ _ _ _ _ hr⟩

private theorem toyPk {infos : Nat → AuxInfo Nat PaillierKey PublicAux} (haux : UsableAux Toy.signEnv.P Toy.parties infos Toy.ringPedersen)
    (hmod : ∀ i, (infos i).secret.modulus = Toy.primeP * Toy.primeQ) {i j : Nat} (hi : i ∈ Toy.parties) (hj : j ∈ Toy.parties) :
    ∀ a, (infos i).pub.get? j = some a → 1 < a.pk := by
  intro a ha
  rw [haux.consistent.public_agree i hi j hj] at ha
  cases ha
  show 1 < (infos j).secret.modulus
  rw [hmod]
  decide +kernel

/-- `C47_signing_zero_ciphertext` and `C47_signing_partial`: party 1 makes party 2 panic, although party 3 is honest; the message has a ciphertext that is not invertible -/
example : ∃ (infos : Nat → AuxInfo Nat PaillierKey PublicAux) (r1 : Round1 11 Nat Nat (ZMod 11)) (in1 : List (Nat × Msg1 11 (ZMod 11))),
    start Toy.signEnv (fun _ _ => 7) (5 : ZMod 11) (Toy.signShares 2) (infos 2) 2 (Toy.signDraws 2) = .ok r1 ∧ in1.map Prod.fst = [1, 3] ∧
    toRound2 Toy.signEnv r1 in1 = .panic ∧ (∀ in2 in3 in4 inErr, run Toy.signEnv r1 in1 in2 in3 in4 inErr = .panic) ∧
    ((∃ a ∈ in1, ¬ Nat.Coprime a.2.echo.capK (infos a.1).secret.modulus) ∨
      ∃ a ∈ ([] : List (Nat × Msg2 11 Nat (ZMod 11))), ∃ id w, (a.2.echo.capFs.get? id = some w ∨ a.2.echo.hatCapFs.get? id = some w) ∧
        ¬ Nat.Coprime w (infos a.1).secret.modulus) := by
  obtain ⟨infos, S, m1, o, haux, hdr, hmod, good, hE, hids, hd, hsh, ho, hst, h1, h2, -⟩ := Toy.signRun
  have hp1 : 1 ∈ Toy.parties := by decide
  have hp2 : 2 ∈ Toy.parties := by decide
  have hp3 : 3 ∈ Toy.parties := by decide
  have hks : (Toy.signShares 2).pub.keySet = Toy.parties := Toy.signShares_valid.holders 2 hp2
  obtain ⟨m, hm, hall⟩ := C47_signing_zero_ciphertext Toy.signEnv Toy.signEnv_setting (fun _ _ => 7) 5 (Toy.signShares 2) (infos 2) 2 (Toy.signDraws 2) (Toy.signNew haux hp2)
    _ (hst 2 hp2) (hks ▸ hp2) (by decide) 1 (hks ▸ hp1) (by decide) (toyPk haux hmod hp2 hp1)
  have hpanic : toRound2 Toy.signEnv (S.r1 2) [(1, m), (3, m1 3 2)] = .panic := by
    refine hall _ (show [1, 3].Nodup by decide) (by rw [hks]; show [1, 3].toFinset = Toy.parties.erase 2; decide) (by simp) fun a ha hne => ?_
    simp only [List.mem_cons, List.not_mem_nil, or_false] at ha
    rcases ha with rfl | rfl
    · exact absurd rfl hne
    · exact ⟨_, hE ▸ (h1 3 hp3 2 hp2 (by decide)).accepted⟩
  have hp4 : ∀ in2 in3, toRound4 Toy.signEnv (S.r1 2) [(1, m), (3, m1 3 2)] in2 in3 = .panic := by
    intro in2 in3
    unfold toRound4 toRound3
    rw [hpanic]
    rfl
  have hrun : ∀ in2 in3 in4 inErr, run Toy.signEnv (S.r1 2) [(1, m), (3, m1 3 2)] in2 in3 in4 inErr = .panic := by
    intro in2 in3 in4 inErr
    unfold run
    rw [hp4]
    rfl
  refine ⟨infos, _, [(1, m), (3, m1 3 2)], hst 2 hp2, rfl, hpanic, hrun, ?_⟩
  exact C47_signing_partial Toy.signEnv Toy.signEnv_setting (fun _ _ => 7) 5 6 Toy.parties Toy.signShares Toy.signShares_valid infos Toy.ringPedersen haux Toy.signDraws hdr 2 hp2
    _ (hst 2 hp2) _ [] [] [] [] (by rw [hp4]; intro _ h; cases h) (hrun _ _ _ _)

/-- `C47_signing_partial`: all its hypotheses are met for party 2 of three, whatever it gets, in particular if it enters an error round -/
example : ∃ (infos : Nat → AuxInfo Nat PaillierKey PublicAux) (r1 : Round1 11 Nat Nat (ZMod 11)),
    start Toy.signEnv (fun _ _ => 7) (5 : ZMod 11) (Toy.signShares 2) (infos 2) 2 (Toy.signDraws 2) = .ok r1 ∧
    ∀ in1 in2 in3 in4 inErr, run Toy.signEnv r1 in1 in2 in3 in4 inErr = .panic → (∃ a ∈ in1, ¬ Nat.Coprime a.2.echo.capK (Toy.primeP * Toy.primeQ)) ∨
      ∃ a ∈ in2, ∃ id w, (a.2.echo.capFs.get? id = some w ∨ a.2.echo.hatCapFs.get? id = some w) ∧ ¬ Nat.Coprime w (Toy.primeP * Toy.primeQ) := by
  obtain ⟨infos, S, m1, o, haux, hdr, hmod, good, hE, hids, hd, hsh, ho, hst, h1, h2, -⟩ := Toy.signRun
  have hp2 : 2 ∈ Toy.parties := by decide
  refine ⟨infos, _, hst 2 hp2, fun in1 in2 in3 in4 inErr h => ?_⟩
  have := C47_signing_partial Toy.signEnv Toy.signEnv_setting (fun _ _ => 7) 5 6 Toy.parties Toy.signShares Toy.signShares_valid infos Toy.ringPedersen haux Toy.signDraws
    hdr 2 hp2 _ (hst 2 hp2) in1 in2 in3 in4 inErr (fun _ _ => ⟨2, Toy.fewParties, by simp only [hmod]; exact Toy.errorDraws_valid 2⟩) h
  simpa only [hmod] using this

/-- `C47_signing_zero_mask`: after an honest first round, party 1 makes party 2 panic in round 2 -/
example : ∃ (infos : Nat → AuxInfo Nat PaillierKey PublicAux) (r1 : Round1 11 Nat Nat (ZMod 11)) (in1 : List (Nat × Msg1 11 (ZMod 11)))
    (r2 : Round2 11 Nat Nat (ZMod 11)) (m2 : Msg2 11 Nat (ZMod 11)),
    start Toy.signEnv (fun _ _ => 7) (5 : ZMod 11) (Toy.signShares 2) (infos 2) 2 (Toy.signDraws 2) = .ok r1 ∧ toRound2 Toy.signEnv r1 in1 = .ok r2 ∧
    recv2 Toy.signEnv r2 1 m2 = .panic := by
  obtain ⟨infos, S, m1, o, haux, hdr, hmod, good, hE, hids, hd, hsh, ho, hst, h1, h2, -⟩ := Toy.signRun
  have hp1 : 1 ∈ Toy.parties := by decide
  have hp2 : 2 ∈ Toy.parties := by decide
  have hks : (Toy.signShares 2).pub.keySet = Toy.parties := Toy.signShares_valid.holders 2 hp2
  obtain ⟨m, -, hchal, hm⟩ := C47_signing_zero_mask Toy.signEnv Toy.signEnv_setting (fun _ _ => 7) 5 (Toy.signShares 2) (infos 2) 2 (Toy.signDraws 2) (Toy.signNew haux hp2)
    _ (hst 2 hp2) (hks ▸ hp2) (Toy.signSelf haux hp2) _ _ (h2 2 hp2) 1 (hks ▸ hp1) (by decide) (toyPk haux hmod hp2 hp1)
  refine ⟨infos, _, _, _, m, hst 2 hp2, h2 2 hp2, hm fun id psi h => ?_⟩
  obtain ⟨t, ht, he⟩ := hchal id psi h
  rw [he]
  show (t.aux.2 : ZMod 11) + 2 ≠ 0
  rw [ht]
  show ((1 : Nat) : ZMod 11) + 2 ≠ 0
  decide

/-- `C48_signing_order`: the three parties get the same signature when the messages arrive in the opposite order -/
example : ∃ (infos : Nat → AuxInfo Nat PaillierKey PublicAux) (r1 : Round1 11 Nat Nat (ZMod 11)) (in1 : List (Nat × Msg1 11 (ZMod 11)))
    (in2 : List (Nat × Msg2 11 Nat (ZMod 11))) (in3 : List (Nat × Msg3 11 (ZMod 11))) (in4 : List (Nat × ZMod 11)) (sig : RecoverableSignature 11),
    start Toy.signEnv (fun _ _ => 7) (5 : ZMod 11) (Toy.signShares 2) (infos 2) 2 (Toy.signDraws 2) = .ok r1 ∧
    run Toy.signEnv r1 in1 in2 in3 in4 [] = .ok sig ∧ run Toy.signEnv r1 in1.reverse in2.reverse in3.reverse in4.reverse [] = .ok sig := by
  obtain ⟨infos, S, -, -, haux, hd, -, -, -, -, -, -, -, hst, -, -, -⟩ := Toy.signRun
  have hp2 : 2 ∈ Toy.parties := by decide
  obtain ⟨sig, m1, r2, r3, -, -, -, -, -, hrun⟩ := C41_honest_signature Toy.signEnv Toy.signEnv_setting (fun _ _ => 7) 5 6 Toy.parties Toy.signShares Toy.signShares_valid
    infos Toy.ringPedersen haux Toy.signDraws hd S.r1 hst (by decide +kernel) (by decide +kernel) (by decide +kernel) (by decide +kernel) (by decide +kernel)
  obtain ⟨-, hrun⟩ := hrun (fun i => arrivals (fun j => m1 j i) i) (fun i _ => arrivals_fromOthers _ i)
  obtain ⟨-, hrun⟩ := hrun (fun i => arrivals (fun j => msg2 (r2 j)) i) (fun i _ => arrivals_fromOthers _ i)
  obtain ⟨r4, -, hrun⟩ := hrun (fun i => arrivals (fun j => (r3 j).msg) i) (fun i _ => arrivals_fromOthers _ i)
  have h := hrun (fun i => arrivals (fun j => (r4 j).sigma) i) (fun _ => []) (fun i _ => arrivals_fromOthers _ i) 2 hp2
  exact ⟨infos, _, _, _, _, _, sig, hst 2 hp2, h, (C48_signing_order _ _ _ _ _ _ _ _ _ _ _ _ (List.reverse_perm _).symm (List.reverse_perm _).symm
    (List.reverse_perm _).symm (List.reverse_perm _).symm (List.Perm.refl _) sig).1 h⟩

end Examples

end Synedrion.Props
