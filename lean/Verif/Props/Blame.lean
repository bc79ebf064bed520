import Verif.Lemmas.Blame
import Verif.Lemmas.SigningEvidence
import Verif.Props.KeyInit
import Verif.Props.AuxGen
import Verif.Props.KeyRefresh
import Verif.Props.KeyResharing

/-!
# C63: honest parties do not accuse each other
-/

set_option linter.unusedSectionVars false

namespace Synedrion.Props

open Spec

variable {I F G Sid V : Type} [LinearOrder I] [Field F] [LinearOrder F] [AddCommGroup G] [Module F G] [DecidableEq G] [DecidableEq V]

private theorem finalizeResult_ne_fault {α Er : Type} {o : Out LocalErr α} {j : I} {e : Er} : (finalizeResult o : Out (Abort I Er) α) ≠ .err (.fault j e) := by
  cases o <;> simp [finalizeResult]

section KeyInit
open KeyInit

/-- **C63 (key generation).** Let `me` and `peer` both follow key generation for the same parties and session. What arrives at `me` in the name of `peer` is what `peer` sent, and
both received the same echo-broadcast random strings. Then `me` does not declare `peer` faulty, whatever the other parties send to either of them. -/
theorem C63_key_init (hashV : Sid → I → PublicData G → V) (H : SchHash G (SchAux I Sid) → F) (g : G) (ids : Finset I) (sid : Sid) (me peer : I) (hne : me ≠ peer)
    (d dP : Draws F) (c cP : Context I F G Sid) (hc : start g ids sid me d = .ok c) (hcP : start g ids sid peer dP = .ok cP)
    (in1 in1P : List (I × V)) (in2 in2P : List (I × Msg2 G)) (in3 : List (I × SchProof F))
    (h1 : OnlyFrom peer (msg1 hashV cP) in1) (h2 : OnlyFrom peer (msg2 cP) in2) (hecho : EchoAgreement Msg2.rho me peer (msg2 c).rho (msg2 cP).rho in2 in2P)
    (h3 : ∀ m, (peer, m) ∈ in3 → ∃ rP, toRound3 hashV cP in1P in2P = .ok rP ∧ m = msg3 H rP) (e : Err) :
    run hashV H g c in1 in2 in3 ≠ .err (.fault peer e) := by
  intro hrun
  have hme : me ∈ ids := by
    by_contra hn; simp [start, hn] at hc
  have hpeer : peer ∈ ids := by
    by_contra hn; simp [start, hn] at hcP
  simp only [start, hme, not_true_eq_false, if_false, Out.ok.injEq] at hc
  simp only [start, hpeer, not_true_eq_false, if_false, Out.ok.injEq] at hcP
  subst hc hcP
  unfold run at hrun
  rcases Out.bind_eq_err.1 hrun with hr | ⟨r3, hr3, hrun⟩
  · unfold toRound3 at hr
    rcases Out.bind_eq_err.1 hr with hr | ⟨capVs, hv, hr⟩
    · obtain ⟨m, -, hm⟩ := collect_eq_fault hr
      cases hm
    · rcases Out.bind_eq_err.1 hr with hr | ⟨pls, -, hr⟩
      · obtain ⟨m, hm, hrecv⟩ := collect_eq_fault hr
        obtain rfl := h2 m hm
        obtain ⟨-, ex, -, al⟩ := collect_eq_ok.1 hv
        unfold recv2 recvGet at hrecv
        cases hg : capVs.get? peer with
        | none => rw [hg] at hrecv; simp at hrecv
        | some v =>
          obtain ⟨x, p, hx, hp, hgx⟩ := collect_mem hv (j := peer) (Finset.mem_erase.2 ⟨hne.symm, hpeer⟩)
          cases hp
          rw [hg] at hgx
          cases hgx
          obtain rfl := h1 v hx
          rw [hg] at hrecv
          simp [msg2, msg1] at hrecv
      · simp only [finalize2] at hr
        rcases Out.bind_eq_err.1 hr with hr | ⟨_, -, hr⟩
        · exact xorAll_ne_err hr
        · cases hr
  · rcases Out.bind_eq_err.1 hrun with hr | ⟨_, -, hr⟩
    · obtain ⟨m, hm, hrecv⟩ := collect_eq_fault hr
      obtain ⟨rP, hrP, rfl⟩ := h3 m hm
      obtain ⟨hctx, nd, ex, hget, hj⟩ := keyInit_toRound3_ok hr3
      obtain ⟨hctxP, ndP, exP, -, hjP⟩ := keyInit_toRound3_ok hrP
      have hrho : r3.rhoCombined = rP.rhoCombined := by
        refine hj.unique (by simp) (hjP.perm ?_)
        exact (echo_perm (f := id) hme hpeer hne hecho nd ndP ex exP).symm
      obtain ⟨m2, hm2⟩ : ∃ m2, (peer, m2) ∈ in2 := by
        have : peer ∈ (in2.map Prod.fst).toFinset := by rw [ex]; exact Finset.mem_erase.2 ⟨hne.symm, hpeer⟩
        rw [List.mem_toFinset, List.mem_map] at this
        obtain ⟨⟨_, m2⟩, h, rfl⟩ := this
        exact ⟨m2, h⟩
      obtain rfl := h2 m2 hm2
      obtain ⟨hX, hA⟩ := hget _ _ hm2
      unfold recv3 recvGet at hrecv
      rw [hA, hX, hctx, hrho] at hrecv
      simp only [Out.ofOption_some, Out.bind_ok, msg2, msg3, hctxP] at hrecv
      rw [if_pos (C25_complete H g dP.tau dP.x ⟨sid, peer, rP.rhoCombined⟩)] at hrecv
      cases hrecv
    · exact finalizeResult_ne_fault hr

end KeyInit

section KeyResharing
open KeyResharing Shamir

/-- **C63 (resharing).** Let `peer` follow resharing for the same new holders as `me`, and let what arrives at `me` in the name of `peer` be what `peer` sent to `me`. Then `me`
does not declare `peer` faulty, whatever the other parties send. -/
theorem C63_resharing (g : G) (inp inpP : Inputs I F G) (hnew : inp.newHolders = inpP.newHolders) (me peer : I) (draw drawP : Nat → F) (r rP : Round1 I F G)
    (hs : start g inp me draw = .ok r) (hsP : start g inpP peer drawP = .ok rP) (inbox : List (I × Msg F G))
    (hin : ∀ m, (peer, m) ∈ inbox → msg rP me = .ok (some m)) (e : Err) : run g r inbox ≠ .err (.fault peer e) := by
  intro hrun
  obtain ⟨e1, e2, e3, e4, e5, e6, e7⟩ := resharing_start_ok hs
  obtain ⟨p1, p2, p3, p4, p5, p6, p7⟩ := resharing_start_ok hsP
  unfold run at hrun
  rcases Out.bind_eq_err.1 hrun with hr | ⟨_, -, hr⟩
  · obtain ⟨m, hm, hrecv⟩ := collect_eq_fault hr
    have hsenders := collect_fault_senders hr
    have hexp : peer ∈ r.expectingMessagesFrom := by
      rw [← hsenders, List.mem_toFinset]; exact List.mem_map.2 ⟨_, hm, rfl⟩
    have hmsg := hin m hm
    cases hnh : inp.newHolder with
    | none =>
      unfold start at hs
      rw [hnh] at hs
      split at hs
      · cases hs
      · simp only [Out.bind_eq_ok] at hs
        obtain ⟨_, -, hs⟩ := hs
        cases hs
        simp at hexp
    | some nh =>
      rw [e5 nh hnh] at hexp
      unfold recv at hrecv
      rw [e1, hnh] at hrecv
      simp only [if_pos (Finset.mem_of_mem_erase hexp)] at hrecv
      cases hk : inpP.oldHolder with
      | none =>
        unfold msg at hmsg
        rw [p6 hk] at hmsg; simp at hmsg
      | some ks =>
        obtain ⟨sid, hoh⟩ := p7 ks hk
        unfold msg at hmsg
        rw [hoh] at hmsg
        simp only [Out.bind_eq_ok] at hmsg
        obtain ⟨their, hth, sub, hsub, hmsg⟩ := hmsg
        cases hmsg
        have hth' : r.newShareIds.get? me = some their := by
          unfold finGet at hth
          rw [e2, hnew, ← p2]
          exact Out.ofOption_eq_ok.1 hth
        unfold recvGet at hrecv
        rw [e4, hth', Out.ofOption_some, Out.bind_ok] at hrecv
        have hlen : (randomPolynomial ks.secretShare inpP.newThreshold drawP) ≠ [] := by simp [randomPolynomial]
        have hsub' : sub = polyValue (randomPolynomial ks.secretShare inpP.newThreshold drawP) their := by
          unfold evaluate at hsub
          rw [horner_eq hlen] at hsub
          exact (Out.ok.inj hsub).symm
        unfold publicEvaluate at hrecv
        by_cases h1 : 1 < (publicPolynomial g (randomPolynomial ks.secretShare inpP.newThreshold drawP)).length
        · rw [evaluatePolynomial_eq h1, Out.bind_ok, polyValue_publicPolynomial, hsub'] at hrecv
          simp at hrecv
        · rw [evaluatePolynomial_panic (not_lt.1 h1)] at hrecv
          cases hrecv
  · exact finalizeResult_ne_fault hr

end KeyResharing

section AuxGen
open AuxGen

private theorem rpOf_hdata {E : AuxEnv I Sid} {k : Nat} {sid : Sid} {i : I} {d : AuxDraws I} (hd : DrawsValid E k d) {m : Msg2}
    (h : m.echo.rp = (hdata E sid i d).msg2.echo.rp) : rpOf m = ⟨_, RPParams.withSecret (d.rpP * d.rpQ) E.P.modBits d.lambda d.tDraw⟩ := by
  have ho := open_explicit (open_msg2 (ε := Empty) (d := hdata E sid i d) (odd_of_primes hd.key.primes) (odd_of_primes hd.rpKey.primes))
  have h1 : rpOf m = rpOf (hdata E sid i d).msg2 := by unfold rpOf; rw [h]
  rw [h1]
  exact (congrArg PublicData.rp ho).symm

/-- **C63 (auxiliary info).** Let `me` and `peer` both follow the generation of auxiliary info for the same parties and session, with valid draws. What arrives at `me` in the name
of `peer` is what `peer` sent to `me`, and both received the same echo-broadcast parts. Then `me` does not declare `peer` faulty, whatever the other parties send to either of
them. -/
theorem C63_aux_gen (E : AuxEnv I Sid) (k : Nat) (hE : HashesValid E k) (hashV : Sid → I → Hashed → V) (ids : Finset I) (sid : Sid) (me peer : I) (hne : me ≠ peer)
    (d dP : AuxDraws I) (hd : DrawsValid E k d) (hdP : DrawsValid E k dP) (hfac : FacDrawsValid E.P (dP.p * dP.q) (d.rpP * d.rpQ) (dP.facMasks me))
    (c cP : Context I Sid) (hc : start E ids sid me d = .ok c) (hcP : start E ids sid peer dP = .ok cP) (in1 in1P : List (I × V)) (in2 in2P : List (I × Msg2))
    (in3 : List (I × Msg3)) (h1 : OnlyFrom peer (msg1 hashV cP) in1) (h2 : OnlyFrom peer (msg2 cP) in2)
    (hecho : EchoAgreement Msg2.echo me peer (msg2 c).echo (msg2 cP).echo in2 in2P)
    (h3 : ∀ m, (peer, m) ∈ in3 → ∃ rP, toRound3 E hashV cP in1P in2P = .ok rP ∧ msg3 E rP me = .ok m) (e : Err I) :
    run E hashV c in1 in2 in3 ≠ .err (.fault peer e) := by
  intro hrun
  obtain ⟨hme, _, sk, hsk, rfl⟩ := start_ok hc
  obtain ⟨hpeer, _, skP, hskP, rfl⟩ := start_ok hcP
  unfold run at hrun
  rcases Out.bind_eq_err.1 hrun with hr | ⟨r3, hr3, hrun⟩
  · unfold toRound3 at hr
    rcases Out.bind_eq_err.1 hr with hr | ⟨capVs, hv, hr⟩
    · obtain ⟨m, -, hm⟩ := collect_eq_fault hr
      cases hm
    · rcases Out.bind_eq_err.1 hr with hr | ⟨pls, -, hr⟩
      · obtain ⟨m, hm, hrecv⟩ := collect_eq_fault hr
        obtain rfl := h2 m hm
        obtain ⟨x, p, hx, hp, hgx⟩ := collect_mem hv (j := peer) (Finset.mem_erase.2 ⟨hne.symm, hpeer⟩)
        cases hp
        obtain rfl := h1 _ hx
        have := hdata_accepted hE hdP sid peer hashV capVs hgx
        rw [show recv2 E hashV sid capVs peer (hdata E sid peer dP).msg2 = .err (.protocol e) from hrecv] at this
        cases this
      · simp only [finalize2] at hr
        rcases Out.bind_eq_err.1 hr with hr | ⟨_, -, hr⟩
        · exact xorAll_ne_err hr
        · rcases Out.bind_eq_err.1 hr with hr | ⟨_, -, hr⟩
          · obtain ⟨prf, hprf, -⟩ := honest_mod (ε' := Abort I (Err I)) hE hd hsk (sid, me, _)
            rw [hprf] at hr; cases hr
          · cases hr
  · rcases Out.bind_eq_err.1 hrun with hr | ⟨_, -, hrun⟩
    · unfold send3 at hr
      obtain ⟨a, -, ha⟩ := Out.mapM'_eq_err hr
      rcases Out.bind_eq_err.1 ha with ha | ⟨_, -, ha⟩
      · exact finalizeResult_ne_fault ha
      · cases ha
    · rcases Out.bind_eq_err.1 hrun with hr | ⟨_, -, hr⟩
      · obtain ⟨m, hm, hrecv⟩ := collect_eq_fault hr
        obtain ⟨rP, hrP, hm3⟩ := h3 m hm
        obtain ⟨hctx, nd, ex, -, -, -, hget, hj, -⟩ := toRound3_ok (by simp) hr3
        obtain ⟨hctxP, ndP, exP, -, -, -, hgetP, hjP, hpsiP⟩ := toRound3_ok (by simp) hrP
        have hrid : r3.rid = rP.rid := by
          refine hj.unique (by simp) (hjP.perm ?_)
          exact (echo_perm (f := Echo2.rid) hme hpeer hne hecho nd ndP ex exP).symm
        obtain ⟨m2, hm2⟩ := exists_from ex (Finset.mem_erase.2 ⟨hne.symm, hpeer⟩)
        obtain ⟨m2P, hm2P⟩ := exists_from exP (Finset.mem_erase.2 ⟨hne, hme⟩)
        obtain rfl := h2 m2 hm2
        have hech := hecho.fromA _ hm2P
        obtain ⟨hg, -⟩ := hget _ _ hm2
        obtain ⟨hgP, -⟩ := hgetP _ _ hm2P
        obtain ⟨prf, hprf, hver⟩ := honest_mod (ε' := Abort I (Err I)) hE hdP hskP (sid, peer, rP.rid)
        simp only at hpsiP
        rw [hpsiP] at hprf
        cases hprf
        simp only [msg3, Out.bind_eq_ok, finGet, hgP, Out.ofOption_some, hctxP] at hm3
        obtain ⟨_, hpl, psi, hpsi, hm3⟩ := hm3
        cases hpl
        cases hm3
        have hrp : rpOf m2P = ⟨_, RPParams.withSecret (d.rpP * d.rpQ) E.P.modBits d.lambda d.tDraw⟩ := rpOf_hdata (sid := sid) (i := me) hd (congrArg Echo2.rp hech)
        rw [hrp] at hpsi
        obtain ⟨prf, hf1, hf2⟩ := honest_fac (ε := LocalErr) hE hdP (rp := ⟨_, RPParams.withSecret (d.rpP * d.rpQ) E.P.modBits d.lambda d.tDraw⟩)
          hd.rpKey.primes.pos (hd.rp_lt hE) hd.rp_valid hfac skP (sid, peer, rP.rid)
        have hprf : prf = psi := Out.ok.inj (hf1.symm.trans hpsi)
        subst hprf
        have hacc : recv3 E r3 peer ⟨rP.psiPrime, prf⟩ = .ok () := by
          unfold recv3 recvGet
          rw [hg, Out.ofOption_some, Out.bind_ok, hctx]
          simp only [hrid]
          refine (if_neg (not_not.2 hver)).trans ?_
          exact (congrArg (fun x : Out (RecvErr (Err I)) Bool => x.bind fun ok => if ¬ ok then .err (.protocol (.r3FacFailed me)) else .ok ()) (hf2 _)).trans rfl
        rw [hacc] at hrecv
        cases hrecv
      · cases hr

end AuxGen

section KeyRefresh
open KeyRefresh

/-- **C63 (key refresh).** Let `me` and `peer` both follow key refresh for the same parties and session, with valid draws. What arrives at `me` in the name of `peer` is what `peer`
sent to `me`, and both received the same echo-broadcast parts. Then `me` does not declare `peer` faulty, whatever the other parties send to either of them. -/
theorem C63_key_refresh (E : Env I Sid F G) (k : Nat) (hE : HashesValid E.aux k) (hashV : Sid → I → Hashed I G → V) (ids : Finset I) (sid : Sid) (me peer : I)
    (hne : me ≠ peer) (d dP : Draws I F) (hd : DrawsValid E.aux k d.aux) (hdP : DrawsValid E.aux k dP.aux)
    (hfac : FacDrawsValid E.aux.P (dP.aux.p * dP.aux.q) (d.aux.rpP * d.aux.rpQ) (dP.aux.facMasks me))
    (c cP : Context I F G Sid) (hc : start E ids sid me d = .ok c) (hcP : start E ids sid peer dP = .ok cP) (in1 in1P : List (I × V)) (in2 in2P : List (I × Msg2 I G))
    (in3 : List (I × Msg3 I F)) (h1 : OnlyFrom peer (msg1 hashV cP) in1) (h2 : OnlyFrom peer (msg2 cP) in2)
    (hecho : EchoAgreement Msg2.echo me peer (msg2 c).echo (msg2 cP).echo in2 in2P)
    (h3 : ∀ m, (peer, m) ∈ in3 → ∃ rP, toRound3 E hashV cP in1P in2P = .ok rP ∧ msg3 E rP me = .ok m) (e : Err I F) :
    run E hashV c in1 in2 in3 ≠ .err (.fault peer e) := by
  intro hrun
  obtain ⟨hme, _, sk, x, hsk, hx, rfl⟩ := start_ok hc
  obtain ⟨hpeer, _, skP, xP, hskP, hxP, rfl⟩ := start_ok hcP
  unfold run at hrun
  rcases Out.bind_eq_err.1 hrun with hr | ⟨r3, hr3, hrun⟩
  · unfold toRound3 at hr
    rcases Out.bind_eq_err.1 hr with hr | ⟨capVs, hv, hr⟩
    · obtain ⟨m, -, hm⟩ := collect_eq_fault hr
      cases hm
    · rcases Out.bind_eq_err.1 hr with hr | ⟨pls, -, hr⟩
      · obtain ⟨m, hm, hrecv⟩ := collect_eq_fault hr
        obtain rfl := h2 m hm
        obtain ⟨y, p, hy, hp, hgy⟩ := collect_mem hv (j := peer) (Finset.mem_erase.2 ⟨hne.symm, hpeer⟩)
        cases hp
        obtain rfl := h1 _ hy
        have := hdata_accepted hE hdP sid peer hxP hashV capVs hgy
        rw [show recv2 E hashV sid ids capVs peer (hdata E ids sid peer dP xP).msg2 = .err (.protocol e) from hrecv] at this
        cases this
      · exact finalizeResult_ne_fault hr
  · rcases Out.bind_eq_err.1 hrun with hr | ⟨_, -, hrun⟩
    · unfold send3 at hr
      obtain ⟨a, -, ha⟩ := Out.mapM'_eq_err hr
      rcases Out.bind_eq_err.1 ha with ha | ⟨_, -, ha⟩
      · exact finalizeResult_ne_fault ha
      · cases ha
    · rcases Out.bind_eq_err.1 hrun with hr | ⟨_, -, hr⟩
      · obtain ⟨m, hm, hrecv⟩ := collect_eq_fault hr
        obtain ⟨rP, hrP, hm3⟩ := h3 m hm
        obtain ⟨rid, psiPrime, pl, rfl, nd, ex, -, hget, hj, -⟩ := toRound3_ok hme hr3
        obtain ⟨ridP, psiPrimeP, plP, rfl, ndP, exP, -, hgetP, hjP, hpsiP⟩ := toRound3_ok hpeer hrP
        have hrid : rid = ridP := by
          refine hj.unique (by simp) (hjP.perm ?_)
          exact (echo_perm (f := Echo2.rid) hme hpeer hne hecho nd ndP ex exP).symm
        subst hrid
        obtain ⟨m2, hm2⟩ := exists_from ex (Finset.mem_erase.2 ⟨hne.symm, hpeer⟩)
        obtain ⟨m2P, hm2P⟩ := exists_from exP (Finset.mem_erase.2 ⟨hne, hme⟩)
        obtain rfl := h2 m2 hm2
        have hech := hecho.fromA _ hm2P
        obtain ⟨hg, -⟩ := hget _ _ hm2
        obtain ⟨hgP, -⟩ := hgetP _ _ hm2P
        obtain ⟨prf, hprf, hver⟩ := honest_mod (ε' := LocalErr) hE hdP hskP (sid, peer, rid)
        rw [hpsiP] at hprf
        cases hprf
        have hrp : AuxGen.rpOf m2P.base = ⟨_, RPParams.withSecret (d.aux.rpP * d.aux.rpQ) E.aux.P.modBits d.aux.lambda d.aux.tDraw⟩ :=
          rpOf_hdata (sid := sid) (i := me) hd (congrArg Echo2.rp hech)
        have hys : m2P.echo.capYs = BMap.tabulate ids fun j => d.ys j • E.g := congrArg Echo2.capYs hech
        unfold msg3 at hm3
        simp only [Out.bind_eq_ok, finGet, BMap.get?_tabulate, if_pos hme, if_pos hpeer, Out.ofOption_some, hgP, payloadOf, hctx, hys, Out.ok.injEq, hrp] at hm3
        obtain ⟨_, rfl, psi, hpsi, _, hY, _, rfl, _, rfl, rfl⟩ := hm3
        simp only [hys, BMap.get?_tabulate, if_pos hpeer, Out.ofOption_some, Out.ok.injEq] at hY
        subst hY
        obtain ⟨prf, hf1, hf2⟩ := honest_fac (ε := LocalErr) hE hdP
          (rp := ⟨_, RPParams.withSecret (d.aux.rpP * d.aux.rpQ) E.aux.P.modBits d.aux.lambda d.aux.tDraw⟩)
          hd.rpKey.primes.pos (hd.rp_lt hE) hd.rp_valid hfac skP (sid, peer, rid)
        have hprf : prf = psi := Out.ok.inj (hf1.symm.trans hpsi)
        subst hprf
        have hpk : (pl peer).base.pk = dP.aux.p * dP.aux.q := by rw [hg]; rfl
        have e5 : (pl peer).capYs.get? me = some (dP.ys me • E.g) := by
          rw [hg]
          show (BMap.tabulate ids fun l => dP.ys l • E.g).get? me = _
          rw [BMap.get?_tabulate, if_pos hme]
        have e7 : (pl peer).capXs.get? me = some (xP me • E.g) := by
          rw [hg]
          show (BMap.tabulate ids fun l => xP l • E.g).get? me = _
          rw [BMap.get?_tabulate, if_pos hme]
        have e8 : xP me + E.rhoH sid rid peer (dP.ys me • d.ys peer • E.g) - E.rhoH sid rid peer (d.ys peer • dP.ys me • E.g) = xP me := by
          rw [smul_comm, add_sub_cancel_right]
        have e9 : checkSch E (pl peer) (sid, peer, rid) (BMap.tabulate ids (hatPsi E sid peer dP xP rid)).entries = .ok () := by
          rw [checkSch_eq_ok]
          rintro ⟨l, prf⟩ ha
          have hl := BMap.get?_eq_some_iff.2 ha
          rw [BMap.get?_tabulate] at hl
          split at hl
          · rename_i hli
            cases hl
            refine ⟨dP.taus l • E.g, xP l • E.g, ?_, ?_, C25_complete E.schH E.g (dP.taus l) (xP l) (sid, peer, rid)⟩
            · rw [hg]
              show (BMap.tabulate ids fun l => dP.taus l • E.g).get? l = _
              rw [BMap.get?_tabulate, if_pos hli]
            · rw [hg]
              show (BMap.tabulate ids fun l => xP l • E.g).get? l = _
              rw [BMap.get?_tabulate, if_pos hli]
          · cases hl
        unfold recv3 recvGet at hrecv
        simp only [BMap.get?_tabulate, if_pos hpeer, if_pos hme, Out.ofOption_some, Out.bind_ok, hctx, e5, e7, e8, ne_eq, not_true_eq_false, if_false, hpk] at hrecv
        rw [if_neg (not_not.2 hver), hf2, Out.bind_ok] at hrecv
        simp [e9] at hrecv
      · exact finalizeResult_ne_fault hr

end KeyRefresh

/-! ### Concrete cases -/

section Examples

attribute [local instance] Toy.fact11 Toy.order11

private def inOrder {M : Type} (f : Nat → M) (i : Nat) : List (Nat × M) := (bsetIter (({1, 2, 3} : Finset Nat).erase i)).map fun j => (j, f j)

private theorem inOrder_from {M : Type} (f : Nat → M) (i : Nat) : FromOthers ({1, 2, 3} : Finset Nat) i f (inOrder f i) := fromOthers_iff.2 (List.Perm.refl _)

private theorem inOrder_only {M : Type} (f : Nat → M) (i j : Nat) : OnlyFrom j (f j) (inOrder f i) := by
  intro m hm
  obtain ⟨k, -, hk⟩ := List.mem_map.1 hm
  cases hk; rfl

private theorem inOrder_echo {M Ec : Type} (echo : M → Ec) (f : Nat → M) (i j : Nat) : EchoAgreement echo i j (echo (f i)) (echo (f j)) (inOrder f i) (inOrder f j) :=
  ⟨fun _ hm => congrArg echo (inOrder_only f j i _ hm), fun _ hm => congrArg echo (inOrder_only f i j _ hm),
    fun k _ _ hm hm' => congrArg echo ((inOrder_only f i k _ hm).trans (inOrder_only f j k _ hm').symm)⟩

section
open KeyInit

deriving instance DecidableEq for Context
deriving instance DecidableEq for Round3

private def initHash : Nat → Nat → PublicData (ZMod 11) → Nat × Nat × PublicData (ZMod 11) := fun s i d => (s, i, d)
private def initChallenge : SchHash (ZMod 11) (SchAux Nat Nat) → ZMod 11 := fun h =>
  h.capX * 3 + h.commitment * 5 + (h.aux.id : ZMod 11) + (h.aux.rho.count true : ZMod 11)
private def initDraws (i : Nat) : Draws (ZMod 11) := ⟨(i : ZMod 11) * 2 + 1, (i : ZMod 11) + 4, [i % 2 = 0, true, i = 2], [true]⟩
private def initCtx (i : Nat) : Context Nat (ZMod 11) (ZMod 11) Nat :=
  ⟨({1, 2, 3} : Finset Nat).erase i, i, (initDraws i).x, (initDraws i).tau, ⟨(initDraws i).x, (initDraws i).tau, (initDraws i).rho, (initDraws i).u⟩, 7⟩
private def initR3 (i : Nat) : Round3 Nat (ZMod 11) (ZMod 11) Nat :=
  ⟨initCtx i, BMap.tabulate (({1, 2, 3} : Finset Nat).erase i) fun j => (initDraws j).x, BMap.tabulate (({1, 2, 3} : Finset Nat).erase i) fun j => (initDraws j).tau,
    [true, true, true]⟩

/-- All hypotheses of `C63_key_init` can be met by a run that ends with an accusation: party 1 sends a wrong proof to party 2, which accuses it, and not the honest party 3. -/
example : ∃ in3 : List (Nat × SchProof (ZMod 11)), start (1 : ZMod 11) {1, 2, 3} 7 2 (initDraws 2) = .ok (initCtx 2) ∧
    start (1 : ZMod 11) {1, 2, 3} 7 3 (initDraws 3) = .ok (initCtx 3) ∧
    OnlyFrom 3 (msg1 initHash (initCtx 3)) (inOrder (fun j => msg1 initHash (initCtx j)) 2) ∧ OnlyFrom 3 (msg2 (initCtx 3)) (inOrder (fun j => msg2 (initCtx j)) 2) ∧
    EchoAgreement Msg2.rho 2 3 (msg2 (initCtx 2)).rho (msg2 (initCtx 3)).rho (inOrder (fun j => msg2 (initCtx j)) 2) (inOrder (fun j => msg2 (initCtx j)) 3) ∧
    (∀ m, (3, m) ∈ in3 → ∃ rP, toRound3 initHash (initCtx 3) (inOrder (fun j => msg1 initHash (initCtx j)) 3) (inOrder (fun j => msg2 (initCtx j)) 3) = .ok rP ∧
      m = msg3 initChallenge rP) ∧ (3, msg3 initChallenge (initR3 3)) ∈ in3 ∧
    run initHash initChallenge (1 : ZMod 11) (initCtx 2) (inOrder (fun j => msg1 initHash (initCtx j)) 2) (inOrder (fun j => msg2 (initCtx j)) 2) in3 =
      .err (.fault 1 .r3InvalidSchProof) := by
  refine ⟨[(3, msg3 initChallenge (initR3 3)), (1, msg3 initChallenge (initR3 3))], rfl, rfl, inOrder_only _ _ _, inOrder_only _ _ _,
    inOrder_echo Msg2.rho (fun j => msg2 (initCtx j)) 2 3, ?_, by simp, by decide +kernel⟩
  intro m hm
  refine ⟨initR3 3, by decide +kernel, ?_⟩
  simp at hm
  exact hm

end

section
open KeyResharing

private def oldShares (i : Nat) : ThresholdKeyShare Nat (ZMod 11) (ZMod 11) :=
  ⟨i, 2, 5 + 3 * (i : ZMod 11), BMap.ofList [(1, 1), (2, 2), (3, 3)], BMap.ofList [(1, 8), (2, 0), (3, 3)]⟩

/-- All hypotheses of `C63_resharing` can be met by a run that ends with an accusation: the new holder 4 accuses the old holder 1, which sent a wrong subshare, and not the
old holder 2. -/
example : ∃ (r rP : Round1 Nat (ZMod 11) (ZMod 11)) (m : Msg (ZMod 11) (ZMod 11)) (inbox : List (Nat × Msg (ZMod 11) (ZMod 11))),
    start (1 : ZMod 11) (HonestInputs {1, 2} {2, 3, 4} oldShares 5 2 2 4) 4 (fun _ => 0) = .ok r ∧
    start (1 : ZMod 11) (HonestInputs {1, 2} {2, 3, 4} oldShares 5 2 2 2) 2 (fun _ => 6) = .ok rP ∧
    (2, m) ∈ inbox ∧ (∀ m, (2, m) ∈ inbox → msg rP 4 = .ok (some m)) ∧ run (1 : ZMod 11) r inbox = .err (.fault 1 .subshareMismatch) := by
  refine ⟨⟨none, some ⟨5, 2, {1, 2}⟩, newShareIds (ZMod 11) {2, 3, 4}, 2, 4, ∅, {1, 2}⟩, _, ⟨[0, 6], 2, 7⟩, [(2, ⟨[0, 6], 2, 7⟩), (1, ⟨[8, 4], 1, 8⟩)], rfl, rfl, by simp, ?_, by decide +kernel⟩
  intro m hm
  simp at hm
  subst hm
  decide +kernel

end

section
open AuxGen

private def auxHash : Nat → Nat → Hashed → Nat × Nat × Hashed := fun s i h => (s, i, h)

/-- All hypotheses of `C63_aux_gen` can be met: the parties 2 and 3 are honest. Party 1 sends them nothing in round 3, and party 2 receives the message of party 3. -/
example : ∃ (c : Nat → Context Nat Nat) (rP : Round3 Nat Nat) (m : Msg3), start Toy.auxEnv {1, 2, 3} 7 2 (Toy.auxDraws 2) = .ok (c 2) ∧
    start Toy.auxEnv {1, 2, 3} 7 3 (Toy.auxDraws 3) = .ok (c 3) ∧ DrawsValid Toy.auxEnv 2 (Toy.auxDraws 2) ∧ DrawsValid Toy.auxEnv 2 (Toy.auxDraws 3) ∧
    FacDrawsValid Toy.auxEnv.P ((Toy.auxDraws 3).p * (Toy.auxDraws 3).q) ((Toy.auxDraws 2).rpP * (Toy.auxDraws 2).rpQ) ((Toy.auxDraws 3).facMasks 2) ∧
    OnlyFrom 3 (msg1 auxHash (c 3)) (inOrder (fun j => msg1 auxHash (c j)) 2) ∧ OnlyFrom 3 (msg2 (c 3)) (inOrder (fun j => msg2 (c j)) 2) ∧
    EchoAgreement Msg2.echo 2 3 (msg2 (c 2)).echo (msg2 (c 3)).echo (inOrder (fun j => msg2 (c j)) 2) (inOrder (fun j => msg2 (c j)) 3) ∧
    toRound3 Toy.auxEnv auxHash (c 3) (inOrder (fun j => msg1 auxHash (c j)) 3) (inOrder (fun j => msg2 (c j)) 3) = .ok rP ∧ msg3 Toy.auxEnv rP 2 = .ok m ∧
    ∀ e, run Toy.auxEnv auxHash (c 2) (inOrder (fun j => msg1 auxHash (c j)) 2) (inOrder (fun j => msg2 (c j)) 2) [(3, m)] ≠ .err (.fault 3 e) := by
  have hst : ∀ i ∈ ({1, 2, 3} : Finset Nat), ∃ c, start Toy.auxEnv ({1, 2, 3} : Finset Nat) 7 i (Toy.auxDraws i) = .ok c := by
    intro i hi
    obtain ⟨c, h, _⟩ := C54_start Toy.auxEnv 2 {1, 2, 3} 7 i hi (Toy.auxDraws i) (Toy.auxDraws_valid i (by simp at hi; omega))
    exact ⟨c, h⟩
  obtain ⟨c1, h1⟩ := hst 1 (by decide)
  have hex : ∀ i, ∃ c, i ∈ ({1, 2, 3} : Finset Nat) → start Toy.auxEnv ({1, 2, 3} : Finset Nat) 7 i (Toy.auxDraws i) = .ok c := by
    intro i
    by_cases hi : i ∈ ({1, 2, 3} : Finset Nat)
    · obtain ⟨c, h⟩ := hst i hi; exact ⟨c, fun _ => h⟩
    · exact ⟨c1, fun h => absurd h hi⟩
  choose c hc using hex
  obtain ⟨r3, m3, hr3, hm3, -⟩ := C54_honest_aux_gen Toy.auxEnv 2 Toy.auxEnv_valid auxHash {1, 2, 3} 7 Toy.auxDraws
    (fun i hi => Toy.auxDraws_valid i (by simp at hi; omega)) (fun i _ j _ _ => Toy.facDraws_valid i j) 3 (fun _ _ => rfl) c hc
    (inOrder fun j => msg1 auxHash (c j)) (inOrder fun j => msg2 (c j)) (fun i _ => inOrder_from _ i) (fun i _ => inOrder_from _ i)
  have h3 := hm3 3 (by decide) 2 (by decide) (by decide)
  refine ⟨c, r3 3, m3 3 2, hc 2 (by decide), hc 3 (by decide), Toy.auxDraws_valid 2 (by omega), Toy.auxDraws_valid 3 (by omega), Toy.facDraws_valid 3 2,
    inOrder_only _ _ _, inOrder_only _ _ _, inOrder_echo Msg2.echo (fun j => msg2 (c j)) 2 3, hr3 3 (by decide), h3, fun e => ?_⟩
  refine C63_aux_gen Toy.auxEnv 2 Toy.auxEnv_valid auxHash {1, 2, 3} 7 2 3 (by decide) (Toy.auxDraws 2) (Toy.auxDraws 3) (Toy.auxDraws_valid 2 (by omega))
    (Toy.auxDraws_valid 3 (by omega)) (Toy.facDraws_valid 3 2) (c 2) (c 3) (hc 2 (by decide)) (hc 3 (by decide)) _ (inOrder (fun j => msg1 auxHash (c j)) 3) _ _ _
    (inOrder_only _ _ _) (inOrder_only _ _ _) (inOrder_echo Msg2.echo (fun j => msg2 (c j)) 2 3) ?_ e
  intro m hm
  simp at hm
  subst hm
  exact ⟨r3 3, hr3 3 (by decide), h3⟩

end

section
open KeyRefresh

private def refreshHash : Nat → Nat → Hashed Nat (ZMod 11) → Nat × Nat × Hashed Nat (ZMod 11) := fun s i h => (s, i, h)
private def refreshEnv : Env Nat Nat (ZMod 11) (ZMod 11) := ⟨Toy.auxEnv, 1, fun h => h.commitment + 2 * h.capX + 3, fun _ _ i p => p + i⟩
private def refreshDraws (i : Nat) : Draws Nat (ZMod 11) := ⟨Toy.auxDraws i, fun n => (n + i : ℕ), fun j => (3 * i + j : ℕ), fun j => (i + 5 * j : ℕ)⟩

/-- All hypotheses of `C63_key_refresh` can be met: the parties 2 and 3 are honest, party 2 receives the message of party 3 and none of party 1 in round 3. -/
example : ∃ (c : Nat → Context Nat (ZMod 11) (ZMod 11) Nat) (rP : Round3 Nat (ZMod 11) (ZMod 11) Nat) (m : Msg3 Nat (ZMod 11)),
    start refreshEnv {1, 2, 3} 7 2 (refreshDraws 2) = .ok (c 2) ∧ start refreshEnv {1, 2, 3} 7 3 (refreshDraws 3) = .ok (c 3) ∧
    DrawsValid refreshEnv.aux 2 (refreshDraws 2).aux ∧ DrawsValid refreshEnv.aux 2 (refreshDraws 3).aux ∧
    OnlyFrom 3 (msg1 refreshHash (c 3)) (inOrder (fun j => msg1 refreshHash (c j)) 2) ∧ OnlyFrom 3 (msg2 (c 3)) (inOrder (fun j => msg2 (c j)) 2) ∧
    EchoAgreement Msg2.echo 2 3 (msg2 (c 2)).echo (msg2 (c 3)).echo (inOrder (fun j => msg2 (c j)) 2) (inOrder (fun j => msg2 (c j)) 3) ∧
    toRound3 refreshEnv refreshHash (c 3) (inOrder (fun j => msg1 refreshHash (c j)) 3) (inOrder (fun j => msg2 (c j)) 3) = .ok rP ∧ msg3 refreshEnv rP 2 = .ok m ∧
    ∀ e, run refreshEnv refreshHash (c 2) (inOrder (fun j => msg1 refreshHash (c j)) 2) (inOrder (fun j => msg2 (c j)) 2) [(3, m)] ≠ .err (.fault 3 e) := by
  have hst : ∀ i ∈ ({1, 2, 3} : Finset Nat), ∃ c, start refreshEnv ({1, 2, 3} : Finset Nat) 7 i (refreshDraws i) = .ok c := fun i hi =>
    (C38_start refreshEnv 2 {1, 2, 3} 7 i (refreshDraws i) (Toy.auxDraws_valid i (by simp at hi; omega))).1 hi
  obtain ⟨c1, h1⟩ := hst 1 (by decide)
  have hex : ∀ i, ∃ c, i ∈ ({1, 2, 3} : Finset Nat) → start refreshEnv ({1, 2, 3} : Finset Nat) 7 i (refreshDraws i) = .ok c := by
    intro i
    by_cases hi : i ∈ ({1, 2, 3} : Finset Nat)
    · obtain ⟨c, h⟩ := hst i hi; exact ⟨c, fun _ => h⟩
    · exact ⟨c1, fun h => absurd h hi⟩
  choose c hc using hex
  obtain ⟨r3, m3, hr3, hm3, -⟩ := C38_honest_refresh refreshEnv 2 Toy.auxEnv_valid refreshHash {1, 2, 3} 7 refreshDraws
    (fun i hi => Toy.auxDraws_valid i (by simp at hi; omega)) (fun i _ j _ _ => Toy.facDraws_valid i j) 3 (fun _ _ => rfl) c hc
    (inOrder fun j => msg1 refreshHash (c j)) (inOrder fun j => msg2 (c j)) (fun i _ => inOrder_from _ i) (fun i _ => inOrder_from _ i)
  have h3 := hm3 3 (by decide) 2 (by decide) (by decide)
  refine ⟨c, r3 3, m3 3 2, hc 2 (by decide), hc 3 (by decide), Toy.auxDraws_valid 2 (by omega), Toy.auxDraws_valid 3 (by omega),
    inOrder_only _ _ _, inOrder_only _ _ _, inOrder_echo Msg2.echo (fun j => msg2 (c j)) 2 3, hr3 3 (by decide), h3, fun e => ?_⟩
  refine C63_key_refresh refreshEnv 2 Toy.auxEnv_valid refreshHash {1, 2, 3} 7 2 3 (by decide) (refreshDraws 2) (refreshDraws 3) (Toy.auxDraws_valid 2 (by omega))
    (Toy.auxDraws_valid 3 (by omega)) (Toy.facDraws_valid 3 2) (c 2) (c 3) (hc 2 (by decide)) (hc 3 (by decide)) _ (inOrder (fun j => msg1 refreshHash (c j)) 3) _ _ _
    (inOrder_only _ _ _) (inOrder_only _ _ _) (inOrder_echo Msg2.echo (fun j => msg2 (c j)) 2 3) ?_ e
  intro m hm
  simp at hm
  subst hm
  exact ⟨r3 3, hr3 3 (by decide), h3⟩

end

end Examples

end Synedrion.Props
