import Verif.Lemmas.Blame
import Verif.Lemmas.SigningRun
import Verif.Lemmas.SigningEvidence
import Verif.Lemmas.SigningAgreement

/-!
# Lemmas about what honest signers accept from each other
-/

set_option linter.unusedSectionVars false

namespace Synedrion.Signing

open Spec KeyRefresh

variable {q : Nat} [Fact q.Prime] {I Ep G : Type} [LinearOrder I] [AddCommGroup G] [Module (ZMod q) G] [DecidableEq G]

theorem finalizeResult_no_fault {α Er : Type} {o : Out LocalErr α} {j : I} {e : Er} : (finalizeResult o : Out (Abort I Er) α) ≠ .err (.fault j e) := by
  cases o <;> simp [finalizeResult]

theorem centre_ne_zero {x : ZMod q} (hx : x ≠ 0) : centre x ≠ 0 := by
  intro h
  apply hx
  rw [← centre_cast x, h]; simp

/-- A ciphertext that was multiplied by a non-zero secret is invertible. -/
theorem mulSecret_isUnit {ε : Type} {N : Nat} (hN : 0 < N) {c : Ct N} {k : SInt} (hk : k.Fits) (h0 : k.val ≠ 0) {d : Cipher}
    (h : (Cipher.mulSecret ⟨N, c⟩ k : Out ε _) = .ok d) : IsUnit c := by
  have : NeZero (N ^ 2) := ⟨by positivity⟩
  unfold Cipher.mulSecret ctMulSecret at h
  simp only at h
  obtain ⟨v, hv, -⟩ := Out.bind_eq_ok.1 h
  unfold powSecret at hv
  have hk' : k.val.natAbs < 2 ^ k.bound := hk
  rw [if_pos hk', powBounded_eq _ hk'] at hv
  simp only at hv
  cases hi : invMod? (c ^ k.val.natAbs) with
  | none => rw [hi] at hv; cases hv
  | some b => exact (isUnit_pow_iff (n := k.val.natAbs) (Int.natAbs_ne_zero.2 h0)).1 (invMod?_isSome.1 (by rw [hi]; rfl))

namespace Run
variable {S : Run q I Ep G} {sk : ZMod q}

/-- What a party holds at the start of round 2 -/
structure At2 (S : Run q I Ep G) (i : I) (in1 : List (I × Msg1 q G)) (r : Round2 q I Ep G) : Prop where
  ctx : r.ctx = S.ctx i
  nodup : (in1.map Prod.fst).Nodup
  senders : (in1.map Prod.fst).toFinset = S.ids.erase i
  payload : ∀ k m, (k, m) ∈ in1 → r.payloads1.get? k = some (m.echo.payload (S.N k))
  own : r.payloads1.get? i = some (S.pl1 i)
  capGamma : r.capGamma = (S.d i).gamma • S.E.C.g
  psiElog : r.psiElog = S.psiElog i
  outs : r.outs.keySet = S.ids.erase i
  out : ∀ k o, r.outs.get? k = some o → ∃ p, r.payloads1.get? k = some p ∧
    mtaSend S.E (S.ctx i) ⟨S.N k, S.setup k⟩ p.capK (signedI S.E.P (S.d i).gamma) ((S.d i).gamma • S.E.C.g) (S.d i).mta k = .ok o.1 ∧
    mtaSend S.E (S.ctx i) ⟨S.N k, S.setup k⟩ p.capK (signedI S.E.P (S.shares i).secret) ((S.shares i).secret • S.E.C.g) (S.d i).hatMta k = .ok o.2

theorem Good.at2 (h : S.Good sk) {i : I} (hi : i ∈ S.ids) {in1 : List (I × Msg1 q G)} {r : Round2 q I Ep G} (hr : toRound2 S.E (S.r1 i) in1 = .ok r) :
    S.At2 i in1 r := by
  have hE := h.setting
  unfold toRound2 Signing.finalize1 at hr
  have hpay : (S.r1 i).echo.payload (S.r1 i).ctx.key.modulus = S.pl1 i := h.payload_eq hi
  simp only [hpay, signedOfSecret_ok hE, Out.bind_eq_ok, finalizeResult_eq_ok, Out.ok.injEq] at hr
  obtain ⟨_, -, pls, hc, _, rfl, _, rfl, capX, hX, outs, houts, rfl⟩ := hr
  obtain ⟨nd, ex, hks, hall⟩ := collect_eq_ok.1 hc
  have hX' : capX = (S.shares i).secret • S.E.C.g := by
    have := Out.ofOption_eq_ok.1 hX
    rw [show (S.r1 i).ctx.keyShare.pub.get? (S.r1 i).ctx.myId = _ from h.keys.public_matches i hi i hi] at this
    exact (Option.some.inj this).symm
  subst hX'
  obtain ⟨hok, hout⟩ := buildMap_eq_ok houts
  have hpayl : ∀ k m, (k, m) ∈ in1 → (pls.insert i (S.pl1 i)).get? k = some (m.echo.payload (S.N k)) := by
    intro k m hm
    have hk : k ∈ S.ids.erase i := by
      rw [show S.ids.erase i = (S.r1 i).ctx.otherIds from rfl, ← ex, List.mem_toFinset]; exact List.mem_map.2 ⟨_, hm, rfl⟩
    obtain ⟨hne, hk⟩ := Finset.mem_erase.1 hk
    rw [BMap.get?_insert, if_neg hne]
    obtain ⟨p, hp, hg⟩ := hall (k, m) hm
    simp only at hp hg
    rw [hg]
    unfold recv1 at hp
    simp only [recvGet, r1, Run.ctx, pubAux, BMap.get?_tabulate, hi, hk, if_true, Out.ofOption_some, Out.bind_ok] at hp
    obtain ⟨ok0, -, hp⟩ := Out.bind_eq_ok.1 hp
    split at hp
    · cases hp
    · obtain ⟨ok1, -, hp⟩ := Out.bind_eq_ok.1 hp
      split at hp
      · cases hp
      · cases hp; rfl
  refine ⟨rfl, nd, ex, hpayl, ?_, rfl, rfl, hok, ?_⟩
  · show (pls.insert i (S.pl1 i)).get? i = _
    rw [BMap.get?_insert, if_pos rfl]
  · intro k o ho
    have hk : k ∈ S.ids.erase i := by
      have : k ∈ outs.keySet := by rw [BMap.mem_keySet, BMap.mem_keys_iff]; exact ⟨_, ho⟩
      rw [hok] at this; exact this
    obtain ⟨hne, hk⟩ := Finset.mem_erase.1 hk
    have := hout k o ho
    simp only [finGet, r1, Run.ctx, pubAux, BMap.get?_tabulate, hk, if_true, Out.ofOption_some, Out.bind_ok, Out.bind_eq_ok] at this
    obtain ⟨p, hp, o1, h1, o2, h2, he⟩ := this
    cases he
    exact ⟨p, Out.ofOption_eq_ok.1 hp, h1, h2⟩

/-- A multiplication that a party with valid draws did with an invertible ciphertext is accepted. -/
theorem Good.mtaSend_accepted (h : S.Good sk) {i j : I} (hi : i ∈ S.ids) (hj : j ∈ S.ids) {c : Ct (S.N j)} {m : Int} (hc : (⟨S.N j, c⟩ : Cipher).Holds (S.N j) m) (x : ZMod q)
    (d : MtaDraws I) (hd : MtaDrawsValid S.E.P (S.N j) (S.N i) (S.setup j).modulus d j) {o : MtaOut q G}
    (ho : mtaSend S.E (S.ctx i) ⟨S.N j, S.setup j⟩ ⟨S.N j, c⟩ (signedI S.E.P x) (x • S.E.C.g) d j = .ok o) :
    o.capD.pk = S.N j ∧ o.capF.pk = S.N i ∧
      ∀ ε, (affGVerify S.E (S.N j) (S.N i) o.psi ⟨S.N j, c⟩ o.capD o.capF (x • S.E.C.g) (S.setup j) (S.epid, i) : Out ε _) = .ok true := by
  have hkeys : MtaKeys S.E.P (S.N j) (S.N i) (S.setup j) := ⟨h.pos hj, h.pos hi, h.rpPos j hj, h.rpSize j hj, h.rpValid j hj⟩
  obtain ⟨o', h1, h2, h3, -, -, h6⟩ := mtaSend_honest h.setting (c := S.ctx i) (target := ⟨S.N j, S.setup j⟩) hkeys hc x d j hd
  have : o' = o := Out.ok.inj (h1.symm.trans ho)
  subst this
  exact ⟨h2.pk, h3.pk, h6⟩

/-- The condition under which all multiplications of a party are accepted by another one that holds the same payloads of round 1 -/
theorem Good.mtaVerify_agreed (h : S.Good sk) (hol : ∀ j ∈ S.ids, ∀ c : Ct (S.N j), IsUnit c → ∃ m, (⟨S.N j, c⟩ : Cipher).Holds (S.N j) m)
    {peer : I} (hpeer : peer ∈ S.ids) (me : I) {x : ZMod q} {d : MtaDraws I} (hd : ∀ j ∈ S.ids, peer ≠ j → MtaDrawsValid S.E.P (S.N j) (S.N peer) (S.setup j).modulus d j)
    {payloads1 : BMap I (Payload1 G)} {outs : BMap I (MtaOut q G × MtaOut q G)} (houts : outs.keySet = S.ids.erase peer) (f : MtaOut q G × MtaOut q G → MtaOut q G)
    (hsent : ∀ k o, outs.get? k = some o → ∃ (p : Payload1 G) (c : Ct (S.N k)), payloads1.get? k = some p ∧ p.capK = ⟨S.N k, c⟩ ∧ IsUnit c ∧
      mtaSend S.E (S.ctx peer) ⟨S.N k, S.setup k⟩ p.capK (signedI S.E.P x) (x • S.E.C.g) d k = .ok (f o)) (failed : I → Err I)
    {capX : Out (RecvErr (Err I)) G} (hX : capX = .ok (x • S.E.C.g)) :
    ∃ dfs, Signing.mtaVerify S.E (S.ctx me) payloads1 peer (S.N peer) capX failed (outs.mapVals fun _ o => (f o).psi)
      (outs.mapVals fun _ o => (f o).capD.toWire) (outs.mapVals fun _ o => (f o).capF.toWire) = .ok dfs := by
  refine ⟨(outs.mapVals fun _ o => (f o).psi).mapVals fun k _ => (Cipher.ofWire (S.N k) ((outs.get? k).elim 0 fun o => (f o).capD.toWire),
    Cipher.ofWire (S.N peer) ((outs.get? k).elim 0 fun o => (f o).capF.toWire)), ?_⟩
  unfold Signing.mtaVerify
  refine traverse_ok (g := fun k _ => (Cipher.ofWire (S.N k) ((outs.get? k).elim 0 fun o => (f o).capD.toWire),
    Cipher.ofWire (S.N peer) ((outs.get? k).elim 0 fun o => (f o).capF.toWire))) ?_
  intro k psi hpsi
  rw [BMap.get?_mapVals, Option.map_eq_some_iff] at hpsi
  obtain ⟨o, ho, rfl⟩ := hpsi
  have hk : k ∈ S.ids.erase peer := by
    rw [← houts, BMap.mem_keySet, BMap.mem_keys_iff]; exact ⟨_, ho⟩
  obtain ⟨hne, hk⟩ := Finset.mem_erase.1 hk
  obtain ⟨p, c, hp, hpk, hu, hs⟩ := hsent k o ho
  obtain ⟨m, hm⟩ := hol k hk c hu
  rw [hpk] at hs
  obtain ⟨h1, h2, h3⟩ := h.mtaSend_accepted hpeer hk hm x d (hd k hk (Ne.symm hne)) hs
  simp only [recvGet, Run.ctx, pubAux, BMap.get?_tabulate, BMap.get?_mapVals, hk, ho, hp, hX, hpk, if_true, Option.map_some, Out.ofOption_some, Out.bind_ok, Option.elim_some]
  rw [ofWire_toWire' (h.pos hk) h1, ofWire_toWire' (h.pos hpeer) h2]
  refine (congrArg (fun x => Out.bind x _) (h3 _)).trans ?_
  rw [Out.bind_ok, if_neg (by simp)]

/-- In round 2, a party accepts what another one made that holds the same payloads of round 1. -/
theorem Good.recv2_no_fault (h : S.Good sk) (hol : ∀ j ∈ S.ids, ∀ c : Ct (S.N j), IsUnit c → ∃ m, (⟨S.N j, c⟩ : Cipher).Holds (S.N j) m)
    {me peer : I} (hme : me ∈ S.ids) (hpeer : peer ∈ S.ids) (hgamma : (S.d peer).gamma ≠ 0) {in1 in1P : List (I × Msg1 q G)} {r rP : Round2 q I Ep G}
    (hr : S.At2 me in1 r) (hrP : S.At2 peer in1P rP) (hsame : ∀ k ∈ S.ids, r.payloads1.get? k = rP.payloads1.get? k) {e : Err I} :
    Signing.recv2 S.E r peer (msg2 rP) ≠ .err (.protocol e) := by
  have hshape : ∀ k o, rP.outs.get? k = some o → ∃ (p : Payload1 G) (c : Ct (S.N k)), r.payloads1.get? k = some p ∧ p.capK = ⟨S.N k, c⟩ ∧ IsUnit c ∧
      mtaSend S.E (S.ctx peer) ⟨S.N k, S.setup k⟩ p.capK (signedI S.E.P (S.d peer).gamma) ((S.d peer).gamma • S.E.C.g) (S.d peer).mta k = .ok o.1 ∧
      mtaSend S.E (S.ctx peer) ⟨S.N k, S.setup k⟩ p.capK (signedI S.E.P (S.shares peer).secret) ((S.shares peer).secret • S.E.C.g) (S.d peer).hatMta k = .ok o.2 := by
    intro k o ho
    obtain ⟨p, hp, h1, h2⟩ := hrP.out k o ho
    have hk : k ∈ S.ids.erase peer := by
      rw [← hrP.outs, BMap.mem_keySet, BMap.mem_keys_iff]; exact ⟨_, ho⟩
    obtain ⟨m, hm⟩ := exists_from hrP.senders hk
    have hpk := hrP.payload k m hm
    rw [hp] at hpk
    cases hpk
    refine ⟨_, ctOfWire (S.N k) m.echo.capK, (hsame k (Finset.mem_of_mem_erase hk)).trans hp, rfl, ?_, h1, h2⟩
    unfold mtaSend at h1
    simp only [Out.bind_eq_ok] at h1
    obtain ⟨_, -, kx, hkx, -⟩ := h1
    exact mulSecret_isUnit (h.pos (Finset.mem_of_mem_erase hk)) (signedI_fits h.setting _) (centre_ne_zero hgamma) hkx
  obtain ⟨dfs, hv1⟩ := h.mtaVerify_agreed hol hpeer me (x := (S.d peer).gamma) (d := (S.d peer).mta) (h.draws.mta peer hpeer) (payloads1 := r.payloads1) hrP.outs Prod.fst
    (fun k o ho => by obtain ⟨p, c, h1, h2, h3, h4, -⟩ := hshape k o ho; exact ⟨p, c, h1, h2, h3, h4⟩) .r2AffGPsiFailed (capX := .ok rP.capGamma) (by rw [hrP.capGamma])
  obtain ⟨hatDfs, hv2⟩ := h.mtaVerify_agreed hol hpeer me (x := (S.shares peer).secret) (d := (S.d peer).hatMta) (h.draws.hatMta peer hpeer) (payloads1 := r.payloads1)
    hrP.outs Prod.snd (fun k o ho => by obtain ⟨p, c, h1, h2, h3, -, h4⟩ := hshape k o ho; exact ⟨p, c, h1, h2, h3, h4⟩) .r2AffGHatPsiFailed
    (capX := recvGet (S.shares me).pub peer) (by unfold recvGet; rw [h.keys.public_matches me hme peer hpeer, Out.ofOption_some])
  have hown : r.payloads1.get? peer = some (S.pl1 peer) := (hsame peer hpeer).trans hrP.own
  have helog : (S.psiElog peer).verify S.E.elogH S.E.C.g ((S.pl1 peer).elogPub S.E.C.g ((S.d peer).gamma • S.E.C.g)) (S.epid, peer) = true := by
    apply Props.C26_complete
    refine ⟨rfl, ?_, rfl⟩
    show (S.d peer).b • (S.d peer).y • S.E.C.g + (S.d peer).gamma • S.E.C.g = (S.d peer).gamma • S.E.C.g + (S.d peer).b • (S.d peer).y • S.E.C.g
    abel
  intro hrecv
  unfold Signing.recv2 at hrecv
  have hexp : (S.ctx me).allIds.erase peer = S.ids.erase peer := rfl
  have hpa : (S.ctx me).pubAux = S.pubAux := rfl
  have hks : (S.ctx me).keyShare = S.shares me := rfl
  have hep : (S.ctx me).epid = S.epid := rfl
  simp only [hr.ctx, hexp, hks, hep] at hrecv
  rw [hpa] at hrecv
  simp only [msg2, recvGet, pubAux, BMap.get?_tabulate, hpeer, hown, if_true, Out.ofOption_some, Out.bind_ok, BMap.keySet_mapVals, hrP.outs, ne_eq, not_true_eq_false,
    if_false] at hrecv
  rw [hv1, Out.bind_ok] at hrecv
  unfold recvGet at hv2
  rw [← hrP.psiElog, ← hrP.capGamma] at helog
  rw [hv2, Out.bind_ok] at hrecv
  replace hrecv := (if_neg (not_not.2 helog)).symm.trans hrecv
  rcases Out.bind_eq_err.1 hrecv with hx | ⟨_, -, hrecv⟩
  · cases hg : dfs.get? (S.ctx me).myId <;> rw [hg] at hx <;> simp at hx
  · rcases Out.bind_eq_err.1 hrecv with hx | ⟨_, -, hrecv⟩
    · exact decryptCipher_ne_err hx
    · rcases Out.bind_eq_err.1 hrecv with hx | ⟨_, -, hrecv⟩
      · cases hg : hatDfs.get? (S.ctx me).myId <;> rw [hg] at hx <;> simp at hx
      · rcases Out.bind_eq_err.1 hrecv with hx | ⟨_, -, hrecv⟩
        · exact decryptCipher_ne_err hx
        · cases hrecv

/-- What a party holds at the start of round 3 -/
theorem toRound3_parts {i : I} {in1 : List (I × Msg1 q G)} {in2 : List (I × Msg2 q I G)} {r : Round3 q I Ep G} (hr : toRound3 S.E (S.r1 i) in1 in2 = .ok r) :
    ∃ r2, toRound2 S.E (S.r1 i) in1 = .ok r2 ∧ r.payloads1 = r2.payloads1 ∧ (in2.map Prod.fst).Nodup ∧ (in2.map Prod.fst).toFinset = S.ids.erase i ∧
      ∃ p, r2.payloads1.get? i = some p ∧ r.msg.capDelta = (S.d i).k • r.capGammaCombined ∧ r.msg.capS = r.chi • r.capGammaCombined ∧
        r.msg.psiPrime = ElogProof.prove S.E.elogH S.E.C.g (S.d i).k (S.d i).a (p.elogPub' r.msg.capDelta r.capGammaCombined) (S.epid, i) (S.d i).elogAlpha'
          (S.d i).elogM' := by
  unfold toRound3 at hr
  obtain ⟨r2, h2, hr⟩ := Out.bind_eq_ok.1 hr
  obtain ⟨pls, hc, hr⟩ := Out.bind_eq_ok.1 hr
  have hctx := toRound2_ok h2
  obtain ⟨nd, ex, -, -⟩ := collect_eq_ok.1 hc
  rw [hctx] at ex
  have hr := finalizeResult_eq_ok.1 hr
  unfold Signing.finalize2 at hr
  simp only [Out.bind_eq_ok, hctx, finGet] at hr
  obtain ⟨p, hp, hr⟩ := hr
  cases hr
  exact ⟨r2, h2, rfl, nd, ex, p, Out.ofOption_eq_ok.1 hp, rfl, rfl, rfl⟩

end Run

end Synedrion.Signing
