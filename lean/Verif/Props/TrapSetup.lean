import Verif.Spec.TrapSetup
import Verif.Lemmas.TrapSetup
import Verif.Lemmas.AuxGenRun
import Verif.Lemmas.ZeroKnowledge
import Verif.Lemmas.SigningRun
import Verif.Lemmas.ToyAux
import Verif.Lemmas.ToySigningRun
import Verif.Props.AuxGen
import Verif.Props.KeyRefresh

/-!
# Property C70: commitments with another party's parameters hide the secrets

The zero-knowledge proofs of the protocols contain commitments to secrets, made with the ring-Pedersen parameters of the party that checks the proof. They hide the secrets if those parameters are of the
right form. But other parameters are accepted too, and with them the commitments show the secrets.
-/

set_option linter.unusedSectionVars false

namespace Synedrion.Props

open Spec

/-- **C70 (good parameters; part).** If `s` is a power of the invertible `t`, then the commitments to any two values, with a uniform mask in `±N 2^exp`, are at most `2^-exp` apart. So they tell next to
nothing about the value, whatever the computing power. The parameters that an honest party makes are like this (C24), and the mask is drawn with `exp = L` in all proofs. Missing: other parameters that are
accepted, for which it is false (`C70_primes_revealed`, `C70_key_revealed`). -/
theorem C70_commitment_hides_partial {Nh : Nat} (hN : 0 < Nh) (setup : RPParams Nh) (ht : IsUnit setup.t) (lambda : Nat) (hs : setup.s = setup.t ^ lambda)
    (exp : Nat) (hexp : 0 < exp) (x x' : SInt) (hx : x.Fits) (hx' : x'.Fits) :
    let commit (x : SInt) (mu : Int) : Out Unit (ZMod Nh) := setup.commitSecret x ⟨exp + bitLen Nh, mu⟩
    StatClose (1 / 2 ^ exp) (pmScaled exp Nh) (commit x) (pmScaled exp Nh) (commit x') := by
  intro commit
  obtain ⟨t, ht⟩ := ht
  have hs' : ((t ^ lambda : (ZMod Nh)ˣ) : ZMod Nh) = setup.s := by rw [hs, ← ht]; push_cast; rfl
  have hcom : ∀ (y : SInt), y.Fits → ∀ mu ∈ pmScaled exp Nh, commit y mu = .ok ((comU (t ^ lambda) t y.val mu : (ZMod Nh)ˣ) : ZMod Nh) := by
    intro y hy mu hmu
    have hd : (⟨exp + bitLen Nh, mu⟩ : SInt).IsScaledDraw exp Nh := ⟨rfl, mem_pmScaled.1 hmu⟩
    exact commitSecret_unit hs' ht hy (hd.fits hexp)
  obtain ⟨c, hc, hsh⟩ := commitment_hides hN (s := t ^ lambda) (t := t) (l := (lambda : Int)) (zpow_natCast t lambda).symm (x.val - x'.val)
  refine statClose_of_matching rfl (fun mu => mu + c ∈ pmScaled exp Nh) (fun mu => mu + c) (fun _ _ h => h) (fun a _ b _ _ _ h => add_right_cancel h) ?_ (by positivity) ?_
  · intro mu hmu hg
    rw [hcom x hx mu hmu, hcom x' hx' _ hg]
    refine congrArg Out.ok (congrArg Units.val ?_)
    have h1 := hsh mu
    have h2 := comU_mul (t ^ lambda) t (x.val - x'.val) x'.val mu 0
    have h3 := comU_mul (t ^ lambda) t 0 x'.val (mu + c) 0
    rw [h1, h3] at h2
    simpa using h2.symm
  · have := Mostly.pmScaled_shift (scale := Nh) hexp (n := 1) (by rw [one_mul]; exact hc)
    simpa [Mostly] using this

/-! ### Generation of auxiliary info -/

section
open AuxGen
variable {I Sid V : Type} [LinearOrder I] [DecidableEq V]

private theorem trapBase_facts {P : Params} (hm : P.modBits = 2 * P.primeBits) (hp : 1 < P.primeBits) :
    1 < trapBase P ∧ (trapSetup (trapBase P)).modulus % 2 = 1 ∧ (trapSetup (trapBase P)).modulus < 2 ^ P.modBits ∧
      ¬ bitLen (trapSetup (trapBase P)).modulus < P.modBits - 2 := by
  have h4 : 4 ≤ 2 ^ P.primeBits := by
    calc 4 = 2 ^ 2 := rfl
      _ ≤ _ := Nat.pow_le_pow_right (by norm_num) hp
  have hev : 2 ^ P.primeBits % 2 = 0 := Nat.mod_eq_zero_of_dvd (dvd_pow_self 2 (by omega))
  have hlow : 2 ^ (P.primeBits - 1) ≤ trapBase P := by
    unfold trapBase
    have : 2 ^ P.primeBits = 2 * 2 ^ (P.primeBits - 1) := by rw [← pow_succ']; congr 1; omega
    have h1 : 0 < 2 ^ (P.primeBits - 1) := by positivity
    omega
  refine ⟨by unfold trapBase; omega, ?_, ?_, ?_⟩
  · show trapBase P ^ 2 % 2 = 1
    rw [Nat.pow_mod, show trapBase P % 2 = 1 by unfold trapBase; omega]
  · show trapBase P ^ 2 < _
    rw [hm, Nat.mul_comm, pow_mul]
    exact Nat.pow_lt_pow_left (by unfold trapBase; omega) (by norm_num)
  · have := bitLen_mul_ge (b := P.primeBits) (by omega) hlow hlow
    rw [hm]
    show ¬ bitLen (trapBase P ^ 2) < _
    rw [pow_two]; exact this

private theorem primeBits_gt {E : AuxEnv I Sid} {k : Nat} (hE : HashesValid E k) {d : AuxDraws I} (hd : DrawsValid E k d) : 1 < E.P.primeBits := by
  obtain ⟨-, -, hs1, hs2, hs3, hs4, hs5, hs6, hs7⟩ := hE.consistent
  have := hE.curve
  have : E.P.L = E.P.numBits := rfl
  have := FullSizePrimes.primeBits_pos hd.key
  by_contra hcon
  have h1 : E.P.primeBits = 1 := by omega
  have h3 := hd.key.highP
  rw [h1] at h3
  have := hd.key.primes.prime_p.two_le
  omega

/-- What is read from a factoring proof -/
private theorem fac_read {E : AuxEnv I Sid} {k : Nat} (hE : HashesValid E k) {d : AuxDraws I} (hd : DrawsValid E k d) (t1 : 1 < trapBase E.P) {mask : FacMasks}
    (hmask : FacMasksValid E.P (d.p * d.q) (trapSetup (trapBase E.P)).modulus mask) {aux : Sid × I × List Bool} {prf : FacProof}
    (hf : (FacProof.prove E.P E.facH d.p d.q (trapSetup (trapBase E.P)).rp aux mask : Out LocalErr _) = .ok prf) :
    readPositive (trapBase E.P) prf.capP = d.p ∧ readPositive (trapBase E.P) prf.capQ = d.q := by
  obtain ⟨pS, qS, cP, cQ, a1, a2, a3, a4, a5, a6⟩ := FacProof.prove_commitments hf
  have hpr : ∀ {p : Nat} {pS : SInt}, p < 2 ^ E.P.primeBits → (primeSigned E.P p : Out LocalErr _) = .ok pS → pS.Fits ∧ pS.val = p := by
    intro p pS hp h
    unfold primeSigned at h
    split at h
    · cases h; exact ⟨by unfold SInt.Fits; simpa using hp, rfl⟩
    · simp at h
  obtain ⟨fp, vp⟩ := hpr hd.key.highP a1
  obtain ⟨fq, vq⟩ := hpr hd.key.highQ a2
  have hL : 0 < E.P.L := hE.curve
  obtain ⟨c1, e1, e2⟩ := trap_commit (ε := LocalErr) t1 fp (hmask.mu.fits hL)
  obtain ⟨c2, e3, e4⟩ := trap_commit (ε := LocalErr) t1 fq (hmask.nu.fits hL)
  rw [a3] at e1; cases e1
  rw [a4] at e3; cases e3
  rw [vp] at e2; rw [vq] at e4
  have hle : ∀ p, p < 2 ^ E.P.primeBits → p ≤ trapBase E.P := fun p hp => by unfold trapBase; omega
  rw [a5, a6]
  exact ⟨readPositive_eq hd.key.primes.prime_p.pos (hle _ hd.key.highP) e2, readPositive_eq hd.key.primes.prime_q.pos (hle _ hd.key.highQ) e4⟩

/-- **C70 (finding, auxiliary info).** Let the parties of `ids` generate auxiliary info, all of them as specified, except that `j` takes `trapSetup` as its ring-Pedersen parameters, with an empty proof.
Whatever the order of arrival, nobody notices: all parties finish with usable auxiliary info, and `j` has those parameters in it. In round 3 each of the others sends `j` a proof from which `j`
reads both primes of the sender's Paillier key. -/
theorem C70_primes_revealed (E : AuxEnv I Sid) (k : Nat) (hE : HashesValid E k) (hashV : Sid → I → Hashed → V) (ids : Finset I) (sid : Sid) {j : I} (hj : j ∈ ids)
    (d : I → AuxDraws I) (hd : ∀ i ∈ ids, DrawsValid E k (d i)) (setup : I → RPSetup)
    (hsetup : ∀ i, setup i = if i = j then trapSetup (trapBase E.P) else ⟨_, RPParams.withSecret ((d i).rpP * (d i).rpQ) E.P.modBits (d i).lambda (d i).tDraw⟩)
    (hfac : ∀ i ∈ ids, ∀ k ∈ ids, i ≠ k → FacDrawsValid E.P ((d i).p * (d i).q) (setup k).modulus ((d i).facMasks k))
    (len : Nat) (hlen : ∀ i ∈ ids, (d i).rid.length = len)
    (ctx0 : I → Context I Sid) (hctx : ∀ i ∈ ids, start E ids sid i (d i) = .ok (ctx0 i))
    (ctx : I → Context I Sid) (htrap : ∀ i, ctx i = if i = j then withTrap E (ctx0 i) else ctx0 i)
    (in1 : I → List (I × V)) (in2 : I → List (I × Msg2))
    (h1 : ∀ i ∈ ids, FromOthers ids i (fun k => msg1 hashV (ctx k)) (in1 i))
    (h2 : ∀ i ∈ ids, FromOthers ids i (fun k => msg2 (ctx k)) (in2 i)) :
    ∃ (r3 : I → Round3 I Sid) (m3 : I → I → Msg3), (∀ i ∈ ids, toRound3 E hashV (ctx i) (in1 i) (in2 i) = .ok (r3 i)) ∧
      (∀ i ∈ ids, ∀ k ∈ ids, i ≠ k → msg3 E (r3 i) k = .ok (m3 i k)) ∧
      (∀ i ∈ ids, i ≠ j → readPositive (trapBase E.P) (m3 i j).psi.capP = (d i).p ∧ readPositive (trapBase E.P) (m3 i j).psi.capQ = (d i).q) ∧
      (∀ in3 : I → List (I × Msg3), (∀ i ∈ ids, FromOthers ids i (fun k => m3 k i) (in3 i)) →
        ∃ infos : I → AuxInfo I PaillierKey PublicAux, (∀ i ∈ ids, run E hashV (ctx i) (in1 i) (in2 i) (in3 i) = .ok (infos i)) ∧
          (∀ i ∈ ids, (infos i).secret.p = (d i).p ∧ (infos i).secret.q = (d i).q) ∧ UsableAux E.P ids infos setup) := by
  have hm := HashesValid.modBits_eq hE
  have hpb := primeBits_gt hE (hd j hj)
  obtain ⟨t1, t2, t3, t4⟩ := trapBase_facts hm hpb
  let data : I → PublicData := fun i => if i = j then
    { hdata E sid j (d j) with rp := trapSetup (trapBase E.P), psi := ⟨[], E.prmH ⟨[], (trapSetup (trapBase E.P)).rp.toWire, (sid, j)⟩, []⟩ } else hdata E sid i (d i)
  have hj' : data j = { hdata E sid j (d j) with rp := trapSetup (trapBase E.P), psi := ⟨[], E.prmH ⟨[], (trapSetup (trapBase E.P)).rp.toWire, (sid, j)⟩, []⟩ } := if_pos rfl
  have hi' : ∀ i, i ≠ j → data i = hdata E sid i (d i) := fun i hne => if_neg hne
  have hrpd : ∀ i, (data i).rp = setup i := by
    intro i
    rw [hsetup i]
    by_cases hne : i = j
    · subst hne; rw [hj', if_pos rfl]
    · rw [hi' i hne, if_neg hne]; rfl
  have hs := fun i (hi : i ∈ ids) => start_ok (hctx i hi)
  have hsk : ∀ i, ∃ sk : SecretKey (d i).p (d i).q, i ∈ ids → (SecretKey.new (d i).p (d i).q : Out LocalErr _) = .ok sk ∧
      ctx i = ⟨⟨(d i).p, (d i).q, sk⟩, (data i).rp, i, ids.erase i, sid, data i, (d i).modDraw, (d i).modBit, (d i).facMasks⟩ := by
    intro i
    by_cases hi : i ∈ ids
    · obtain ⟨_, _, sk, h, h'⟩ := hs i hi
      refine ⟨sk, fun _ => ⟨h, ?_⟩⟩
      rw [htrap i]
      by_cases hne : i = j
      · subst hne; rw [if_pos rfl, hj', h']; rfl
      · rw [if_neg hne, hi' i hne, h']; rfl
    · exact ⟨⟨0, 0, 0, 0, 0⟩, fun h => absurd h hi⟩
  choose sk hsk using hsk
  have hok : ∀ i ∈ ids, 0 < (data i).rp.modulus ∧ (data i).rp.modulus < 2 ^ E.P.modBits ∧ (data i).rp.rp.Valid := by
    intro i hi
    by_cases hne : i = j
    · subst hne
      rw [hj']
      exact ⟨by by_contra h0; simp only [not_lt, Nat.le_zero] at h0; rw [h0] at t2; simp at t2, t3, trap_valid _⟩
    · rw [hi' i hne]; exact ⟨(hd i hi).rpKey.primes.pos, (hd i hi).rp_lt hE, (hd i hi).rp_valid⟩
  obtain ⟨r3, m3, rid, hto, hm3, hmf, hfin⟩ := run_core E k hE hashV ids sid d hd data
    (fun i _ => by by_cases hne : i = j; (subst hne; rw [hj']; rfl); rw [hi' i hne]; rfl)
    (fun i _ => by by_cases hne : i = j; (subst hne; rw [hj']; rfl); rw [hi' i hne]; rfl)
    (fun i hi capVs hv => by
      by_cases hne : i = j
      · subst hne
        rw [hj'] at hv ⊢
        unfold recv2
        rw [open_msg2 (odd_of_primes (hd i hi).key.primes) t2, Out.bind_ok]
        unfold recvGet
        rw [hv, Out.ofOption_some, Out.bind_ok, if_neg (by simp)]
        have b1 : ¬ bitLen (hdata E sid i (d i)).pk < E.P.modBits - 2 := FullSizePrimes.size (hd i hi).key hm
        refine (if_neg b1).trans ((if_neg t4).trans (if_neg ?_))
        rw [not_not]
        exact C32_empty_proof_accepted E.prmH _ (trapSetup (trapBase E.P)).rp (sid, i)
      · rw [hi' i hne] at hv ⊢
        exact hdata_accepted hE (hd i hi) sid i hashV capVs hv)
    hok (fun i hi k hk hne => by rw [hrpd]; exact hfac i hi k hk hne) len hlen sk ctx hsk in1 in2 h1 h2
  refine ⟨r3, m3, hto, hm3, ?_, fun in3 h3 => ?_⟩
  · intro i hi hne
    have hf := hmf i hi j hj hne
    have hmask := (hfac i hi j hj hne).masks
    have hst : setup j = trapSetup (trapBase E.P) := by rw [hsetup j, if_pos rfl]
    rw [hrpd, hst] at hf
    rw [hst] at hmask
    exact fac_read hE (hd i hi) t1 hmask hf
  · obtain ⟨infos, hrun, hcons, hpq, hnew⟩ := hfin in3 h3
    refine ⟨infos, hrun, hpq, ⟨⟨hcons.owner, hcons.holders, fun i hi k hk => ?_, fun i _ => rfl⟩, fun i hi => ?_, fun i hi => ?_, fun i hi => ?_, fun i hi => ?_, fun i hi => ?_⟩⟩
    · rw [hcons.public_agree i hi k hk, (hpq k hk).1, (hpq k hk).2, hrpd]
    · rw [(hpq i hi).1, (hpq i hi).2]; exact (hd i hi).key
    · obtain ⟨ε, h⟩ := hnew i hi
      exact Out.eq_ok_of_cast (SecretKey.new_cast _ _) h
    · rw [hsetup i]
      by_cases hne : i = j
      · rw [if_pos hne]; exact t2
      · rw [if_neg hne]; exact odd_of_primes (hd i hi).rpKey.primes
    · rw [← hrpd]; exact (hok i hi).2.1
    · rw [← hrpd]; exact (hok i hi).2.2

end

/-! ### Key refresh -/

section
open KeyRefresh
variable {I F G Sid V : Type} [LinearOrder I] [Field F] [LinearOrder F] [AddCommGroup G] [Module F G] [DecidableEq G] [DecidableEq V]

/-- **C70 (finding, key refresh).** The same in a key refresh, where the parties make new auxiliary info together with the changes of their shares: `j` reads the new primes of all the others, nobody notices, and
all parties finish with matching changes that add up to zero and with usable auxiliary info. -/
theorem C70_refresh_primes_revealed (E : Env I Sid F G) (k : Nat) (hE : HashesValid E.aux k) (hashV : Sid → I → Hashed I G → V) (ids : Finset I) (sid : Sid) {j : I} (hj : j ∈ ids)
    (d : I → Draws I F) (hd : ∀ i ∈ ids, DrawsValid E.aux k (d i).aux) (setup : I → RPSetup)
    (hsetup : ∀ i, setup i = if i = j then trapSetup (trapBase E.aux.P) else
      ⟨_, RPParams.withSecret ((d i).aux.rpP * (d i).aux.rpQ) E.aux.P.modBits (d i).aux.lambda (d i).aux.tDraw⟩)
    (hfac : ∀ i ∈ ids, ∀ k ∈ ids, i ≠ k → FacDrawsValid E.aux.P ((d i).aux.p * (d i).aux.q) (setup k).modulus ((d i).aux.facMasks k))
    (len : Nat) (hlen : ∀ i ∈ ids, (d i).aux.rid.length = len)
    (ctx0 : I → Context I F G Sid) (hctx : ∀ i ∈ ids, start E ids sid i (d i) = .ok (ctx0 i))
    (ctx : I → Context I F G Sid) (htrap : ∀ i, ctx i = if i = j then withTrapRefresh E.aux (ctx0 i) else ctx0 i)
    (in1 : I → List (I × V)) (in2 : I → List (I × Msg2 I G))
    (h1 : ∀ i ∈ ids, FromOthers ids i (fun k => msg1 hashV (ctx k)) (in1 i))
    (h2 : ∀ i ∈ ids, FromOthers ids i (fun k => msg2 (ctx k)) (in2 i)) :
    ∃ (r3 : I → Round3 I F G Sid) (m3 : I → I → Msg3 I F), (∀ i ∈ ids, toRound3 E hashV (ctx i) (in1 i) (in2 i) = .ok (r3 i)) ∧
      (∀ i ∈ ids, ∀ k ∈ ids, i ≠ k → msg3 E (r3 i) k = .ok (m3 i k)) ∧
      (∀ i ∈ ids, i ≠ j → readPositive (trapBase E.aux.P) (m3 i j).psi.capP = (d i).aux.p ∧ readPositive (trapBase E.aux.P) (m3 i j).psi.capQ = (d i).aux.q) ∧
      (∀ in3 : I → List (I × Msg3 I F), (∀ i ∈ ids, FromOthers ids i (fun k => m3 k i) (in3 i)) →
        ∃ (changes : I → KeyShareChange I F G) (infos : I → AuxInfo I PaillierKey PublicAux),
          (∀ i ∈ ids, run E hashV (ctx i) (in1 i) (in2 i) (in3 i) = .ok (changes i, infos i)) ∧ ZeroSumChange E.g ids changes ∧
          (∀ i ∈ ids, (infos i).secret.p = (d i).aux.p ∧ (infos i).secret.q = (d i).aux.q) ∧ UsableAux E.aux.P ids infos setup) := by
  have hm := HashesValid.modBits_eq hE
  obtain ⟨t1, t2, t3, t4⟩ := trapBase_facts hm (primeBits_gt hE (hd j hj))
  let trapData : AuxGen.PublicData := { AuxGen.hdata E.aux sid j (d j).aux with
    rp := trapSetup (trapBase E.aux.P), psi := ⟨[], E.aux.prmH ⟨[], (trapSetup (trapBase E.aux.P)).rp.toWire, (sid, j)⟩, []⟩ }
  let base : I → AuxGen.PublicData := fun i => if i = j then trapData else AuxGen.hdata E.aux sid i (d i).aux
  have hj' : base j = trapData := if_pos rfl
  have hi' : ∀ i, i ≠ j → base i = AuxGen.hdata E.aux sid i (d i).aux := fun i hne => if_neg hne
  have hrpd : ∀ i, (base i).rp = setup i := by
    intro i
    rw [hsetup i]
    by_cases hne : i = j
    · subst hne; rw [hj', if_pos rfl]
    · rw [hi' i hne, if_neg hne]; rfl
  have hsk : ∀ i, ∃ (sk : SecretKey (d i).aux.p (d i).aux.q) (x : I → F), i ∈ ids → (SecretKey.new (d i).aux.p (d i).aux.q : Out LocalErr _) = .ok sk ∧
      ∑ k ∈ ids, x k = 0 ∧ ctx i = tctx E ids sid i (d i) x sk (base i) := by
    intro i
    by_cases hi : i ∈ ids
    · obtain ⟨_, _, sk, x, h, hx, h'⟩ := start_ok (hctx i hi)
      refine ⟨sk, x, fun _ => ⟨h, hx, ?_⟩⟩
      rw [htrap i]
      by_cases hne : i = j
      · subst hne; rw [if_pos rfl, hj', h']; rfl
      · rw [if_neg hne, hi' i hne, h']; rfl
    · exact ⟨⟨0, 0, 0, 0, 0⟩, 0, fun h => absurd h hi⟩
  choose sk x hsk using hsk
  have hok : ∀ i ∈ ids, 0 < (base i).rp.modulus ∧ (base i).rp.modulus < 2 ^ E.aux.P.modBits ∧ (base i).rp.rp.Valid := by
    intro i hi
    by_cases hne : i = j
    · subst hne
      rw [hj']
      exact ⟨by by_contra h0; simp only [not_lt, Nat.le_zero, trapData] at h0; rw [h0] at t2; simp at t2, t3, trap_valid _⟩
    · rw [hi' i hne]; exact ⟨(hd i hi).rpKey.primes.pos, (hd i hi).rp_lt hE, (hd i hi).rp_valid⟩
  obtain ⟨r3, m3, rid, hto, hm3, hmf, hfin⟩ := run_core E k hE hashV ids sid d hd x base
    (fun i _ => by by_cases hne : i = j; (subst hne; rw [hj']; rfl); rw [hi' i hne]; rfl)
    (fun i _ => by by_cases hne : i = j; (subst hne; rw [hj']; rfl); rw [hi' i hne]; rfl)
    (fun i hi capVs hv => by
      by_cases hne : i = j
      · subst hne
        rw [hj'] at hv ⊢
        unfold recv2 Msg2.open
        rw [base_msg2]
        have ho : ((tdata E ids (d i) (x i) trapData).base.msg2.open : Out (RecvErr (Err I F)) _) = .ok trapData := open_msg2 (odd_of_primes (hd i hi).key.primes) t2
        rw [ho, Out.bind_ok, Out.bind_ok]
        unfold recvGet
        rw [hv, Out.ofOption_some, Out.bind_ok]
        have b1 : ¬ bitLen (AuxGen.hdata E.aux sid i (d i).aux).pk < E.aux.P.modBits - 2 := FullSizePrimes.size (hd i hi).key hm
        have s0 : (BMap.tabulate ids fun k => x i k • E.g).values.sum = 0 := by
          rw [BMap.sum_values_tabulate, ← Finset.sum_smul, (hsk i hi).2.1, zero_smul]
        refine (if_neg (not_not.2 rfl)).trans ((if_neg (not_not.2 (BMap.keySet_tabulate ..))).trans ((if_neg (not_not.2 (BMap.keySet_tabulate ..))).trans
          ((if_neg (not_not.2 (BMap.keySet_tabulate ..))).trans ((if_neg b1).trans ((if_neg t4).trans ((if_neg (not_not.2 s0)).trans (if_neg ?_)))))))
        rw [not_not]
        exact C32_empty_proof_accepted E.aux.prmH _ (trapSetup (trapBase E.aux.P)).rp (sid, i)
      · rw [hi' i hne] at hv ⊢
        exact hdata_accepted hE (hd i hi) sid i (hsk i hi).2.1 hashV capVs hv)
    hok (fun i hi k hk hne => by rw [hrpd]; exact hfac i hi k hk hne) len hlen sk ctx hsk in1 in2 h1 h2
  refine ⟨r3, m3, hto, hm3, ?_, fun in3 h3 => ?_⟩
  · intro i hi hne
    have hf := hmf i hi j hj hne
    have hmask := (hfac i hi j hj hne).masks
    have hst : setup j = trapSetup (trapBase E.aux.P) := by rw [hsetup j, if_pos rfl]
    rw [hrpd, hst] at hf
    rw [hst] at hmask
    exact fac_read hE (hd i hi) t1 hmask hf
  · obtain ⟨changes, infos, hrun, hz, hcons, hpq, hnew⟩ := hfin in3 h3
    refine ⟨changes, infos, hrun, hz, hpq, ⟨⟨hcons.owner, hcons.holders, fun i hi k hk => ?_, fun i _ => rfl⟩, fun i hi => ?_, fun i hi => ?_, fun i hi => ?_, fun i hi => ?_, fun i hi => ?_⟩⟩
    · rw [hcons.public_agree i hi k hk, (hpq k hk).1, (hpq k hk).2, hrpd]
    · rw [(hpq i hi).1, (hpq i hi).2]; exact (hd i hi).key
    · obtain ⟨ε, h⟩ := hnew i hi
      exact Out.eq_ok_of_cast (SecretKey.new_cast _ _) h
    · rw [hsetup i]
      by_cases hne : i = j
      · rw [if_pos hne]; exact t2
      · rw [if_neg hne]; exact odd_of_primes (hd i hi).rpKey.primes
    · rw [← hrpd]; exact (hok i hi).2.1
    · rw [← hrpd]; exact (hok i hi).2.2

end

/-! ### Signing -/

section
open Signing
variable {q : Nat} [Fact q.Prime] {I Ep G : Type} [LinearOrder I] [AddCommGroup G] [Module (ZMod q) G] [DecidableEq G]

private theorem mtaSend_capS {E : Env q I Ep G} {c : Context q I Ep G} {target : PubAux} {capK : Cipher} {x : SInt} {capX : G} {d : MtaDraws I} {id : I} {out : MtaOut q G}
    (h : mtaSend E c target capK x capX d id = .ok out) :
    ∃ v, (target.rp.rp.commitSecret x (d.masks id).m : Out LocalErr _) = .ok v ∧ out.psi.capS = commitmentToWire v := by
  simp only [mtaSend, affGProve, AffGProof.prove, Out.bind_eq_ok] at h
  obtain ⟨_, _, _, _, _, _, _, _, psi, ⟨_, _, _, _, _, _, _, _, _, _, _, _, _, _, _, _, _, _, v, hv, h⟩, h'⟩ := h
  refine ⟨v, hv, ?_⟩
  obtain ⟨_, _, _, _, _, _, _, _, _, _, _, _, _, _, _, _, h⟩ := h
  cases h
  cases h'
  rfl

private theorem encElg_capS {E : Env q I Ep G} {x : SInt} {rho : Nat} {b : ZMod q} {N0 Nh : Nat} {pub : EncElgPublic N0 G} {setup : RPParams Nh} {aux : Ep × I} {mask : EncElgMasks q}
    {prf : EncElgProof q G} (h : (EncElgProof.prove E.P E.encH E.C.g x rho b pub setup aux mask : Out LocalErr _) = .ok prf) :
    ∃ v, (setup.commitSecret x mask.mu : Out LocalErr _) = .ok v ∧ prf.capS = commitmentToWire v := by
  simp only [EncElgProof.prove, Out.bind_eq_ok] at h
  obtain ⟨_, _, v, hv, h⟩ := h
  refine ⟨v, hv, ?_⟩
  obtain ⟨_, _, _, _, _, _, _, _, _, _, h⟩ := h
  cases h
  rfl

variable (E : Env q I Ep G) (hE : SigningSetting E) (epidOf : BMap I G → BMap I PublicAux → Ep) (message sk : ZMod q) (ids : Finset I)
  (shares : I → KeyShare I (ZMod q) G) (hshares : SharesKey E.C.g ids shares sk) (infos : I → AuxInfo I PaillierKey PublicAux) (setup : I → RPSetup)
  (haux : UsableAux E.P ids infos setup) (d : I → Draws q I)
  (hd : SigningDrawsValid E.P ids (fun i => (infos i).secret.modulus) (fun i => (setup i).modulus) d)

include hE hshares haux hd in
/-- **C70 (finding, signing).** Let all parties of `ids` sign as specified, with valid shares, auxiliary info and draws, where the ring-Pedersen parameters of `j` are `trapSetup`. Then `j` reads from the
message that another signer sends it in round 1 the signer's share of the nonce, and from the proof that the signer broadcasts for it in round 2 the signer's secret share, exactly and for all draws. Together
with its own share `j` then has the key. The second proof is in a broadcast, so all the other signers can read the secret share as well. -/
theorem C70_key_revealed {j : I} (hj : j ∈ ids) (m : Nat) (hm : 2 ^ E.P.L ≤ m) (htrap : setup j = trapSetup m) (r1 : I → Round1 q I Ep G)
    (hst : ∀ i ∈ ids, start E epidOf message (shares i) (infos i) i (d i) = .ok (r1 i)) :
    ∃ m1 : I → I → Msg1 q G, (∀ i ∈ ids, ∀ k ∈ ids, i ≠ k → msg1 E (r1 i) k = .ok (m1 i k)) ∧
      (∀ i ∈ ids, i ≠ j → readScalar m q (m1 i j).psi0.capS = (d i).k ∧ readScalar m q (m1 i j).psi1.capS = (d i).gamma) ∧
      ∀ in1 : I → List (I × Msg1 q G), (∀ i ∈ ids, FromOthers ids i (fun k => m1 k i) (in1 i)) →
        ∃ (r2 : I → Round2 q I Ep G) (psi : I → AffGProof q G), (∀ i ∈ ids, toRound2 E (r1 i) (in1 i) = .ok (r2 i)) ∧
          (∀ i ∈ ids, i ≠ j → (msg2 (r2 i)).hatPsis.get? j = some (psi i) ∧ readScalar m q (psi i).capS = (shares i).secret) ∧
          (shares j).secret + ∑ i ∈ ids.erase j, readScalar m q (psi i).capS = sk := by
  obtain ⟨S, hS⟩ : ∃ S, S = honest E epidOf message ids shares infos setup d := ⟨_, rfl⟩
  have good : S.Good sk := hS ▸ honest_good E hE epidOf message sk ids shares hshares infos setup haux d hd
  have hr1 : ∀ i ∈ ids, r1 i = S.r1 i := by
    intro i hi
    have h := hst i hi
    rw [honest_start E hE epidOf message sk ids shares hshares infos setup haux d hi] at h
    rw [hS]; exact (Out.ok.inj h).symm
  have hids : S.ids = ids := by rw [hS]; rfl
  have hSE : S.E = E := by rw [hS]; rfl
  have hSd : S.d = d := by rw [hS]; rfl
  have hSs : S.shares = shares := by rw [hS]; rfl
  have hSu : S.setup = setup := by rw [hS]; rfl
  clear hS
  subst hids hSE hSd hSs hSu
  have hL : 0 < S.E.P.L := hE.curve
  have hm1 : 1 < m := lt_of_lt_of_le (Nat.one_lt_two_pow (by omega)) hm
  have hread : ∀ (x : ZMod q) (r : SInt), r.Fits → ∀ v, ((S.setup j).rp.commitSecret (signedI S.E.P x) r : Out LocalErr _) = .ok v →
      readScalar m q (commitmentToWire v) = x := by
    rw [htrap]
    intro x r hr v hv
    obtain ⟨c, h1, h2⟩ := trap_commit (ε := LocalErr) hm1 (signedI_fits hE x) hr
    rw [hv] at h1; cases h1
    refine (readScalar_eq ?_ h2).trans (centre_cast x)
    have h3 := signedI_abs hE x
    have h4 : (2 : Int) ^ S.E.P.L = 2 * 2 ^ (S.E.P.L - 1) := by rw [← pow_succ']; congr 1; omega
    have h5 : (2 : Int) ^ S.E.P.L ≤ m := by exact_mod_cast hm
    linarith
  obtain ⟨m1, o, ho, hs1, hrun⟩ := Run.good_rounds good
  refine ⟨m1, fun i hi k hk hik => by rw [hr1 i hi]; exact (hs1 i hi k hk hik).sent, ?_, fun in1 h1 => ?_⟩
  · intro i hi hne
    have h := (hs1 i hi j hj hne).sent
    have hget : (S.r1 i).ctx.pubAux.get? j = some ⟨S.N j, S.setup j⟩ := by
      show S.pubAux.get? j = _
      simp only [Run.pubAux, BMap.get?_tabulate, hj, if_true]
    simp only [msg1, signedOfSecret_ok hE, Out.bind_ok, finGet, hget, Out.ofOption_some, Out.bind_eq_ok] at h
    obtain ⟨psi0, a0, psi1, a1, h⟩ := h
    rw [← Out.ok.inj h]
    obtain ⟨v0, b0, c0⟩ := encElg_capS (E := S.E) a0
    obtain ⟨v1, b1, c1⟩ := encElg_capS (E := S.E) a1
    simp only [c0, c1]
    exact ⟨hread _ _ ((good.draws.enc0 i hi j hj hne).masks.mu.fits hL) _ b0, hread _ _ ((good.draws.enc1 i hi j hj hne).masks.mu.fits hL) _ b1⟩
  · obtain ⟨h2, -⟩ := hrun in1 h1
    have hps : ∀ i ∈ S.ids, i ≠ j → readScalar m q (o i j).2.psi.capS = (S.shares i).secret := by
      intro i hi hne
      obtain ⟨v, hv, hc⟩ := mtaSend_capS (ho.hatMta i hi j hj hne).sent
      rw [hc]
      exact hread _ _ ((good.draws.hatMta i hi j hj hne).masks.m.fits hL) _ hv
    refine ⟨S.r2 o, fun i => (o i j).2.psi, fun i hi => by rw [hr1 i hi]; exact h2 i hi, fun i hi hne => ⟨?_, hps i hi hne⟩, ?_⟩
    · have hjm : j ∈ S.ids.erase i := Finset.mem_erase.2 ⟨Ne.symm hne, hj⟩
      simp only [msg2, Run.r2, BMap.get?_mapVals, BMap.get?_tabulate, hjm, if_true, Option.map_some]
    · rw [Finset.sum_congr rfl (fun i hi => hps i (Finset.mem_of_mem_erase hi) (Finset.ne_of_mem_erase hi)), Finset.add_sum_erase S.ids (fun i => (S.shares i).secret) hj]
      exact good.keys.sum

end

/-! ### The hypotheses can be met -/

section Examples
open AuxGen

/-- Honest parameters modulo 77: the commitments to 3 and to -5 with masks in `±77·2^32`. -/
example :
    let setup := RPParams.withSecret 77 8 5 2
    StatClose (1 / 2 ^ 32) (pmScaled 32 77) (fun mu => (setup.commitSecret ⟨3, 3⟩ ⟨32 + bitLen 77, mu⟩ : Out Unit _))
      (pmScaled 32 77) (fun mu => (setup.commitSecret ⟨3, -5⟩ ⟨32 + bitLen 77, mu⟩ : Out Unit _)) := by
  obtain ⟨h1, h2, -⟩ := C24_generated_parameters 77 8 5 2 (by norm_num) (by constructor <;> decide)
  exact C70_commitment_hides_partial (by norm_num) _ h2 5 h1 32 (by norm_num) ⟨3, 3⟩ ⟨3, -5⟩ (by unfold SInt.Fits; decide) (by unfold SInt.Fits; decide)

/-- The masks of the factoring proofs for the modulus of `trapSetup` -/
private def trapMasks : FacMasks := ⟨⟨96 + 127, 12345⟩, ⟨96 + 127, -5⟩, ⟨32 + 256, 5⟩, ⟨32 + 256, 77⟩, ⟨96 + bitLen (Toy.primeP * Toy.primeQ * (2 ^ 128 - 1) ^ 2), -1000⟩, ⟨96 + 256, 1000⟩, ⟨96 + 256, -9⟩⟩

private def trapDraws (i : Nat) : AuxDraws Nat := { Toy.auxDraws i with facMasks := fun j => if j = 2 then trapMasks else Toy.facMasks }

private theorem trapMasks_valid : FacDrawsValid Params.test (Toy.primeP * Toy.primeQ) ((2 ^ 128 - 1) ^ 2) trapMasks where
  masks := ⟨⟨by decide +kernel, by unfold InPmScaled; decide +kernel⟩, ⟨by decide +kernel, by unfold InPmScaled; decide +kernel⟩, ⟨by decide +kernel, by unfold InPmScaled; decide +kernel⟩,
    ⟨by decide +kernel, by unfold InPmScaled; decide +kernel⟩, ⟨by decide +kernel, by unfold InPmScaled; decide +kernel⟩, ⟨by decide +kernel, by unfold InPmScaled; decide +kernel⟩,
    ⟨by decide +kernel, by unfold InPmScaled; decide +kernel⟩⟩
  innerAlpha := by decide +kernel
  innerBeta := by decide +kernel

private theorem trapDraws_valid (i : Nat) (hi : i < 1000) : DrawsValid Toy.auxEnv 2 (trapDraws i) := by
  obtain ⟨a1, a2, a3, a4, a5, a6, a7, a8, a9, a10⟩ := Toy.auxDraws_valid i hi
  exact ⟨a1, a2, a3, a4, a5, a6, a7, a8, a9, a10⟩

/-- Three parties generate auxiliary info. Party 2 has the parameters `trapSetup` and reads the primes of party 1 from its message of round 3. -/
example : ∃ (c : Context Nat Nat) (in1 : List (Nat × (Nat × Hashed))) (in2 : List (Nat × Msg2)) (r3 : Round3 Nat Nat) (m3 : Msg3),
    start Toy.auxEnv {1, 2, 3} 7 1 (trapDraws 1) = .ok c ∧ toRound3 Toy.auxEnv (fun _ i h => (i, h)) c in1 in2 = .ok r3 ∧ msg3 Toy.auxEnv r3 2 = .ok m3 ∧
    readPositive (trapBase Params.test) m3.psi.capP = Toy.primeP ∧ readPositive (trapBase Params.test) m3.psi.capQ = Toy.primeQ := by
  have hlt : ∀ i ∈ ({1, 2, 3} : Finset Nat), i < 1000 := by decide
  have hst : ∀ i, ∃ c, i ∈ ({1, 2, 3} : Finset Nat) → start Toy.auxEnv {1, 2, 3} 7 i (trapDraws i) = .ok c := by
    intro i
    by_cases hi : i ∈ ({1, 2, 3} : Finset Nat)
    · obtain ⟨c, hc, -⟩ := C54_start Toy.auxEnv 2 {1, 2, 3} 7 i hi (trapDraws i) (trapDraws_valid i (hlt i hi))
      exact ⟨c, fun _ => hc⟩
    · exact ⟨⟨⟨0, 0, ⟨0, 0, 0, 0, 0⟩⟩, trapSetup 3, 0, ∅, 0, ⟨0, trapSetup 3, ⟨[], [], []⟩, [], []⟩, 0, true, fun _ => trapMasks⟩, fun h => absurd h hi⟩
  choose ctx0 hctx using hst
  obtain ⟨ctx, htrap⟩ : ∃ ctx : Nat → Context Nat Nat, ∀ i, ctx i = if i = 2 then withTrap Toy.auxEnv (ctx0 i) else ctx0 i := ⟨_, fun _ => rfl⟩
  obtain ⟨r3, m3, hto, hm3, hread, -⟩ := C70_primes_revealed Toy.auxEnv 2 Toy.auxEnv_valid (fun (_ : Nat) (i : Nat) (h : Hashed) => (i, h)) {1, 2, 3} 7 (j := 2) (by decide)
    trapDraws (fun i hi => trapDraws_valid i (hlt i hi)) _ (fun _ => rfl)
    (fun i hi k hk hne => by
      by_cases hk2 : k = 2
      · subst hk2
        simp only [if_true]
        exact trapMasks_valid
      · simp only [hk2, if_false]
        show FacDrawsValid _ _ _ (if k = 2 then _ else _)
        rw [if_neg hk2]
        exact Toy.facMasks_valid)
    3 (fun i _ => rfl) ctx0 hctx ctx htrap
    (fun i => (bsetIter (({1, 2, 3} : Finset Nat).erase i)).map fun j => (j, msg1 (fun (_ : Nat) (i : Nat) (h : Hashed) => (i, h)) (ctx j)))
    (fun i => (bsetIter (({1, 2, 3} : Finset Nat).erase i)).map fun j => (j, msg2 (ctx j)))
    (fun i _ => fromOthers_iff.2 (List.Perm.refl _)) (fun i _ => fromOthers_iff.2 (List.Perm.refl _))
  have h1 : ctx 1 = ctx0 1 := by rw [htrap]; rfl
  exact ⟨ctx 1, _, _, r3 1, m3 1 2, by rw [h1]; exact hctx 1 (by decide), hto 1 (by decide), hm3 1 (by decide) 2 (by decide) (by decide), hread 1 (by decide) (by decide)⟩

end Examples

section Examples
open KeyRefresh
attribute [local instance] Toy.fact11 Toy.order11

private def trapEnv : Env Nat Nat (ZMod 11) (ZMod 11) := ⟨Toy.auxEnv, 1, fun h => h.commitment + 2 * h.capX + 3, fun _ _ i p => p + i⟩

private def trapRefreshDraws (i : Nat) : Draws Nat (ZMod 11) := ⟨trapDraws i, fun n => (n + i : ℕ), fun j => (3 * i + j : ℕ), fun j => (i + 5 * j : ℕ)⟩

private def trapHashV : Nat → Nat → Hashed Nat (ZMod 11) → Nat × Nat × Hashed Nat (ZMod 11) := fun s i h => (s, i, h)

/-- Three parties refresh their shares. Party 2 has the parameters `trapSetup` and reads the new primes of party 3 from its message of round 3. -/
example : ∃ (c : Context Nat (ZMod 11) (ZMod 11) Nat) (in1 : List (Nat × (Nat × Nat × Hashed Nat (ZMod 11)))) (in2 : List (Nat × Msg2 Nat (ZMod 11)))
    (r3 : Round3 Nat (ZMod 11) (ZMod 11) Nat) (m3 : Msg3 Nat (ZMod 11)),
    start trapEnv {1, 2, 3} 7 3 (trapRefreshDraws 3) = .ok c ∧ toRound3 trapEnv trapHashV c in1 in2 = .ok r3 ∧ msg3 trapEnv r3 2 = .ok m3 ∧
    readPositive (trapBase Params.test) m3.psi.capP = Toy.primeP ∧ readPositive (trapBase Params.test) m3.psi.capQ = Toy.primeQ := by
  have hlt : ∀ i ∈ ({1, 2, 3} : Finset Nat), i < 1000 := by decide
  have hone : ∃ c, start trapEnv {1, 2, 3} 7 1 (trapRefreshDraws 1) = .ok c :=
    (C38_start trapEnv 2 {1, 2, 3} 7 1 (trapRefreshDraws 1) (trapDraws_valid 1 (by decide))).1 (by decide)
  obtain ⟨c1, -⟩ := hone
  have hst : ∀ i, ∃ c, i ∈ ({1, 2, 3} : Finset Nat) → start trapEnv {1, 2, 3} 7 i (trapRefreshDraws i) = .ok c := by
    intro i
    by_cases hi : i ∈ ({1, 2, 3} : Finset Nat)
    · obtain ⟨c, hc⟩ := (C38_start trapEnv 2 {1, 2, 3} 7 i (trapRefreshDraws i) (trapDraws_valid i (hlt i hi))).1 hi
      exact ⟨c, fun _ => hc⟩
    · exact ⟨c1, fun h => absurd h hi⟩
  choose ctx0 hctx using hst
  obtain ⟨ctx, htrap⟩ : ∃ ctx : Nat → Context Nat (ZMod 11) (ZMod 11) Nat, ∀ i, ctx i = if i = 2 then withTrapRefresh trapEnv.aux (ctx0 i) else ctx0 i := ⟨_, fun _ => rfl⟩
  obtain ⟨r3, m3, hto, hm3, hread, -⟩ := C70_refresh_primes_revealed trapEnv 2 Toy.auxEnv_valid trapHashV {1, 2, 3} 7 (j := 2) (by decide)
    trapRefreshDraws (fun i hi => trapDraws_valid i (hlt i hi)) _ (fun _ => rfl)
    (fun i hi k hk hne => by
      by_cases hk2 : k = 2
      · subst hk2
        simp only [if_true]
        exact trapMasks_valid
      · simp only [hk2, if_false]
        show FacDrawsValid _ _ _ (if k = 2 then _ else _)
        rw [if_neg hk2]
        exact Toy.facMasks_valid)
    3 (fun i _ => rfl) ctx0 hctx ctx htrap
    (fun i => (bsetIter (({1, 2, 3} : Finset Nat).erase i)).map fun j => (j, msg1 trapHashV (ctx j)))
    (fun i => (bsetIter (({1, 2, 3} : Finset Nat).erase i)).map fun j => (j, msg2 (ctx j)))
    (fun i _ => fromOthers_iff.2 (List.Perm.refl _)) (fun i _ => fromOthers_iff.2 (List.Perm.refl _))
  have h1 : ctx 3 = ctx0 3 := by rw [htrap]; rfl
  exact ⟨ctx 3, _, _, r3 3, m3 3 2, by rw [h1]; exact hctx 3 (by decide), hto 3 (by decide), hm3 3 (by decide) 2 (by decide) (by decide), hread 3 (by decide) (by decide)⟩

end Examples

section Examples
open Signing
attribute [local instance] Toy.fact11 Toy.order11

private def trapSetups (i : Nat) : RPSetup := if i = 2 then trapSetup (2 ^ 127 + 1) else Toy.ringPedersen i

/-- Three parties sign with the key 6. Party 2 has the parameters `trapSetup` and reads the shares 1 and 3 of the others. -/
example : ∃ (infos : Nat → AuxInfo Nat PaillierKey PublicAux) (r1 : Nat → Round1 11 Nat Nat (ZMod 11)) (in1 : Nat → List (Nat × Msg1 11 (ZMod 11)))
    (r2 : Nat → Round2 11 Nat Nat (ZMod 11)) (psi : Nat → AffGProof 11 (ZMod 11)),
    (∀ i ∈ Toy.parties, start Toy.signEnv (fun _ _ => 7) (5 : ZMod 11) (Toy.signShares i) (infos i) i (Toy.signDraws i) = .ok (r1 i)) ∧
    (∀ i ∈ Toy.parties, toRound2 Toy.signEnv (r1 i) (in1 i) = .ok (r2 i)) ∧
    (∀ i ∈ Toy.parties, i ≠ 2 → (msg2 (r2 i)).hatPsis.get? 2 = some (psi i)) ∧
    readScalar (2 ^ 127 + 1) 11 (psi 1).capS = 1 ∧ readScalar (2 ^ 127 + 1) 11 (psi 3).capS = 3 := by
  have hlen : bitLen ((2 ^ 127 + 1) ^ 2) = bitLen (Toy.primeQ * Toy.primeP) := by decide +kernel
  obtain ⟨sk, hsk, -⟩ := SecretKey.new_ok (ε := Unit) Toy.primes
  obtain ⟨infos, hinfos⟩ : ∃ infos : Nat → AuxInfo Nat PaillierKey PublicAux, ∀ i,
      infos i = ⟨i, ⟨Toy.primeP, Toy.primeQ, sk⟩, BMap.tabulate Toy.parties fun j => ⟨Toy.primeP * Toy.primeQ, (trapSetups j).rp.toWire⟩⟩ := ⟨_, fun _ => rfl⟩
  have haux : UsableAux Toy.signEnv.P Toy.parties infos trapSetups := by
    rw [funext hinfos]
    refine ⟨⟨fun _ _ => rfl, fun _ _ => BMap.keySet_tabulate _ _, fun i _ j hj => by rw [BMap.get?_tabulate, if_pos hj], fun _ _ => rfl⟩, fun _ _ => Toy.fullSize, fun _ _ => hsk,
      fun i _ => ?_, fun i _ => ?_, fun i _ => ?_⟩
    · unfold trapSetups; split
      · show (2 ^ 127 + 1) ^ 2 % 2 = 1; decide +kernel
      · show Toy.primeQ * Toy.primeP % 2 = 1; decide
    · unfold trapSetups; split
      · show (2 ^ 127 + 1) ^ 2 < 2 ^ 256; decide +kernel
      · show Toy.primeQ * Toy.primeP < 2 ^ 256; decide
    · have h : trapSetups i = trapSetup (2 ^ 127 + 1) ∨ trapSetups i = Toy.ringPedersen i := by unfold trapSetups; split <;> simp
      rcases h with h | h
      · rw [h]; exact trap_valid _
      · rw [h]; exact ⟨Toy.four_unit.pow _, Toy.four_unit⟩
  have henc : ∀ i j : Nat, EncElgDrawsValid Params.test (Toy.primeP * Toy.primeQ) (trapSetups j).modulus (Toy.encMasks i j) := by
    intro i j
    unfold trapSetups
    split
    · obtain ⟨⟨a1, a2, a3, a4⟩, a5⟩ := Toy.encMasks_valid i j
      refine ⟨⟨a1, ⟨?_, ?_⟩, ⟨?_, ?_⟩, a4⟩, a5⟩
      · rw [a2.1, ← hlen]; rfl
      · show InPmScaled 32 ((2 ^ 127 + 1) ^ 2) 77; unfold InPmScaled; decide +kernel
      · rw [a3.1, ← hlen]; rfl
      · show InPmScaled 96 ((2 ^ 127 + 1) ^ 2) (-9); unfold InPmScaled; decide +kernel
    · exact Toy.encMasks_valid i j
  have hmta : ∀ i j : Nat, MtaDrawsValid Params.test (Toy.primeP * Toy.primeQ) (Toy.primeP * Toy.primeQ) (trapSetups j).modulus (Toy.mtaDraws i) j := by
    intro i j
    unfold trapSetups
    split
    · obtain ⟨b1, b2, b3, ⟨a1, a2, a3, a4, a5, a6, a7, a8⟩, b5, b6⟩ := Toy.mtaDraws_valid i j
      refine ⟨b1, b2, b3, ⟨a1, a2, a3, a4, ⟨?_, ?_⟩, ⟨?_, ?_⟩, ⟨?_, ?_⟩, ⟨?_, ?_⟩⟩, b5, b6⟩
      · rw [a5.1, ← hlen]; rfl
      · show InPmScaled 96 ((2 ^ 127 + 1) ^ 2) 1000; unfold InPmScaled; decide +kernel
      · rw [a6.1, ← hlen]; rfl
      · show InPmScaled 32 ((2 ^ 127 + 1) ^ 2) (-77); unfold InPmScaled; decide +kernel
      · rw [a7.1, ← hlen]; rfl
      · show InPmScaled 96 ((2 ^ 127 + 1) ^ 2) (-9); unfold InPmScaled; decide +kernel
      · rw [a8.1, ← hlen]; rfl
      · show InPmScaled 32 ((2 ^ 127 + 1) ^ 2) 5; unfold InPmScaled; decide +kernel
    · exact Toy.mtaDraws_valid i j
  have hmod : ∀ i, (infos i).secret.modulus = Toy.primeP * Toy.primeQ := fun i => by rw [hinfos]; rfl
  have hd : SigningDrawsValid Toy.signEnv.P Toy.parties (fun i => (infos i).secret.modulus) (fun i => (trapSetups i).modulus) Toy.signDraws := by
    rw [funext hmod]
    exact ⟨fun _ _ => Toy.two_coprime, fun _ _ => Toy.four_coprime, fun i _ j _ _ => henc i j, fun i _ j _ _ => henc (i + 1) j, fun i _ j _ _ => hmta i j,
      fun i _ j _ _ => hmta (i + 7) j⟩
  have hst := fun i (hi : i ∈ Toy.parties) =>
    honest_start Toy.signEnv Toy.signEnv_setting (fun _ _ => 7) 5 6 Toy.parties Toy.signShares Toy.signShares_valid infos trapSetups haux Toy.signDraws hi
  obtain ⟨m1, -, -, h⟩ := C70_key_revealed Toy.signEnv Toy.signEnv_setting (fun _ _ => 7) 5 6 Toy.parties Toy.signShares Toy.signShares_valid infos trapSetups haux Toy.signDraws hd
    (j := 2) (by decide) (2 ^ 127 + 1) (by decide +kernel) rfl _ hst
  obtain ⟨r2, psi, h2, h3, -⟩ := h (fun i => Toy.arrivals (fun k => m1 k i) i) (fun i _ => Toy.arrivals_fromOthers _ i)
  exact ⟨infos, _, _, r2, psi, hst, h2, fun i hi hne => (h3 i hi hne).1, (h3 1 (by decide) (by decide)).2, (h3 3 (by decide) (by decide)).2⟩

end Examples

end Synedrion.Props
