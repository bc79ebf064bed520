import Verif.Spec.AuxInfo
import Verif.Lemmas.AuxGenRun
import Verif.Lemmas.Cast
import Verif.Props.Session
import Verif.Lemmas.ToyAux

/-!
# C54 and the part of C45–C48 about the generation of auxiliary info
-/

set_option linter.unusedSectionVars false

namespace Synedrion.Props

open Spec AuxGen

variable {I Sid V : Type} [LinearOrder I] [DecidableEq V]

/-- **C54 (start).** A member of `ids` with honest draws starts. -/
theorem C54_start (E : AuxEnv I Sid) (k : Nat) (ids : Finset I) (sid : Sid) (i : I) (hi : i ∈ ids) (d : AuxDraws I) (hd : DrawsValid E k d) :
    ∃ c, start E ids sid i d = .ok c ∧ c.key.p = d.p ∧ c.key.q = d.q ∧ c.data.rid = d.rid := by
  obtain ⟨sk, hsk⟩ := hd.new_ok (ε := LocalErr)
  refine ⟨⟨⟨d.p, d.q, sk⟩, ⟨_, RPParams.withSecret (d.rpP * d.rpQ) E.P.modBits d.lambda d.tDraw⟩, i, ids.erase i, sid, hdata E sid i d,
    d.modDraw, d.modBit, d.facMasks⟩, ?_, rfl, rfl, rfl⟩
  unfold start makeData publicModulusNew
  simp only [hi, not_true_eq_false, if_false, hsk, Out.bind_ok, odd_of_primes hd.rpKey.primes, if_true]
  rfl

/-- **C54 (honest).** If every party of `ids` starts the generation of auxiliary info with the same session id and honest draws, and the messages of
each round arrive in any order, then every party reaches round 3 and can make its messages, nobody is blamed, and the parties end with consistent auxiliary info: the same
public keys and ring-Pedersen parameters everywhere, and each party owns the primes of its own public key. -/
theorem C54_honest_aux_gen (E : AuxEnv I Sid) (k : Nat) (hE : HashesValid E k) (hashV : Sid → I → Hashed → V) (ids : Finset I) (sid : Sid)
    (d : I → AuxDraws I) (hd : ∀ i ∈ ids, DrawsValid E k (d i))
    (hfac : ∀ i ∈ ids, ∀ j ∈ ids, i ≠ j → FacDrawsValid E.P ((d i).p * (d i).q) ((d j).rpP * (d j).rpQ) ((d i).facMasks j))
    (len : Nat) (hlen : ∀ i ∈ ids, (d i).rid.length = len)
    (ctx : I → Context I Sid) (hctx : ∀ i ∈ ids, start E ids sid i (d i) = .ok (ctx i))
    (in1 : I → List (I × V)) (in2 : I → List (I × Msg2))
    (h1 : ∀ i ∈ ids, FromOthers ids i (fun j => msg1 hashV (ctx j)) (in1 i))
    (h2 : ∀ i ∈ ids, FromOthers ids i (fun j => msg2 (ctx j)) (in2 i)) :
    ∃ (r3 : I → Round3 I Sid) (m3 : I → I → Msg3), (∀ i ∈ ids, toRound3 E hashV (ctx i) (in1 i) (in2 i) = .ok (r3 i)) ∧
      (∀ i ∈ ids, ∀ j ∈ ids, i ≠ j → msg3 E (r3 i) j = .ok (m3 i j)) ∧
      (∀ in3 : I → List (I × Msg3), (∀ i ∈ ids, FromOthers ids i (fun j => m3 j i) (in3 i)) →
        ∃ infos : I → AuxInfo I PaillierKey PublicAux, (∀ i ∈ ids, run E hashV (ctx i) (in1 i) (in2 i) (in3 i) = .ok (infos i)) ∧
          (ConsistentAux ids infos fun j => ⟨(d j).p * (d j).q, (RPParams.withSecret ((d j).rpP * (d j).rpQ) E.P.modBits (d j).lambda (d j).tDraw).toWire⟩) ∧
          (∀ i ∈ ids, (infos i).secret.p = (d i).p ∧ (infos i).secret.q = (d i).q) ∧
          UsableAux E.P ids infos fun j => ⟨_, RPParams.withSecret ((d j).rpP * (d j).rpQ) E.P.modBits (d j).lambda (d j).tDraw⟩) := by
  have hs := fun i (hi : i ∈ ids) => start_ok (hctx i hi)
  have hsk : ∀ i, ∃ sk : SecretKey (d i).p (d i).q, i ∈ ids → (SecretKey.new (d i).p (d i).q : Out LocalErr _) = .ok sk ∧
      ctx i = ⟨⟨(d i).p, (d i).q, sk⟩, (hdata E sid i (d i)).rp, i, ids.erase i, sid, hdata E sid i (d i), (d i).modDraw, (d i).modBit, (d i).facMasks⟩ := by
    intro i
    by_cases hi : i ∈ ids
    · obtain ⟨_, _, sk, h⟩ := hs i hi; exact ⟨sk, fun _ => h⟩
    · exact ⟨⟨0, 0, 0, 0, 0⟩, fun h => absurd h hi⟩
  choose sk hsk using hsk
  obtain ⟨r3, m3, -, hto, hm3, -, hfin⟩ := run_core E k hE hashV ids sid d hd (fun i => hdata E sid i (d i)) (fun _ _ => rfl) (fun _ _ => rfl)
    (fun i hi capVs hv => hdata_accepted hE (hd i hi) sid i hashV capVs hv)
    (fun i hi => ⟨(hd i hi).rpKey.primes.pos, (hd i hi).rp_lt hE, (hd i hi).rp_valid⟩) hfac len hlen sk ctx hsk in1 in2 h1 h2
  refine ⟨r3, m3, hto, hm3, fun in3 h3 => ?_⟩
  obtain ⟨infos, hrun, hcons, hpq, hnew⟩ := hfin in3 h3
  exact ⟨infos, hrun, hcons, hpq, DrawsValid.usable hE hd hcons hpq hnew⟩

/-! ### Guarantees of a party that finishes, whatever the others send -/

/-- **C54 (adversarial).** Whatever the other parties send, a party that finishes has auxiliary info with its own secret key and public entry, over exactly
the parties `ids`; every other party's public key and parameters were committed to in round 1, have odd moduli of at least `modBits - 2` bits, and come with
accepted proofs: of the ring-Pedersen relation, and (bound to the random string of all parties) of the modulus and of the size of its factors, the latter
checked with the party's own parameters. -/
theorem C54_finishing_party (E : AuxEnv I Sid) (hashV : Sid → I → Hashed → V) (ids : Finset I) (sid : Sid) (me : I) (d : AuxDraws I) (c : Context I Sid)
    (hc : start E ids sid me d = .ok c) (in1 : List (I × V)) (in2 : List (I × Msg2)) (in3 : List (I × Msg3)) (info : AuxInfo I PaillierKey PublicAux)
    (h : run E hashV c in1 in2 in3 = .ok info) :
    let rp := RPParams.withSecret (d.rpP * d.rpQ) E.P.modBits d.lambda d.tDraw
    info.owner = me ∧ info.secret.p = d.p ∧ info.secret.q = d.q ∧ info.pub.keySet = ids ∧ info.pub.get? me = some ⟨d.p * d.q, rp.toWire⟩ ∧
      ∃ rid : List Bool, JointBits (d.rid :: in2.map fun a => a.2.echo.rid) rid ∧
        ∀ j ∈ ids, j ≠ me → ∃ (v : V) (m : Msg2) (m3 : Msg3) (rpj : RPParams m.echo.rp.modulus), (j, v) ∈ in1 ∧ (j, m) ∈ in2 ∧ (j, m3) ∈ in3 ∧
          rpj.s = (m.echo.rp.baseValue : ZMod m.echo.rp.modulus) ∧ rpj.t = (m.echo.rp.baseRandomizer : ZMod m.echo.rp.modulus) ∧
          hashV sid j ⟨m.pk, rpj.toWire, m.psi, m.echo.rid, m.u⟩ = v ∧ info.pub.get? j = some ⟨m.pk, rpj.toWire⟩ ∧
          m.pk % 2 = 1 ∧ E.P.modBits - 2 ≤ bitLen m.pk ∧ m.echo.rp.modulus % 2 = 1 ∧ E.P.modBits - 2 ≤ bitLen m.echo.rp.modulus ∧
          m.psi.verify E.prmH rpj (sid, j) = true ∧ m3.psiPrime.verify E.P E.modH E.isPrime m.pk (sid, j, rid) = true ∧
          (m3.psi.verify E.P E.facH m.pk rp (sid, j, rid) : Out Empty _) = .ok true := by
  intro rp
  obtain ⟨hme, _, sk, hsk, rfl⟩ := start_ok hc
  unfold run at h
  simp only [Out.bind_eq_ok] at h
  obtain ⟨r3, ht, _, hs, u3, h3, hfin⟩ := h
  obtain ⟨hctx, nd, ex, hks, hown, -, hget, hjoint, -⟩ := toRound3_ok (by simp) ht
  cases hfin
  obtain ⟨rc, rpl, rrid, rpsi⟩ := r3
  simp only at hks hown hget hjoint ex h3 hctx
  subst hctx
  refine ⟨?_, ?_, ?_, ?_, ?_, rrid, hjoint, ?_⟩
  · show me = _; rfl
  · show d.p = _; rfl
  · show d.q = _; rfl
  · show (rpl.mapVals fun _ p => p.toAux).keySet = ids
    rw [BMap.keySet_mapVals, hks]; exact Finset.insert_erase hme
  · show (rpl.mapVals fun _ p => p.toAux).get? me = _
    rw [BMap.get?_mapVals, hown]; rfl
  · intro j hj hne
    have hjo : j ∈ ids.erase me := Finset.mem_erase.2 ⟨hne, hj⟩
    obtain ⟨m3, _, hm3, hr, _⟩ := collect_mem h3 hjo
    have hjm : ∃ m, (j, m) ∈ in2 := by
      rw [← ex, List.mem_toFinset] at hjo
      obtain ⟨⟨_, m⟩, hm, rfl⟩ := List.mem_map.1 hjo
      exact ⟨m, hm⟩
    obtain ⟨m, hm⟩ := hjm
    obtain ⟨hg, o1, o2, b1, b2, hver, v, hv1, hh⟩ := hget j m hm
    simp only [recv3, recvGet, hg, Out.ofOption_some, Out.bind_ok] at hr
    split at hr
    · simp at hr
    rename_i hmod
    obtain ⟨ok, hf, hr⟩ := Out.bind_eq_ok.1 hr
    split at hr
    · simp at hr
    rename_i hok
    rw [not_not] at hok
    subst hok
    refine ⟨v, m, m3, (rpOf m).rp, hv1, hm, hm3, rfl, rfl, hh, ?_, o1, not_lt.1 b1, o2, not_lt.1 b2, hver, not_not.1 hmod,
      Out.eq_ok_of_cast (FacProof.verify_cast ..) hf⟩
    show (rpl.mapVals fun _ p => p.toAux).get? j = _
    rw [BMap.get?_mapVals, hg]; rfl

/-! ### Evidence -/

/-- **C45, C46 (auxiliary info, round 2).** If a receiver that has collected the round 1 messages rejects a round 2 message with an error that blames the
sender, the third-party check of that error confirms it from the sender's messages; if it accepts the message, the check confirms no error. -/
theorem C45_aux_gen_round2 (E : AuxEnv I Sid) (hashV : Sid → I → Hashed → V) (c : Context I Sid) (in1 : List (I × V)) (capVs : BMap I V)
    (h1 : collect c.otherIds recv1 in1 = .ok capVs) (j : I) (v : V) (hj : (j, v) ∈ in1) (m : Msg2) :
    (∀ e, recv2 E hashV c.sid capVs j m = .err (.protocol e) → evidence2 E hashV c.sid j v m e = .ok true) ∧
    ((∃ p, recv2 E hashV c.sid capVs j m = .ok p) → ∀ e, evidence2 E hashV c.sid j v m e ≠ .ok true) := by
  obtain ⟨_, _, _, al⟩ := collect_eq_ok.1 h1
  obtain ⟨v', hv', hg⟩ := al _ hj
  cases hv'
  simp only at hg
  cases ho : (m.open : Out (RecvErr (Err I)) PublicData) with
  | err e => exact absurd ho Msg2.open_ne_err
  | panic =>
    have : ∀ x, recv2 E hashV c.sid capVs j m ≠ x → True := fun _ _ => trivial
    constructor
    · intro e h; simp [recv2, ho] at h
    · rintro ⟨p, h⟩; simp [recv2, ho] at h
  | ok data =>
    have hall := (Msg2.open_eq_ok ho).2.2.2.2.2.2.2
    have hexp := open_explicit ho
    have hrp : (m.echo.rp.toPrecomputed : Out Unit _) = .ok (rpOf m).rp := by
      have := (Msg2.open_eq_ok ho).2.2.2.2.2.2.1
      simp [RPParamsWire.toPrecomputed, publicModulusNew, this, rpOf]
    simp only [recv2, ho, Out.bind_ok, recvGet, hg, Out.ofOption_some]
    by_cases a1 : hashV c.sid j data.hashed ≠ v
    · rw [if_pos a1]
      constructor
      · intro e he; cases he
        simp [evidence2, hall, a1]
      · rintro ⟨p, hp⟩; simp at hp
    rw [if_neg a1]
    by_cases a2 : bitLen data.pk < E.P.modBits - 2
    · rw [if_pos a2]
      constructor
      · intro e he; cases he
        rw [hexp] at a2; simp [evidence2, a2]
      · rintro ⟨p, hp⟩; simp at hp
    rw [if_neg a2]
    by_cases a3 : bitLen data.rp.modulus < E.P.modBits - 2
    · rw [if_pos a3]
      constructor
      · intro e he; cases he
        rw [hexp] at a3; simp [evidence2, a3]
      · rintro ⟨p, hp⟩; simp at hp
    rw [if_neg a3]
    by_cases a4 : ¬ data.psi.verify E.prmH data.rp.rp (c.sid, j) = true
    · rw [if_pos a4]
      constructor
      · intro e he; cases he
        rw [hexp] at a4; simp only [Bool.not_eq_true] at a4; simp [evidence2, hrp, rpOf, a4]
      · rintro ⟨p, hp⟩; simp at hp
    rw [if_neg a4]
    refine ⟨fun e he => by simp at he, fun _ e => ?_⟩
    rw [not_not] at a1 a4
    cases e with
    | r2HashMismatch => simp [evidence2, hall, a1]
    | r2PaillierModulusTooSmall => rw [hexp] at a2; simp only at a2; simp [evidence2]; omega
    | r2RPModulusTooSmall => rw [hexp] at a3; simp only at a3; simp [evidence2]; omega
    | r2PrmFailed => rw [hexp] at a4; simp only at a4; simp [evidence2, hrp, rpOf, a4]
    | r3ModFailed => simp [evidence2]
    | r3FacFailed => simp [evidence2]

/-- **C45, C46 (auxiliary info, round 3).** If a party in round 3 rejects a message with an error that blames the sender, the third-party check of that
error confirms it from the sender's messages of rounds 2 and 3 and the round 2 echoes of all others; if the party accepts the message, neither that the
modulus proof failed nor that the factoring proof failed for this party is confirmed. -/
theorem C45_aux_gen_round3 (E : AuxEnv I Sid) (hashV : Sid → I → Hashed → V) (ids : Finset I) (sid : Sid) (me : I) (d : AuxDraws I) (c : Context I Sid)
    (hc : start E ids sid me d = .ok c) (in1 : List (I × V)) (in2 : List (I × Msg2)) (r3 : Round3 I Sid) (h : toRound3 E hashV c in1 in2 = .ok r3)
    (j : I) (m2 : Msg2) (hj : (j, m2) ∈ in2) (m3 : Msg3) (echos : BMap I Echo2)
    (he : EchosAgainst ids me j (msg2 c).echo (in2.map fun a => (a.1, a.2.echo)) echos) :
    (∀ e, recv3 E r3 j m3 = .err (.protocol e) → evidence3 E sid j m2 m3 echos e = .ok true) ∧
    (recv3 E r3 j m3 = .ok () → evidence3 E sid j m2 m3 echos .r3ModFailed = .ok false ∧ evidence3 E sid j m2 m3 echos (.r3FacFailed me) = .ok false) := by
  obtain ⟨hme, hodd, sk, hsk, rfl⟩ := start_ok hc
  obtain ⟨hctx, nd, ex, -, -, -, hget, hjoint, -⟩ := toRound3_ok (by simp) h
  obtain ⟨rc, rpl, rrid, rpsi⟩ := r3
  simp only at hget hjoint ex hctx
  subst hctx
  obtain ⟨hg, o1, -, -, -, -, -⟩ := hget j m2 hj
  have hperm := (he.perm (ej := m2.echo) (by rw [List.map_map]; exact nd) (by rw [List.map_map]; exact ex) (List.mem_map.2 ⟨_, hj, rfl⟩)).map fun x => x.2.rid
  have hrid : (reconstructRid m2.echo.rid (echos.mapVals fun _ e => e.rid) : Out Unit _) = .ok rrid := by
    unfold reconstructRid
    rw [xorAll_eq_ok]
    refine hjoint.perm ?_
    refine List.Perm.trans ?_ (hperm.symm.trans ?_)
    · simp only [List.map_cons, List.map_map]
      exact List.Perm.refl _
    · rw [List.map_cons]
      refine List.Perm.cons _ (List.Perm.of_eq ?_)
      simp [BMap.values, BMap.mapVals, List.map_map, Function.comp_def]
  have hpk : (publicModulusNew m2.pk : Out Unit _) = .ok m2.pk := by simp [publicModulusNew, o1]
  have e1 : evidence3 E sid j m2 m3 echos .r3ModFailed = .ok (!m3.psiPrime.verify E.P E.modH E.isPrime m2.pk (sid, j, rrid)) := by
    simp [evidence3, hrid, hpk]
  have e2 : evidence3 E sid j m2 m3 echos (.r3FacFailed me) =
      (m3.psi.verify E.P E.facH m2.pk (RPParams.withSecret (d.rpP * d.rpQ) E.P.modBits d.lambda d.tDraw) (sid, j, rrid)).bind fun ok => .ok (!ok) := by
    simp only [evidence3, hrid, hpk, he.2.1, Out.ofOption_some, Out.bind_ok]
    have hown := toPrecomputed_toWire (ε := Unit) hodd (RPParams.withSecret (d.rpP * d.rpQ) E.P.modBits d.lambda d.tDraw)
    exact (congrArg (fun x : Out Unit (RPParams (d.rpP * d.rpQ)) => x.bind fun rp =>
      (m3.psi.verify E.P E.facH m2.pk rp (sid, j, rrid)).bind fun ok => .ok (!ok)) hown)
  have hrecv : recv3 E ⟨⟨⟨d.p, d.q, sk⟩, ⟨_, RPParams.withSecret (d.rpP * d.rpQ) E.P.modBits d.lambda d.tDraw⟩, me, ids.erase me, sid, hdata E sid me d,
      d.modDraw, d.modBit, d.facMasks⟩, rpl, rrid, rpsi⟩ j m3 =
      (if ¬ m3.psiPrime.verify E.P E.modH E.isPrime m2.pk (sid, j, rrid) then .err (.protocol .r3ModFailed)
      else (m3.psi.verify E.P E.facH m2.pk (RPParams.withSecret (d.rpP * d.rpQ) E.P.modBits d.lambda d.tDraw) (sid, j, rrid)).bind fun ok =>
        if ¬ ok then .err (.protocol (.r3FacFailed me)) else .ok ()) := by
    simp only [recv3, recvGet, hg, Out.ofOption_some, Out.bind_ok]
  rw [hrecv]
  by_cases hm : m3.psiPrime.verify E.P E.modH E.isPrime m2.pk (sid, j, rrid) = true
  · rw [if_neg (not_not.2 hm)]
    cases hv : (m3.psi.verify E.P E.facH m2.pk (RPParams.withSecret (d.rpP * d.rpQ) E.P.modBits d.lambda d.tDraw) (sid, j, rrid) :
        Out (RecvErr (Err I)) Bool) with
    | err e =>
      rcases verifyFac_cases (ε := RecvErr (Err I)) E.P E.facH (N0 := m2.pk) (RPParams.withSecret (d.rpP * d.rpQ) E.P.modBits d.lambda d.tDraw)
          (sid, j, rrid) m3.psi with h' | ⟨_, h'⟩ <;> rw [hv] at h' <;> cases h'
    | panic => simp
    | ok b =>
      have hv' : (m3.psi.verify E.P E.facH m2.pk (RPParams.withSecret (d.rpP * d.rpQ) E.P.modBits d.lambda d.tDraw) (sid, j, rrid) : Out Unit _) = .ok b :=
        Out.eq_ok_of_cast (FacProof.verify_cast ..) hv
      rw [e1, e2, hv']
      constructor
      · intro e hee
        cases b <;> simp at hee
        subst hee
        rw [e2, hv']; rfl
      · intro hee
        cases b <;> simp at hee
        simp [hm]
  · rw [if_pos hm]
    constructor
    · intro e hee; cases hee
      rw [e1]; simp only [Bool.not_eq_true] at hm; rw [hm]; rfl
    · intro hee; simp at hee

/-- **C46 (auxiliary info).** Whatever the other parties send, a party with honest draws is not convicted by its own messages: none of the round 2 checks
confirms an error; and if it gets to round 3, the check that its modulus proof failed does not confirm, and neither does the check that its factoring proof for
`dest` failed, provided that `dest`'s ring-Pedersen parameters fit the parameter size and have invertible bases. -/
theorem C46_aux_gen_no_framing (E : AuxEnv I Sid) (k : Nat) (hE : HashesValid E k) (hashV : Sid → I → Hashed → V) (ids : Finset I) (sid : Sid) (me : I)
    (d : AuxDraws I) (hd : DrawsValid E k d) (c : Context I Sid) (hc : start E ids sid me d = .ok c) :
    (∀ e, evidence2 E hashV sid me (msg1 hashV c) (msg2 c) e ≠ .ok true) ∧
    ∀ (in1 : List (I × V)) (in2 : List (I × Msg2)) (r3 : Round3 I Sid) (echos : BMap I Echo2),
      toRound3 E hashV c in1 in2 = .ok r3 → echos.entries.Perm (in2.map fun a => (a.1, a.2.echo)) →
      ∀ (dest : I) (m3 : Msg3), msg3 E r3 dest = .ok m3 →
        evidence3 E sid me (msg2 c) m3 echos .r3ModFailed = .ok false ∧
        ∀ m, (dest, m) ∈ in2 → m.echo.rp.modulus < 2 ^ E.P.modBits → Nat.Coprime m.echo.rp.baseValue m.echo.rp.modulus →
          Nat.Coprime m.echo.rp.baseRandomizer m.echo.rp.modulus → FacDrawsValid E.P (d.p * d.q) m.echo.rp.modulus (d.facMasks dest) →
          evidence3 E sid me (msg2 c) m3 echos (.r3FacFailed dest) = .ok false := by
  obtain ⟨hme, _, sk, hsk, rfl⟩ := start_ok hc
  refine ⟨?_, ?_⟩
  · intro e he
    have hacc := hdata_accepted hE hd sid me hashV ((BMap.empty : BMap I V).insert me (hashV sid me (hdata E sid me d).hashed)) (by simp [BMap.get?_insert])
    have := C45_aux_gen_round2 E hashV ⟨⟨d.p, d.q, sk⟩, ⟨_, RPParams.withSecret (d.rpP * d.rpQ) E.P.modBits d.lambda d.tDraw⟩, me, {me}, sid,
      hdata E sid me d, d.modDraw, d.modBit, d.facMasks⟩ [(me, hashV sid me (hdata E sid me d).hashed)]
      ((BMap.empty : BMap I V).insert me (hashV sid me (hdata E sid me d).hashed))
      (by rw [collect_eq_ok]; simp [recv1, BMap.get?_insert, BMap.keySet_insert]; rfl) me (hashV sid me (hdata E sid me d).hashed) (by simp) (hdata E sid me d).msg2
    exact this.2 ⟨_, hacc⟩ e he
  · intro in1 in2 r3 echos h hperm dest m3 hm3
    obtain ⟨hctx, nd, ex, -, -, -, hget, hjoint, hpsi⟩ := toRound3_ok (by simp) h
    simp only at hget hjoint ex hpsi
    have hrid : (reconstructRid d.rid (echos.mapVals fun _ e => e.rid) : Out Unit _) = .ok r3.rid := by
      unfold reconstructRid
      rw [xorAll_eq_ok]
      refine hjoint.perm (List.Perm.cons _ ?_)
      have := (hperm.map fun x => x.2.rid).symm
      rw [List.map_map] at this
      refine this.trans (List.Perm.of_eq ?_)
      simp [BMap.values, BMap.mapVals, List.map_map, Function.comp_def]
    have hpk : (publicModulusNew (d.p * d.q) : Out Unit _) = .ok (d.p * d.q) := by simp [publicModulusNew, odd_of_primes hd.key.primes]
    obtain ⟨prf, hprf, hver⟩ := honest_mod (ε' := Abort I (Err I)) hE hd hsk (sid, me, r3.rid)
    rw [hpsi] at hprf
    cases hprf
    simp only [msg3, Out.bind_eq_ok, hctx] at hm3
    obtain ⟨pl, hpl, psi, hpsi2, hm3⟩ := hm3
    cases hm3
    constructor
    · show ((reconstructRid d.rid _ : Out Unit _).bind _) = _
      rw [hrid, Out.bind_ok]
      show ((publicModulusNew (d.p * d.q) : Out Unit _).bind _) = _
      rw [hpk, Out.bind_ok, hver]; rfl
    · intro m hm hlt hc1 hc2 hmask
      obtain ⟨hg, o1, o2, -⟩ := hget dest m hm
      unfold finGet at hpl
      rw [hg, Out.ofOption_some] at hpl
      cases hpl
      have hgc : echos.get? dest = some m.echo := by
        rw [BMap.get?_eq_some_iff]; exact hperm.mem_iff.2 (List.mem_map.2 ⟨_, hm, rfl⟩)
      have hrp : (m.echo.rp.toPrecomputed : Out Unit _) = .ok (rpOf m).rp := by
        simp [RPParamsWire.toPrecomputed, publicModulusNew, o2, rpOf]
      obtain ⟨prf, h1, h2⟩ := honest_fac (ε := LocalErr) hE hd (rp := rpOf m) (by show 0 < m.echo.rp.modulus; omega) hlt
        ⟨(ZMod.isUnit_iff_coprime _ _).2 hc1, (ZMod.isUnit_iff_coprime _ _).2 hc2⟩ hmask sk (sid, me, r3.rid)
      simp only at hpsi2
      rw [h1] at hpsi2
      cases hpsi2
      show ((reconstructRid d.rid _ : Out Unit _).bind _) = _
      rw [hrid, Out.bind_ok, hgc, Out.ofOption_some, Out.bind_ok]
      show ((publicModulusNew (d.p * d.q) : Out Unit _).bind _) = _
      rw [hpk, Out.bind_ok]
      have h3 := congrArg (fun x : Out Unit (RPParams m.echo.rp.modulus) => x.bind fun rp =>
        (psi.verify E.P E.facH (d.p * d.q) rp (sid, me, r3.rid)).bind fun ok => .ok (!ok)) hrp
      refine h3.trans ?_
      have h4 := congrArg (fun x : Out Unit Bool => x.bind fun ok => .ok (!ok)) (h2 Unit)
      exact h4

/-! ### Remote panics -/

/-- **C47 (auxiliary info, partial).** Full property: no message of a peer makes a party panic. Proved: a party with honest draws can be made to panic
only by a round 2 message with an even modulus, a modulus beyond the parameter size, a random string of the wrong length or a ring-Pedersen
base that is not invertible, or by a round 3 factoring proof one of whose first two commitments is not invertible. -/
theorem C47_aux_gen_partial (E : AuxEnv I Sid) (k : Nat) (hE : HashesValid E k) (hashV : Sid → I → Hashed → V) (ids : Finset I) (sid : Sid) (me : I)
    (d : AuxDraws I) (hd : DrawsValid E k d) (c : Context I Sid) (hc : start E ids sid me d = .ok c) (in1 : List (I × V)) (in2 : List (I × Msg2))
    (in3 : List (I × Msg3)) (hmask : ∀ a ∈ in2, FacMasksValid E.P (d.p * d.q) a.2.echo.rp.modulus (d.facMasks a.1))
    (h : run E hashV c in1 in2 in3 = .panic) :
    (∃ a ∈ in2, a.2.pk % 2 = 0 ∨ 2 ^ E.P.modBits ≤ a.2.pk ∨ a.2.echo.rp.modulus % 2 = 0 ∨ 2 ^ E.P.modBits ≤ a.2.echo.rp.modulus ∨
      a.2.echo.rid.length ≠ d.rid.length ∨ ¬ Nat.Coprime a.2.echo.rp.baseValue a.2.echo.rp.modulus ∨
      ¬ Nat.Coprime a.2.echo.rp.baseRandomizer a.2.echo.rp.modulus) ∨
    (∃ a ∈ in3, ¬ Nat.Coprime a.2.psi.capP (d.rpP * d.rpQ) ∨ ¬ Nat.Coprime a.2.psi.capQ (d.rpP * d.rpQ)) := by
  obtain ⟨hme, hodd, sk, hsk, rfl⟩ := start_ok hc
  by_contra hno
  push Not at hno
  obtain ⟨hno2, hno3⟩ := hno
  have hrecv2 : ∀ capVs, ∀ a ∈ in2, recv2 E hashV sid capVs a.1 a.2 ≠ .panic := by
    intro capVs a ha hp
    unfold recv2 recvGet at hp
    cases ho : (a.2.open : Out (RecvErr (Err I)) PublicData) with
    | err e => exact Msg2.open_ne_err ho
    | panic =>
      have := Msg2.open_eq_panic.1 ho
      have := hno2 a ha
      omega
    | ok data =>
      rw [ho, Out.bind_ok] at hp
      cases hg : capVs.get? a.1 with
      | none => simp [hg] at hp
      | some v =>
        rw [hg, Out.ofOption_some, Out.bind_ok] at hp
        split at hp
        · simp at hp
        split at hp
        · simp at hp
        split at hp
        · simp at hp
        split at hp <;> simp at hp
  unfold run at h
  cases ht : toRound3 E hashV (⟨⟨d.p, d.q, sk⟩, ⟨_, RPParams.withSecret (d.rpP * d.rpQ) E.P.modBits d.lambda d.tDraw⟩, me, ids.erase me, sid, hdata E sid me d,
      d.modDraw, d.modBit, d.facMasks⟩ : Context I Sid) in1 in2 with
  | err e => rw [ht] at h; simp at h
  | panic =>
    unfold toRound3 at ht
    cases hc1 : collect (ids.erase me) (recv1 : I → V → _) in1 with
    | err e => rw [hc1] at ht; simp at ht
    | panic => obtain ⟨a, _, ha⟩ := collect_eq_panic hc1; simp [recv1] at ha
    | ok capVs =>
      rw [hc1, Out.bind_ok] at ht
      simp only at ht
      cases hc2 : collect (ids.erase me) (recv2 E hashV sid capVs) in2 with
      | err e => rw [hc2] at ht; simp at ht
      | panic => obtain ⟨a, ham, ha⟩ := collect_eq_panic hc2; exact hrecv2 _ _ ham ha
      | ok pls =>
        rw [hc2, Out.bind_ok] at ht
        unfold finalize2 at ht
        cases hx : (xorAll d.rid (pls.values.map Payload2.rid) : Out (Abort I (Err I)) _) with
        | ok r =>
          have hx' : (xorAll (hdata E sid me d).rid (pls.values.map Payload2.rid) : Out (Abort I (Err I)) _) = .ok r := hx
          simp only [hx', Out.bind_ok] at ht
          obtain ⟨prf, hprf, -⟩ := honest_mod (ε' := Abort I (Err I)) hE hd hsk (sid, me, r)
          rw [hprf] at ht; simp at ht
        | err e => exact absurd hx xorAll_ne_err
        | panic =>
          obtain ⟨x, hx1, hx2⟩ := xorAll_eq_panic.1 hx
          obtain ⟨p, hp1, rfl⟩ := List.mem_map.1 hx1
          have hpe := collect_entries_perm (f := fun _ m => (⟨m.pk, rpOf m, m.echo.rid⟩ : Payload2)) hc2 (by
            intro a _ p hp'
            obtain ⟨data, v, ho, _, _, _, _, _, rfl⟩ := recv2_ok hp'
            rw [open_explicit (ho Unit)]; rfl)
          have hp2 := (hpe.map Prod.snd).mem_iff.1 hp1
          rw [List.map_map] at hp2
          obtain ⟨a, ha, rfl⟩ := List.mem_map.1 hp2
          exact hx2 (hno2 a ha).2.2.2.2.1
  | ok r3 =>
    rw [ht, Out.bind_ok] at h
    obtain ⟨hctx, nd, ex, -, -, -, hget, -, -⟩ := toRound3_ok (by simp) ht
    obtain ⟨rc, rpl, rrid, rpsi⟩ := r3
    simp only at hget ex hctx
    subst hctx
    have hin : ∀ j ∈ ids.erase me, ∃ m, (j, m) ∈ in2 := by
      intro j hj
      rw [← ex, List.mem_toFinset] at hj
      obtain ⟨⟨_, m⟩, hm, rfl⟩ := List.mem_map.1 hj
      exact ⟨m, hm⟩
    cases hs : send3 E ⟨_, rpl, rrid, rpsi⟩ with
    | err e => rw [hs] at h; simp at h
    | panic =>
      obtain ⟨j, hj, hjp⟩ := mapM'_panic_cases hs
      obtain ⟨m, hm⟩ := hin j (mem_bsetIter.1 hj)
      obtain ⟨hg, o1, o2, -⟩ := hget j m hm
      have hn := hno2 _ hm
      simp only at hn
      obtain ⟨prf, hprf⟩ := makeFac_ok (ε := LocalErr) hE hd (rp := rpOf m) (by show 0 < m.echo.rp.modulus; omega) hn.2.2.2.1
        ⟨(ZMod.isUnit_iff_coprime _ _).2 hn.2.2.2.2.2.1, (ZMod.isUnit_iff_coprime _ _).2 hn.2.2.2.2.2.2⟩ (hmask _ hm) sk (sid, me, rrid)
      have e : msg3 E ⟨⟨⟨d.p, d.q, sk⟩, ⟨_, RPParams.withSecret (d.rpP * d.rpQ) E.P.modBits d.lambda d.tDraw⟩, me, ids.erase me, sid, hdata E sid me d,
          d.modDraw, d.modBit, d.facMasks⟩, rpl, rrid, rpsi⟩ j = .ok ⟨rpsi, prf⟩ := by
        simp only [msg3, finGet, hg, Out.ofOption_some, Out.bind_ok, hprf]
      rw [e] at hjp
      simp [finalizeResult] at hjp
    | ok ms =>
      rw [hs, Out.bind_ok] at h
      cases hc3 : collect (ids.erase me) (recv3 E ⟨⟨⟨d.p, d.q, sk⟩, ⟨_, RPParams.withSecret (d.rpP * d.rpQ) E.P.modBits d.lambda d.tDraw⟩, me, ids.erase me, sid,
          hdata E sid me d, d.modDraw, d.modBit, d.facMasks⟩, rpl, rrid, rpsi⟩) in3 with
      | err e => rw [hc3] at h; simp at h
      | ok u => rw [hc3] at h; simp at h
      | panic =>
        obtain ⟨⟨j, m3⟩, ham, ha⟩ := collect_eq_panic hc3
        have hn3 := hno3 _ ham
        simp only at ha hn3
        simp only [recv3, recvGet] at ha
        cases hg : rpl.get? j with
        | none => simp [hg] at ha
        | some pl =>
          rw [hg, Out.ofOption_some, Out.bind_ok] at ha
          split at ha
          · simp at ha
          have hpl : pl.pk < 2 ^ E.P.modBits := by
            by_cases hj : j = me
            · subst hj
              unfold toRound3 finalize2 at ht
              simp only [Out.bind_eq_ok] at ht
              obtain ⟨_, _, _, _, _, _, _, _, hr⟩ := ht
              cases hr
              rw [BMap.get?_insert, if_pos rfl] at hg
              cases hg
              exact hd.key_lt hE
            · by_cases hjo : j ∈ ids.erase me
              · obtain ⟨m, hm⟩ := hin j hjo
                obtain ⟨hg', -⟩ := hget j m hm
                rw [hg] at hg'; cases hg'
                exact (hno2 _ hm).2.1
              · exfalso
                have hks := (toRound3_ok (by simp) ht).2.2.2.1
                simp only at hks
                have : j ∈ rpl.keySet := BMap.mem_keySet.2 (BMap.mem_keys_iff.2 ⟨_, hg⟩)
                rw [hks, Finset.mem_insert] at this
                exact this.elim hj hjo
          have hmw : E.P.modBits < E.P.wide := by
            have h1 := hE.consistent.2.1.2.2.2.2.1
            have h2 := HashesValid.modBits_eq hE
            have h3 := FullSizePrimes.primeBits_pos hd.key
            omega
          obtain ⟨b, hb⟩ := FacProof.verify_no_panic (ε := RecvErr (Err I)) (P := E.P) hmw E.facH hpl
            (RPParams.withSecret (d.rpP * d.rpQ) E.P.modBits d.lambda d.tDraw) hd.rp_valid (sid, j, rrid) m3.psi
            ((ZMod.isUnit_iff_coprime _ _).2 hn3.1) ((ZMod.isUnit_iff_coprime _ _).2 hn3.2)
          rw [hb, Out.bind_ok] at ha
          split at ha <;> simp at ha

/-- **C47 is false of the generation of auxiliary info.** Any single other party `j` can make a party with honest draws panic, whatever the draws and the
behaviour of everyone else:

1. with a round 2 message that contains an even modulus;
2. with a round 2 message that is accepted and has a random string one bit too long: the run panics as soon as all round 2 messages have been accepted;
3. with a round 2 message that is accepted and has both ring-Pedersen bases zero: the same. -/
theorem C47_aux_gen_remote_panic (E : AuxEnv I Sid) (k : Nat) (hE : HashesValid E k) (hashV : Sid → I → Hashed → V) (ids : Finset I) (sid : Sid) (me : I)
    (d : AuxDraws I) (hd : DrawsValid E k d) (c : Context I Sid) (hc : start E ids sid me d = .ok c) (j : I) (hj : j ∈ ids) (hne : j ≠ me) :
    (∀ (m : Msg2) capVs, m.pk % 2 = 0 ∨ m.echo.rp.modulus % 2 = 0 → recv2 E hashV sid capVs j m = .panic) ∧
    ∀ rid : List Bool, ∃ (v : V) (m : Msg2), m.echo.rid = rid ∧ (m.echo.rp.baseValue = 0 ∧ m.echo.rp.baseRandomizer = 0) ∧
      (∀ capVs : BMap I V, capVs.get? j = some v → ∃ p, recv2 E hashV sid capVs j m = .ok p) ∧
      ∀ (in1 : List (I × V)) (in2 : List (I × Msg2)) (in3 : List (I × Msg3)) capVs pls, (j, v) ∈ in1 → (j, m) ∈ in2 →
        collect c.otherIds recv1 in1 = .ok capVs → collect c.otherIds (recv2 E hashV sid capVs) in2 = .ok pls →
        run E hashV c in1 in2 in3 = .panic ∧ (rid.length ≠ d.rid.length → toRound3 E hashV c in1 in2 = .panic) := by
  obtain ⟨hme, hodd, sk, hsk, rfl⟩ := start_ok hc
  have hpos : 0 < E.P.modBits := by
    have h2 := HashesValid.modBits_eq hE
    have h3 := FullSizePrimes.primeBits_pos hd.key
    omega
  have h4 : 4 ≤ 2 ^ E.P.modBits := by
    have h2 := HashesValid.modBits_eq hE
    have h3 := FullSizePrimes.primeBits_pos hd.key
    calc 4 = 2 ^ 2 := rfl
      _ ≤ _ := Nat.pow_le_pow_right (by norm_num) (by omega)
  refine ⟨?_, fun rid => ?_⟩
  · intro m capVs h
    unfold recv2
    rw [Msg2.open_eq_panic.2 h]; rfl
  refine ⟨hashV sid j ⟨2 ^ E.P.modBits - 1, (⟨0, 0⟩ : RPParams (2 ^ E.P.modBits - 1)).toWire, (badMsg2 E sid j k rid).psi, rid, []⟩, badMsg2 E sid j k rid, rfl,
    ⟨rfl, rfl⟩, fun capVs hv => ⟨_, badMsg2_accepted hE hpos hashV sid j rid capVs hv⟩, ?_⟩
  intro in1 in2 in3 capVs pls hj1 hj2 hc1 hc2
  have hgj : pls.get? j = some ⟨2 ^ E.P.modBits - 1, ⟨2 ^ E.P.modBits - 1, ⟨0, 0⟩⟩, rid⟩ := by
    obtain ⟨_, _, _, a1⟩ := collect_eq_ok.1 hc1
    obtain ⟨_, _, _, a2⟩ := collect_eq_ok.1 hc2
    obtain ⟨v, hv, hgv⟩ := a1 _ hj1
    cases hv
    obtain ⟨p, hp, hgp⟩ := a2 _ hj2
    rw [badMsg2_accepted hE hpos hashV sid j rid capVs hgv] at hp
    cases hp
    exact hgp
  have hr3 : toRound3 E hashV (⟨⟨d.p, d.q, sk⟩, ⟨_, RPParams.withSecret (d.rpP * d.rpQ) E.P.modBits d.lambda d.tDraw⟩, me, ids.erase me, sid, hdata E sid me d,
      d.modDraw, d.modBit, d.facMasks⟩ : Context I Sid) in1 in2 = finalize2 E ⟨⟨d.p, d.q, sk⟩, ⟨_, RPParams.withSecret (d.rpP * d.rpQ) E.P.modBits d.lambda d.tDraw⟩,
        me, ids.erase me, sid, hdata E sid me d, d.modDraw, d.modBit, d.facMasks⟩ pls := by
    unfold toRound3
    rw [hc1, Out.bind_ok]
    simp only [hc2, Out.bind_ok]
  constructor
  · unfold run
    rw [hr3]
    unfold finalize2
    cases hx : (xorAll (hdata E sid me d).rid (pls.values.map Payload2.rid) : Out (Abort I (Err I)) _) with
    | err e => exact absurd hx xorAll_ne_err
    | panic => rfl
    | ok r =>
      rw [Out.bind_ok]
      rcases makeMod_cases (ε := Abort I (Err I)) E ⟨d.p, d.q, sk⟩ d.modDraw d.modBit (sid, me, r) with h | ⟨psi, h⟩
      · simp only [h]; rfl
      simp only [h, Out.bind_ok]
      have hs : send3 E ⟨⟨⟨d.p, d.q, sk⟩, ⟨_, RPParams.withSecret (d.rpP * d.rpQ) E.P.modBits d.lambda d.tDraw⟩, me, ids.erase me, sid, hdata E sid me d,
          d.modDraw, d.modBit, d.facMasks⟩, pls.insert me (hdata E sid me d).payload, r, psi⟩ = .panic := by
        unfold send3
        refine mapM'_panic_of_mem (a := j) ?_ (mem_bsetIter.2 (Finset.mem_erase.2 ⟨hne, hj⟩)) ?_
        · intro x hx
          have hx' : x ∈ ids.erase me := mem_bsetIter.1 hx
          have hk := (collect_eq_ok.1 hc2).2.2.1
          simp only at hk
          obtain ⟨pl, hpl⟩ := BMap.mem_keys_iff.1 (BMap.mem_keySet.1 (hk ▸ hx'))
          simp only [msg3, finGet, BMap.get?_insert, if_neg (Finset.mem_erase.1 hx').1, hpl, Out.ofOption_some, Out.bind_ok]
          rcases makeFac_cases (ε := LocalErr) E ⟨d.p, d.q, sk⟩ pl.rp (sid, me, r) (d.facMasks x) with h | ⟨psi, h⟩
          · left; rw [h]; rfl
          · right; rw [h]; exact ⟨_, rfl⟩
        · simp only [msg3, finGet, BMap.get?_insert, if_neg hne, hgj, Out.ofOption_some, Out.bind_ok]
          rcases makeFac_cases (ε := LocalErr) E ⟨d.p, d.q, sk⟩ ⟨2 ^ E.P.modBits - 1, ⟨0, 0⟩⟩ (sid, me, r) (d.facMasks j) with h | ⟨psi, h⟩
          · rw [h]; rfl
          · exact absurd h (FacProof.prove_zero_base E.facH (by show 1 < 2 ^ E.P.modBits - 1; omega) hd.key.primes.prime_p.pos _ rfl _ _ _)
      rw [hs]; rfl
  · intro hl
    rw [hr3]
    unfold finalize2
    have hx : (xorAll (hdata E sid me d).rid (pls.values.map Payload2.rid) : Out (Abort I (Err I)) _) = .panic := by
      rw [xorAll_eq_panic]
      refine ⟨rid, ?_, hl⟩
      rw [List.mem_map]
      refine ⟨(⟨2 ^ E.P.modBits - 1, ⟨2 ^ E.P.modBits - 1, ⟨0, 0⟩⟩, rid⟩ : Payload2), ?_, rfl⟩
      unfold BMap.values
      exact List.mem_map.2 ⟨_, BMap.get?_eq_some_iff.1 hgj, rfl⟩
    rw [hx]; rfl

/-- **C47 is false of the generation of auxiliary info, round 3.** A factoring proof whose first commitment is zero makes the receiver panic whenever the
challenge for it is negative; the sender can vary the other commitments until it is. -/
theorem C47_aux_gen_zero_commitment (E : AuxEnv I Sid) (r3 : Round3 I Sid) (hNh : 1 < r3.ctx.rp.modulus) (j : I) (pl : Payload2)
    (hpl : r3.payloads.get? j = some pl) (psiP : ModProof) (hpsi : psiP.verify E.P E.modH E.isPrime pl.pk (r3.ctx.sid, j, r3.rid) = true)
    (capQ capA capB capT : Nat) :
    let e := E.facH ⟨0, capQ, capA, capB, capT, pl.pk, r3.ctx.rp.rp.toWire, (r3.ctx.sid, j, r3.rid)⟩
    e.Fits → e.val < 0 → recv3 E r3 j ⟨psiP, ⟨e, 0, capQ, capA, capB, capT, ⟨0, 0⟩, ⟨0, 0⟩, ⟨0, 0⟩, ⟨0, 0⟩, ⟨0, 0⟩⟩⟩ = .panic := by
  intro e hfit hneg
  have h0 : powPublic (0 : ZMod r3.ctx.rp.modulus) e = (.panic : Out (RecvErr (Err I)) _) := by
    unfold powPublic
    rw [if_pos hneg, powBounded_zero (by omega) hfit, invMod?_zero hNh]; rfl
  have h1 : ∀ a : ZMod r3.ctx.rp.modulus, (powPublic a ⟨0, 0⟩ : Out (RecvErr (Err I)) _) = .ok 1 := by
    intro a; simp [powPublic, powBounded]
  have hr : ∀ n, (⟨0, 0⟩ : SInt).inRange n = true := by
    intro n; rw [SInt.inRange_eq]; simp [InPm]
  simp only [recv3, recvGet, hpl, Out.ofOption_some, Out.bind_ok, hpsi, not_true_eq_false, if_false]
  have hv : (FacProof.verify E.P E.facH ⟨e, 0, capQ, capA, capB, capT, ⟨0, 0⟩, ⟨0, 0⟩, ⟨0, 0⟩, ⟨0, 0⟩, ⟨0, 0⟩⟩ pl.pk r3.ctx.rp.rp (r3.ctx.sid, j, r3.rid) :
      Out (RecvErr (Err I)) _) = .panic := by
    simp only [FacProof.verify]
    rw [decide_eq_true (show E.facH ⟨0, capQ, capA, capB, capT, pl.pk, r3.ctx.rp.rp.toWire, (r3.ctx.sid, j, r3.rid)⟩ = e from rfl), Out.check_true, hr, Out.check_true,
      Out.check_true]
    unfold modulusSigned
    split
    · simp only [Out.bind_ok, RPParams.commitZeroRandomizerPublic, RPParams.commitPublic, h1]
      have h2 : ∃ x, (powPublic r3.ctx.rp.rp.s ⟨E.P.modBits, (pl.pk : Int)⟩ : Out (RecvErr (Err I)) _) = .ok x := by
        unfold powPublic; rw [if_neg (by simp)]; exact ⟨_, rfl⟩
      obtain ⟨x, hx⟩ := h2
      rw [hx, Out.bind_ok]
      have h3 : commitmentOfWire r3.ctx.rp.modulus 0 = 0 := by simp [commitmentOfWire]
      rw [h3]
      show (powPublic (0 : ZMod r3.ctx.rp.modulus) e).bind _ = _
      rw [h0]; rfl
    · rfl
  rw [hv]; rfl

/-- **C48 (auxiliary info).** The result of a run does not depend on the order in which the messages of each round arrive. -/
theorem C48_aux_gen_order (E : AuxEnv I Sid) (hashV : Sid → I → Hashed → V) (c : Context I Sid) (in1 in1' : List (I × V)) (in2 in2' : List (I × Msg2))
    (in3 in3' : List (I × Msg3)) (h1 : in1.Perm in1') (h2 : in2.Perm in2') (h3 : in3.Perm in3') (info : AuxInfo I PaillierKey PublicAux) :
    run E hashV c in1 in2 in3 = .ok info ↔ run E hashV c in1' in2' in3' = .ok info := by
  simp only [run, toRound3, Out.bind_eq_ok, C48_round_order _ _ _ _ h1, C48_round_order _ _ _ _ h2, C48_round_order _ _ _ _ h3]

/-! ### A concrete case

Three parties at the crate's test parameters, with 128-bit primes, a transparent commitment hash and challenges that depend on the data. -/

private def toyHashV : Nat → Nat → Hashed → Nat × Nat × Hashed := fun s i h => (s, i, h)

private theorem toyStart (i : Nat) (hi : i ∈ ({1, 2, 3} : Finset Nat)) : ∃ c, start Toy.auxEnv ({1, 2, 3} : Finset Nat) 7 i (Toy.auxDraws i) = .ok c := by
  obtain ⟨c, h, _⟩ := C54_start Toy.auxEnv 2 {1, 2, 3} 7 i hi (Toy.auxDraws i) (Toy.auxDraws_valid i (by simp at hi; omega))
  exact ⟨c, h⟩

/-- All hypotheses of C54 can be met: the three parties start, and when everyone's messages are delivered in the order of the ids they all end with
consistent auxiliary info. -/
example : ∃ (ctx : Nat → Context Nat Nat) (in1 : Nat → List (Nat × (Nat × Nat × Hashed))) (in2 : Nat → List (Nat × Msg2)) (in3 : Nat → List (Nat × Msg3))
    (infos : Nat → AuxInfo Nat PaillierKey PublicAux),
    (∀ i ∈ ({1, 2, 3} : Finset Nat), start Toy.auxEnv {1, 2, 3} 7 i (Toy.auxDraws i) = .ok (ctx i)) ∧
    (∀ i ∈ ({1, 2, 3} : Finset Nat), run Toy.auxEnv toyHashV (ctx i) (in1 i) (in2 i) (in3 i) = .ok (infos i)) ∧
    (infos 2).pub.keySet = {1, 2, 3} ∧ (infos 2).secret.p * (infos 2).secret.q = Toy.primeP * Toy.primeQ := by
  obtain ⟨c1, h1⟩ := toyStart 1 (by decide)
  have : Nonempty (Context Nat Nat) := ⟨c1⟩
  have hex : ∀ i, ∃ c, i ∈ ({1, 2, 3} : Finset Nat) → start Toy.auxEnv ({1, 2, 3} : Finset Nat) 7 i (Toy.auxDraws i) = .ok c := by
    intro i
    by_cases hi : i ∈ ({1, 2, 3} : Finset Nat)
    · obtain ⟨c, h⟩ := toyStart i hi; exact ⟨c, fun _ => h⟩
    · exact ⟨c1, fun h => absurd h hi⟩
  choose ctx hctx using hex
  have hmsgs : ∀ {M : Type} (m : Nat → M) i, FromOthers ({1, 2, 3} : Finset Nat) i m ((bsetIter (({1, 2, 3} : Finset Nat).erase i)).map fun j => (j, m j)) :=
    fun m i => fromOthers_iff.2 (List.Perm.refl _)
  have hlen : ∀ i ∈ ({1, 2, 3} : Finset Nat), (Toy.auxDraws i).rid.length = 3 := fun i _ => rfl
  obtain ⟨r3, m3, hr3, hm3, hfin⟩ := C54_honest_aux_gen Toy.auxEnv 2 Toy.auxEnv_valid toyHashV {1, 2, 3} 7 Toy.auxDraws
    (fun i hi => Toy.auxDraws_valid i (by simp at hi; omega)) (fun i _ j _ _ => Toy.facDraws_valid i j) 3 hlen ctx hctx
    (fun i => (bsetIter (({1, 2, 3} : Finset Nat).erase i)).map fun j => (j, msg1 toyHashV (ctx j)))
    (fun i => (bsetIter (({1, 2, 3} : Finset Nat).erase i)).map fun j => (j, msg2 (ctx j))) (fun i _ => hmsgs _ i) (fun i _ => hmsgs _ i)
  obtain ⟨infos, hrun, hcons, -⟩ := hfin (fun i => (bsetIter (({1, 2, 3} : Finset Nat).erase i)).map fun j => (j, m3 j i)) fun i _ => hmsgs _ i
  exact ⟨ctx, _, _, _, infos, hctx, hrun, hcons.holders 2 (by decide), hcons.secret_matches 2 (by decide)⟩

end Synedrion.Props
