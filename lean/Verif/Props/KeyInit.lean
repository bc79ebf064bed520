import Verif.Model.KeyInit
import Verif.Lemmas.Evidence
import Verif.Lemmas.Entities
import Verif.Props.ZkCurve
import Verif.Lemmas.Toy
import Verif.Props.Session

/-!
# C36, C37 and the key-generation part of C45–C48: key generation
-/

set_option linter.unusedSectionVars false

namespace Synedrion.Props

open Spec KeyInit

variable {I F G Sid V : Type} [LinearOrder I] [Field F] [LinearOrder F] [AddCommGroup G] [Module F G] [DecidableEq G] [DecidableEq V]

/-- The honest context of party `i`. -/
private def hctx (g : G) (ids : Finset I) (sid : Sid) (d : I → Draws F) (i : I) : Context I F G Sid :=
  ⟨ids.erase i, i, (d i).x, (d i).tau, ⟨(d i).x • g, (d i).tau • g, (d i).rho, (d i).u⟩, sid⟩

private theorem honest_toRound3 (hashV : Sid → I → PublicData G → V) (g : G) (ids : Finset I) (sid : Sid) (d : I → Draws F)
    (len : Nat) (hlen : ∀ i ∈ ids, (d i).rho.length = len) :
    ∃ rho : List Bool, (ids.Nonempty → JointBits ((bsetIter ids).map fun i => (d i).rho) rho) ∧
      ∀ i ∈ ids, ∀ in1 in2, FromOthers ids i (fun j => msg1 hashV (hctx g ids sid d j)) in1 →
        FromOthers ids i (fun j => msg2 (hctx g ids sid d j)) in2 →
        toRound3 hashV (hctx g ids sid d i) in1 in2 =
          .ok ⟨hctx g ids sid d i, BMap.tabulate (ids.erase i) fun j => (d j).x • g, BMap.tabulate (ids.erase i) fun j => (d j).tau • g, rho⟩ := by
  rcases ids.eq_empty_or_nonempty with rfl | ⟨i0, hi0⟩
  · exact ⟨[], by simp, by simp⟩
  have hx : ∀ i ∈ ids, ∃ r, (xorAll (d i).rho ((bsetIter (ids.erase i)).map fun j => (d j).rho) : Out (Abort I Err) _) = .ok r := by
    intro i hi
    apply xorAll_ok_of_lengths
    intro x hx
    obtain ⟨j, hj, rfl⟩ := List.mem_map.1 hx
    have hj' := Finset.mem_of_mem_erase (mem_bsetIter.1 hj)
    rw [hlen j hj', hlen i hi]
  obtain ⟨rho, hrho⟩ := hx i0 hi0
  refine ⟨rho, fun _ => (xorAll_eq_ok.1 hrho).perm ((erase_perm hi0).map fun i => (d i).rho), ?_⟩
  intro i hi in1 in2 h1 h2
  have hrho' : (xorAll (d i).rho ((bsetIter (ids.erase i)).map fun j => (d j).rho) : Out (Abort I Err) _) = .ok rho := by
    rw [← hrho]
    exact xorAll_perm (((erase_perm hi).trans (erase_perm hi0).symm).map fun i => (d i).rho)
  unfold toRound3
  have e1 : collect (hctx g ids sid d i).otherIds recv1 in1 = .ok (BMap.tabulate (ids.erase i) fun j => msg1 hashV (hctx g ids sid d j)) :=
    collect_others (recv := recv1) h1 (fun j _ _ => rfl)
  rw [e1, Out.bind_ok]
  have e2 : collect (hctx g ids sid d i).otherIds (recv2 hashV ⟨hctx g ids sid d i, BMap.tabulate (ids.erase i) fun j => msg1 hashV (hctx g ids sid d j)⟩) in2 =
      .ok (BMap.tabulate (ids.erase i) fun j => ⟨(d j).x • g, (d j).tau • g, (d j).rho⟩) := by
    refine collect_others h2 fun j hji hne => ?_
    have hj := Finset.mem_erase.2 ⟨hne, hji⟩
    simp only [recv2, recvGet, BMap.get?_tabulate, if_pos hj, Out.ofOption_some, Out.bind_ok, msg2, msg1, hctx]
    simp
  simp only [e2, Out.bind_ok, finalize2]
  have e3 : (BMap.tabulate (ids.erase i) fun j => (⟨(d j).x • g, (d j).tau • g, (d j).rho⟩ : Payload2 G)).values.map Payload2.rho =
      (bsetIter (ids.erase i)).map fun j => (d j).rho := by
    rw [BMap.values_tabulate, List.map_map]; rfl
  rw [e3, show (hctx g ids sid d i).data.rho = (d i).rho from rfl, hrho', Out.bind_ok]
  refine congrArg Out.ok ?_
  congr 1 <;> · ext k v; simp only [BMap.get?_mapVals, BMap.get?_tabulate]; split <;> simp

/-- **C36.** If every party of `ids` starts key generation with the same session id and random strings of one length, and the messages of
each round arrive in any order, then every party reaches round 3, and: if the contributions add up to zero all of them report that error; otherwise they end
with shares of one key — same public map over exactly `ids`, secrets matching the public shares — and the key is the sum of all contributions. -/
theorem C36_honest_keygen (hashV : Sid → I → PublicData G → V) (H : SchHash G (SchAux I Sid) → F) (g : G) (hg : g ≠ 0) (ids : Finset I)
    (sid : Sid) (d : I → Draws F) (len : Nat) (hlen : ∀ i ∈ ids, (d i).rho.length = len)
    (ctx : I → Context I F G Sid) (hctx : ∀ i ∈ ids, start g ids sid i (d i) = .ok (ctx i))
    (in1 : I → List (I × V)) (in2 : I → List (I × Msg2 G))
    (h1 : ∀ i ∈ ids, FromOthers ids i (fun j => msg1 hashV (ctx j)) (in1 i))
    (h2 : ∀ i ∈ ids, FromOthers ids i (fun j => msg2 (ctx j)) (in2 i)) :
    ∃ r3 : I → Round3 I F G Sid, (∀ i ∈ ids, toRound3 hashV (ctx i) (in1 i) (in2 i) = .ok (r3 i)) ∧
      (∀ in3 : I → List (I × SchProof F), (∀ i ∈ ids, FromOthers ids i (fun j => msg3 H (r3 j)) (in3 i)) →
        (∑ i ∈ ids, (d i).x = 0 →
          ∀ i ∈ ids, run hashV H g (ctx i) (in1 i) (in2 i) (in3 i) = .err (.localErr (.entity .zeroSum))) ∧
        (∑ i ∈ ids, (d i).x ≠ 0 →
          ∃ shares : I → KeyShare I F G, (∀ i ∈ ids, run hashV H g (ctx i) (in1 i) (in2 i) (in3 i) = .ok (shares i)) ∧
            SharesKey g ids shares (∑ i ∈ ids, (d i).x))) := by
  have hc : ∀ i ∈ ids, ctx i = Props.hctx g ids sid d i := by
    intro i hi
    have := hctx i hi
    simp only [start, hi, not_true_eq_false, if_false, Out.ok.injEq] at this
    rw [← this]; rfl
  obtain ⟨rho, -, hr⟩ := honest_toRound3 hashV g ids sid d len hlen
  let r3 : I → Round3 I F G Sid := fun i => ⟨Props.hctx g ids sid d i, BMap.tabulate (ids.erase i) fun j => (d j).x • g,
    BMap.tabulate (ids.erase i) fun j => (d j).tau • g, rho⟩
  have hto : ∀ i ∈ ids, toRound3 hashV (ctx i) (in1 i) (in2 i) = .ok (r3 i) := by
    intro i hi
    rw [hc i hi]
    exact hr i hi _ _ (fromOthers_congr (h1 i hi) fun j hj => by rw [hc j hj]) (fromOthers_congr (h2 i hi) fun j hj => by rw [hc j hj])
  refine ⟨r3, hto, fun in3 h3 => ?_⟩
  have hpub : ∀ i ∈ ids, (r3 i).capXs.insert i ((d i).x • g) = BMap.tabulate ids fun j => (d j).x • g := by
    intro i hi
    exact BMap.insert_tabulate_erase hi fun j => (d j).x • g
  have hrun : ∀ i ∈ ids, run hashV H g (ctx i) (in1 i) (in2 i) (in3 i) =
      finalizeResult (ofEntity (KeyShare.new i (d i).x (BMap.tabulate ids fun j => (d j).x • g))) := by
    intro i hi
    unfold run
    rw [hto i hi, Out.bind_ok]
    have e3 : collect (ctx i).otherIds (recv3 H g (r3 i)) (in3 i) = .ok (BMap.tabulate (ids.erase i) fun _ => ()) := by
      rw [hc i hi]
      refine collect_others (h3 i hi) fun j hj' hne => ?_
      have hj := Finset.mem_erase.2 ⟨hne, hj'⟩
      simp only [recv3, recvGet]
      show (Out.ofOption _ ((BMap.tabulate (ids.erase i) fun j => (d j).tau • g).get? j)).bind _ = _
      rw [BMap.get?_tabulate, if_pos hj, Out.ofOption_some, Out.bind_ok]
      show (Out.ofOption _ ((BMap.tabulate (ids.erase i) fun j => (d j).x • g).get? j)).bind _ = _
      rw [BMap.get?_tabulate, if_pos hj, Out.ofOption_some, Out.bind_ok]
      exact if_pos (C25_complete H g (d j).tau (d j).x ⟨sid, j, rho⟩)
    rw [e3, Out.bind_ok]
    show finalizeResult (ofEntity (KeyShare.new i (d i).x ((r3 i).capXs.insert i ((d i).x • g)))) = _
    rw [hpub i hi]
  have hsum : (BMap.tabulate ids fun j => (d j).x • g).values.sum = (∑ i ∈ ids, (d i).x) • g := by
    rw [BMap.sum_values_tabulate, Finset.sum_smul]
  constructor
  · intro hz i hi
    rw [hrun i hi, KeyShare.new, hsum, hz, zero_smul, if_pos rfl]
    rfl
  · intro hz
    refine ⟨fun i => ⟨i, (d i).x, BMap.tabulate ids fun j => (d j).x • g⟩, fun i hi => ?_, sharesKey_of_secrets g ids (fun i => (d i).x) _ rfl _ fun i _ => rfl⟩
    rw [hrun i hi, KeyShare.new, hsum, if_neg (by rw [smul_eq_zero]; push Not; exact ⟨hz, hg⟩)]
    rfl

/-- **C37.** Whatever messages arrive, a party that finishes key generation owns a share of its own secret whose public counterpart it
published, over exactly the agreed ids. Every other party's public share was opened from the commitment that party sent in round 1 (under this session's
id and its own id) and carries a Schnorr proof that verifies under the joint random string of all parties. The resulting key is not the identity. -/
theorem C37_finishing_party (hashV : Sid → I → PublicData G → V) (H : SchHash G (SchAux I Sid) → F) (g : G) (ids : Finset I) (sid : Sid) (me : I)
    (d : Draws F) (c : Context I F G Sid) (hc : start g ids sid me d = .ok c) (in1 : List (I × V)) (in2 : List (I × Msg2 G))
    (in3 : List (I × SchProof F)) (ks : KeyShare I F G) (h : run hashV H g c in1 in2 in3 = .ok ks) :
    ks.owner = me ∧ ks.secret = d.x ∧ ks.pub.keySet = ids ∧ ks.pub.get? me = some (d.x • g) ∧ ks.verifyingKeyAsPoint ≠ 0 ∧
      ∃ rho : List Bool, JointBits (d.rho :: in2.map fun a => a.2.rho) rho ∧
        ∀ j ∈ ids, j ≠ me → ∃ (v : V) (m : Msg2 G) (psi : SchProof F), (j, v) ∈ in1 ∧ (j, m) ∈ in2 ∧ (j, psi) ∈ in3 ∧
          hashV sid j ⟨m.capX, m.capA, m.rho, m.u⟩ = v ∧ ks.pub.get? j = some m.capX ∧
          psi.challenge = H ⟨⟨sid, j, rho⟩, m.capX, m.capA⟩ ∧ m.capA + psi.challenge • m.capX = psi.proof • g := by
  have hme : me ∈ ids := by
    by_contra hn; simp [start, hn] at hc
  simp only [start, hme, not_true_eq_false, if_false, Out.ok.injEq] at hc
  subst hc
  unfold run toRound3 at h
  simp only [Out.bind_eq_ok] at h
  obtain ⟨r3, ⟨capVs, hv, pls, hp, hf2⟩, u3, h3, hfin⟩ := h
  obtain ⟨nd1, ex1, k1, a1⟩ := collect_eq_ok.1 hv
  obtain ⟨nd2, ex2, k2, a2⟩ := collect_eq_ok.1 hp
  obtain ⟨nd3, ex3, k3, a3⟩ := collect_eq_ok.1 h3
  simp only [finalize2, Out.bind_eq_ok] at hf2
  obtain ⟨rho, hrho, hr3⟩ := hf2
  cases hr3
  have hks := ofEntity_eq_ok.1 (finalizeResult_eq_ok.1 hfin)
  unfold KeyShare.new at hks
  split at hks
  · simp at hks
  rename_i hnz
  cases hks
  refine ⟨rfl, rfl, ?_, ?_, hnz, rho, ?_, ?_⟩
  · show ((pls.mapVals fun _ p => p.capX).insert me (d.x • g)).keySet = _
    rw [BMap.keySet_insert, BMap.keySet_mapVals, k2]
    exact Finset.insert_erase hme
  · show ((pls.mapVals fun _ p => p.capX).insert me (d.x • g)).get? me = _
    simp [BMap.get?_insert]
  · refine (xorAll_eq_ok.1 hrho).perm (List.Perm.cons _ ?_)
    have hpe := collect_entries_perm (f := fun _ m => (⟨m.capX, m.capA, m.rho⟩ : Payload2 G)) hp (by
      intro a _ p hp'
      simp only [recv2, Out.bind_eq_ok] at hp'
      obtain ⟨v, _, hp'⟩ := hp'
      split at hp'
      · simp at hp'
      · cases hp'; rfl)
    have := hpe.map fun p => p.2.rho
    rw [List.map_map] at this
    show ((pls.entries.map Prod.snd).map Payload2.rho).Perm _
    rw [List.map_map]
    exact this
  · intro j hj hne
    have hjo : j ∈ ids.erase me := Finset.mem_erase.2 ⟨hne, hj⟩
    obtain ⟨v, v', hv1, hv', hgv⟩ := collect_mem hv hjo
    cases hv'
    obtain ⟨m, p, hm2, hpm, hgp⟩ := collect_mem hp hjo
    obtain ⟨psi, _, hp3, hps, _⟩ := collect_mem h3 hjo
    simp only [recv2, recvGet, hgv, Out.ofOption_some, Out.bind_ok] at hpm
    split at hpm
    · simp at hpm
    rename_i heq
    simp only [ne_eq, not_not] at heq
    cases hpm
    simp only [recv3, recvGet, BMap.get?_mapVals, hgp, Option.map_some, Out.ofOption_some, Out.bind_ok] at hps
    split at hps
    · rename_i hver
      have := (C25_accepts_iff ..).1 hver
      refine ⟨v, m, psi, hv1, hm2, hp3, heq, ?_, this.1, this.2⟩
      show ((pls.mapVals fun _ p => p.capX).insert me (d.x • g)).get? j = _
      rw [BMap.get?_insert, if_neg hne, BMap.get?_mapVals, hgp]; rfl
    · simp at hps

/-! ### Evidence -/

/-- **C45, C46 (key generation, round 2).** A receiver that has collected the round 1 messages rejects a round 2 message exactly when the third-party check
of that sender's round 1 and round 2 messages confirms the fault, and accepts it exactly when the check finds no fault. -/
theorem C45_key_init_round2 (hashV : Sid → I → PublicData G → V) (c : Context I F G Sid) (in1 : List (I × V)) (capVs : BMap I V)
    (h1 : collect c.otherIds recv1 in1 = .ok capVs) (j : I) (v : V) (hj : (j, v) ∈ in1) (m : Msg2 G) :
    (recv2 hashV ⟨c, capVs⟩ j m = .err (.protocol .r2HashMismatch) ↔ evidence2 hashV c.sid j v m = .ok true) ∧
    ((∃ p, recv2 hashV ⟨c, capVs⟩ j m = .ok p) ↔ evidence2 hashV c.sid j v m = .ok false) := by
  obtain ⟨_, _, _, al⟩ := collect_eq_ok.1 h1
  obtain ⟨v', hv', hg⟩ := al _ hj
  cases hv'
  simp only at hg
  simp only [recv2, recvGet, hg, Out.ofOption_some, Out.bind_ok, evidence2]
  by_cases he : hashV c.sid j ⟨m.capX, m.capA, m.rho, m.u⟩ = v <;> simp [he]

theorem keyInit_toRound3_ok {hashV : Sid → I → PublicData G → V} {c : Context I F G Sid} {in1 : List (I × V)} {in2 : List (I × Msg2 G)}
    {r3 : Round3 I F G Sid} (h : toRound3 hashV c in1 in2 = .ok r3) :
    r3.ctx = c ∧ (in2.map Prod.fst).Nodup ∧ (in2.map Prod.fst).toFinset = c.otherIds ∧
      (∀ j m, (j, m) ∈ in2 → r3.capXs.get? j = some m.capX ∧ r3.capAs.get? j = some m.capA) ∧
      JointBits (c.data.rho :: in2.map fun a => a.2.rho) r3.rhoCombined := by
  unfold toRound3 at h
  simp only [Out.bind_eq_ok] at h
  obtain ⟨capVs, hv, pls, hp, hf2⟩ := h
  obtain ⟨nd2, ex2, k2, a2⟩ := collect_eq_ok.1 hp
  simp only [finalize2, Out.bind_eq_ok] at hf2
  obtain ⟨rho, hrho, hr3⟩ := hf2
  cases hr3
  have hf : ∀ a ∈ in2, ∀ p, recv2 hashV ⟨c, capVs⟩ a.1 a.2 = .ok p → p = (⟨a.2.capX, a.2.capA, a.2.rho⟩ : Payload2 G) := by
    intro a _ p hp'
    simp only [recv2, Out.bind_eq_ok] at hp'
    obtain ⟨v, _, hp'⟩ := hp'
    split at hp'
    · simp at hp'
    · cases hp'; rfl
  refine ⟨rfl, nd2, ex2, ?_, ?_⟩
  · intro j m hm
    obtain ⟨p, h1, h2⟩ := a2 _ hm
    simp only at h1 h2
    have := hf _ hm p h1
    subst this
    simp [h2]
  · refine (xorAll_eq_ok.1 hrho).perm (List.Perm.cons _ ?_)
    have hpe := collect_entries_perm (f := fun _ m => (⟨m.capX, m.capA, m.rho⟩ : Payload2 G)) hp hf
    have := hpe.map fun p => p.2.rho
    rw [List.map_map] at this
    show ((pls.entries.map Prod.snd).map Payload2.rho).Perm _
    rw [List.map_map]
    exact this

/-- **C45, C46 (key generation, round 3).** A receiver in round 3 rejects a sender's proof exactly when the third-party check, from the sender's
round 2 and round 3 messages and the echoes of all other parties, confirms the fault, and accepts it exactly when the check finds no fault. -/
theorem C45_key_init_round3 (hashV : Sid → I → PublicData G → V) (H : SchHash G (SchAux I Sid) → F) (g : G) (ids : Finset I) (me : I) (hme : me ∈ ids)
    (c : Context I F G Sid) (hid : c.myId = me) (hids : c.otherIds = ids.erase me) (in1 : List (I × V)) (in2 : List (I × Msg2 G))
    (r3 : Round3 I F G Sid) (h : toRound3 hashV c in1 in2 = .ok r3) (j : I) (m2 : Msg2 G) (hj : (j, m2) ∈ in2) (psi : SchProof F)
    (echos : BMap I (List Bool)) (he : EchosAgainst ids me j c.data.rho (in2.map fun a => (a.1, a.2.rho)) echos) :
    (recv3 H g r3 j psi = .err (.protocol .r3InvalidSchProof) ↔ evidence3 H g c.sid j m2 psi echos = .ok true) ∧
    (recv3 H g r3 j psi = .ok () ↔ evidence3 H g c.sid j m2 psi echos = .ok false) := by
  obtain ⟨hctx, nd, ex, hget, hjoint⟩ := keyInit_toRound3_ok h
  have hperm : (m2.rho :: echos.values).Perm (c.data.rho :: in2.map fun a => a.2.rho) := by
    have := (he.perm (ej := m2.rho) (by rw [List.map_map]; exact nd) (by rw [List.map_map, ← hids]; exact ex)
      (List.mem_map.2 ⟨_, hj, rfl⟩)).map Prod.snd
    simpa [BMap.values, List.map_map, Function.comp_def] using this
  have hev : evidence3 H g c.sid j m2 psi echos = .ok (!psi.verify H g m2.capA m2.capX ⟨c.sid, j, r3.rhoCombined⟩) := by
    unfold evidence3
    rw [xorAll_perm hperm, xorAll_eq_ok.2 hjoint]
    rfl
  obtain ⟨hx, ha⟩ := hget j m2 hj
  rw [hev]
  simp only [recv3, recvGet, hx, ha, Out.ofOption_some, Out.bind_ok, hctx]
  by_cases hv : psi.verify H g m2.capA m2.capX ⟨c.sid, j, r3.rhoCombined⟩ = true
  · simp [hv]
  · simp [hv]

/-- **C46 (key generation).** Whatever the other parties send, an honest party that gets to round 3 cannot be convicted: neither its round 1/2 messages nor its round 3 proof
(against the echoes of what it received) are confirmed as a fault. -/
theorem C46_key_init_no_framing (hashV : Sid → I → PublicData G → V) (H : SchHash G (SchAux I Sid) → F) (g : G) (ids : Finset I) (sid : Sid) (me : I)
    (d : Draws F) (c : Context I F G Sid) (hc : start g ids sid me d = .ok c) :
    evidence2 hashV sid me (msg1 hashV c) (msg2 c) = .ok false ∧
    ∀ (in1 : List (I × V)) (in2 : List (I × Msg2 G)) (r3 : Round3 I F G Sid) (echos : BMap I (List Bool)),
      toRound3 hashV c in1 in2 = .ok r3 → echos.entries.Perm (in2.map fun a => (a.1, a.2.rho)) →
      evidence3 H g sid me (msg2 c) (msg3 H r3) echos = .ok false := by
  have hme : me ∈ ids := by
    by_contra hn; simp [start, hn] at hc
  simp only [start, hme, not_true_eq_false, if_false, Out.ok.injEq] at hc
  subst hc
  constructor
  · simp [evidence2, msg1, msg2]
  · intro in1 in2 r3 echos h hp
    obtain ⟨hctx, -, -, -, hj⟩ := keyInit_toRound3_ok h
    unfold evidence3
    have hp' := hp.map Prod.snd
    rw [List.map_map] at hp'
    have e : (xorAll d.rho echos.values : Out Unit (List Bool)) = .ok r3.rhoCombined :=
      xorAll_eq_ok.2 (hj.perm (List.Perm.cons _ hp'.symm))
    show ((xorAll d.rho echos.values : Out Unit (List Bool)).bind _) = _
    rw [e, Out.bind_ok]
    have hv : (msg3 H r3).verify H g (msg2 (⟨ids.erase me, me, d.x, d.tau, ⟨d.x • g, schCommitment g d.tau, d.rho, d.u⟩, sid⟩ : Context I F G Sid)).capA
        (d.x • g) ⟨sid, me, r3.rhoCombined⟩ = true := by
      unfold msg3
      rw [hctx]
      exact C25_complete H g d.tau d.x ⟨sid, me, r3.rhoCombined⟩
    refine congrArg Out.ok ?_
    rw [Bool.not_eq_false']
    exact hv

/-! ### Remote panics -/

/-- **C47 (key generation, partial).** Full property: no message of a peer makes a party panic. Proved: during key generation the only way to make a
party panic is a round 2 random string of the wrong length. -/
theorem C47_key_init_partial (hashV : Sid → I → PublicData G → V) (H : SchHash G (SchAux I Sid) → F) (g : G) (c : Context I F G Sid)
    (in1 : List (I × V)) (in2 : List (I × Msg2 G)) (in3 : List (I × SchProof F)) (h : run hashV H g c in1 in2 in3 = .panic) :
    ∃ a ∈ in2, a.2.rho.length ≠ c.data.rho.length := by
  have hrecv2 : ∀ r j (m : Msg2 G), recv2 hashV (r : Round2 I F G Sid V) j m ≠ .panic := by
    intro r j m hm
    unfold recv2 recvGet at hm
    cases hg : r.capVs.get? j <;> simp [hg] at hm
    split at hm <;> simp at hm
  have hrecv3 : ∀ r j psi, recv3 H g (r : Round3 I F G Sid) j psi ≠ .panic := by
    intro r j m hm
    unfold recv3 recvGet at hm
    cases hg : r.capAs.get? j <;> simp [hg] at hm
    cases hg' : r.capXs.get? j <;> simp [hg'] at hm
    split at hm <;> simp at hm
  unfold run at h
  cases ht : toRound3 hashV c in1 in2 with
  | err e => rw [ht] at h; simp at h
  | ok r3 =>
    rw [ht, Out.bind_ok] at h
    cases hc : collect c.otherIds (recv3 H g r3) in3 with
    | err e => rw [hc] at h; simp at h
    | panic => obtain ⟨a, _, ha⟩ := collect_eq_panic hc; exact absurd ha (hrecv3 _ _ _)
    | ok u =>
      rw [hc, Out.bind_ok] at h
      unfold finalize3 KeyShare.new at h
      split at h <;> simp [ofEntity, finalizeResult] at h
  | panic =>
    unfold toRound3 at ht
    cases hc : collect c.otherIds recv1 in1 with
    | err e => rw [hc] at ht; simp at ht
    | panic => obtain ⟨a, _, ha⟩ := collect_eq_panic hc; simp [recv1] at ha
    | ok capVs =>
      rw [hc, Out.bind_ok] at ht
      simp only at ht
      cases hc2 : collect c.otherIds (recv2 hashV ⟨c, capVs⟩) in2 with
      | err e => rw [hc2] at ht; simp at ht
      | panic => obtain ⟨a, _, ha⟩ := collect_eq_panic hc2; exact absurd ha (hrecv2 _ _ _)
      | ok pls =>
        rw [hc2, Out.bind_ok] at ht
        unfold finalize2 at ht
        cases hx : (xorAll c.data.rho (pls.values.map Payload2.rho) : Out (Abort I Err) _) with
        | ok r => rw [hx] at ht; simp at ht
        | err e => exact absurd hx xorAll_ne_err
        | panic =>
          obtain ⟨x, hx1, hx2⟩ := xorAll_eq_panic.1 hx
          obtain ⟨p, hp1, rfl⟩ := List.mem_map.1 hx1
          have hpe := collect_entries_perm (f := fun _ m => (⟨m.capX, m.capA, m.rho⟩ : Payload2 G)) hc2 (by
            intro a _ p hp'
            simp only [recv2, Out.bind_eq_ok] at hp'
            obtain ⟨v, _, hp'⟩ := hp'
            split at hp'
            · simp at hp'
            · cases hp'; rfl)
          have hp2 := (hpe.map Prod.snd).mem_iff.1 hp1
          rw [List.map_map] at hp2
          obtain ⟨a, ha, rfl⟩ := List.mem_map.1 hp2
          exact ⟨a, ha, hx2⟩

/-- **C47 is false of key generation.** In every session with at least one other party and for every choice of the victim's random values, the
others can make the victim panic: they commit to, and then send, a random string one bit too long. -/
theorem C47_key_init_remote_panic (hashV : Sid → I → PublicData G → V) (H : SchHash G (SchAux I Sid) → F) (g : G) (ids : Finset I) (sid : Sid) (me : I)
    (hother : ∃ j ∈ ids, j ≠ me) (d : Draws F) (c : Context I F G Sid) (hc : start g ids sid me d = .ok c) :
    ∃ (in1 : List (I × V)) (in2 : List (I × Msg2 G)), ∀ in3, run hashV H g c in1 in2 in3 = .panic := by
  have hme : me ∈ ids := by
    by_contra hn; simp [start, hn] at hc
  simp only [start, hme, not_true_eq_false, if_false, Out.ok.injEq] at hc
  subst hc
  let bad : Msg2 G := ⟨true :: d.rho, 0, 0, []⟩
  let v : I → V := fun j => hashV sid j ⟨0, 0, true :: d.rho, []⟩
  refine ⟨(bsetIter (ids.erase me)).map fun j => (j, v j), (bsetIter (ids.erase me)).map fun j => (j, bad), fun in3 => ?_⟩
  have e1 : collect (ids.erase me) (recv1 : I → V → _) ((bsetIter (ids.erase me)).map fun j => (j, v j)) = .ok (BMap.tabulate (ids.erase me) v) :=
    collect_honest (List.Perm.refl _) (fun j _ => rfl)
  unfold run toRound3
  simp only [e1, Out.bind_ok]
  rw [collect_honest (s := ids.erase me) (msg := fun _ => bad) (pl := fun _ => (⟨0, 0, true :: d.rho⟩ : Payload2 G)) (List.Perm.refl _) (by
    intro j hj
    simp [recv2, recvGet, hj, v, bad])]
  simp only [Out.bind_ok, finalize2, BMap.values_tabulate, List.map_map]
  have : (xorAll d.rho ((bsetIter (ids.erase me)).map (Payload2.rho ∘ fun _ => (⟨0, 0, true :: d.rho⟩ : Payload2 G))) : Out (Abort I Err) _) = .panic := by
    rw [xorAll_eq_panic]
    obtain ⟨j, hj, hne⟩ := hother
    exact ⟨true :: d.rho, List.mem_map.2 ⟨j, mem_bsetIter.2 (Finset.mem_erase.2 ⟨hne, hj⟩), rfl⟩, by simp⟩
  rw [this]
  rfl

/-- **C48 (key generation).** The result of a run does not depend on the order in which the messages of each round arrive. -/
theorem C48_key_init_order (hashV : Sid → I → PublicData G → V) (H : SchHash G (SchAux I Sid) → F) (g : G) (c : Context I F G Sid)
    (in1 in1' : List (I × V)) (in2 in2' : List (I × Msg2 G)) (in3 in3' : List (I × SchProof F)) (h1 : in1.Perm in1') (h2 : in2.Perm in2')
    (h3 : in3.Perm in3') (ks : KeyShare I F G) :
    run hashV H g c in1 in2 in3 = .ok ks ↔ run hashV H g c in1' in2' in3' = .ok ks := by
  simp only [run, toRound3, Out.bind_eq_ok, C48_round_order _ _ _ _ h1, C48_round_order _ _ _ _ h2, C48_round_order _ _ _ _ h3]

/-! ### Concrete cases -/

section
attribute [local instance] Toy.fact11 Toy.order11

/-- A transparent hash and a challenge that depends on everything. -/
private def toyHashV : Nat → Nat → PublicData (ZMod 11) → Nat × Nat × PublicData (ZMod 11) := fun s i d => (s, i, d)
private def toyH : SchHash (ZMod 11) (SchAux Nat Nat) → ZMod 11 := fun h =>
  h.capX * 3 + h.commitment * 5 + (h.aux.id : ZMod 11) + (h.aux.rho.count true : ZMod 11)
private def toyDraws (i : Nat) : Draws (ZMod 11) := ⟨(i : ZMod 11) * 2 + 1, (i : ZMod 11) + 4, [i % 2 = 0, true, i = 2], [true]⟩
private def toyCtx (i : Nat) : Context Nat (ZMod 11) (ZMod 11) Nat :=
  ⟨({1, 2, 3} : Finset Nat).erase i, i, (toyDraws i).x, (toyDraws i).tau, ⟨(toyDraws i).x, (toyDraws i).tau, (toyDraws i).rho, (toyDraws i).u⟩, 7⟩
private def toyR3 (i : Nat) : Round3 Nat (ZMod 11) (ZMod 11) Nat :=
  ⟨toyCtx i, BMap.tabulate (({1, 2, 3} : Finset Nat).erase i) fun j => (toyDraws j).x, BMap.tabulate (({1, 2, 3} : Finset Nat).erase i) fun j => (toyDraws j).tau,
    [true, true, true]⟩

/-- Three parties start and finish; party 2 receives the messages in another order than party 1 would. -/
example : start (1 : ZMod 11) ({1, 2, 3} : Finset Nat) 7 2 (toyDraws 2) = .ok (toyCtx 2) ∧
    run toyHashV toyH (1 : ZMod 11) (toyCtx 2) [(3, msg1 toyHashV (toyCtx 3)), (1, msg1 toyHashV (toyCtx 1))]
      [(1, msg2 (toyCtx 1)), (3, msg2 (toyCtx 3))] [(3, msg3 toyH (toyR3 3)), (1, msg3 toyH (toyR3 1))] =
    .ok ⟨2, 5, BMap.ofList [(1, 3), (2, 5), (3, 7)]⟩ := by
  constructor
  · rfl
  · decide +kernel

/-- A wrong proof is rejected and blamed on its sender. -/
example : run toyHashV toyH (1 : ZMod 11) (toyCtx 2) [(3, msg1 toyHashV (toyCtx 3)), (1, msg1 toyHashV (toyCtx 1))]
      [(1, msg2 (toyCtx 1)), (3, msg2 (toyCtx 3))] [(3, msg3 toyH (toyR3 3)), (1, msg3 toyH (toyR3 3))] =
    .err (.fault 1 .r3InvalidSchProof) := by decide +kernel

/-- The hypothesis on deliveries of C36 is met by listing the others' messages. -/
example (i : Nat) : FromOthers ({1, 2, 3} : Finset Nat) i (fun j => msg1 toyHashV (toyCtx j))
    ((bsetIter (({1, 2, 3} : Finset Nat).erase i)).map fun j => (j, msg1 toyHashV (toyCtx j))) := fromOthers_iff.2 (List.Perm.refl _)

/-- The evidence check confirms that fault, from the echoes of parties 2 and 3. -/
example : evidence3 toyH (1 : ZMod 11) 7 1 (msg2 (toyCtx 1)) (msg3 toyH (toyR3 3)) (BMap.ofList [(2, (toyDraws 2).rho), (3, (toyDraws 3).rho)]) =
    .ok true := by decide +kernel

end

end Synedrion.Props
