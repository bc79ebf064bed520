import Verif.Lemmas.SigningDamaged
import Verif.Lemmas.ToySigningRun

/-!
# C78: damaged or outdated key material is noticed by the other signers
-/

set_option linter.unusedSectionVars false

namespace Synedrion.Props

open Spec Signing

variable {q : Nat} [Fact q.Prime] {I Ep G : Type} [LinearOrder I] [AddCommGroup G] [Module (ZMod q) G] [DecidableEq G]

section Damaged
variable (E : Env q I Ep G) (hE : SigningSetting E) (epidOf : BMap I G → BMap I PublicAux → Ep) (message sk : ZMod q) (ids : Finset I)
  (shares : I → KeyShare I (ZMod q) G) (hshares : SharesKey E.C.g ids shares sk) (infos : I → AuxInfo I PaillierKey PublicAux) (setup : I → RPSetup)
  (haux : UsableAux E.P ids infos setup) (d : I → Draws q I)
  (hd : SigningDrawsValid E.P ids (fun i => (infos i).secret.modulus) (fun i => (setup i).modulus) d)
  (x : I → ZMod q)

include hE hshares haux in
/-- **C78 (not noticed at the start).** A key share whose secret does not belong to its public share is accepted when signing is set up and started. -/
theorem C78_damaged_share_starts : ∀ i ∈ ids, ∃ r, new { shares i with secret := x i } (infos i) = .ok () ∧
    start E epidOf message { shares i with secret := x i } (infos i) i (d i) = .ok r := by
  intro i hi
  refine ⟨_, ?_, with_start E hE epidOf message sk ids shares hshares infos setup haux d x hi⟩
  unfold new
  rw [if_neg (by rw [hshares.owner i hi, haux.consistent.owner i hi]; simp), if_neg (by rw [hshares.holders i hi, haux.consistent.holders i hi]; simp)]

include hE hshares haux hd in
/-- **C78 (damaged shares).** Every party runs the protocol honestly, but with a secret share `x i` that need not be the one that belongs to its public share.
The first round succeeds for everyone. In the second round a party whose secret does not belong to its public share is found out by every other party, unless
all the challenges in its proofs are zero: every party `j` that gets the message of such a party stops with an error, and blames a party whose secret is wrong,
and never one whose share is intact. The challenges are hashes of an input that contains the session, the prover and its public share. -/
theorem C78_damaged_share_noticed (r1 : I → Round1 q I Ep G)
    (hst : ∀ i ∈ ids, start E epidOf message { shares i with secret := x i } (infos i) i (d i) = .ok (r1 i)) :
    ∃ (m1 : I → I → Msg1 q G) (r2 : I → Round2 q I Ep G),
      (∀ i ∈ ids, ∀ j ∈ ids, i ≠ j → msg1 E (r1 i) j = .ok (m1 i j)) ∧
      (∀ i ∈ ids, ∀ k ∈ ids, k ≠ i → ∃ psi h, (msg2 (r2 i)).hatPsis.get? k = some psi ∧ psi.e = E.affH h ∧ h.aux = ((r1 i).ctx.epid, i) ∧
        h.capX = (shares i).secret • E.C.g) ∧
      ∀ in1 : I → List (I × Msg1 q G), (∀ i ∈ ids, FromOthers ids i (fun j => m1 j i) (in1 i)) →
        (∀ i ∈ ids, toRound2 E (r1 i) (in1 i) = .ok (r2 i)) ∧
        ∀ in2 : I → List (I × Msg2 q I G), (∀ i ∈ ids, FromOthers ids i (fun j => msg2 (r2 j)) (in2 i)) →
          ∀ j ∈ ids,
            (∃ i ∈ ids, i ≠ j ∧ x i • E.C.g ≠ (shares i).secret • E.C.g ∧ ∃ k psi, (msg2 (r2 i)).hatPsis.get? k = some psi ∧ psi.e ≠ 0) →
            ∃ i ∈ ids, i ≠ j ∧ x i • E.C.g ≠ (shares i).secret • E.C.g ∧ ∃ k, ∀ in3 in4 inErr,
              run E (r1 j) (in1 j) (in2 j) in3 in4 inErr = .err (.fault i (.r2AffGHatPsiFailed k)) := by
  obtain ⟨S, hS⟩ : ∃ S, S = honest E epidOf message ids shares infos setup d := ⟨_, rfl⟩
  have good : S.Good sk := hS ▸ honest_good E hE epidOf message sk ids shares hshares infos setup haux d hd
  have hr1 : ∀ i ∈ ids, r1 i = S.r1With x i := by
    intro i hi
    have h := hst i hi
    rw [with_start E hE epidOf message sk ids shares hshares infos setup haux d x hi] at h
    rw [hS]; exact (Out.ok.inj h).symm
  have hids : S.ids = ids := by rw [hS]; rfl
  have hSE : S.E = E := by rw [hS]; rfl
  have hSs : S.shares = shares := by rw [hS]; rfl
  clear hS hst
  subst hids hSE hSs
  obtain ⟨m1, o, ho, hm1, hrounds⟩ := Run.with_rounds good x
  have hget : ∀ i k, (msg2 (S.r2With x o i)).hatPsis.get? k = if k ∈ S.ids.erase i then some (o i k).2.psi else none := by
    intro i k
    show ((BMap.tabulate (S.ids.erase i) (o i)).mapVals fun _ o => o.2.psi).get? k = _
    rw [KeyRefresh.mapVals_tabulate, BMap.get?_tabulate]
  refine ⟨m1, S.r2With x o, fun i hi j hj hij => by rw [hr1 i hi]; exact hm1 i hi j hj hij, fun i hi k hk hne => ?_, fun in1 h1 => ?_⟩
  · obtain ⟨h, h1, h2, h3⟩ := (ho.hatMta i hi k hk (Ne.symm hne)).hash
    exact ⟨_, h, by rw [hget, if_pos (Finset.mem_erase.2 ⟨hne, hk⟩)], h1, by rw [h2, hr1 i hi]; rfl, h3⟩
  obtain ⟨t2, t3⟩ := hrounds in1 h1
  refine ⟨fun i hi => by rw [hr1 i hi]; exact t2 i hi, fun in2 h2 j hj => ?_⟩
  rintro ⟨i, hi, hij, hx, k, psi, hk, he⟩
  rw [hget] at hk
  split at hk
  case isFalse => cases hk
  case isTrue hmem =>
  obtain ⟨hne, hk'⟩ := Finset.mem_erase.1 hmem
  obtain ⟨i', k', hn, hi', hij', hrun⟩ := t3 in2 h2 j hj ⟨i, hi, hij, hx, k, hk', hne, by rw [Option.some.inj hk]; exact he⟩
  refine ⟨i', hi', hij', hn.1, k', fun in3 in4 inErr => ?_⟩
  unfold run toRound4
  rw [hr1 j hj, hrun]
  rfl

end Damaged

/-- **C78 (any mismatch).** Let a party with any state `r` make its first message for the party with the state `c`. If the two do not agree on the session id,
or the sender's own Paillier key is not the one the receiver has for it, or the receiver's ring-Pedersen parameters are not the ones the sender has for it, then
what the two hash for the first proof is different, and if the hashes are different too, then the message is rejected. -/
theorem C78_mismatch_rejected (E : Env q I Ep G) (r : Round1 q I Ep G) (c : Context q I Ep G) (m : Msg1 q G) (hm : msg1 E r c.myId = .ok m)
    (mine theirs target : PubAux) (hmine : c.pubAux.get? c.myId = some mine) (htheirs : c.pubAux.get? r.ctx.myId = some theirs)
    (htarget : r.ctx.pubAux.get? c.myId = some target)
    (hdiff : r.ctx.epid ≠ c.epid ∨ r.ctx.key.modulus ≠ theirs.pk ∨ target.rp.rp.toWire ≠ mine.rp.rp.toWire) :
    encInput r.ctx.epid r.ctx.myId r.ctx.key.modulus target.rp.rp.toWire m ≠ encInput c.epid r.ctx.myId theirs.pk mine.rp.rp.toWire m ∧
    (E.encH (encInput r.ctx.epid r.ctx.myId r.ctx.key.modulus target.rp.rp.toWire m) ≠ E.encH (encInput c.epid r.ctx.myId theirs.pk mine.rp.rp.toWire m) →
      recv1 E c r.ctx.myId m = .err (.protocol .r1EncElg0Failed)) := by
  constructor
  · intro heq
    rcases hdiff with h | h | h
    · exact h (congrArg (fun a => a.aux.1) heq)
    · exact h (congrArg EncElgHash.pk0 heq)
    · exact h (congrArg EncElgHash.setup heq)
  · intro hne
    obtain ⟨t, ht, he⟩ := msg1_challenge hm
    rw [htarget] at ht
    cases ht
    exact recv1_other hmine htheirs (by rw [he]; exact Ne.symm hne)

section Outdated
variable {V : Type} (E : Env q I Ep G) (hE : SigningSetting E) (epidOf : BMap I G → BMap I PublicAux → Ep) (message : ZMod q) (sk : V → ZMod q) (ids : Finset I)
  (shares : V → I → KeyShare I (ZMod q) G) (hshares : ∀ v, SharesKey E.C.g ids (shares v) (sk v)) (infos : V → I → AuxInfo I PaillierKey PublicAux)
  (setup : V → I → RPSetup) (haux : ∀ v, UsableAux E.P ids (infos v) (setup v)) (d : V → I → Draws q I)
  (hd : ∀ v, SigningDrawsValid E.P ids (fun i => (infos v i).secret.modulus) (fun i => (setup v i).modulus) (d v))
  (ver : I → V)

include hE hshares haux hd in
/-- **C78 (outdated shares).** Several versions `V` of key shares and auxiliary data for the same parties exist, as before and after a refresh, each of them
valid by itself, and the party `i` signs with those of the version `ver i`. If the versions differ in the session id derived from them, or in a party's Paillier
modulus or ring-Pedersen parameters, then what is hashed for the proofs of the first round is different for a prover and a verifier of different versions. If
the hashes of these inputs are different too, then every party that gets a message from a party with another version stops in the first round, and it blames
such a party. -/
theorem C78_outdated_noticed (r1 : I → Round1 q I Ep G)
    (hst : ∀ i ∈ ids, start E epidOf message (shares (ver i) i) (infos (ver i) i) i (d (ver i) i) = .ok (r1 i)) :
    ∃ m1 : I → I → Msg1 q G,
      (∀ i ∈ ids, ∀ j ∈ ids, i ≠ j → msg1 E (r1 i) j = .ok (m1 i j)) ∧
      (∀ i ∈ ids, ∀ j ∈ ids, i ≠ j →
        (epidOf (shares (ver i) i).pub (infos (ver i) i).pub ≠ epidOf (shares (ver j) j).pub (infos (ver j) j).pub ∨
          (infos (ver i) i).secret.modulus ≠ (infos (ver j) i).secret.modulus ∨ (setup (ver i) j).rp.toWire ≠ (setup (ver j) j).rp.toWire) →
        encInput (epidOf (shares (ver i) i).pub (infos (ver i) i).pub) i (infos (ver i) i).secret.modulus (setup (ver i) j).rp.toWire (m1 i j) ≠
        encInput (epidOf (shares (ver j) j).pub (infos (ver j) j).pub) i (infos (ver j) i).secret.modulus (setup (ver j) j).rp.toWire (m1 i j)) ∧
      ((∀ i ∈ ids, ∀ j ∈ ids, ver i ≠ ver j →
        E.encH (encInput (epidOf (shares (ver i) i).pub (infos (ver i) i).pub) i (infos (ver i) i).secret.modulus (setup (ver i) j).rp.toWire (m1 i j)) ≠
        E.encH (encInput (epidOf (shares (ver j) j).pub (infos (ver j) j).pub) i (infos (ver j) i).secret.modulus (setup (ver j) j).rp.toWire (m1 i j))) →
        ∀ in1 : I → List (I × Msg1 q G), (∀ i ∈ ids, FromOthers ids i (fun j => m1 j i) (in1 i)) →
          ∀ j ∈ ids, (∃ i ∈ ids, ver i ≠ ver j) →
            ∃ i ∈ ids, ver i ≠ ver j ∧ ∀ in2 in3 in4 inErr, run E (r1 j) (in1 j) in2 in3 in4 inErr = .err (.fault i .r1EncElg0Failed)) := by
  obtain ⟨S, hS⟩ : ∃ S : V → Run q I Ep G, S = fun v => honest E epidOf message ids (shares v) (infos v) (setup v) (d v) := ⟨_, rfl⟩
  have good : ∀ v, (S v).Good (sk v) := fun v => by rw [hS]; exact honest_good E hE epidOf message (sk v) ids (shares v) (hshares v) (infos v) (setup v) (haux v) (d v) (hd v)
  have hr1 : ∀ i ∈ ids, r1 i = (S (ver i)).r1 i := by
    intro i hi
    have h := hst i hi
    rw [honest_start E hE epidOf message (sk (ver i)) ids (shares (ver i)) (hshares _) (infos (ver i)) (setup (ver i)) (haux _) (d (ver i)) hi] at h
    rw [hS]; exact (Out.ok.inj h).symm
  have hids : ∀ v, (S v).ids = ids := fun v => by rw [hS]; rfl
  have hSE : ∀ v, (S v).E = E := fun v => by rw [hS]; rfl
  have hN : ∀ v i, (S v).N i = (infos v i).secret.modulus := fun v i => by rw [hS]; rfl
  have hset : ∀ v i, (S v).setup i = setup v i := fun v i => by rw [hS]; rfl
  have hep : ∀ v, ∀ i ∈ ids, (S v).epid = epidOf (shares v i).pub (infos v i).pub := by
    intro v i hi
    have hpub : (shares v i).pub = BMap.tabulate ids fun j => (shares v j).secret • E.C.g :=
      BMap.eq_tabulate_of ((hshares v).holders i hi) (fun j hj => (hshares v).public_matches i hi j hj)
    have haux' : (infos v i).pub = BMap.tabulate ids fun i => ⟨(infos v i).secret.p * (infos v i).secret.q, (setup v i).rp.toWire⟩ :=
      BMap.eq_tabulate_of ((haux v).consistent.holders i hi) (fun j hj => (haux v).consistent.public_agree i hi j hj)
    rw [hpub, haux', hS]
    rfl
  clear hS
  have hm1 : ∀ i j, ∃ m : Msg1 q G, i ∈ ids → j ∈ ids → i ≠ j → (S (ver i)).Sent1 i j m := by
    intro i j
    by_cases hij : i ∈ ids ∧ j ∈ ids ∧ i ≠ j
    · obtain ⟨m, hm⟩ := (good (ver i)).sent1 (i := i) (j := j) (by rw [hids]; exact hij.1) (by rw [hids]; exact hij.2.1) hij.2.2
      exact ⟨m, fun _ _ _ => hm⟩
    · have p : EncElgProof q G := ⟨0, 0, 0, 0, 0, 0, ⟨0, 0⟩, 0, 0, ⟨0, 0⟩⟩
      exact ⟨⟨⟨0, 0, 0, 0, 0, 0, 0⟩, p, p⟩, fun a b c => absurd ⟨a, b, c⟩ hij⟩
  choose m1 hm1 using hm1
  have hsent : ∀ i ∈ ids, ∀ j ∈ ids, i ≠ j → msg1 E (r1 i) j = .ok (m1 i j) := by
    intro i hi j hj hij
    rw [hr1 i hi, ← hSE (ver i)]
    exact (hm1 i j hi hj hij).sent
  have haux1 : ∀ v, ∀ i ∈ ids, (S v).pubAux.get? i = some ⟨(S v).N i, (S v).setup i⟩ := by
    intro v i hi
    unfold Run.pubAux
    rw [BMap.get?_tabulate, if_pos (by rw [hids]; exact hi)]
  refine ⟨m1, hsent, ?_, ?_⟩
  · intro i hi j hj hij hor heq
    rcases hor with h | h | h
    · exact h (congrArg (fun a => a.aux.1) heq)
    · exact h (congrArg EncElgHash.pk0 heq)
    · exact h (congrArg EncElgHash.setup heq)
  · intro hcol in1 h1 j hj hn
    have hrej : ∀ i ∈ ids, i ≠ j → ver i ≠ ver j → recv1 E (r1 j).ctx i (m1 i j) = .err (.protocol .r1EncElg0Failed) := by
      intro i hi hne hv
      obtain ⟨target, ht, he⟩ := msg1_challenge (hsent i hi j hj hne)
      rw [hr1 i hi] at ht he
      have ht : (S (ver i)).pubAux.get? j = some target := ht
      rw [haux1 (ver i) j hj] at ht
      have ht := Option.some.inj ht
      have hmine : (r1 j).ctx.pubAux.get? (r1 j).ctx.myId = some ⟨(S (ver j)).N j, (S (ver j)).setup j⟩ := by
        rw [hr1 j hj]; exact haux1 (ver j) j hj
      have htheirs : (r1 j).ctx.pubAux.get? i = some ⟨(S (ver j)).N i, (S (ver j)).setup i⟩ := by
        rw [hr1 j hj]; exact haux1 (ver j) i hi
      refine recv1_other hmine htheirs ?_
      rw [he, ← ht]
      have := hcol i hi j hj hv
      rw [← hep (ver i) i hi, ← hep (ver j) j hj, ← hN, ← hN, ← hset, ← hset] at this
      rw [hr1 j hj]
      exact Ne.symm this
    obtain ⟨i, e, ⟨hv, rfl⟩, hi, hij, hc⟩ := collect_some_fault (h1 j hj) (recv := recv1 E (r1 j).ctx)
      (P := fun i e => ver i ≠ ver j ∧ e = Err.r1EncElg0Failed) (by
        intro i hi hne
        by_cases hv : ver i = ver j
        · have h := (hm1 i j hi hj hne).accepted
          rw [hv, hSE] at h
          left
          rw [hr1 j hj]
          exact ⟨_, h⟩
        · exact .inr ⟨_, ⟨hv, rfl⟩, hrej i hi hne hv⟩) (by
        obtain ⟨i, hi, hv⟩ := hn
        have hne : i ≠ j := fun h => hv (by rw [h])
        exact ⟨i, hi, hne, _, hrej i hi hne hv⟩)
    refine ⟨i, hi, hv, fun in2 in3 in4 inErr => ?_⟩
    have hoth : (r1 j).ctx.otherIds = ids.erase j := by rw [hr1 j hj, ← hids (ver j)]; rfl
    have hsend : send1 E (r1 j) = .ok ((bsetIter (ids.erase j)).map fun k => (k, m1 j k)) := by
      unfold send1
      rw [hoth]
      refine Out.mapM'_ok_of_forall (g := fun k => (k, m1 j k)) fun k hk => ?_
      obtain ⟨hne, hk⟩ := Finset.mem_erase.1 (mem_bsetIter.1 hk)
      rw [finalizeResult_eq_ok.2 (hsent j hj k hk (Ne.symm hne)), Out.bind_ok]
    unfold run toRound4 toRound3 toRound2
    rw [hsend, Out.bind_ok, hoth, hc]
    rfl

end Outdated

/-! ### Concrete cases -/

section Examples

attribute [local instance] Toy.fact11

private def inOrder {M : Type} (f : Nat → M) (i : Nat) : List (Nat × M) := (bsetIter (Toy.parties.erase i)).map fun j => (j, f j)

private theorem inOrder_fromOthers {M : Type} (f : Nat → M) (i : Nat) : FromOthers Toy.parties i f (inOrder f i) := fromOthers_iff.2 (List.Perm.refl _)

/-- Party 2 signs with the secret 5 instead of 2, which it does not notice itself; the parties 1 and 3 blame it. -/
example : ∃ (infos : Nat → AuxInfo Nat PaillierKey PublicAux) (r1 : Nat → Round1 11 Nat Nat (ZMod 11))
    (in1 : Nat → List (Nat × Msg1 11 (ZMod 11))) (in2 : Nat → List (Nat × Msg2 11 Nat (ZMod 11))),
    (∀ i ∈ Toy.parties, start Toy.signEnv (fun _ _ => 7) (5 : ZMod 11) { Toy.signShares i with secret := if i = 2 then 5 else (i : ZMod 11) } (infos i) i (Toy.signDraws i) = .ok (r1 i)) ∧
    (∃ k, run Toy.signEnv (r1 1) (in1 1) (in2 1) [] [] [] = .err (.fault 2 (.r2AffGHatPsiFailed k))) ∧
    ∃ k, run Toy.signEnv (r1 3) (in1 3) (in2 3) [] [] [] = .err (.fault 2 (.r2AffGHatPsiFailed k)) := by
  obtain ⟨infos, haux, hmod⟩ := Toy.exists_signInfos
  have hd : SigningDrawsValid Toy.signEnv.P Toy.parties (fun i => (infos i).secret.modulus) (fun i => (Toy.ringPedersen i).modulus) Toy.signDraws := by
    rw [funext hmod]; exact Toy.signDraws_valid
  have hst := C78_damaged_share_starts Toy.signEnv Toy.signEnv_setting (fun _ _ => 7) 5 6 Toy.parties Toy.signShares Toy.signShares_valid infos Toy.ringPedersen haux
    Toy.signDraws (fun i => if i = 2 then 5 else (i : ZMod 11))
  have hst' : ∀ i, ∃ r : Round1 11 Nat Nat (ZMod 11), i ∈ Toy.parties →
      start Toy.signEnv (fun _ _ => 7) (5 : ZMod 11) { Toy.signShares i with secret := if i = 2 then 5 else (i : ZMod 11) } (infos i) i (Toy.signDraws i) = .ok r := by
    intro i
    by_cases hi : i ∈ Toy.parties
    · obtain ⟨r, -, hr⟩ := hst i hi
      exact ⟨r, fun _ => hr⟩
    · obtain ⟨r, -, hr⟩ := hst 1 (by decide)
      exact ⟨r, fun h => absurd h hi⟩
  choose r1 hr1 using hst'
  obtain ⟨m1, r2, -, hpsi, hrun⟩ := C78_damaged_share_noticed Toy.signEnv Toy.signEnv_setting (fun _ _ => 7) 5 6 Toy.parties Toy.signShares Toy.signShares_valid
    infos Toy.ringPedersen haux Toy.signDraws hd (fun i => if i = 2 then 5 else (i : ZMod 11)) r1 hr1
  obtain ⟨-, hrun⟩ := hrun (fun i => inOrder (fun j => m1 j i) i) (fun i _ => inOrder_fromOthers _ i)
  have hrun := hrun (fun i => inOrder (fun j => msg2 (r2 j)) i) (fun i _ => inOrder_fromOthers _ i)
  obtain ⟨psi, h, hp, he, ha, -⟩ := hpsi 2 (by decide) 1 (by decide) (by decide)
  have he' : psi.e ≠ 0 := by
    rw [he]
    show ((h.aux.2 : ZMod 11) + 2) ≠ 0
    rw [ha]
    show (((2 : Nat) : ZMod 11) + 2) ≠ 0
    decide +kernel
  have hwrong : ∀ i ∈ Toy.parties, (if i = 2 then 5 else (i : ZMod 11)) • Toy.signEnv.C.g ≠ (Toy.signShares i).secret • Toy.signEnv.C.g → i = 2 := by decide +kernel
  have key : ∀ j ∈ Toy.parties, j ≠ 2 → ∃ k, run Toy.signEnv (r1 j) (inOrder (fun k => m1 k j) j) (inOrder (fun j => msg2 (r2 j)) j) [] [] [] =
      .err (.fault 2 (.r2AffGHatPsiFailed k)) := by
    intro j hj hne
    obtain ⟨i, hi, -, hx, k, hk⟩ := hrun j hj ⟨2, by decide, Ne.symm hne, by decide +kernel, 1, psi, hp, he'⟩
    have := hwrong i hi hx
    subst this
    exact ⟨k, hk [] [] []⟩
  exact ⟨infos, r1, fun i => inOrder (fun j => m1 j i) i, fun i => inOrder (fun j => msg2 (r2 j)) i, hr1, key 1 (by decide) (by decide), key 3 (by decide) (by decide)⟩

/-- The toy setting with challenges that depend on the session -/
private def bindEnv : Env 11 Nat Nat (ZMod 11) := { Toy.signEnv with encH := fun t => (t.aux.1 : ZMod 11) }

private theorem bindEnv_setting : SigningSetting bindEnv :=
  ⟨Toy.signEnv_setting.consistent, Toy.signEnv_setting.curve, Toy.signEnv_setting.order, Toy.signEnv_setting.odd, Toy.signEnv_setting.laws⟩

/-- The shares after the changes 1, 1, -2 -/
private def renewed (i : Nat) : ZMod 11 := if i = 3 then 1 else i + 1

private def versions (v : Bool) (i : Nat) : KeyShare Nat (ZMod 11) (ZMod 11) :=
  if v then ⟨i, renewed i, BMap.tabulate Toy.parties fun j => renewed j • bindEnv.C.g⟩ else Toy.signShares i

private theorem versions_valid : ∀ v, SharesKey bindEnv.C.g Toy.parties (versions v) 6
  | false => Toy.signShares_valid
  | true =>
    { owner := fun _ _ => rfl
      holders := fun _ _ => by show (BMap.tabulate _ _).keySet = _; rw [BMap.keySet_tabulate]
      same_public := fun _ _ _ _ => rfl
      public_matches := fun i _ j hj => by show (BMap.tabulate _ _).get? _ = _; rw [BMap.get?_tabulate, if_pos hj]; rfl
      sum := by decide +kernel }

/-- Party 1 signs with the share from before a refresh, the others with the new ones. Party 1 blames one of the others, and both of them blame party 1. -/
example : ∃ (infos : Nat → AuxInfo Nat PaillierKey PublicAux) (r1 : Nat → Round1 11 Nat Nat (ZMod 11)) (in1 : Nat → List (Nat × Msg1 11 (ZMod 11))),
    (∀ i ∈ Toy.parties, start bindEnv (fun pub _ => ((pub.get? 1).getD 0).val) (5 : ZMod 11) (versions (i ≠ 1) i) (infos i) i (Toy.signDraws i) = .ok (r1 i)) ∧
    (∃ i, i ≠ 1 ∧ run bindEnv (r1 1) (in1 1) [] [] [] [] = .err (.fault i .r1EncElg0Failed)) ∧
    run bindEnv (r1 2) (in1 2) [] [] [] [] = .err (.fault 1 .r1EncElg0Failed) ∧ run bindEnv (r1 3) (in1 3) [] [] [] [] = .err (.fault 1 .r1EncElg0Failed) := by
  obtain ⟨infos, haux, hmod⟩ := Toy.exists_signInfos
  have hd : SigningDrawsValid bindEnv.P Toy.parties (fun i => (infos i).secret.modulus) (fun i => (Toy.ringPedersen i).modulus) Toy.signDraws := by
    rw [funext hmod]; exact Toy.signDraws_valid
  have hst' : ∀ i, ∃ r : Round1 11 Nat Nat (ZMod 11), i ∈ Toy.parties →
      start bindEnv (fun pub _ => ((pub.get? 1).getD 0).val) (5 : ZMod 11) (versions (i ≠ 1) i) (infos i) i (Toy.signDraws i) = .ok r := by
    intro i
    exact ⟨_, fun hi => honest_start bindEnv bindEnv_setting _ 5 6 Toy.parties (versions (i ≠ 1)) (versions_valid _) infos Toy.ringPedersen haux Toy.signDraws hi⟩
  choose r1 hr1 using hst'
  obtain ⟨m1, -, -, hrun⟩ := C78_outdated_noticed (V := Bool) bindEnv bindEnv_setting (fun pub _ => ((pub.get? 1).getD 0).val) 5 (fun _ => 6) Toy.parties versions
    versions_valid (fun _ => infos) (fun _ => Toy.ringPedersen) (fun _ => haux) (fun _ => Toy.signDraws) (fun _ => hd) (fun i => decide (i ≠ 1)) r1 hr1
  have hrun := hrun (by
    have : ∀ i ∈ Toy.parties, ∀ j ∈ Toy.parties, decide (i ≠ 1) ≠ decide (j ≠ 1) →
        (((((versions (i ≠ 1) i).pub.get? 1).getD 0).val : Nat) : ZMod 11) ≠ (((((versions (j ≠ 1) j).pub.get? 1).getD 0).val : Nat) : ZMod 11) := by decide +kernel
    exact this) (fun i => inOrder (fun j => m1 j i) i) (fun i _ => inOrder_fromOthers _ i)
  have only : ∀ i ∈ Toy.parties, decide (i ≠ 1) ≠ true → i = 1 := by decide +kernel
  obtain ⟨i, -, hv, h1⟩ := hrun 1 (by decide) ⟨2, by decide, by decide⟩
  obtain ⟨i2, hi2, hv2, h2⟩ := hrun 2 (by decide) ⟨1, by decide, by decide⟩
  obtain ⟨i3, hi3, hv3, h3⟩ := hrun 3 (by decide) ⟨1, by decide, by decide⟩
  have e2 := only i2 hi2 hv2
  have e3 := only i3 hi3 hv3
  subst e2 e3
  exact ⟨infos, r1, fun i => inOrder (fun j => m1 j i) i, hr1, ⟨i, fun h => hv (by rw [h]), h1 [] [] [] []⟩, h2 [] [] [] [], h3 [] [] [] []⟩

end Examples

end Synedrion.Props
