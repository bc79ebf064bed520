import Verif.Lemmas.SigningEquivocate
import Verif.Lemmas.ToySigningRun

/-!
# C63: honest parties do not accuse each other
-/

set_option linter.unusedSectionVars false

namespace Synedrion.Props

open Synedrion Spec Signing

variable {q : Nat} [Fact q.Prime] {I Ep G : Type} [LinearOrder I] [AddCommGroup G] [Module (ZMod q) G] [DecidableEq G]

/-- **C63 is false of the code: an honest signer is accused by an honest signer.** All parties of `ids` have matching key shares and auxiliary info. The party `cheater`
follows the protocol, except that it sends to `w` another message of round 2 than to the others, with the same echo-broadcast part, and that it announces a wrong `delta` in
round 3. Its message for `w` is a correct message of round 2, too: all proofs in it are accepted. So all parties reach the error round. There the honest party `v` sends
the message that the protocol prescribes, and if this message is the first one to arrive at the honest party `w`, then `w` declares `v` faulty.

(The verifier has to be asked something in a proof of correct decryption: no challenge consists of zeros only.) -/
theorem C63_honest_signer_blamed (E : Env q I Ep G) (hE : SigningSetting E) (hg : E.C.g ≠ 0) (epidOf : BMap I G → BMap I PublicAux → Ep) (message sk : ZMod q)
    (ids : Finset I) (shares : I → KeyShare I (ZMod q) G) (hshares : SharesKey E.C.g ids shares sk) (infos : I → AuxInfo I PaillierKey PublicAux) (setup : I → RPSetup)
    (haux : UsableAux E.P ids infos setup) (d : I → Draws q I)
    (hd : SigningDrawsValid E.P ids (fun i => (infos i).secret.modulus) (fun i => (setup i).modulus) d) (c : Nat) (hfew : FewParties E.P ids.card c)
    (hderr : ∀ i ∈ ids, ErrorDrawsValid E (ids.erase i) (infos i).secret.modulus (fun j => (infos j).secret.modulus) c (d i)) (hbit : ∀ t, true ∈ E.decH t)
    (r1 : I → Round1 q I Ep G) (hst : ∀ i ∈ ids, start E epidOf message (shares i) (infos i) i (d i) = .ok (r1 i))
    (cheater v w : I) (hch : cheater ∈ ids) (hv : v ∈ ids) (hw : w ∈ ids) (hcv : v ≠ cheater) (hcw : w ≠ cheater) (hvw : v ≠ w) (t : ZMod q) (ht : t ≠ 0) :
    ∃ (m1 : I → I → Msg1 q G) (r2 : I → Round2 q I Ep G) (other2 : Msg2 q I G) (r3 : I → Round3 q I Ep G) (rErr : I → ErrRound q I Ep G) (mErr : MsgErr I G),
      (∀ i ∈ ids, ∀ j ∈ ids, i ≠ j → msg1 E (r1 i) j = .ok (m1 i j)) ∧ other2.echo = (msg2 (r2 cheater)).echo ∧ msgErr E (rErr v) = .ok mErr ∧
      (∀ i, (rErr i).hat = false) ∧
      ∀ in1 : I → List (I × Msg1 q G), (∀ i ∈ ids, FromOthers ids i (fun j => m1 j i) (in1 i)) →
        (∀ i ∈ ids, toRound2 E (r1 i) (in1 i) = .ok (r2 i)) ∧
        ∀ in2 : I → List (I × Msg2 q I G),
          (∀ i ∈ ids, FromOthers ids i (fun j => if j = cheater ∧ i = w then other2 else msg2 (r2 j)) (in2 i)) →
          (∀ i ∈ ids, toRound3 E (r1 i) (in1 i) (in2 i) = .ok (r3 i)) ∧
          ∀ in3 : I → List (I × Msg3 q G),
            (∀ i ∈ ids, FromOthers ids i (fun j => if j = cheater then { (r3 j).msg with delta := (r3 j).msg.delta + t } else (r3 j).msg) (in3 i)) →
            (∀ i ∈ ids, i ≠ cheater → toRound4 E (r1 i) (in1 i) (in2 i) (in3 i) = .ok (.error (rErr i))) ∧
            ∀ (in4 : List (I × ZMod q)) (later : List (I × MsgErr I G)), (v :: later.map Prod.fst).Nodup → (v :: later.map Prod.fst).toFinset = ids.erase w →
              run E (r1 w) (in1 w) (in2 w) (in3 w) in4 ((v, mErr) :: later) = .err (.fault v (.decFailed false)) := by
  obtain ⟨S, hS⟩ : ∃ S, S = honest E epidOf message ids shares infos setup d := ⟨_, rfl⟩
  obtain ⟨S', hS'⟩ : ∃ S', S' = S.reseeded cheater v := ⟨_, rfl⟩
  have hodd : Nat.Coprime 2 (infos v).secret.modulus := by
    rw [Nat.coprime_two_left, Nat.odd_iff]; exact (haux.primes v hv).primes.odd
  have hd' : SigningDrawsValid E.P ids (fun i => (infos i).secret.modulus) (fun i => (setup i).modulus) (reseed d cheater v) := reseed_valid hd hodd
  have hderr' : ∀ i ∈ ids, ErrorDrawsValid E (ids.erase i) (infos i).secret.modulus (fun j => (infos j).secret.modulus) c (reseed d cheater v i) :=
    fun i hi => reseed_error (hderr i hi) hodd
  have hS'h : S' = honest E epidOf message ids shares infos setup (reseed d cheater v) := by rw [hS', hS]; rfl
  have good : S.Good sk := hS ▸ honest_good E hE epidOf message sk ids shares hshares infos setup haux d hd
  have good' : S'.Good sk := hS'h ▸ honest_good E hE epidOf message sk ids shares hshares infos setup haux _ hd'
  have hr1 : ∀ i ∈ ids, r1 i = S.r1 i := by
    intro i hi
    have h := hst i hi
    rw [honest_start E hE epidOf message sk ids shares hshares infos setup haux d hi] at h
    rw [hS]; exact (Out.ok.inj h).symm
  have hids : S.ids = ids := by rw [hS]; rfl
  have hSE : S.E = E := by rw [hS]; rfl
  have hSd : S.d = d := by rw [hS]; rfl
  have hN : ∀ j, S.N j = (infos j).secret.modulus := by rw [hS]; intro j; rfl
  obtain ⟨m1, o, ho, hm1, hrounds⟩ := Run.good_rounds good
  obtain ⟨m1', o', ho', hm1', hrounds'⟩ := Run.good_rounds good'
  have hsum : ∑ j ∈ S.ids, (S.delta j + if j = cheater then t else 0) ≠ S.gammaAll * S.kAll := by
    rw [Finset.sum_add_distrib, S.sum_delta, Finset.sum_ite_eq' S.ids cheater, if_pos (hids ▸ hch)]
    intro h
    exact ht (by simpa using h)
  obtain ⟨delta, hdelta⟩ : ∃ delta : I → ZMod q, delta = fun j => S.delta j + if j = cheater then t else 0 := ⟨_, rfl⟩
  have hne : ∑ j ∈ S.ids, delta j ≠ S.gammaAll * S.kAll := hdelta ▸ hsum
  have hown : ∀ i, i ≠ cheater → delta i = S.delta i := fun i hi => by rw [hdelta]; simp [hi]
  -- the two runs
  have same1 : ∀ i ≠ cheater, S'.r1 i = S.r1 i := by
    intro i hi
    have : S'.d i = S.d i := by rw [hS']; exact reseed_other hi
    have hctx : S'.ctx i = S.ctx i := by
      have : S'.ctx i = { S.ctx i with d := S'.d i } := by rw [hS']; rfl
      rw [this, ‹S'.d i = S.d i›]; rfl
    have hecho : S'.echo i = S.echo i := by rw [hS']; rfl
    unfold Run.r1
    rw [hctx, hecho]
  have hm : ∀ i ∈ S.ids, ∀ j ∈ S.ids, i ≠ j → m1' i j = m1 i j := by
    intro i hi j hj hij
    have h1 := (hm1 i hi j hj hij).sent
    have h2 := (hm1' i (by rw [hS']; exact hi) j (by rw [hS']; exact hj) hij).sent
    have : msg1 S'.E (S'.r1 i) j = msg1 S.E (S.r1 i) j := by rw [hS']; rfl
    rw [this, h1] at h2
    exact (Out.ok.inj h2).symm
  -- the messages of the error round
  have hne' : ∑ j ∈ S'.ids, delta j ≠ S'.gammaAll * S'.kAll := by rw [hS']; exact hne
  have hown' : ∀ i, i ≠ cheater → delta i = S'.delta i := fun i hi => by rw [hown i hi, hS']; rfl
  obtain ⟨mErr, hmErr, hbel⟩ := (claim_believed E hE epidOf message sk ids shares hshares infos setup haux d hd hg hfew hderr hS ho hm1 hrounds hne (hids ▸ hv)
    (hown v hcv)).1
  obtain ⟨mErrW, hmErrW, -⟩ := (claim_believed E hE epidOf message sk ids shares hshares infos setup haux _ hd' hg hfew hderr' hS'h ho' hm1' hrounds' hne'
    (by rw [hS']; exact hids ▸ hw) (hown' w hcw)).1
  have hacc := hbel _ ⟨rfl, rfl, rfl, rfl, rfl, rfl, rfl, rfl, rfl, rfl⟩
  have hv' : v ∈ S.ids := hids ▸ hv
  have hw' : w ∈ S.ids := hids ▸ hw
  have hch' : cheater ∈ S.ids := hids ▸ hch
  obtain ⟨U, hU⟩ := (good.capK_holds hv').unit
  simp only [Cipher.mk.injEq, heq_eq_eq, true_and] at hU
  have hnonempty : (S.ids.erase v).Nonempty := ⟨w, Finset.mem_erase.2 ⟨Ne.symm hvw, hw'⟩⟩
  -- the commitments in the message of `v`
  have hunits : ∀ com ∈ mErr.psiStar.commitments, IsUnit (ctOfWire (S.N v) com.capA) := by
    have h := hmErr
    unfold msgErr at h
    simp only [Out.bind_eq_ok] at h
    obtain ⟨mine, -, capD, -, capK, hK, x, -, kx, -, full, -, rho, -, y, -, cl, -, y', -, capS, -, capX, -, k, hk, d', -, psi, hpsi, psis, -, he⟩ := h
    cases he
    have hkk : k = S.capK v := by
      have h1 : finGet (S.errRound o delta v).capKs (S.errRound o delta v).ctx.myId = .ok (⟨S.N v, S.capK v⟩ : Cipher) := by
        unfold finGet
        have : (S.errRound o delta v).capKs.get? v = some (⟨S.N v, S.capK v⟩ : Cipher) := (BMap.get?_tabulate ..).trans (if_pos hv')
        exact (congrArg _ this).trans (Out.ofOption_some ..)
      rw [h1] at hK
      cases hK
      have h2 : (Cipher.under (S.N v) ⟨S.N v, S.capK v⟩ : Out LocalErr _) = .ok (S.capK v) := Cipher.under_self ..
      exact (Out.ok.inj (h2.symm.trans hk)).symm
    have hdr := (hderr v hv).dec.1
    refine decCommitments_unit (good.pos hv') hpsi ?_ ?_ ?_
    · show IsUnit k
      rw [hkk, hU]; exact U.isUnit
    · intro e he
      have he : e ∈ (d v).dec := by rw [← hSd]; exact he
      have := hdr.masks e he
      have hL : 0 < E.P.L := hE.curve
      exact ⟨this.alpha.fits (by omega), this.beta.fits (by omega)⟩
    · intro e he
      have he : e ∈ (d v).dec := by rw [← hSd]; exact he
      have := (hdr.masks e he).r
      rw [← hN] at this
      exact this
  have hrej : recvErr E (S'.errRound o' delta w) v mErr = .err (.protocol (.decFailed false)) := by
    have hown_unit : IsUnit (∏ i ∈ S.ids.erase v, S.ownMask v i) := by
      rw [IsUnit.prod_iff]
      intro i hi
      obtain ⟨hiv, hi⟩ := Finset.mem_erase.1 hi
      obtain ⟨u, hu⟩ := natCast_unit_sq (good.draws.mta v hv' i hi (Ne.symm hiv)).r
      unfold Run.ownMask
      rw [← hu]
      exact (oneAddUnit (S.N v) _).isUnit.mul (u.isUnit.pow _)
    have hneq := Run.reseeded_prod_ne good hv' hch' (Ne.symm hcv) U _ hown_unit
    refine recvErr_other (theirs := ⟨S.N v, S.setup v⟩) hacc ?_ ?_ ?_ ?_ ?_ ?_ ?_ ?_ ?_ hneq ?_ ?_ hunits hbit
    iterate 8 first | rfl | (rw [hS']; rfl)
    · exact (BMap.get?_tabulate ..).trans (if_pos hv')
    · exact fun ε a b => Run.aggregate_eq ho hv' hnonempty hU a b
    · intro ε a b
      subst hS'
      have hU' : (S.reseeded cheater v).capK v = (U : Ct (S.N v)) := hU
      exact Run.aggregate_eq ho' hv' hnonempty hU' a b
  have hids' : S'.ids = S.ids := by rw [hS']; rfl
  have hE' : S'.E = S.E := by rw [hS']; rfl
  have hin1' : ∀ in1 : I → List (I × Msg1 q G), (∀ i ∈ S.ids, FromOthers S.ids i (fun j => m1 j i) (in1 i)) →
      ∀ i ∈ S'.ids, FromOthers S'.ids i (fun j => m1' j i) (in1 i) := by
    intro in1 h i hi
    rw [hids'] at hi ⊢
    exact fromOthers_congr_ne (h i hi) fun j hj hji => (hm j hj i hi hji).symm
  have hsame2 : ∀ i ∈ S.ids, i ≠ cheater → S'.r2 o' i = S.r2 o i := by
    intro i hi hic
    let in1 : I → List (I × Msg1 q G) := fun i => (bsetIter (S.ids.erase i)).map fun j => (j, m1 j i)
    have hin : ∀ i ∈ S.ids, FromOthers S.ids i (fun j => m1 j i) (in1 i) := fun i _ => fromOthers_iff.2 (List.Perm.refl _)
    have t2 := (hrounds in1 hin).1 i hi
    have t2' := (hrounds' in1 (hin1' in1 hin)).1 i (hids' ▸ hi)
    rw [same1 i hic, hE', t2] at t2'
    exact (Out.ok.inj t2').symm
  have hecho : (msg2 (S'.r2 o' cheater)).echo = (msg2 (S.r2 o cheater)).echo := by
    have hF : ∀ j ∈ S.ids.erase cheater, (o' cheater j).1.capF = (o cheater j).1.capF ∧ (o' cheater j).2.capF = (o cheater j).2.capF := by
      intro j hj
      obtain ⟨hjc, hj⟩ := Finset.mem_erase.1 hj
      rw [(ho.mta cheater hch' j hj (Ne.symm hjc)).capFEq, (ho.hatMta cheater hch' j hj (Ne.symm hjc)).capFEq]
      have h1 := (ho'.mta cheater (hids' ▸ hch') j (hids' ▸ hj) (Ne.symm hjc)).capFEq
      have h2 := (ho'.hatMta cheater (hids' ▸ hch') j (hids' ▸ hj) (Ne.symm hjc)).capFEq
      subst hS'
      exact ⟨h1, h2⟩
    subst hS'
    unfold msg2
    have hout : (S.r2 o cheater).outs = BMap.tabulate (S.ids.erase cheater) (o cheater) := rfl
    have hout' : ((S.reseeded cheater v).r2 o' cheater).outs = BMap.tabulate (S.ids.erase cheater) (o' cheater) := rfl
    simp only [hout, hout', KeyRefresh.mapVals_tabulate]
    have h1 : BMap.tabulate (S.ids.erase cheater) (fun j => (o' cheater j).1.capF.toWire) = BMap.tabulate (S.ids.erase cheater) fun j => (o cheater j).1.capF.toWire :=
      BMap.eq_tabulate_of (by simp) fun j hj => by rw [BMap.get?_tabulate, if_pos hj, (hF j hj).1]
    have h2 : BMap.tabulate (S.ids.erase cheater) (fun j => (o' cheater j).2.capF.toWire) = BMap.tabulate (S.ids.erase cheater) fun j => (o cheater j).2.capF.toWire :=
      BMap.eq_tabulate_of (by simp) fun j hj => by rw [BMap.get?_tabulate, if_pos hj, (hF j hj).2]
    rw [h1, h2]
    rfl
  clear hbel
  clear hS hS'h
  subst hids hSE
  refine ⟨m1, S.r2 o, msg2 (S'.r2 o' cheater), fun i => if i = w then S'.r3 o' w else S.r3 o i,
    fun i => if i = w then S'.errRound o' delta w else S.errRound o delta i, mErr, ?_, hecho, ?_, ?_, ?_⟩
  · intro i hi j hj hij
    rw [hr1 i hi]; exact (hm1 i hi j hj hij).sent
  · simp only [if_neg hvw]; exact hmErr
  · intro i
    simp only
    split <;> rfl
  intro in1 h1
  obtain ⟨t2, hr3⟩ := hrounds in1 h1
  obtain ⟨t2', hr3'⟩ := hrounds' in1 (hin1' in1 h1)
  refine ⟨fun i hi => by rw [hr1 i hi]; exact t2 i hi, fun in2 h2 => ?_⟩
  have all : ∀ (i : I) {M : Type} (f : I → M), FromOthers S.ids i f ((bsetIter (S.ids.erase i)).map fun j => (j, f j)) := fun i M f => fromOthers_iff.2 (List.Perm.refl _)
  have t3 : ∀ i ∈ S.ids, i ≠ w → toRound3 S.E (r1 i) (in1 i) (in2 i) = .ok (S.r3 o i) := by
    intro i hi hiw
    have := hr3 (fun k => if k = i then in2 i else (bsetIter (S.ids.erase k)).map fun j => (j, msg2 (S.r2 o j))) (fun k hk => by
      split
      · rename_i hki
        subst hki
        exact fromOthers_congr_ne (h2 k hk) fun j _ _ => if_neg (fun h => hiw h.2)
      · exact all k _) i hi
    rw [if_pos rfl] at this
    rw [hr1 i hi]; exact this
  have t3w : toRound3 S.E (r1 w) (in1 w) (in2 w) = .ok (S'.r3 o' w) := by
    have := hr3' (fun k => if k = w then in2 w else (bsetIter (S.ids.erase k)).map fun j => (j, msg2 (S'.r2 o' j))) (fun k hk => by
      rw [hids'] at hk ⊢
      split
      · rename_i hki
        subst hki
        refine fromOthers_congr_ne (h2 k hk) fun j hj _ => ?_
        by_cases hjc : j = cheater
        · subst hjc; simp
        · rw [if_neg (fun h => hjc h.1), hsame2 j hj hjc]
      · exact all k _) w (hids' ▸ hw)
    rw [if_pos rfl, same1 w hcw, hE'] at this
    rw [hr1 w hw]; exact this
  refine ⟨fun i hi => ?_, fun in3 h3 => ?_⟩
  · simp only
    split
    · rename_i hi; subst hi; exact t3w
    · rename_i hiw; exact t3 i hi hiw
  have hmsg : ∀ j, (if j = w then S'.r3 o' w else S.r3 o j).msg = S.msg3 j := by
    intro j
    split
    · rename_i hj; subst hj; subst hS'; rfl
    · rfl
  have heq : (S.claim delta) = fun j => if j = cheater then { (S.msg3 j) with delta := (S.msg3 j).delta + t } else S.msg3 j := by
    funext j
    unfold Run.claim
    rw [hdelta]
    by_cases hj : j = cheater
    · simp only [if_pos hj]; rfl
    · simp only [if_neg hj, add_zero]; rfl
  have h3' : ∀ i ∈ S.ids, FromOthers S.ids i (S.claim delta) (in3 i) := by
    intro i hi
    have := h3 i hi
    simp only [hmsg] at this
    rw [heq]; exact this
  have t4w : toRound4 S.E (r1 w) (in1 w) (in2 w) (in3 w) = .ok (.error (S'.errRound o' delta w)) := by
    have hc : S'.claim delta = S.claim delta := by subst hS'; rfl
    have hr : r1 w = S.r1 w := hr1 w hw
    have := Run.toRound4_claim (S := S') (o := o') (by rw [hE']; exact hg) hne' (i := w) (by rw [hids']; exact hw) (hown' w hcw) (r1 := r1 w) (in1 := in1 w) (in2 := in2 w)
      (by rw [hE']; exact t3w) (in3 := in3 w) (by rw [hids', hc]; exact h3' w hw)
    rw [hE'] at this
    exact this
  refine ⟨fun i hi hic => ?_, fun in4 later hnd hset => ?_⟩
  · simp only
    split
    · rename_i hi; subst hi; exact t4w
    · rename_i hiw
      exact Run.toRound4_claim hg hne hi (hown i hic) (t3 i hi hiw) (h3' i hi)
  unfold run
  rw [t4w, Out.bind_ok]
  unfold last
  simp only
  rw [finalizeResult_eq_ok.2 hmErrW, Out.bind_ok]
  have hoth : (S'.errRound o' delta w).ctx.otherIds = S.ids.erase w := by subst hS'; rfl
  have hc : collect (S'.errRound o' delta w).ctx.otherIds (recvErr S.E (S'.errRound o' delta w)) ((v, mErr) :: later) = .err (.fault v (.decFailed false)) := by
    unfold collect
    rw [if_pos ⟨hnd, by rw [hoth]; exact hset⟩]
    unfold Out.mapM'
    rw [hrej]
    rfl
  rw [hc]
  rfl

/-! ### A concrete case -/

section Examples

attribute [local instance] Toy.fact11

private def inOrder {M : Type} (f : Nat → M) (i : Nat) : List (Nat × M) := (bsetIter (Toy.parties.erase i)).map fun j => (j, f j)

private theorem inOrder_fromOthers {M : Type} (f : Nat → M) (i : Nat) : FromOthers Toy.parties i f (inOrder f i) := fromOthers_iff.2 (List.Perm.refl _)

/-- Party 3 of three parties with 256-bit Paillier keys sends different messages of round 2 to the parties 1 and 2, with the same echo-broadcast part, and adds 4 to its
`delta`. Then party 2 accuses party 1, which has sent what it had to send. -/
example : ∃ (infos : Nat → AuxInfo Nat PaillierKey PublicAux) (r1 : Nat → Round1 11 Nat Nat (ZMod 11)) (r2 : Nat → Round2 11 Nat Nat (ZMod 11))
    (other2 : Msg2 11 Nat (ZMod 11)) (rErr : ErrRound 11 Nat Nat (ZMod 11)) (mErr : MsgErr Nat (ZMod 11))
    (in1 : Nat → List (Nat × Msg1 11 (ZMod 11))) (in2 : Nat → List (Nat × Msg2 11 Nat (ZMod 11))) (in3 : Nat → List (Nat × Msg3 11 (ZMod 11))),
    (∀ i ∈ Toy.parties, start Toy.signEnv (fun _ _ => 7) (5 : ZMod 11) (Toy.signShares i) (infos i) i (Toy.signDraws i) = .ok (r1 i)) ∧
    other2.echo = (msg2 (r2 3)).echo ∧ in2 1 = [(2, msg2 (r2 2)), (3, msg2 (r2 3))] ∧ in2 2 = [(1, msg2 (r2 1)), (3, other2)] ∧
    toRound4 Toy.signEnv (r1 1) (in1 1) (in2 1) (in3 1) = .ok (.error rErr) ∧ msgErr Toy.signEnv rErr = .ok mErr ∧
    run Toy.signEnv (r1 2) (in1 2) (in2 2) (in3 2) [] [(1, mErr), (3, mErr)] = .err (.fault 1 (.decFailed false)) := by
  obtain ⟨infos, haux, hmod⟩ := Toy.exists_signInfos
  have hd : SigningDrawsValid Toy.signEnv.P Toy.parties (fun i => (infos i).secret.modulus) (fun i => (Toy.ringPedersen i).modulus) Toy.signDraws := by
    rw [funext hmod]; exact Toy.signDraws_valid
  have hst' : ∀ i, ∃ r : Round1 11 Nat Nat (ZMod 11), i ∈ Toy.parties →
      start Toy.signEnv (fun _ _ => 7) (5 : ZMod 11) (Toy.signShares i) (infos i) i (Toy.signDraws i) = .ok r := by
    intro i
    by_cases hi : i ∈ Toy.parties
    · exact ⟨_, fun _ => honest_start Toy.signEnv Toy.signEnv_setting _ 5 6 Toy.parties Toy.signShares Toy.signShares_valid infos Toy.ringPedersen haux Toy.signDraws hi⟩
    · exact ⟨(honest Toy.signEnv (fun _ _ => 7) (5 : ZMod 11) Toy.parties Toy.signShares infos Toy.ringPedersen Toy.signDraws).r1 i, fun h => absurd h hi⟩
  choose r1 hr1 using hst'
  obtain ⟨m1, r2, other2, r3, rErr, mErr, -, hecho, hmsg, -, hrun⟩ := C63_honest_signer_blamed Toy.signEnv Toy.signEnv_setting (by decide +kernel) (fun _ _ => 7) 5 6
    Toy.parties Toy.signShares Toy.signShares_valid infos Toy.ringPedersen haux Toy.signDraws hd 2 Toy.fewParties
    (fun i _ => by rw [hmod, funext hmod]; exact Toy.errorDraws_valid i) (fun t => by simp [Toy.signEnv]) r1 hr1 3 1 2 (by decide) (by decide) (by decide) (by decide)
    (by decide) (by decide) 4 (by decide)
  obtain ⟨-, hrun⟩ := hrun (fun i => inOrder (fun j => m1 j i) i) (fun i _ => inOrder_fromOthers _ i)
  obtain ⟨-, hrun⟩ := hrun (fun i => inOrder (fun j => if j = 3 ∧ i = 2 then other2 else msg2 (r2 j)) i) (fun i _ => inOrder_fromOthers _ i)
  obtain ⟨h4, hrun⟩ := hrun (fun i => inOrder (fun j => if j = 3 then { (r3 j).msg with delta := (r3 j).msg.delta + 4 } else (r3 j).msg) i)
    (fun i _ => inOrder_fromOthers _ i)
  have hrun := hrun [] [(3, mErr)] (by simp) (show ([1, 3] : List Nat).toFinset = _ by decide)
  have e1 : bsetIter (Toy.parties.erase 1) = [2, 3] := by decide +kernel
  have e2 : bsetIter (Toy.parties.erase 2) = [1, 3] := by decide +kernel
  refine ⟨infos, r1, r2, other2, rErr 1, mErr, fun i => inOrder (fun j => m1 j i) i, fun i => inOrder (fun j => if j = 3 ∧ i = 2 then other2 else msg2 (r2 j)) i,
    fun i => inOrder (fun j => if j = 3 then { (r3 j).msg with delta := (r3 j).msg.delta + 4 } else (r3 j).msg) i, hr1, hecho, ?_, ?_, h4 1 (by decide) (by decide), hmsg, hrun⟩
  · simp [inOrder, e1]
  · simp [inOrder, e2]

end Examples

end Synedrion.Props
