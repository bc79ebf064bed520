import Verif.Lemmas.NetworkEvidenceSigning
import Verif.Props.SigningEvidence
import Verif.Props.SigningFraming
import Verif.Props.Required
import Verif.Props.Network
import Verif.Lemmas.ToySigningRun
import Verif.Lemmas.NetworkScriptSigning

/-!
# C87: evidence in executions of signing over the network
-/

set_option linter.unusedSectionVars false

namespace Synedrion.Props

open Spec Signing

variable {q : Nat} [Fact q.Prime] {I Ep G : Type} [LinearOrder I] [AddCommGroup G] [Module (ZMod q) G] [DecidableEq G]
  {E : Env q I Ep G} {epidOf : BMap I G → BMap I PublicAux → Ep} {message : ZMod q} {shares : I → KeyShare I (ZMod q) G} {infos : I → AuxInfo I PaillierKey PublicAux} {d : I → Draws q I}
  {honest : Set I} {r : I → Round1 q I Ep G} {init : I → State q I Ep G} {n : Net I (Message q I G) (State q I Ep G) (Err I) (RecoverableSignature q)}

private theorem new_keys {keyShare : KeyShare I (ZMod q) G} {auxInfo : AuxInfo I PaillierKey PublicAux} (hnew : Signing.new keyShare auxInfo = .ok ()) :
    keyShare.pub.keySet = auxInfo.pub.keySet := by
  unfold Signing.new at hnew
  split at hnew
  · cases hnew
  · split at hnew
    · cases hnew
    · rename_i h; simpa using h

/-- **C87 (signing, evidence convinces; part).** At any time of any execution of signing, whatever the schedule and whatever the parties that are not honest do: if an honest party refuses a message of `j` in round 2
(unless it is for a proof about the second multiplication) or in round 4 and declares somebody faulty, that is `j`; it can present the refused message, what `j` sent before and the echo-broadcasts, and everyone with
the same public inputs to whom it presents the declared parts of these agrees. Missing: the other errors, for which it is false (`C46_signing_hat_framing`, `C45_signing_round1_undetected`,
`C45_signing_elog_undetected`, `C45_signing_no_evidence`, `C45_signing_star_panics`). -/
theorem C87_signing_convincing_partial (hnew : ∀ i ∈ honest, Signing.new (shares i) (infos i) = .ok ())
    (hstart : ∀ i ∈ honest, start E epidOf message (shares i) (infos i) i (d i) = .ok (r i))
    (hself : ∀ i ∈ honest, ∃ a, (infos i).pub.get? i = some a ∧ a.pk = (infos i).secret.modulus) (hinit : ∀ i ∈ honest, begin E (r i) = .ok (init i))
    (h : (machine E).Reachable honest init n) (i j : I) (hi : i ∈ honest) (s : State q I Ep G) (got : List (I × Message q I G)) (hst : n.status i = .running s got)
    (hs : (machine E).round s = 2 ∨ (machine E).round s = 4) (hj : j ∈ (machine E).expected s) (m : Message q I G) (j' : I) (e : Err I) (he : ∀ k, e ≠ .r2AffGHatPsiFailed k)
    (hm : (machine E).recv s j m = .err (.fault j' e)) (named : Bool) :
    j' = j ∧ (machine E).round s = e.round ∧ (∃ t, Presents (machine E) Message.part (infos i).pub.keySet n i s j m t) ∧
      ∀ t : Transcript I (Parts q I G), Presents (machine E) Message.part (infos i).pub.keySet n i s j m t →
        verifyMessages E named (signingData epidOf message (shares i) (infos i)) j e (supply t e.round e.required) = .ok true := by
  have hkeys := new_keys (hnew i hi)
  obtain ⟨-, -, -, hmy, -, -, hoth, -⟩ := start_eq_ok (hstart i hi)
  rw [hkeys] at hoth
  obtain ⟨a, ha, hpk⟩ := hself i hi
  have hmem : i ∈ (infos i).pub.keySet := by rw [BMap.mem_keySet, BMap.mem_keys_iff]; exact ⟨a, ha⟩
  have hself' : ∀ a, (infos i).pub.get? i = some a → a.pk = (infos i).secret.modulus := fun a' ha' => by
    rw [ha] at ha'; cases ha'; exact hpk
  have hex := presentable hinit h hi hmem hmy hoth hst (by omega) hj m
  have hstg := stage (n := n) hinit hi (List.prefix_refl _) (h.running hst)
  rw [List.length_map] at hstg
  have hno : (r i).ctx.myId ∉ (r i).ctx.otherIds := by rw [hmy, hoth]; simp
  generalize hlen : (n.past i).length = len at hstg
  cases hstg with
  | one out ho => exact absurd hs (by show ¬ ((1 : Nat) = 2 ∨ (1 : Nat) = 4); omega)
  | three r3 h3 => exact absurd hs (by show ¬ ((3 : Nat) = 2 ∨ (3 : Nat) = 4); omega)
  | error re m' h4 hm' =>
    exfalso
    change (if re.hat then 6 else 5) = 2 ∨ (if re.hat then 6 else 5) = 4 at hs
    cases hh : re.hat <;> simp [hh] at hs
  | two r2 h2 =>
    obtain ⟨ej, m2, hm2, hr⟩ := acceptPart_fault hm
    cases two_inj _ _ hm2
    have hj1 : j ∈ (r i).ctx.otherIds := by rw [← toRound2_ok h2]; exact hj
    obtain ⟨-, -, ex, -, -⟩ := toRound2_payloads h2
    obtain ⟨m1, hm1⟩ : ∃ m1, (j, m1) ∈ got1 n i := by
      rw [← ex, List.mem_toFinset] at hj1
      obtain ⟨⟨_, m1⟩, hm1, rfl⟩ := List.mem_map.1 hj1
      exact ⟨m1, hm1⟩
    obtain ⟨x, hx, out, ho, hx1, hx2⟩ := past_first hinit h hi (by omega)
    have hround : (machine E).round x.1 = 1 := by rw [hx1]; rfl
    have key : ∀ t : Transcript I (Parts q I G), Presents (machine E) Message.part (infos i).pub.keySet n i (.two r2) j (.two m2) t →
        evidence2 E (signingData epidOf message (shares i) (infos i)) j m1.echo m2 (t.combined 1) e = .ok true ∧ t.msg 1 .echo = some m1.echo ∧ t.msg 2 .echo = some m2.echo ∧
          t.msg 2 .normal = some ⟨m2.capDs, m2.hatCapDs, m2.psiElog, m2.psis, m2.hatPsis⟩ := by
      intro t ht
      have a1 : t.msg 1 .echo = some m1.echo := by
        have := ht.earlier x hx (.one m1) (by rw [hx2]; exact List.mem_map.2 ⟨_, hm1, rfl⟩) .echo
        rw [hround] at this
        exact this
      obtain ⟨b, hb, hbm⟩ := forall₂_mem (Out.mapM'_eq_ok_iff.1 ho) (mem_bsetIter.2 hj1)
      have hec : EchosAgainst (infos i).pub.keySet i j (r i).echo ((got1 n i).map fun a => (a.1, a.2.echo)) (t.combined 1) := by
        have := ht.echos x hx (b.1, .one b.2) (by rw [hx1]; exact List.mem_map.2 ⟨_, hb, rfl⟩)
        rw [hround, hx2, echosOf_one] at this
        exact this (r i).echo (by rw [← msg1_echo (send1_mem ho hb)]; rfl)
      exact ⟨(C45_signing_round2_partial (hnew i hi) (hstart i hi) hself' (got1 n i) r2 h2 j m1 hm1 m2 (t.combined 1) hec).1 e hr he, a1, ht.refused .echo, ht.refused .normal⟩
    have hround : (machine E).round (.two r2) = e.round := by
      obtain ⟨t, ht⟩ := hex
      have := (key t ht).1
      cases e <;> first | rfl | (simp [evidence2] at this)
    refine ⟨ej, hround, hex, fun t ht => ?_⟩
    obtain ⟨hev, a1, a2, a3⟩ := key t ht
    rw [← hev]
    cases e with
    | r2WrongIdsD => simp [verifyMessages, Package.cur, supply, Err.required, Err.round, a3, evidence2]
    | r2WrongIdsF => simp [verifyMessages, Package.cur, supply, Err.required, Err.round, a2, evidence2]
    | r2WrongIdsPsi => simp [verifyMessages, Package.cur, supply, Err.required, Err.round, a3, evidence2]
    | r2ElogFailed => simp [verifyMessages, Package.cur, Package.prev, supply, Err.required, Err.round, a1, a2, a3, evidence2]
    | r2AffGPsiFailed k =>
      simp only [evidence2, evidenceAffG] at hev
      obtain ⟨r1, hr1, -⟩ := Out.bind_eq_ok.1 hev
      replace hr1 := Out.ofOption_eq_ok.1 hr1
      simp [verifyMessages, Package.cur, Package.prev, Package.echos, supply, Err.required, Err.round, a1, a2, a3, evidence2, hr1]
    | r2AffGHatPsiFailed k => exact absurd rfl (he k)
    | _ => simp [evidence2] at hev
  | four r4 h4 =>
    obtain ⟨ej, sigma, hm4, hr⟩ := acceptPart_fault hm
    cases four_inj _ _ hm4
    have hj1 : j ∈ (r i).ctx.otherIds := by rw [← toRound4_ctx h4 hno]; exact hj
    obtain ⟨x2, hx2, r2, h2, hs2, hg2⟩ := past_second hinit h hi (by omega)
    obtain ⟨x3, hx3, r3, h3, hs3, hg3⟩ := past_third hinit h hi (by omega)
    obtain ⟨nd2, ex2, -⟩ := toRound3_capGamma hno h2 h3
    obtain ⟨r3', pl, h3', hctx, hown, hc, hf⟩ := toRound4_ok h4
    obtain ⟨nd3, ex3, -, -⟩ := collect_eq_ok.1 hc
    obtain ⟨m2, hm2⟩ : ∃ m2, (j, m2) ∈ got2 n i := by
      have := hj1
      rw [← ex2, List.mem_toFinset] at this
      obtain ⟨⟨_, m2⟩, hm2, rfl⟩ := List.mem_map.1 this
      exact ⟨m2, hm2⟩
    obtain ⟨m3, hm3⟩ : ∃ m3, (j, m3) ∈ got3 n i := by
      have := hj1
      rw [← ex3, List.mem_toFinset] at this
      obtain ⟨⟨_, m3⟩, hm3, rfl⟩ := List.mem_map.1 this
      exact ⟨m3, hm3⟩
    have rd2 : (machine E).round x2.1 = 2 := by rw [hs2]; rfl
    have rd3 : (machine E).round x3.1 = 3 := by rw [hs3]; rfl
    have key : ∀ t : Transcript I (Parts q I G), Presents (machine E) Message.part (infos i).pub.keySet n i (.four r4) j (.four sigma) t →
        evidence4 E (signingData epidOf message (shares i) (infos i)) m2.echo m3 sigma (t.combined 2) (t.combined 3) e = .ok true ∧ t.msg 2 .echo = some m2.echo ∧
          t.msg 3 .echo = some m3.delta ∧ t.msg 3 .normal = some ⟨m3.capDelta, m3.psiPrime, m3.capS⟩ ∧ t.msg 4 .normal = some sigma := by
      intro t ht
      have a2 : t.msg 2 .echo = some m2.echo := by
        have := ht.earlier x2 hx2 (.two m2) (by rw [hg2]; exact List.mem_map.2 ⟨_, hm2, rfl⟩) .echo
        rw [rd2] at this
        exact this
      have a3 : ∀ p, t.msg 3 p = (Message.three m3 : Message q I G).part 3 p := by
        intro p
        have := ht.earlier x3 hx3 (.three m3) (by rw [hg3]; exact List.mem_map.2 ⟨_, hm3, rfl⟩) p
        rw [rd3] at this
        exact this
      have ec2 : EchosAgainst (infos i).pub.keySet i j (msg2 r2).echo ((got2 n i).map fun a => (a.1, a.2.echo)) (t.combined 2) := by
        have := ht.echos x2 hx2 (j, .two (msg2 r2)) (by rw [hs2]; exact mem_toAll.2 ⟨by rw [toRound2_ok h2]; exact hj1, rfl⟩)
        rw [rd2, hg2, echosOf_two] at this
        exact this _ rfl
      have ec3 : EchosAgainst (infos i).pub.keySet i j r3.msg.delta ((got3 n i).map fun a => (a.1, a.2.delta)) (t.combined 3) := by
        have := ht.echos x3 hx3 (j, .three r3.msg) (by rw [hs3]; exact mem_toAll.2 ⟨by rw [(toRound3_ok h3).1]; exact hj1, rfl⟩)
        rw [rd3, hg3, echosOf_three] at this
        exact this _ rfl
      exact ⟨(C45_signing_round4 (hnew i hi) (hstart i hi) (got1 n i) (got2 n i) (got3 n i) r2 r3 r4 h2 h3 h4 j m2 hm2 m3 hm3 sigma (t.combined 2) ec2 (t.combined 3) ec3).1 e hr,
        a2, a3 .echo, a3 .normal, ht.refused .normal⟩
    obtain rfl : e = .r4InvalidSignatureShare := by
      obtain ⟨t, ht⟩ := hex
      have := (key t ht).1
      cases e <;> first | rfl | (simp [evidence4] at this)
    refine ⟨ej, rfl, hex, fun t ht => ?_⟩
    obtain ⟨hev, a1, a2, a3, a4⟩ := key t ht
    rw [← hev]
    simp [verifyMessages, Package.cur, Package.prev, Package.echos, supply, Err.required, Err.round, a1, a2, a3, a4, evidence4, List.lookup]

/-- **C87 (signing, nobody is framed; part).** At any time of any execution of signing, whatever the schedule and whatever the parties that are not honest do: nothing that an honest party has signed convinces anyone
that it has sent a wrong set of ciphertexts or proofs or a wrong elog proof in round 2, a wrong signature share in round 4 or a wrong set of proofs in round 5 or 6. Missing: the errors for which it is false (see
`C87_signing_elog_framed`, `C87_signing_hat_framed`, `C46_signing_round1_framing`, `C46_signing_dec_framing`). -/
theorem C87_signing_unframed_partial (hnew : ∀ i ∈ honest, Signing.new (shares i) (infos i) = .ok ())
    (hstart : ∀ i ∈ honest, start E epidOf message (shares i) (infos i) i (d i) = .ok (r i)) (hinit : ∀ i ∈ honest, begin E (r i) = .ok (init i))
    (h : (machine E).Reachable honest init n) (j reporter : I) (hj : j ∈ honest) (e : Err I)
    (he : e ∈ [.r2WrongIdsD, .r2WrongIdsF, .r2WrongIdsPsi, .r2ElogFailed, .r4InvalidSignatureShare, .wrongIdsPsi false, .wrongIdsPsi true])
    (ev : Package I (Parts q I G) e.round) (hev : SignedBy (machine E) Message.part n j reporter ev) (named : Bool) :
    verifyMessages E named (signingData epidOf message (shares j) (infos j)) j e ev ≠ .ok true := by
  intro hv
  have one : ∀ i m p x, (machine E).Sent n j i 1 m → m.part 1 p = some x → ∃ m1, msg1 E (r j) i = .ok m1 ∧ (Message.one m1 : Message q I G).part 1 p = some x := by
    intro i m p x hs hp
    rcases sent hinit h hj hs with ⟨-, m1, h1, rfl⟩ | ⟨hk, -⟩ | ⟨hk, -⟩ | ⟨hk, -⟩ | ⟨hk | hk, -⟩
    · exact ⟨m1, h1, hp⟩
    all_goals cases hk
  have two : ∀ i m p x, (machine E).Sent n j i 2 m → m.part 2 p = some x → ∃ r2, toRound2 E (r j) (got1 n j) = .ok r2 ∧ (Message.two (msg2 r2) : Message q I G).part 2 p = some x := by
    intro i m p x hs hp
    rcases sent hinit h hj hs with ⟨hk, -⟩ | ⟨-, r2, h2, rfl⟩ | ⟨hk, -⟩ | ⟨hk, -⟩ | ⟨hk | hk, -⟩
    · cases hk
    · exact ⟨r2, h2, hp⟩
    all_goals cases hk
  have three : ∀ i m p x, (machine E).Sent n j i 3 m → m.part 3 p = some x → ∃ r3, toRound3 E (r j) (got1 n j) (got2 n j) = .ok r3 ∧ (Message.three r3.msg : Message q I G).part 3 p = some x := by
    intro i m p x hs hp
    rcases sent hinit h hj hs with ⟨hk, -⟩ | ⟨hk, -⟩ | ⟨-, r3, h3, rfl⟩ | ⟨hk, -⟩ | ⟨hk | hk, -⟩
    · cases hk
    · cases hk
    · exact ⟨r3, h3, hp⟩
    all_goals cases hk
  have hfr := fun r2 h2 => C46_signing_no_framing_partial (hnew j hj) (hstart j hj) (got1 n j) r2 h2
  simp only [List.mem_cons, List.not_mem_nil, or_false] at he
  rcases he with rfl | rfl | rfl | rfl | rfl | rfl | rfl
  · obtain ⟨nb, hnb, hv⟩ := Out.bind_eq_ok.1 hv
    obtain ⟨i, m, hs, -, hp⟩ := hev.current .normal nb (Out.ofOption_eq_ok.1 hnb)
    obtain ⟨r2, h2, hp⟩ := two i m .normal nb hs hp
    rw [← Option.some.inj hp] at hv
    have := ((hfr r2 h2).1 .empty).1
    rw [show evidence2 E _ j (r j).echo (msg2 r2) .empty .r2WrongIdsD = _ from rfl] at this
    exact absurd (hv.symm.trans this) (by simp)
  · obtain ⟨eb, heb, hv⟩ := Out.bind_eq_ok.1 hv
    obtain ⟨i, m, hs, -, hp⟩ := hev.current .echo eb (Out.ofOption_eq_ok.1 heb)
    obtain ⟨r2, h2, hp⟩ := two i m .echo eb hs hp
    rw [← Option.some.inj hp] at hv
    have := ((hfr r2 h2).1 .empty).2.1
    exact absurd (hv.symm.trans this) (by simp)
  · obtain ⟨nb, hnb, hv⟩ := Out.bind_eq_ok.1 hv
    obtain ⟨i, m, hs, -, hp⟩ := hev.current .normal nb (Out.ofOption_eq_ok.1 hnb)
    obtain ⟨r2, h2, hp⟩ := two i m .normal nb hs hp
    rw [← Option.some.inj hp] at hv
    have := ((hfr r2 h2).1 .empty).2.2.1
    exact absurd (hv.symm.trans this) (by simp)
  · obtain ⟨e1, he1, hv⟩ := Out.bind_eq_ok.1 hv
    obtain ⟨nb, hnb, hv⟩ := Out.bind_eq_ok.1 hv
    obtain ⟨eb, heb, hv⟩ := Out.bind_eq_ok.1 hv
    obtain ⟨msg, hmsg, he1⟩ := Out.bind_eq_ok.1 he1
    obtain ⟨i1, m1, hs1, -, hp1⟩ := hev.previous 1 msg .echo e1 (Out.ofOption_eq_ok.1 hmsg) (Out.ofOption_eq_ok.1 he1)
    obtain ⟨m1', h1, hp1⟩ := one i1 m1 .echo e1 hs1 hp1
    obtain ⟨i, m, hs, -, hp⟩ := hev.current .normal nb (Out.ofOption_eq_ok.1 hnb)
    obtain ⟨r2, h2, hp⟩ := two i m .normal nb hs hp
    obtain ⟨i', m', hs', -, hp'⟩ := hev.current .echo eb (Out.ofOption_eq_ok.1 heb)
    obtain ⟨r2', h2', hp'⟩ := two i' m' .echo eb hs' hp'
    obtain rfl : r2 = r2' := Out.ok.inj (h2.symm.trans h2')
    rw [← Option.some.inj hp, ← Option.some.inj hp', ← Option.some.inj hp1, msg1_echo h1] at hv
    have := ((hfr r2 h2).1 .empty).2.2.2
    exact absurd (hv.symm.trans this) (by simp)
  · obtain ⟨echos2, hc2, hv⟩ := Out.bind_eq_ok.1 hv
    obtain ⟨e2, he2, hv⟩ := Out.bind_eq_ok.1 hv
    obtain ⟨nb3, hnb3, hv⟩ := Out.bind_eq_ok.1 hv
    obtain ⟨echos3, hc3, hv⟩ := Out.bind_eq_ok.1 hv
    obtain ⟨delta, hdelta, hv⟩ := Out.bind_eq_ok.1 hv
    obtain ⟨sigma, hsigma, hv⟩ := Out.bind_eq_ok.1 hv
    obtain ⟨msg2', hmsg2, he2⟩ := Out.bind_eq_ok.1 he2
    obtain ⟨msg3, hmsg3, hnb3⟩ := Out.bind_eq_ok.1 hnb3
    obtain ⟨msg3', hmsg3', hdelta⟩ := Out.bind_eq_ok.1 hdelta
    obtain ⟨i2, m2, hs2, -, hp2⟩ := hev.previous 2 msg2' .echo e2 (Out.ofOption_eq_ok.1 hmsg2) (Out.ofOption_eq_ok.1 he2)
    obtain ⟨r2, h2, hp2⟩ := two i2 m2 .echo e2 hs2 hp2
    obtain ⟨i3, m3, hs3, -, hp3⟩ := hev.previous 3 msg3 .normal nb3 (Out.ofOption_eq_ok.1 hmsg3) (Out.ofOption_eq_ok.1 hnb3)
    obtain ⟨r3, h3, hp3⟩ := three i3 m3 .normal nb3 hs3 hp3
    obtain ⟨i3', m3', hs3', -, hp3'⟩ := hev.previous 3 msg3' .echo delta (Out.ofOption_eq_ok.1 hmsg3') (Out.ofOption_eq_ok.1 hdelta)
    obtain ⟨r3', h3', hp3'⟩ := three i3' m3' .echo delta hs3' hp3'
    obtain rfl : r3 = r3' := Out.ok.inj (h3.symm.trans h3')
    obtain ⟨i4, m4, hs4, -, hp4⟩ := hev.current .normal sigma (Out.ofOption_eq_ok.1 hsigma)
    obtain ⟨r4, h4, hp4⟩ : ∃ r4, toRound4 E (r j) (got1 n j) (got2 n j) (got3 n j) = .ok (.round4 r4) ∧ (Message.four r4.sigma : Message q I G).part 4 .normal = some sigma := by
      rcases sent hinit h hj hs4 with ⟨hk, -⟩ | ⟨hk, -⟩ | ⟨hk, -⟩ | ⟨-, r4, h4, rfl⟩ | ⟨hk | hk, -⟩
      · cases hk
      · cases hk
      · cases hk
      · exact ⟨r4, h4, hp4⟩
      all_goals cases hk
    obtain ⟨x2, hx2, rd2, pm2⟩ := hev.combined 2 echos2 (Out.ofOption_eq_ok.1 hc2)
    obtain ⟨x3, hx3, rd3, pm3⟩ := hev.combined 3 echos3 (Out.ofOption_eq_ok.1 hc3)
    obtain ⟨-, -, -, -, -, hg2, -⟩ := past_stage hinit h hj hx2
    obtain ⟨-, -, -, -, -, -, hg3⟩ := past_stage hinit h hj hx3
    rw [hg2 rd2, echosOf_two] at pm2
    rw [hg3 rd3, echosOf_three] at pm3
    rw [← Option.some.inj hp2, ← Option.some.inj hp3, ← Option.some.inj hp3', ← Option.some.inj hp4] at hv
    exact (hfr r2 h2).2 (got2 n j) (got3 n j) r3 r4 echos2 echos3 h3 h4 pm2 pm3 .r4InvalidSignatureShare hv
  · obtain ⟨nb, hnb, -⟩ := Out.bind_eq_ok.1 hv
    obtain ⟨i, m, hs, -, hp⟩ := hev.current .normal nb (Out.ofOption_eq_ok.1 hnb)
    cases m <;> cases hp
  · obtain ⟨nb, hnb, -⟩ := Out.bind_eq_ok.1 hv
    obtain ⟨i, m, hs, -, hp⟩ := hev.current .normal nb (Out.ofOption_eq_ok.1 hnb)
    cases m <;> cases hp

/-- **C87 (signing, first multiplication; part).** With valid inputs and draws, nothing that an honest party has signed convinces anyone that one of its proofs about the first multiplication is wrong. -/
theorem C87_signing_multiplication_unframed_partial (hE : SigningSetting E) (sk : ZMod q) (ids : Finset I) (hshares : SharesKey E.C.g ids shares sk) (setup : I → RPSetup)
    (haux : UsableAux E.P ids infos setup) (hd : SigningDrawsValid E.P ids (fun i => (infos i).secret.modulus) (fun i => (setup i).modulus) d) (hsub : ∀ i ∈ honest, i ∈ ids)
    (hstart : ∀ i ∈ honest, start E epidOf message (shares i) (infos i) i (d i) = .ok (r i)) (hinit : ∀ i ∈ honest, begin E (r i) = .ok (init i))
    (h : (machine E).Reachable honest init n) (j reporter : I) (hj : j ∈ honest) (hgamma : (d j).gamma ≠ 0) (k : I)
    (ev : Package I (Parts q I G) (Err.r2AffGPsiFailed k).round) (hev : SignedBy (machine E) Message.part n j reporter ev) (named : Bool) :
    verifyMessages E named (signingData epidOf message (shares j) (infos j)) j (.r2AffGPsiFailed k) ev ≠ .ok true := by
  intro hv
  have two : ∀ i m p x, (machine E).Sent n j i 2 m → m.part 2 p = some x → ∃ r2, toRound2 E (r j) (got1 n j) = .ok r2 ∧ (Message.two (msg2 r2) : Message q I G).part 2 p = some x := by
    intro i m p x hs hp
    rcases sent hinit h hj hs with ⟨hk, -⟩ | ⟨-, r2, h2, rfl⟩ | ⟨hk, -⟩ | ⟨hk, -⟩ | ⟨hk | hk, -⟩
    · cases hk
    · exact ⟨r2, h2, hp⟩
    all_goals cases hk
  obtain ⟨echos1, hc1, hv⟩ := Out.bind_eq_ok.1 hv
  obtain ⟨_, -, hv⟩ := Out.bind_eq_ok.1 hv
  obtain ⟨eb, heb, hv⟩ := Out.bind_eq_ok.1 hv
  obtain ⟨nb, hnb, hv⟩ := Out.bind_eq_ok.1 hv
  obtain ⟨i, m, hs, -, hp⟩ := hev.current .normal nb (Out.ofOption_eq_ok.1 hnb)
  obtain ⟨r2, h2, hp⟩ := two i m .normal nb hs hp
  obtain ⟨i', m', hs', -, hp'⟩ := hev.current .echo eb (Out.ofOption_eq_ok.1 heb)
  obtain ⟨r2', h2', hp'⟩ := two i' m' .echo eb hs' hp'
  obtain rfl : r2 = r2' := Out.ok.inj (h2.symm.trans h2')
  obtain ⟨x1, hx1, rd1, pm1⟩ := hev.combined 1 echos1 (Out.ofOption_eq_ok.1 hc1)
  obtain ⟨-, -, -, -, hg1, -, -⟩ := past_stage hinit h hj hx1
  rw [hg1 rd1, echosOf_one] at pm1
  rw [← Option.some.inj hp, ← Option.some.inj hp'] at hv
  refine C46_signing_multiplication_partial E hE epidOf message sk ids shares hshares infos setup haux d hd j (hsub j hj) hgamma (r j) (hstart j hj) (got1 n j) r2 h2 echos1 ?_ k hv
  intro k e _ hk
  have hmem := pm1.subset (BMap.get?_eq_some_iff.1 hk)
  obtain ⟨a, ha, he⟩ := List.mem_map.1 hmem
  cases he
  exact ⟨a.2, ha, rfl⟩

/-- **C87 is false of signing: a message of round 3.** At any time of any execution of signing, whatever the schedule: once an honest party has sent its message of round 3, what it has signed convinces everyone with the
same public inputs that this message is wrong, unless the shares of `Γ` that it received sum up to zero or the response in its proof is zero. So anyone who has its messages can have it excluded. -/
theorem C87_signing_elog_framed (hstart : ∀ i ∈ honest, start E epidOf message (shares i) (infos i) i (d i) = .ok (r i)) (hinit : ∀ i ∈ honest, begin E (r i) = .ok (init i))
    (h : (machine E).Reachable honest init n) (j i reporter : I) (hj : j ∈ honest) (m3 : Msg3 q G) (hs : (machine E).Sent n j i 3 (.three m3)) (hu : m3.psiPrime.u ≠ 0)
    (x : State q I Ep G × List (I × Message q I G)) (hx : x ∈ n.past j) (hx2 : (machine E).round x.1 = 2)
    (hsum : ((echosOf Message.part 2 x.2).map fun a => Echo2.capGamma a.2).sum ≠ 0) (named : Bool) :
    ∃ ev : Package I (Parts q I G) 3, SignedBy (machine E) Message.part n j reporter ev ∧
      verifyMessages E named (signingData epidOf message (shares j) (infos j)) j .r3ElogFailed ev = .ok true := by
  obtain ⟨-, -, -, hmy, -, -, hoth, -⟩ := start_eq_ok (hstart j hj)
  have hno : (r j).ctx.myId ∉ (r j).ctx.otherIds := by rw [hmy, hoth]; simp
  obtain ⟨r3, h3, rfl⟩ : ∃ r3, toRound3 E (r j) (got1 n j) (got2 n j) = .ok r3 ∧ m3 = r3.msg := by
    rcases sent hinit h hj hs with ⟨hk, -⟩ | ⟨hk, -⟩ | ⟨-, r3, h3, he⟩ | ⟨hk, -⟩ | ⟨hk | hk, -⟩
    · cases hk
    · cases hk
    · cases he; exact ⟨r3, h3, rfl⟩
    all_goals cases hk
  have hlen := sent_length hinit h hj (k := 2) hs (by omega)
  obtain ⟨x1, hx1, out, ho, hx1s, hx1g⟩ := past_first hinit h hj (by omega)
  obtain ⟨x2, hx2', r2, h2, hx2s, hx2g⟩ := past_second hinit h hj (by omega)
  obtain ⟨-, -, -, -, -, hg2, -⟩ := past_stage hinit h hj hx
  obtain ⟨nd2, ex2, hG⟩ := toRound3_capGamma hno h2 h3
  rw [hg2 hx2, echosOf_two, List.map_map] at hsum
  -- somebody receives the messages of `j`
  have hi : i ∈ (r j).ctx.otherIds := by
    obtain ⟨s, l, hl, hr, hk, hm⟩ := h.of_sent hs
    have hst := stage (n := n) hinit hj hl hr
    generalize l.length = len at hst
    cases hst with
    | one out ho => cases hk
    | two r2 h2 => cases hk
    | three r3 h3 => rw [← (toRound3_ok h3).1]; exact (mem_toAll.1 hm).1
    | four r4 h4 => cases hk
    | error re m' h4 hm' => cases (mem_toAll.1 hm).2
  obtain ⟨b, hb, -⟩ := forall₂_mem (Out.mapM'_eq_ok_iff.1 ho) (mem_bsetIter.2 hi)
  have s1 : (machine E).Sent n j b.1 1 (.one b.2) := ⟨x1.1, ((h.inv j).past x1 hx1).1, by rw [hx1s]; rfl, by rw [hx1s]; exact List.mem_map.2 ⟨_, hb, rfl⟩⟩
  have s2 : (machine E).Sent n j i 2 (.two (msg2 r2)) :=
    ⟨x2.1, ((h.inv j).past x2 hx2').1, by rw [hx2s]; rfl, by rw [hx2s]; exact mem_toAll.2 ⟨by rw [toRound2_ok h2]; exact hi, rfl⟩⟩
  refine ⟨supply (Signing.transcript b.2 (msg2 r2) r3.msg none none none .empty .empty .empty .empty .empty) 3 (Err.required (I := I) .r3ElogFailed), ⟨?_, ?_, ?_⟩, ?_⟩
  · intro p y hy
    cases p with
    | normal => exact ⟨i, _, hs, fun hd => (by cases hd), hy⟩
    | echo => cases hy
    | direct => cases hy
  · intro k msg p y hk hy
    rcases k with _ | _ | _ | k
    · cases hk
    · cases hk
      cases p with
      | echo => exact ⟨b.1, _, s1, fun hd => (by cases hd), hy⟩
      | normal => cases hy
      | direct => cases hy
    · cases hk
      cases p with
      | echo => exact ⟨i, _, s2, fun hd => (by cases hd), hy⟩
      | normal => cases hy
      | direct => cases hy
    · cases hk
  · intro k echos hk
    cases hk
  · have := C46_signing_elog_framing (hstart j hj) (got1 n j) (got2 n j) r2 r3 h2 h3 (by rw [hG]; intro he; exact hsum (by simpa [Function.comp_def] using he)) hu
    rw [← msg1_echo (send1_mem ho hb)] at this
    exact this

/-- **C87 is false of signing: the second multiplication in round 2.** At any time of any execution of signing, whatever the schedule: once an honest party `i` has completed round 2, what an honest party `j` has signed
convinces everyone with the same public inputs that the proof about the second multiplication that `j` made for `i` is wrong, although `i` has accepted it, unless the two have the same public key share or the challenge
of the proof is zero. -/
theorem C87_signing_hat_framed (hnew : ∀ i ∈ honest, Signing.new (shares i) (infos i) = .ok ())
    (hstart : ∀ i ∈ honest, start E epidOf message (shares i) (infos i) i (d i) = .ok (r i))
    (hself : ∀ i ∈ honest, ∃ a, (infos i).pub.get? i = some a ∧ a.pk = (infos i).secret.modulus) (hinit : ∀ i ∈ honest, begin E (r i) = .ok (init i))
    (h : (machine E).Reachable honest init n) (i j : I) (hi : i ∈ honest) (hj : j ∈ honest) (x : State q I Ep G × List (I × Message q I G)) (hx : x ∈ n.past i)
    (hx2 : (machine E).round x.1 = 2) (m2 : Msg2 q I G) (hm2 : (j, .two m2) ∈ x.2) (psi : AffGProof q G) (hpsi : m2.hatPsis.get? i = some psi) (hchal : psi.e ≠ 0)
    (hshare : (shares i).pub.get? i ≠ (shares i).pub.get? j) (named : Bool) :
    ∃ ev : Package I (Parts q I G) 2, SignedBy (machine E) Message.part n j i ev ∧
      verifyMessages E named (signingData epidOf message (shares i) (infos i)) j (.r2AffGHatPsiFailed i) ev = .ok true := by
  have hh := history' hinit h
  have hkeys := new_keys (hnew i hi)
  obtain ⟨-, -, -, hmy, -, -, hoth, -⟩ := start_eq_ok (hstart i hi)
  rw [hkeys] at hoth
  obtain ⟨a, ha, hpk⟩ := hself i hi
  have hmem : i ∈ (infos i).pub.keySet := by rw [BMap.mem_keySet, BMap.mem_keys_iff]; exact ⟨a, ha⟩
  have hself' : ∀ a, (infos i).pub.get? i = some a → a.pk = (infos i).secret.modulus := fun a' ha' => by
    rw [ha] at ha'; cases ha'; exact hpk
  obtain ⟨k, hstg, -, -, -, hg2, -⟩ := past_stage hinit h hi hx
  obtain ⟨⟨-, hexp, hacc⟩, hgot⟩ := ((h.inv i).past x hx).2
  have hjexp : j ∈ (machine E).expected x.1 := by rw [← hexp, List.mem_toFinset]; exact List.mem_map.2 ⟨_, hm2, rfl⟩
  replace hacc := hacc _ hm2
  have hsent : (machine E).Sent n j i 2 (.two m2) := by rw [← hx2]; exact hgot.authentic _ hm2 hj
  replace hg2 := hg2 hx2
  generalize x.1 = s at hstg hacc hjexp hx2
  cases hstg with
  | one out ho => cases hx2
  | three r3 h3 => cases hx2
  | four r4 h4 => cases hx2
  | error re m' h4 hm' =>
    exfalso
    change (if re.hat then 6 else 5) = 2 at hx2
    split at hx2 <;> cases hx2
  | two r2 h2 =>
  obtain ⟨m2', p, hm2', hr⟩ := acceptPart_eq_ok.1 (show acceptPart Message.two? (recv2 E r2) j (.two m2) = .ok () from hacc)
  cases hm2'
  obtain ⟨-, nd, ex, -, -⟩ := toRound2_payloads h2
  have hj1 : j ∈ (r i).ctx.otherIds := by rw [← toRound2_ok h2]; exact hjexp
  have hij : j ≠ i := by rw [hoth] at hj1; exact Finset.ne_of_mem_erase hj1
  obtain ⟨m1, hm1⟩ : ∃ m1, (j, m1) ∈ got1 n i := by
    have := hj1
    rw [← ex, List.mem_toFinset] at this
    obtain ⟨⟨_, m1⟩, hm1, rfl⟩ := List.mem_map.1 this
    exact ⟨m1, hm1⟩
  -- what the accused party has received
  obtain ⟨r2j, h2j, hi1⟩ : ∃ r2j, toRound2 E (r j) (got1 n j) = .ok r2j ∧ i ∈ (r j).ctx.otherIds := by
    obtain ⟨s, l, hl, hr, hk, hm⟩ := h.of_sent hsent
    have hst := stage (n := n) hinit hj hl hr
    generalize l.length = len at hst
    cases hst with
    | one out ho => cases hk
    | two r2 h2 => exact ⟨r2, h2, by rw [← toRound2_ok h2]; exact (mem_toAll.1 hm).1⟩
    | three r3 h3 => cases hk
    | four r4 h4 => cases hk
    | error re m' h4 hm' => cases (mem_toAll.1 hm).2
  obtain ⟨-, ndj, exj, -, -⟩ := toRound2_payloads h2j
  obtain ⟨m1j, hm1j⟩ : ∃ m1j, (i, m1j) ∈ got1 n j := by
    rw [← exj, List.mem_toFinset] at hi1
    obtain ⟨⟨_, m1j⟩, hm1j, rfl⟩ := List.mem_map.1 hi1
    exact ⟨m1j, hm1j⟩
  obtain ⟨xj, hxj, out, ho, hxjs, hxjg⟩ := past_first hinit h hj (sent_length hinit h hj (k := 1) hsent (by omega))
  obtain ⟨echos1, hperm⟩ := BMap.exists_entries (l := (got1 n j).map fun a => (a.1, a.2.echo)) (by simpa [Function.comp_def] using ndj)
  have hget : echos1.get? i = some (r i).echo := by
    rw [BMap.get?_eq_some_iff, hperm.mem_iff]
    exact List.mem_map.2 ⟨_, hm1j, by rw [msg1_echo (hh.first j hj i hi m1j hm1j)]⟩
  obtain ⟨echos1', he1'⟩ := exists_echosAgainst hmem hij (r i).echo (rec := (got1 n i).map fun a => (a.1, a.2.echo)) (by simpa [Function.comp_def] using nd)
    (by rw [← hoth, ← ex]; simp [Function.comp_def])
  have hev := C46_signing_hat_framing (hnew i hi) (hstart i hi) hself' (got1 n i) r2 h2 j m1 hm1 m2 echos1' he1' p hr i (Ne.symm hij) psi hpsi hchal hshare
  have hev' : evidence2 E (signingData epidOf message (shares i) (infos i)) j m1.echo m2 echos1 (.r2AffGHatPsiFailed i) = .ok true := by
    rw [← hev]
    simp only [evidence2, evidenceAffG, hget, he1'.2.1]
  refine ⟨⟨fun p => (Message.two m2).part 2 p, fun _ => none, fun | 1 => some echos1 | _ => none⟩, ⟨?_, ?_, ?_⟩, ?_⟩
  · intro p y hy
    cases p with
    | direct => cases hy
    | normal => exact ⟨i, _, hsent, fun hd => (by cases hd), hy⟩
    | echo => exact ⟨i, _, hsent, fun hd => (by cases hd), hy⟩
  · intro k msg p y hk
    cases hk
  · intro k echos hk
    rcases k with _ | _ | k
    · cases hk
    · cases hk
      refine ⟨xj, hxj, by rw [hxjs]; rfl, ?_⟩
      rw [hxjg, echosOf_one]
      exact hperm
    · cases hk
  · rw [← hev']
    simp [verifyMessages, Package.cur, Package.echos, Message.part, Err.round, evidence2, hget]

/-! ### Concrete cases -/

section Examples
attribute [local instance] Toy.fact11 Toy.order11

private theorem toyBegin {infos : Nat → AuxInfo Nat PaillierKey PublicAux} {S : Run 11 Nat Nat (ZMod 11)} {in1 : Nat → List (Nat × Msg1 11 (ZMod 11))} {r2 : Nat → Round2 11 Nat Nat (ZMod 11)}
    (h2 : ∀ i ∈ Toy.parties, toRound2 Toy.signEnv (S.r1 i) (in1 i) = .ok (r2 i)) :
    ∃ init : Nat → State 11 Nat Nat (ZMod 11), ∀ i ∈ Toy.parties, begin Toy.signEnv (S.r1 i) = .ok (init i) := by
  have hbegin : ∀ i ∈ Toy.parties, ∃ s, begin Toy.signEnv (S.r1 i) = .ok s := by
    intro i hi
    have h := h2 i hi
    unfold toRound2 at h
    simp only [Out.bind_eq_ok] at h
    obtain ⟨out, ho, -⟩ := h
    exact ⟨_, by unfold begin; rw [ho]; rfl⟩
  have : Nonempty (State 11 Nat Nat (ZMod 11)) := ⟨(hbegin 1 (by decide)).choose⟩
  obtain ⟨init, hinit⟩ := exists_fun hbegin
  exact ⟨init, hinit⟩

/-- `C87_signing_elog_framed`, `C87_signing_hat_framed`: three honest parties get to round 3. Party 1 did what it should, and so did all others; still there is evidence against it that consists of
what it signed, for a wrong proof in round 3 as well as for a wrong proof for party 2 in round 2. -/
example : ∃ (infos : Nat → AuxInfo Nat PaillierKey PublicAux) (r : Nat → Round1 11 Nat Nat (ZMod 11)) (init : Nat → State 11 Nat Nat (ZMod 11))
    (n : Net Nat (Message 11 Nat (ZMod 11)) (State 11 Nat Nat (ZMod 11)) (Err Nat) (RecoverableSignature 11)),
    (∀ i ∈ Toy.parties, start Toy.signEnv (fun _ _ => 7) (5 : ZMod 11) (Toy.signShares i) (infos i) i (Toy.signDraws i) = .ok (r i)) ∧
    (∀ i ∈ Toy.parties, begin Toy.signEnv (r i) = .ok (init i)) ∧ (machine Toy.signEnv).Reachable (Toy.parties : Set Nat) init n ∧
    (∃ ev : Package Nat (Parts 11 Nat (ZMod 11)) 3, SignedBy (machine Toy.signEnv) Message.part n 1 2 ev ∧
      verifyMessages Toy.signEnv false (signingData (fun _ _ => 7) 5 (Toy.signShares 1) (infos 1)) 1 .r3ElogFailed ev = .ok true) ∧
    ∃ ev : Package Nat (Parts 11 Nat (ZMod 11)) 2, SignedBy (machine Toy.signEnv) Message.part n 1 2 ev ∧
      verifyMessages Toy.signEnv false (signingData (fun _ _ => 7) 5 (Toy.signShares 2) (infos 2)) 1 (.r2AffGHatPsiFailed 2) ev = .ok true := by
  obtain ⟨infos, S, m1, o, haux, -, -, good, hSE, hSi, hSd, hSs, ho, hst, hm1, h2, h3⟩ := Toy.signRun
  obtain ⟨init, hinit⟩ := toyBegin (infos := infos) h2
  have hp1 : 1 ∈ Toy.parties := by decide
  have hp2 : 2 ∈ Toy.parties := by decide
  have hoth : ∀ i ∈ Toy.parties, (S.r1 i).ctx.otherIds = Toy.parties.erase i := by
    intro i hi
    show S.ids.erase i = _
    rw [hSi]
  obtain ⟨n, hn, hs⟩ := exists_three (E := Toy.signEnv) (Finset.Subset.refl Toy.parties) hoth hinit h2 h3
    (fun i hi j hj m hm => by
      obtain ⟨-, hji, hm⟩ := ((Toy.arrivals_fromOthers _ i).2 (j, m)).1 hm
      rw [show m = m1 j i from hm, ← hSE]
      exact (hm1 j hj i hi hji).sent)
    (fun i hi j hj m hm => (((Toy.arrivals_fromOthers _ i).2 (j, m)).1 hm).2.2)
  refine ⟨infos, S.r1, init, n, hst, hinit, hn, ?_, ?_⟩
  · refine C87_signing_elog_framed hst hinit hn 1 2 2 hp1 (S.r3 o 1).msg ⟨.three (S.r3 o 1), (hs 1 hp1).2.1, rfl, ?_⟩ ?_
      (.two (S.r2 o 1), (Toy.arrivals (fun j => msg2 (S.r2 o j)) 1).map fun a => (a.1, .two a.2)) ?_ rfl ?_ false
    · refine in_toAll ?_
      show 2 ∈ S.ids.erase 1
      rw [hSi]; decide
    · show (S.d 1).elogM' + (S.d 1).k * S.E.elogH _ ≠ 0
      rw [hSd, hSE]
      show (9 : ZMod 11) + (1 : Nat) * ((1 : Nat) + 3 : ZMod 11) ≠ 0
      decide +kernel
    · rw [(hs 1 hp1).2.2]; exact List.mem_cons_of_mem _ (List.mem_singleton.2 rfl)
    · rw [echosOf_two, List.map_map]
      unfold Toy.arrivals
      rw [List.map_map]
      show (List.map (fun j => (S.d j).gamma • S.E.C.g) (bsetIter (Toy.parties.erase 1))).sum ≠ 0
      rw [hSd, hSE]
      decide +kernel
  · have hr := good.recv2 ho (i := 1) (j := 2) (hSi ▸ hp1) (hSi ▸ hp2) (by decide)
    have hacc := (ho.hatMta 1 (hSi ▸ hp1) 2 (hSi ▸ hp2) (by decide)).accepted Unit
    refine C87_signing_hat_framed (fun i hi => Toy.signNew haux hi) hst (fun i hi => ⟨_, haux.consistent.public_agree i hi i hi, rfl⟩) hinit hn 2 1 hp2 hp1
      (.two (S.r2 o 2), (Toy.arrivals (fun j => msg2 (S.r2 o j)) 2).map fun a => (a.1, .two a.2)) ?_ rfl (msg2 (S.r2 o 1)) ?_ (o 1 2).2.psi ?_ ?_ ?_ false
    · rw [(hs 2 hp2).2.2]; exact List.mem_cons_of_mem _ (List.mem_singleton.2 rfl)
    · exact List.mem_map.2 ⟨_, Toy.mem_arrivals hp1 (by decide), rfl⟩
    · show ((BMap.tabulate (S.ids.erase 1) (o 1)).mapVals fun _ x => x.2.psi).get? 2 = _
      rw [BMap.get?_mapVals, BMap.get?_tabulate, hSi, if_pos (by decide)]
      rfl
    · obtain ⟨t, ht, hte⟩ := affGVerify_e hacc
      rw [hte, hSE]
      show (t.aux.2 : ZMod 11) + 2 ≠ 0
      rw [ht]
      show ((1 : Nat) : ZMod 11) + 2 ≠ 0
      decide
    · show (BMap.tabulate Toy.parties fun j => (j : ZMod 11) • Toy.signEnv.C.g).get? 2 ≠ (BMap.tabulate Toy.parties fun j => (j : ZMod 11) • Toy.signEnv.C.g).get? 1
      rw [BMap.get?_tabulate, BMap.get?_tabulate, if_pos hp2, if_pos hp1]
      decide +kernel

/-- `C87_signing_convincing_partial`, `C87_signing_unframed_partial`, `C87_signing_multiplication_unframed_partial`: parties 2 and 3 are honest. Party 2 has got to round 2, and refuses a message of party 1 without
ciphertexts; it can present evidence, and everyone agrees. Party 3 has sent something, and nothing that it signed is evidence against it for that. -/
example : ∃ (infos : Nat → AuxInfo Nat PaillierKey PublicAux) (r : Nat → Round1 11 Nat Nat (ZMod 11)) (init : Nat → State 11 Nat Nat (ZMod 11))
    (n : Net Nat (Message 11 Nat (ZMod 11)) (State 11 Nat Nat (ZMod 11)) (Err Nat) (RecoverableSignature 11)) (s : State 11 Nat Nat (ZMod 11)) (m : Message 11 Nat (ZMod 11))
    (t : Transcript Nat (Parts 11 Nat (ZMod 11))),
    (∀ i ∈ Toy.parties, start Toy.signEnv (fun _ _ => 7) (5 : ZMod 11) (Toy.signShares i) (infos i) i (Toy.signDraws i) = .ok (r i)) ∧
    (∀ i ∈ Toy.parties, begin Toy.signEnv (r i) = .ok (init i)) ∧ (machine Toy.signEnv).Reachable (Toy.parties.erase 1 : Set Nat) init n ∧ n.status 2 = .running s [] ∧
    (machine Toy.signEnv).recv s 1 m = .err (.fault 1 .r2WrongIdsD) ∧ Presents (machine Toy.signEnv) Message.part (infos 2).pub.keySet n 2 s 1 m t ∧
    verifyMessages Toy.signEnv false (signingData (fun _ _ => 7) 5 (Toy.signShares 2) (infos 2)) 1 .r2WrongIdsD (supply t 2 (Err.r2WrongIdsD (I := Nat)).required) = .ok true ∧
    (∃ m', (machine Toy.signEnv).Sent n 2 3 2 m') ∧
    (∀ ev, SignedBy (machine Toy.signEnv) Message.part n 2 3 ev →
      verifyMessages Toy.signEnv false (signingData (fun _ _ => 7) 5 (Toy.signShares 2) (infos 2)) 2 .r2WrongIdsD ev ≠ .ok true) ∧
    ∀ ev, SignedBy (machine Toy.signEnv) Message.part n 2 3 ev →
      verifyMessages Toy.signEnv false (signingData (fun _ _ => 7) 5 (Toy.signShares 2) (infos 2)) 2 (.r2AffGPsiFailed 3) ev ≠ .ok true := by
  obtain ⟨infos, S, m1, o, haux, hd, -, good, hSE, hSi, hSd, hSs, ho, hst, hm1, h2, h3⟩ := Toy.signRun
  obtain ⟨init, hinit⟩ := toyBegin (infos := infos) h2
  have hp1 : 1 ∈ Toy.parties := by decide
  have hp2 : 2 ∈ Toy.parties := by decide
  have hp3 : 3 ∈ Toy.parties := by decide
  have hsub : ∀ i ∈ ((Toy.parties.erase 1 : Finset Nat) : Set Nat), i ∈ Toy.parties := fun i hi => Finset.mem_of_mem_erase (Finset.mem_coe.1 hi)
  have hh2 : 2 ∈ ((Toy.parties.erase 1 : Finset Nat) : Set Nat) := by decide
  have hfirst : ∀ i ∈ Toy.parties, ∃ out, init i = .one (S.r1 i) out ∧ send1 Toy.signEnv (S.r1 i) = .ok out := by
    intro i hi
    have := hinit i hi
    unfold begin at this
    rw [Out.bind_eq_ok] at this
    obtain ⟨out, ho, he⟩ := this
    exact ⟨out, (Out.ok.inj he).symm, ho⟩
  obtain ⟨out, hout, ho2⟩ := hfirst 2 hp2
  have hstep := round1_step (out := out) (h2 2 hp2)
  rw [← hout] at hstep
  obtain ⟨n, hn, hs, -, hb⟩ := Spec.Machine.exists_second (P := machine Toy.signEnv) (honest := ((Toy.parties.erase 1 : Finset Nat) : Set Nat)) (init := init) hh2 hstep.1
    (fun a ha hj => by
      obtain ⟨⟨j, m⟩, hm, rfl⟩ := List.mem_map.1 ha
      obtain ⟨-, hji, hm⟩ := ((Toy.arrivals_fromOthers _ 2).2 (j, m)).1 hm
      obtain ⟨out', hout', ho'⟩ := hfirst j (hsub j hj)
      rw [hout, hout']
      refine ⟨rfl, List.mem_map.2 ⟨(2, m), ?_, rfl⟩⟩
      unfold send1 at ho'
      rw [Out.mapM'_eq_ok_iff] at ho'
      obtain ⟨⟨k, m'⟩, hk, hx⟩ := forall₂_mem ho' (mem_bsetIter.2 (show 2 ∈ S.ids.erase j by rw [hSi]; exact Finset.mem_erase.2 ⟨Ne.symm hji, hp2⟩))
      simp only [Out.bind_eq_ok, finalizeResult_eq_ok] at hx
      obtain ⟨m'', hm'', he⟩ := hx
      have hsent := (hm1 j (hsub j hj) 2 hp2 hji).sent
      rw [hSE, ← show m = m1 j 2 from hm] at hsent
      rw [hsent] at hm''
      cases hm''
      cases he
      exact hk) hstep.2
  have hbad : recv2 Toy.signEnv (S.r2 o 2) 1 { msg2 (S.r2 o 1) with capDs := BMap.empty } = .err (.protocol .r2WrongIdsD) := by
    have hg : (recvGet (S.r2 o 2).ctx.pubAux 1 : Out (RecvErr (Err Nat)) _) = .ok ⟨S.N 1, S.setup 1⟩ := by
      unfold recvGet
      rw [show (S.r2 o 2).ctx.pubAux = BMap.tabulate S.ids fun j => ⟨S.N j, S.setup j⟩ from rfl, BMap.get?_tabulate, if_pos (hSi ▸ hp1)]; rfl
    unfold recv2
    refine (congrArg (fun x => Out.bind x _) hg).trans ?_
    rw [Out.bind_ok]
    refine if_pos ?_
    rw [show (S.r2 o 2).ctx.allIds = S.ids from rfl, hSi]
    show (BMap.empty : BMap Nat Nat).keySet ≠ Toy.parties.erase 1
    decide
  have hexp : (1 : Nat) ∈ (machine Toy.signEnv).expected (.two (S.r2 o 2)) := by
    show 1 ∈ S.ids.erase 2
    rw [hSi]; decide
  have hrecv : (machine Toy.signEnv).recv (.two (S.r2 o 2)) 1 (.two { msg2 (S.r2 o 1) with capDs := BMap.empty }) = .err (.fault 1 .r2WrongIdsD) := by
    show acceptPart Message.two? (recv2 Toy.signEnv (S.r2 o 2)) 1 (.two _) = _
    unfold acceptPart
    rw [show (Out.ofOption .incomplete (Message.two? (Message.two { msg2 (S.r2 o 1) with capDs := BMap.empty })) : Out (Abort Nat (Err Nat)) _) =
      .ok { msg2 (S.r2 o 1) with capDs := BMap.empty } from rfl, Out.bind_ok, hbad]
    rfl
  have hnew : ∀ i ∈ ((Toy.parties.erase 1 : Finset Nat) : Set Nat), Signing.new (Toy.signShares i) (infos i) = .ok () := fun i hi => Toy.signNew haux (hsub i hi)
  obtain ⟨-, -, ⟨t, ht⟩, hall⟩ := C87_signing_convincing_partial hnew (fun i hi => hst i (hsub i hi)) (fun i hi => ⟨_, haux.consistent.public_agree i (hsub i hi) i (hsub i hi), rfl⟩)
    (fun i hi => hinit i (hsub i hi)) hn 2 1 hh2 (.two (S.r2 o 2)) [] hs (.inl rfl) hexp _ 1 .r2WrongIdsD (by simp) hrecv false
  refine ⟨infos, S.r1, init, n, _, _, t, hst, hinit, hn, hs, hrecv, ht, hall t ht, ⟨_, _, hb, rfl, in_toAll (j := 3) ?_⟩, ?_, ?_⟩
  · show 3 ∈ S.ids.erase 2
    rw [hSi]; decide
  · exact fun ev hev => C87_signing_unframed_partial hnew (fun i hi => hst i (hsub i hi)) (fun i hi => hinit i (hsub i hi)) hn 2 3 hh2 .r2WrongIdsD (by simp) ev hev false
  · exact fun ev hev => C87_signing_multiplication_unframed_partial Toy.signEnv_setting 6 Toy.parties Toy.signShares_valid Toy.ringPedersen haux hd hsub (fun i hi => hst i (hsub i hi))
      (fun i hi => hinit i (hsub i hi)) hn 2 3 hh2 (by decide +kernel) 3 ev hev false

end Examples

end Synedrion.Props
