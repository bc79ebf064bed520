import Verif.Lemmas.MachinesBranch
import Verif.Lemmas.NetworkStuck
import Verif.Lemmas.NetworkScriptSigning
import Verif.Lemmas.SigningInnocence
import Verif.Props.SigningBranch
import Verif.Props.Network
import Verif.Lemmas.ToySigningRun

/-!
# C84: signers of a concurrent execution do not wait for each other in different rounds
-/

set_option linter.unusedSectionVars false

namespace Synedrion.Props

open Synedrion Spec Signing

variable {q : Nat} [Fact q.Prime] {I Ep G : Type} [LinearOrder I] [AddCommGroup G] [Module (ZMod q) G] [DecidableEq G]

/-- Values that are all the same are the same as one of them. -/
private theorem exists_common {J T : Type} {X : J → T → Prop} (x0 : T) (h : ∀ j x y, X j x → X j y → x = y) : ∃ f : J → T, ∀ j x, X j x → x = f j := by
  classical
  refine ⟨fun j => if hx : ∃ x, X j x then hx.choose else x0, fun j x hx => ?_⟩
  have he : ∃ x, X j x := ⟨x, hx⟩
  simp only [dif_pos he]
  exact h j _ _ hx he.choose_spec

/-- **C84 (partly).** At any time of any execution of signing with the same public shares: honest parties that have begun a round after round 3 have begun the same one, so that none of
them waits for messages that another one does not send. The broadcasts of rounds 1 to 3 have to agree, also about the values `S`, and the proofs about the values `Delta` that honest
parties have accepted have to be about true statements.

What is missing is the same without the assumption about `S`, which is not part of an echo broadcast; `C84_signers_stuck` shows that it is false. -/
theorem C84_same_round_partial (E : Env q I Ep G) (hg : E.C.g ≠ 0) (epidOf : BMap I G → BMap I PublicAux → Ep) (honest : Set I) (message : I → ZMod q)
    (shares : I → KeyShare I (ZMod q) G) (hpub : ∀ i ∈ honest, ∀ j ∈ honest, (shares i).pub = (shares j).pub) (hme : ∀ i ∈ honest, i ∈ (shares i).pub.keySet)
    (infos : I → AuxInfo I PaillierKey PublicAux) (d : I → Draws q I)
    (r : I → Round1 q I Ep G) (hs : ∀ i ∈ honest, start E epidOf (message i) (shares i) (infos i) i (d i) = .ok (r i))
    (init : I → State q I Ep G) (hinit : ∀ i ∈ honest, begin E (r i) = .ok (init i))
    (n : Net I (Message q I G) (State q I Ep G) (Err I) (RecoverableSignature q)) (h : (machine E).Reachable honest init n)
    -- the broadcasts agree
    (hecho1 : (machine E).EchoAgree honest 1 (fun m => m.one?.map Msg1.echo) n) (hecho2 : (machine E).EchoAgree honest 2 (fun m => m.two?.map Msg2.echo) n)
    (hecho3 : (machine E).EchoAgree honest 3 (fun m => m.three?.map Msg3.delta) n) (hS : (machine E).EchoAgree honest 3 (fun m => m.three?.map Msg3.capS) n)
    -- the proofs are about true statements
    (htrue : ∀ i ∈ honest, ∀ x ∈ n.past i, ∀ j m1, (j, .one m1) ∈ x.2 → ∀ r3 got, (.three r3, got) ∈ n.past i → ∀ m3, (j, .three m3) ∈ got →
      DeltaTrue (q := q) E.C.g m1.echo m3.capDelta r3.capGammaCombined)
    (i j : I) (hi : i ∈ honest) (hj : j ∈ honest) (s t : State q I Ep G) (hsb : s ∈ n.begun i) (htb : t ∈ n.begun j)
    (hs4 : 4 ≤ (machine E).round s) (ht4 : 4 ≤ (machine E).round t) : (machine E).round s = (machine E).round t := by
  obtain ⟨a, ha, hra⟩ := begun_after3 hinit h hi hsb hs4
  obtain ⟨b, hb, hrb⟩ := begun_after3 hinit h hj htb ht4
  obtain ⟨r3, -, h3, -⟩ := toRound4_ok ha
  obtain ⟨t3, -, h3', -⟩ := toRound4_ok hb
  have hh := history' hinit h
  -- what everybody has announced
  obtain ⟨bc1, hbc1⟩ := exists_common (X := fun k (x : Echo1 G) => (∃ v ∈ honest, ∃ m, (k, m) ∈ got1 n v ∧ m.echo = x) ∨ (k ∈ honest ∧ (r k).echo = x)) (r i).echo (by
    have key : ∀ v ∈ honest, ∀ k ∈ honest, ∀ m, (k, m) ∈ got1 n v → m.echo = (r k).echo := fun v hv k hk m hm => msg1_echo (hh.first v hv k hk m hm)
    rintro k x y (⟨v, hv, m, hm, rfl⟩ | ⟨hk, rfl⟩) (⟨v', hv', m', hm', rfl⟩ | ⟨hk', rfl⟩)
    · obtain ⟨t, gt, hp, hr, hgt⟩ := hh.past1 v hv _ hm
      obtain ⟨t', gt', hp', hr', hgt'⟩ := hh.past1 v' hv' _ hm'
      exact Option.some.inj (hecho1 v hv v' hv' _ hp _ hp' hr hr' k _ _ hgt hgt')
    · exact key v hv k hk' m hm
    · exact (key v' hv' k hk m' hm').symm
    · rfl)
  obtain ⟨bc2, hbc2⟩ := exists_common (X := fun k (x : G) => (∃ v ∈ honest, ∃ m, (k, m) ∈ got2 n v ∧ m.echo.capGamma = x) ∨ (k ∈ honest ∧ (r k).ctx.d.gamma • E.C.g = x)) E.C.g (by
    have key : ∀ v ∈ honest, ∀ k ∈ honest, ∀ m, (k, m) ∈ got2 n v → m.echo.capGamma = (r k).ctx.d.gamma • E.C.g := by
      intro v hv k hk m hm
      obtain ⟨r2, h2, rfl⟩ := hh.second v hv k hk m hm
      exact toRound2_capGamma h2
    rintro k x y (⟨v, hv, m, hm, rfl⟩ | ⟨hk, rfl⟩) (⟨v', hv', m', hm', rfl⟩ | ⟨hk', rfl⟩)
    · obtain ⟨t, gt, hp, hr, hgt⟩ := hh.past2 v hv _ hm
      obtain ⟨t', gt', hp', hr', hgt'⟩ := hh.past2 v' hv' _ hm'
      exact congrArg Echo2.capGamma (Option.some.inj (hecho2 v hv v' hv' _ hp _ hp' hr hr' k _ _ hgt hgt'))
    · exact key v hv k hk' m hm
    · exact (key v' hv' k hk m' hm').symm
    · rfl)
  obtain ⟨bc3, hbc3⟩ := exists_common (X := fun k (x : ZMod q × G) => (∃ v ∈ honest, ∃ m, (k, m) ∈ got3 n v ∧ (m.delta, m.capS) = x) ∨
      (k ∈ honest ∧ ∃ r3, toRound3 E (r k) (got1 n k) (got2 n k) = .ok r3 ∧ (r3.msg.delta, r3.msg.capS) = x)) (0, 0) (by
    have key : ∀ v ∈ honest, ∀ k ∈ honest, ∀ m, (k, m) ∈ got3 n v → ∀ r3, toRound3 E (r k) (got1 n k) (got2 n k) = .ok r3 → (m.delta, m.capS) = (r3.msg.delta, r3.msg.capS) := by
      intro v hv k hk m hm r3 h3
      obtain ⟨r3', h3', rfl⟩ := hh.third v hv k hk m hm
      rw [h3'] at h3
      rw [← Out.ok.inj h3]
    rintro k x y (⟨v, hv, m, hm, rfl⟩ | ⟨hk, r3, h3, rfl⟩) (⟨v', hv', m', hm', rfl⟩ | ⟨hk', r3', h3', rfl⟩)
    · obtain ⟨t, gt, hp, hr, hgt⟩ := hh.past3 v hv _ hm
      obtain ⟨t', gt', hp', hr', hgt'⟩ := hh.past3 v' hv' _ hm'
      exact Prod.ext (Option.some.inj (hecho3 v hv v' hv' _ hp _ hp' hr hr' k _ _ hgt hgt')) (Option.some.inj (hS v hv v' hv' _ hp _ hp' hr hr' k _ _ hgt hgt'))
    · exact key v hv k hk' m hm r3' h3'
    · exact (key v' hv' k hk m' hm' r3 h3).symm
    · rw [h3] at h3'
      rw [Out.ok.inj h3'])
  let bc : I → Announced q G := fun k => ⟨bc1 k, bc2 k, (bc3 k).1, (bc3 k).2⟩
  have saw : ∀ i ∈ honest, ∀ r3, toRound3 E (r i) (got1 n i) (got2 n i) = .ok r3 → ∀ a, toRound4 E (r i) (got1 n i) (got2 n i) (got3 n i) = .ok a →
      Spec.Saw E.C.g bc i (r i) r3 (got1 n i) (got2 n i) (got3 n i) := by
    intro i hi r3 h3 a ha
    have own3 := hbc3 i _ (.inr ⟨hi, r3, h3, rfl⟩)
    refine ⟨fun x hx => hbc1 _ _ (.inl ⟨i, hi, _, hx, rfl⟩), fun x hx => hbc2 _ _ (.inl ⟨i, hi, _, hx, rfl⟩), fun x hx => congrArg Prod.fst (hbc3 _ _ (.inl ⟨i, hi, _, hx, rfl⟩)),
      fun x hx => congrArg Prod.snd (hbc3 _ _ (.inl ⟨i, hi, _, hx, rfl⟩)), ?_, (hbc1 i _ (.inr ⟨hi, rfl⟩)).symm, (hbc2 i _ (.inr ⟨hi, rfl⟩)).symm,
      (congrArg Prod.fst own3).symm, (congrArg Prod.snd own3).symm⟩
    rintro ⟨k, m⟩ hm
    obtain ⟨r3', got, hp, h3', hmg⟩ := past_three hinit h hi hm
    rw [h3] at h3'
    cases Out.ok.inj h3'
    -- there is also a message of round 1
    obtain ⟨r3', pl, -, -, -, hc, -⟩ := toRound4_ok ha
    have hk : k ∈ (r i).ctx.otherIds := by
      rw [← (collect_eq_ok.1 hc).2.1, List.mem_toFinset]
      exact List.mem_map.2 ⟨_, hm, rfl⟩
    have h2 := h3
    unfold toRound3 at h2
    simp only [Out.bind_eq_ok] at h2
    obtain ⟨r2, h2, -⟩ := h2
    unfold toRound2 at h2
    simp only [Out.bind_eq_ok] at h2
    obtain ⟨_, -, pl1, hc1, -⟩ := h2
    rw [← (collect_eq_ok.1 hc1).2.1, List.mem_toFinset] at hk
    obtain ⟨⟨k', m1⟩, hm1, he⟩ := List.mem_map.1 hk
    obtain rfl : k' = k := he
    obtain ⟨t, gt, hp1, -, hgt⟩ := hh.past1 i hi _ hm1
    have := htrue i hi _ hp1 k' m1 hgt r3 got hp m hmg
    rw [hbc1 k' _ (.inl ⟨i, hi, _, hm1, rfl⟩)] at this
    exact this
  rw [hra, hrb, C62_same_way_partial E hg epidOf epidOf (message i) (message j) (shares i) (shares j) (hpub j hj i hi) (infos i) (infos j) i j (hme i hi)
    (by rw [hpub i hi j hj]; exact hme j hj) (d i) (d j) (r i) (r j) (hs i hi) (hs j hj) _ _ _ _ _ _ r3 t3 h3 h3' a b ha hb bc (saw i hi r3 h3 a ha) (saw j hj t3 h3' b hb)]

/-- **C84 is false of the code: honest signers can wait for each other for ever.** All parties have matching key shares and auxiliary info. All of them follow the protocol,
only that in round 3 the party `cheater` sends a wrong `S` to the parties in `deceived`. There is an execution in which all echo-broadcasts work and which gets to a state where the deceived
parties are in the second round about a failure (6) and the other honest ones in the round of the signature shares (4). Nobody has been accused. However the execution goes on from there, and whatever the
cheater sends, no honest party completes another round, and none of them gets a signature.
(The nonce and the masked nonce must not be zero, which holds except with negligible probability.) -/
theorem C84_signers_stuck (E : Env q I Ep G) (hE : SigningSetting E) (epidOf : BMap I G → BMap I PublicAux → Ep) (message sk : ZMod q)
    (ids : Finset I) (shares : I → KeyShare I (ZMod q) G) (hshares : SharesKey E.C.g ids shares sk) (infos : I → AuxInfo I PaillierKey PublicAux) (setup : I → RPSetup)
    (haux : UsableAux E.P ids infos setup) (d : I → Draws q I)
    (hd : SigningDrawsValid E.P ids (fun i => (infos i).secret.modulus) (fun i => (setup i).modulus) d) (c : Nat) (hfew : FewParties E.P ids.card c)
    (hderr : ∀ i ∈ ids, ErrorDrawsValid E (ids.erase i) (infos i).secret.modulus (fun j => (infos j).secret.modulus) c (d i))
    (r1 : I → Round1 q I Ep G) (hst : ∀ i ∈ ids, start E epidOf message (shares i) (infos i) i (d i) = .ok (r1 i))
    (hk : ∑ i ∈ ids, (d i).k ≠ 0) (hgamma : ∑ i ∈ ids, (d i).gamma ≠ 0)
    (cheater : I) (hch : cheater ∈ ids) (deceived : Finset I) (hdec : deceived ⊆ ids.erase cheater) (T : G) (hT : T ≠ 0)
    (v w : I) (hv : v ∈ deceived) (hw : w ∈ ids.erase cheater) (hwd : w ∉ deceived) :
    ∃ (init : I → State q I Ep G) (n : Net I (Message q I G) (State q I Ep G) (Err I) (RecoverableSignature q)),
      (∀ i ∈ ids.erase cheater, begin E (r1 i) = .ok (init i)) ∧ (machine E).Reachable (ids.erase cheater : Finset I) init n ∧
      (machine E).EchoAgree (ids.erase cheater : Finset I) 1 (fun m => m.one?.map Msg1.echo) n ∧
      (machine E).EchoAgree (ids.erase cheater : Finset I) 2 (fun m => m.two?.map Msg2.echo) n ∧
      (machine E).EchoAgree (ids.erase cheater : Finset I) 3 (fun m => m.three?.map Msg3.delta) n ∧
      (∀ i ∈ ids.erase cheater, ∃ s, n.status i = .running s [] ∧ (machine E).round s = if i ∈ deceived then 6 else 4) ∧
      ∀ n', Relation.ReflTransGen ((machine E).Step (ids.erase cheater : Finset I)) n n' → n'.past = n.past ∧ ∀ i ∈ ids.erase cheater, ∀ sig, n'.status i ≠ .finished sig := by
  obtain ⟨m1, r2, r3, hm1, hrun⟩ := C62_signers_split E hE epidOf message sk ids shares hshares infos setup haux d hd r1 hst hk hgamma cheater hch deceived hdec T hT
  let in1 : I → List (I × Msg1 q G) := inOrder ids m1
  let in2 : I → List (I × Msg2 q I G) := inOrder ids fun j _ => msg2 (r2 j)
  let in3 : I → List (I × Msg3 q G) := inOrder ids fun j i => if j = cheater ∧ i ∈ deceived then { (r3 j).msg with capS := (r3 j).msg.capS + T } else (r3 j).msg
  have f1 : ∀ i, FromOthers ids i (fun j => m1 j i) (in1 i) := inOrder_fromOthers _ _
  have f2 : ∀ i, FromOthers ids i (fun j => msg2 (r2 j)) (in2 i) := fun i => inOrder_fromOthers ids (fun j _ => msg2 (r2 j)) i
  have f3 : ∀ i, FromOthers ids i (fun j => if j = cheater ∧ i ∈ deceived then { (r3 j).msg with capS := (r3 j).msg.capS + T } else (r3 j).msg) (in3 i) := fun i =>
    inOrder_fromOthers ids (fun j i => if j = cheater ∧ i ∈ deceived then { (r3 j).msg with capS := (r3 j).msg.capS + T } else (r3 j).msg) i
  obtain ⟨h2, hrun⟩ := hrun in1 (fun i _ => f1 i)
  obtain ⟨h3, hrun⟩ := hrun in2 (fun i _ => f2 i)
  obtain ⟨h4, -⟩ := hrun in3 (fun i _ => f3 i)
  have hoth : ∀ i ∈ ids, (r1 i).ctx.otherIds = ids.erase i := by
    intro i hi
    rw [(start_eq_ok (hst i hi)).2.2.2.2.2.2.1, hshares.holders i hi]
  have hin : ∀ {i}, i ∈ ids.erase cheater → i ∈ ids := fun h => Finset.mem_of_mem_erase h
  have hv' : v ∈ ids.erase cheater := hdec hv
  have hbegin : ∀ i ∈ ids.erase cheater, ∃ s, begin E (r1 i) = .ok s := by
    intro i hi
    have h := h2 i (hin hi)
    unfold toRound2 at h
    simp only [Out.bind_eq_ok] at h
    obtain ⟨out, ho, -⟩ := h
    exact ⟨_, by unfold begin; rw [ho]; rfl⟩
  have : Nonempty (State q I Ep G) := ⟨(hbegin v hv').choose⟩
  obtain ⟨init, hinit⟩ := exists_fun hbegin
  -- rounds 1 and 2
  obtain ⟨n, hn, hs⟩ := exists_three (Finset.erase_subset cheater ids) (fun i hi => hoth i (hin hi)) hinit (fun i hi => h2 i (hin hi)) (fun i hi => h3 i (hin hi))
    (fun i hi j hj m hm => by
      obtain ⟨-, hji, hm⟩ := ((f1 i).2 (j, m)).1 hm
      rw [show m = m1 j i from hm]
      exact hm1 j (hin hj) i (hin hi) hji)
    (fun i hi j hj m hm => (((f2 i).2 (j, m)).1 hm).2.2)
  -- round 3
  have hafter : ∀ i ∈ ids.erase cheater, ∃ s, (∃ a, toRound4 E (r1 i) (in1 i) (in2 i) (in3 i) = .ok a ∧ beginAfter3 E a = .ok s) ∧
      (machine E).expected s = ids.erase i ∧ (machine E).round s = if i ∈ deceived then 6 else 4 := by
    intro i hi
    obtain ⟨a, ha, hb⟩ := h4 i (hin hi) (Finset.mem_erase.1 hi).1
    have hctx := after3_ctx ha
    cases a with
    | round4 r4 =>
      refine ⟨.four r4, ⟨_, ha, rfl⟩, ?_, ?_⟩
      · show r4.ctx.otherIds = _
        rw [hctx.1 _ rfl, hoth i (hin hi)]
      · by_cases hid : i ∈ deceived
        · rw [if_pos hid] at hb
          cases hb
        · rw [if_neg hid]; rfl
    | error re =>
      obtain ⟨m, hm⟩ := msgErr_after_honest E hE epidOf message sk ids shares hshares infos setup haux d hd c hfew hderr r1 hst m1 hm1 in1 (fun i _ => f1 i) r2 h2 in2 (fun i _ => f2 i) i (hin hi)
        _ re ha
      refine ⟨.error re m, ⟨_, ha, ?_⟩, ?_, ?_⟩
      · unfold beginAfter3
        simp only
        rw [finalizeResult_eq_ok.2 hm, Out.bind_ok]
      · show re.ctx.otherIds = _
        rw [hctx.2 _ rfl, hoth i (hin hi)]
      · have hb : (if re.hat then Branch.wrongKey else .wrongNonce) = _ := hb
        show (if re.hat then 6 else 5) = _
        by_cases hid : i ∈ deceived
        · rw [if_pos hid] at hb ⊢
          by_cases hh : re.hat = true
          · rw [if_pos hh]
          · rw [if_neg hh] at hb; cases hb
        · rw [if_neg hid] at hb
          by_cases hh : re.hat = true
          · rw [if_pos hh] at hb; cases hb
          · rw [if_neg hh] at hb; cases hb
  obtain ⟨s4, hs4⟩ := exists_fun hafter
  have hother3 : ∀ i ∈ ids, (r3 i).ctx.otherIds = ids.erase i := fun i hi => by rw [(toRound3_ok (h3 i hi)).1, hoth i hi]
  have step3 : ∀ i ∈ ids.erase cheater, _ := fun i hi => round3_step (E := E) (h3 i (hin hi)) (hs4 i hi).1.choose_spec.1 (hs4 i hi).1.choose_spec.2
  obtain ⟨N, hN, hNs⟩ := hn.round_all (s := fun i => .three (r3 i)) (s' := s4) (inbox := fun i => (in3 i).map fun a => (a.1, Message.three a.2)) (fun i hi => (hs i hi).1)
    (fun i hi => (step3 i hi).1) (fun i hi => (step3 i hi).2) (fun i hi a ha hj => by
      obtain ⟨⟨j, m⟩, hm, rfl⟩ := List.mem_map.1 ha
      obtain ⟨hj1, hji, hm⟩ := ((f3 i).2 (j, m)).1 hm
      refine ⟨rfl, ?_⟩
      rw [show m = (r3 j).msg from hm.trans (if_neg fun h => (Finset.mem_erase.1 hj).1 h.1)]
      refine in_toAll ?_
      rw [hother3 j hj1]
      exact Finset.mem_erase.2 ⟨Ne.symm hji, hin hi⟩)
  have hround1 : ∀ i ∈ ids.erase cheater, (machine E).round (init i) = 1 := by
    intro i hi
    have := hinit i hi
    unfold begin at this
    rw [Out.bind_eq_ok] at this
    obtain ⟨out, -, he⟩ := this
    rw [← Out.ok.inj he]
    rfl
  have hpast : ∀ i ∈ ids.erase cheater, ∀ x ∈ N.past i, x = (init i, (in1 i).map fun a => (a.1, Message.one a.2)) ∨ x = (.two (r2 i), (in2 i).map fun a => (a.1, .two a.2)) ∨
        x = (.three (r3 i), (in3 i).map fun a => (a.1, Message.three a.2)) := by
    intro i hi x hxm
    rw [(hNs i hi).2.1, (hs i hi).2.2] at hxm
    simpa using hxm
  have hbegun : ∀ j ∈ ids.erase cheater, ∀ t ∈ N.begun j, 4 ≤ (machine E).round t → (machine E).round t = if j ∈ deceived then 6 else 4 := by
    intro j hj t ht hge
    rw [hN.begun_running (hNs j hj).1, List.mem_append, List.mem_singleton] at ht
    rcases ht with ht | rfl
    · obtain ⟨x, hx, rfl⟩ := List.mem_map.1 ht
      rcases hpast j hj x hx with rfl | rfl | rfl
      · exact absurd hge (by simp only [hround1 j hj]; omega)
      · exact absurd hge (by show ¬ 4 ≤ 2; omega)
      · exact absurd hge (by show ¬ 4 ≤ 3; omega)
    · exact (hs4 j hj).2.2
  refine ⟨init, N, hinit, hN, ?_, ?_, ?_, fun i hi => ⟨_, (hNs i hi).1, (hs4 i hi).2.2⟩, ?_⟩
  · intro i hi i' hi' x hx x' hx' hr hr' j m m' hm hm'
    have key : ∀ i ∈ ids.erase cheater, ∀ x ∈ N.past i, (machine E).round x.1 = 1 → ∀ m, (j, m) ∈ x.2 → m.one?.map Msg1.echo = some (r1 j).echo := by
      intro i hi x hx hr m hm
      rcases hpast i hi x hx with rfl | rfl | rfl
      · obtain ⟨⟨j', a⟩, ha, he⟩ := List.mem_map.1 hm
        obtain rfl : j' = j := congrArg Prod.fst he
        obtain rfl : Message.one a = m := congrArg Prod.snd he
        obtain ⟨hj1, hji, ha⟩ := ((f1 i).2 (j', a)).1 ha
        rw [show a = m1 j' i from ha]
        show some _ = _
        rw [msg1_echo (hm1 j' hj1 i (hin hi) hji)]
      · cases hr
      · cases hr
    exact (key i hi x hx hr m hm).trans (key i' hi' x' hx' hr' m' hm').symm
  · intro i hi i' hi' x hx x' hx' hr hr' j m m' hm hm'
    have key : ∀ i ∈ ids.erase cheater, ∀ x ∈ N.past i, (machine E).round x.1 = 2 → ∀ m, (j, m) ∈ x.2 → m.two?.map Msg2.echo = some (msg2 (r2 j)).echo := by
      intro i hi x hx hr m hm
      rcases hpast i hi x hx with rfl | rfl | rfl
      · rw [hround1 i hi] at hr
        cases hr
      · obtain ⟨⟨j', a⟩, ha, he⟩ := List.mem_map.1 hm
        obtain rfl : j' = j := congrArg Prod.fst he
        obtain rfl : Message.two a = m := congrArg Prod.snd he
        obtain ⟨hj1, hji, ha⟩ := ((f2 i).2 (j', a)).1 ha
        rw [show a = msg2 (r2 j') from ha]
        rfl
      · cases hr
    exact (key i hi x hx hr m hm).trans (key i' hi' x' hx' hr' m' hm').symm
  · intro i hi i' hi' x hx x' hx' hr hr' j m m' hm hm'
    have key : ∀ i ∈ ids.erase cheater, ∀ x ∈ N.past i, (machine E).round x.1 = 3 → ∀ m, (j, m) ∈ x.2 → m.three?.map Msg3.delta = some (r3 j).msg.delta := by
      intro i hi x hx hr m hm
      rcases hpast i hi x hx with rfl | rfl | rfl
      · rw [hround1 i hi] at hr
        cases hr
      · cases hr
      · obtain ⟨⟨j', a⟩, ha, he⟩ := List.mem_map.1 hm
        obtain rfl : j' = j := congrArg Prod.fst he
        obtain rfl : Message.three a = m := congrArg Prod.snd he
        obtain ⟨hj1, hji, ha⟩ := ((f3 i).2 (j', a)).1 ha
        have ha : a = if j' = cheater ∧ i ∈ deceived then _ else _ := ha
        rw [ha]
        show some _ = _
        split <;> rfl
    exact (key i hi x hx hr m hm).trans (key i' hi' x' hx' hr' m' hm').symm
  · intro n' hn'
    obtain ⟨-, hp, hw'⟩ := Machine.stuck (fun i hi => by
      have hi : i ∈ ids.erase cheater := hi
      have wait : ∀ j ∈ ids.erase cheater, ((i ∈ deceived) ≠ (j ∈ deceived)) → (machine E).Waiting (ids.erase cheater : Finset I) N i := by
        intro j hj hne
        refine ⟨s4 i, [], (hNs i hi).1, j, Finset.mem_coe.2 hj, ?_, by simp, fun t ht heq => ?_⟩
        · rw [(hs4 i hi).2.1]
          refine Finset.mem_erase.2 ⟨?_, hin hj⟩
          rintro rfl
          exact hne rfl
        · have e1 := (hs4 i hi).2.2
          have e2 := hbegun j hj t ht (by rw [heq, e1]; split <;> omega)
          rw [heq, e1] at e2
          by_cases hid : i ∈ deceived <;> by_cases hjd : j ∈ deceived <;> simp [hid, hjd] at e2 hne
      by_cases hid : i ∈ deceived
      · exact wait w hw (by simp [hid, hwd])
      · exact wait v hv' (by simp [hid, hv])) hn'
    refine ⟨hp, fun i hi sig hf => ?_⟩
    rcases hw' i hi with ⟨s, got, h, -⟩ | ⟨a, h⟩ | h | h <;> rw [hf] at h <;> cases h

section Examples

attribute [local instance] Toy.fact11 Toy.order11

/-- The hypotheses of `C84_signers_stuck` can be met: of three parties with 256-bit Paillier keys, party 3 deceives party 2. Party 1 stays in round 4, party 2 in round 6. -/
example : ∃ (init : Nat → State 11 Nat Nat (ZMod 11)) (n : Net Nat (Message 11 Nat (ZMod 11)) (State 11 Nat Nat (ZMod 11)) (Err Nat) (RecoverableSignature 11)) (s t : State 11 Nat Nat (ZMod 11)),
    (machine Toy.signEnv).Reachable (Toy.parties.erase 3 : Finset Nat) init n ∧ n.status 1 = .running s [] ∧ n.status 2 = .running t [] ∧
    (machine Toy.signEnv).round s = 4 ∧ (machine Toy.signEnv).round t = 6 ∧
    ∀ n', Relation.ReflTransGen ((machine Toy.signEnv).Step (Toy.parties.erase 3 : Finset Nat)) n n' → n'.past = n.past ∧ ∀ i ∈ Toy.parties.erase 3, ∀ sig, n'.status i ≠ .finished sig := by
  obtain ⟨infos, haux, hmod⟩ := Toy.exists_signInfos
  have hd : SigningDrawsValid Toy.signEnv.P Toy.parties (fun i => (infos i).secret.modulus) (fun i => (Toy.ringPedersen i).modulus) Toy.signDraws := by
    rw [funext hmod]; exact Toy.signDraws_valid
  have hst := C41_honest_start Toy.signEnv Toy.signEnv_setting (fun _ _ => 7) 5 6 Toy.parties Toy.signShares Toy.signShares_valid infos Toy.ringPedersen haux Toy.signDraws
  have : Nonempty (Signing.Round1 11 Nat Nat (ZMod 11)) := ⟨(hst 1 (by decide)).choose⟩
  obtain ⟨r1, hr1⟩ := exists_fun hst
  obtain ⟨init, n, -, h1, -, -, -, h5, h6⟩ := C84_signers_stuck Toy.signEnv Toy.signEnv_setting (fun _ _ => 7) 5 6 Toy.parties Toy.signShares Toy.signShares_valid infos Toy.ringPedersen haux
    Toy.signDraws hd 2 Toy.fewParties (fun i _ => by rw [hmod, funext hmod]; exact Toy.errorDraws_valid i) r1 (fun i hi => (hr1 i hi).2) (by decide +kernel) (by decide +kernel)
    3 (by decide) {2} (by decide) 4 (by decide) 2 1 (by decide) (by decide) (by decide)
  obtain ⟨s, hs, hs4⟩ := h5 1 (by decide)
  obtain ⟨t, ht, ht6⟩ := h5 2 (by decide)
  exact ⟨init, n, s, t, h1, hs, ht, hs4, ht6, h6⟩

/-- The hypotheses of `C84_same_round_partial` can be met: three honest parties, all of which have got to round 4. -/
example : ∃ (infos : Nat → AuxInfo Nat PaillierKey PublicAux) (r : Nat → Round1 11 Nat Nat (ZMod 11)) (init : Nat → State 11 Nat Nat (ZMod 11))
    (n : Net Nat (Message 11 Nat (ZMod 11)) (State 11 Nat Nat (ZMod 11)) (Err Nat) (RecoverableSignature 11)),
    (∀ i ∈ Toy.parties, start Toy.signEnv (fun _ _ => 7) (5 : ZMod 11) (Toy.signShares i) (infos i) i (Toy.signDraws i) = .ok (r i)) ∧
    (∀ i ∈ Toy.parties, begin Toy.signEnv (r i) = .ok (init i)) ∧ (machine Toy.signEnv).Reachable (Toy.parties : Set Nat) init n ∧
    (machine Toy.signEnv).EchoAgree (Toy.parties : Set Nat) 1 (fun m => m.one?.map Msg1.echo) n ∧ (machine Toy.signEnv).EchoAgree (Toy.parties : Set Nat) 2 (fun m => m.two?.map Msg2.echo) n ∧
    (machine Toy.signEnv).EchoAgree (Toy.parties : Set Nat) 3 (fun m => m.three?.map Msg3.delta) n ∧ (machine Toy.signEnv).EchoAgree (Toy.parties : Set Nat) 3 (fun m => m.three?.map Msg3.capS) n ∧
    (∀ i ∈ (Toy.parties : Set Nat), ∀ x ∈ n.past i, ∀ j m1, (j, .one m1) ∈ x.2 → ∀ r3 got, (.three r3, got) ∈ n.past i → ∀ m3, (j, .three m3) ∈ got →
      DeltaTrue (q := 11) Toy.signEnv.C.g m1.echo m3.capDelta r3.capGammaCombined) ∧
    ∀ i ∈ Toy.parties, ∃ s, s ∈ n.begun i ∧ (machine Toy.signEnv).round s = 4 := by
  obtain ⟨infos, S, m1, o, haux, -, -, good, hSE, hSi, hSd, hSs, ho, hst, hm1, h2, h3⟩ := Toy.signRun
  have hne : S.gammaAll * S.kAll ≠ 0 := by
    unfold Run.gammaAll Run.kAll
    rw [hSi, hSd]; decide +kernel
  let in1 : Nat → List (Nat × Msg1 11 (ZMod 11)) := fun i => Toy.arrivals (fun j => m1 j i) i
  let in2 : Nat → List (Nat × Msg2 11 Nat (ZMod 11)) := fun i => Toy.arrivals (fun j => msg2 (S.r2 o j)) i
  let in3 : Nat → List (Nat × Msg3 11 (ZMod 11)) := Toy.arrivals S.msg3
  have f1 : ∀ i, FromOthers Toy.parties i (fun j => m1 j i) (in1 i) := fun i => Toy.arrivals_fromOthers _ i
  have f2 : ∀ i, FromOthers Toy.parties i (fun j => msg2 (S.r2 o j)) (in2 i) := fun i => Toy.arrivals_fromOthers _ i
  have f3 : ∀ i, FromOthers Toy.parties i S.msg3 (in3 i) := fun i => Toy.arrivals_fromOthers _ i
  have h4 : ∀ i ∈ Toy.parties, toRound4 Toy.signEnv (S.r1 i) (in1 i) (in2 i) (in3 i) = .ok (.round4 (S.r4 i)) := by
    intro i hi
    unfold toRound4
    rw [h3 i hi, Out.bind_ok, ← hSE]
    have hc := collect_others (ids := S.ids) (i := i) (by rw [hSi]; exact Toy.arrivals_fromOthers S.msg3 i) (recv := recv3 S.E (S.r3 o i))
      (pl := fun j => (S.msg3 j).payload) (fun j hj _ => Run.recv3_ok hj)
    refine (congrArg (fun x => Out.bind x _) hc).trans ?_
    rw [Out.bind_ok, good.finalize3 (hSi ▸ hi), if_neg hne]; rfl
  have hbegin : ∀ i ∈ Toy.parties, ∃ s, begin Toy.signEnv (S.r1 i) = .ok s := by
    intro i hi
    have h := h2 i hi
    unfold toRound2 at h
    simp only [Out.bind_eq_ok] at h
    obtain ⟨out, ho, -⟩ := h
    exact ⟨_, by unfold begin; rw [ho]; rfl⟩
  have : Nonempty (State 11 Nat Nat (ZMod 11)) := ⟨(hbegin 1 (by decide)).choose⟩
  obtain ⟨init, hinit⟩ := exists_fun hbegin
  have hoth : ∀ i ∈ Toy.parties, (S.r1 i).ctx.otherIds = Toy.parties.erase i := by
    intro i hi
    show S.ids.erase i = _
    rw [hSi]
  obtain ⟨n0, hn0, hs0⟩ := exists_three (E := Toy.signEnv) (Finset.Subset.refl Toy.parties) hoth hinit h2 h3
    (fun i hi j hj m hm => by
      obtain ⟨-, hji, hm⟩ := ((f1 i).2 (j, m)).1 hm
      rw [show m = m1 j i from hm, ← hSE]
      exact (hm1 j hj i hi hji).sent)
    (fun i hi j hj m hm => (((f2 i).2 (j, m)).1 hm).2.2)
  have step3 : ∀ i ∈ Toy.parties, _ := fun i hi => round3_step (E := Toy.signEnv) (h3 i hi) (h4 i hi) (s := .four (S.r4 i)) rfl
  obtain ⟨n, hn, hs⟩ := hn0.round_all (s := fun i => .three (S.r3 o i)) (s' := fun i => .four (S.r4 i)) (inbox := fun i => (in3 i).map fun a => (a.1, Message.three a.2)) (fun i hi => (hs0 i hi).1)
    (fun i hi => (step3 i hi).1) (fun i hi => (step3 i hi).2) (fun i hi a ha hj => by
      obtain ⟨⟨j, m⟩, hm, rfl⟩ := List.mem_map.1 ha
      obtain ⟨hj1, hji, hm⟩ := ((f3 i).2 (j, m)).1 hm
      refine ⟨rfl, ?_⟩
      rw [show m = S.msg3 j from hm]
      refine in_toAll ?_
      show i ∈ S.ids.erase j
      rw [hSi]
      exact Finset.mem_erase.2 ⟨Ne.symm hji, hi⟩)
  have hround1 : ∀ i ∈ Toy.parties, (machine Toy.signEnv).round (init i) = 1 ∧ ∃ out, init i = .one (S.r1 i) out := by
    intro i hi
    have := hinit i hi
    unfold begin at this
    rw [Out.bind_eq_ok] at this
    obtain ⟨out, -, he⟩ := this
    rw [← Out.ok.inj he]
    exact ⟨rfl, out, rfl⟩
  have hpast : ∀ i ∈ Toy.parties, ∀ x ∈ n.past i, x = (init i, (in1 i).map fun a => (a.1, Message.one a.2)) ∨ x = (.two (S.r2 o i), (in2 i).map fun a => (a.1, .two a.2)) ∨
        x = (.three (S.r3 o i), (in3 i).map fun a => (a.1, Message.three a.2)) := by
    intro i hi x hxm
    rw [(hs i hi).2.1, (hs0 i hi).2.2] at hxm
    simpa using hxm
  have key1 : ∀ i ∈ Toy.parties, ∀ x ∈ n.past i, ∀ j m, (j, Message.one m) ∈ x.2 → m.echo = S.echo j := by
    intro i hi x hx j m hm
    rcases hpast i hi x hx with rfl | rfl | rfl <;> obtain ⟨⟨j', a⟩, ha, he⟩ := List.mem_map.1 hm <;> cases he
    obtain ⟨hj1, hji, ha⟩ := ((f1 i).2 (_, _)).1 ha
    rw [show a = m1 j' i from ha]
    exact msg1_echo (hm1 j' (hSi ▸ hj1) i (hSi ▸ hi) hji).sent
  have key2 : ∀ i ∈ Toy.parties, ∀ x ∈ n.past i, ∀ j m, (j, Message.two m) ∈ x.2 → m = msg2 (S.r2 o j) := by
    intro i hi x hx j m hm
    rcases hpast i hi x hx with rfl | rfl | rfl <;> obtain ⟨⟨j', a⟩, ha, he⟩ := List.mem_map.1 hm <;> cases he
    exact (((f2 i).2 (_, _)).1 ha).2.2
  have key3 : ∀ i ∈ Toy.parties, ∀ x ∈ n.past i, ∀ j m, (j, Message.three m) ∈ x.2 → m = S.msg3 j := by
    intro i hi x hx j m hm
    rcases hpast i hi x hx with rfl | rfl | rfl <;> obtain ⟨⟨j', a⟩, ha, he⟩ := List.mem_map.1 hm <;> cases he
    exact (((f3 i).2 (_, _)).1 ha).2.2
  have kind : ∀ i ∈ Toy.parties, ∀ x ∈ n.past i, ∀ k, (machine Toy.signEnv).round x.1 = k → ∀ j m, (j, m) ∈ x.2 →
      (k = 1 ∧ ∃ a, m = .one a) ∨ (k = 2 ∧ ∃ a, m = .two a) ∨ (k = 3 ∧ ∃ a, m = .three a) := by
    rintro i hi x hx k rfl j m hm
    rcases hpast i hi x hx with rfl | rfl | rfl <;> obtain ⟨⟨j', a⟩, ha, he⟩ := List.mem_map.1 hm <;> cases he
    · exact .inl ⟨(hround1 i hi).1, a, rfl⟩
    · exact .inr (.inl ⟨rfl, a, rfl⟩)
    · exact .inr (.inr ⟨rfl, a, rfl⟩)
  refine ⟨infos, S.r1, init, n, hst, hinit, hn, ?_, ?_, ?_, ?_, ?_, ?_⟩
  · intro i hi i' hi' x hx x' hx' hr hr' j m m' hm hm'
    rcases kind i hi x hx 1 hr j m hm with ⟨-, a, rfl⟩ | ⟨h, -⟩ | ⟨h, -⟩ <;> [skip; cases h; cases h]
    rcases kind i' hi' x' hx' 1 hr' j m' hm' with ⟨-, a', rfl⟩ | ⟨h, -⟩ | ⟨h, -⟩ <;> [skip; cases h; cases h]
    show some _ = some _
    rw [key1 i hi x hx j a hm, key1 i' hi' x' hx' j a' hm']
  · intro i hi i' hi' x hx x' hx' hr hr' j m m' hm hm'
    rcases kind i hi x hx 2 hr j m hm with ⟨h, -⟩ | ⟨-, a, rfl⟩ | ⟨h, -⟩ <;> [cases h; skip; cases h]
    rcases kind i' hi' x' hx' 2 hr' j m' hm' with ⟨h, -⟩ | ⟨-, a', rfl⟩ | ⟨h, -⟩ <;> [cases h; skip; cases h]
    rw [key2 i hi x hx j a hm, key2 i' hi' x' hx' j a' hm']
  · intro i hi i' hi' x hx x' hx' hr hr' j m m' hm hm'
    rcases kind i hi x hx 3 hr j m hm with ⟨h, -⟩ | ⟨h, -⟩ | ⟨-, a, rfl⟩ <;> [cases h; cases h; skip]
    rcases kind i' hi' x' hx' 3 hr' j m' hm' with ⟨h, -⟩ | ⟨h, -⟩ | ⟨-, a', rfl⟩ <;> [cases h; cases h; skip]
    rw [key3 i hi x hx j a hm, key3 i' hi' x' hx' j a' hm']
  · intro i hi i' hi' x hx x' hx' hr hr' j m m' hm hm'
    rcases kind i hi x hx 3 hr j m hm with ⟨h, -⟩ | ⟨h, -⟩ | ⟨-, a, rfl⟩ <;> [cases h; cases h; skip]
    rcases kind i' hi' x' hx' 3 hr' j m' hm' with ⟨h, -⟩ | ⟨h, -⟩ | ⟨-, a', rfl⟩ <;> [cases h; cases h; skip]
    rw [key3 i hi x hx j a hm, key3 i' hi' x' hx' j a' hm']
  · intro i hi x hx j a ha r3 got hp m3 hm3
    rw [key1 i hi x hx j a ha, key3 i hi _ hp j m3 hm3]
    obtain rfl : r3 = S.r3 o i := by
      rcases hpast i hi _ hp with h | h | h
      · obtain ⟨out, he⟩ := (hround1 i hi).2
        rw [he] at h
        cases h
      · cases h
      · cases h; rfl
    refine ⟨(S.d j).k, (S.d j).a, ?_, ?_, rfl⟩
    · rw [← hSE]; rfl
    · rw [← hSE]; exact add_comm _ _
  · intro i hi
    exact ⟨.four (S.r4 i), by rw [(hs i hi).2.2]; simp, rfl⟩

end Examples

end Synedrion.Props
