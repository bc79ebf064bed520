import Verif.Lemmas.NetworkBlame
import Verif.Lemmas.NetworkScriptSigning
import Verif.Props.Blame
import Verif.Props.SigningBlameEarly
import Verif.Props.Network

/-!
# C83: no accusations between honest parties in executions over the network
-/

set_option linter.unusedSectionVars false

namespace Synedrion.Props

open Spec

section KeyInit

open KeyInit

variable {I F G Sid V : Type} [LinearOrder I] [Field F] [LinearOrder F] [AddCommGroup G] [Module F G] [DecidableEq G] [DecidableEq V]

/-- **C83 (key generation).** At any time of any execution of key generation, with any schedule and whatever the parties that are not honest do, but with the echo-broadcast of round 2 working:
if an honest party has stopped because it declares party `j` faulty, then `j` is not honest. -/
theorem C83_key_init (hashV : Sid → I → PublicData G → V) (H : SchHash G (SchAux I Sid) → F) (g : G) (honest : Set I) (ids : Finset I) (sid : Sid) (d : I → Draws F)
    (c : I → Context I F G Sid) (hc : ∀ i ∈ honest, start g ids sid i (d i) = .ok (c i))
    (n : Net I (Message F G V) (State I F G Sid V) Err (KeyShare I F G)) (h : (machine hashV H g).Reachable honest (fun i => .one (c i)) n)
    (hecho : (machine hashV H g).EchoAgree honest 2 (fun m => m.two?.map Msg2.rho) n)
    (i j : I) (hi : i ∈ honest) (e : Err) (hst : n.status i = .stopped (.fault j e)) : j ∉ honest := by
  intro hj
  obtain ⟨in1, in2, in3, in1P, in2P, hin, hrun, h1, h2, hec, h3⟩ := accusation h hecho hi hj hst
  have hne : i ≠ j := by
    have hci := hc i hi
    unfold start at hci
    split at hci
    · cases hci
    · rw [← Out.ok.inj hci] at hin
      exact (Finset.mem_erase.1 hin).1.symm
  exact C63_key_init hashV H g ids sid i j hne (d i) (d j) _ _ (hc i hi) (hc j hj) in1 in1P in2 in2P in3 h1 h2 hec h3 e hrun

end KeyInit

section AuxGen

open AuxGen

variable {I Sid V : Type} [LinearOrder I] [DecidableEq V]

/-- **C83 (auxiliary info).** The same for the generation of auxiliary info, with valid draws of the honest parties. -/
theorem C83_aux_gen (E : AuxEnv I Sid) (k : Nat) (hE : HashesValid E k) (hashV : Sid → I → Hashed → V) (honest : Set I) (ids : Finset I) (sid : Sid) (d : I → AuxDraws I)
    (hd : ∀ i ∈ honest, DrawsValid E k (d i))
    (hfac : ∀ i ∈ honest, ∀ j ∈ honest, i ≠ j → FacDrawsValid E.P ((d j).p * (d j).q) ((d i).rpP * (d i).rpQ) ((d j).facMasks i))
    (c : I → Context I Sid) (hc : ∀ i ∈ honest, start E ids sid i (d i) = .ok (c i))
    (n : Net I (Message V) (State I Sid V) (Err I) (AuxInfo I PaillierKey PublicAux)) (h : (machine E hashV).Reachable honest (fun i => .one (c i)) n)
    (hecho : (machine E hashV).EchoAgree honest 2 (fun m => m.two?.map Msg2.echo) n)
    (i j : I) (hi : i ∈ honest) (e : Err I) (hst : n.status i = .stopped (.fault j e)) : j ∉ honest := by
  intro hj
  obtain ⟨in1, in2, in3, in1P, in2P, hin, hrun, h1, h2, hec, h3⟩ := accusation h hecho hi hj hst
  have hne : i ≠ j := by
    obtain ⟨_, _, sk, -, hcc⟩ := start_ok (hc i hi)
    rw [hcc] at hin
    exact (Finset.mem_erase.1 hin).1.symm
  exact C63_aux_gen E k hE hashV ids sid i j hne (d i) (d j) (hd i hi) (hd j hj) (hfac i hi j hj hne) _ _ (hc i hi) (hc j hj) in1 in1P in2 in2P in3 h1 h2 hec h3 e hrun

end AuxGen

section KeyRefresh

open KeyRefresh


variable {I F G Sid V : Type} [LinearOrder I] [Field F] [LinearOrder F] [AddCommGroup G] [Module F G] [DecidableEq G] [DecidableEq V]

/-- **C83 (key refresh).** The same for key refresh. -/
theorem C83_key_refresh (E : Env I Sid F G) (k : Nat) (hE : HashesValid E.aux k) (hashV : Sid → I → Hashed I G → V) (honest : Set I) (ids : Finset I) (sid : Sid) (d : I → Draws I F)
    (hd : ∀ i ∈ honest, DrawsValid E.aux k (d i).aux)
    (hfac : ∀ i ∈ honest, ∀ j ∈ honest, i ≠ j → FacDrawsValid E.aux.P ((d j).aux.p * (d j).aux.q) ((d i).aux.rpP * (d i).aux.rpQ) ((d j).aux.facMasks i))
    (c : I → Context I F G Sid) (hc : ∀ i ∈ honest, start E ids sid i (d i) = .ok (c i))
    (n : Net I (Message I F G V) (State I F G Sid V) (Err I F) (KeyShareChange I F G × AuxInfo I PaillierKey PublicAux))
    (h : (machine E hashV).Reachable honest (fun i => .one (c i)) n) (hecho : (machine E hashV).EchoAgree honest 2 (fun m => m.two?.map Msg2.echo) n)
    (i j : I) (hi : i ∈ honest) (e : Err I F) (hst : n.status i = .stopped (.fault j e)) : j ∉ honest := by
  intro hj
  obtain ⟨in1, in2, in3, in1P, in2P, hin, hrun, h1, h2, hec, h3⟩ := accusation h hecho hi hj hst
  have hne : i ≠ j := by
    obtain ⟨_, _, sk, x, -, -, hcc⟩ := start_ok (hc i hi)
    rw [hcc] at hin
    exact (Finset.mem_erase.1 hin).1.symm
  exact C63_key_refresh E k hE hashV ids sid i j hne (d i) (d j) (hd i hi) (hd j hj) (hfac i hi j hj hne) _ _ (hc i hi) (hc j hj) in1 in1P in2 in2P in3 h1 h2 hec h3 e hrun

end KeyRefresh

section KeyResharing

open KeyResharing

variable {I F G : Type} [LinearOrder I] [Field F] [LinearOrder F] [AddCommGroup G] [Module F G] [DecidableEq G]

/-- **C83 (resharing).** The same for resharing, where the honest parties have the same new holders; there is no echo-broadcast to rely on. -/
theorem C83_resharing (g : G) (honest : Set I) (inp : I → Inputs I F G) (newHolders : Finset I) (hnew : ∀ i ∈ honest, (inp i).newHolders = newHolders) (draw : I → Nat → F)
    (r : I → Round1 I F G) (hs : ∀ i ∈ honest, start g (inp i) i (draw i) = .ok (r i)) (init : I → State I F G) (hinit : ∀ i ∈ honest, begin (r i) = .ok (init i))
    (n : Net I (Msg F G) (State I F G) Err (Option (ThresholdKeyShare I F G))) (h : (machine g).Reachable honest init n)
    (i j : I) (hi : i ∈ honest) (e : Err) (hst : n.status i = .stopped (.fault j e)) : j ∉ honest := by
  intro hj
  obtain ⟨inbox, hrun, hin⟩ := accusation hinit h hi hj hst
  exact C63_resharing g (inp i) (inp j) ((hnew i hi).trans (hnew j hj).symm) i j (draw i) (draw j) _ _ (hs i hi) (hs j hj) inbox hin e hrun

end KeyResharing

section Signing

open Signing

variable {q : Nat} [Fact q.Prime] {I Ep G : Type} [LinearOrder I] [AddCommGroup G] [Module (ZMod q) G] [DecidableEq G]

/-- **C83 (signing), the part that holds.** At any time of any execution of signing with working echo-broadcasts: if an honest party has stopped because it declares an honest party faulty,
then the reason is one of the three checks of the rounds that look for the cause of a failure. In the rounds that lead to a signature honest parties do not accuse each other.

What is missing is the same without exceptions; `C83_honest_signer_blamed` shows that it is false. -/
theorem C83_signing_partial (E : Env q I Ep G) (hE : SigningSetting E) (epidOf : BMap I G → BMap I PublicAux → Ep) (message sk : ZMod q) (ids : Finset I)
    (shares : I → KeyShare I (ZMod q) G) (hshares : SharesKey E.C.g ids shares sk) (infos : I → AuxInfo I PaillierKey PublicAux) (setup : I → RPSetup)
    (haux : UsableAux E.P ids infos setup) (d : I → Draws q I)
    (hd : SigningDrawsValid E.P ids (fun i => (infos i).secret.modulus) (fun i => (setup i).modulus) d)
    (honest : Set I) (hsub : honest ⊆ (ids : Set I)) (hgamma : ∀ i ∈ honest, (d i).gamma ≠ 0)
    (r : I → Round1 q I Ep G) (hs : ∀ i ∈ honest, start E epidOf message (shares i) (infos i) i (d i) = .ok (r i))
    (init : I → State q I Ep G) (hinit : ∀ i ∈ honest, begin E (r i) = .ok (init i))
    (n : Net I (Message q I G) (State q I Ep G) (Err I) (RecoverableSignature q)) (h : (machine E).Reachable honest init n)
    (hecho1 : (machine E).EchoAgree honest 1 (fun m => m.one?.map Msg1.echo) n) (hecho2 : (machine E).EchoAgree honest 2 (fun m => m.two?.map Msg2.echo) n)
    (hecho3 : (machine E).EchoAgree honest 3 (fun m => m.three?.map Msg3.delta) n)
    (i j : I) (hi : i ∈ honest) (e : Err I) (hst : n.status i = .stopped (.fault j e)) :
    j ∉ honest ∨ ∃ hat, e = .decFailed hat ∨ e = .wrongIdsPsi hat ∨ ∃ k, e = .affGStarFailed hat k := by
  by_cases hj : j ∈ honest
  · refine .inr ?_
    obtain ⟨in1, in2, in3, in4, inErr, in1P, in2P, in3P, a⟩ := accusation hinit h hecho1 hecho2 hecho3 hi hj hst
    have hne : i ≠ j := by
      have hin := a.sender
      rw [(start_eq_ok (hs i hi)).2.2.2.2.2.2.1] at hin
      exact (Finset.mem_erase.1 hin).1.symm
    exact C63_signing_partial E hE epidOf message sk ids shares hshares infos setup haux d hd i j (hsub hi) (hsub hj) hne (hgamma j hj) _ _ (hs i hi) (hs j hj)
      in1 in1P in2 in2P in3 in3P in4 inErr a.first a.echo1 a.second a.echo2 a.third a.echo3 a.fourth e a.run
  · exact .inl hj

/-- **C83 (signing), the part that holds, with valid draws for the rounds about a failure.** If an honest party has stopped because it declares an honest party faulty, then the reason is that the
proof of the decryption in one of the rounds about a failure was not accepted. What is missing is the same without this exception, see `C83_honest_signer_blamed`. -/
theorem C83_signing_error_round_partial (E : Env q I Ep G) (hE : SigningSetting E) (epidOf : BMap I G → BMap I PublicAux → Ep) (message sk : ZMod q) (ids : Finset I)
    (shares : I → KeyShare I (ZMod q) G) (hshares : SharesKey E.C.g ids shares sk) (infos : I → AuxInfo I PaillierKey PublicAux) (setup : I → RPSetup)
    (haux : UsableAux E.P ids infos setup) (d : I → Draws q I)
    (hd : SigningDrawsValid E.P ids (fun i => (infos i).secret.modulus) (fun i => (setup i).modulus) d)
    (c : Nat)
    (honest : Set I) (hsub : honest ⊆ (ids : Set I)) (hgamma : ∀ i ∈ honest, (d i).gamma ≠ 0)
    (hderr : ∀ i ∈ honest, ErrorDrawsValid E (ids.erase i) (infos i).secret.modulus (fun j => (infos j).secret.modulus) c (d i))
    (r : I → Round1 q I Ep G) (hs : ∀ i ∈ honest, start E epidOf message (shares i) (infos i) i (d i) = .ok (r i))
    (init : I → State q I Ep G) (hinit : ∀ i ∈ honest, begin E (r i) = .ok (init i))
    (n : Net I (Message q I G) (State q I Ep G) (Err I) (RecoverableSignature q)) (h : (machine E).Reachable honest init n)
    (hecho1 : (machine E).EchoAgree honest 1 (fun m => m.one?.map Msg1.echo) n) (hecho2 : (machine E).EchoAgree honest 2 (fun m => m.two?.map Msg2.echo) n)
    (hecho3 : (machine E).EchoAgree honest 3 (fun m => m.three?.map Msg3.delta) n)
    (i j : I) (hi : i ∈ honest) (e : Err I) (hst : n.status i = .stopped (.fault j e)) :
    j ∉ honest ∨ ∃ hat, e = .decFailed hat := by
  by_cases hj : j ∈ honest
  · refine .inr ?_
    obtain ⟨in1, in2, in3, in4, inErr, in1P, in2P, in3P, a⟩ := accusation hinit h hecho1 hecho2 hecho3 hi hj hst
    have hne : i ≠ j := by
      have hin := a.sender
      rw [(start_eq_ok (hs i hi)).2.2.2.2.2.2.1] at hin
      exact (Finset.mem_erase.1 hin).1.symm
    exact C63_signing_error_round_partial E hE epidOf message sk ids shares hshares infos setup haux d hd i j (hsub hi) (hsub hj) hne (hgamma j hj) _ _ (hs i hi) (hs j hj)
      in1 in1P in2 in2P in3 in3P in4 inErr a.first a.echo1 a.second a.echo2 a.third a.echo3 a.fourth c (hderr j hj) a.fifth e a.run
  · exact .inl hj

/-- **C83 is false of the code for signing.** In the setting of `C63_honest_signer_blamed`, with all parties but `cheater` honest, there is an execution in which all echo-broadcasts work and
at the end of which the honest party `w` has stopped because it declares the honest party `v` faulty. -/
theorem C83_honest_signer_blamed (E : Env q I Ep G) (hE : SigningSetting E) (hg : E.C.g ≠ 0) (epidOf : BMap I G → BMap I PublicAux → Ep) (message sk : ZMod q)
    (ids : Finset I) (shares : I → KeyShare I (ZMod q) G) (hshares : SharesKey E.C.g ids shares sk) (infos : I → AuxInfo I PaillierKey PublicAux) (setup : I → RPSetup)
    (haux : UsableAux E.P ids infos setup) (d : I → Draws q I)
    (hd : SigningDrawsValid E.P ids (fun i => (infos i).secret.modulus) (fun i => (setup i).modulus) d) (c : Nat) (hfew : FewParties E.P ids.card c)
    (hderr : ∀ i ∈ ids, ErrorDrawsValid E (ids.erase i) (infos i).secret.modulus (fun j => (infos j).secret.modulus) c (d i)) (hbit : ∀ t, true ∈ E.decH t)
    (r1 : I → Round1 q I Ep G) (hst : ∀ i ∈ ids, start E epidOf message (shares i) (infos i) i (d i) = .ok (r1 i))
    (cheater v w : I) (hch : cheater ∈ ids) (hv : v ∈ ids) (hw : w ∈ ids) (hcv : v ≠ cheater) (hcw : w ≠ cheater) (hvw : v ≠ w) :
    ∃ (init : I → State q I Ep G) (n : Net I (Message q I G) (State q I Ep G) (Err I) (RecoverableSignature q)),
      (∀ i ∈ ids.erase cheater, begin E (r1 i) = .ok (init i)) ∧ (machine E).Reachable (ids.erase cheater : Finset I) init n ∧
      (machine E).EchoAgree (ids.erase cheater : Finset I) 1 (fun m => m.one?.map Msg1.echo) n ∧
      (machine E).EchoAgree (ids.erase cheater : Finset I) 2 (fun m => m.two?.map Msg2.echo) n ∧
      (machine E).EchoAgree (ids.erase cheater : Finset I) 3 (fun m => m.three?.map Msg3.delta) n ∧
      n.status w = .stopped (.fault v (.decFailed false)) := by
  obtain ⟨m1, r2, other2, r3, rErr, mErr, hm1, hecho, hmsg, hhat, hrun⟩ := C63_honest_signer_blamed E hE hg epidOf message sk ids shares hshares infos setup haux d hd c hfew hderr hbit
    r1 hst cheater v w hch hv hw hcv hcw hvw 1 one_ne_zero
  let in1 : I → List (I × Msg1 q G) := inOrder ids m1
  let in2 : I → List (I × Msg2 q I G) := inOrder ids fun j i => if j = cheater ∧ i = w then other2 else msg2 (r2 j)
  let in3 : I → List (I × Msg3 q G) := inOrder ids fun j _ => if j = cheater then { (r3 j).msg with delta := (r3 j).msg.delta + 1 } else (r3 j).msg
  have f1 : ∀ i, FromOthers ids i (fun j => m1 j i) (in1 i) := inOrder_fromOthers _ _
  have f2 : ∀ i, FromOthers ids i (fun j => if j = cheater ∧ i = w then other2 else msg2 (r2 j)) (in2 i) := fun i =>
    inOrder_fromOthers ids (fun j i => if j = cheater ∧ i = w then other2 else msg2 (r2 j)) i
  have f3 : ∀ i, FromOthers ids i (fun j => if j = cheater then { (r3 j).msg with delta := (r3 j).msg.delta + 1 } else (r3 j).msg) (in3 i) := fun i =>
    inOrder_fromOthers ids (fun j _ => if j = cheater then { (r3 j).msg with delta := (r3 j).msg.delta + 1 } else (r3 j).msg) i
  obtain ⟨h2, hrun⟩ := hrun in1 (fun i _ => f1 i)
  obtain ⟨h3, hrun⟩ := hrun in2 (fun i _ => f2 i)
  obtain ⟨h4, hrun⟩ := hrun in3 (fun i _ => f3 i)
  have hoth : ∀ i ∈ ids, (r1 i).ctx.otherIds = ids.erase i := by
    intro i hi
    rw [(start_eq_ok (hst i hi)).2.2.2.2.2.2.1, hshares.holders i hi]
  have hin : ∀ {i}, i ∈ ids.erase cheater → i ∈ ids := fun h => Finset.mem_of_mem_erase h
  have hv' : v ∈ ids.erase cheater := Finset.mem_erase.2 ⟨hcv, hv⟩
  have hw' : w ∈ ids.erase cheater := Finset.mem_erase.2 ⟨hcw, hw⟩
  have hbegin : ∀ i ∈ ids.erase cheater, ∃ s, begin E (r1 i) = .ok s := by
    intro i hi
    have h := h2 i (hin hi)
    unfold toRound2 at h
    simp only [Out.bind_eq_ok] at h
    obtain ⟨out, ho, -⟩ := h
    exact ⟨_, by unfold begin; rw [ho]; rfl⟩
  have : Nonempty (State q I Ep G) := ⟨(hbegin v hv').choose⟩
  obtain ⟨init, hinit⟩ := exists_fun hbegin
  -- rounds 1 and 2
  obtain ⟨n, hn, hs⟩ := exists_three (Finset.erase_subset cheater ids) (fun i hi => hoth i (hin hi)) hinit (fun i hi => h2 i (hin hi)) (fun i hi => h3 i (hin hi))
    (fun i hi j hj m hm => by
      obtain ⟨-, hji, hm⟩ := ((f1 i).2 (j, m)).1 hm
      rw [show m = m1 j i from hm]
      exact hm1 j (hin hj) i (hin hi) hji)
    (fun i hi j hj m hm => by
      obtain ⟨-, -, hm⟩ := ((f2 i).2 (j, m)).1 hm
      exact hm.trans (if_neg fun h => (Finset.mem_erase.1 hj).1 h.1))
  -- what `w` makes of the message of `v`
  have hrunw := hrun [] ((bsetIter ((ids.erase w).erase v)).map fun j => (j, mErr)) (by simp [List.map_map, Function.comp_def, bsetIter_nodup, mem_bsetIter]) (by
    ext x
    simp only [List.map_map, Function.comp_def, List.map_id', List.toFinset_cons, Finset.mem_insert, List.mem_toFinset, mem_bsetIter, Finset.mem_erase]
    constructor
    · rintro (rfl | h)
      · exact ⟨hvw, hv⟩
      · exact h.2
    · intro h
      by_cases hx : x = v
      · exact .inl hx
      · exact .inr ⟨hx, h⟩)
  unfold run at hrunw
  rw [h4 w hw hcw, Out.bind_ok] at hrunw
  unfold last at hrunw
  simp only at hrunw
  obtain ⟨mw, hmw⟩ : ∃ mw, msgErr E (rErr w) = .ok mw := by
    rcases Out.bind_eq_err.1 hrunw with h | ⟨mw, h, -⟩
    · exact absurd h finalizeResult_not_fault
    · exact ⟨mw, finalizeResult_eq_ok.1 h⟩
  rw [finalizeResult_eq_ok.2 hmw, Out.bind_ok] at hrunw
  have hcol := bind_fault (fun b j e => finalizeResult_not_fault) hrunw
  obtain ⟨m, hm, hrecv⟩ := collect_eq_fault hcol
  obtain rfl : m = mErr := by
    rcases List.mem_cons.1 hm with h | h
    · exact congrArg Prod.snd h
    · obtain ⟨_, _, h⟩ := List.mem_map.1 h
      exact (congrArg Prod.snd h).symm
  have hotherr : ∀ i ∈ ids.erase cheater, (rErr i).ctx.otherIds = ids.erase i := by
    intro i hi
    rw [(after3_ctx (h4 i (hin hi) (Finset.mem_erase.1 hi).1)).2 _ rfl, hoth i (hin hi)]
  have hother3 : ∀ i ∈ ids, (r3 i).ctx.otherIds = ids.erase i := fun i hi => by rw [(toRound3_ok (h3 i hi)).1, hoth i hi]
  -- round 3 of `v` and `w`
  have step3 : ∀ i ∈ ids.erase cheater, ∀ m, msgErr E (rErr i) = .ok m → _ := fun i hi m hm =>
    round3_step (E := E) (h3 i (hin hi)) (h4 i (hin hi) (Finset.mem_erase.1 hi).1) (s := .error (rErr i) m) (by
      unfold beginAfter3
      simp only
      rw [finalizeResult_eq_ok.2 hm, Out.bind_ok])
  have sent3 : ∀ n' : Net I (Message q I G) (State q I Ep G) (Err I) (RecoverableSignature q), (∀ j ∈ ids.erase cheater, State.three (r3 j) ∈ n'.begun j) → ∀ i ∈ ids.erase cheater,
      ∀ a ∈ (in3 i).map (fun a => (a.1, Message.three a.2)), a.1 ∈ ((ids.erase cheater : Finset I) : Set I) → (machine E).Sent n' a.1 i ((machine E).round (.three (r3 i))) a.2 := by
    intro n' hb i hi a ha hj
    obtain ⟨⟨j, m⟩, hm, rfl⟩ := List.mem_map.1 ha
    obtain ⟨hj1, hji, hm⟩ := ((f3 i).2 (j, m)).1 hm
    refine ⟨_, hb j hj, rfl, ?_⟩
    rw [show m = (r3 j).msg from hm.trans (if_neg (Finset.mem_erase.1 hj).1)]
    refine in_toAll ?_
    rw [hother3 j hj1]
    exact Finset.mem_erase.2 ⟨Ne.symm hji, hin hi⟩
  have hnv := hn.round (Finset.mem_coe.2 hv') (hs v hv').1 (step3 v hv' _ hmsg).1 (sent3 n (fun j hj => (hs j hj).2.1) v hv')
  have adv : ∀ i ∈ ids.erase cheater, ∀ m, msgErr E (rErr i) = .ok m → (machine E).advanced (.three (r3 i)) ((in3 i).map fun a => (a.1, Message.three a.2)) = .running (.error (rErr i) m) [] := by
    intro i hi m hm
    unfold Machine.advanced
    rw [(step3 i hi m hm).2]
  rw [adv v hv' _ hmsg] at hnv
  have hnw := hnv.round (Finset.mem_coe.2 hw') (by simp only [Function.update_of_ne (Ne.symm hvw)]; exact (hs w hw').1) (step3 w hw' _ hmw).1 (sent3 _ (fun j hj => by
    by_cases hjv : j = v
    · subst hjv
      simp only [Function.update_self]
      exact List.mem_append_left _ (hs j hj).2.1
    · simp only [Function.update_of_ne hjv]
      exact (hs j hj).2.1) w hw')
  rw [adv w hw' _ hmw] at hnw
  have hstop := hnw.refuse (j := v) (m := .error m) (a := .fault v (.decFailed false)) (Finset.mem_coe.2 hw') (s := .error (rErr w) mw) (by simp only [Function.update_self])
    (show v ∈ (rErr w).ctx.otherIds by rw [hotherr w hw']; exact Finset.mem_erase.2 ⟨hvw, hv⟩)
    (fun _ => by
      refine ⟨.error (rErr v) m, ?_, ?_, ?_⟩
      · simp only [Function.update_of_ne hvw, Function.update_self, Machine.fresh]
        simp
      · show (if (rErr v).hat then 6 else 5) = if (rErr w).hat then 6 else 5
        rw [hhat, hhat]
      · refine in_toAll ?_
        rw [hotherr v hv']
        exact Finset.mem_erase.2 ⟨Ne.symm hvw, hw⟩)
    (show acceptPart (Message.error? (q := q)) (recvErr E (rErr w)) v (.error m) = _ by
      unfold acceptPart
      simp only [Message.error?, Out.ofOption_some, Out.bind_ok, hrecv]
      rfl)
  obtain ⟨N, hN, hNp, hNs⟩ : ∃ N : Net I (Message q I G) (State q I Ep G) (Err I) (RecoverableSignature q), (machine E).Reachable (ids.erase cheater : Finset I) init N ∧
      N.past = Function.update (Function.update n.past v (n.past v ++ [(.three (r3 v), (in3 v).map fun a => (a.1, Message.three a.2))])) w
        (n.past w ++ [(.three (r3 w), (in3 w).map fun a => (a.1, Message.three a.2))]) ∧
      N.status w = .stopped (.fault v (.decFailed false)) := ⟨_, hstop, by simp only [Function.update_of_ne (Ne.symm hvw)], by simp only [Function.update_self]⟩
  have hpast : ∀ i ∈ ids.erase cheater, ∀ x ∈ N.past i, x = (init i, (in1 i).map fun a => (a.1, Message.one a.2)) ∨ x = (.two (r2 i), (in2 i).map fun a => (a.1, .two a.2)) ∨
        x = (.three (r3 i), (in3 i).map fun a => (a.1, Message.three a.2)) := by
    intro i hi x hxm
    rw [hNp] at hxm
    have h12 := (hs i hi).2.2
    by_cases hiw : i = w
    · subst hiw
      rw [Function.update_self, h12] at hxm
      simpa using hxm
    · rw [Function.update_of_ne hiw] at hxm
      by_cases hiv : i = v
      · subst hiv
        rw [Function.update_self, h12] at hxm
        simpa using hxm
      · rw [Function.update_of_ne hiv, h12] at hxm
        rcases List.mem_cons.1 hxm with h | h
        · exact .inl h
        · exact .inr (.inl (by simpa using h))
  have hround1 : ∀ i ∈ ids.erase cheater, (machine E).round (init i) = 1 := by
    intro i hi
    have := hinit i hi
    unfold begin at this
    rw [Out.bind_eq_ok] at this
    obtain ⟨out, -, he⟩ := this
    rw [← Out.ok.inj he]
    rfl
  refine ⟨init, N, hinit, hN, ?_, ?_, ?_, hNs⟩
  · intro i hi i' hi' x hx x' hx' hr hr' j m m' hm hm'
    have key : ∀ i ∈ ids.erase cheater, ∀ x ∈ N.past i, (machine E).round x.1 = 1 → ∀ m, (j, m) ∈ x.2 → m.one?.map Msg1.echo = some (r1 j).echo := by
      intro i hi x hx hr m hm
      rcases hpast i hi x hx with rfl | rfl | rfl
      · obtain ⟨⟨j', a⟩, ha, he⟩ := List.mem_map.1 hm
        obtain rfl : j' = j := congrArg Prod.fst he
        obtain rfl : Message.one a = m := congrArg Prod.snd he
        obtain ⟨hj1, hji, ha⟩ := ((f1 i).2 (j', a)).1 ha
        rw [show a = m1 j' i from ha]
        show some _ = _
        rw [msg1_echo (hm1 j' hj1 i (hin hi) hji)]
      · cases hr
      · cases hr
    exact (key i hi x hx hr m hm).trans (key i' hi' x' hx' hr' m' hm').symm
  · intro i hi i' hi' x hx x' hx' hr hr' j m m' hm hm'
    have key : ∀ i ∈ ids.erase cheater, ∀ x ∈ N.past i, (machine E).round x.1 = 2 → ∀ m, (j, m) ∈ x.2 → m.two?.map Msg2.echo = some (msg2 (r2 j)).echo := by
      intro i hi x hx hr m hm
      rcases hpast i hi x hx with rfl | rfl | rfl
      · rw [hround1 i hi] at hr
        cases hr
      · obtain ⟨⟨j', a⟩, ha, he⟩ := List.mem_map.1 hm
        obtain rfl : j' = j := congrArg Prod.fst he
        obtain rfl : Message.two a = m := congrArg Prod.snd he
        obtain ⟨hj1, hji, ha⟩ := ((f2 i).2 (j', a)).1 ha
        have ha : a = if j' = cheater ∧ i = w then other2 else msg2 (r2 j') := ha
        rw [ha]
        show some _ = _
        split
        · rename_i h
          rw [hecho, h.1]
        · rfl
      · cases hr
    exact (key i hi x hx hr m hm).trans (key i' hi' x' hx' hr' m' hm').symm
  · intro i hi i' hi' x hx x' hx' hr hr' j m m' hm hm'
    have key : ∀ i ∈ ids.erase cheater, ∀ x ∈ N.past i, (machine E).round x.1 = 3 → ∀ m, (j, m) ∈ x.2 →
        m.three?.map Msg3.delta = some (if j = cheater then { (r3 j).msg with delta := (r3 j).msg.delta + 1 } else (r3 j).msg).delta := by
      intro i hi x hx hr m hm
      rcases hpast i hi x hx with rfl | rfl | rfl
      · rw [hround1 i hi] at hr
        cases hr
      · cases hr
      · obtain ⟨⟨j', a⟩, ha, he⟩ := List.mem_map.1 hm
        obtain rfl : j' = j := congrArg Prod.fst he
        obtain rfl : Message.three a = m := congrArg Prod.snd he
        obtain ⟨hj1, hji, ha⟩ := ((f3 i).2 (j', a)).1 ha
        rw [show a = _ from ha]
        rfl
    exact (key i hi x hx hr m hm).trans (key i' hi' x' hx' hr' m' hm').symm

end Signing

section Examples

attribute [local instance] Toy.fact11 Toy.order11

private theorem gather_two {M A E : Type} {part : M → Option A} {recv : Nat → A → Out (RecvErr E) A} {expected : Finset Nat} (he : expected = {2, 3}) {x y : M} {v w : A}
    (hx : part x = some v) (hy : part y = some w) (h2 : recv 2 v = .ok v) (h3 : recv 3 w = .ok w) :
    gather expected part recv [(2, x), (3, y)] = .ok (BMap.tabulate {2, 3} fun k => if k = 2 then v else w) := by
  refine gather_eq_ok.2 ⟨by simp, by rw [he]; rfl, by rw [he]; simp, ?_⟩
  intro a ha
  simp only [List.mem_cons, List.not_mem_nil, or_false] at ha
  rcases ha with rfl | rfl
  · exact ⟨v, v, hx, h2, (BMap.get?_tabulate ..).trans (by simp)⟩
  · exact ⟨w, w, hy, h3, (BMap.get?_tabulate ..).trans (by simp)⟩

/-- The hypotheses of `C83_key_init` can be met: of three parties, 3 is not honest and opens something else than what it has committed to; the honest party 1 notices. -/
example : ∃ n : Spec.Net Nat _ _ _ _, (KeyInit.machine kgHashV kgH (1 : ZMod 11)).Reachable {1, 2} (fun i => .one (kgCtx i)) n ∧
    (KeyInit.machine kgHashV kgH (1 : ZMod 11)).EchoAgree {1, 2} 2 (fun m => m.two?.map KeyInit.Msg2.rho) n ∧ n.status 1 = .stopped (.fault 3 .r2HashMismatch) ∧
    ∀ i ∈ ({1, 2} : Set Nat), KeyInit.start (1 : ZMod 11) {1, 2, 3} 7 i (kgDraws i) = .ok (kgCtx i) := by
  have hg := gather_two (part := KeyInit.Message.one? (F := ZMod 11) (G := ZMod 11)) (recv := KeyInit.recv1 (I := Nat) (V := Nat × Nat × KeyInit.PublicData (ZMod 11)))
    (expected := (kgCtx 1).otherIds) (by decide) (x := .one (KeyInit.msg1 kgHashV (kgCtx 2))) (y := .one (0, (KeyInit.msg1 kgHashV (kgCtx 3)).2)) rfl rfl rfl rfl
  obtain ⟨n, hn, hst, hp⟩ := Machine.exists_refusal (P := KeyInit.machine kgHashV kgH (1 : ZMod 11)) (honest := {1, 2}) (init := fun i => .one (kgCtx i)) (i := 1) (j := 3)
    (a := .fault 3 .r2HashMismatch) (m := .two (KeyInit.msg2 (kgCtx 3)))
    (s := .two ⟨kgCtx 1, BMap.tabulate {2, 3} fun k => if k = 2 then KeyInit.msg1 kgHashV (kgCtx 2) else (0, (KeyInit.msg1 kgHashV (kgCtx 3)).2)⟩) (by simp) (Signing.gather_complete hg)
    (fun a ha hj => by
      simp only [List.mem_cons, List.not_mem_nil, or_false] at ha
      rcases ha with rfl | rfl
      · exact ⟨rfl, Signing.in_toAll (by decide)⟩
      · simp at hj)
    (by simp only [KeyInit.machine, hg, Out.bind_ok]) (by simp) (show 3 ∈ (kgCtx 1).otherIds by decide) rfl
  refine ⟨n, hn, fun i hi i' hi' x hx x' hx' hr => ?_, hst, fun i hi => kgStart i (by rcases hi with rfl | rfl <;> simp)⟩
  rw [hp i x hx] at hr
  cases hr

/-- The same for auxiliary info -/
example : ∃ (ctx : Nat → AuxGen.Context Nat Nat) (n : Spec.Net Nat _ _ _ _), (∀ i ∈ ({1, 2} : Set Nat), AuxGen.start Toy.auxEnv {1, 2, 3} 7 i (Toy.auxDraws i) = .ok (ctx i)) ∧
    (AuxGen.machine Toy.auxEnv agHashV).Reachable {1, 2} (fun i => .one (ctx i)) n ∧
    (AuxGen.machine Toy.auxEnv agHashV).EchoAgree {1, 2} 2 (fun m => m.two?.map AuxGen.Msg2.echo) n ∧ n.status 1 = .stopped (.fault 3 .r2HashMismatch) := by
  have hst : ∀ i ∈ ({1, 2, 3} : Finset Nat), ∃ c, AuxGen.start Toy.auxEnv ({1, 2, 3} : Finset Nat) 7 i (Toy.auxDraws i) = .ok c := by
    intro i hi
    obtain ⟨c, h, _⟩ := C54_start Toy.auxEnv 2 {1, 2, 3} 7 i hi (Toy.auxDraws i) (Toy.auxDraws_valid i (by simp at hi; omega))
    exact ⟨c, h⟩
  have : Nonempty (AuxGen.Context Nat Nat) := ⟨(hst 1 (by decide)).choose⟩
  obtain ⟨ctx, hctx⟩ := exists_fun hst
  have hoth : ∀ i ∈ ({1, 2, 3} : Finset Nat), (ctx i).otherIds = ({1, 2, 3} : Finset Nat).erase i := by
    intro i hi
    obtain ⟨-, -, sk, -, hcc⟩ := AuxGen.start_ok (hctx i hi)
    rw [hcc]
  have hsid : (ctx 1).sid = 7 := by
    obtain ⟨-, -, sk, -, hcc⟩ := AuxGen.start_ok (hctx 1 (by decide))
    rw [hcc]
  have hg := gather_two (part := AuxGen.Message.one? (V := Nat × Nat × AuxGen.Hashed)) (recv := AuxGen.recv1 (I := Nat) (V := Nat × Nat × AuxGen.Hashed))
    (expected := (ctx 1).otherIds) (by rw [hoth 1 (by decide)]; decide) (x := .one (AuxGen.msg1 agHashV (ctx 2))) (y := .one (0, (AuxGen.msg1 agHashV (ctx 3)).2)) rfl rfl rfl rfl
  obtain ⟨n, hn, hstop, hp⟩ := Machine.exists_refusal (P := AuxGen.machine Toy.auxEnv agHashV) (honest := {1, 2}) (init := fun i => .one (ctx i)) (i := 1) (j := 3)
    (a := .fault 3 .r2HashMismatch) (m := .two (AuxGen.msg2 (ctx 3)))
    (s := .two (ctx 1) (BMap.tabulate {2, 3} fun k => if k = 2 then AuxGen.msg1 agHashV (ctx 2) else (0, (AuxGen.msg1 agHashV (ctx 3)).2))) (by simp) (Signing.gather_complete hg)
    (fun a ha hj => by
      simp only [List.mem_cons, List.not_mem_nil, or_false] at ha
      rcases ha with rfl | rfl
      · exact ⟨rfl, Signing.in_toAll (by rw [hoth 2 (by decide)]; decide)⟩
      · simp at hj)
    (by simp only [AuxGen.machine, hg, Out.bind_ok]) (by simp) (show 3 ∈ (ctx 1).otherIds by rw [hoth 1 (by decide)]; decide)
    (by
      obtain ⟨-, -, sk, -, hcc⟩ := AuxGen.start_ok (hctx 3 (by decide))
      have hacc := AuxGen.hdata_accepted Toy.auxEnv_valid (Toy.auxDraws_valid 3 (by omega)) 7 3 agHashV
        (BMap.tabulate {3} fun _ => agHashV 7 3 (AuxGen.hdata Toy.auxEnv 7 3 (Toy.auxDraws 3)).hashed) ((BMap.get?_tabulate ..).trans (by simp))
      unfold AuxGen.recv2 at hacc
      obtain ⟨data, hdata, -⟩ := Out.bind_eq_ok.1 hacc
      show (received 3 (AuxGen.recv2 Toy.auxEnv agHashV (ctx 1).sid _ 3 (AuxGen.msg2 (ctx 3)))).bind _ = _
      have hm : AuxGen.msg2 (ctx 3) = (AuxGen.hdata Toy.auxEnv 7 3 (Toy.auxDraws 3)).msg2 := by rw [hcc]; rfl
      rw [hm, hsid]
      unfold AuxGen.recv2
      rw [hdata, Out.bind_ok]
      unfold recvGet
      rw [BMap.get?_tabulate]
      simp [agHashV, received])
  refine ⟨ctx, n, fun i hi => hctx i (by rcases hi with rfl | rfl <;> simp), hn, fun i hi i' hi' x hx x' hx' hr => ?_, hstop⟩
  rw [hp i x hx] at hr
  cases hr

/-- The same for key refresh -/
example : ∃ (ctx : Nat → KeyRefresh.Context Nat (ZMod 11) (ZMod 11) Nat) (n : Spec.Net Nat _ _ _ _), (∀ i ∈ ({1, 2} : Set Nat), KeyRefresh.start refreshCaseEnv {1, 2, 3} 7 i (refreshCaseDraws i) = .ok (ctx i)) ∧
    (KeyRefresh.machine refreshCaseEnv refreshCaseHash).Reachable {1, 2} (fun i => .one (ctx i)) n ∧
    (KeyRefresh.machine refreshCaseEnv refreshCaseHash).EchoAgree {1, 2} 2 (fun m => m.two?.map KeyRefresh.Msg2.echo) n ∧ n.status 1 = .stopped (.fault 3 .r2HashMismatch) := by
  have hst : ∀ i ∈ ({1, 2, 3} : Finset Nat), ∃ c, KeyRefresh.start refreshCaseEnv ({1, 2, 3} : Finset Nat) 7 i (refreshCaseDraws i) = .ok c :=
    fun i hi => (C38_start refreshCaseEnv 2 {1, 2, 3} 7 i (refreshCaseDraws i) (Toy.auxDraws_valid i (by simp at hi; omega))).1 hi
  have : Nonempty (KeyRefresh.Context Nat (ZMod 11) (ZMod 11) Nat) := ⟨(hst 1 (by decide)).choose⟩
  obtain ⟨ctx, hctx⟩ := exists_fun hst
  have hoth : ∀ i ∈ ({1, 2, 3} : Finset Nat), (ctx i).otherIds = ({1, 2, 3} : Finset Nat).erase i := by
    intro i hi
    obtain ⟨-, -, sk, y, -, -, hcc⟩ := KeyRefresh.start_ok (hctx i hi)
    rw [hcc]
    rfl
  have hsid : (ctx 1).sid = 7 := by
    obtain ⟨-, -, sk, y, -, -, hcc⟩ := KeyRefresh.start_ok (hctx 1 (by decide))
    rw [hcc]
    rfl
  have hg := gather_two (part := KeyRefresh.Message.one? (I := Nat) (F := ZMod 11) (G := ZMod 11) (V := Nat × Nat × KeyRefresh.Hashed Nat (ZMod 11))) (recv := KeyRefresh.recv1 (I := Nat) (F := ZMod 11) (V := Nat × Nat × KeyRefresh.Hashed Nat (ZMod 11)))
    (expected := (ctx 1).otherIds) (by rw [hoth 1 (by decide)]; decide) (x := .one (KeyRefresh.msg1 refreshCaseHash (ctx 2))) (y := .one (0, (KeyRefresh.msg1 refreshCaseHash (ctx 3)).2)) rfl rfl rfl rfl
  obtain ⟨n, hn, hstop, hp⟩ := Machine.exists_refusal (P := KeyRefresh.machine refreshCaseEnv refreshCaseHash) (honest := {1, 2}) (init := fun i => .one (ctx i)) (i := 1) (j := 3)
    (a := .fault 3 .r2HashMismatch) (m := .two (KeyRefresh.msg2 (ctx 3)))
    (s := .two (ctx 1) (BMap.tabulate {2, 3} fun k => if k = 2 then KeyRefresh.msg1 refreshCaseHash (ctx 2) else (0, (KeyRefresh.msg1 refreshCaseHash (ctx 3)).2))) (by simp) (Signing.gather_complete hg)
    (fun a ha hj => by
      simp only [List.mem_cons, List.not_mem_nil, or_false] at ha
      rcases ha with rfl | rfl
      · exact ⟨rfl, Signing.in_toAll (by rw [hoth 2 (by decide)]; decide)⟩
      · simp at hj)
    (by simp only [KeyRefresh.machine, hg, Out.bind_ok]) (by simp) (show 3 ∈ (ctx 1).otherIds by rw [hoth 1 (by decide)]; decide)
    (by
      obtain ⟨-, -, sk, y, -, hy, hcc⟩ := KeyRefresh.start_ok (hctx 3 (by decide))
      have hacc := KeyRefresh.hdata_accepted (E := refreshCaseEnv) Toy.auxEnv_valid (d := refreshCaseDraws 3) (Toy.auxDraws_valid 3 (by omega)) 7 3 hy refreshCaseHash
        (BMap.tabulate {3} fun _ => refreshCaseHash 7 3 (KeyRefresh.hdata refreshCaseEnv {1, 2, 3} 7 3 (refreshCaseDraws 3) y).hashed) ((BMap.get?_tabulate ..).trans (by simp))
      unfold KeyRefresh.recv2 at hacc
      obtain ⟨data, hdata, -⟩ := Out.bind_eq_ok.1 hacc
      show (received 3 (KeyRefresh.recv2 refreshCaseEnv refreshCaseHash (ctx 1).sid _ _ 3 (KeyRefresh.msg2 (ctx 3)))).bind _ = _
      have hm : KeyRefresh.msg2 (ctx 3) = (KeyRefresh.hdata refreshCaseEnv {1, 2, 3} 7 3 (refreshCaseDraws 3) y).msg2 := by rw [hcc]; rfl
      rw [hm, hsid]
      unfold KeyRefresh.recv2
      rw [hdata, Out.bind_ok]
      unfold recvGet
      rw [BMap.get?_tabulate]
      simp [refreshCaseHash, received])
  refine ⟨ctx, n, fun i hi => hctx i (by rcases hi with rfl | rfl <;> simp), hn, fun i hi i' hi' x hx x' hx' hr => ?_, hstop⟩
  rw [hp i x hx] at hr
  cases hr

/-- The hypotheses of `C83_resharing` can be met: the old holder 1 is not honest and sends a wrong subshare to the new holder 4. -/
example (draw : Nat → Nat → ZMod 11) : ∃ (r : Nat → KeyResharing.Round1 Nat (ZMod 11) (ZMod 11)) (init : Nat → KeyResharing.State Nat (ZMod 11) (ZMod 11)) (n : Spec.Net Nat _ _ _ _),
    (∀ i ∈ ({2, 4} : Set Nat), (HonestInputs {1, 2} {2, 3, 4} reshareCase (5 : ZMod 11) 2 3 i).newHolders = {2, 3, 4}) ∧
    (∀ i ∈ ({2, 4} : Set Nat), KeyResharing.start (1 : ZMod 11) (HonestInputs {1, 2} {2, 3, 4} reshareCase 5 2 3 i) i (draw i) = .ok (r i)) ∧
    (∀ i ∈ ({2, 4} : Set Nat), KeyResharing.begin (r i) = .ok (init i)) ∧ (KeyResharing.machine (1 : ZMod 11)).Reachable {2, 4} init n ∧
    n.status 4 = .stopped (.fault 1 .subshareMismatch) := by
  obtain ⟨r, hr, -⟩ := C39_honest_resharing 11 (1 : ZMod 11) {1, 2, 3} {1, 2} {2, 3, 4} 2 3 reshareCase 5 reshareCase_sharing (by decide) (by decide) (by decide) (by decide) (by decide) 2 draw
  obtain ⟨init, res, new, h0, -⟩ := C80_key_resharing 11 (1 : ZMod 11) {1, 2, 3} {1, 2} {2, 3, 4} 2 3 reshareCase 5 reshareCase_sharing (by decide) (by decide)
    (by decide) (by decide) (by decide) 2 draw r hr
  have hsub : ∀ i ∈ ({2, 4} : Set Nat), i ∈ ({1, 2} ∪ {2, 3, 4} : Finset Nat) := by rintro i (rfl | rfl) <;> simp
  have h4 : r 4 = ⟨none, some ⟨5, 2, {1, 2}⟩, KeyResharing.newShareIds (ZMod 11) {2, 3, 4}, 3, 4, ∅, {1, 2}⟩ := (Out.ok.inj (hr 4 (by simp))).symm
  have hi4 : (init 4).r = r 4 := by
    have h := h0 4 (by simp)
    unfold KeyResharing.begin at h
    rw [Out.bind_eq_ok] at h
    obtain ⟨out, -, h⟩ := h
    rw [← Out.ok.inj h]
  have hstart : (KeyResharing.machine (1 : ZMod 11)).Reachable {2, 4} init ((KeyResharing.machine (1 : ZMod 11)).start init) := .refl
  have hrec : KeyResharing.recv (1 : ZMod 11) (r 4) 1 ⟨[8, 4, 0], 1, 8⟩ = .err (.protocol .subshareMismatch) := by rw [h4]; decide +kernel
  refine ⟨r, init, _, fun _ _ => rfl, fun i hi => hr i (hsub i hi), fun i hi => h0 i (hsub i hi),
    hstart.refuse (i := 4) (j := 1) (s := init 4) (m := ⟨[8, 4, 0], 1, 8⟩) (a := .fault 1 .subshareMismatch) (by simp) rfl ?_ (fun h => by simp at h) ?_, by simp only [Function.update_self]⟩
  · show 1 ∈ (init 4).r.expectingMessagesFrom
    rw [hi4, h4]
    decide
  · show (received 1 (KeyResharing.recv (1 : ZMod 11) (init 4).r 1 ⟨[8, 4, 0], 1, 8⟩)).bind _ = _
    rw [hi4, hrec]
    rfl

/-- The hypotheses of `C83_signing_partial`, of `C83_signing_error_round_partial` and of `C83_honest_signer_blamed` can be met: of three parties, 3 is not honest, and 2 accuses 1. -/
example : ∃ (infos : Nat → AuxInfo Nat PaillierKey PublicAux) (r1 : Nat → Signing.Round1 11 Nat Nat (ZMod 11)) (init : Nat → Signing.State 11 Nat Nat (ZMod 11)) (n : Spec.Net Nat _ _ _ _),
    UsableAux Toy.signEnv.P Toy.parties infos Toy.ringPedersen ∧
    SigningDrawsValid Toy.signEnv.P Toy.parties (fun i => (infos i).secret.modulus) (fun i => (Toy.ringPedersen i).modulus) Toy.signDraws ∧
    (∀ i ∈ Toy.parties.erase 3, (Toy.signDraws i).gamma ≠ 0) ∧
    (∀ i ∈ Toy.parties.erase 3, ErrorDrawsValid Toy.signEnv (Toy.parties.erase i) (infos i).secret.modulus (fun j => (infos j).secret.modulus) 2 (Toy.signDraws i)) ∧
    (∀ i ∈ Toy.parties.erase 3, Signing.start Toy.signEnv (fun _ _ => 7) (5 : ZMod 11) (Toy.signShares i) (infos i) i (Toy.signDraws i) = .ok (r1 i)) ∧
    (∀ i ∈ Toy.parties.erase 3, Signing.begin Toy.signEnv (r1 i) = .ok (init i)) ∧ (Signing.machine Toy.signEnv).Reachable (Toy.parties.erase 3 : Finset Nat) init n ∧
    (Signing.machine Toy.signEnv).EchoAgree (Toy.parties.erase 3 : Finset Nat) 1 (fun m => m.one?.map Signing.Msg1.echo) n ∧
    (Signing.machine Toy.signEnv).EchoAgree (Toy.parties.erase 3 : Finset Nat) 2 (fun m => m.two?.map Signing.Msg2.echo) n ∧
    (Signing.machine Toy.signEnv).EchoAgree (Toy.parties.erase 3 : Finset Nat) 3 (fun m => m.three?.map Signing.Msg3.delta) n ∧
    n.status 2 = .stopped (.fault 1 (.decFailed false)) := by
  obtain ⟨infos, haux, hmod⟩ := Toy.exists_signInfos
  have hd : SigningDrawsValid Toy.signEnv.P Toy.parties (fun i => (infos i).secret.modulus) (fun i => (Toy.ringPedersen i).modulus) Toy.signDraws := by
    rw [funext hmod]; exact Toy.signDraws_valid
  have hst := C41_honest_start Toy.signEnv Toy.signEnv_setting (fun _ _ => 7) 5 6 Toy.parties Toy.signShares Toy.signShares_valid infos Toy.ringPedersen haux Toy.signDraws
  have : Nonempty (Signing.Round1 11 Nat Nat (ZMod 11)) := ⟨(hst 1 (by decide)).choose⟩
  obtain ⟨r1, hr1⟩ := exists_fun hst
  obtain ⟨init, n, h0, h1, h2, h3, h4, h5⟩ := C83_honest_signer_blamed Toy.signEnv Toy.signEnv_setting (by decide +kernel) (fun _ _ => 7) 5 6
    Toy.parties Toy.signShares Toy.signShares_valid infos Toy.ringPedersen haux Toy.signDraws hd 2 Toy.fewParties
    (fun i _ => by rw [hmod, funext hmod]; exact Toy.errorDraws_valid i) (fun t => by simp [Toy.signEnv]) r1 (fun i hi => (hr1 i hi).2) 3 1 2 (by decide) (by decide) (by decide) (by decide)
    (by decide) (by decide)
  exact ⟨infos, r1, init, n, haux, hd, by decide +kernel, fun i _ => by rw [hmod, funext hmod]; exact Toy.errorDraws_valid i, fun i hi => (hr1 i (Finset.mem_of_mem_erase hi)).2, h0, h1, h2, h3, h4, h5⟩

end Examples

end Synedrion.Props
