import Verif.Lemmas.NetworkPanics
import Verif.Lemmas.NetworkSeize
import Verif.Lemmas.NetworkScriptSigning
import Verif.Props.KeyInit
import Verif.Props.AuxGen
import Verif.Props.KeyRefresh
import Verif.Props.KeyResharingPanics
import Verif.Props.SigningPanics
import Verif.Props.Network

/-!
# C85: panics in executions over the network

Full property: in no execution does an honest party panic. This is false of the code: `C85_..._panic` below. What is proved is that the parties that are not honest have to send a message of one of the
kinds known from `C47`: as long as they do not, no schedule and nothing else they do makes an honest party panic.
-/

set_option linter.unusedSectionVars false

namespace Synedrion.Props

open Spec

section KeyInit

open KeyInit

variable {I F G Sid V : Type} [LinearOrder I] [Field F] [LinearOrder F] [AddCommGroup G] [Module F G] [DecidableEq G] [DecidableEq V]

/-- **C85 (key generation), the part that holds.** At any time of any execution of key generation, with any schedule: if the honest parties have random strings of the same length and the others send
random strings of that length only, no honest party panics. -/
theorem C85_key_init_partial (hashV : Sid → I → PublicData G → V) (H : SchHash G (SchAux I Sid) → F) (g : G) (honest : Set I) (ids : Finset I) (sid : Sid) (d : I → Draws F) (len : Nat)
    (hlen : ∀ i ∈ honest, (d i).rho.length = len) (c : I → Context I F G Sid) (hc : ∀ i ∈ honest, start g ids sid i (d i) = .ok (c i))
    (n : Net I (Message F G V) (State I F G Sid V) Err (KeyShare I F G))
    (h : (machine hashV H g).ReachableWith honest (fun _ j m => j ∉ honest → ∀ m2, m = .two m2 → m2.rho.length = len) (fun i => .one (c i)) n)
    (i : I) (hi : i ∈ honest) : n.status i ≠ .panicked := by
  intro hst
  obtain ⟨in1, in2, in3, hrun, hall⟩ := panics (fine := fun _ m2 => m2.rho.length = len) h (by
    intro j hj i _
    have := hc j hj
    unfold start at this
    split at this
    · cases this
    · rw [← Out.ok.inj this]
      exact hlen j hj) hi hst
  obtain ⟨a, ha, hne⟩ := C47_key_init_partial hashV H g (c i) in1 in2 in3 hrun
  refine hne ((hall a ha).trans ?_)
  have := hc i hi
  unfold start at this
  split at this
  · cases this
  · rw [← Out.ok.inj this]
    exact (hlen i hi).symm

/-- **C85 is false of key generation.** Any party that is not honest can make any honest party panic: there is an execution, in which all honest parties do what they should, that leads to this. -/
theorem C85_key_init_panic (hashV : Sid → I → PublicData G → V) (H : SchHash G (SchAux I Sid) → F) (g : G) (honest ids : Finset I) (sid : Sid) (d : I → Draws F)
    (c : I → Context I F G Sid) (hc : ∀ i ∈ honest, start g ids sid i (d i) = .ok (c i)) (i : I) (hi : i ∈ honest) (bad : I) (hbad : bad ∈ ids) (hnot : bad ∉ honest) :
    ∃ n : Net I (Message F G V) (State I F G Sid V) Err (KeyShare I F G), (machine hashV H g).Reachable (honest : Set I) (fun i => .one (c i)) n ∧ n.status i = .panicked := by
  have hcc : ∀ j ∈ honest, j ∈ ids ∧ (c j).otherIds = ids.erase j ∧ (c j).sid = sid ∧ (c j).myId = j ∧ (c j).data.rho = (d j).rho := by
    intro j hj
    have := hc j hj
    unfold start at this
    split at this
    · cases this
    · rename_i hm
      rw [← Out.ok.inj this]
      exact ⟨by simpa using hm, rfl, rfl, rfl, rfl⟩
  let v : I → V := fun j => if j ∈ honest then msg1 hashV (c j) else hashV sid j ⟨0, 0, true :: (d i).rho, []⟩
  let w : I → Msg2 G := fun j => if j ∈ honest then msg2 (c j) else ⟨true :: (d i).rho, 0, 0, []⟩
  let got1 : I → List (I × Message F G V) := fun k => (bsetIter (c k).otherIds).map fun j => (j, .one (v j))
  have g1 : ∀ k, gather (c k).otherIds Message.one? (recv1 : I → V → Out (RecvErr Err) V) (got1 k) = .ok (BMap.tabulate (c k).otherIds v) :=
    fun k => gather_all fun j _ => ⟨v j, rfl, rfl⟩
  let r2 : I → Round2 I F G Sid V := fun k => ⟨c k, BMap.tabulate (c k).otherIds v⟩
  have script : Machine.Script (machine hashV H g) honest (fun i => .one (c i)) 1 (fun k j => if k = 0 then .one (c j) else .two (r2 j)) (fun _ j => got1 j) := by
    refine ⟨fun _ _ => rfl, fun k hk j hj => ?_, fun k hk j hj => ?_, fun k hk j hj a ha haj => ?_⟩
    all_goals obtain rfl : k = 0 := by omega
    · exact Signing.gather_complete (g1 j)
    · show (gather (c j).otherIds Message.one? recv1 (got1 j)).bind _ = _
      rw [g1 j]; rfl
    · obtain ⟨l, hl, rfl⟩ := List.mem_map.1 ha
      have hl := mem_bsetIter.1 hl
      rw [(hcc j hj).2.1, Finset.mem_erase] at hl
      refine ⟨rfl, ?_⟩
      show (j, Message.one (v l)) ∈ toAll (c l).otherIds (.one (msg1 hashV (c l)))
      simp only [v, if_pos haj]
      exact Signing.in_toAll (by rw [(hcc l haj).2.1]; exact Finset.mem_erase.2 ⟨hl.1.symm, (hcc j hj).1⟩)
  obtain ⟨n, hn, hs⟩ := script.exists 1 le_rfl
  have g2 : gather (c i).otherIds Message.two? (recv2 hashV (r2 i)) ((bsetIter (c i).otherIds).map fun j => (j, (Message.two (w j) : Message F G V))) =
      .ok (BMap.tabulate (c i).otherIds fun j => ⟨(w j).capX, (w j).capA, (w j).rho⟩) := by
    refine gather_all fun j hj => ⟨w j, rfl, ?_⟩
    unfold recv2
    simp only [recvGet, r2, BMap.get?_tabulate, if_pos hj, Out.ofOption_some, Out.bind_ok]
    rw [if_neg]
    rw [not_not]
    by_cases hjh : j ∈ honest
    · obtain ⟨-, -, h3, h4, -⟩ := hcc j hjh
      simp only [v, w, if_pos hjh, msg1, msg2, h3, h4, (hcc i hi).2.2.1]
    · simp only [v, w, if_neg hjh, (hcc i hi).2.2.1]
  have hfst : (((bsetIter (c i).otherIds).map fun j => (j, (Message.two (w j) : Message F G V))).map Prod.fst).Nodup := (gather_eq_ok.1 g2).1
  refine hn.seize_all (Finset.mem_coe.2 hi) (s := .two (r2 i)) (hs i hi).1 hfst (gather_eq_ok.1 g2).2.1 (fun a ha haj => ?_) (Or.inr ⟨gather_accepts g2, ?_⟩)
  · obtain ⟨l, hl, rfl⟩ := List.mem_map.1 ha
    have hl := mem_bsetIter.1 hl
    rw [(hcc i hi).2.1, Finset.mem_erase] at hl
    refine ⟨.two (r2 l), (hs l haj).2.1 1 le_rfl, rfl, ?_⟩
    show (i, Message.two (w l)) ∈ toAll (c l).otherIds (.two (msg2 (c l)))
    simp only [w, if_pos (Finset.mem_coe.1 haj)]
    exact Signing.in_toAll (by rw [(hcc l haj).2.1]; exact Finset.mem_erase.2 ⟨hl.1.symm, (hcc i hi).1⟩)
  · show (gather (c i).otherIds Message.two? (recv2 hashV (r2 i)) _).bind _ = _
    rw [g2, Out.bind_ok]
    unfold finalize2
    rw [xorAll_eq_panic.2]
    · rfl
    · refine ⟨true :: (d i).rho, List.mem_map.2 ⟨⟨0, 0, true :: (d i).rho⟩, ?_, rfl⟩, ?_⟩
      · rw [BMap.values_tabulate]
        refine List.mem_map.2 ⟨bad, mem_bsetIter.2 ?_, ?_⟩
        · rw [(hcc i hi).2.1]
          exact Finset.mem_erase.2 ⟨fun h => hnot (h ▸ hi), hbad⟩
        · simp only [w, if_neg hnot]
      · show (true :: (d i).rho).length ≠ (c i).data.rho.length
        rw [(hcc i hi).2.2.2.2]
        simp

end KeyInit

section AuxGen

open AuxGen

variable {I Sid V : Type} [LinearOrder I] [DecidableEq V]

/-- **C85 (auxiliary info), the part that holds.** At any time of any execution, with any schedule: if the honest parties make valid draws and the round 2 messages and factoring proofs of the others are
harmless (and the masks drawn for a factoring proof towards them have the sizes the code draws them with), no honest party panics. -/
theorem C85_aux_gen_partial (E : AuxEnv I Sid) (k : Nat) (hE : HashesValid E k) (hashV : Sid → I → Hashed → V) (honest : Set I) (ids : Finset I) (sid : Sid) (d : I → AuxDraws I)
    (hd : ∀ i ∈ honest, DrawsValid E k (d i)) (len : Nat) (hlen : ∀ i ∈ honest, (d i).rid.length = len)
    (hfac : ∀ i ∈ honest, ∀ j ∈ honest, i ≠ j → FacMasksValid E.P ((d i).p * (d i).q) ((d j).rpP * (d j).rpQ) ((d i).facMasks j))
    (c : I → Context I Sid) (hc : ∀ i ∈ honest, start E ids sid i (d i) = .ok (c i))
    (n : Net I (Message V) (State I Sid V) (Err I) (AuxInfo I PaillierKey PublicAux))
    (h : (machine E hashV).ReachableWith honest (fun i j m => j ∉ honest →
      (∀ m2, m = .two m2 → HarmlessAux E.P.modBits len m2.pk m2.echo.rp m2.echo.rid ∧ FacMasksValid E.P ((d i).p * (d i).q) m2.echo.rp.modulus ((d i).facMasks j)) ∧
      ∀ m3, m = .three m3 → HarmlessFac ((d i).rpP * (d i).rpQ) m3.psi) (fun i => .one (c i)) n)
    (i : I) (hi : i ∈ honest) : n.status i ≠ .panicked := by
  intro hst
  obtain ⟨in1, in2, in3, hrun, hall2, hall3⟩ := panics
    (fine2 := fun i j m2 => HarmlessAux E.P.modBits len m2.pk m2.echo.rp m2.echo.rid ∧ FacMasksValid E.P ((d i).p * (d i).q) m2.echo.rp.modulus ((d i).facMasks j))
    (fine3 := fun i m3 => HarmlessFac ((d i).rpP * (d i).rpQ) m3.psi) h
    (by
      intro j hj i hi hin
      obtain ⟨-, hodd, sk, -, hcc⟩ := start_ok (hc j hj)
      rw [hcc] at hin ⊢
      refine ⟨?_, hfac i hi j hj (Finset.ne_of_mem_erase hin)⟩
      have := hdata_harmless hE (hd j hj) hodd (rid := (d j).rid)
      rwa [hlen j hj] at this)
    (by
      intro j hj i hi in1 in2 r3 m h3 ho hm
      obtain ⟨hmi, hoddi, ski, -, hcci⟩ := start_ok (hc i hi)
      obtain ⟨-, -, sk, -, hcc⟩ := start_ok (hc j hj)
      obtain ⟨-, -, ex, -, hown, -, hget, -⟩ := toRound3_ok (by rw [hcc]; simp) h3
      unfold msg3 at hm
      simp only [Out.bind_eq_ok] at hm
      obtain ⟨pl, hpl, psi, hpsi, he⟩ := hm
      have hmod : pl.rp.modulus = (d i).rpP * (d i).rpQ := by
        have hpl' : r3.payloads.get? i = some pl := Out.ofOption_eq_ok.1 hpl
        by_cases hij : i = j
        · subst hij
          rw [hcc] at hown
          rw [show _ = some pl from hpl'] at hown
          rw [Option.some.inj hown]
          rfl
        · have hin : i ∈ in2.map Prod.fst := by
            rw [← List.mem_toFinset, ex, hcc]
            exact Finset.mem_erase.2 ⟨hij, hmi⟩
          obtain ⟨⟨_, m2⟩, hm2, rfl⟩ := List.mem_map.1 hin
          rw [(hget _ _ hm2).1] at hpl'
          rw [← Option.some.inj hpl', ho _ hm2, hcci]
          rfl
      rw [← Out.ok.inj he, ← hmod]
      exact makeFac_harmless (by rw [hmod]; intro h; rw [h] at hoddi; cases hoddi) hpsi)
    (by
      intro i hi j m capVs hf hp
      unfold recv2 recvGet at hp
      cases ho : (m.open : Out (RecvErr (Err I)) PublicData) with
      | err e => exact Msg2.open_ne_err ho
      | panic =>
        have := Msg2.open_eq_panic.1 ho
        have := hf.1.odd
        have := hf.1.rpOdd
        omega
      | ok data =>
        rw [ho, Out.bind_ok] at hp
        cases hg : capVs.get? j with
        | none => simp [hg] at hp
        | some v =>
          rw [hg, Out.ofOption_some, Out.bind_ok] at hp
          repeat' split at hp
          all_goals simp at hp) hi hst
  rcases C47_aux_gen_partial E k hE hashV ids sid i (d i) (hd i hi) (c i) (hc i hi) in1 in2 in3 (fun a ha => (hall2 a ha).2) hrun with ⟨a, ha, hx⟩ | ⟨a, ha, hx⟩
  · obtain ⟨h1, h2, h3, h4, h5, h6, h7⟩ := (hall2 a ha).1
    rw [hlen i hi] at hx
    rcases hx with hx | hx | hx | hx | hx | hx | hx
    · omega
    · omega
    · omega
    · omega
    · exact hx h5
    · exact hx h6
    · exact hx h7
  · exact hx.elim (fun hx => hx (hall3 a ha).1) (fun hx => hx (hall3 a ha).2)

/-- **C85 is false of the generation of auxiliary info.** Any party that is not honest can make any honest party panic: there is an execution, in which all honest parties do what they should, that leads to this,
with any round 2 message that has an even modulus. -/
theorem C85_aux_gen_panic (E : AuxEnv I Sid) (hashV : Sid → I → Hashed → V) (honest : Set I) (ids : Finset I) (sid : Sid) (d : I → AuxDraws I)
    (c : I → Context I Sid) (hc : ∀ i ∈ honest, start E ids sid i (d i) = .ok (c i)) (i : I) (hi : i ∈ honest) (bad : I) (hbad : bad ∈ ids) (hnot : bad ∉ honest) (m : Msg2)
    (heven : m.pk % 2 = 0 ∨ m.echo.rp.modulus % 2 = 0) :
    ∃ n : Net I (Message V) (State I Sid V) (Err I) (AuxInfo I PaillierKey PublicAux), (machine E hashV).Reachable honest (fun i => .one (c i)) n ∧ n.status i = .panicked := by
  have hcc : ∀ j ∈ honest, j ∈ ids ∧ (c j).otherIds = ids.erase j := by
    intro j hj
    obtain ⟨hmem, -, sk, -, hcc⟩ := start_ok (hc j hj)
    rw [hcc]
    exact ⟨hmem, rfl⟩
  have g1 : gather (c i).otherIds Message.one? (recv1 : I → V → Out (RecvErr (Err I)) V) ((bsetIter (c i).otherIds).map fun j => (j, .one (msg1 hashV (c j)))) =
      .ok (BMap.tabulate (c i).otherIds fun j => msg1 hashV (c j)) := gather_all fun j _ => ⟨_, rfl, rfl⟩
  refine Machine.exists_panic (P := machine E hashV) (init := fun i => .one (c i)) (j := bad) (m := .two m)
    (s := .two (c i) (BMap.tabulate (c i).otherIds fun j => msg1 hashV (c j))) hi (Signing.gather_complete g1) (fun a ha haj => ?_) ?_ hnot ?_ ?_
  · obtain ⟨l, hl, rfl⟩ := List.mem_map.1 ha
    have hl := mem_bsetIter.1 hl
    rw [(hcc i hi).2, Finset.mem_erase] at hl
    exact ⟨rfl, Signing.in_toAll (by rw [(hcc l haj).2]; exact Finset.mem_erase.2 ⟨hl.1.symm, (hcc i hi).1⟩)⟩
  · show (gather (c i).otherIds Message.one? recv1 _).bind _ = _
    rw [g1]; rfl
  · show bad ∈ (c i).otherIds
    rw [(hcc i hi).2]
    exact Finset.mem_erase.2 ⟨fun h => hnot (h ▸ hi), hbad⟩
  · show (received bad (recv2 E hashV (c i).sid _ bad m)).bind _ = _
    unfold recv2
    rw [Msg2.open_eq_panic.2 heven]
    rfl

end AuxGen

section KeyRefresh

open KeyRefresh

variable {I F G Sid V : Type} [LinearOrder I] [Field F] [LinearOrder F] [AddCommGroup G] [Module F G] [DecidableEq G] [DecidableEq V]

/-- **C85 (key refresh), the part that holds.** At any time of any execution, with any schedule: if the honest parties make valid draws and the round 2 messages and factoring proofs of the others are
harmless (and the masks drawn for a factoring proof towards them have the sizes the code draws them with), no honest party panics. -/
theorem C85_key_refresh_partial (E : Env I Sid F G) (k : Nat) (hE : HashesValid E.aux k) (hashV : Sid → I → Hashed I G → V) (honest : Set I) (ids : Finset I) (sid : Sid) (d : I → Draws I F)
    (hd : ∀ i ∈ honest, DrawsValid E.aux k (d i).aux) (len : Nat) (hlen : ∀ i ∈ honest, (d i).aux.rid.length = len)
    (hfac : ∀ i ∈ honest, ∀ j ∈ honest, i ≠ j → FacMasksValid E.aux.P ((d i).aux.p * (d i).aux.q) ((d j).aux.rpP * (d j).aux.rpQ) ((d i).aux.facMasks j))
    (c : I → Context I F G Sid) (hc : ∀ i ∈ honest, start E ids sid i (d i) = .ok (c i))
    (n : Net I (Message I F G V) (State I F G Sid V) (Err I F) (KeyShareChange I F G × AuxInfo I PaillierKey PublicAux))
    (h : (machine E hashV).ReachableWith honest (fun i j m => j ∉ honest →
      (∀ m2, m = .two m2 → HarmlessAux E.aux.P.modBits len m2.pk m2.echo.rp m2.echo.rid ∧ FacMasksValid E.aux.P ((d i).aux.p * (d i).aux.q) m2.echo.rp.modulus ((d i).aux.facMasks j)) ∧
      ∀ m3, m = .three m3 → HarmlessFac ((d i).aux.rpP * (d i).aux.rpQ) m3.psi) (fun i => .one (c i)) n)
    (i : I) (hi : i ∈ honest) : n.status i ≠ .panicked := by
  intro hst
  obtain ⟨in1, in2, in3, hrun, hall2, hall3⟩ := panics
    (fine2 := fun i j m2 => HarmlessAux E.aux.P.modBits len m2.pk m2.echo.rp m2.echo.rid ∧ FacMasksValid E.aux.P ((d i).aux.p * (d i).aux.q) m2.echo.rp.modulus ((d i).aux.facMasks j))
    (fine3 := fun i m3 => HarmlessFac ((d i).aux.rpP * (d i).aux.rpQ) m3.psi) h
    (by
      intro j hj i hi hin
      obtain ⟨-, hodd, sk, x, -, -, hcc⟩ := start_ok (hc j hj)
      rw [hcc] at hin ⊢
      refine ⟨?_, hfac i hi j hj (Finset.ne_of_mem_erase hin)⟩
      have := hdata_harmless hE (hd j hj) hodd (rid := (d j).aux.rid)
      rwa [hlen j hj] at this)
    (by
      intro j hj i hi in1 in2 r3 m h3 ho hm
      obtain ⟨hmi, hoddi, ski, xi, -, -, hcci⟩ := start_ok (hc i hi)
      obtain ⟨hmj, -, sk, x, -, -, hcc⟩ := start_ok (hc j hj)
      rw [hcc] at h3
      obtain ⟨rid, psiP, pls, rfl, -, ex, hown, hget, -⟩ := toRound3_ok hmj h3
      unfold msg3 at hm
      simp only [Out.bind_eq_ok] at hm
      obtain ⟨pl, hpl, psi, hpsi, _, -, _, -, _, -, he⟩ := hm
      have hmod : pl.base.rp.modulus = (d i).aux.rpP * (d i).aux.rpQ := by
        have hpl' : (BMap.tabulate ids pls).get? i = some pl := Out.ofOption_eq_ok.1 hpl
        rw [BMap.get?_tabulate, if_pos hmi] at hpl'
        rw [← Option.some.inj hpl']
        by_cases hij : i = j
        · subst hij
          rw [hown]
          rfl
        · have hin : i ∈ in2.map Prod.fst := by
            rw [← List.mem_toFinset, ex]
            exact Finset.mem_erase.2 ⟨hij, hmi⟩
          obtain ⟨⟨_, m2⟩, hm2, rfl⟩ := List.mem_map.1 hin
          rw [(hget _ _ hm2).1, ho _ hm2, hcci]
          rfl
      rw [← Out.ok.inj he, ← hmod]
      exact makeFac_harmless (by rw [hmod]; intro h; rw [h] at hoddi; cases hoddi) hpsi)
    (by
      intro i hi j m capVs hf hp
      unfold recv2 recvGet at hp
      have := hf.1.odd
      have := hf.1.rpOdd
      rw [open_of_odd (by omega) (by omega), Out.bind_ok] at hp
      cases hg : capVs.get? j with
      | none => simp [hg] at hp
      | some v =>
        rw [hg, Out.ofOption_some, Out.bind_ok] at hp
        repeat' split at hp
        all_goals simp at hp) hi hst
  rcases C47_refresh_partial E k hE hashV ids sid i (d i) (hd i hi) (c i) (hc i hi) in1 in2 in3 (fun a ha => (hall2 a ha).2) hrun with ⟨a, ha, hx⟩ | ⟨a, ha, hx⟩
  · obtain ⟨h1, h2, h3, h4, h5, h6, h7⟩ := (hall2 a ha).1
    rw [hlen i hi] at hx
    rcases hx with hx | hx | hx | hx | hx | hx | hx
    · omega
    · omega
    · omega
    · omega
    · exact hx h5
    · exact hx h6
    · exact hx h7
  · exact hx.elim (fun hx => hx (hall3 a ha).1) (fun hx => hx (hall3 a ha).2)

/-- **C85 is false of key refresh.** Any party that is not honest can make any honest party panic: there is an execution, in which all honest parties do what they should, that leads to this,
with any round 2 message that has an even modulus. -/
theorem C85_key_refresh_panic (E : Env I Sid F G) (hashV : Sid → I → Hashed I G → V) (honest : Set I) (ids : Finset I) (sid : Sid) (d : I → Draws I F)
    (c : I → Context I F G Sid) (hc : ∀ i ∈ honest, start E ids sid i (d i) = .ok (c i)) (i : I) (hi : i ∈ honest) (bad : I) (hbad : bad ∈ ids) (hnot : bad ∉ honest) (m : Msg2 I G)
    (heven : m.pk % 2 = 0 ∨ m.echo.rp.modulus % 2 = 0) :
    ∃ n : Net I (Message I F G V) (State I F G Sid V) (Err I F) (KeyShareChange I F G × AuxInfo I PaillierKey PublicAux), (machine E hashV).Reachable honest (fun i => .one (c i)) n ∧ n.status i = .panicked := by
  have hcc : ∀ j ∈ honest, j ∈ ids ∧ (c j).otherIds = ids.erase j := by
    intro j hj
    obtain ⟨hmem, -, sk, x, -, -, hcc⟩ := start_ok (hc j hj)
    rw [hcc]
    exact ⟨hmem, rfl⟩
  have g1 : gather (c i).otherIds (Message.one? (I := I) (F := F) (G := G)) (recv1 : I → V → Out (RecvErr (Err I F)) V) ((bsetIter (c i).otherIds).map fun j => (j, .one (msg1 hashV (c j)))) =
      .ok (BMap.tabulate (c i).otherIds fun j => msg1 hashV (c j)) := gather_all fun j _ => ⟨_, rfl, rfl⟩
  refine Machine.exists_panic (P := machine E hashV) (init := fun i => .one (c i)) (j := bad) (m := .two m)
    (s := .two (c i) (BMap.tabulate (c i).otherIds fun j => msg1 hashV (c j))) hi (Signing.gather_complete g1) (fun a ha haj => ?_) ?_ hnot ?_ ?_
  · obtain ⟨l, hl, rfl⟩ := List.mem_map.1 ha
    have hl := mem_bsetIter.1 hl
    rw [(hcc i hi).2, Finset.mem_erase] at hl
    exact ⟨rfl, Signing.in_toAll (by rw [(hcc l haj).2]; exact Finset.mem_erase.2 ⟨hl.1.symm, (hcc i hi).1⟩)⟩
  · show (gather (c i).otherIds Message.one? recv1 _).bind _ = _
    rw [g1]; rfl
  · show bad ∈ (c i).otherIds
    rw [(hcc i hi).2]
    exact Finset.mem_erase.2 ⟨fun h => hnot (h ▸ hi), hbad⟩
  · show (received bad (recv2 E hashV (c i).sid (c i).allIds _ bad m)).bind _ = _
    unfold recv2
    rw [open_of_even heven]
    rfl

end KeyRefresh

section KeyResharing

open KeyResharing

variable {I F G : Type} [LinearOrder I] [Field F] [LinearOrder F] [AddCommGroup G] [Module F G] [DecidableEq G]

/-- **C85 (resharing), the part that holds.** At any time of any execution of resharing, with any schedule: if the new threshold of the honest old holders is at least two and the other parties send public
polynomials with at least two coefficients, an honest party has panicked only if it is a new holder, has accepted all the messages it was waiting for, and the constant terms in them do not interpolate to
the verifying key it was told to expect. -/
theorem C85_resharing_partial (g : G) (honest : Set I) (inp : I → Inputs I F G) (draw : I → Nat → F) (hthr : ∀ i ∈ honest, (inp i).oldHolder.isSome → 1 < (inp i).newThreshold)
    (r : I → Round1 I F G) (hs : ∀ i ∈ honest, start g (inp i) i (draw i) = .ok (r i)) (init : I → State I F G) (hinit : ∀ i ∈ honest, begin (r i) = .ok (init i))
    (n : Net I (Msg F G) (State I F G) Err (Option (ThresholdKeyShare I F G)))
    (h : (machine g).ReachableWith honest (fun _ j m => j ∉ honest → 1 < m.publicPolynomial.length) init n)
    (i : I) (hi : i ∈ honest) (hst : n.status i = .panicked) :
    ∃ got, n.past i = [(init i, got)] ∧ (∀ a ∈ got, recv g (r i) a.1 a.2 = .ok a.2) ∧ ∃ (nh : NewHolder I G) (P : BMap I (Msg F G)) (v : G), (inp i).newHolder = some nh ∧
      (∀ j p, P.get? j = some p → Props.Saw (r i) got j p.publicPolynomial p.oldShareId) ∧ vkeySum P = .ok v ∧ v ≠ nh.verifyingKey := by
  obtain ⟨got, hpast, hrun, hlen⟩ := panics hinit h (by
    intro j hj i m hm
    unfold msg at hm
    cases ho : (inp j).oldHolder with
    | none => rw [(resharing_start_ok (hs j hj)).2.2.2.2.2.1 ho] at hm; cases hm
    | some ks =>
      obtain ⟨s, hso⟩ := (resharing_start_ok (hs j hj)).2.2.2.2.2.2 ks ho
      have := hthr j hj (by rw [ho]; rfl)
      rw [hso] at hm
      simp only [Out.bind_eq_ok] at hm
      obtain ⟨_, -, _, -, hm⟩ := hm
      rw [← Option.some.inj (Out.ok.inj hm)]
      simp [Shamir.publicPolynomial, Shamir.randomPolynomial]
      omega) hi hst
  rcases C47_resharing_partial g (inp i) i (draw i) (r i) (hs i hi) got hrun with ⟨a, ha, hx⟩ | ⟨ho, hx⟩ | ⟨hall, hx⟩
  · have := hlen a ha
    omega
  · have := hthr i hi ho
    omega
  · exact ⟨got, hpast, hall, hx⟩

/-- **C85 is false of resharing.** Any old holder that is not honest can make any honest new holder panic, with any public polynomial of at most one coefficient. -/
theorem C85_resharing_panic (g : G) (honest : Set I) (inp : I → Inputs I F G) (draw : I → Nat → F) (r : I → Round1 I F G) (hs : ∀ i ∈ honest, start g (inp i) i (draw i) = .ok (r i))
    (init : I → State I F G) (hinit : ∀ i ∈ honest, begin (r i) = .ok (init i)) (i : I) (hi : i ∈ honest) (nh : NewHolder I G) (hnh : (inp i).newHolder = some nh)
    (hmem : i ∈ (inp i).newHolders) (bad : I) (hbad : bad ∈ nh.oldHolders) (hnot : bad ∉ honest) (m : Msg F G) (hshort : m.publicPolynomial.length ≤ 1) :
    ∃ n : Net I (Msg F G) (State I F G) Err (Option (ThresholdKeyShare I F G)), (machine g).Reachable honest init n ∧ n.status i = .panicked := by
  have hir : (init i).r = r i := by
    have h := hinit i hi
    unfold begin at h
    rw [Out.bind_eq_ok] at h
    obtain ⟨out, -, h⟩ := h
    rw [← Out.ok.inj h]
  obtain ⟨e1, e2, -, e4, e5, -⟩ := resharing_start_ok (hs i hi)
  have h0 : (machine g).Reachable honest init ((machine g).start init) := .refl
  refine ⟨_, h0.seize hi (j := bad) (s := init i) (m := m) rfl ?_ (fun h => absurd h hnot) ?_, by simp only [Function.update_self]⟩
  · show bad ∈ (init i).r.expectingMessagesFrom
    rw [hir, e5 nh hnh]
    exact Finset.mem_erase.2 ⟨fun h => hnot (h ▸ hi), hbad⟩
  · show (received bad (recv g (init i).r bad m)).bind _ = _
    obtain ⟨sid, hsid, -⟩ := newShareIds_tabulate (F := F) (inp i).newHolders
    unfold recv
    rw [hir, e1, hnh]
    simp only
    rw [if_pos hbad, e2, e4, hsid, recvGet, BMap.get?_tabulate, if_pos hmem, Out.ofOption_some, Out.bind_ok, Shamir.publicEvaluate, Shamir.evaluatePolynomial_panic hshort]
    rfl

end KeyResharing

section Signing

open Signing

variable {q : Nat} [Fact q.Prime] {I Ep G : Type} [LinearOrder I] [AddCommGroup G] [Module (ZMod q) G] [DecidableEq G]

/-- **C85 (signing), the part that holds.** At any time of any execution of signing, with any schedule: if the honest parties make valid draws and the ciphertexts `K` (round 1) and `F` (round 2) that the
other parties send are invertible, no honest party panics, also not in the rounds about a failure. That a point cannot be serialized is not seen here, see `C58_signing_identity_panics`. -/
theorem C85_signing_partial (E : Env q I Ep G) (hE : SigningSetting E) (epidOf : BMap I G → BMap I PublicAux → Ep) (message sk : ZMod q) (ids : Finset I)
    (shares : I → KeyShare I (ZMod q) G) (hshares : SharesKey E.C.g ids shares sk) (infos : I → AuxInfo I PaillierKey PublicAux) (setup : I → RPSetup)
    (haux : UsableAux E.P ids infos setup) (d : I → Draws q I)
    (hd : SigningDrawsValid E.P ids (fun i => (infos i).secret.modulus) (fun i => (setup i).modulus) d) (c : Nat) (hfew : FewParties E.P ids.card c)
    (honest : Set I) (hsub : honest ⊆ (ids : Set I))
    (hderr : ∀ i ∈ honest, ErrorDrawsValid E (ids.erase i) (infos i).secret.modulus (fun j => (infos j).secret.modulus) c (d i))
    (r : I → Round1 q I Ep G) (hs : ∀ i ∈ honest, start E epidOf message (shares i) (infos i) i (d i) = .ok (r i))
    (init : I → State q I Ep G) (hinit : ∀ i ∈ honest, begin E (r i) = .ok (init i))
    (n : Net I (Message q I G) (State q I Ep G) (Err I) (RecoverableSignature q))
    (h : (machine E).ReachableWith honest (fun _ j m => j ∉ honest → (∀ m1, m = .one m1 → Nat.Coprime m1.echo.capK (infos j).secret.modulus) ∧
      ∀ m2, m = .two m2 → ∀ id w, m2.echo.capFs.get? id = some w ∨ m2.echo.hatCapFs.get? id = some w → Nat.Coprime w (infos j).secret.modulus) init n)
    (i : I) (hi : i ∈ honest) : n.status i ≠ .panicked := by
  intro hst
  obtain ⟨S, hS⟩ : ∃ S, S = Signing.honest E epidOf message ids shares infos setup d := ⟨_, rfl⟩
  have good : S.Good sk := hS ▸ honest_good E hE epidOf message sk ids shares hshares infos setup haux d hd
  have hids : S.ids = ids := by rw [hS]; rfl
  have hSE : S.E = E := by rw [hS]; rfl
  have hN : ∀ i, S.N i = (infos i).secret.modulus := fun i => by rw [hS]; rfl
  have hr : ∀ j ∈ honest, r j = S.r1 j := by
    intro j hj
    have := honest_start E hE epidOf message sk ids shares hshares infos setup haux d (hsub hj)
    rw [hs j hj] at this
    rw [hS]; exact Out.ok.inj this
  have hmem : ∀ j ∈ honest, j ∈ S.ids := fun j hj => hids ▸ hsub hj
  obtain ⟨in1, in2, in3, in4, inErr, hrun, h1, h2⟩ := panics (fine1 := fun j m1 => Nat.Coprime m1.echo.capK (infos j).secret.modulus)
    (fine2 := fun j m2 => ∀ id w, m2.echo.capFs.get? id = some w ∨ m2.echo.hatCapFs.get? id = some w → Nat.Coprime w (infos j).secret.modulus) hinit h
    (fun m => { m with echo := { m.echo with capK := 1 } }) (fun _ _ => Nat.coprime_one_left _)
    (fun m => { m with echo := { m.echo with capFs := BMap.tabulate ∅ fun _ => 1, hatCapFs := BMap.tabulate ∅ fun _ => 1 } })
    (fun j m id w hw => by
      simp only [BMap.get?_tabulate] at hw
      simp at hw)
    (fun j hj i m hm => by
      rw [msg1_echo hm, hr j hj, ← hN]
      exact good.capK_coprime (hmem j hj))
    (fun j hj in1 r2 h2 id w hw => by
      rw [hr j hj, ← hSE] at h2
      rw [← hN]
      exact good.capFs_coprime (hmem j hj) h2 hw) hi hst
  rcases C47_signing_partial E hE epidOf message sk ids shares hshares infos setup haux d hd i (hsub hi) (r i) (hs i hi) in1 in2 in3 in4 inErr (fun _ _ => ⟨c, hfew, hderr i hi⟩) hrun with
    ⟨a, ha, hx⟩ | ⟨a, ha, id, w, hw, hx⟩
  · exact hx (h1 a ha)
  · exact hx (h2 a ha id w hw)

/-- **C85 is false of signing.** Any signer that is not honest can make any honest signer with a non-zero `gamma` panic, in an execution in which all other signers send what they should. -/
theorem C85_signing_panic (E : Env q I Ep G) (hE : SigningSetting E) (epidOf : BMap I G → BMap I PublicAux → Ep) (message sk : ZMod q) (ids : Finset I)
    (shares : I → KeyShare I (ZMod q) G) (hshares : SharesKey E.C.g ids shares sk) (infos : I → AuxInfo I PaillierKey PublicAux) (setup : I → RPSetup)
    (haux : UsableAux E.P ids infos setup) (d : I → Draws q I)
    (hd : SigningDrawsValid E.P ids (fun i => (infos i).secret.modulus) (fun i => (setup i).modulus) d) (honest : Set I) (hsub : honest ⊆ (ids : Set I))
    (r : I → Round1 q I Ep G) (hs : ∀ i ∈ honest, start E epidOf message (shares i) (infos i) i (d i) = .ok (r i))
    (init : I → State q I Ep G) (hinit : ∀ i ∈ honest, begin E (r i) = .ok (init i)) (i : I) (hi : i ∈ honest) (hgamma : (d i).gamma ≠ 0) (bad : I) (hbad : bad ∈ ids) (hnot : bad ∉ honest) :
    ∃ n : Net I (Message q I G) (State q I Ep G) (Err I) (RecoverableSignature q), (machine E).Reachable honest init n ∧ n.status i = .panicked := by
  obtain ⟨S, hS⟩ : ∃ S, S = Signing.honest E epidOf message ids shares infos setup d := ⟨_, rfl⟩
  have good : S.Good sk := hS ▸ honest_good E hE epidOf message sk ids shares hshares infos setup haux d hd
  have hids : S.ids = ids := by rw [hS]; rfl
  have hSE : S.E = E := by rw [hS]; rfl
  have hN : ∀ i, S.N i = (infos i).secret.modulus := fun i => by rw [hS]; rfl
  have hr : ∀ j ∈ honest, r j = S.r1 j := by
    intro j hj
    have := honest_start E hE epidOf message sk ids shares hshares infos setup haux d (hsub hj)
    rw [hs j hj] at this
    rw [hS]; exact Out.ok.inj this
  have hin : ∀ j ∈ honest, ∃ out, init j = .one (r j) out ∧ send1 E (r j) = .ok out := by
    intro j hj
    have := hinit j hj
    unfold begin at this
    rw [Out.bind_eq_ok] at this
    obtain ⟨out, ho, he⟩ := this
    exact ⟨out, (Out.ok.inj he).symm, ho⟩
  have hii : i ∈ ids := hsub hi
  have hbi : bad ≠ i := fun h => hnot (h ▸ hi)
  have hoth : ∀ j ∈ honest, (r j).ctx.otherIds = ids.erase j := by
    intro j hj
    rw [(start_eq_ok (hs j hj)).2.2.2.2.2.2.1, hshares.holders j (hsub hj)]
  have hks : (shares i).pub.keySet = ids := hshares.holders i hii
  obtain ⟨m, -, hall⟩ := C47_signing_zero_ciphertext E hE epidOf message (shares i) (infos i) i (d i) (by
      unfold Signing.new
      rw [if_neg (by rw [hshares.owner i hii, haux.consistent.owner i hii]; simp), if_neg (by rw [haux.consistent.holders i hii, hks]; simp)])
    (r i) (hs i hi) (hks ▸ hii) hgamma bad (hks ▸ hbad) hbi (fun a ha => by
      rw [haux.consistent.public_agree i hii bad hbad] at ha
      cases ha
      have hp := (haux.primes bad hbad).primes
      show 1 < (infos bad).secret.p * (infos bad).secret.q
      exact Nat.one_lt_mul_iff.2 ⟨hp.prime_p.pos, hp.prime_q.pos, Or.inl hp.prime_p.one_lt⟩)
  have hm1 : ∀ j, ∃ m : Msg1 q G, j ∈ ids → j ≠ i → S.Sent1 j i m := by
    intro j
    by_cases hj : j ∈ ids ∧ j ≠ i
    · obtain ⟨m, hm⟩ := good.sent1 (i := j) (j := i) (hids ▸ hj.1) (hids ▸ hii) hj.2
      exact ⟨m, fun _ _ => hm⟩
    · exact ⟨m, fun h1 h2 => absurd ⟨h1, h2⟩ hj⟩
  choose m1 hm1 using hm1
  let f : I → Msg1 q G := fun j => if j = bad then m else m1 j
  have hfst : ((bsetIter (ids.erase i)).map fun j => (j, f j)).map Prod.fst = bsetIter (ids.erase i) := by
    rw [List.map_map]; exact List.map_id _
  have hfst' : (((bsetIter (ids.erase i)).map fun j => (j, f j)).map fun a => (a.1, (Message.one a.2 : Message q I G))).map Prod.fst = bsetIter (ids.erase i) := by
    conv_rhs => rw [← hfst]
    rw [List.map_map]; rfl
  have hset : (bsetIter (ids.erase i)).toFinset = ids.erase i := by
    ext j
    rw [List.mem_toFinset, mem_bsetIter]
  have hpanic := hall ((bsetIter (ids.erase i)).map fun j => (j, f j)) (by rw [hfst]; exact bsetIter_nodup _) (by rw [hfst, hks, hset])
    (List.mem_map.2 ⟨bad, mem_bsetIter.2 (Finset.mem_erase.2 ⟨hbi, hbad⟩), by simp [f]⟩) (fun a ha hne => by
      obtain ⟨j, hj, rfl⟩ := List.mem_map.1 ha
      have hj := Finset.mem_erase.1 (mem_bsetIter.1 hj)
      have := (hm1 j hj.2 hj.1).accepted
      simp only at hne
      simp only [f, if_neg hne, hr i hi]
      rw [hSE] at this
      exact ⟨_, this⟩)
  obtain ⟨out, hini, hout⟩ := hin i hi
  have h0 : (machine E).Reachable honest init ((machine E).start init) := .refl
  refine h0.seize_all hi (s := init i) (got := ((bsetIter (ids.erase i)).map fun j => (j, f j)).map fun a => (a.1, .one a.2)) rfl (by rw [hfst']; exact bsetIter_nodup _) ?_ ?_ ?_
  · rw [hfst', hset, hini]
    exact (hoth i hi).symm
  · intro a ha haj
    obtain ⟨b, hb, rfl⟩ := List.mem_map.1 ha
    obtain ⟨j, hj, rfl⟩ := List.mem_map.1 hb
    have hj := Finset.mem_erase.1 (mem_bsetIter.1 hj)
    obtain ⟨out', hini', hout'⟩ := hin j haj
    have hjb : j ≠ bad := fun h => hnot (h ▸ haj)
    refine ⟨init j, List.mem_singleton.2 rfl, by rw [hini, hini']; rfl, ?_⟩
    show (i, _) ∈ (machine E).send (init j)
    rw [hini']
    refine List.mem_map.2 ⟨(i, f j), ?_, rfl⟩
    have hsent := (hm1 j hj.2 hj.1).sent
    rw [hSE, ← hr j haj] at hsent
    unfold send1 at hout'
    rw [Out.mapM'_eq_ok_iff] at hout'
    obtain ⟨⟨k, m'⟩, hk, hx⟩ := forall₂_mem hout' (mem_bsetIter.2 (by rw [hoth j haj]; exact Finset.mem_erase.2 ⟨hj.1.symm, hii⟩))
    simp only [Out.bind_eq_ok, finalizeResult_eq_ok] at hx
    obtain ⟨m'', hm'', he⟩ := hx
    rw [hsent] at hm''
    cases hm''
    cases he
    simp only [f, if_neg hjb]
    exact hk
  · unfold toRound2 at hpanic
    rw [hout, Out.bind_ok] at hpanic
    have hg := gather_map (expected := (r i).ctx.otherIds) (part := Message.one? (q := q) (I := I) (G := G)) (inj := Message.one) (fun _ => rfl) (recv := recv1 E (r i).ctx) ((bsetIter (ids.erase i)).map fun j => (j, f j))
    rw [hini]
    cases hc : collect (r i).ctx.otherIds (recv1 E (r i).ctx) ((bsetIter (ids.erase i)).map fun j => (j, f j)) with
    | err e => rw [hc] at hpanic; cases hpanic
    | panic =>
      left
      obtain ⟨a, ha, hp⟩ := collect_eq_panic hc
      refine ⟨_, List.mem_map.2 ⟨a, ha, rfl⟩, ?_⟩
      show (received a.1 (recv1 E (r i).ctx a.1 a.2)).bind _ = _
      rw [hp]; rfl
    | ok payloads =>
      right
      rw [hc] at hg hpanic
      refine ⟨gather_accepts hg, ?_⟩
      show (gather (r i).ctx.otherIds Message.one? (recv1 E (r i).ctx) _).bind _ = _
      rw [hg, Out.bind_ok]
      rw [Out.bind_ok] at hpanic
      rw [hpanic]
      rfl

end Signing

section Examples

attribute [local instance] Toy.fact11 Toy.order11

/-- `C85_key_init_partial` and `C85_key_init_panic`: of three parties, 3 is not honest. There is an execution in which party 1 accepts a message of party 3, and one in which it panics. -/
example : (∃ n : Spec.Net Nat _ _ _ _, (KeyInit.machine kgHashV kgH (1 : ZMod 11)).ReachableWith (({1, 2} : Finset Nat) : Set Nat)
      (fun _ j m => j ∉ (({1, 2} : Finset Nat) : Set Nat) → ∀ m2, m = .two m2 → m2.rho.length = 3) (fun i => .one (kgCtx i)) n ∧
      (∃ s, n.status 1 = .running s [(3, .two (KeyInit.msg2 (kgCtx 3)))]) ∧ n.status 1 ≠ .panicked) ∧
    ∃ n : Spec.Net Nat _ _ _ _, (KeyInit.machine kgHashV kgH (1 : ZMod 11)).Reachable (({1, 2} : Finset Nat) : Set Nat) (fun i => .one (kgCtx i)) n ∧ n.status 1 = .panicked := by
  have hst : ∀ i ∈ ({1, 2} : Finset Nat), KeyInit.start (1 : ZMod 11) {1, 2, 3} 7 i (kgDraws i) = .ok (kgCtx i) := fun i hi => kgStart i (by
    simp only [Finset.mem_insert, Finset.mem_singleton] at hi ⊢; tauto)
  have hg : gather (kgCtx 1).otherIds (KeyInit.Message.one? (F := ZMod 11) (G := ZMod 11)) (KeyInit.recv1 (I := Nat) (V := Nat × Nat × KeyInit.PublicData (ZMod 11)))
      ((bsetIter (kgCtx 1).otherIds).map fun j => (j, .one (KeyInit.msg1 kgHashV (kgCtx j)))) = .ok (BMap.tabulate (kgCtx 1).otherIds fun j => KeyInit.msg1 kgHashV (kgCtx j)) :=
    gather_all fun j _ => ⟨_, rfl, rfl⟩
  obtain ⟨n, hn, hs⟩ := Machine.exists_accepted (P := KeyInit.machine kgHashV kgH (1 : ZMod 11)) (honest := (({1, 2} : Finset Nat) : Set Nat)) (init := fun i => .one (kgCtx i)) (i := 1) (j := 3)
    (allowed := fun _ j m => j ∉ (({1, 2} : Finset Nat) : Set Nat) → ∀ m2, m = .two m2 → m2.rho.length = 3)
    (m := .two (KeyInit.msg2 (kgCtx 3))) (s := .two ⟨kgCtx 1, BMap.tabulate (kgCtx 1).otherIds fun j => KeyInit.msg1 kgHashV (kgCtx j)⟩) (by simp) (Signing.gather_complete hg)
    (fun a ha hj => by
      obtain ⟨j, hj', rfl⟩ := List.mem_map.1 ha
      have hj' := Finset.ne_of_mem_erase (mem_bsetIter.1 hj')
      have hj : j = 1 ∨ j = 2 := by simpa using hj
      obtain rfl : j = 2 := hj.resolve_left hj'
      exact ⟨rfl, Signing.in_toAll (by decide)⟩)
    (fun a ha _ m2 h => by
      obtain ⟨j, hj', rfl⟩ := List.mem_map.1 ha
      cases h)
    (by simp only [KeyInit.machine, hg, Out.bind_ok]) (by simp) (show 3 ∈ (kgCtx 1).otherIds by decide)
    (by
      rfl)
    (fun _ m2 h => by cases h; rfl)
  exact ⟨⟨n, hn, ⟨_, hs⟩, C85_key_init_partial kgHashV kgH (1 : ZMod 11) _ {1, 2, 3} 7 kgDraws 3 (fun _ _ => rfl) kgCtx (fun i hi => hst i hi) n hn 1 (by simp)⟩,
    C85_key_init_panic kgHashV kgH (1 : ZMod 11) {1, 2} {1, 2, 3} 7 kgDraws kgCtx hst 1 (by simp) 3 (by simp) (by simp)⟩

/-- `C85_aux_gen_partial` and `C85_aux_gen_panic`: the same for auxiliary info -/
example : ∃ ctx : Nat → AuxGen.Context Nat Nat, (∀ i ∈ ({1, 2} : Set Nat), AuxGen.start Toy.auxEnv {1, 2, 3} 7 i (Toy.auxDraws i) = .ok (ctx i)) ∧
    (∃ n : Spec.Net Nat _ _ _ _, (AuxGen.machine Toy.auxEnv agHashV).ReachableWith {1, 2} (fun i j m => j ∉ ({1, 2} : Set Nat) →
        (∀ m2, m = .two m2 → HarmlessAux Toy.auxEnv.P.modBits 3 m2.pk m2.echo.rp m2.echo.rid ∧
          FacMasksValid Toy.auxEnv.P ((Toy.auxDraws i).p * (Toy.auxDraws i).q) m2.echo.rp.modulus ((Toy.auxDraws i).facMasks j)) ∧
        ∀ m3, m = .three m3 → HarmlessFac ((Toy.auxDraws i).rpP * (Toy.auxDraws i).rpQ) m3.psi) (fun i => .one (ctx i)) n ∧
      (∃ s, n.status 1 = .running s [(3, .two (AuxGen.msg2 (ctx 3)))]) ∧ n.status 1 ≠ .panicked) ∧
    ∃ n : Spec.Net Nat _ _ _ _, (AuxGen.machine Toy.auxEnv agHashV).Reachable {1, 2} (fun i => .one (ctx i)) n ∧ n.status 1 = .panicked := by
  have hst : ∀ i ∈ ({1, 2, 3} : Finset Nat), ∃ c, AuxGen.start Toy.auxEnv ({1, 2, 3} : Finset Nat) 7 i (Toy.auxDraws i) = .ok c := by
    intro i hi
    obtain ⟨c, h, _⟩ := C54_start Toy.auxEnv 2 {1, 2, 3} 7 i hi (Toy.auxDraws i) (Toy.auxDraws_valid i (by simp at hi; omega))
    exact ⟨c, h⟩
  have : Nonempty (AuxGen.Context Nat Nat) := ⟨(hst 1 (by decide)).choose⟩
  obtain ⟨ctx, hctx⟩ := exists_fun hst
  have hctx' : ∀ i ∈ ({1, 2} : Set Nat), AuxGen.start Toy.auxEnv {1, 2, 3} 7 i (Toy.auxDraws i) = .ok (ctx i) := fun i hi => hctx i (by rcases hi with rfl | rfl <;> simp)
  have hoth : ∀ i ∈ ({1, 2, 3} : Finset Nat), (ctx i).otherIds = ({1, 2, 3} : Finset Nat).erase i ∧ (ctx i).sid = 7 ∧ (ctx i).myId = i := by
    intro i hi
    obtain ⟨-, -, sk, -, hcc⟩ := AuxGen.start_ok (hctx i hi)
    rw [hcc]
    exact ⟨rfl, rfl, rfl⟩
  have hg : gather (ctx 1).otherIds (AuxGen.Message.one? (V := Nat × Nat × AuxGen.Hashed)) (AuxGen.recv1 (I := Nat) (V := Nat × Nat × AuxGen.Hashed))
      ((bsetIter (ctx 1).otherIds).map fun j => (j, .one (AuxGen.msg1 agHashV (ctx j)))) = .ok (BMap.tabulate (ctx 1).otherIds fun j => AuxGen.msg1 agHashV (ctx j)) :=
    gather_all fun j _ => ⟨_, rfl, rfl⟩
  have h3 : 3 ∈ (ctx 1).otherIds := by rw [(hoth 1 (by decide)).1]; decide
  obtain ⟨-, hodd, sk, -, hcc⟩ := AuxGen.start_ok (hctx 3 (by decide))
  have hm : AuxGen.msg2 (ctx 3) = (AuxGen.hdata Toy.auxEnv 7 3 (Toy.auxDraws 3)).msg2 := by rw [hcc]; rfl
  obtain ⟨n, hn, hs⟩ := Machine.exists_accepted (P := AuxGen.machine Toy.auxEnv agHashV) (honest := {1, 2}) (init := fun i => .one (ctx i)) (i := 1) (j := 3)
    (allowed := fun i j m => j ∉ ({1, 2} : Set Nat) → (∀ m2, m = .two m2 → HarmlessAux Toy.auxEnv.P.modBits 3 m2.pk m2.echo.rp m2.echo.rid ∧
        FacMasksValid Toy.auxEnv.P ((Toy.auxDraws i).p * (Toy.auxDraws i).q) m2.echo.rp.modulus ((Toy.auxDraws i).facMasks j)) ∧
      ∀ m3, m = .three m3 → HarmlessFac ((Toy.auxDraws i).rpP * (Toy.auxDraws i).rpQ) m3.psi)
    (m := .two (AuxGen.msg2 (ctx 3))) (s := .two (ctx 1) (BMap.tabulate (ctx 1).otherIds fun j => AuxGen.msg1 agHashV (ctx j))) (by simp) (Signing.gather_complete hg)
    (fun a ha hj => by
      obtain ⟨j, hj', rfl⟩ := List.mem_map.1 ha
      have hj' := mem_bsetIter.1 hj'
      rw [(hoth 1 (by decide)).1] at hj'
      have hj' := Finset.ne_of_mem_erase hj'
      have hj : j = 1 ∨ j = 2 := by simpa using hj
      obtain rfl : j = 2 := hj.resolve_left hj'
      exact ⟨rfl, Signing.in_toAll (by rw [(hoth 2 (by decide)).1]; decide)⟩)
    (fun a ha _ => by
      obtain ⟨j, hj', rfl⟩ := List.mem_map.1 ha
      exact ⟨fun m2 h => (by cases h), fun m3 h => (by cases h)⟩)
    (by simp only [AuxGen.machine, hg, Out.bind_ok]) (by simp) h3
    (by
      have hacc := AuxGen.hdata_accepted Toy.auxEnv_valid (Toy.auxDraws_valid 3 (by omega)) 7 3 agHashV
        (BMap.tabulate (ctx 1).otherIds fun j => AuxGen.msg1 agHashV (ctx j)) (by rw [BMap.get?_tabulate, if_pos h3, hcc]; rfl)
      show (received 3 (AuxGen.recv2 Toy.auxEnv agHashV (ctx 1).sid _ 3 (AuxGen.msg2 (ctx 3)))).bind _ = _
      rw [hm, (hoth 1 (by decide)).2.1, hacc]
      rfl)
    (fun _ => ⟨fun m2 h => by
        cases h
        rw [hm]
        exact ⟨hdata_harmless Toy.auxEnv_valid (Toy.auxDraws_valid 3 (by omega)) hodd (rid := (Toy.auxDraws 3).rid), (Toy.facDraws_valid 1 3).masks⟩,
      fun m3 h => by cases h⟩)
  refine ⟨ctx, hctx', ⟨n, hn, ⟨_, hs⟩, C85_aux_gen_partial Toy.auxEnv 2 Toy.auxEnv_valid agHashV _ {1, 2, 3} 7 Toy.auxDraws
      (fun i hi => Toy.auxDraws_valid i (by rcases hi with rfl | rfl <;> omega)) 3 (fun _ _ => rfl) (fun i _ j _ _ => (Toy.facDraws_valid i j).masks) ctx hctx' n hn 1 (by simp)⟩,
    C85_aux_gen_panic Toy.auxEnv agHashV _ {1, 2, 3} 7 Toy.auxDraws ctx hctx' 1 (by simp) 3 (by simp) (by simp) { AuxGen.msg2 (ctx 3) with pk := 6 } (.inl (show 6 % 2 = 0 from rfl))⟩

/-- `C85_key_refresh_partial` and `C85_key_refresh_panic`: the same for key refresh -/
example : ∃ ctx : Nat → KeyRefresh.Context Nat (ZMod 11) (ZMod 11) Nat, (∀ i ∈ ({1, 2} : Set Nat), KeyRefresh.start refreshCaseEnv {1, 2, 3} 7 i (refreshCaseDraws i) = .ok (ctx i)) ∧
    (∃ n : Spec.Net Nat _ _ _ _, (KeyRefresh.machine refreshCaseEnv refreshCaseHash).ReachableWith {1, 2} (fun i j m => j ∉ ({1, 2} : Set Nat) →
        (∀ m2, m = .two m2 → HarmlessAux refreshCaseEnv.aux.P.modBits 3 m2.pk m2.echo.rp m2.echo.rid ∧
          FacMasksValid refreshCaseEnv.aux.P ((refreshCaseDraws i).aux.p * (refreshCaseDraws i).aux.q) m2.echo.rp.modulus ((refreshCaseDraws i).aux.facMasks j)) ∧
        ∀ m3, m = .three m3 → HarmlessFac ((refreshCaseDraws i).aux.rpP * (refreshCaseDraws i).aux.rpQ) m3.psi) (fun i => .one (ctx i)) n ∧
      (∃ s, n.status 1 = .running s [(3, .two (KeyRefresh.msg2 (ctx 3)))]) ∧ n.status 1 ≠ .panicked) ∧
    ∃ n : Spec.Net Nat _ _ _ _, (KeyRefresh.machine refreshCaseEnv refreshCaseHash).Reachable {1, 2} (fun i => .one (ctx i)) n ∧ n.status 1 = .panicked := by
  have hst : ∀ i ∈ ({1, 2, 3} : Finset Nat), ∃ c, KeyRefresh.start refreshCaseEnv ({1, 2, 3} : Finset Nat) 7 i (refreshCaseDraws i) = .ok c :=
    fun i hi => (C38_start refreshCaseEnv 2 {1, 2, 3} 7 i (refreshCaseDraws i) (Toy.auxDraws_valid i (by simp at hi; omega))).1 hi
  have : Nonempty (KeyRefresh.Context Nat (ZMod 11) (ZMod 11) Nat) := ⟨(hst 1 (by decide)).choose⟩
  obtain ⟨ctx, hctx⟩ := exists_fun hst
  have hctx' : ∀ i ∈ ({1, 2} : Set Nat), KeyRefresh.start refreshCaseEnv {1, 2, 3} 7 i (refreshCaseDraws i) = .ok (ctx i) := fun i hi => hctx i (by rcases hi with rfl | rfl <;> simp)
  have hoth : ∀ i ∈ ({1, 2, 3} : Finset Nat), (ctx i).otherIds = ({1, 2, 3} : Finset Nat).erase i ∧ (ctx i).sid = 7 ∧ (ctx i).allIds = {1, 2, 3} := by
    intro i hi
    obtain ⟨-, -, sk, y, -, -, hcc⟩ := KeyRefresh.start_ok (hctx i hi)
    rw [hcc]
    exact ⟨rfl, rfl, rfl⟩
  have hg : gather (ctx 1).otherIds (KeyRefresh.Message.one? (I := Nat) (F := ZMod 11) (G := ZMod 11) (V := Nat × Nat × KeyRefresh.Hashed Nat (ZMod 11)))
      (KeyRefresh.recv1 (I := Nat) (F := ZMod 11) (V := Nat × Nat × KeyRefresh.Hashed Nat (ZMod 11)))
      ((bsetIter (ctx 1).otherIds).map fun j => (j, .one (KeyRefresh.msg1 refreshCaseHash (ctx j)))) = .ok (BMap.tabulate (ctx 1).otherIds fun j => KeyRefresh.msg1 refreshCaseHash (ctx j)) :=
    gather_all fun j _ => ⟨_, rfl, rfl⟩
  have h3 : 3 ∈ (ctx 1).otherIds := by rw [(hoth 1 (by decide)).1]; decide
  obtain ⟨-, hodd, sk, y, -, hy, hcc⟩ := KeyRefresh.start_ok (hctx 3 (by decide))
  have hm : KeyRefresh.msg2 (ctx 3) = (KeyRefresh.hdata refreshCaseEnv {1, 2, 3} 7 3 (refreshCaseDraws 3) y).msg2 := by rw [hcc]; rfl
  obtain ⟨n, hn, hs⟩ := Machine.exists_accepted (P := KeyRefresh.machine refreshCaseEnv refreshCaseHash) (honest := {1, 2}) (init := fun i => .one (ctx i)) (i := 1) (j := 3)
    (allowed := fun i j m => j ∉ ({1, 2} : Set Nat) → (∀ m2, m = .two m2 → HarmlessAux refreshCaseEnv.aux.P.modBits 3 m2.pk m2.echo.rp m2.echo.rid ∧
        FacMasksValid refreshCaseEnv.aux.P ((refreshCaseDraws i).aux.p * (refreshCaseDraws i).aux.q) m2.echo.rp.modulus ((refreshCaseDraws i).aux.facMasks j)) ∧
      ∀ m3, m = .three m3 → HarmlessFac ((refreshCaseDraws i).aux.rpP * (refreshCaseDraws i).aux.rpQ) m3.psi)
    (m := .two (KeyRefresh.msg2 (ctx 3))) (s := .two (ctx 1) (BMap.tabulate (ctx 1).otherIds fun j => KeyRefresh.msg1 refreshCaseHash (ctx j))) (by simp) (Signing.gather_complete hg)
    (fun a ha hj => by
      obtain ⟨j, hj', rfl⟩ := List.mem_map.1 ha
      have hj' := mem_bsetIter.1 hj'
      rw [(hoth 1 (by decide)).1] at hj'
      have hj' := Finset.ne_of_mem_erase hj'
      have hj : j = 1 ∨ j = 2 := by simpa using hj
      obtain rfl : j = 2 := hj.resolve_left hj'
      exact ⟨rfl, Signing.in_toAll (by rw [(hoth 2 (by decide)).1]; decide)⟩)
    (fun a ha _ => by
      obtain ⟨j, hj', rfl⟩ := List.mem_map.1 ha
      exact ⟨fun m2 h => (by cases h), fun m3 h => (by cases h)⟩)
    (by simp only [KeyRefresh.machine, hg, Out.bind_ok]) (by simp) h3
    (by
      have hacc := KeyRefresh.hdata_accepted (E := refreshCaseEnv) Toy.auxEnv_valid (d := refreshCaseDraws 3) (Toy.auxDraws_valid 3 (by omega)) 7 3 hy refreshCaseHash
        (BMap.tabulate (ctx 1).otherIds fun j => KeyRefresh.msg1 refreshCaseHash (ctx j)) (by rw [BMap.get?_tabulate, if_pos h3, hcc]; rfl)
      show (received 3 (KeyRefresh.recv2 refreshCaseEnv refreshCaseHash (ctx 1).sid (ctx 1).allIds _ 3 (KeyRefresh.msg2 (ctx 3)))).bind _ = _
      rw [hm, (hoth 1 (by decide)).2.1, (hoth 1 (by decide)).2.2, hacc]
      rfl)
    (fun _ => ⟨fun m2 h => by
        cases h
        rw [hm]
        exact ⟨hdata_harmless (E := refreshCaseEnv.aux) Toy.auxEnv_valid (d := (refreshCaseDraws 3).aux) (Toy.auxDraws_valid 3 (by omega)) hodd (rid := (refreshCaseDraws 3).aux.rid), (Toy.facDraws_valid 1 3).masks⟩,
      fun m3 h => by cases h⟩)
  refine ⟨ctx, hctx', ⟨n, hn, ⟨_, hs⟩, C85_key_refresh_partial refreshCaseEnv 2 Toy.auxEnv_valid refreshCaseHash _ {1, 2, 3} 7 refreshCaseDraws
      (fun i hi => Toy.auxDraws_valid i (by rcases hi with rfl | rfl <;> omega)) 3 (fun _ _ => rfl) (fun i _ j _ _ => (Toy.facDraws_valid i j).masks) ctx hctx' n hn 1 (by simp)⟩,
    C85_key_refresh_panic refreshCaseEnv refreshCaseHash _ {1, 2, 3} 7 refreshCaseDraws ctx hctx' 1 (by simp) 3 (by simp) (by simp) { KeyRefresh.msg2 (ctx 3) with pk := 6 } (.inl (show 6 % 2 = 0 from rfl))⟩

private def newInputs : KeyResharing.Inputs Nat (ZMod 11) (ZMod 11) := ⟨none, some ⟨5, 2, {1, 2}⟩, {2, 3, 4}, 2⟩
private def newRound : KeyResharing.Round1 Nat (ZMod 11) (ZMod 11) := ⟨none, some ⟨5, 2, {1, 2}⟩, KeyResharing.newShareIds (ZMod 11) {2, 3, 4}, 2, 4, ∅, {1, 2}⟩

/-- `C85_resharing_partial` and `C85_resharing_panic`: the new holder 4 panics at the end of the round, as the constant terms of the old holders are not those of the key, and at a short polynomial. -/
example : KeyResharing.start (1 : ZMod 11) newInputs 4 (fun _ => 0) = .ok newRound ∧ KeyResharing.begin newRound = .ok ⟨newRound, []⟩ ∧
    (∃ n : Spec.Net Nat _ _ _ _, (KeyResharing.machine (1 : ZMod 11)).ReachableWith {4} (fun _ j m => j ∉ ({4} : Set Nat) → 1 < m.publicPolynomial.length) (fun _ => ⟨newRound, []⟩) n ∧ n.status 4 = .panicked) ∧
    ∃ n : Spec.Net Nat _ _ _ _, (KeyResharing.machine (1 : ZMod 11)).Reachable {4} (fun _ => ⟨newRound, []⟩) n ∧ n.status 4 = .panicked := by
  have hb : KeyResharing.begin newRound = .ok ⟨newRound, []⟩ := rfl
  have hg := gather_map (expected := newRound.expectingMessagesFrom) (part := some) (inj := fun a : KeyResharing.Msg (ZMod 11) (ZMod 11) => a) (fun _ => rfl) (recv := KeyResharing.recv (1 : ZMod 11) newRound)
    [(1, ⟨[8, 4], 1, 9⟩), (2, ⟨[1, 6], 2, 8⟩)]
  have hok : (collect newRound.expectingMessagesFrom (KeyResharing.recv (1 : ZMod 11) newRound) [(1, ⟨[8, 4], 1, 9⟩), (2, ⟨[1, 6], 2, 8⟩)]).isOk = true := by decide +kernel
  obtain ⟨pl, hpl⟩ : ∃ pl, collect newRound.expectingMessagesFrom (KeyResharing.recv (1 : ZMod 11) newRound) [(1, ⟨[8, 4], 1, 9⟩), (2, ⟨[1, 6], 2, 8⟩)] = .ok pl := by
    revert hok
    cases collect newRound.expectingMessagesFrom (KeyResharing.recv (1 : ZMod 11) newRound) [(1, ⟨[8, 4], 1, 9⟩), (2, ⟨[1, 6], 2, 8⟩)] with
    | ok a => exact fun _ => ⟨a, rfl⟩
    | err e => intro h; cases h
    | panic => intro h; cases h
  have hpanic : KeyResharing.run (1 : ZMod 11) newRound [(1, ⟨[8, 4], 1, 9⟩), (2, ⟨[1, 6], 2, 8⟩)] = .panic := by decide +kernel
  rw [hpl] at hg
  refine ⟨rfl, hb, ?_, C85_resharing_panic (1 : ZMod 11) {4} (fun _ => newInputs) (fun _ _ => 0) (fun _ => newRound) (fun i hi => by cases hi; rfl) _ (fun i hi => hb) 4 rfl _ rfl (by decide) 1 (by decide) (by simp)
    ⟨[8], 1, 8⟩ (by simp)⟩
  have h0 : (KeyResharing.machine (1 : ZMod 11)).ReachableWith {4} (fun _ j m => j ∉ ({4} : Set Nat) → 1 < m.publicPolynomial.length) (fun _ => ⟨newRound, []⟩)
    ((KeyResharing.machine (1 : ZMod 11)).start fun _ => ⟨newRound, []⟩) := .start
  refine ⟨_, h0.round (i := 4) (got := [(1, ⟨[8, 4], 1, 9⟩), (2, ⟨[1, 6], 2, 8⟩)]) rfl (s := ⟨newRound, []⟩) rfl (Signing.gather_complete hg) ?_ ?_, ?_⟩
  · intro a ha h
    simp only [List.mem_cons, List.not_mem_nil, or_false] at ha
    rcases ha with rfl | rfl <;> simp at h
  · intro a ha _
    simp only [List.mem_cons, List.not_mem_nil, or_false] at ha
    rcases ha with rfl | rfl <;> simp
  · simp only [Function.update_self]
    unfold Machine.advanced
    have : (KeyResharing.machine (1 : ZMod 11)).next ⟨newRound, []⟩ [(1, ⟨[8, 4], 1, 9⟩), (2, ⟨[1, 6], 2, 8⟩)] = .panic := by
      have hg' : gather newRound.expectingMessagesFrom some (KeyResharing.recv (1 : ZMod 11) newRound) [(1, ⟨[8, 4], 1, 9⟩), (2, ⟨[1, 6], 2, 8⟩)] = .ok pl := hg
      unfold KeyResharing.run at hpanic
      rw [hpl, Out.bind_ok] at hpanic
      simp only [KeyResharing.machine]
      rw [hg', Out.bind_ok, hpanic]
      rfl
    rw [this]

/-- `C85_signing_partial` and `C85_signing_panic`: party 2 accepts the message of party 3, which is not honest, or panics -/
example : ∃ (infos : Nat → AuxInfo Nat PaillierKey PublicAux) (r : Nat → Signing.Round1 11 Nat Nat (ZMod 11)) (init : Nat → Signing.State 11 Nat Nat (ZMod 11)),
    (∀ i ∈ ({1, 2} : Set Nat), Signing.start Toy.signEnv (fun _ _ => 7) (5 : ZMod 11) (Toy.signShares i) (infos i) i (Toy.signDraws i) = .ok (r i)) ∧
    (∀ i ∈ ({1, 2} : Set Nat), Signing.begin Toy.signEnv (r i) = .ok (init i)) ∧
    (∃ n : Spec.Net Nat _ _ _ _, (Signing.machine Toy.signEnv).ReachableWith {1, 2} (fun _ j m => j ∉ ({1, 2} : Set Nat) → (∀ m1, m = .one m1 → Nat.Coprime m1.echo.capK (infos j).secret.modulus) ∧
        ∀ m2, m = .two m2 → ∀ id w, m2.echo.capFs.get? id = some w ∨ m2.echo.hatCapFs.get? id = some w → Nat.Coprime w (infos j).secret.modulus) init n ∧
      (∃ m, n.status 2 = .running (init 2) [(3, m)]) ∧ n.status 2 ≠ .panicked) ∧
    ∃ n : Spec.Net Nat _ _ _ _, (Signing.machine Toy.signEnv).Reachable {1, 2} init n ∧ n.status 2 = .panicked := by
  obtain ⟨infos, S, m1, o, haux, hdr, hmod, good, hE, hids, hd, hsh, ho, hst, h1, h2, -⟩ := Toy.signRun
  have hsub : ({1, 2} : Set Nat) ⊆ (Toy.parties : Set Nat) := by rintro i (rfl | rfl) <;> simp [Toy.parties]
  have hp2 : 2 ∈ Toy.parties := by decide
  have hp3 : 3 ∈ Toy.parties := by decide
  have hbegin : ∀ i ∈ Toy.parties, ∃ s, Signing.begin Toy.signEnv (S.r1 i) = .ok s := by
    intro i hi
    have := h2 i hi
    unfold Signing.toRound2 at this
    rw [Out.bind_eq_ok] at this
    obtain ⟨out, ho, -⟩ := this
    unfold Signing.begin
    rw [ho]
    exact ⟨_, rfl⟩
  have : Nonempty (Signing.State 11 Nat Nat (ZMod 11)) := ⟨(hbegin 2 hp2).choose⟩
  obtain ⟨init, hinit⟩ := exists_fun hbegin
  obtain ⟨out, hini⟩ : ∃ out, init 2 = .one (S.r1 2) out := by
    have := hinit 2 hp2
    unfold Signing.begin at this
    rw [Out.bind_eq_ok] at this
    obtain ⟨out, -, he⟩ := this
    exact ⟨out, (Out.ok.inj he).symm⟩
  have hN : S.N 3 = (infos 3).secret.modulus := congrArg PaillierKey.modulus (Signing.start_eq_ok (hst 3 hp3)).2.2.2.2.2.2.2.2.2
  have h0 : (Signing.machine Toy.signEnv).ReachableWith {1, 2} (fun _ j m => j ∉ ({1, 2} : Set Nat) → (∀ m1, m = .one m1 → Nat.Coprime m1.echo.capK (infos j).secret.modulus) ∧
        ∀ m2, m = .two m2 → ∀ id w, m2.echo.capFs.get? id = some w ∨ m2.echo.hatCapFs.get? id = some w → Nat.Coprime w (infos j).secret.modulus) init ((Signing.machine Toy.signEnv).start init) := .start
  have hs3 := h1 3 hp3 2 hp2 (by decide)
  have hn := h0.receive_all (i := 2) (by simp) (s := init 2) rfl [(3, .one (m1 3 2))] (by simp) (by
      rintro a ha
      rw [List.mem_singleton.1 ha, hini]
      show 3 ∈ (S.r1 2).ctx.otherIds
      rw [(Signing.start_eq_ok (hst 2 hp2)).2.2.2.2.2.2.1, Toy.signShares_valid.holders 2 hp2]
      decide) (by
      rintro a ha
      rw [List.mem_singleton.1 ha, hini]
      show (received 3 (Signing.recv1 Toy.signEnv (S.r1 2).ctx 3 (m1 3 2))).bind _ = _
      have := hs3.accepted
      rw [hE] at this
      rw [show (S.r1 2).ctx = S.ctx 2 from rfl, this]
      rfl) (by
      rintro a ha h
      rw [List.mem_singleton.1 ha] at h
      simp at h) (by
      rintro a ha -
      rw [List.mem_singleton.1 ha]
      refine ⟨fun m h => ?_, fun m h => (by cases h)⟩
      cases h
      have hs := hs3.sent
      rw [Signing.msg1_echo hs, ← hN]
      exact good.capK_coprime (hids ▸ hp3))
  refine ⟨infos, S.r1, init, fun i hi => hst i (hsub hi), fun i hi => hinit i (hsub hi), ⟨_, hn, ⟨.one (m1 3 2), by simp only [Function.update_self]⟩, ?_⟩, ?_⟩
  · exact C85_signing_partial Toy.signEnv Toy.signEnv_setting (fun _ _ => 7) 5 6 Toy.parties Toy.signShares Toy.signShares_valid infos Toy.ringPedersen haux Toy.signDraws hdr 2 Toy.fewParties _ hsub
      (fun i _ => by simp only [hmod]; exact Toy.errorDraws_valid i) S.r1 (fun i hi => hst i (hsub hi)) init (fun i hi => hinit i (hsub hi)) _ hn 2 (by simp)
  · exact C85_signing_panic Toy.signEnv Toy.signEnv_setting (fun _ _ => 7) 5 6 Toy.parties Toy.signShares Toy.signShares_valid infos Toy.ringPedersen haux Toy.signDraws hdr _ hsub
      S.r1 (fun i hi => hst i (hsub hi)) init (fun i hi => hinit i (hsub hi)) 2 (by simp) (by decide) 3 hp3 (by simp)

end Examples

end Synedrion.Props
