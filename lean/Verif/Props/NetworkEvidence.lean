import Verif.Lemmas.NetworkEvidence
import Verif.Props.Required
import Verif.Props.Network
import Verif.Lemmas.NetworkScriptSigning

/-!
# C86: evidence in executions over the network
-/

set_option linter.unusedSectionVars false

namespace Synedrion.Props

open Spec

section KeyInit

open KeyInit

variable {I F G Sid V : Type} [LinearOrder I] [Field F] [LinearOrder F] [AddCommGroup G] [Module F G] [DecidableEq G] [DecidableEq V]

private theorem key_init_convincing (hashV : Sid → I → PublicData G → V) (H : SchHash G (SchAux I Sid) → F) (g : G) (honest : Set I) (ids : Finset I) (sid : Sid) (d : I → Draws F)
    (c : I → Context I F G Sid) (hc : ∀ i ∈ honest, start g ids sid i (d i) = .ok (c i))
    (n : Net I (Message F G V) (State I F G Sid V) Err (KeyShare I F G)) (h : (machine hashV H g).Reachable honest (fun i => .one (c i)) n)
    (i j : I) (hi : i ∈ honest) (s : State I F G Sid V) (got : List (I × Message F G V)) (hst : n.status i = .running s got) (hj : j ∈ (machine hashV H g).expected s)
    (m : Message F G V) (j' : I) (e : Err) (hm : (machine hashV H g).recv s j m = .err (.fault j' e))
    (t : Transcript I (Parts F G V)) (ht : Presents (machine hashV H g) Message.part ids n i s j m t) :
    j' = j ∧ (machine hashV H g).round s = e.round ∧ verifyMessages hashV H g sid j e (supply t e.round e.required) = .ok true := by
  obtain ⟨hj', hr⟩ := refusal h hi hst hj hm
  have hci : (c i).sid = sid ∧ (c i).myId = i ∧ (c i).otherIds = ids.erase i ∧ i ∈ ids := by
    have hci := hc i hi
    unfold start at hci
    split at hci
    · cases hci
    · rename_i hmem
      rw [← Out.ok.inj hci]
      exact ⟨rfl, rfl, rfl, not_not.1 hmem⟩
  refine ⟨hj', ?_⟩
  cases hr with
  | two in1 capVs v m2 x1 h1 hv hx1 e1 r1 hrec =>
    have a1 : t.msg 1 .echo = some v := by
      have := ht.earlier x1 hx1 (.one v) (by rw [e1]; exact List.mem_map.2 ⟨_, hv, rfl⟩) .echo
      rw [r1] at this
      exact this
    have a2 : t.msg 2 .echo = some m2.rho := ht.refused .echo
    have a3 : t.msg 2 .normal = some ⟨m2.capX, m2.capA, m2.u⟩ := ht.refused .normal
    obtain rfl : e = .r2HashMismatch := by
      simp only [recv2, recvGet] at hrec
      cases hg : capVs.get? j with
      | none => simp [hg, Out.ofOption, Out.bind] at hrec
      | some w =>
        simp only [hg, Out.ofOption_some, Out.bind_ok] at hrec
        split at hrec <;> cases hrec
        rfl
    refine ⟨rfl, ?_⟩
    have hev := (C45_key_init_round2 hashV (c i) in1 capVs h1 j v hv m2).1.1 hrec
    rw [hci.1] at hev
    rw [← hev]
    simp [verifyMessages, Package.prev, Package.cur, supply, Err.required, Err.round, a1, a2, a3, evidence2]
  | three in1 in2 capVs r3 v m2 psi x1 x2 h1 hv hm2 hx1 e1 r1 hx2 e2 r2 hs2 h3 hrec =>
    obtain ⟨capVs', hs2⟩ := hs2
    have a2 : t.msg 2 .echo = some m2.rho := by
      have := ht.earlier x2 hx2 (.two m2) (by rw [e2]; exact List.mem_map.2 ⟨_, hm2, rfl⟩) .echo
      rw [r2] at this
      exact this
    have a3 : t.msg 2 .normal = some ⟨m2.capX, m2.capA, m2.u⟩ := by
      have := ht.earlier x2 hx2 (.two m2) (by rw [e2]; exact List.mem_map.2 ⟨_, hm2, rfl⟩) .normal
      rw [r2] at this
      exact this
    have a4 : t.msg 3 .normal = some psi := ht.refused .normal
    have hec : EchosAgainst ids i j (c i).data.rho (in2.map fun a => (a.1, a.2.rho)) (t.combined 2) := by
      have hj2 : j ∈ (c i).otherIds := by rw [← toRound3_ctx h3]; exact hj
      have := ht.echos x2 hx2 (j, .two (msg2 (c i))) (by rw [hs2]; exact mem_toAll.2 ⟨hj2, rfl⟩)
      rw [r2, e2, echosOf_two] at this
      exact this (c i).data.rho rfl
    obtain rfl : e = .r3InvalidSchProof := by
      simp only [recv3, recvGet] at hrec
      cases ha : r3.capAs.get? j with
      | none => simp [ha, Out.ofOption, Out.bind] at hrec
      | some x =>
        cases hx : r3.capXs.get? j with
        | none => simp [hx, ha, Out.ofOption, Out.bind] at hrec
        | some w =>
          simp only [hx, ha, Out.ofOption_some, Out.bind_ok] at hrec
          split at hrec <;> cases hrec
          rfl
    refine ⟨rfl, ?_⟩
    have hev := (C45_key_init_round3 hashV H g ids i hci.2.2.2 (c i) hci.2.1 hci.2.2.1 in1 in2 r3 h3 j m2 hm2 psi (t.combined 2) hec).1.1 hrec
    rw [hci.1] at hev
    rw [← hev]
    simp [verifyMessages, Package.prev, Package.cur, Package.echos, supply, Err.required, Err.round, a2, a3, a4, evidence3]

/-- **C86 (key generation, evidence convinces).** At any time of any execution of key generation, whatever the schedule and whatever the parties that are not honest do: if an honest party refuses a message of `j` and
declares somebody faulty, that is `j`; it can present the refused message, what `j` sent before and the echo-broadcasts, and everyone to whom it presents the declared parts of these agrees. -/
theorem C86_key_init_convincing (hashV : Sid → I → PublicData G → V) (H : SchHash G (SchAux I Sid) → F) (g : G) (honest : Set I) (ids : Finset I) (sid : Sid) (d : I → Draws F)
    (c : I → Context I F G Sid) (hc : ∀ i ∈ honest, start g ids sid i (d i) = .ok (c i))
    (n : Net I (Message F G V) (State I F G Sid V) Err (KeyShare I F G)) (h : (machine hashV H g).Reachable honest (fun i => .one (c i)) n)
    (i j : I) (hi : i ∈ honest) (s : State I F G Sid V) (got : List (I × Message F G V)) (hst : n.status i = .running s got) (hj : j ∈ (machine hashV H g).expected s)
    (m : Message F G V) (j' : I) (e : Err) (hm : (machine hashV H g).recv s j m = .err (.fault j' e)) :
    j' = j ∧ (machine hashV H g).round s = e.round ∧ (∃ t, Presents (machine hashV H g) Message.part ids n i s j m t) ∧
      ∀ t : Transcript I (Parts F G V), Presents (machine hashV H g) Message.part ids n i s j m t →
        verifyMessages hashV H g sid j e (supply t e.round e.required) = .ok true := by
  have hci := hc i hi
  unfold start at hci
  split at hci
  · cases hci
  rename_i hmem
  have hoth : (c i).otherIds = ids.erase i := by rw [← Out.ok.inj hci]
  obtain ⟨t, ht⟩ := presentable h hi (not_not.1 hmem) hoth hst hj m
  have hall := fun t ht => key_init_convincing hashV H g honest ids sid d c hc n h i j hi s got hst hj m j' e hm t ht
  exact ⟨(hall t ht).1, (hall t ht).2.1, ⟨t, ht⟩, fun t ht => (hall t ht).2.2⟩

/-- **C86 (key generation, nobody is framed).** At any time of any execution of key generation, whatever the schedule and whatever the parties that are not honest do: nothing that an honest party has signed convinces
anyone that it is faulty. -/
theorem C86_key_init_unframed (hashV : Sid → I → PublicData G → V) (H : SchHash G (SchAux I Sid) → F) (g : G) (honest : Set I) (ids : Finset I) (sid : Sid) (d : I → Draws F)
    (c : I → Context I F G Sid) (hc : ∀ i ∈ honest, start g ids sid i (d i) = .ok (c i))
    (n : Net I (Message F G V) (State I F G Sid V) Err (KeyShare I F G)) (h : (machine hashV H g).Reachable honest (fun i => .one (c i)) n)
    (j reporter : I) (hj : j ∈ honest) (e : Err) (ev : Package I (Parts F G V) e.round) (hev : SignedBy (machine hashV H g) Message.part n j reporter ev) :
    verifyMessages hashV H g sid j e ev ≠ .ok true := by
  intro hv
  have hfol := fun l s hr => (fol (hashV := hashV) (H := H) (g := g) (c := c) j hj l s hr).2
  have hfr := C46_key_init_no_framing hashV H g ids sid j (d j) (c j) (hc j hj)
  -- the messages of the rounds 1 and 2
  have one : ∀ i m p x, (machine hashV H g).Sent n j i 1 m → m.part 1 p = some x → ∀ psi e1 e2, (KeyInit.transcript (msg1 hashV (c j)) (msg2 (c j)) psi e1 e2 : Transcript I (Parts F G V)).msg 1 p = some x := by
    intro i m p x hs hp psi e1 e2
    rcases sent h hj hs with ⟨-, rfl⟩ | ⟨hk, -⟩ | ⟨_, _, _, hk, -⟩
    · cases p <;> exact hp
    · cases hk
    · cases hk
  have two : ∀ i m p x, (machine hashV H g).Sent n j i 2 m → m.part 2 p = some x → ∀ psi e1 e2, (KeyInit.transcript (msg1 hashV (c j)) (msg2 (c j)) psi e1 e2 : Transcript I (Parts F G V)).msg 2 p = some x := by
    intro i m p x hs hp psi e1 e2
    rcases sent h hj hs with ⟨hk, -⟩ | ⟨-, rfl⟩ | ⟨_, _, _, hk, -⟩
    · cases hk
    · cases p <;> exact hp
    · cases hk
  have zero : ∀ i m, ¬ (machine hashV H g).Sent n j i 0 m := by
    intro i m hs
    rcases sent h hj hs with ⟨hk, -⟩ | ⟨hk, -⟩ | ⟨_, _, _, hk, -⟩ <;> cases hk
  cases e with
  | r2HashMismatch =>
    have hw : Within Err.r2HashMismatch.required.current ev (KeyInit.transcript (msg1 hashV (c j)) (msg2 (c j)) ⟨0, 0⟩ ((ev.combined 1).getD .empty) .empty) := by
      refine ⟨?_, ?_, ?_⟩
      · intro p _ x hx
        obtain ⟨i, m, hs, -, hp⟩ := hev.current p x hx
        exact two i m p x hs hp _ _ _
      · intro r hr msg p x hmsg hx
        obtain ⟨i, m, hs, -, hp⟩ := hev.previous r msg p x hmsg hx
        match r, hr with
        | 0, _ => exact absurd hs (zero i m)
        | 1, _ => exact one i m p x hs hp _ _ _
      · intro r hr echos he
        match r, hr with
        | 0, _ =>
          obtain ⟨x, hx, hr, -⟩ := hev.combined 0 echos he
          obtain ⟨k, hk, -⟩ := h.past_index hfol hx
          omega
        | 1, _ => show (ev.combined 1).getD .empty = echos; rw [he]; rfl
    have := verify_mono (hashV := hashV) (H := H) (g := g) (sid := sid) (guilty := j) _ hw true hv
    have h2 : evidence2 hashV sid j (msg1 hashV (c j)) (msg2 (c j)) = .ok true := this
    rw [hfr.1] at h2
    cases h2
  | r3InvalidSchProof =>
    -- the message of round 3 shows that the party has completed round 2
    have hcur : ∃ psi, ev.current .normal = some psi := by
      obtain ⟨_, -, hv⟩ := Out.bind_eq_ok.1 hv
      obtain ⟨_, -, hv⟩ := Out.bind_eq_ok.1 hv
      obtain ⟨_, -, hv⟩ := Out.bind_eq_ok.1 hv
      obtain ⟨psi, hpsi, -⟩ := Out.bind_eq_ok.1 hv
      exact ⟨psi, Out.ofOption_eq_ok.1 hpsi⟩
    obtain ⟨psi, hpsi⟩ := hcur
    obtain ⟨i, m, hs, -, hp⟩ := hev.current _ _ hpsi
    rcases sent h hj hs with ⟨hk, -⟩ | ⟨hk, -⟩ | ⟨in1, in2, r3, -, h3, rfl, hin2⟩
    · cases hk
    · cases hk
    obtain rfl : psi = msg3 H r3 := (Option.some.inj hp).symm
    have hcomb : ∃ echos, ev.combined 2 = some echos := by
      obtain ⟨rhos, hrhos, -⟩ := Out.bind_eq_ok.1 hv
      exact ⟨rhos, Out.ofOption_eq_ok.1 hrhos⟩
    obtain ⟨echos, he⟩ := hcomb
    have hperm : echos.entries.Perm (in2.map fun a => (a.1, a.2.rho)) := by
      obtain ⟨x, hx, hr, hperm⟩ := hev.combined 2 echos he
      obtain ⟨k, hk, hxk⟩ := h.past_index hfol hx
      obtain rfl : k = 1 := by omega
      rw [hin2] at hxk
      rw [← Option.some.inj hxk, echosOf_two] at hperm
      exact hperm
    have hw : Within Err.r3InvalidSchProof.required.current ev (KeyInit.transcript (msg1 hashV (c j)) (msg2 (c j)) (msg3 H r3) ((ev.combined 1).getD .empty) echos) := by
      refine ⟨?_, ?_, ?_⟩
      · intro p _ x hx
        obtain ⟨i, m, hs, -, hp⟩ := hev.current p x hx
        cases p with
        | normal => rw [hpsi] at hx; exact hx
        | echo =>
          rcases sent h hj hs with ⟨hk, -⟩ | ⟨hk, -⟩ | ⟨_, _, _, -, -, rfl, -⟩
          · cases hk
          · cases hk
          · cases hp
        | direct =>
          rcases sent h hj hs with ⟨hk, -⟩ | ⟨hk, -⟩ | ⟨_, _, _, -, -, rfl, -⟩
          · cases hk
          · cases hk
          · cases hp
      · intro r hr msg p x hmsg hx
        obtain ⟨i, m, hs, -, hp⟩ := hev.previous r msg p x hmsg hx
        match r, hr with
        | 0, _ => exact absurd hs (zero i m)
        | 1, _ => exact one i m p x hs hp _ _ _
        | 2, _ => exact two i m p x hs hp _ _ _
      · intro r hr echos' he'
        match r, hr with
        | 0, _ =>
          obtain ⟨x, hx, hr, -⟩ := hev.combined 0 echos' he'
          obtain ⟨k, hk, -⟩ := h.past_index hfol hx
          omega
        | 1, _ => show (ev.combined 1).getD .empty = echos'; rw [he']; rfl
        | 2, _ => exact Option.some.inj (he.symm.trans he')
    have := verify_mono (hashV := hashV) (H := H) (g := g) (sid := sid) (guilty := j) _ hw true hv
    have h2 : evidence3 H g sid j (msg2 (c j)) (msg3 H r3) echos = .ok true := this
    rw [hfr.2 in1 in2 r3 echos h3 hperm] at h2
    cases h2

end KeyInit

section AuxGen

open AuxGen

variable {I Sid V : Type} [LinearOrder I] [DecidableEq V]

/-- Some message of round 3 -/
private def noMsg3 : Msg3 := ⟨⟨0, [], []⟩, ⟨⟨0, 0⟩, 0, 0, 0, 0, 0, ⟨0, 0⟩, ⟨0, 0⟩, ⟨0, 0⟩, ⟨0, 0⟩, ⟨0, 0⟩⟩⟩

private theorem aux_gen_convincing (E : AuxEnv I Sid) (hashV : Sid → I → Hashed → V) (honest : Set I) (ids : Finset I) (sid : Sid) (d : I → AuxDraws I)
    (c : I → Context I Sid) (hc : ∀ i ∈ honest, start E ids sid i (d i) = .ok (c i))
    (n : Net I (Message V) (State I Sid V) (Err I) (AuxInfo I PaillierKey PublicAux)) (h : (machine E hashV).Reachable honest (fun i => .one (c i)) n)
    (i j : I) (hi : i ∈ honest) (s : State I Sid V) (got : List (I × Message V)) (hst : n.status i = .running s got) (hj : j ∈ (machine E hashV).expected s)
    (m : Message V) (j' : I) (e : Err I) (hm : (machine E hashV).recv s j m = .err (.fault j' e))
    (t : Transcript I (Parts V)) (ht : Presents (machine E hashV) Message.part ids n i s j m t) :
    j' = j ∧ (machine E hashV).round s = e.round ∧ verifyMessages E hashV sid j e (supply t e.round e.required) = .ok true := by
  obtain ⟨hj', hr⟩ := refusal h hi hst hj hm
  refine ⟨hj', ?_⟩
  cases hr with
  | two in1 capVs v m2 x1 h1 hv hx1 e1 r1 hrec =>
    have a1 : ∀ p, t.msg 1 p = Message.part (.one v) 1 p := by
      intro p
      have := ht.earlier x1 hx1 (.one v) (by rw [e1]; exact List.mem_map.2 ⟨_, hv, rfl⟩) p
      rw [r1] at this
      exact this
    have a2 : ∀ p, t.msg 2 p = Message.part (.two m2) 2 p := ht.refused
    have hround : e.round = 2 := by
      have hev := (C45_aux_gen_round2 E hashV (c i) in1 capVs h1 j v hv m2).1 e hrec
      cases e with
      | r3ModFailed | r3FacFailed => cases hev
      | _ => rfl
    refine ⟨hround.symm, ?_⟩
    rw [← (C56_aux_gen_blame E hashV ids sid i (d i) (c i) (hc i hi) in1 capVs h1 j v hv m2 noMsg3 .empty .empty).1 e hrec]
    congr 1
    have b1 : t.msg 1 .echo = some v := a1 .echo
    cases e with
    | r3ModFailed | r3FacFailed => cases hround
    | _ => exact supply_congr (fun p _ => (a2 p).trans (by cases p <;> rfl)) (by simp [Err.required, b1, AuxGen.transcript]) (by simp [Err.required])
  | three in1 in2 capVs r3 out v m2 m3 x1 x2 h1 hv hm2 hx1 e1 r1 hx2 e2 r2 hs2 h3 hrec =>
    obtain ⟨capVs', hs2⟩ := hs2
    have a2 : ∀ p, t.msg 2 p = Message.part (.two m2) 2 p := by
      intro p
      have := ht.earlier x2 hx2 (.two m2) (by rw [e2]; exact List.mem_map.2 ⟨_, hm2, rfl⟩) p
      rw [r2] at this
      exact this
    have a3 : ∀ p, t.msg 3 p = Message.part (.three m3) 3 p := ht.refused
    have hec : EchosAgainst ids i j (msg2 (c i)).echo (in2.map fun a => (a.1, a.2.echo)) (t.combined 2) := by
      have hj2 : j ∈ (c i).otherIds := by rw [← toRound3_ctx h3]; exact hj
      have := ht.echos x2 hx2 (j, .two (msg2 (c i))) (by rw [hs2]; exact mem_toAll.2 ⟨hj2, rfl⟩)
      rw [r2, e2, echosOf_two] at this
      exact this _ rfl
    have hround : e.round = 3 := by
      have hev := (C45_aux_gen_round3 E hashV ids sid i (d i) (c i) (hc i hi) in1 in2 r3 h3 j m2 hm2 m3 (t.combined 2) hec).1 e hrec
      cases e with
      | r3ModFailed | r3FacFailed => rfl
      | _ => cases hev
    refine ⟨hround.symm, ?_⟩
    rw [← (C56_aux_gen_blame E hashV ids sid i (d i) (c i) (hc i hi) in1 capVs h1 j v hv m2 m3 .empty (t.combined 2)).2 in2 r3 e h3 hm2 hec hrec]
    congr 1
    have b1 : t.msg 2 .echo = some m2.echo := a2 .echo
    have b2 : t.msg 2 .normal = some ⟨m2.pk, m2.psi, m2.u⟩ := a2 .normal
    cases e with
    | r3ModFailed | r3FacFailed =>
      exact supply_congr (fun p _ => (a3 p).trans (by cases p <;> rfl)) (by simp [Err.required, b1, b2, AuxGen.transcript]) (by simp [Err.required, AuxGen.transcript])
    | _ => cases hround

/-- **C86 (auxiliary info, evidence convinces).** The same as `C86_key_init_convincing` for the generation of auxiliary info. -/
theorem C86_aux_gen_convincing (E : AuxEnv I Sid) (hashV : Sid → I → Hashed → V) (honest : Set I) (ids : Finset I) (sid : Sid) (d : I → AuxDraws I)
    (c : I → Context I Sid) (hc : ∀ i ∈ honest, start E ids sid i (d i) = .ok (c i))
    (n : Net I (Message V) (State I Sid V) (Err I) (AuxInfo I PaillierKey PublicAux)) (h : (machine E hashV).Reachable honest (fun i => .one (c i)) n)
    (i j : I) (hi : i ∈ honest) (s : State I Sid V) (got : List (I × Message V)) (hst : n.status i = .running s got) (hj : j ∈ (machine E hashV).expected s)
    (m : Message V) (j' : I) (e : Err I) (hm : (machine E hashV).recv s j m = .err (.fault j' e)) :
    j' = j ∧ (machine E hashV).round s = e.round ∧ (∃ t, Presents (machine E hashV) Message.part ids n i s j m t) ∧
      ∀ t : Transcript I (Parts V), Presents (machine E hashV) Message.part ids n i s j m t →
        verifyMessages E hashV sid j e (supply t e.round e.required) = .ok true := by
  have hoth : i ∈ ids ∧ (c i).otherIds = ids.erase i := by
    obtain ⟨hme, -, _, -, hci⟩ := start_ok (hc i hi)
    exact ⟨hme, by rw [hci]⟩
  obtain ⟨t, ht⟩ := presentable h hi hoth.1 hoth.2 hst hj m
  have hall := fun t ht => aux_gen_convincing E hashV honest ids sid d c hc n h i j hi s got hst hj m j' e hm t ht
  exact ⟨(hall t ht).1, (hall t ht).2.1, ⟨t, ht⟩, fun t ht => (hall t ht).2.2⟩

/-- **C86 (auxiliary info, nobody is framed).** The same as `C86_key_init_unframed` for the generation of auxiliary info, if the ring-Pedersen moduli that the party received have the size of the type they are sent in, and
the draws of the party are valid. Direct messages can only be presented by those they were sent to. -/
theorem C86_aux_gen_unframed (E : AuxEnv I Sid) (k : Nat) (hE : HashesValid E k) (hashV : Sid → I → Hashed → V) (honest : Set I) (ids : Finset I) (sid : Sid) (d : I → AuxDraws I)
    (hd : ∀ i ∈ honest, DrawsValid E k (d i)) (c : I → Context I Sid) (hc : ∀ i ∈ honest, start E ids sid i (d i) = .ok (c i))
    (n : Net I (Message V) (State I Sid V) (Err I) (AuxInfo I PaillierKey PublicAux)) (h : (machine E hashV).Reachable honest (fun i => .one (c i)) n)
    (j reporter : I) (hj : j ∈ honest)
    (hmask : ∀ x ∈ n.past j, ∀ i m, (i, .two m) ∈ x.2 → m.echo.rp.modulus < 2 ^ E.P.modBits ∧
      FacDrawsValid E.P ((d j).p * (d j).q) m.echo.rp.modulus ((d j).facMasks i) ∧ ((d j).facMasks i).mu.val ≠ 0)
    (e : Err I) (he : ∀ i, e = .r3FacFailed i → i = reporter)
    (ev : Package I (Parts V) e.round) (hev : SignedBy (machine E hashV) Message.part n j reporter ev) :
    verifyMessages E hashV sid j e ev ≠ .ok true := by
  intro hv
  have hfr := C46_aux_gen_no_framing E k hE hashV ids sid j (d j) (hd j hj) (c j) (hc j hj)
  have hall := fun m3 echos1 echos2 => C56_aux_gen E hashV sid j e (AuxGen.transcript (msg1 hashV (c j)) (msg2 (c j)) m3 echos1 echos2) _ (supply_genuine _ _)
    (supply_contains _ _ (by cases e <;> simp [Err.required]))
  have hver := fun m3 echos1 echos2 => (C56_aux_gen_verdict E hashV sid j e (msg1 hashV (c j)) (msg2 (c j)) m3 echos1 echos2).2.2
  -- the errors of round 2
  have round2 : e.round = 2 → Within e.required.current ev (AuxGen.transcript (msg1 hashV (c j)) (msg2 (c j)) noMsg3 ((ev.combined 1).getD .empty) .empty) → False := by
    intro hr hw
    have := verify_mono (E := E) (hashV := hashV) (sid := sid) (guilty := j) e hw true hv
    rw [← hall, hver, if_pos hr] at this
    exact hfr.1 e this
  cases e with
  | r2HashMismatch => exact round2 rfl (within2 h hj hev _)
  | r2PaillierModulusTooSmall => exact round2 rfl (within2 h hj hev _)
  | r2RPModulusTooSmall => exact round2 rfl (within2 h hj hev _)
  | r2PrmFailed => exact round2 rfl (within2 h hj hev _)
  | r3ModFailed =>
    obtain ⟨_, hrid, hv'⟩ := Out.bind_eq_ok.1 hv
    obtain ⟨_, -, hv'⟩ := Out.bind_eq_ok.1 hv'
    obtain ⟨psi, hpsi, -⟩ := Out.bind_eq_ok.1 hv'
    obtain ⟨echos, hechos, -⟩ := Out.bind_eq_ok.1 hrid
    have hcomb := Out.ofOption_eq_ok.1 hechos
    have hcur := Out.ofOption_eq_ok.1 hpsi
    obtain ⟨i, in1, in2, r3, m3, h3, hm3, -, hpart, hperm, -⟩ := third h hj hev hcur
    have hw := within3 h hj (need := [.normal]) hev m3 (by
      intro p hp x hx
      obtain rfl := List.mem_singleton.1 hp
      rw [hcur] at hx
      rw [← hx]; exact hpart)
    have := verify_mono (E := E) (hashV := hashV) (sid := sid) (guilty := j) .r3ModFailed hw true hv
    rw [← hall, hver, if_neg (by simp [Err.round]), hcomb, Option.getD_some, (hfr.2 in1 in2 r3 echos h3 (hperm echos hcomb) i m3 hm3).1] at this
    cases this
  | r3FacFailed k' =>
    obtain rfl := he k' rfl
    obtain ⟨_, -, hv'⟩ := Out.bind_eq_ok.1 hv
    obtain ⟨echos, hechos, hv'⟩ := Out.bind_eq_ok.1 hv'
    obtain ⟨_, -, hv'⟩ := Out.bind_eq_ok.1 hv'
    obtain ⟨_, -, hv'⟩ := Out.bind_eq_ok.1 hv'
    obtain ⟨psi, hpsi, -⟩ := Out.bind_eq_ok.1 hv'
    have hcomb := Out.ofOption_eq_ok.1 hechos
    have hcur := Out.ofOption_eq_ok.1 hpsi
    obtain ⟨i, in1, in2, r3, m3, h3, hm3, hrep, hpart, hperm, m2, y, hm2, hy, hy2⟩ := third h hj hev hcur
    obtain rfl := hrep rfl
    have hw := within3 h hj (need := [.direct]) hev m3 (by
      intro p hp x hx
      obtain rfl := List.mem_singleton.1 hp
      rw [hcur] at hx
      rw [← hx]; exact hpart)
    have := verify_mono (E := E) (hashV := hashV) (sid := sid) (guilty := j) (.r3FacFailed i) hw true hv
    obtain ⟨q1, q2, q3⟩ := hmask y hy i m2 hy2
    obtain ⟨q4, q5⟩ := msg3_valid (hc j hj) h3 hm2 hm3 (hd j hj).key.primes.prime_p.ne_zero q3
    rw [← hall, hver, if_neg (by simp [Err.round]), hcomb, Option.getD_some, (hfr.2 in1 in2 r3 echos h3 (hperm echos hcomb) i m3 hm3).2 m2 hm2 q1 q4 q5 q2] at this
    cases this

end AuxGen

section KeyRefresh

open KeyRefresh

variable {I F G Sid V : Type} [LinearOrder I] [Field F] [LinearOrder F] [AddCommGroup G] [Module F G] [DecidableEq G] [DecidableEq V]

/-- Some message of round 3 -/
private def noMsg3' : Msg3 I F := ⟨.empty, ⟨0, [], []⟩, ⟨⟨0, 0⟩, 0, 0, 0, 0, 0, ⟨0, 0⟩, ⟨0, 0⟩, ⟨0, 0⟩, ⟨0, 0⟩, ⟨0, 0⟩⟩, 0⟩

private theorem refresh_convincing (E : Env I Sid F G) (hg : E.g ≠ 0) (hashV : Sid → I → Hashed I G → V) (honest : Set I) (ids : Finset I) (sid : Sid) (d : I → Draws I F)
    (c : I → Context I F G Sid) (hc : ∀ i ∈ honest, start E ids sid i (d i) = .ok (c i))
    (n : Net I (Message I F G V) (State I F G Sid V) (Err I F) (KeyShareChange I F G × AuxInfo I PaillierKey PublicAux)) (h : (machine E hashV).Reachable honest (fun i => .one (c i)) n)
    (i j : I) (hi : i ∈ honest) (s : State I F G Sid V) (got : List (I × Message I F G V)) (hst : n.status i = .running s got) (hj : j ∈ (machine E hashV).expected s)
    (m : Message I F G V) (j' : I) (e : Err I F) (hm : (machine E hashV).recv s j m = .err (.fault j' e))
    (t : Transcript I (Parts I F G V)) (ht : Presents (machine E hashV) Message.part ids n i s j m t) :
    j' = j ∧ (machine E hashV).round s = e.round ∧ verifyMessages E hashV sid ids j e (supply t e.round e.required) = .ok true := by
  obtain ⟨hj', hr⟩ := refusal h hi hst hj hm
  refine ⟨hj', ?_⟩
  cases hr with
  | two in1 capVs v m2 x1 h1 hv hx1 e1 r1 hrec =>
    have a1 : ∀ p, t.msg 1 p = Message.part (.one v) 1 p := by
      intro p
      have := ht.earlier x1 hx1 (.one v) (by rw [e1]; exact List.mem_map.2 ⟨_, hv, rfl⟩) p
      rw [r1] at this
      exact this
    have a2 : ∀ p, t.msg 2 p = Message.part (.two m2) 2 p := ht.refused
    have hround : e.round = 2 := by
      have hev := (C45_refresh_round2 E hashV (c i) in1 capVs h1 j v hv m2).1 e hrec
      cases e with
      | r3ModFailed | r3FacFailed | r3ShareChangeMismatch | r3WrongIdsHatPsi | r3SchFailed => cases hev
      | _ => rfl
    refine ⟨hround.symm, ?_⟩
    rw [← (C56_refresh_blame E hg hashV ids sid i (d i) (c i) (hc i hi) in1 capVs h1 j v hv m2 (noMsg3' : Msg3 I F) .empty .empty .empty).1 e hrec]
    congr 1
    have b1 : t.msg 1 .echo = some v := a1 .echo
    cases e with
    | r3ModFailed | r3FacFailed | r3ShareChangeMismatch | r3WrongIdsHatPsi | r3SchFailed => cases hround
    | _ => exact supply_congr (fun p _ => (a2 p).trans (by cases p <;> rfl)) (by simp [Err.required, b1, KeyRefresh.transcript]) (by simp [Err.required])
  | three in1 in2 capVs r3 out v m2 m3 x1 x2 h1 hv hm2 hx1 e1 r1 hx2 e2 r2 hs2 h3 hrec =>
    obtain ⟨capVs', hs2⟩ := hs2
    have a2 : ∀ p, t.msg 2 p = Message.part (.two m2) 2 p := by
      intro p
      have := ht.earlier x2 hx2 (.two m2) (by rw [e2]; exact List.mem_map.2 ⟨_, hm2, rfl⟩) p
      rw [r2] at this
      exact this
    have a3 : ∀ p, t.msg 3 p = Message.part (.three m3) 3 p := ht.refused
    have hec : EchosAgainst ids i j (msg2 (c i)).echo (in2.map fun a => (a.1, a.2.echo)) (t.combined 2) := by
      have hj2 : j ∈ (c i).otherIds := by rw [← toRound3_ctx h3]; exact hj
      have := ht.echos x2 hx2 (j, .two (msg2 (c i))) (by rw [hs2]; exact mem_toAll.2 ⟨hj2, rfl⟩)
      rw [r2, e2, echosOf_two] at this
      exact this _ rfl
    have hround : e.round = 3 := by
      have hev := (C45_refresh_round3 E hg hashV ids sid i (d i) (c i) (hc i hi) in1 in2 r3 h3 j m2 hm2 m3 (t.combined 2) hec).1 e hrec
      cases e with
      | r3ModFailed | r3FacFailed | r3ShareChangeMismatch | r3WrongIdsHatPsi | r3SchFailed => rfl
      | _ => cases hev
    refine ⟨hround.symm, ?_⟩
    rw [← (C56_refresh_blame E hg hashV ids sid i (d i) (c i) (hc i hi) in1 capVs h1 j v hv m2 m3 .empty (t.combined 2) .empty).2 in2 r3 e h3 hm2 hec hrec]
    congr 1
    have b1 : t.msg 2 .echo = some m2.echo := a2 .echo
    have b2 : t.msg 2 .normal = some ⟨m2.capXs, m2.capAs, m2.pk, m2.psi, m2.u⟩ := a2 .normal
    cases e with
    | r3ModFailed | r3FacFailed | r3ShareChangeMismatch | r3WrongIdsHatPsi | r3SchFailed =>
      exact supply_congr (fun p _ => (a3 p).trans (by cases p <;> rfl)) (by simp [Err.required, b1, b2, KeyRefresh.transcript]) (by simp [Err.required, KeyRefresh.transcript])
    | _ => cases hround

/-- **C86 (key refresh, evidence convinces).** The same as `C86_key_init_convincing` for key refresh. -/
theorem C86_refresh_convincing (E : Env I Sid F G) (hg : E.g ≠ 0) (hashV : Sid → I → Hashed I G → V) (honest : Set I) (ids : Finset I) (sid : Sid) (d : I → Draws I F)
    (c : I → Context I F G Sid) (hc : ∀ i ∈ honest, start E ids sid i (d i) = .ok (c i))
    (n : Net I (Message I F G V) (State I F G Sid V) (Err I F) (KeyShareChange I F G × AuxInfo I PaillierKey PublicAux)) (h : (machine E hashV).Reachable honest (fun i => .one (c i)) n)
    (i j : I) (hi : i ∈ honest) (s : State I F G Sid V) (got : List (I × Message I F G V)) (hst : n.status i = .running s got) (hj : j ∈ (machine E hashV).expected s)
    (m : Message I F G V) (j' : I) (e : Err I F) (hm : (machine E hashV).recv s j m = .err (.fault j' e)) :
    j' = j ∧ (machine E hashV).round s = e.round ∧ (∃ t, Presents (machine E hashV) Message.part ids n i s j m t) ∧
      ∀ t : Transcript I (Parts I F G V), Presents (machine E hashV) Message.part ids n i s j m t →
        verifyMessages E hashV sid ids j e (supply t e.round e.required) = .ok true := by
  have hoth : i ∈ ids ∧ (c i).otherIds = ids.erase i := by
    obtain ⟨hme, -, _, _, -, -, hci⟩ := start_ok (hc i hi)
    exact ⟨hme, by rw [hci]; rfl⟩
  obtain ⟨t, ht⟩ := presentable h hi hoth.1 hoth.2 hst hj m
  have hall := fun t ht => refresh_convincing E hg hashV honest ids sid d c hc n h i j hi s got hst hj m j' e hm t ht
  exact ⟨(hall t ht).1, (hall t ht).2.1, ⟨t, ht⟩, fun t ht => (hall t ht).2.2⟩

/-- **C86 (key refresh, nobody is framed).** The same as `C86_key_init_unframed` for key refresh, if the ring-Pedersen moduli that the party received have the size of the type they are sent in, and
the draws of the party are valid. Direct messages can only be presented by those they were sent to. -/
theorem C86_refresh_unframed (E : Env I Sid F G) (hg : E.g ≠ 0) (k : Nat) (hE : HashesValid E.aux k) (hashV : Sid → I → Hashed I G → V) (honest : Set I) (ids : Finset I) (sid : Sid) (d : I → Draws I F)
    (hd : ∀ i ∈ honest, DrawsValid E.aux k (d i).aux) (c : I → Context I F G Sid) (hc : ∀ i ∈ honest, start E ids sid i (d i) = .ok (c i))
    (n : Net I (Message I F G V) (State I F G Sid V) (Err I F) (KeyShareChange I F G × AuxInfo I PaillierKey PublicAux)) (h : (machine E hashV).Reachable honest (fun i => .one (c i)) n)
    (j reporter : I) (hj : j ∈ honest)
    (hmask : ∀ x ∈ n.past j, ∀ i m, (i, .two m) ∈ x.2 → m.echo.rp.modulus < 2 ^ E.aux.P.modBits ∧
      FacDrawsValid E.aux.P ((d j).aux.p * (d j).aux.q) m.echo.rp.modulus ((d j).aux.facMasks i) ∧ ((d j).aux.facMasks i).mu.val ≠ 0)
    (e : Err I F) (he : ∀ i, (e = .r3FacFailed i ∨ ∃ y, e = .r3ShareChangeMismatch i y) → i = reporter)
    (ev : Package I (Parts I F G V) e.round) (hev : SignedBy (machine E hashV) Message.part n j reporter ev) :
    verifyMessages E hashV sid ids j e ev ≠ .ok true := by
  intro hv
  have hfr := C46_refresh_no_framing E hg k hE hashV ids sid j (d j) (hd j hj) (c j) (hc j hj)
  have hall := fun m3 echos1 echos2 echos3 => C56_refresh E hashV sid ids j e (KeyRefresh.transcript (msg1 hashV (c j)) (msg2 (c j)) m3 echos1 echos2 echos3) _ (supply_genuine _ _)
    (supply_contains _ _ (by cases e <;> simp [Err.required]))
  have hver := fun m3 echos1 echos2 echos3 => (C56_refresh_verdict E hashV sid ids j e (msg1 hashV (c j)) (msg2 (c j)) m3 echos1 echos2 echos3).2.2
  -- the errors of round 2
  have round2 : e.round = 2 → Within e.required.current ev (KeyRefresh.transcript (msg1 hashV (c j)) (msg2 (c j)) (noMsg3' : Msg3 I F) ((ev.combined 1).getD .empty) .empty .empty) → False := by
    intro hr hw
    have := verify_mono (E := E) (hashV := hashV) (sid := sid) (ids := ids) (guilty := j) e hw true hv
    rw [← hall, hver, if_pos hr] at this
    exact hfr.1 e this
  cases e with
  | r2HashMismatch => exact round2 rfl (within2 h hj hev _)
  | r2WrongIdsX => exact round2 rfl (within2 h hj hev _)
  | r2WrongIdsY => exact round2 rfl (within2 h hj hev _)
  | r2WrongIdsA => exact round2 rfl (within2 h hj hev _)
  | r2PaillierModulusTooSmall => exact round2 rfl (within2 h hj hev _)
  | r2RPModulusTooSmall => exact round2 rfl (within2 h hj hev _)
  | r2NonZeroSumOfChanges => exact round2 rfl (within2 h hj hev _)
  | r2PrmFailed => exact round2 rfl (within2 h hj hev _)
  | r3ModFailed =>
    obtain ⟨_, hrid, hv'⟩ := Out.bind_eq_ok.1 hv
    obtain ⟨echos, hechos, -⟩ := Out.bind_eq_ok.1 hrid
    have hcomb := Out.ofOption_eq_ok.1 hechos
    obtain ⟨_, -, hv'⟩ := Out.bind_eq_ok.1 hv'
    obtain ⟨psi, hpsi, -⟩ := Out.bind_eq_ok.1 hv'
    have hcur := Out.ofOption_eq_ok.1 hpsi
    obtain ⟨i, in1, in2, r3, m3, h3, hm3, hrep, hpart, hperm, m2, y, hm2, hy, hy2⟩ := third h hj hev hcur
    have hw := within3 h hj (need := [.normal]) hev m3 (by
      intro p hp x hx
      obtain rfl := List.mem_singleton.1 hp
      rw [hcur] at hx
      rw [← hx]; exact hpart)
    have := verify_mono (E := E) (hashV := hashV) (sid := sid) (ids := ids) (guilty := j) .r3ModFailed hw true hv
    rw [← hall, hver, if_neg (by simp [Err.round]), hcomb, Option.getD_some, (hfr.2 in1 in2 r3 echos h3 (hperm echos hcomb) i m2 hm2 m3 hm3).2.1] at this
    cases this
  | r3SchFailed k' =>
    obtain ⟨_, hrid, hv'⟩ := Out.bind_eq_ok.1 hv
    obtain ⟨echos, hechos, -⟩ := Out.bind_eq_ok.1 hrid
    have hcomb := Out.ofOption_eq_ok.1 hechos
    obtain ⟨_, -, hv'⟩ := Out.bind_eq_ok.1 hv'
    obtain ⟨psi, hpsi, -⟩ := Out.bind_eq_ok.1 hv'
    have hcur := Out.ofOption_eq_ok.1 hpsi
    obtain ⟨i, in1, in2, r3, m3, h3, hm3, hrep, hpart, hperm, m2, y, hm2, hy, hy2⟩ := third h hj hev hcur
    have hw := within3 h hj (need := [.echo]) hev m3 (by
      intro p hp x hx
      obtain rfl := List.mem_singleton.1 hp
      rw [hcur] at hx
      rw [← hx]; exact hpart)
    have := verify_mono (E := E) (hashV := hashV) (sid := sid) (ids := ids) (guilty := j) (.r3SchFailed k') hw true hv
    rw [← hall, hver, if_neg (by simp [Err.round]), hcomb, Option.getD_some] at this
    exact (hfr.2 in1 in2 r3 echos h3 (hperm echos hcomb) i m2 hm2 m3 hm3).2.2.2.1 k' this
  | r3WrongIdsHatPsi =>
    obtain ⟨psi, hpsi, -⟩ := Out.bind_eq_ok.1 hv
    have hcur := Out.ofOption_eq_ok.1 hpsi
    obtain ⟨i, in1, in2, r3, m3, h3, hm3, hrep, hpart, hperm, m2, y, hm2, hy, hy2⟩ := third h hj hev hcur
    have hw := within3 h hj (need := [.echo]) hev m3 (by
      intro p hp x hx
      obtain rfl := List.mem_singleton.1 hp
      rw [hcur] at hx
      rw [← hx]; exact hpart)
    have := verify_mono (E := E) (hashV := hashV) (sid := sid) (ids := ids) (guilty := j) .r3WrongIdsHatPsi hw true hv
    rw [← hall, hver, if_neg (by simp [Err.round])] at this
    obtain ⟨_, -, h3'⟩ := Out.bind_eq_ok.1 h3
    obtain ⟨_, h2, -⟩ := Out.bind_eq_ok.1 h3'
    obtain ⟨echos, he⟩ := BMap.exists_entries (l := in2.map fun a => (a.1, a.2.echo)) (by rw [List.map_map]; exact (collect_eq_ok.1 h2).1)
    have h2 := (hfr.2 in1 in2 r3 echos h3 he i m2 hm2 m3 hm3).2.2.1
    rw [show evidence3 E sid ids j (msg2 (c j)) m3 echos .r3WrongIdsHatPsi = .ok true from this] at h2
    cases h2
  | r3FacFailed k' =>
    obtain rfl := he k' (.inl rfl)
    obtain ⟨_, -, hv'⟩ := Out.bind_eq_ok.1 hv
    obtain ⟨echos, hechos, hv'⟩ := Out.bind_eq_ok.1 hv'
    obtain ⟨_, -, hv'⟩ := Out.bind_eq_ok.1 hv'
    obtain ⟨_, -, hv'⟩ := Out.bind_eq_ok.1 hv'
    obtain ⟨psi, hpsi, -⟩ := Out.bind_eq_ok.1 hv'
    have hcomb := Out.ofOption_eq_ok.1 hechos
    have hcur := Out.ofOption_eq_ok.1 hpsi
    obtain ⟨i, in1, in2, r3, m3, h3, hm3, hrep, hpart, hperm, m2, y, hm2, hy, hy2⟩ := third h hj hev hcur
    obtain rfl := hrep rfl
    have hw := within3 h hj (need := [.direct]) hev m3 (by
      intro p hp x hx
      obtain rfl := List.mem_singleton.1 hp
      rw [hcur] at hx
      rw [← hx]; exact hpart)
    have := verify_mono (E := E) (hashV := hashV) (sid := sid) (ids := ids) (guilty := j) (.r3FacFailed i) hw true hv
    obtain ⟨q1, q2, q3⟩ := hmask y hy i m2 hy2
    obtain ⟨q4, q5⟩ := msg3_valid (hc j hj) h3 hm2 hm3 (hd j hj).key.primes.prime_p.ne_zero q3
    rw [← hall, hver, if_neg (by simp [Err.round]), hcomb, Option.getD_some, (hfr.2 in1 in2 r3 echos h3 (hperm echos hcomb) i m2 hm2 m3 hm3).2.2.2.2 q1 q4 q5 q2] at this
    cases this
  | r3ShareChangeMismatch k' v =>
    obtain rfl := he k' (.inr ⟨_, rfl⟩)
    obtain ⟨echos, hechos, hv'⟩ := Out.bind_eq_ok.1 hv
    obtain ⟨_, -, hv'⟩ := Out.bind_eq_ok.1 hv'
    obtain ⟨_, -, hv'⟩ := Out.bind_eq_ok.1 hv'
    split at hv'
    · cases hv'
    obtain ⟨_, -, hv'⟩ := Out.bind_eq_ok.1 hv'
    obtain ⟨_, -, hv'⟩ := Out.bind_eq_ok.1 hv'
    obtain ⟨_, -, hv'⟩ := Out.bind_eq_ok.1 hv'
    obtain ⟨_, -, hv'⟩ := Out.bind_eq_ok.1 hv'
    obtain ⟨psi, hpsi, -⟩ := Out.bind_eq_ok.1 hv'
    have hcomb := Out.ofOption_eq_ok.1 hechos
    have hcur := Out.ofOption_eq_ok.1 hpsi
    obtain ⟨i, in1, in2, r3, m3, h3, hm3, hrep, hpart, hperm, m2, y, hm2, hy, hy2⟩ := third h hj hev hcur
    obtain rfl := hrep rfl
    have hw := within3 h hj (need := [.direct]) hev m3 (by
      intro p hp x hx
      obtain rfl := List.mem_singleton.1 hp
      rw [hcur] at hx
      rw [← hx]; exact hpart)
    have := verify_mono (E := E) (hashV := hashV) (sid := sid) (ids := ids) (guilty := j) (.r3ShareChangeMismatch i v) hw true hv
    rw [← hall, hver, if_neg (by simp [Err.round]), hcomb, Option.getD_some] at this
    exact (hfr.2 in1 in2 r3 echos h3 (hperm echos hcomb) i m2 hm2 m3 hm3).1 v this

end KeyRefresh

section Examples

attribute [local instance] Toy.fact11 Toy.order11

private theorem gather_two {M A E : Type} {part : M → Option A} {recv : Nat → A → Out (RecvErr E) A} {expected : Finset Nat} (he : expected = {2, 3}) {x y : M} {v w : A}
    (hx : part x = some v) (hy : part y = some w) (h2 : recv 2 v = .ok v) (h3 : recv 3 w = .ok w) :
    gather expected part recv [(2, x), (3, y)] = .ok (BMap.tabulate {2, 3} fun k => if k = 2 then v else w) := by
  refine gather_eq_ok.2 ⟨by simp, by rw [he]; rfl, by rw [he]; simp, ?_⟩
  intro a ha
  simp only [List.mem_cons, List.not_mem_nil, or_false] at ha
  rcases ha with rfl | rfl
  · exact ⟨v, v, hx, h2, (BMap.get?_tabulate ..).trans (by simp)⟩
  · exact ⟨w, w, hy, h3, (BMap.get?_tabulate ..).trans (by simp)⟩

/-- The hypotheses of `C86_key_init_convincing` and `C86_key_init_unframed` can be met: the honest party 1 refuses what the party 3 opens, and has itself signed messages that could be presented as evidence. -/
example : ∃ (n : Spec.Net Nat _ _ _ _) (s : _), (∀ i ∈ ({1, 2} : Set Nat), KeyInit.start (1 : ZMod 11) {1, 2, 3} 7 i (kgDraws i) = .ok (kgCtx i)) ∧
    (KeyInit.machine kgHashV kgH (1 : ZMod 11)).Reachable {1, 2} (fun i => .one (kgCtx i)) n ∧ n.status 1 = .running s [] ∧ 3 ∈ (KeyInit.machine kgHashV kgH (1 : ZMod 11)).expected s ∧
    (KeyInit.machine kgHashV kgH (1 : ZMod 11)).recv s 3 (.two (KeyInit.msg2 (kgCtx 3))) = .err (.fault 3 .r2HashMismatch) ∧
    ∀ m3 e1 e2, SignedBy (KeyInit.machine kgHashV kgH (1 : ZMod 11)) KeyInit.Message.part n 1 2 (supply (KeyInit.transcript (KeyInit.msg1 kgHashV (kgCtx 1)) (KeyInit.msg2 (kgCtx 1)) m3 e1 e2 : Transcript Nat (KeyInit.Parts (ZMod 11) (ZMod 11) (Nat × Nat × KeyInit.PublicData (ZMod 11)))) 2 (KeyInit.Err.required .r2HashMismatch)) := by
  have hg := gather_two (part := KeyInit.Message.one? (F := ZMod 11) (G := ZMod 11)) (recv := KeyInit.recv1 (I := Nat) (V := Nat × Nat × KeyInit.PublicData (ZMod 11)))
    (expected := (kgCtx 1).otherIds) (by decide) (x := .one (KeyInit.msg1 kgHashV (kgCtx 2))) (y := .one (0, (KeyInit.msg1 kgHashV (kgCtx 3)).2)) rfl rfl rfl rfl
  obtain ⟨n, hn, hst', hb1, hb2⟩ := Machine.exists_second (P := KeyInit.machine kgHashV kgH (1 : ZMod 11)) (honest := {1, 2}) (init := fun i => .one (kgCtx i)) (i := 1)
    (s := .two ⟨kgCtx 1, BMap.tabulate {2, 3} fun k => if k = 2 then KeyInit.msg1 kgHashV (kgCtx 2) else (0, (KeyInit.msg1 kgHashV (kgCtx 3)).2)⟩) (by simp) (Signing.gather_complete hg)
    (fun a ha hj => by
      simp only [List.mem_cons, List.not_mem_nil, or_false] at ha
      rcases ha with rfl | rfl
      · exact ⟨rfl, Signing.in_toAll (by decide)⟩
      · simp at hj)
    (by simp only [KeyInit.machine, hg, Out.bind_ok])
  refine ⟨n, _, fun i hi => kgStart i (by rcases hi with rfl | rfl <;> simp), hn, hst', (show 3 ∈ (kgCtx 1).otherIds by decide), rfl, ?_⟩
  intro m3 e1 e2
  have h2 : 2 ∈ (kgCtx 1).otherIds := by decide
  have s1 : (KeyInit.machine kgHashV kgH (1 : ZMod 11)).Sent n 1 2 1 (.one (KeyInit.msg1 kgHashV (kgCtx 1))) := ⟨_, hb1, rfl, Signing.in_toAll h2⟩
  have s2 : (KeyInit.machine kgHashV kgH (1 : ZMod 11)).Sent n 1 2 2 (.two (KeyInit.msg2 (kgCtx 1))) := ⟨_, hb2, rfl, Signing.in_toAll h2⟩
  refine ⟨?_, ?_, ?_⟩
  · intro p x hx
    cases p with
    | echo => exact ⟨2, _, s2, fun h => rfl, hx⟩
    | normal => exact ⟨2, _, s2, fun h => rfl, hx⟩
    | direct => cases hx
  · intro r msg p x hmsg hx
    by_cases hr : r = 1
    · subst hr
      cases hmsg
      cases p with
      | echo => exact ⟨2, _, s1, fun h => rfl, hx⟩
      | normal => cases hx
      | direct => cases hx
    · simp [supply, KeyInit.Err.required, List.lookup, show (r == 1) = false by simpa using hr] at hmsg
  · intro r echos he
    simp [supply, KeyInit.Err.required] at he

/-- The hypotheses of `C86_aux_gen_convincing` and `C86_aux_gen_unframed` can be met: the honest party 1 refuses what the party 3 opens, and has itself signed messages that could be presented as evidence. -/
example : ∃ (ctx : Nat → AuxGen.Context Nat Nat) (n : Spec.Net Nat _ _ _ _) (s : _), (∀ i ∈ ({1, 2} : Set Nat), AuxGen.start Toy.auxEnv {1, 2, 3} 7 i (Toy.auxDraws i) = .ok (ctx i)) ∧
    (AuxGen.machine Toy.auxEnv agHashV).Reachable {1, 2} (fun i => .one (ctx i)) n ∧ n.status 1 = .running s [] ∧ 3 ∈ (AuxGen.machine Toy.auxEnv agHashV).expected s ∧
    (AuxGen.machine Toy.auxEnv agHashV).recv s 3 (.two (AuxGen.msg2 (ctx 3))) = .err (.fault 3 .r2HashMismatch) ∧
    ∀ m3 e1 e2, SignedBy (AuxGen.machine Toy.auxEnv agHashV) AuxGen.Message.part n 1 2 (supply (AuxGen.transcript (AuxGen.msg1 agHashV (ctx 1)) (AuxGen.msg2 (ctx 1)) m3 e1 e2 : Transcript Nat (AuxGen.Parts (Nat × Nat × AuxGen.Hashed))) 2 (AuxGen.Err.required (.r2HashMismatch : AuxGen.Err Nat))) := by
  have hst : ∀ i ∈ ({1, 2, 3} : Finset Nat), ∃ c, AuxGen.start Toy.auxEnv ({1, 2, 3} : Finset Nat) 7 i (Toy.auxDraws i) = .ok c := by
    intro i hi
    obtain ⟨c, h, _⟩ := C54_start Toy.auxEnv 2 {1, 2, 3} 7 i hi (Toy.auxDraws i) (Toy.auxDraws_valid i (by simp at hi; omega))
    exact ⟨c, h⟩
  have : Nonempty (AuxGen.Context Nat Nat) := ⟨(hst 1 (by decide)).choose⟩
  obtain ⟨ctx, hctx⟩ := exists_fun hst
  have hoth : ∀ i ∈ ({1, 2, 3} : Finset Nat), (ctx i).otherIds = ({1, 2, 3} : Finset Nat).erase i := by
    intro i hi
    obtain ⟨-, -, sk, -, hcc⟩ := AuxGen.start_ok (hctx i hi)
    rw [hcc]
  have hsid : (ctx 1).sid = 7 := by
    obtain ⟨-, -, sk, -, hcc⟩ := AuxGen.start_ok (hctx 1 (by decide))
    rw [hcc]
  have hg := gather_two (part := AuxGen.Message.one? (V := Nat × Nat × AuxGen.Hashed)) (recv := AuxGen.recv1 (I := Nat) (V := Nat × Nat × AuxGen.Hashed))
    (expected := (ctx 1).otherIds) (by rw [hoth 1 (by decide)]; decide) (x := .one (AuxGen.msg1 agHashV (ctx 2))) (y := .one (0, (AuxGen.msg1 agHashV (ctx 3)).2)) rfl rfl rfl rfl
  obtain ⟨n, hn, hst', hb1, hb2⟩ := Machine.exists_second (P := AuxGen.machine Toy.auxEnv agHashV) (honest := {1, 2}) (init := fun i => .one (ctx i)) (i := 1)
    (s := .two (ctx 1) (BMap.tabulate {2, 3} fun k => if k = 2 then AuxGen.msg1 agHashV (ctx 2) else (0, (AuxGen.msg1 agHashV (ctx 3)).2))) (by simp) (Signing.gather_complete hg)
    (fun a ha hj => by
      simp only [List.mem_cons, List.not_mem_nil, or_false] at ha
      rcases ha with rfl | rfl
      · exact ⟨rfl, Signing.in_toAll (by rw [hoth 2 (by decide)]; decide)⟩
      · simp at hj)
    (by simp only [AuxGen.machine, hg, Out.bind_ok])
  refine ⟨ctx, n, _, fun i hi => hctx i (by rcases hi with rfl | rfl <;> simp), hn, hst', (show 3 ∈ (ctx 1).otherIds by rw [hoth 1 (by decide)]; decide), (by
      obtain ⟨-, -, sk, -, hcc⟩ := AuxGen.start_ok (hctx 3 (by decide))
      have hacc := AuxGen.hdata_accepted Toy.auxEnv_valid (Toy.auxDraws_valid 3 (by omega)) 7 3 agHashV
        (BMap.tabulate {3} fun _ => agHashV 7 3 (AuxGen.hdata Toy.auxEnv 7 3 (Toy.auxDraws 3)).hashed) ((BMap.get?_tabulate ..).trans (by simp))
      unfold AuxGen.recv2 at hacc
      obtain ⟨data, hdata, -⟩ := Out.bind_eq_ok.1 hacc
      show (received 3 (AuxGen.recv2 Toy.auxEnv agHashV (ctx 1).sid _ 3 (AuxGen.msg2 (ctx 3)))).bind _ = _
      have hm : AuxGen.msg2 (ctx 3) = (AuxGen.hdata Toy.auxEnv 7 3 (Toy.auxDraws 3)).msg2 := by rw [hcc]; rfl
      rw [hm, hsid]
      unfold AuxGen.recv2
      rw [hdata, Out.bind_ok]
      unfold recvGet
      rw [BMap.get?_tabulate]
      simp [agHashV, received]), ?_⟩
  intro m3 e1 e2
  have h2 : 2 ∈ (ctx 1).otherIds := by rw [hoth 1 (by decide)]; decide
  have s1 : (AuxGen.machine Toy.auxEnv agHashV).Sent n 1 2 1 (.one (AuxGen.msg1 agHashV (ctx 1))) := ⟨_, hb1, rfl, Signing.in_toAll h2⟩
  have s2 : (AuxGen.machine Toy.auxEnv agHashV).Sent n 1 2 2 (.two (AuxGen.msg2 (ctx 1))) := ⟨_, hb2, rfl, Signing.in_toAll h2⟩
  refine ⟨?_, ?_, ?_⟩
  · intro p x hx
    cases p with
    | echo => exact ⟨2, _, s2, fun h => rfl, hx⟩
    | normal => exact ⟨2, _, s2, fun h => rfl, hx⟩
    | direct => cases hx
  · intro r msg p x hmsg hx
    by_cases hr : r = 1
    · subst hr
      cases hmsg
      cases p with
      | echo => exact ⟨2, _, s1, fun h => rfl, hx⟩
      | normal => cases hx
      | direct => cases hx
    · simp [supply, AuxGen.Err.required, List.lookup, show (r == 1) = false by simpa using hr] at hmsg
  · intro r echos he
    simp [supply, AuxGen.Err.required] at he

/-- The hypotheses of `C86_refresh_convincing` and `C86_refresh_unframed` can be met: the honest party 1 refuses what the party 3 opens, and has itself signed messages that could be presented as evidence. -/
example : ∃ (ctx : Nat → KeyRefresh.Context Nat (ZMod 11) (ZMod 11) Nat) (n : Spec.Net Nat _ _ _ _) (s : _), (∀ i ∈ ({1, 2} : Set Nat), KeyRefresh.start refreshCaseEnv {1, 2, 3} 7 i (refreshCaseDraws i) = .ok (ctx i)) ∧
    (KeyRefresh.machine refreshCaseEnv refreshCaseHash).Reachable {1, 2} (fun i => .one (ctx i)) n ∧ n.status 1 = .running s [] ∧ 3 ∈ (KeyRefresh.machine refreshCaseEnv refreshCaseHash).expected s ∧
    (KeyRefresh.machine refreshCaseEnv refreshCaseHash).recv s 3 (.two (KeyRefresh.msg2 (ctx 3))) = .err (.fault 3 .r2HashMismatch) ∧
    ∀ m3 e1 e2 e3, SignedBy (KeyRefresh.machine refreshCaseEnv refreshCaseHash) KeyRefresh.Message.part n 1 2 (supply (KeyRefresh.transcript (KeyRefresh.msg1 refreshCaseHash (ctx 1)) (KeyRefresh.msg2 (ctx 1)) m3 e1 e2 e3 : Transcript Nat (KeyRefresh.Parts Nat (ZMod 11) (ZMod 11) (Nat × Nat × KeyRefresh.Hashed Nat (ZMod 11)))) 2 (KeyRefresh.Err.required (.r2HashMismatch : KeyRefresh.Err Nat (ZMod 11)))) := by
  have hst : ∀ i ∈ ({1, 2, 3} : Finset Nat), ∃ c, KeyRefresh.start refreshCaseEnv ({1, 2, 3} : Finset Nat) 7 i (refreshCaseDraws i) = .ok c :=
    fun i hi => (C38_start refreshCaseEnv 2 {1, 2, 3} 7 i (refreshCaseDraws i) (Toy.auxDraws_valid i (by simp at hi; omega))).1 hi
  have : Nonempty (KeyRefresh.Context Nat (ZMod 11) (ZMod 11) Nat) := ⟨(hst 1 (by decide)).choose⟩
  obtain ⟨ctx, hctx⟩ := exists_fun hst
  have hoth : ∀ i ∈ ({1, 2, 3} : Finset Nat), (ctx i).otherIds = ({1, 2, 3} : Finset Nat).erase i := by
    intro i hi
    obtain ⟨-, -, sk, y, -, -, hcc⟩ := KeyRefresh.start_ok (hctx i hi)
    rw [hcc]
    rfl
  have hsid : (ctx 1).sid = 7 := by
    obtain ⟨-, -, sk, y, -, -, hcc⟩ := KeyRefresh.start_ok (hctx 1 (by decide))
    rw [hcc]
    rfl
  have hg := gather_two (part := KeyRefresh.Message.one? (I := Nat) (F := ZMod 11) (G := ZMod 11) (V := Nat × Nat × KeyRefresh.Hashed Nat (ZMod 11))) (recv := KeyRefresh.recv1 (I := Nat) (F := ZMod 11) (V := Nat × Nat × KeyRefresh.Hashed Nat (ZMod 11)))
    (expected := (ctx 1).otherIds) (by rw [hoth 1 (by decide)]; decide) (x := .one (KeyRefresh.msg1 refreshCaseHash (ctx 2))) (y := .one (0, (KeyRefresh.msg1 refreshCaseHash (ctx 3)).2)) rfl rfl rfl rfl
  obtain ⟨n, hn, hst', hb1, hb2⟩ := Machine.exists_second (P := KeyRefresh.machine refreshCaseEnv refreshCaseHash) (honest := {1, 2}) (init := fun i => .one (ctx i)) (i := 1)
    (s := .two (ctx 1) (BMap.tabulate {2, 3} fun k => if k = 2 then KeyRefresh.msg1 refreshCaseHash (ctx 2) else (0, (KeyRefresh.msg1 refreshCaseHash (ctx 3)).2))) (by simp) (Signing.gather_complete hg)
    (fun a ha hj => by
      simp only [List.mem_cons, List.not_mem_nil, or_false] at ha
      rcases ha with rfl | rfl
      · exact ⟨rfl, Signing.in_toAll (by rw [hoth 2 (by decide)]; decide)⟩
      · simp at hj)
    (by simp only [KeyRefresh.machine, hg, Out.bind_ok])
  refine ⟨ctx, n, _, fun i hi => hctx i (by rcases hi with rfl | rfl <;> simp), hn, hst', (show 3 ∈ (ctx 1).otherIds by rw [hoth 1 (by decide)]; decide), (by
      obtain ⟨-, -, sk, y, -, hy, hcc⟩ := KeyRefresh.start_ok (hctx 3 (by decide))
      have hacc := KeyRefresh.hdata_accepted (E := refreshCaseEnv) Toy.auxEnv_valid (d := refreshCaseDraws 3) (Toy.auxDraws_valid 3 (by omega)) 7 3 hy refreshCaseHash
        (BMap.tabulate {3} fun _ => refreshCaseHash 7 3 (KeyRefresh.hdata refreshCaseEnv {1, 2, 3} 7 3 (refreshCaseDraws 3) y).hashed) ((BMap.get?_tabulate ..).trans (by simp))
      unfold KeyRefresh.recv2 at hacc
      obtain ⟨data, hdata, -⟩ := Out.bind_eq_ok.1 hacc
      show (received 3 (KeyRefresh.recv2 refreshCaseEnv refreshCaseHash (ctx 1).sid _ _ 3 (KeyRefresh.msg2 (ctx 3)))).bind _ = _
      have hm : KeyRefresh.msg2 (ctx 3) = (KeyRefresh.hdata refreshCaseEnv {1, 2, 3} 7 3 (refreshCaseDraws 3) y).msg2 := by rw [hcc]; rfl
      rw [hm, hsid]
      unfold KeyRefresh.recv2
      rw [hdata, Out.bind_ok]
      unfold recvGet
      rw [BMap.get?_tabulate]
      simp [refreshCaseHash, received]), ?_⟩
  intro m3 e1 e2 e3
  have h2 : 2 ∈ (ctx 1).otherIds := by rw [hoth 1 (by decide)]; decide
  have s1 : (KeyRefresh.machine refreshCaseEnv refreshCaseHash).Sent n 1 2 1 (.one (KeyRefresh.msg1 refreshCaseHash (ctx 1))) := ⟨_, hb1, rfl, Signing.in_toAll h2⟩
  have s2 : (KeyRefresh.machine refreshCaseEnv refreshCaseHash).Sent n 1 2 2 (.two (KeyRefresh.msg2 (ctx 1))) := ⟨_, hb2, rfl, Signing.in_toAll h2⟩
  refine ⟨?_, ?_, ?_⟩
  · intro p x hx
    cases p with
    | echo => exact ⟨2, _, s2, fun h => rfl, hx⟩
    | normal => exact ⟨2, _, s2, fun h => rfl, hx⟩
    | direct => cases hx
  · intro r msg p x hmsg hx
    by_cases hr : r = 1
    · subst hr
      cases hmsg
      cases p with
      | echo => exact ⟨2, _, s1, fun h => rfl, hx⟩
      | normal => cases hx
      | direct => cases hx
    · simp [supply, KeyRefresh.Err.required, List.lookup, show (r == 1) = false by simpa using hr] at hmsg
  · intro r echos he
    simp [supply, KeyRefresh.Err.required] at he

end Examples

end Synedrion.Props
