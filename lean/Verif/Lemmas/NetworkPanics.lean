import Verif.Lemmas.NetworkWith
import Verif.Lemmas.SigningErrBlame
import Verif.Lemmas.TrapSetup
import Verif.Spec.Harmless

/-!
# Panics in executions, seen as panics of one party on its own
-/

set_option linter.unusedSectionVars false

namespace Synedrion

/-! ### Honest messages are harmless -/

theorem powSecret_isUnit {n : Nat} [NeZero n] {a b : ZMod n} {e : SInt} (h : (powSecret a e : Out ε _) = .ok b) : IsUnit b := by
  unfold powSecret at h
  split at h
  · simp only at h
    cases hi : invMod? (powBounded a e.val.natAbs e.bound) with
    | none => rw [hi] at h; cases h
    | some x =>
      obtain ⟨u, hu, hx⟩ := invMod?_eq_some hi
      rw [hi, Out.ofOptionPanic_some, Out.bind_ok] at h
      rw [← Out.ok.inj h]
      split
      · rw [hx]; exact Units.isUnit _
      · rw [← hu]; exact Units.isUnit _
  · cases h

theorem commitSecret_isUnit {n : Nat} [NeZero n] {rp : RPParams n} {a r : SInt} {b : ZMod n} (h : (rp.commitSecret a r : Out ε _) = .ok b) : IsUnit b := by
  unfold RPParams.commitSecret at h
  simp only [Out.bind_eq_ok] at h
  obtain ⟨x, hx, y, hy, he⟩ := h
  rw [← Out.ok.inj he]
  exact (powSecret_isUnit hx).mul (powSecret_isUnit hy)

theorem makeFac_harmless {I Sid : Type} {E : AuxEnv I Sid} {key : PaillierKey} {rp : RPSetup} (h0 : rp.modulus ≠ 0) {aux : Sid × I × List Bool} {masks : FacMasks} {psi : FacProof}
    (h : (AuxGen.makeFac E key rp aux masks : Out ε _) = .ok psi) : Spec.HarmlessFac rp.modulus psi := by
  have : NeZero rp.modulus := ⟨h0⟩
  obtain ⟨_, _, cP, cQ, -, -, h1, h2, e1, e2⟩ := FacProof.prove_commitments h
  have key : ∀ c : ZMod rp.modulus, IsUnit c → Nat.Coprime (commitmentToWire c) rp.modulus := by
    intro c hc
    rw [← ZMod.isUnit_iff_coprime]
    simpa [commitmentToWire] using hc
  exact ⟨e1 ▸ key cP (commitSecret_isUnit h1), e2 ▸ key cQ (commitSecret_isUnit h2)⟩

theorem hdata_harmless {I Sid : Type} [LinearOrder I] {E : AuxEnv I Sid} {k : Nat} (hE : Spec.HashesValid E k) {d : AuxDraws I} (hd : Spec.DrawsValid E k d) (hodd : d.rpP * d.rpQ % 2 = 1) {rid : List Bool} :
    Spec.HarmlessAux E.P.modBits rid.length (d.p * d.q) (RPParams.withSecret (d.rpP * d.rpQ) E.P.modBits d.lambda d.tDraw).toWire rid := by
  have hv := hd.rp_valid
  have : NeZero (d.rpP * d.rpQ) := ⟨by intro h; rw [h] at hodd; cases hodd⟩
  have key : ∀ c : ZMod (d.rpP * d.rpQ), IsUnit c → Nat.Coprime c.val (d.rpP * d.rpQ) := by
    intro c hc
    rw [← ZMod.isUnit_iff_coprime]
    simpa using hc
  exact ⟨odd_of_primes hd.key.primes, hd.key_lt hE, hodd, hd.rp_lt hE, rfl, key _ hv.1, key _ hv.2⟩

namespace KeyInit

variable {I F G Sid V : Type} [LinearOrder I] [Field F] [LinearOrder F] [AddCommGroup G] [Module F G] [DecidableEq G] [DecidableEq V]
  {hashV : Sid → I → PublicData G → V} {H : SchHash G (SchAux I Sid) → F} {g : G}

/-- What an honest party sends in round 2 of an execution -/
theorem sent_two {honest : Set I} {c : I → Context I F G Sid} {n : Spec.Net I (Message F G V) (State I F G Sid V) Err (KeyShare I F G)}
    (h : (machine hashV H g).Reachable honest (fun i => .one (c i)) n) {i j : I} (hj : j ∈ honest) {k : Nat} {m : Msg2 G} (hs : (machine hashV H g).Sent n j i k (.two m)) :
    m = msg2 (c j) := by
  obtain ⟨s', l', -, hr', -, hs'⟩ := h.of_sent hs
  cases (fol j hj l' s' hr').1 with
  | one => cases (mem_toAll.1 hs').2
  | two => exact Message.two.inj (mem_toAll.1 hs').2
  | three => cases (mem_toAll.1 hs').2

/-- A party that panics in an execution panics on its own with messages all of which are fine. -/
theorem panics {honest : Set I} {c : I → Context I F G Sid} {n : Spec.Net I (Message F G V) (State I F G Sid V) Err (KeyShare I F G)} {fine : I → Msg2 G → Prop}
    (h : (machine hashV H g).ReachableWith honest (fun i j m => j ∉ honest → ∀ m2, m = .two m2 → fine i m2) (fun i => .one (c i)) n)
    (hfine : ∀ j ∈ honest, ∀ i ∈ honest, fine i (msg2 (c j))) {i : I} (hi : i ∈ honest) (hst : n.status i = .panicked) :
    ∃ in1 in2 in3, run hashV H g (c i) in1 in2 in3 = .panic ∧ ∀ a ∈ in2, fine i a.2 := by
  obtain ⟨l, s, hrep, hl, hend⟩ := h.panic (fine := fun i _ m => ∀ m2, m = .two m2 → fine i m2) (by
    rintro j hj i hi k m hs m2 rfl
    rw [sent_two h.reachable hj hs]
    exact hfine j hj i hi) hi hst
  cases (fol i hi l s hrep).1 with
  | one =>
    obtain ⟨in1, hc, -⟩ := round_panic (fine := fun _ m => ∀ m2, m = Message.two m2 → fine i m2) (pad := fun a _ => a) hend (fun _ => rfl) (fun _ _ => rfl) rfl one_inj (fun _ _ _ h => h)
    refine ⟨in1, [], [], ?_, by simp⟩
    rcases hc with hc | ⟨_, -, hc⟩
    · unfold run toRound3; rw [hc]; rfl
    · cases hc
  | two in1 capVs h1 =>
    obtain ⟨in2, hc, hf⟩ := round_panic (fine := fun _ m => ∀ m2, m = Message.two m2 → fine i m2) (pad := fun a _ => a) hend (fun _ => rfl) (fun _ _ => rfl) rfl two_inj (fun _ _ _ h => h)
    refine ⟨in1, in2, [], ?_, fun a ha => hf a ha _ rfl⟩
    unfold run toRound3
    rw [h1, Out.bind_ok]
    try simp only
    rcases hc with hc | ⟨pls, hc, hx⟩
    · rw [hc]; rfl
    · rw [hc, Out.bind_ok, bind_ok_panic hx]; rfl
  | three in1 in2 r3 h3 =>
    have h0 := toRound3_ctx h3
    obtain ⟨in3, hc, -⟩ := round_panic (fine := fun _ m => ∀ m2, m = Message.two m2 → fine i m2) (pad := fun a _ => a) hend (fun _ => rfl) (fun _ _ => rfl) rfl three_inj (fun _ _ _ h => h)
    rw [h0] at hc
    refine ⟨in1, in2, in3, ?_, fun a ha => hl (in2.map fun a => (a.1, .two a.2)) (by simp) (a.1, .two a.2) (List.mem_map.2 ⟨a, ha, rfl⟩) _ rfl⟩
    unfold run
    rw [h3, Out.bind_ok]
    rcases hc with hc | ⟨pls, hc, hx⟩
    · rw [hc]; rfl
    · rw [hc, Out.bind_ok, bind_ok_panic hx]

end KeyInit

namespace AuxGen

variable {I Sid V : Type} [LinearOrder I] [DecidableEq V] {E : AuxEnv I Sid} {hashV : Sid → I → Hashed → V}

/-- What an honest party sends in round 2 of an execution -/
theorem sent_two {honest : Set I} {c : I → Context I Sid} {n : Spec.Net I (Message V) (State I Sid V) (Err I) (AuxInfo I PaillierKey PublicAux)}
    (h : (machine E hashV).Reachable honest (fun i => .one (c i)) n) {i j : I} (hj : j ∈ honest) {k : Nat} {m : Msg2} (hs : (machine E hashV).Sent n j i k (.two m)) :
    i ∈ (c j).otherIds ∧ m = msg2 (c j) := by
  obtain ⟨s', l', -, hr', -, hs'⟩ := h.of_sent hs
  cases (fol j hj l' s' hr').1 with
  | one => cases (mem_toAll.1 hs').2
  | two => exact ⟨(mem_toAll.1 hs').1, Message.two.inj (mem_toAll.1 hs').2⟩
  | three =>
    obtain ⟨_, _, he⟩ := List.mem_map.1 hs'
    cases he

/-- What an honest party sends to another one in round 3 of an execution -/
theorem sent_three {honest : Set I} {c : I → Context I Sid} {n : Spec.Net I (Message V) (State I Sid V) (Err I) (AuxInfo I PaillierKey PublicAux)}
    (h : (machine E hashV).Reachable honest (fun i => .one (c i)) n) {i j : I} (hi : i ∈ honest) (hj : j ∈ honest) {k : Nat} {m : Msg3} (hs : (machine E hashV).Sent n j i k (.three m)) :
    ∃ in1 in2 r3, toRound3 E hashV (c j) in1 in2 = .ok r3 ∧ Spec.OnlyFrom i (msg2 (c i)) in2 ∧ msg3 E r3 i = .ok m := by
  have hh := history h
  obtain ⟨s', l', hl', hr', -, hs'⟩ := h.of_sent hs
  cases (fol j hj l' s' hr').1 with
  | one => cases (mem_toAll.1 hs').2
  | two => cases (mem_toAll.1 hs').2
  | three in1' in2' r3' out' h3' hout' =>
    have e2 : got2 n j = in2' := by unfold got2; rw [Spec.Machine.nth_of_prefix hl' (k := 1) (by simp)]; exact parts_two in2'
    obtain ⟨a, ha, he⟩ := List.mem_map.1 hs'
    cases he
    exact ⟨in1', in2', r3', h3', by rw [← e2]; exact hh.second j hj _ hi, send3_mem hout' ha⟩

/-- A party that panics in an execution panics on its own with messages all of which are fine. -/
theorem panics {honest : Set I} {c : I → Context I Sid} {n : Spec.Net I (Message V) (State I Sid V) (Err I) (AuxInfo I PaillierKey PublicAux)}
    {fine2 : I → I → Msg2 → Prop} {fine3 : I → Msg3 → Prop}
    (h : (machine E hashV).ReachableWith honest (fun i j m => j ∉ honest → (∀ m2, m = .two m2 → fine2 i j m2) ∧ ∀ m3, m = .three m3 → fine3 i m3) (fun i => .one (c i)) n)
    (hfine2 : ∀ j ∈ honest, ∀ i ∈ honest, i ∈ (c j).otherIds → fine2 i j (msg2 (c j)))
    (hfine3 : ∀ j ∈ honest, ∀ i ∈ honest, ∀ in1 in2 r3 m, toRound3 E hashV (c j) in1 in2 = .ok r3 → Spec.OnlyFrom i (msg2 (c i)) in2 → msg3 E r3 i = .ok m → fine3 i m)
    (hrecv : ∀ i ∈ honest, ∀ j m capVs, fine2 i j m → recv2 E hashV (c i).sid capVs j m ≠ .panic)
    {i : I} (hi : i ∈ honest) (hst : n.status i = .panicked) :
    ∃ in1 in2 in3, run E hashV (c i) in1 in2 in3 = .panic ∧ (∀ a ∈ in2, fine2 i a.1 a.2) ∧ ∀ a ∈ in3, fine3 i a.2 := by
  obtain ⟨l, s, hrep, hl, hend⟩ := h.panic (fine := fun i j m => (∀ m2, m = .two m2 → fine2 i j m2) ∧ ∀ m3, m = .three m3 → fine3 i m3) (by
    intro j hj i hi k m hs
    constructor
    · rintro m2 rfl
      obtain ⟨hmem, rfl⟩ := sent_two h.reachable hj hs
      exact hfine2 j hj i hi hmem
    · rintro m3 rfl
      obtain ⟨in1, in2, r3, h3, ho, hm⟩ := sent_three h.reachable hi hj hs
      exact hfine3 j hj i hi in1 in2 r3 _ h3 ho hm) hi hst
  cases (fol i hi l s hrep).1 with
  | one =>
    obtain ⟨in1, hc, -⟩ := round_panic (fine := fun _ _ => True) (pad := fun a _ => a) (hend.imp (fun ⟨got, hg, _⟩ => ⟨got, hg, fun _ _ => trivial⟩) (fun ⟨j, m, hj, hm, _⟩ => ⟨j, m, hj, hm, trivial⟩))
      (fun _ => rfl) (fun _ _ => rfl) rfl one_inj (fun _ _ _ h => h)
    refine ⟨in1, [], [], ?_, by simp, by simp⟩
    rcases hc with hc | ⟨_, -, hc⟩
    · unfold run toRound3; rw [hc]; rfl
    · cases hc
  | two in1 capVs h1 =>
    rcases hend with ⟨got, hg, hf⟩ | ⟨j, m, hj, hr, hf⟩
    · obtain ⟨in2, rfl, hc⟩ := gather_unmap_panic two_inj hg
      refine ⟨in1, in2, [], ?_, fun a ha => (hf _ (List.mem_map.2 ⟨a, ha, rfl⟩)).1 _ rfl, by simp⟩
      unfold run toRound3
      rw [h1, Out.bind_ok]
      try simp only
      cases hx : collect (c i).otherIds (recv2 E hashV (c i).sid capVs) in2 with
      | err e => rw [hx] at hc; cases hc
      | panic => rfl
      | ok pls =>
        rw [hx, Out.bind_ok] at hc
        rw [Out.bind_ok]
        cases hy : finalize2 E (c i) pls with
        | err e => rw [hy] at hc; cases hc
        | panic => rfl
        | ok r3 =>
          rw [hy, Out.bind_ok] at hc
          rw [Out.bind_ok, bind_ok_panic hc]; rfl
    · exfalso
      obtain ⟨m2, hm2, hp⟩ := acceptPart_panic hr
      exact hrecv i hi j m2 capVs (hf.1 m2 (two_inj m m2 hm2)) hp
  | three in1 in2 r3 out h3 hout =>
    have h0 := toRound3_ctx h3
    obtain ⟨in3, hc, hf⟩ := round_panic (fine := fun _ m => ∀ m3, m = Message.three m3 → fine3 i m3) (pad := fun a _ => a)
      (hend.imp (fun ⟨got, hg, hf⟩ => ⟨got, hg, fun a ha => (hf a ha).2⟩) (fun ⟨j, m, hj, hm, hf⟩ => ⟨j, m, hj, hm, hf.2⟩)) (fun _ => rfl) (fun _ _ => rfl) rfl three_inj (fun _ _ _ h => h)
    rw [h0] at hc
    refine ⟨in1, in2, in3, ?_, fun a ha => (hl (in2.map fun a => (a.1, .two a.2)) (by simp) (a.1, .two a.2) (List.mem_map.2 ⟨a, ha, rfl⟩)).1 _ rfl, fun a ha => hf a ha _ rfl⟩
    unfold run
    rw [h3, Out.bind_ok, hout, Out.bind_ok]
    rcases hc with hc | ⟨pls, hc, hx⟩
    · rw [hc]; rfl
    · cases hx

end AuxGen

namespace KeyRefresh

variable {I F G Sid V : Type} [LinearOrder I] [Field F] [LinearOrder F] [AddCommGroup G] [Module F G] [DecidableEq G] [DecidableEq V]
  {E : Env I Sid F G} {hashV : Sid → I → Hashed I G → V}

/-- What an honest party sends in round 2 of an execution -/
theorem sent_two {honest : Set I} {c : I → Context I F G Sid} {n : Spec.Net I (Message I F G V) (State I F G Sid V) (Err I F) (KeyShareChange I F G × AuxInfo I PaillierKey PublicAux)}
    (h : (machine E hashV).Reachable honest (fun i => .one (c i)) n) {i j : I} (hj : j ∈ honest) {k : Nat} {m : Msg2 I G} (hs : (machine E hashV).Sent n j i k (.two m)) :
    i ∈ (c j).otherIds ∧ m = msg2 (c j) := by
  obtain ⟨s', l', -, hr', -, hs'⟩ := h.of_sent hs
  cases (fol j hj l' s' hr').1 with
  | one => cases (mem_toAll.1 hs').2
  | two => exact ⟨(mem_toAll.1 hs').1, Message.two.inj (mem_toAll.1 hs').2⟩
  | three =>
    obtain ⟨_, _, he⟩ := List.mem_map.1 hs'
    cases he

/-- What an honest party sends to another one in round 3 of an execution -/
theorem sent_three {honest : Set I} {c : I → Context I F G Sid} {n : Spec.Net I (Message I F G V) (State I F G Sid V) (Err I F) (KeyShareChange I F G × AuxInfo I PaillierKey PublicAux)}
    (h : (machine E hashV).Reachable honest (fun i => .one (c i)) n) {i j : I} (hi : i ∈ honest) (hj : j ∈ honest) {k : Nat} {m : Msg3 I F} (hs : (machine E hashV).Sent n j i k (.three m)) :
    ∃ in1 in2 r3, toRound3 E hashV (c j) in1 in2 = .ok r3 ∧ Spec.OnlyFrom i (msg2 (c i)) in2 ∧ msg3 E r3 i = .ok m := by
  have hh := history h
  obtain ⟨s', l', hl', hr', -, hs'⟩ := h.of_sent hs
  cases (fol j hj l' s' hr').1 with
  | one => cases (mem_toAll.1 hs').2
  | two => cases (mem_toAll.1 hs').2
  | three in1' in2' r3' out' h3' hout' =>
    have e2 : got2 n j = in2' := by unfold got2; rw [Spec.Machine.nth_of_prefix hl' (k := 1) (by simp)]; exact parts_two in2'
    obtain ⟨a, ha, he⟩ := List.mem_map.1 hs'
    cases he
    exact ⟨in1', in2', r3', h3', by rw [← e2]; exact hh.second j hj _ hi, send3_mem hout' ha⟩

/-- A party that panics in an execution panics on its own with messages all of which are fine. -/
theorem panics {honest : Set I} {c : I → Context I F G Sid} {n : Spec.Net I (Message I F G V) (State I F G Sid V) (Err I F) (KeyShareChange I F G × AuxInfo I PaillierKey PublicAux)}
    {fine2 : I → I → Msg2 I G → Prop} {fine3 : I → Msg3 I F → Prop}
    (h : (machine E hashV).ReachableWith honest (fun i j m => j ∉ honest → (∀ m2, m = .two m2 → fine2 i j m2) ∧ ∀ m3, m = .three m3 → fine3 i m3) (fun i => .one (c i)) n)
    (hfine2 : ∀ j ∈ honest, ∀ i ∈ honest, i ∈ (c j).otherIds → fine2 i j (msg2 (c j)))
    (hfine3 : ∀ j ∈ honest, ∀ i ∈ honest, ∀ in1 in2 r3 m, toRound3 E hashV (c j) in1 in2 = .ok r3 → Spec.OnlyFrom i (msg2 (c i)) in2 → msg3 E r3 i = .ok m → fine3 i m)
    (hrecv : ∀ i ∈ honest, ∀ j m capVs, fine2 i j m → recv2 E hashV (c i).sid (c i).allIds capVs j m ≠ .panic)
    {i : I} (hi : i ∈ honest) (hst : n.status i = .panicked) :
    ∃ in1 in2 in3, run E hashV (c i) in1 in2 in3 = .panic ∧ (∀ a ∈ in2, fine2 i a.1 a.2) ∧ ∀ a ∈ in3, fine3 i a.2 := by
  obtain ⟨l, s, hrep, hl, hend⟩ := h.panic (fine := fun i j m => (∀ m2, m = .two m2 → fine2 i j m2) ∧ ∀ m3, m = .three m3 → fine3 i m3) (by
    intro j hj i hi k m hs
    constructor
    · rintro m2 rfl
      obtain ⟨hmem, rfl⟩ := sent_two h.reachable hj hs
      exact hfine2 j hj i hi hmem
    · rintro m3 rfl
      obtain ⟨in1, in2, r3, h3, ho, hm⟩ := sent_three h.reachable hi hj hs
      exact hfine3 j hj i hi in1 in2 r3 _ h3 ho hm) hi hst
  cases (fol i hi l s hrep).1 with
  | one =>
    obtain ⟨in1, hc, -⟩ := round_panic (fine := fun _ _ => True) (pad := fun a _ => a) (hend.imp (fun ⟨got, hg, _⟩ => ⟨got, hg, fun _ _ => trivial⟩) (fun ⟨j, m, hj, hm, _⟩ => ⟨j, m, hj, hm, trivial⟩))
      (fun _ => rfl) (fun _ _ => rfl) rfl one_inj (fun _ _ _ h => h)
    refine ⟨in1, [], [], ?_, by simp, by simp⟩
    rcases hc with hc | ⟨_, -, hc⟩
    · unfold run toRound3; rw [hc]; rfl
    · cases hc
  | two in1 capVs h1 =>
    rcases hend with ⟨got, hg, hf⟩ | ⟨j, m, hj, hr, hf⟩
    · obtain ⟨in2, rfl, hc⟩ := gather_unmap_panic two_inj hg
      refine ⟨in1, in2, [], ?_, fun a ha => (hf _ (List.mem_map.2 ⟨a, ha, rfl⟩)).1 _ rfl, by simp⟩
      unfold run toRound3
      rw [h1, Out.bind_ok]
      try simp only
      cases hx : collect (c i).otherIds (recv2 E hashV (c i).sid (c i).allIds capVs) in2 with
      | err e => rw [hx] at hc; cases hc
      | panic => rfl
      | ok pls =>
        rw [hx, Out.bind_ok] at hc
        rw [Out.bind_ok]
        cases hy : (finalizeResult (finalize2 E (c i) pls) : Out (Abort I (Err I F)) _) with
        | err e => rw [hy] at hc; cases hc
        | panic => rfl
        | ok r3 =>
          rw [hy, Out.bind_ok] at hc
          rw [Out.bind_ok, bind_ok_panic hc]; rfl
    · exfalso
      obtain ⟨m2, hm2, hp⟩ := acceptPart_panic hr
      exact hrecv i hi j m2 capVs (hf.1 m2 (two_inj m m2 hm2)) hp
  | three in1 in2 r3 out h3 hout =>
    have h0 := toRound3_ctx h3
    obtain ⟨in3, hc, hf⟩ := round_panic (fine := fun _ m => ∀ m3, m = Message.three m3 → fine3 i m3) (pad := fun a _ => a)
      (hend.imp (fun ⟨got, hg, hf⟩ => ⟨got, hg, fun a ha => (hf a ha).2⟩) (fun ⟨j, m, hj, hm, hf⟩ => ⟨j, m, hj, hm, hf.2⟩)) (fun _ => rfl) (fun _ _ => rfl) rfl three_inj (fun _ _ _ h => h)
    rw [h0] at hc
    refine ⟨in1, in2, in3, ?_, fun a ha => (hl (in2.map fun a => (a.1, .two a.2)) (by simp) (a.1, .two a.2) (List.mem_map.2 ⟨a, ha, rfl⟩)).1 _ rfl, fun a ha => hf a ha _ rfl⟩
    unfold run
    rw [h3, Out.bind_ok, hout, Out.bind_ok]
    rcases hc with hc | ⟨pls, hc, hx⟩
    · rw [hc]; rfl
    · rw [hc, Out.bind_ok, bind_ok_panic hx]

end KeyRefresh

namespace KeyResharing

variable {I F G : Type} [LinearOrder I] [Field F] [LinearOrder F] [AddCommGroup G] [Module F G] [DecidableEq G] {g : G}

theorem recv_panic {r : Round1 I F G} {j : I} {m : Msg F G} (h : recv g r j m = .panic) : m.publicPolynomial.length ≤ 1 := by
  unfold recv at h
  split at h
  · cases h
  · split at h
    · by_contra hl
      cases hx : (recvGet r.newShareIds r.myId : Out (RecvErr Err) F) with
      | panic => exact absurd hx ofOption_ne_panic
      | err e => rw [hx] at h; cases h
      | ok x =>
        rw [hx, Out.bind_ok, Shamir.publicEvaluate, Shamir.evaluatePolynomial_eq (by omega), Out.bind_ok] at h
        split at h <;> cases h
    · cases h

/-- A party that panics in an execution panics with what it has received. -/
theorem panics {honest : Set I} {r : I → Round1 I F G} {init : I → State I F G} (hinit : ∀ i ∈ honest, begin (r i) = .ok (init i))
    {n : Spec.Net I (Msg F G) (State I F G) Err (Option (ThresholdKeyShare I F G))}
    (h : (machine g).ReachableWith honest (fun _ j m => j ∉ honest → 1 < m.publicPolynomial.length) init n)
    (hfine : ∀ j ∈ honest, ∀ i m, msg (r j) i = .ok (some m) → 1 < m.publicPolynomial.length)
    {i : I} (hi : i ∈ honest) (hst : n.status i = .panicked) :
    ∃ got, n.past i = [(init i, got)] ∧ run g (r i) got = .panic ∧ ∀ a ∈ got, 1 < a.2.publicPolynomial.length := by
  have hr : ∀ i ∈ honest, (init i).r = r i ∧ sendAll (r i) = .ok (init i).out := by
    intro i hi
    have := hinit i hi
    unfold begin at this
    rw [Out.bind_eq_ok] at this
    obtain ⟨out, ho, he⟩ := this
    rw [← Out.ok.inj he]
    exact ⟨rfl, ho⟩
  have only : ∀ i ∈ honest, ∀ l s, (machine g).replay (init i) l = .ok (.inl s) → l = [] ∧ s = init i := by
    intro i hi l s hx
    cases l with
    | nil => exact ⟨rfl, (Sum.inl.inj (Out.ok.inj hx)).symm⟩
    | cons got l =>
      simp only [Spec.Machine.replay, Out.bind_eq_ok] at hx
      obtain ⟨y, hy, hx⟩ := hx
      change (gather _ some _ got).bind _ = _ at hy
      simp only [Out.bind_eq_ok] at hy
      obtain ⟨_, _, _, _, hy⟩ := hy
      rw [← Out.ok.inj hy] at hx
      cases l <;> cases hx
  have hsent : ∀ j ∈ honest, ∀ i ∈ honest, ∀ k m, (machine g).Sent n j i k m → 1 < m.publicPolynomial.length := by
    intro j hj i _ k m hs
    obtain ⟨s', l', -, hr', -, hs'⟩ := h.reachable.of_sent hs
    rw [(only j hj l' s' hr').2] at hs'
    exact hfine j hj i m (sendAll_mem (hr j hj).2 hs')
  have hs := h.seen i
  have h0 := hs.2
  rw [hst] at h0
  rcases h0 with h0 | ⟨s, j, m, hrep, hj, hrc, hal, ha⟩
  · rcases List.eq_nil_or_concat' (n.past i) with hnil | ⟨pre, x, hx⟩
    · rw [hnil] at h0; cases h0
    · obtain ⟨hpre, hxs⟩ := only i hi _ _ (h.reachable.past_replay i pre x.1 x.2 [] hx)
      obtain rfl := List.map_eq_nil_iff.1 hpre
      have hx1 : x = (init i, x.2) := by rw [← hxs]
      refine ⟨x.2, by rw [hx, ← hx1]; rfl, ?_, ?_⟩
      · have hnext : (machine g).next (init i) x.2 = .panic := by
          rw [← Spec.Machine.replay_snoc (P := machine g) (l := []) (s := init i) (t := init i) rfl x.2, ← h0, hx]; rfl
        change (gather (init i).r.expectingMessagesFrom some (recv g (init i).r) x.2).bind _ = _ at hnext
        obtain ⟨inbox, hgot, hc⟩ := gather_unmap_panic (inj := fun a => a) (fun m a h => Option.some.inj h) hnext
        rw [show x.2 = inbox from hgot.trans (List.map_id inbox), ← (hr i hi).1]
        unfold run
        cases hcol : collect (init i).r.expectingMessagesFrom (recv g (init i).r) inbox with
        | err e => rw [hcol] at hc; cases hc
        | panic => rfl
        | ok pls =>
          rw [hcol, Out.bind_ok] at hc
          rw [Out.bind_ok, bind_ok_panic hc]
      · intro a ha
        by_cases hh : a.1 ∈ honest
        · exact hsent _ hh i hi _ _ (((h.reachable.inv i).past x (by rw [hx]; simp)).2.2.authentic a ha hh)
        · exact hs.1 x (by rw [hx]; simp) a ha hh
  · exfalso
    obtain ⟨a, ha', hp⟩ := acceptPart_panic (show acceptPart some (recv g s.r) j m = .panic from hrc)
    obtain rfl := Option.some.inj ha'
    have := recv_panic hp
    by_cases hh : j ∈ honest
    · have := hsent _ hh i hi _ _ (ha hh); omega
    · have := hal hh; omega

end KeyResharing

namespace Signing

variable {q : Nat} [Fact q.Prime] {I Ep G : Type} [LinearOrder I] [AddCommGroup G] [Module (ZMod q) G] [DecidableEq G] {E : Env q I Ep G}

theorem ctToWire_coprime {N : Nat} (h0 : 0 < N) {c : Ct N} (hc : IsUnit c) : Nat.Coprime (ctToWire c) N := by
  have : NeZero (N ^ 2) := ⟨by positivity⟩
  have h := (ZMod.isUnit_iff_coprime (ZMod.val c) (N ^ 2)).1 (by simpa using hc)
  exact Nat.Coprime.coprime_dvd_right (Dvd.intro_left (N ^ (2 - 1)) (by rw [← pow_succ])) h

namespace Run

variable {S : Run q I Ep G} {sk : ZMod q}

theorem Good.capK_coprime (good : S.Good sk) {j : I} (hj : j ∈ S.ids) : Nat.Coprime (S.echo j).capK (S.N j) := by
  obtain ⟨U, hU⟩ := (good.capK_holds hj).unit
  simp only [Cipher.mk.injEq, heq_eq_eq, true_and] at hU
  exact ctToWire_coprime (good.pos hj) (hU ▸ U.isUnit)

theorem Good.capFs_coprime (good : S.Good sk) {j : I} (hj : j ∈ S.ids) {in1 : List (I × Msg1 q G)} {r2 : Round2 q I Ep G} (h : toRound2 S.E (S.r1 j) in1 = .ok r2) {id : I} {w : Nat}
    (hw : (msg2 r2).echo.capFs.get? id = some w ∨ (msg2 r2).echo.hatCapFs.get? id = some w) : Nat.Coprime w (S.N j) := by
  obtain ⟨-, -, -, -, -, hk, hout⟩ := toRound2_state good.setting h
  have key : ∀ {d : MtaDraws I} {o : MtaOut q G} {target : PubAux} {K : Cipher} {x : SInt} {capX : G}, (d.beta id).IsDraw S.E.P.LP → Nat.Coprime (d.r id) (S.N j) →
      mtaSend S.E (S.r1 j).ctx target K x capX d id = .ok o → Nat.Coprime o.capF.toWire (S.N j) := by
    intro d o target K x capX hb hr hm
    unfold mtaSend at hm
    simp only [Out.bind_eq_ok] at hm
    obtain ⟨capF, hF, _, -, _, -, _, -, _, -, he⟩ := hm
    obtain ⟨c, hc, hH, -⟩ := Cipher.encrypt_holds (N := S.N j) (hb.fits (LP_pos good.setting)) hr
    have : capF = c := Out.ok.inj (hF.symm.trans (hc _))
    subst this
    obtain ⟨U, hU⟩ := hH.unit
    rw [← Out.ok.inj he]
    subst hU
    exact ctToWire_coprime (good.pos hj) U.isUnit
  have hmem : ∀ o, r2.outs.get? id = some o → id ∈ S.ids ∧ j ≠ id := by
    intro o ho
    have : id ∈ r2.outs.keySet := by rw [BMap.mem_keySet, BMap.mem_keys_iff]; exact ⟨o, ho⟩
    rw [hk] at this
    exact ⟨Finset.mem_of_mem_erase this, (Finset.ne_of_mem_erase this).symm⟩
  simp only [msg2, BMap.get?_mapVals] at hw
  cases ho : r2.outs.get? id with
  | none => rw [ho] at hw; rcases hw with hw | hw <;> cases hw
  | some o =>
    rw [ho] at hw
    obtain ⟨hid, hne⟩ := hmem o ho
    obtain ⟨target, p, capX, -, -, -, h1, h2⟩ := hout id o ho
    have v1 := good.draws.mta j hj id hid hne
    have v2 := good.draws.hatMta j hj id hid hne
    rcases hw with hw | hw
    · rw [← Option.some.inj hw]
      exact key v1.beta v1.r h1
    · rw [← Option.some.inj hw]
      exact key v2.beta v2.r h2

end Run

/-- A party that panics in an execution panics on its own with messages all of which are fine. -/
theorem panics {honest : Set I} {r : I → Round1 q I Ep G} {init : I → State q I Ep G} (hinit : ∀ i ∈ honest, begin E (r i) = .ok (init i))
    {n : Spec.Net I (Message q I G) (State q I Ep G) (Err I) (RecoverableSignature q)} {fine1 : I → Msg1 q G → Prop} {fine2 : I → Msg2 q I G → Prop}
    (h : (machine E).ReachableWith honest (fun _ j m => j ∉ honest → (∀ m1, m = .one m1 → fine1 j m1) ∧ ∀ m2, m = .two m2 → fine2 j m2) init n)
    (pad1 : Msg1 q G → Msg1 q G) (hpad1 : ∀ j m, fine1 j (pad1 m)) (pad2 : Msg2 q I G → Msg2 q I G) (hpad2 : ∀ j m, fine2 j (pad2 m))
    (hfine1 : ∀ j ∈ honest, ∀ i m, msg1 E (r j) i = .ok m → fine1 j m)
    (hfine2 : ∀ j ∈ honest, ∀ in1 r2, toRound2 E (r j) in1 = .ok r2 → fine2 j (msg2 r2))
    {i : I} (hi : i ∈ honest) (hst : n.status i = .panicked) :
    ∃ in1 in2 in3 in4 inErr, run E (r i) in1 in2 in3 in4 inErr = .panic ∧ (∀ a ∈ in1, fine1 a.1 a.2) ∧ ∀ a ∈ in2, fine2 a.1 a.2 := by
  have hr : ∀ i ∈ honest, ∃ out, init i = .one (r i) out ∧ send1 E (r i) = .ok out := by
    intro i hi
    have := hinit i hi
    unfold begin at this
    rw [Out.bind_eq_ok] at this
    obtain ⟨out, ho, he⟩ := this
    exact ⟨out, (Out.ok.inj he).symm, ho⟩
  have hfol : ∀ i ∈ honest, ∀ l s, (machine E).replay (init i) l = .ok (.inl s) → ∃ out, send1 E (r i) = .ok out ∧ Follows E (r i) out l s := by
    intro i hi l s hx
    obtain ⟨out, he, ho⟩ := hr i hi
    rw [he] at hx
    rcases replay_inv ho hx with ⟨s', hs, hf⟩ | ⟨_, hs, _⟩
    · cases hs
      exact ⟨out, ho, hf⟩
    · cases hs
  obtain ⟨l, s, hrep, hl, hend⟩ := h.panic (fine := fun _ j m => (∀ m1, m = .one m1 → fine1 j m1) ∧ ∀ m2, m = .two m2 → fine2 j m2) (by
    intro j hj i _ k m hs
    obtain ⟨s', l', -, hr', -, hs'⟩ := h.reachable.of_sent hs
    obtain ⟨out, ho, hf⟩ := hfol j hj l' s' hr'
    cases hf with
    | one =>
      obtain ⟨a, ha, he⟩ := List.mem_map.1 hs'
      cases he
      exact ⟨fun m1 e => by cases e; exact hfine1 j hj _ _ (send1_mem ho ha), fun m2 e => by cases e⟩
    | two in1 r2 h2 =>
      rw [show m = _ from (mem_toAll.1 hs').2]
      exact ⟨fun m1 e => (by cases e), fun m2 e => by cases e; exact hfine2 j hj in1 r2 h2⟩
    | three => rw [show m = _ from (mem_toAll.1 hs').2]; exact ⟨fun m1 e => (by cases e), fun m2 e => by cases e⟩
    | four => rw [show m = _ from (mem_toAll.1 hs').2]; exact ⟨fun m1 e => (by cases e), fun m2 e => by cases e⟩
    | error => rw [show m = _ from (mem_toAll.1 hs').2]; exact ⟨fun m1 e => (by cases e), fun m2 e => by cases e⟩) hi hst
  obtain ⟨out, hout, hf⟩ := hfol i hi l s hrep
  cases hf with
  | one =>
    obtain ⟨in1, hc, hf⟩ := round_panic (fine := fun j m => (∀ m1, m = Message.one m1 → fine1 j m1) ∧ ∀ m2, m = Message.two m2 → fine2 j m2) (pad := fun a _ => pad1 a) hend
      (fun _ => rfl) (fun _ _ => rfl) rfl one_inj (fun a _ k _ => ⟨fun m1 e => by cases e; exact hpad1 k a, fun m2 e => by cases e⟩)
    refine ⟨in1, [], [], [], [], ?_, fun a ha => (hf a ha).1 _ rfl, by simp⟩
    unfold run toRound4 toRound3 toRound2
    rw [hout, Out.bind_ok]
    rcases hc with hc | ⟨pls, hc, hx⟩
    · rw [hc]; rfl
    · rw [hc, Out.bind_ok, bind_ok_panic hx]; rfl
  | two in1 r2 h2 =>
    obtain ⟨in2, hc, hf⟩ := round_panic (fine := fun j m => (∀ m1, m = Message.one m1 → fine1 j m1) ∧ ∀ m2, m = Message.two m2 → fine2 j m2) (pad := fun a _ => pad2 a) hend
      (fun _ => rfl) (fun _ _ => rfl) rfl two_inj (fun a _ k _ => ⟨fun m1 e => (by cases e), fun m2 e => by cases e; exact hpad2 k a⟩)
    refine ⟨in1, in2, [], [], [], ?_, fun a ha => (hl (in1.map fun a => (a.1, .one a.2)) (by simp) (a.1, .one a.2) (List.mem_map.2 ⟨a, ha, rfl⟩)).1 _ rfl, fun a ha => (hf a ha).2 _ rfl⟩
    unfold run toRound4 toRound3
    rw [h2, Out.bind_ok]
    rcases hc with hc | ⟨pls, hc, hx⟩
    · rw [hc]; rfl
    · rw [hc, Out.bind_ok, bind_ok_panic hx]; rfl
  | three in1 in2 r3 h3 =>
    obtain ⟨in3, hc, -⟩ := round_panic (fine := fun _ _ => True) (pad := fun a _ => a)
      (hend.imp (fun ⟨got, hg, _⟩ => ⟨got, hg, fun _ _ => trivial⟩) (fun ⟨j, m, hj, hm, _⟩ => ⟨j, m, hj, hm, trivial⟩)) (fun _ => rfl) (fun _ _ => rfl) rfl three_inj (fun _ _ _ h => h)
    refine ⟨in1, in2, in3, [], [], ?_, fun a ha => (hl (in1.map fun a => (a.1, .one a.2)) (by simp) (a.1, .one a.2) (List.mem_map.2 ⟨a, ha, rfl⟩)).1 _ rfl,
      fun a ha => (hl (in2.map fun a => (a.1, .two a.2)) (by simp) (a.1, .two a.2) (List.mem_map.2 ⟨a, ha, rfl⟩)).2 _ rfl⟩
    unfold run toRound4
    rw [h3, Out.bind_ok]
    rcases hc with hc | ⟨pls, hc, hx⟩
    · rw [hc]; rfl
    · rw [hc, Out.bind_ok]
      cases hy : (finalizeResult (finalize3 E r3 pls) : Out (Abort I (Err I)) _) with
      | err e => rw [hy] at hx; cases hx
      | panic => rfl
      | ok a =>
        rw [hy, Out.bind_ok] at hx
        rw [Out.bind_ok]
        have hx := bind_ok_panic hx
        unfold last
        cases a with
        | round4 r4 => cases hx
        | error re =>
          simp only
          rw [bind_ok_panic hx]; rfl
  | four in1 in2 in3 r4 h4 =>
    obtain ⟨in4, hc, -⟩ := round_panic (fine := fun _ _ => True) (pad := fun a _ => a)
      (hend.imp (fun ⟨got, hg, _⟩ => ⟨got, hg, fun _ _ => trivial⟩) (fun ⟨j, m, hj, hm, _⟩ => ⟨j, m, hj, hm, trivial⟩)) (fun _ => rfl) (fun _ _ => rfl) rfl four_inj (fun _ _ _ h => h)
    refine ⟨in1, in2, in3, in4, [], ?_, fun a ha => (hl (in1.map fun a => (a.1, .one a.2)) (by simp) (a.1, .one a.2) (List.mem_map.2 ⟨a, ha, rfl⟩)).1 _ rfl,
      fun a ha => (hl (in2.map fun a => (a.1, .two a.2)) (by simp) (a.1, .two a.2) (List.mem_map.2 ⟨a, ha, rfl⟩)).2 _ rfl⟩
    unfold run
    rw [h4, Out.bind_ok]
    unfold last
    simp only
    rcases hc with hc | ⟨pls, hc, hx⟩
    · rw [hc]; rfl
    · rw [hc, Out.bind_ok, bind_ok_panic hx]
  | error in1 in2 in3 re m h4 hm =>
    obtain ⟨inErr, hc, -⟩ := round_panic (fine := fun _ _ => True) (pad := fun a _ => a)
      (hend.imp (fun ⟨got, hg, _⟩ => ⟨got, hg, fun _ _ => trivial⟩) (fun ⟨j, m, hj, hm, _⟩ => ⟨j, m, hj, hm, trivial⟩)) (fun _ => rfl) (fun _ _ => rfl) rfl error_inj (fun _ _ _ h => h)
    refine ⟨in1, in2, in3, [], inErr, ?_, fun a ha => (hl (in1.map fun a => (a.1, .one a.2)) (by simp) (a.1, .one a.2) (List.mem_map.2 ⟨a, ha, rfl⟩)).1 _ rfl,
      fun a ha => (hl (in2.map fun a => (a.1, .two a.2)) (by simp) (a.1, .two a.2) (List.mem_map.2 ⟨a, ha, rfl⟩)).2 _ rfl⟩
    unfold run
    rw [h4, Out.bind_ok]
    unfold last
    simp only
    rw [finalizeResult_eq_ok.2 hm, Out.bind_ok]
    rcases hc with hc | ⟨pls, hc, hx⟩
    · rw [hc]; rfl
    · rw [hc, Out.bind_ok, bind_ok_panic hx]

end Signing

end Synedrion
