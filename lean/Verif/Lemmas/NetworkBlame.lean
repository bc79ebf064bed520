import Verif.Lemmas.NetworkExists
import Verif.Lemmas.Blame
import Verif.Lemmas.SigningEvidence

/-!
# What made a party of a concurrent execution stop with an accusation
-/

set_option linter.unusedSectionVars false

namespace Synedrion

section Glue

variable {I M A E Pl : Type} [LinearOrder I]

theorem received_fault {o : Out (RecvErr E) Pl} {j j' : I} {e : E} (h : received j o = .err (.fault j' e)) : j' = j ∧ o = .err (.protocol e) := by
  unfold received at h
  split at h <;> cases h
  exact ⟨rfl, rfl⟩

theorem acceptPart_fault {part : M → Option A} {recv : I → A → Out (RecvErr E) Pl} {j j' : I} {m : M} {e : E} (h : acceptPart part recv j m = .err (.fault j' e)) :
    j' = j ∧ ∃ a, part m = some a ∧ recv j a = .err (.protocol e) := by
  unfold acceptPart at h
  cases ha : part m with
  | none => rw [ha] at h; cases h
  | some a =>
    rw [ha] at h
    rcases Out.bind_eq_err.1 h with h | ⟨x, hx, h⟩
    · cases h
    ·
      cases hx
      rcases Out.bind_eq_err.1 h with h | ⟨_, -, h⟩
      · obtain ⟨e1, e2⟩ := received_fault h
        exact ⟨e1, a, rfl, e2⟩
      · cases h

/-- A message that is refused makes the round fail. -/
theorem gather_fault_first {expected : Finset I} {part : M → Option A} {recv : I → A → Out (RecvErr E) Pl} {j : I} {m : M} {e : E} (hj : j ∈ expected)
    (h : acceptPart part recv j m = .err (.fault j e)) : gather expected part recv ((j, m) :: (bsetIter (expected.erase j)).map fun k => (k, m)) = .err (.fault j e) := by
  obtain ⟨-, a, ha, hr⟩ := acceptPart_fault h
  unfold gather
  have hm : Out.mapM' (fun x : I × M => (Out.ofOption (Abort.incomplete : Abort I E) (part x.2)).bind fun y => .ok (x.1, y))
      ((j, m) :: (bsetIter (expected.erase j)).map fun k => (k, m)) = .ok (((j, m) :: (bsetIter (expected.erase j)).map fun k => (k, m)).map fun x => (x.1, a)) := by
    refine Out.mapM'_ok_of_forall (g := fun x : I × M => (x.1, a)) ?_
    intro x hx
    have : x.2 = m := by
      rcases List.mem_cons.1 hx with rfl | hx
      · rfl
      · obtain ⟨k, -, rfl⟩ := List.mem_map.1 hx; rfl
    rw [this, ha]
    rfl
  rw [hm, Out.bind_ok]
  unfold collect
  rw [if_pos]
  · rw [List.map_cons]
    unfold Out.mapM'
    rw [show received j (recv j a) = .err (.fault j e) by rw [hr]; rfl]
    rfl
  · simp only [List.map_cons, List.map_map]
    have hid : (Prod.fst ∘ (fun x : I × M => (x.1, a)) ∘ fun k => (k, m)) = id := rfl
    rw [hid, List.map_id]
    refine ⟨List.nodup_cons.2 ⟨fun hx => absurd rfl (Finset.mem_erase.1 (mem_bsetIter.1 hx)).1, bsetIter_nodup _⟩, ?_⟩
    ext k
    simp only [List.toFinset_cons, Finset.mem_insert, List.mem_toFinset, mem_bsetIter, Finset.mem_erase]
    constructor
    · rintro (rfl | h)
      · exact hj
      · exact h.2
    · intro h
      by_cases hk : k = j
      · exact .inl hk
      · exact .inr ⟨hk, h⟩

/-- The messages that made a round fail -/
theorem gather_unmap_fault {expected : Finset I} {part : M → Option A} {inj : A → M} (hinj : ∀ m a, part m = some a → m = inj a)
    {recv : I → A → Out (RecvErr E) Pl} {got : List (I × M)} {j : I} {e : E} (h : gather expected part recv got = .err (.fault j e)) :
    ∃ arr : List (I × A), got = arr.map (fun a => (a.1, inj a.2)) ∧ collect expected recv arr = .err (.fault j e) := by
  unfold gather at h
  rcases Out.bind_eq_err.1 h with h | ⟨arr, hm, hc⟩
  · exfalso
    rename_i h0
    clear h0
    revert h
    induction got with
    | nil => intro h; cases h
    | cons x got ih =>
      intro h
      unfold Out.mapM' at h
      rcases Out.bind_eq_err.1 h with h | ⟨_, -, h⟩
      · cases hx : part x.2 with
        | none => rw [hx] at h; cases h
        | some y => rw [hx] at h; cases h
      · rcases Out.bind_eq_err.1 h with h | ⟨_, -, h⟩
        · exact ih h
        · cases h
  · refine ⟨arr, ?_, hc⟩
    have hf := Out.mapM'_eq_ok_iff.1 hm
    clear hm hc h
    induction hf with
    | nil => rfl
    | @cons x y l l' hxy _ ih =>
      rw [Out.bind_eq_ok] at hxy
      obtain ⟨z, hz, hy⟩ := hxy
      cases hy
      rw [List.map_cons, ← ih, ← hinj _ _ (Out.ofOption_eq_ok.1 hz)]

end Glue

section Faults

variable {I M A E Pl α : Type} [LinearOrder I]

theorem bind_fault {α β : Type} {o : Out (Abort I E) α} {f : α → Out (Abort I E) β} {j : I} {e : E} (hf : ∀ b j e, f b ≠ .err (.fault j e)) (h : o.bind f = .err (.fault j e)) :
    o = .err (.fault j e) := by
  rcases Out.bind_eq_err.1 h with h | ⟨b, -, h⟩
  · exact h
  · exact absurd h (hf b j e)

theorem collect_fault_mem {expected : Finset I} {recv : I → A → Out (RecvErr E) Pl} {arr : List (I × A)} {j : I} {e : E} (h : collect expected recv arr = .err (.fault j e)) :
    j ∈ expected := by
  obtain ⟨m, hm, -⟩ := collect_eq_fault h
  rw [← collect_fault_senders h, List.mem_toFinset]
  exact List.mem_map.2 ⟨_, hm, rfl⟩

theorem finalizeResult_not_fault {o : Out LocalErr α} {j : I} {e : E} : (finalizeResult o : Out (Abort I E) α) ≠ .err (.fault j e) := by
  cases o <;> simp [finalizeResult]

theorem ofOptionPanic_not_err {ε : Type} {o : Option α} {e : ε} : (Out.ofOptionPanic o : Out ε α) ≠ .err e := by
  cases o <;> simp [Out.ofOptionPanic]

theorem modProve_ne_err {Aux ε : Type} {p q : Nat} {P : Params} {H : ModHash Aux → List Nat} {sk : SecretKey p q} {aux : Aux} {w : Nat} {e : ε} :
    (ModProof.prove P H sk aux w : Out ε _) ≠ .err e := by
  intro h
  unfold ModProof.prove at h
  simp only at h
  rcases Out.bind_eq_err.1 h with h | ⟨_, -, h⟩
  · obtain ⟨y, -, h⟩ := Out.mapM'_eq_err h
    unfold modAnswer at h
    simp only at h
    rcases Out.bind_eq_err.1 h with h | ⟨_, -, h⟩
    · exact ofOptionPanic_not_err h
    · rcases Out.bind_eq_err.1 h with h | ⟨_, -, h⟩
      · exact ofOptionPanic_not_err h
      · cases h
  · cases h

end Faults

namespace Spec.Machine

variable {I M S E R : Type} [DecidableEq I] {P : Machine I M S E R} {honest : Set I} {init : I → S} {n : Net I M S E R}

/-- A message for which `receive_message` accuses somebody is one of that party, and the round fails with it. -/
def Accuses (P : Machine I M S E R) : Prop :=
  ∀ s j j' m e, j ∈ P.expected s → P.recv s j m = .err (.fault j' e) → j' = j ∧ ∃ got, P.next s got = .err (.fault j e) ∧ ∀ a ∈ got, a.2 = m

/-- A party that has stopped with an accusation would do so on its own with messages of which those of the accused, if honest, are real. -/
theorem Reachable.fault (hP : P.Accuses) (h : P.Reachable honest init n) {i j : I} {e : E} (hst : n.status i = .stopped (.fault j e)) :
    ∃ l s got, l <+: (n.past i).map Prod.snd ∧ P.replay (init i) l = .ok (.inl s) ∧ P.next s got = .err (.fault j e) ∧
      (j ∈ honest → ∀ m, (j, m) ∈ got → P.Sent n j i (P.round s) m) := by
  have h0 := (h.inv i).status
  rw [hst] at h0
  rcases h0 with h0 | ⟨s, j', m, h1, -, hj', hr, ha⟩
  · rcases List.eq_nil_or_concat' (n.past i) with hnil | ⟨pre, x, hx⟩
    · rw [hnil] at h0; cases h0
    · have hrep := h.past_replay i pre x.1 x.2 [] hx
      have hnext : P.next x.1 x.2 = .err (.fault j e) := by
        rw [← replay_snoc hrep x.2, ← h0, hx, List.map_append]; rfl
      refine ⟨pre.map Prod.snd, x.1, x.2, ?_, hrep, hnext, fun hj m hm => ?_⟩
      · rw [hx, List.map_append]; exact List.prefix_append _ _
      · exact ((h.inv i).past x (by rw [hx]; simp)).2.2.authentic _ hm hj
  · obtain ⟨rfl, got, hn, hm⟩ := hP s j' j m e hj' hr
    exact ⟨_, s, got, List.prefix_rfl, h1, hn, fun hj m' hm' => by rw [show m' = m from hm _ hm']; exact ha hj⟩

end Spec.Machine

section

variable {I F G Sid V : Type} [LinearOrder I] [Field F] [LinearOrder F] [AddCommGroup G] [Module F G] [DecidableEq G] [DecidableEq V]

theorem bind_gather_accuses {M A E Pl α : Type} {expected : Finset I} {part : M → Option A} {recv : I → A → Out (RecvErr E) Pl} {f : BMap I Pl → Out (Abort I E) α}
    {j j' : I} {m : M} {e : E} (hj : j ∈ expected) (h : acceptPart part recv j m = .err (.fault j' e)) :
    j' = j ∧ ∃ got, (gather expected part recv got).bind f = .err (.fault j e) ∧ ∀ a ∈ got, a.2 = m := by
  obtain ⟨rfl, -⟩ := acceptPart_fault h
  refine ⟨rfl, (j', m) :: (bsetIter (expected.erase j')).map fun k => (k, m), ?_, ?_⟩
  · exact (congrArg (fun o => Out.bind o f) (gather_fault_first hj h)).trans rfl
  · intro x hx
    rcases List.mem_cons.1 hx with rfl | hx
    · rfl
    · obtain ⟨k, -, rfl⟩ := List.mem_map.1 hx; rfl

theorem KeyInit.machine_accuses (hashV : Sid → I → KeyInit.PublicData G → V) (H : SchHash G (KeyInit.SchAux I Sid) → F) (g : G) : (KeyInit.machine hashV H g).Accuses := by
  intro s j j' m e hj h
  cases s <;> exact bind_gather_accuses hj h

theorem AuxGen.machine_accuses (E : AuxEnv I Sid) (hashV : Sid → I → AuxGen.Hashed → V) : (AuxGen.machine E hashV).Accuses := by
  intro s j j' m e hj h
  cases s <;> exact bind_gather_accuses hj h

theorem KeyRefresh.machine_accuses (E : KeyRefresh.Env I Sid F G) (hashV : Sid → I → KeyRefresh.Hashed I G → V) : (KeyRefresh.machine E hashV).Accuses := by
  intro s j j' m e hj h
  cases s <;> exact bind_gather_accuses hj h

theorem KeyResharing.machine_accuses (g : G) : (KeyResharing.machine (I := I) (F := F) g).Accuses := by
  intro s j j' m e hj h
  exact bind_gather_accuses hj h

theorem Signing.machine_accuses {q : Nat} [Fact q.Prime] {Ep : Type} [Module (ZMod q) G] (E : Signing.Env q I Ep G) : (Signing.machine E).Accuses := by
  intro s j j' m e hj h
  cases s <;> exact bind_gather_accuses hj h

end

namespace KeyInit

variable {I F G Sid V : Type} [LinearOrder I] [Field F] [LinearOrder F] [AddCommGroup G] [Module F G] [DecidableEq G] [DecidableEq V]
  {hashV : Sid → I → PublicData G → V} {H : SchHash G (SchAux I Sid) → F} {g : G}

/-- What an honest party that accuses the honest party `j` has received, seen as a run on its own -/
theorem accusation {honest : Set I} {c : I → Context I F G Sid} {n : Spec.Net I (Message F G V) (State I F G Sid V) Err (KeyShare I F G)}
    (h : (machine hashV H g).Reachable honest (fun i => .one (c i)) n) (hecho : (machine hashV H g).EchoAgree honest 2 (fun m => m.two?.map Msg2.rho) n)
    {i j : I} (hi : i ∈ honest) (hj : j ∈ honest) {e : Err} (hst : n.status i = .stopped (.fault j e)) :
    ∃ in1 in2 in3 in1P in2P, j ∈ (c i).otherIds ∧ run hashV H g (c i) in1 in2 in3 = .err (.fault j e) ∧ Spec.OnlyFrom j (msg1 hashV (c j)) in1 ∧
      Spec.OnlyFrom j (msg2 (c j)) in2 ∧ Spec.EchoAgreement Msg2.rho i j (Msg2.rho (msg2 (c i))) (Msg2.rho (msg2 (c j))) in2 in2P ∧
      ∀ m, (j, m) ∈ in3 → ∃ rP, toRound3 hashV (c j) in1P in2P = .ok rP ∧ m = msg3 H rP := by
  have hh := history h
  obtain ⟨l, s, got, hl, hrep, hnext, hsent⟩ := h.fault (machine_accuses hashV H g) hst
  have hsent := hsent hj
  have sent : ∀ m, (j, m) ∈ got → ∃ s' l', l' <+: (n.past j).map Prod.snd ∧ Follows hashV (c j) l' s' ∧ (machine hashV H g).round s' = (machine hashV H g).round s ∧
      (i, m) ∈ (machine hashV H g).send s' := by
    intro m hm
    obtain ⟨s', l', hl', hr', hrd, hs'⟩ := h.of_sent (hsent m hm)
    exact ⟨s', l', hl', (fol j hj l' s' hr').1, hrd, hs'⟩
  have hf := (fol i hi l s hrep).1
  cases hf with
  | one =>
    change (gather (c i).otherIds Message.one? recv1 got).bind _ = _ at hnext
    obtain ⟨in1, rfl, hc⟩ := gather_unmap_fault one_inj (bind_fault (by rintro b j e ⟨⟩) hnext)
    refine ⟨in1, [], [], [], [], collect_fault_mem hc, ?_, ?_, fun m hm => (by cases hm), ⟨fun m hm => (by cases hm), fun m hm => (by cases hm), fun k m m' hm => (by cases hm)⟩,
      fun m hm => (by cases hm)⟩
    · unfold run toRound3; rw [hc]; rfl
    · intro v hv
      obtain ⟨s', l', -, hf', hrd, hs'⟩ := sent (.one v) (List.mem_map.2 ⟨_, hv, rfl⟩)
      cases hf' with
      | one => exact Message.one.inj (mem_toAll.1 hs').2
      | two => cases hrd
      | three => cases hrd
  | two in1 capVs h1 =>
    have e1 : got1 n i = in1 := by unfold got1; rw [Spec.Machine.nth_of_prefix hl (k := 0) (by simp)]; exact parts_one in1
    have first : Spec.OnlyFrom j (msg1 hashV (c j)) in1 := by rw [← e1]; exact hh.first i hi j hj
    change (gather (c i).otherIds Message.two? (recv2 hashV ⟨c i, capVs⟩) got).bind _ = _ at hnext
    obtain ⟨in2, rfl, hc⟩ := gather_unmap_fault two_inj (bind_fault (by
      intro b j e hx
      rcases Out.bind_eq_err.1 hx with hx | ⟨_, -, hx⟩
      · unfold finalize2 at hx
        rcases Out.bind_eq_err.1 hx with hx | ⟨_, -, hx⟩
        · exact xorAll_ne_err hx
        · cases hx
      · cases hx) hnext)
    have second : Spec.OnlyFrom j (msg2 (c j)) in2 := by
      intro m hm
      obtain ⟨s', l', -, hf', hrd, hs'⟩ := sent (.two m) (List.mem_map.2 ⟨_, hm, rfl⟩)
      cases hf' with
      | one => cases hrd
      | two in1' capVs' h1' => exact Message.two.inj (mem_toAll.1 hs').2
      | three => cases hrd
    refine ⟨in1, in2, [], [], [], collect_fault_mem hc, ?_, first, second, ⟨fun m hm => (by cases hm), fun m hm => by rw [second m hm], fun k m m' _ hm => (by cases hm)⟩,
      fun m hm => (by cases hm)⟩
    unfold run toRound3
    rw [h1, Out.bind_ok]
    try simp only
    rw [hc]; rfl
  | three in1 in2 r3 h3 =>
    have e1 : got1 n i = in1 := by unfold got1; rw [Spec.Machine.nth_of_prefix hl (k := 0) (by simp)]; exact parts_one in1
    have e2 : got2 n i = in2 := by unfold got2; rw [Spec.Machine.nth_of_prefix hl (k := 1) (by simp)]; exact parts_two in2
    change (gather r3.ctx.otherIds Message.three? (recv3 H g r3) got).bind _ = _ at hnext
    rw [toRound3_ctx h3] at hnext
    obtain ⟨in3, rfl, hc⟩ := gather_unmap_fault three_inj (bind_fault (by
      intro b j e hx
      rcases Out.bind_eq_err.1 hx with hx | ⟨_, -, hx⟩
      · exact finalizeResult_not_fault hx
      · cases hx) hnext)
    refine ⟨in1, in2, in3, got1 n j, got2 n j, collect_fault_mem hc, ?_, ?_, ?_, ⟨?_, ?_, ?_⟩, ?_⟩
    · unfold run
      rw [h3, Out.bind_ok, hc]; rfl
    · rw [← e1]; exact hh.first i hi j hj
    · rw [← e2]; exact hh.second i hi j hj
    · intro m hm
      rw [hh.second j hj i hi m hm]
    · intro m hm
      rw [← e2] at hm
      rw [hh.second i hi j hj m hm]
    · intro k m m' hm hm'
      rw [← e2] at hm
      obtain ⟨t, gt, hp, hr, hg⟩ := hh.past2 i hi _ hm
      obtain ⟨t', gt', hp', hr', hg'⟩ := hh.past2 j hj _ hm'
      exact Option.some.inj (hecho i hi j hj _ hp _ hp' hr hr' k _ _ hg hg')
    · intro m hm
      obtain ⟨s', l', hl', hf', hrd, hs'⟩ := sent (.three m) (List.mem_map.2 ⟨_, hm, rfl⟩)
      cases hf' with
      | one => cases hrd
      | two => cases hrd
      | three in1' in2' r3' h3' =>
        have e1 : got1 n j = in1' := by unfold got1; rw [Spec.Machine.nth_of_prefix hl' (k := 0) (by simp)]; exact parts_one in1'
        have e2 : got2 n j = in2' := by unfold got2; rw [Spec.Machine.nth_of_prefix hl' (k := 1) (by simp)]; exact parts_two in2'
        refine ⟨r3', by rw [e1, e2]; exact h3', ?_⟩
        exact Message.three.inj (mem_toAll.1 hs').2

end KeyInit

namespace AuxGen

variable {I Sid V : Type} [LinearOrder I] [DecidableEq V] {E : AuxEnv I Sid} {hashV : Sid → I → Hashed → V}

/-- What an honest party that accuses the honest party `j` has received, seen as a run on its own -/
theorem accusation {honest : Set I} {c : I → Context I Sid} {n : Spec.Net I (Message V) (State I Sid V) (Err I) (AuxInfo I PaillierKey PublicAux)}
    (h : (machine E hashV).Reachable honest (fun i => .one (c i)) n) (hecho : (machine E hashV).EchoAgree honest 2 (fun m => m.two?.map Msg2.echo) n)
    {i j : I} (hi : i ∈ honest) (hj : j ∈ honest) {e : Err I} (hst : n.status i = .stopped (.fault j e)) :
    ∃ in1 in2 in3 in1P in2P, j ∈ (c i).otherIds ∧ run E hashV (c i) in1 in2 in3 = .err (.fault j e) ∧ Spec.OnlyFrom j (msg1 hashV (c j)) in1 ∧
      Spec.OnlyFrom j (msg2 (c j)) in2 ∧ Spec.EchoAgreement Msg2.echo i j (Msg2.echo (msg2 (c i))) (Msg2.echo (msg2 (c j))) in2 in2P ∧
      ∀ m, (j, m) ∈ in3 → ∃ rP, toRound3 E hashV (c j) in1P in2P = .ok rP ∧ msg3 E rP i = .ok m := by
  have hh := history h
  obtain ⟨l, s, got, hl, hrep, hnext, hsent⟩ := h.fault (machine_accuses E hashV) hst
  have hsent := hsent hj
  have sent : ∀ m, (j, m) ∈ got → ∃ s' l', l' <+: (n.past j).map Prod.snd ∧ Follows E hashV (c j) l' s' ∧ (machine E hashV).round s' = (machine E hashV).round s ∧
      (i, m) ∈ (machine E hashV).send s' := by
    intro m hm
    obtain ⟨s', l', hl', hr', hrd, hs'⟩ := h.of_sent (hsent m hm)
    exact ⟨s', l', hl', (fol j hj l' s' hr').1, hrd, hs'⟩
  have hf := (fol i hi l s hrep).1
  cases hf with
  | one =>
    change (gather (c i).otherIds Message.one? recv1 got).bind _ = _ at hnext
    obtain ⟨in1, rfl, hc⟩ := gather_unmap_fault one_inj (bind_fault (by rintro b j e ⟨⟩) hnext)
    refine ⟨in1, [], [], [], [], collect_fault_mem hc, ?_, ?_, fun m hm => (by cases hm), ⟨fun m hm => (by cases hm), fun m hm => (by cases hm), fun k m m' hm => (by cases hm)⟩,
      fun m hm => (by cases hm)⟩
    · unfold run toRound3; rw [hc]; rfl
    · intro v hv
      obtain ⟨s', l', -, hf', hrd, hs'⟩ := sent (.one v) (List.mem_map.2 ⟨_, hv, rfl⟩)
      cases hf' with
      | one => exact Message.one.inj (mem_toAll.1 hs').2
      | two => cases hrd
      | three => cases hrd
  | two in1 capVs h1 =>
    have e1 : got1 n i = in1 := by unfold got1; rw [Spec.Machine.nth_of_prefix hl (k := 0) (by simp)]; exact parts_one in1
    have first : Spec.OnlyFrom j (msg1 hashV (c j)) in1 := by rw [← e1]; exact hh.first i hi j hj
    change (gather (c i).otherIds Message.two? (recv2 E hashV (c i).sid capVs) got).bind _ = _ at hnext
    obtain ⟨in2, rfl, hc⟩ := gather_unmap_fault two_inj (bind_fault (by
      intro b j e hx
      rcases Out.bind_eq_err.1 hx with hx | ⟨_, -, hx⟩
      · unfold finalize2 at hx
        rcases Out.bind_eq_err.1 hx with hx | ⟨_, -, hx⟩
        · exact xorAll_ne_err hx
        · rcases Out.bind_eq_err.1 hx with hx | ⟨_, -, hx⟩
          · exact modProve_ne_err hx
          · cases hx
      · rcases Out.bind_eq_err.1 hx with hx | ⟨_, -, hx⟩
        · unfold send3 at hx
          obtain ⟨a, -, ha⟩ := Out.mapM'_eq_err hx
          rcases Out.bind_eq_err.1 ha with ha | ⟨_, -, ha⟩
          · exact finalizeResult_not_fault ha
          · cases ha
        · cases hx) hnext)
    have second : Spec.OnlyFrom j (msg2 (c j)) in2 := by
      intro m hm
      obtain ⟨s', l', -, hf', hrd, hs'⟩ := sent (.two m) (List.mem_map.2 ⟨_, hm, rfl⟩)
      cases hf' with
      | one => cases hrd
      | two in1' capVs' h1' => exact Message.two.inj (mem_toAll.1 hs').2
      | three => cases hrd
    refine ⟨in1, in2, [], [], [], collect_fault_mem hc, ?_, first, second, ⟨fun m hm => (by cases hm), fun m hm => by rw [second m hm], fun k m m' _ hm => (by cases hm)⟩,
      fun m hm => (by cases hm)⟩
    unfold run toRound3
    rw [h1, Out.bind_ok]
    try simp only
    rw [hc]; rfl
  | three in1 in2 r3 out h3 hout =>
    have e1 : got1 n i = in1 := by unfold got1; rw [Spec.Machine.nth_of_prefix hl (k := 0) (by simp)]; exact parts_one in1
    have e2 : got2 n i = in2 := by unfold got2; rw [Spec.Machine.nth_of_prefix hl (k := 1) (by simp)]; exact parts_two in2
    change (gather r3.ctx.otherIds Message.three? (recv3 E r3) got).bind _ = _ at hnext
    rw [toRound3_ctx h3] at hnext
    obtain ⟨in3, rfl, hc⟩ := gather_unmap_fault three_inj (bind_fault (by
      rintro b j e ⟨⟩) hnext)
    refine ⟨in1, in2, in3, got1 n j, got2 n j, collect_fault_mem hc, ?_, ?_, ?_, ⟨?_, ?_, ?_⟩, ?_⟩
    · unfold run
      rw [h3, Out.bind_ok, hout, Out.bind_ok, hc]; rfl
    · rw [← e1]; exact hh.first i hi j hj
    · rw [← e2]; exact hh.second i hi j hj
    · intro m hm
      rw [hh.second j hj i hi m hm]
    · intro m hm
      rw [← e2] at hm
      rw [hh.second i hi j hj m hm]
    · intro k m m' hm hm'
      rw [← e2] at hm
      obtain ⟨t, gt, hp, hr, hg⟩ := hh.past2 i hi _ hm
      obtain ⟨t', gt', hp', hr', hg'⟩ := hh.past2 j hj _ hm'
      exact Option.some.inj (hecho i hi j hj _ hp _ hp' hr hr' k _ _ hg hg')
    · intro m hm
      obtain ⟨s', l', hl', hf', hrd, hs'⟩ := sent (.three m) (List.mem_map.2 ⟨_, hm, rfl⟩)
      cases hf' with
      | one => cases hrd
      | two => cases hrd
      | three in1' in2' r3' out' h3' hout' =>
        have e1 : got1 n j = in1' := by unfold got1; rw [Spec.Machine.nth_of_prefix hl' (k := 0) (by simp)]; exact parts_one in1'
        have e2 : got2 n j = in2' := by unfold got2; rw [Spec.Machine.nth_of_prefix hl' (k := 1) (by simp)]; exact parts_two in2'
        refine ⟨r3', by rw [e1, e2]; exact h3', ?_⟩
        obtain ⟨a, ha, he⟩ := List.mem_map.1 hs'
        cases he
        exact send3_mem hout' ha

end AuxGen

namespace KeyRefresh

variable {I F G Sid V : Type} [LinearOrder I] [Field F] [LinearOrder F] [AddCommGroup G] [Module F G] [DecidableEq G] [DecidableEq V]
  {E : Env I Sid F G} {hashV : Sid → I → Hashed I G → V}

/-- What an honest party that accuses the honest party `j` has received, seen as a run on its own -/
theorem accusation {honest : Set I} {c : I → Context I F G Sid} {n : Spec.Net I (Message I F G V) (State I F G Sid V) (Err I F) (KeyShareChange I F G × AuxInfo I PaillierKey PublicAux)}
    (h : (machine E hashV).Reachable honest (fun i => .one (c i)) n) (hecho : (machine E hashV).EchoAgree honest 2 (fun m => m.two?.map Msg2.echo) n)
    {i j : I} (hi : i ∈ honest) (hj : j ∈ honest) {e : Err I F} (hst : n.status i = .stopped (.fault j e)) :
    ∃ in1 in2 in3 in1P in2P, j ∈ (c i).otherIds ∧ run E hashV (c i) in1 in2 in3 = .err (.fault j e) ∧ Spec.OnlyFrom j (msg1 hashV (c j)) in1 ∧
      Spec.OnlyFrom j (msg2 (c j)) in2 ∧ Spec.EchoAgreement Msg2.echo i j (Msg2.echo (msg2 (c i))) (Msg2.echo (msg2 (c j))) in2 in2P ∧
      ∀ m, (j, m) ∈ in3 → ∃ rP, toRound3 E hashV (c j) in1P in2P = .ok rP ∧ msg3 E rP i = .ok m := by
  have hh := history h
  obtain ⟨l, s, got, hl, hrep, hnext, hsent⟩ := h.fault (machine_accuses E hashV) hst
  have hsent := hsent hj
  have sent : ∀ m, (j, m) ∈ got → ∃ s' l', l' <+: (n.past j).map Prod.snd ∧ Follows E hashV (c j) l' s' ∧ (machine E hashV).round s' = (machine E hashV).round s ∧
      (i, m) ∈ (machine E hashV).send s' := by
    intro m hm
    obtain ⟨s', l', hl', hr', hrd, hs'⟩ := h.of_sent (hsent m hm)
    exact ⟨s', l', hl', (fol j hj l' s' hr').1, hrd, hs'⟩
  have hf := (fol i hi l s hrep).1
  cases hf with
  | one =>
    change (gather (c i).otherIds Message.one? recv1 got).bind _ = _ at hnext
    obtain ⟨in1, rfl, hc⟩ := gather_unmap_fault one_inj (bind_fault (by rintro b j e ⟨⟩) hnext)
    refine ⟨in1, [], [], [], [], collect_fault_mem hc, ?_, ?_, fun m hm => (by cases hm), ⟨fun m hm => (by cases hm), fun m hm => (by cases hm), fun k m m' hm => (by cases hm)⟩,
      fun m hm => (by cases hm)⟩
    · unfold run toRound3; rw [hc]; rfl
    · intro v hv
      obtain ⟨s', l', -, hf', hrd, hs'⟩ := sent (.one v) (List.mem_map.2 ⟨_, hv, rfl⟩)
      cases hf' with
      | one => exact Message.one.inj (mem_toAll.1 hs').2
      | two => cases hrd
      | three => cases hrd
  | two in1 capVs h1 =>
    have e1 : got1 n i = in1 := by unfold got1; rw [Spec.Machine.nth_of_prefix hl (k := 0) (by simp)]; exact parts_one in1
    have first : Spec.OnlyFrom j (msg1 hashV (c j)) in1 := by rw [← e1]; exact hh.first i hi j hj
    change (gather (c i).otherIds Message.two? (recv2 E hashV (c i).sid (c i).allIds capVs) got).bind _ = _ at hnext
    obtain ⟨in2, rfl, hc⟩ := gather_unmap_fault two_inj (bind_fault (by
      intro b j e hx
      rcases Out.bind_eq_err.1 hx with hx | ⟨_, -, hx⟩
      · exact finalizeResult_not_fault hx
      · rcases Out.bind_eq_err.1 hx with hx | ⟨_, -, hx⟩
        · unfold send3 at hx
          obtain ⟨a, -, ha⟩ := Out.mapM'_eq_err hx
          rcases Out.bind_eq_err.1 ha with ha | ⟨_, -, ha⟩
          · exact finalizeResult_not_fault ha
          · cases ha
        · cases hx) hnext)
    have second : Spec.OnlyFrom j (msg2 (c j)) in2 := by
      intro m hm
      obtain ⟨s', l', -, hf', hrd, hs'⟩ := sent (.two m) (List.mem_map.2 ⟨_, hm, rfl⟩)
      cases hf' with
      | one => cases hrd
      | two in1' capVs' h1' => exact Message.two.inj (mem_toAll.1 hs').2
      | three => cases hrd
    refine ⟨in1, in2, [], [], [], collect_fault_mem hc, ?_, first, second, ⟨fun m hm => (by cases hm), fun m hm => by rw [second m hm], fun k m m' _ hm => (by cases hm)⟩,
      fun m hm => (by cases hm)⟩
    unfold run toRound3
    rw [h1, Out.bind_ok]
    try simp only
    rw [hc]; rfl
  | three in1 in2 r3 out h3 hout =>
    have e1 : got1 n i = in1 := by unfold got1; rw [Spec.Machine.nth_of_prefix hl (k := 0) (by simp)]; exact parts_one in1
    have e2 : got2 n i = in2 := by unfold got2; rw [Spec.Machine.nth_of_prefix hl (k := 1) (by simp)]; exact parts_two in2
    change (gather r3.ctx.otherIds Message.three? (recv3 E r3) got).bind _ = _ at hnext
    rw [toRound3_ctx h3] at hnext
    obtain ⟨in3, rfl, hc⟩ := gather_unmap_fault three_inj (bind_fault (by
      intro b j e hx
      rcases Out.bind_eq_err.1 hx with hx | ⟨_, -, hx⟩
      · exact finalizeResult_not_fault hx
      · cases hx) hnext)
    refine ⟨in1, in2, in3, got1 n j, got2 n j, collect_fault_mem hc, ?_, ?_, ?_, ⟨?_, ?_, ?_⟩, ?_⟩
    · unfold run
      rw [h3, Out.bind_ok, hout, Out.bind_ok, hc]; rfl
    · rw [← e1]; exact hh.first i hi j hj
    · rw [← e2]; exact hh.second i hi j hj
    · intro m hm
      rw [hh.second j hj i hi m hm]
    · intro m hm
      rw [← e2] at hm
      rw [hh.second i hi j hj m hm]
    · intro k m m' hm hm'
      rw [← e2] at hm
      obtain ⟨t, gt, hp, hr, hg⟩ := hh.past2 i hi _ hm
      obtain ⟨t', gt', hp', hr', hg'⟩ := hh.past2 j hj _ hm'
      exact Option.some.inj (hecho i hi j hj _ hp _ hp' hr hr' k _ _ hg hg')
    · intro m hm
      obtain ⟨s', l', hl', hf', hrd, hs'⟩ := sent (.three m) (List.mem_map.2 ⟨_, hm, rfl⟩)
      cases hf' with
      | one => cases hrd
      | two => cases hrd
      | three in1' in2' r3' out' h3' hout' =>
        have e1 : got1 n j = in1' := by unfold got1; rw [Spec.Machine.nth_of_prefix hl' (k := 0) (by simp)]; exact parts_one in1'
        have e2 : got2 n j = in2' := by unfold got2; rw [Spec.Machine.nth_of_prefix hl' (k := 1) (by simp)]; exact parts_two in2'
        refine ⟨r3', by rw [e1, e2]; exact h3', ?_⟩
        obtain ⟨a, ha, he⟩ := List.mem_map.1 hs'
        cases he
        exact send3_mem hout' ha

end KeyRefresh

namespace KeyResharing

variable {I F G : Type} [LinearOrder I] [Field F] [LinearOrder F] [AddCommGroup G] [Module F G] [DecidableEq G] {g : G}

/-- What an honest party that accuses the honest party `j` has received, seen as a run on its own -/
theorem accusation {honest : Set I} {r : I → Round1 I F G} {init : I → State I F G} (hinit : ∀ i ∈ honest, begin (r i) = .ok (init i))
    {n : Spec.Net I (Msg F G) (State I F G) Err (Option (ThresholdKeyShare I F G))} (h : (machine g).Reachable honest init n)
    {i j : I} (hi : i ∈ honest) (hj : j ∈ honest) {e : Err} (hst : n.status i = .stopped (.fault j e)) :
    ∃ inbox, run g (r i) inbox = .err (.fault j e) ∧ ∀ m, (j, m) ∈ inbox → msg (r j) i = .ok (some m) := by
  have hr : ∀ i ∈ honest, (init i).r = r i ∧ sendAll (r i) = .ok (init i).out := by
    intro i hi
    have := hinit i hi
    unfold begin at this
    rw [Out.bind_eq_ok] at this
    obtain ⟨out, ho, he⟩ := this
    rw [← Out.ok.inj he]
    exact ⟨rfl, ho⟩
  have only : ∀ i ∈ honest, ∀ l s, (machine g).replay (init i) l = .ok (.inl s) → s = init i := by
    intro i hi l s hx
    cases l with
    | nil => exact (Sum.inl.inj (Out.ok.inj hx)).symm
    | cons got l =>
      simp only [Spec.Machine.replay, Out.bind_eq_ok] at hx
      obtain ⟨y, hy, hx⟩ := hx
      change (gather _ some _ got).bind _ = _ at hy
      simp only [Out.bind_eq_ok] at hy
      obtain ⟨_, _, _, _, hy⟩ := hy
      rw [← Out.ok.inj hy] at hx
      cases l <;> cases hx
  obtain ⟨l, s, got, hl, hrep, hnext, hsent⟩ := h.fault (machine_accuses g) hst
  rw [only i hi l s hrep] at hnext
  change (gather (init i).r.expectingMessagesFrom some (recv g (init i).r) got).bind _ = _ at hnext
  obtain ⟨inbox, hgot, hc⟩ := gather_unmap_fault (inj := fun a => a) (fun m a h => Option.some.inj h) (bind_fault (by
      intro b j e hx
      rcases Out.bind_eq_err.1 hx with hx | ⟨_, -, hx⟩
      · exact finalizeResult_not_fault hx
      · cases hx) hnext)
  have hgot : got = inbox := hgot.trans (List.map_id inbox)
  subst hgot
  refine ⟨got, ?_, fun m hm => ?_⟩
  · unfold run
    rw [← (hr i hi).1, hc]; rfl
  · obtain ⟨s', l', -, hr', -, hs'⟩ := h.of_sent (hsent hj m hm)
    rw [only j hj l' s' hr'] at hs'
    exact sendAll_mem (hr j hj).2 hs'

end KeyResharing

namespace Signing

variable {q : Nat} [Fact q.Prime] {I Ep G : Type} [LinearOrder I] [AddCommGroup G] [Module (ZMod q) G] [DecidableEq G] {E : Env q I Ep G}

theorem error_inj : ∀ (m : Message q I G) a, m.error? = some a → m = .error a := by rintro (_ | _ | _ | _ | _) a h <;> cases h; rfl

theorem msg1_echo {r : Round1 q I Ep G} {dest : I} {m : Msg1 q G} (h : msg1 E r dest = .ok m) : m.echo = r.echo := by
  unfold msg1 at h
  simp only [Out.bind_eq_ok] at h
  obtain ⟨_, _, _, _, _, _, _, _, _, _, h⟩ := h
  rw [← Out.ok.inj h]

/-- The messages of an execution that make a party accuse another one, seen as a run of it on its own: what it (`me`) received and what the other one (`peer`) received before -/
structure Accusation (E : Env q I Ep G) (r r' : Round1 q I Ep G) (me peer : I) (e : Err I) (in1 : List (I × Msg1 q G)) (in2 : List (I × Msg2 q I G)) (in3 : List (I × Msg3 q G))
    (in4 : List (I × ZMod q)) (inErr : List (I × MsgErr I G)) (in1P : List (I × Msg1 q G)) (in2P : List (I × Msg2 q I G)) (in3P : List (I × Msg3 q G)) : Prop where
  sender : peer ∈ r.ctx.otherIds
  run : run E r in1 in2 in3 in4 inErr = .err (.fault peer e)
  first : ∀ m, (peer, m) ∈ in1 → msg1 E r' me = .ok m
  echo1 : Spec.EchoAgreement Msg1.echo me peer r.echo r'.echo in1 in1P
  second : ∀ m, (peer, m) ∈ in2 → ∃ r2P, toRound2 E r' in1P = .ok r2P ∧ m = msg2 r2P
  echo2 : ∀ r2 r2P, toRound2 E r in1 = .ok r2 → toRound2 E r' in1P = .ok r2P → Spec.EchoAgreement Msg2.echo me peer (msg2 r2).echo (msg2 r2P).echo in2 in2P
  third : ∀ m, (peer, m) ∈ in3 → ∃ r3P, toRound3 E r' in1P in2P = .ok r3P ∧ m = r3P.msg
  echo3 : ∀ r3 r3P, toRound3 E r in1 in2 = .ok r3 → toRound3 E r' in1P in2P = .ok r3P → Spec.EchoAgreement Msg3.delta me peer r3.msg.delta r3P.msg.delta in3 in3P
  fourth : ∀ s, (peer, s) ∈ in4 → ∃ r4P, toRound4 E r' in1P in2P in3P = .ok (.round4 r4P) ∧ s = r4P.sigma
  fifth : ∀ re m, toRound4 E r in1 in2 in3 = .ok (.error re) → (peer, m) ∈ inErr → ∃ rP, toRound4 E r' in1P in2P in3P = .ok (.error rP) ∧ rP.hat = re.hat ∧ msgErr E rP = .ok m

theorem accusation {honest : Set I} {r : I → Round1 q I Ep G} {init : I → State q I Ep G} (hinit : ∀ i ∈ honest, begin E (r i) = .ok (init i))
    {n : Spec.Net I (Message q I G) (State q I Ep G) (Err I) (RecoverableSignature q)} (h : (machine E).Reachable honest init n)
    (hecho1 : (machine E).EchoAgree honest 1 (fun m => m.one?.map Msg1.echo) n) (hecho2 : (machine E).EchoAgree honest 2 (fun m => m.two?.map Msg2.echo) n)
    (hecho3 : (machine E).EchoAgree honest 3 (fun m => m.three?.map Msg3.delta) n)
    {i j : I} (hi : i ∈ honest) (hj : j ∈ honest) {e : Err I} (hst : n.status i = .stopped (.fault j e)) :
    ∃ in1 in2 in3 in4 inErr in1P in2P in3P, Accusation E (r i) (r j) i j e in1 in2 in3 in4 inErr in1P in2P in3P := by
  have hh := history' hinit h
  have hr : ∀ i ∈ honest, ∃ out, init i = .one (r i) out ∧ send1 E (r i) = .ok out := by
    intro i hi
    have := hinit i hi
    unfold begin at this
    rw [Out.bind_eq_ok] at this
    obtain ⟨out, ho, he⟩ := this
    exact ⟨out, (Out.ok.inj he).symm, ho⟩
  have hfol : ∀ i ∈ honest, ∀ l s, (machine E).replay (init i) l = .ok (.inl s) → ∃ out, send1 E (r i) = .ok out ∧ Follows E (r i) out l s := by
    intro i hi l s hx
    obtain ⟨out, he, ho⟩ := hr i hi
    rw [he] at hx
    rcases replay_inv ho hx with ⟨s', hs, hf⟩ | ⟨_, hs, _⟩
    · cases hs
      exact ⟨out, ho, hf⟩
    · cases hs
  obtain ⟨l, s, got, hl, hrep, hnext, hsent⟩ := h.fault (machine_accuses E) hst
  have sent : ∀ m, (j, m) ∈ got → ∃ s' l' out, l' <+: (n.past j).map Prod.snd ∧ send1 E (r j) = .ok out ∧ Follows E (r j) out l' s' ∧ (i, m) ∈ (machine E).send s' ∧
      (machine E).round s' = (machine E).round s := by
    intro m hm
    obtain ⟨s', l', hl', hr', hrd, hs'⟩ := h.of_sent (hsent hj m hm)
    obtain ⟨out, ho, hf⟩ := hfol j hj l' s' hr'
    exact ⟨s', l', out, hl', ho, hf, hs', hrd⟩
  have ec1 : Spec.EchoAgreement Msg1.echo i j (r i).echo (r j).echo (got1 n i) (got1 n j) := by
    refine ⟨fun m hm => msg1_echo (hh.first j hj i hi m hm), fun m hm => msg1_echo (hh.first i hi j hj m hm), fun k m m' hm hm' => ?_⟩
    obtain ⟨t, gt, hp, hr, hg⟩ := hh.past1 i hi _ hm
    obtain ⟨t', gt', hp', hr', hg'⟩ := hh.past1 j hj _ hm'
    exact Option.some.inj (hecho1 i hi j hj _ hp _ hp' hr hr' k _ _ hg hg')
  have ec2 : ∀ r2 r2P, toRound2 E (r i) (got1 n i) = .ok r2 → toRound2 E (r j) (got1 n j) = .ok r2P →
      Spec.EchoAgreement Msg2.echo i j (msg2 r2).echo (msg2 r2P).echo (got2 n i) (got2 n j) := by
    intro r2 r2P h2 h2P
    refine ⟨fun m hm => ?_, fun m hm => ?_, fun k m m' hm hm' => ?_⟩
    · obtain ⟨x, hx, rfl⟩ := hh.second j hj i hi m hm
      rw [Out.ok.inj (hx.symm.trans h2)]
    · obtain ⟨x, hx, rfl⟩ := hh.second i hi j hj m hm
      rw [Out.ok.inj (hx.symm.trans h2P)]
    · obtain ⟨t, gt, hp, hr, hg⟩ := hh.past2 i hi _ hm
      obtain ⟨t', gt', hp', hr', hg'⟩ := hh.past2 j hj _ hm'
      exact Option.some.inj (hecho2 i hi j hj _ hp _ hp' hr hr' k _ _ hg hg')
  have ec3 : ∀ r3 r3P, toRound3 E (r i) (got1 n i) (got2 n i) = .ok r3 → toRound3 E (r j) (got1 n j) (got2 n j) = .ok r3P →
      Spec.EchoAgreement Msg3.delta i j r3.msg.delta r3P.msg.delta (got3 n i) (got3 n j) := by
    intro r3 r3P h3 h3P
    refine ⟨fun m hm => ?_, fun m hm => ?_, fun k m m' hm hm' => ?_⟩
    · obtain ⟨x, hx, rfl⟩ := hh.third j hj i hi m hm
      rw [Out.ok.inj (hx.symm.trans h3)]
    · obtain ⟨x, hx, rfl⟩ := hh.third i hi j hj m hm
      rw [Out.ok.inj (hx.symm.trans h3P)]
    · obtain ⟨t, gt, hp, hr, hg⟩ := hh.past3 i hi _ hm
      obtain ⟨t', gt', hp', hr', hg'⟩ := hh.past3 j hj _ hm'
      exact Option.some.inj (hecho3 i hi j hj _ hp _ hp' hr hr' k _ _ hg hg')
  have x1 : ∀ {k : I} {in1 : List (I × Msg1 q G)} {t}, (in1.map (fun a => (a.1, Message.one a.2)) :: t) <+: (n.past k).map Prod.snd → got1 n k = in1 := by
    intro k in1 t hl
    unfold got1; rw [Spec.Machine.nth_of_prefix hl (k := 0) (by simp)]; exact parts_one in1
  have x2 : ∀ {k : I} {a} {in2 : List (I × Msg2 q I G)} {t}, (a :: in2.map (fun a => (a.1, Message.two a.2)) :: t) <+: (n.past k).map Prod.snd → got2 n k = in2 := by
    intro k a in2 t hl
    unfold got2; rw [Spec.Machine.nth_of_prefix hl (k := 1) (by simp)]; exact parts_two in2
  have x3 : ∀ {k : I} {a b} {in3 : List (I × Msg3 q G)} {t}, (a :: b :: in3.map (fun a => (a.1, Message.three a.2)) :: t) <+: (n.past k).map Prod.snd → got3 n k = in3 := by
    intro k a b in3 t hl
    unfold got3; rw [Spec.Machine.nth_of_prefix hl (k := 2) (by simp)]; exact parts_three in3
  obtain ⟨out, hout, hf⟩ := hfol i hi l s hrep
  cases hf with
  | one =>
    change (gather (r i).ctx.otherIds Message.one? (recv1 E (r i).ctx) got).bind _ = _ at hnext
    obtain ⟨in1, rfl, hc⟩ := gather_unmap_fault one_inj (bind_fault (by
      intro b j e hx
      rcases Out.bind_eq_err.1 hx with hx | ⟨_, -, hx⟩
      · exact finalizeResult_not_fault hx
      · cases hx) hnext)
    have first : ∀ m, (j, m) ∈ in1 → msg1 E (r j) i = .ok m := by
      intro m hm
      obtain ⟨s', l', out, hl', ho, hf', hs', -⟩ := sent (.one m) (List.mem_map.2 ⟨_, hm, rfl⟩)
      cases hf' with
      | one =>
        obtain ⟨a, ha, he⟩ := List.mem_map.1 hs'
        cases he
        exact send1_mem ho ha
      | two => cases (mem_toAll.1 hs').2
      | three => cases (mem_toAll.1 hs').2
      | four => cases (mem_toAll.1 hs').2
      | error => cases (mem_toAll.1 hs').2
    refine ⟨in1, [], [], [], [], [], [], [], collect_fault_mem hc, ?_, first, ⟨fun m hm => (by cases hm), fun m hm => msg1_echo (first m hm), fun k m m' _ hm => (by cases hm)⟩, fun m hm => (by cases hm),
      fun _ _ _ _ => ⟨fun m hm => (by cases hm), fun m hm => (by cases hm), fun k m m' hm => (by cases hm)⟩, fun m hm => (by cases hm), fun _ _ _ _ => ⟨fun m hm => (by cases hm), fun m hm => (by cases hm), fun k m m' hm => (by cases hm)⟩, fun m hm => (by cases hm), fun _ m _ hm => (by cases hm)⟩
    unfold run toRound4 toRound3 toRound2
    rw [hout, Out.bind_ok, hc]; rfl
  | two in1 r2 h2 =>
    obtain rfl := x1 hl
    change (gather r2.ctx.otherIds Message.two? (recv2 E r2) got).bind _ = _ at hnext
    obtain ⟨in2, rfl, hc⟩ := gather_unmap_fault two_inj (bind_fault (by
      intro b j e hx
      rcases Out.bind_eq_err.1 hx with hx | ⟨_, -, hx⟩
      · exact finalizeResult_not_fault hx
      · cases hx) hnext)
    have second : ∀ m, (j, m) ∈ in2 → ∃ r2P, toRound2 E (r j) (got1 n j) = .ok r2P ∧ m = msg2 r2P := by
      intro m hm
      obtain ⟨s', l', out, hl', ho, hf', hs', -⟩ := sent (.two m) (List.mem_map.2 ⟨_, hm, rfl⟩)
      cases hf' with
      | one => obtain ⟨a, ha, he⟩ := List.mem_map.1 hs'; cases he
      | two in1' r2' h2' =>
        obtain rfl := x1 hl'
        exact ⟨r2', h2', Message.two.inj (mem_toAll.1 hs').2⟩
      | three => cases (mem_toAll.1 hs').2
      | four => cases (mem_toAll.1 hs').2
      | error => cases (mem_toAll.1 hs').2
    refine ⟨got1 n i, in2, [], [], [], got1 n j, [], [], by rw [← toRound2_ok h2]; exact collect_fault_mem hc, ?_, hh.first i hi j hj, ec1, second,
      fun x y hx hy => ⟨fun m hm => (by cases hm), fun m hm => ?_, fun k m m' _ hm => (by cases hm)⟩, fun m hm => (by cases hm), fun _ _ _ _ => ⟨fun m hm => (by cases hm), fun m hm => (by cases hm), fun k m m' hm => (by cases hm)⟩, fun m hm => (by cases hm), fun _ m _ hm => (by cases hm)⟩
    · unfold run toRound4 toRound3
      rw [h2, Out.bind_ok, hc]; rfl
    · obtain ⟨z, hz, rfl⟩ := second m hm
      rw [Out.ok.inj (hz.symm.trans hy)]
  | three in1 in2 r3 h3 =>
    obtain rfl := x1 hl
    obtain rfl := x2 hl
    change (gather r3.ctx.otherIds Message.three? (recv3 E r3) got).bind _ = _ at hnext
    obtain ⟨in3, rfl, hc⟩ := gather_unmap_fault three_inj (bind_fault (by
      intro b j e hx
      rcases Out.bind_eq_err.1 hx with hx | ⟨a, -, hx⟩
      · exact finalizeResult_not_fault hx
      · rcases Out.bind_eq_err.1 hx with hx | ⟨_, -, hx⟩
        · cases a with
          | round4 r4 => cases hx
          | error re =>
            rcases Out.bind_eq_err.1 hx with hx | ⟨_, -, hx⟩
            · exact finalizeResult_not_fault hx
            · cases hx
        · cases hx) hnext)
    have third : ∀ m, (j, m) ∈ in3 → ∃ r3P, toRound3 E (r j) (got1 n j) (got2 n j) = .ok r3P ∧ m = r3P.msg := by
      intro m hm
      obtain ⟨s', l', out, hl', ho, hf', hs', -⟩ := sent (.three m) (List.mem_map.2 ⟨_, hm, rfl⟩)
      cases hf' with
      | one => obtain ⟨a, ha, he⟩ := List.mem_map.1 hs'; cases he
      | two => cases (mem_toAll.1 hs').2
      | three in1' in2' r3' h3' =>
        obtain rfl := x1 hl'
        obtain rfl := x2 hl'
        exact ⟨r3', h3', Message.three.inj (mem_toAll.1 hs').2⟩
      | four => cases (mem_toAll.1 hs').2
      | error => cases (mem_toAll.1 hs').2
    refine ⟨got1 n i, got2 n i, in3, [], [], got1 n j, got2 n j, [], by rw [← (toRound3_ok h3).1]; exact collect_fault_mem hc, ?_, hh.first i hi j hj, ec1, hh.second i hi j hj, ec2,
      third, fun x y hx hy => ⟨fun m hm => (by cases hm), fun m hm => ?_, fun k m m' _ hm => (by cases hm)⟩, fun m hm => (by cases hm), fun _ m _ hm => (by cases hm)⟩
    · unfold run toRound4
      rw [h3, Out.bind_ok, hc]; rfl
    · obtain ⟨z, hz, rfl⟩ := third m hm
      rw [Out.ok.inj (hz.symm.trans hy)]
  | four in1 in2 in3 r4 h4 =>
    obtain rfl := x1 hl
    obtain rfl := x2 hl
    obtain rfl := x3 hl
    change (gather r4.ctx.otherIds Message.four? (recv4 E r4) got).bind _ = _ at hnext
    obtain ⟨in4, rfl, hc⟩ := gather_unmap_fault four_inj (bind_fault (by
      intro b j e hx
      rcases Out.bind_eq_err.1 hx with hx | ⟨_, -, hx⟩
      · exact finalizeResult_not_fault hx
      · cases hx) hnext)
    refine ⟨got1 n i, got2 n i, got3 n i, in4, [], got1 n j, got2 n j, got3 n j, by rw [← (after3_ctx h4).1 r4 rfl]; exact collect_fault_mem hc, ?_, hh.first i hi j hj, ec1,
      hh.second i hi j hj, ec2, hh.third i hi j hj, ec3, ?_, fun _ m _ hm => (by cases hm)⟩
    · unfold run
      rw [h4, Out.bind_ok]
      unfold last
      simp only
      rw [hc]; rfl
    · intro m hm
      obtain ⟨s', l', out, hl', ho, hf', hs', -⟩ := sent (.four m) (List.mem_map.2 ⟨_, hm, rfl⟩)
      cases hf' with
      | one => obtain ⟨a, ha, he⟩ := List.mem_map.1 hs'; cases he
      | two => cases (mem_toAll.1 hs').2
      | three => cases (mem_toAll.1 hs').2
      | four in1' in2' in3' r4' h4' =>
        obtain rfl := x1 hl'
        obtain rfl := x2 hl'
        obtain rfl := x3 hl'
        exact ⟨r4', h4', Message.four.inj (mem_toAll.1 hs').2⟩
      | error => cases (mem_toAll.1 hs').2
  | error in1 in2 in3 re me h4 hme =>
    obtain rfl := x1 hl
    obtain rfl := x2 hl
    obtain rfl := x3 hl
    change (gather re.ctx.otherIds Message.error? (recvErr E re) got).bind _ = _ at hnext
    obtain ⟨inE, rfl, hc⟩ := gather_unmap_fault error_inj (bind_fault (by
      intro b j e hx
      rcases Out.bind_eq_err.1 hx with hx | ⟨_, -, hx⟩
      · exact finalizeResult_not_fault hx
      · cases hx) hnext)
    refine ⟨got1 n i, got2 n i, got3 n i, [], inE, got1 n j, got2 n j, got3 n j, by rw [← (after3_ctx h4).2 re rfl]; exact collect_fault_mem hc, ?_, hh.first i hi j hj, ec1,
      hh.second i hi j hj, ec2, hh.third i hi j hj, ec3, fun m hm => (by cases hm), ?_⟩
    swap
    · intro re' m hre hm
      obtain rfl : re = re' := by
        have := h4.symm.trans hre
        cases this; rfl
      obtain ⟨s', l', out, hl', ho, hf', hs', hrd⟩ := sent (.error m) (List.mem_map.2 ⟨_, hm, rfl⟩)
      cases hf' with
      | one => obtain ⟨a, ha, he⟩ := List.mem_map.1 hs'; cases he
      | two => cases (mem_toAll.1 hs').2
      | three => cases (mem_toAll.1 hs').2
      | four => cases (mem_toAll.1 hs').2
      | error in1' in2' in3' re' m' h4' hm' =>
        obtain rfl := x1 hl'
        obtain rfl := x2 hl'
        obtain rfl := x3 hl'
        refine ⟨re', h4', ?_, (Message.error.inj (mem_toAll.1 hs').2) ▸ hm'⟩
        change (if re'.hat then 6 else 5) = (if re.hat then 6 else 5) at hrd
        cases ha : re.hat <;> cases hb : re'.hat <;> simp [ha, hb] at hrd ⊢
    unfold run
    rw [h4, Out.bind_ok]
    unfold last
    simp only
    rw [show finalizeResult (msgErr E re) = (.ok me : Out (Abort I (Err I)) _) by rw [hme]; rfl, Out.bind_ok, hc]; rfl

end Signing

end Synedrion
