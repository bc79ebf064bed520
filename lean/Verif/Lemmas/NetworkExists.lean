import Verif.Lemmas.MachinesHistory
import Verif.Lemmas.Signing

/-!
# Executions that exist

If all parties follow the protocol they finish; seen from some of them, the others may as well be dishonest ones that happen to follow the protocol.
-/

set_option linter.unusedSectionVars false

namespace Synedrion

namespace Spec.Machine

variable {I M S E R : Type} [DecidableEq I] {P : Machine I M S E R} {init : I → S} {n : Net I M S E R}

/-- An execution stays one if some of the parties are not counted as honest any more. -/
theorem Reachable.restrict {parties honest : Set I} (hsub : honest ⊆ parties) (h : P.Reachable parties init n) :
    ∃ n', P.Reachable honest init n' ∧ ∀ i ∈ honest, n'.status i = n.status i ∧ n'.begun i = n.begun i ∧ n'.past i = n.past i := by
  classical
  induction h with
  | refl => exact ⟨_, .refl, fun i _ => ⟨rfl, rfl, rfl⟩⟩
  | @tail n₁ n₂ hr hs ih =>
    obtain ⟨n', hn', he⟩ := ih
    cases hs with
    | receive i s got j m hi hst hj hn ha =>
      by_cases hh : i ∈ honest
      · refine ⟨_, hn'.tail (.receive n' i s got j m hh ((he i hh).1.trans hst) hj hn fun hjh => ?_), fun k hk => ?_⟩
        · obtain ⟨t, ht, h2⟩ := ha (hsub hjh)
          exact ⟨t, by rw [(he j hjh).2.1]; exact ht, h2⟩
        · by_cases e : k = i
          · subst e; simp only [Function.update_self]; exact ⟨trivial, (he k hk).2⟩
          · simp only [Function.update_of_ne e]; exact he k hk
      · refine ⟨n', hn', fun k hk => ?_⟩
        have e : k ≠ i := fun e => hh (e ▸ hk)
        simp only [Function.update_of_ne e]; exact he k hk
    | advance i s got hi hst hc =>
      by_cases hh : i ∈ honest
      · refine ⟨_, hn'.tail (.advance n' i s got hh ((he i hh).1.trans hst) hc), fun k hk => ?_⟩
        by_cases e : k = i
        · subst e; simp only [Function.update_self]; exact ⟨trivial, by rw [(he k hk).2.1], by rw [(he k hk).2.2]⟩
        · simp only [Function.update_of_ne e]; exact he k hk
      · refine ⟨n', hn', fun k hk => ?_⟩
        have e : k ≠ i := fun e => hh (e ▸ hk)
        simp only [Function.update_of_ne e]; exact he k hk
    | crash i s got hi hst =>
      by_cases hh : i ∈ honest
      · refine ⟨_, hn'.tail (.crash (P := P) n' i s got hh ((he i hh).1.trans hst)), fun k hk => ?_⟩
        by_cases e : k = i
        · subst e; simp only [Function.update_self]; exact ⟨trivial, (he k hk).2⟩
        · simp only [Function.update_of_ne e]; exact he k hk
      · refine ⟨n', hn', fun k hk => ?_⟩
        have e : k ≠ i := fun e => hh (e ▸ hk)
        simp only [Function.update_of_ne e]; exact he k hk

/-- If everybody follows the protocol, a broadcast is the same for all. -/
theorem Reachable.echoAgree {parties : Set I} (h : P.Reachable parties init n) {T : Type} {echo : M → T} {k : Nat}
    (hexp : ∀ i ∈ parties, ∀ l s, P.replay (init i) l = .ok (.inl s) → ∀ j ∈ P.expected s, j ∈ parties)
    (hround : ∀ i ∈ parties, ∀ l s, P.replay (init i) l = .ok (.inl s) → P.round s = k → l.length + 1 = k)
    (hbc : ∀ s, P.round s = k → ∀ a ∈ P.send s, ∀ b ∈ P.send s, echo a.2 = echo b.2) : P.EchoAgree parties k echo n := by
  intro i hi i' hi' x hx x' hx' hr hr' j m m' hm hm'
  obtain ⟨hb, hc, hg⟩ := (h.inv i).past x hx
  obtain ⟨hb', hc', hg'⟩ := (h.inv i').past x' hx'
  obtain ⟨l0, -, hl0⟩ := (h.inv i).begun _ hb
  have hj : j ∈ parties := hexp i hi l0 x.1 hl0 j (hg.expected _ hm)
  obtain ⟨s, l, hl, hrep, hrd, hsend⟩ := h.of_sent (hg.authentic _ hm hj)
  obtain ⟨s', l', hl', hrep', hrd', hsend'⟩ := h.of_sent (hg'.authentic _ hm' hj)
  rw [hr] at hrd
  rw [hr'] at hrd'
  have e1 := hround j hj l s hrep hrd
  have e2 := hround j hj l' s' hrep' hrd'
  have hll : l = l' := by
    rw [List.prefix_iff_eq_take.1 hl, List.prefix_iff_eq_take.1 hl']
    congr 1
    omega
  subst hll
  rw [hrep] at hrep'
  cases hrep'
  exact hbc s hrd _ hsend _ hsend'

/-- A round that was begun was begun at some time. -/
theorem Reachable.moment {honest : Set I} (h : P.Reachable honest init n) {i : I} {s : S} (hs : s ∈ n.begun i) :
    ∃ n₀, P.Reachable honest init n₀ ∧ Relation.ReflTransGen (P.Step honest) n₀ n ∧ s ∈ n₀.begun i ∧ n₀.status i = .running s [] := by
  induction h with
  | refl =>
    simp only [start, List.mem_singleton] at hs
    exact ⟨_, .refl, .refl, by simp [start, hs], by simp [start, hs]⟩
  | @tail n₁ n₂ hr hst ih =>
    by_cases hs1 : s ∈ n₁.begun i
    · obtain ⟨n₀, h1, h2, h3⟩ := ih hs1
      exact ⟨n₀, h1, h2.tail hst, h3⟩
    · refine ⟨n₂, Relation.ReflTransGen.tail hr hst, .refl, hs, ?_⟩
      cases hst with
      | receive i' t got j m hi hstat hj hn ha => exact absurd hs hs1
      | crash i' t got hi hstat => exact absurd hs hs1
      | advance i' t got hi hstat hc =>
        by_cases e : i = i'
        · subst e
          simp only [Function.update_self] at hs ⊢
          rcases List.mem_append.1 hs with h | h
          · exact absurd h hs1
          · revert h
            unfold advanced
            cases P.next t got with
            | ok x =>
              cases x with
              | inl t' => simp only [fresh, List.mem_singleton]; rintro rfl; rfl
              | inr r => simp [fresh]
            | err a => simp [fresh]
            | panic => simp [fresh]
        · simp only [Function.update_of_ne e] at hs
          exact absurd hs hs1

/-- Executions in which some parties are honest, the others dishonest but behaving, the broadcasts of round `k` are the same for all, and all finish. -/
theorem AlwaysFinishes.exists_agreeing {parties : Finset I} {bound : Nat} {res : I → R} (h : P.AlwaysFinishes parties init bound res) {T : Type} {echo : M → T} {k : Nat}
    (hexp : ∀ i ∈ parties, ∀ l s, P.replay (init i) l = .ok (.inl s) → ∀ j ∈ P.expected s, j ∈ parties)
    (hround : ∀ i ∈ parties, ∀ l s, P.replay (init i) l = .ok (.inl s) → P.round s = k → l.length + 1 = k)
    (hbc : ∀ s, P.round s = k → ∀ a ∈ P.send s, ∀ b ∈ P.send s, echo a.2 = echo b.2) (honest : Set I) (hsub : honest ⊆ (parties : Set I)) :
    ∃ n, P.Reachable honest init n ∧ (∀ i ∈ honest, n.status i = .finished (res i)) ∧ P.EchoAgree honest k echo n := by
  obtain ⟨n, hn, hf⟩ := h.exists_finished
  have he := hn.echoAgree (echo := echo) (k := k) hexp hround hbc
  obtain ⟨n', hn', heq⟩ := hn.restrict hsub
  refine ⟨n', hn', fun i hi => (heq i hi).1.trans (hf i (hsub hi)), ?_⟩
  intro i hi i' hi' x hx x' hx'
  rw [(heq i hi).2.2] at hx
  rw [(heq i' hi').2.2] at hx'
  exact he i (hsub hi) i' (hsub hi') x hx x' hx'

/-- In an execution in which `j` has completed round `k` there was a moment when `i` had just sent its message of that round to `j`. -/
theorem Reachable.sending {honest : Set I} (h : P.Reachable honest init n) {i j : I} (hi : i ∈ honest) {k : Nat} (hlen : k < (n.past j).length)
    (hfol : ∀ l s, P.replay (init j) l = .ok (.inl s) → i ∈ P.expected s ∧ P.round s = l.length + 1) :
    ∃ n₀ s m, P.Reachable honest init n₀ ∧ Relation.ReflTransGen (P.Step honest) n₀ n ∧ n₀.status i = .running s [] ∧ P.Sent n₀ i j (k + 1) m := by
  obtain ⟨hx, hxe⟩ : (n.past j)[k] ∈ n.past j ∧ True := ⟨List.getElem_mem hlen, trivial⟩
  have hdec : n.past j = (n.past j).take k ++ ((n.past j)[k].1, (n.past j)[k].2) :: (n.past j).drop (k + 1) := by
    conv_lhs => rw [← List.take_append_drop k (n.past j), List.drop_eq_getElem_cons hlen]
  obtain ⟨hin, hrd⟩ := hfol _ _ (h.past_replay j _ _ _ _ hdec)
  obtain ⟨-, hc, hg⟩ := (h.inv j).past _ hx
  rw [← hc.2.1, List.mem_toFinset, List.mem_map] at hin
  obtain ⟨⟨_, m⟩, hm, rfl⟩ := hin
  obtain ⟨s, hs, hr, hsend⟩ := hg.authentic _ hm hi
  obtain ⟨n₀, h1, h2, h3, h4⟩ := h.moment hs
  refine ⟨n₀, s, m, h1, h2, h4, s, h3, ?_, hsend⟩
  rw [hr, hrd, List.length_map, List.length_take]
  omega

end Spec.Machine

/-! ## The protocols meet the conditions -/

namespace KeyInit

variable {I F G Sid V : Type} [LinearOrder I] [Field F] [LinearOrder F] [AddCommGroup G] [Module F G] [DecidableEq G] [DecidableEq V]
  {hashV : Sid → I → PublicData G → V} {H : SchHash G (SchAux I Sid) → F} {g : G}

theorem replay_expected {c : Context I F G Sid} {l : List (List (I × Message F G V))} {s : State I F G Sid V} (h : (machine hashV H g).replay (.one c) l = .ok (.inl s)) :
    (machine hashV H g).expected s = c.otherIds ∧ (machine hashV H g).round s = l.length + 1 := by
  rcases replay_inv h with ⟨s', hs, hf⟩ | ⟨_, hs, _⟩
  · cases hs
    refine ⟨?_, follows_round hf⟩
    cases hf with
    | one => rfl
    | two => rfl
    | three in1 in2 r3 h3 => show r3.ctx.otherIds = _; rw [toRound3_ctx h3]
  · cases hs

theorem send_one (s : State I F G Sid V) (h : (machine hashV H g).round s = 1) :
    ∀ a ∈ (machine hashV H g).send s, ∀ b ∈ (machine hashV H g).send s, a.2 = b.2 := by
  cases s with
  | one c => intro a ha b hb; rw [(mem_toAll.1 ha).2, (mem_toAll.1 hb).2]
  | two r => cases h
  | three r => cases h

theorem past_length {honest : Set I} {c : I → Context I F G Sid} {n : Spec.Net I (Message F G V) (State I F G Sid V) Err (KeyShare I F G)}
    (h : (machine hashV H g).Reachable honest (fun i => .one (c i)) n) {i : I} {share : KeyShare I F G} (hf : n.status i = .finished share) : (n.past i).length = 3 := by
  rcases replay_inv (h.finished hf) with ⟨_, hs, _⟩ | ⟨_, hs, in1, in2, in3, hrun, hl⟩
  · cases hs
  · have := congrArg List.length hl
    rw [List.length_map] at this
    exact this

end KeyInit

namespace AuxGen

variable {I Sid V : Type} [LinearOrder I] [DecidableEq V] {E : AuxEnv I Sid} {hashV : Sid → I → Hashed → V}

theorem replay_expected {c : Context I Sid} {l : List (List (I × Message V))} {s : State I Sid V} (h : (machine E hashV).replay (.one c) l = .ok (.inl s)) :
    (machine E hashV).expected s = c.otherIds ∧ (machine E hashV).round s = l.length + 1 := by
  rcases replay_inv h with ⟨s', hs, hf⟩ | ⟨_, hs, _⟩
  · cases hs
    refine ⟨?_, follows_round hf⟩
    cases hf with
    | one => rfl
    | two => rfl
    | three in1 in2 r3 out h3 => show r3.ctx.otherIds = _; rw [toRound3_ctx h3]
  · cases hs

theorem send_one (s : State I Sid V) (h : (machine E hashV).round s = 1) : ∀ a ∈ (machine E hashV).send s, ∀ b ∈ (machine E hashV).send s, a.2 = b.2 := by
  cases s with
  | one c => intro a ha b hb; rw [(mem_toAll.1 ha).2, (mem_toAll.1 hb).2]
  | two c v => cases h
  | three r o => cases h

theorem past_length {honest : Set I} {c : I → Context I Sid} {n : Spec.Net I (Message V) (State I Sid V) (Err I) (AuxInfo I PaillierKey PublicAux)}
    (h : (machine E hashV).Reachable honest (fun i => .one (c i)) n) {i : I} {res : AuxInfo I PaillierKey PublicAux} (hf : n.status i = .finished res) : (n.past i).length = 3 := by
  rcases replay_inv (h.finished hf) with ⟨_, hs, _⟩ | ⟨_, hs, in1, in2, in3, hrun, hl⟩
  · cases hs
  · have := congrArg List.length hl
    rw [List.length_map] at this
    exact this

end AuxGen

namespace KeyRefresh

variable {I F G Sid V : Type} [LinearOrder I] [Field F] [LinearOrder F] [AddCommGroup G] [Module F G] [DecidableEq G] [DecidableEq V]
  {E : Env I Sid F G} {hashV : Sid → I → Hashed I G → V}

theorem replay_expected {c : Context I F G Sid} {l : List (List (I × Message I F G V))} {s : State I F G Sid V} (h : (machine E hashV).replay (.one c) l = .ok (.inl s)) :
    (machine E hashV).expected s = c.otherIds ∧ (machine E hashV).round s = l.length + 1 := by
  rcases replay_inv h with ⟨s', hs, hf⟩ | ⟨_, hs, _⟩
  · cases hs
    refine ⟨?_, follows_round hf⟩
    cases hf with
    | one => rfl
    | two => rfl
    | three in1 in2 r3 out h3 => show r3.ctx.otherIds = _; rw [toRound3_ctx h3]
  · cases hs

theorem send_one (s : State I F G Sid V) (h : (machine E hashV).round s = 1) : ∀ a ∈ (machine E hashV).send s, ∀ b ∈ (machine E hashV).send s, a.2 = b.2 := by
  cases s with
  | one c => intro a ha b hb; rw [(mem_toAll.1 ha).2, (mem_toAll.1 hb).2]
  | two c v => cases h
  | three r o => cases h

theorem past_length {honest : Set I} {c : I → Context I F G Sid}
    {n : Spec.Net I (Message I F G V) (State I F G Sid V) (Err I F) (KeyShareChange I F G × AuxInfo I PaillierKey PublicAux)}
    (h : (machine E hashV).Reachable honest (fun i => .one (c i)) n) {i : I} {res : KeyShareChange I F G × AuxInfo I PaillierKey PublicAux} (hf : n.status i = .finished res) :
    (n.past i).length = 3 := by
  rcases replay_inv (h.finished hf) with ⟨_, hs, _⟩ | ⟨_, hs, in1, in2, in3, hrun, hl⟩
  · cases hs
  · have := congrArg List.length hl
    rw [List.length_map] at this
    exact this

end KeyRefresh

namespace Signing

variable {q : Nat} [Fact q.Prime] {I Ep G : Type} [LinearOrder I] [AddCommGroup G] [Module (ZMod q) G] [DecidableEq G] {E : Env q I Ep G}

theorem after3_ctx {r : Round1 q I Ep G} {in1 : List (I × Msg1 q G)} {in2 : List (I × Msg2 q I G)} {in3 : List (I × Msg3 q G)} {a : After3 q I Ep G}
    (h : toRound4 E r in1 in2 in3 = .ok a) : (∀ r4, a = .round4 r4 → r4.ctx = r.ctx) ∧ ∀ re, a = .error re → re.ctx = r.ctx := by
  obtain ⟨r3, pl, -, hctx, -, -, hf⟩ := toRound4_ok h
  unfold finalize3 at hf
  simp only at hf
  split at hf
  · cases hf
    exact ⟨fun _ h => (by cases h), fun _ h => (by cases h; exact hctx)⟩
  · split at hf
    · cases hf
      exact ⟨fun _ h => (by cases h), fun _ h => (by cases h; exact hctx)⟩
    · split at hf
      · cases hf
      · cases hf
        exact ⟨fun _ h => (by cases h; exact hctx), fun _ h => (by cases h)⟩

theorem replay_expected {r : Round1 q I Ep G} {init : State q I Ep G} (hinit : begin E r = .ok init) {l : List (List (I × Message q I G))} {s : State q I Ep G}
    (h : (machine E).replay init l = .ok (.inl s)) : (machine E).expected s = r.ctx.otherIds ∧ ((machine E).round s = 2 → l.length + 1 = 2) := by
  unfold begin at hinit
  obtain ⟨out, hout, he⟩ := Out.bind_eq_ok.1 hinit
  rw [← Out.ok.inj he] at h
  rcases replay_inv hout h with ⟨s', hs, hf⟩ | ⟨_, hs, _⟩
  · cases hs
    cases hf with
    | one => exact ⟨rfl, fun h => by cases h⟩
    | two in1 r2 h2 => exact ⟨by show r2.ctx.otherIds = _; rw [toRound2_ok h2], fun _ => rfl⟩
    | three in1 in2 r3 h3 => exact ⟨by show r3.ctx.otherIds = _; rw [(toRound3_ok h3).1], fun h => by cases h⟩
    | four in1 in2 in3 r4 h4 => exact ⟨by show r4.ctx.otherIds = _; rw [(after3_ctx h4).1 r4 rfl], fun h => by cases h⟩
    | error in1 in2 in3 re m h4 hm =>
      refine ⟨by show re.ctx.otherIds = _; rw [(after3_ctx h4).2 re rfl], fun h => ?_⟩
      change (if re.hat then 6 else 5) = 2 at h
      split at h <;> cases h
  · cases hs

theorem send_two (s : State q I Ep G) (h : (machine E).round s = 2) : ∀ a ∈ (machine E).send s, ∀ b ∈ (machine E).send s, a.2 = b.2 := by
  cases s with
  | one r o => cases h
  | two r => intro a ha b hb; rw [(mem_toAll.1 ha).2, (mem_toAll.1 hb).2]
  | three r => cases h
  | four r => cases h
  | error r m =>
    change (if r.hat then 6 else 5) = 2 at h
    split at h <;> cases h

end Signing

end Synedrion
