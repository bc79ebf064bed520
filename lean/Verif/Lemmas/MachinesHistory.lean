import Verif.Lemmas.Machines
import Verif.Spec.Blame

/-!
# What the parties of a concurrent execution have received, and what they do with it
-/

set_option linter.unusedSectionVars false

namespace Synedrion

namespace Spec.Machine

variable {I M S E R : Type} [DecidableEq I] {P : Machine I M S E R} {honest : Set I} {init : I → S} {n : Net I M S E R}

theorem Reachable.past_replay (h : P.Reachable honest init n) (i : I) : ∀ pre s got post, n.past i = pre ++ (s, got) :: post →
    P.replay (init i) (pre.map Prod.snd) = .ok (.inl s) := by
  induction h with
  | refl => intro pre s got post h; simp [start] at h
  | @tail n n' hr hstep ih =>
    have hinv := Reachable.inv hr i
    cases hstep with
    | receive i' s' got' j m hi hst hj hn ha => exact ih
    | crash i' s' got' hi hst => exact ih
    | advance i' s' got' hi hst hc =>
      intro pre s got post h
      by_cases e : i = i'
      · subst e
        simp only [Function.update_self] at h
        rcases List.eq_nil_or_concat' post with rfl | ⟨post', x, rfl⟩
        · obtain ⟨h1, h2⟩ := List.append_inj' h rfl
          cases h2
          have h0 := hinv.status
          rw [hst] at h0
          rw [← h1]
          exact h0.1
        · rw [← List.cons_append, ← List.append_assoc] at h
          exact ih pre s got post' (List.append_inj' h rfl).1
      · simp only [Function.update_of_ne e] at h
        exact ih pre s got post h

/-- The messages a party received in the `k`-th of the rounds it has completed -/
def nth (n : Net I M S E R) (i : I) (k : Nat) : List (I × M) := (((n.past i).map Prod.snd)[k]?).getD []

theorem Reachable.of_mem_nth (h : P.Reachable honest init n) {i : I} {k : Nat} {a : I × M} (ha : a ∈ nth n i k) :
    ∃ s got, (s, got) ∈ n.past i ∧ got = nth n i k ∧ P.replay (init i) (((n.past i).map Prod.snd).take k) = .ok (.inl s) ∧
      ∀ b ∈ got, b.1 ∈ honest → P.Sent n b.1 i (P.round s) b.2 := by
  unfold nth at ha ⊢
  rw [List.getElem?_map] at ha ⊢
  cases hk : (n.past i)[k]? with
  | none => rw [hk] at ha; simp at ha
  | some x =>
    obtain ⟨hlt, hx⟩ := List.getElem?_eq_some_iff.1 hk
    have hdec : n.past i = (n.past i).take k ++ (x.1, x.2) :: (n.past i).drop (k + 1) := by
      rw [← hx]
      conv_lhs => rw [← List.take_append_drop k (n.past i), List.drop_eq_getElem_cons hlt]
    refine ⟨x.1, x.2, by rw [← hx]; exact List.getElem_mem hlt, rfl, ?_, ?_⟩
    · rw [← List.map_take]
      exact h.past_replay i _ _ _ _ hdec
    · intro b hb hh
      exact ((h.inv i).past x (by rw [← hx]; exact List.getElem_mem hlt)).2.2.authentic b hb hh

/-- The messages of an honest party are those of a round it has come to. -/
theorem Reachable.of_sent (h : P.Reachable honest init n) {j i : I} {k : Nat} {m : M} (hs : P.Sent n j i k m) :
    ∃ s l, l <+: (n.past j).map Prod.snd ∧ P.replay (init j) l = .ok (.inl s) ∧ P.round s = k ∧ (i, m) ∈ P.send s := by
  obtain ⟨s, hs, hr, hm⟩ := hs
  obtain ⟨l, hl, he⟩ := (h.inv j).begun s hs
  exact ⟨s, l, hl, he, hr, hm⟩

/-- What holds of a party from round to round holds of all it does. -/
theorem replay_follows {Fol : List (List (I × M)) → S → Prop} {Done : List (List (I × M)) → R → Prop}
    (hstep : ∀ l s got x, Fol l s → P.next s got = .ok x → (∃ s', x = .inl s' ∧ Fol (l ++ [got]) s') ∨ ∃ r, x = .inr r ∧ Done (l ++ [got]) r) :
    ∀ (l pre : List (List (I × M))) (s : S) (x : S ⊕ R), Fol pre s → P.replay s l = .ok x →
      (∃ s', x = .inl s' ∧ Fol (pre ++ l) s') ∨ ∃ r, x = .inr r ∧ Done (pre ++ l) r := by
  intro l
  induction l with
  | nil =>
    intro pre s x hf h
    rw [List.append_nil]
    exact .inl ⟨s, (Out.ok.inj h).symm, hf⟩
  | cons got l ih =>
    intro pre s x hf h
    simp only [replay, Out.bind_eq_ok] at h
    obtain ⟨y, hy, h⟩ := h
    rw [List.append_cons]
    rcases hstep pre s got y hf hy with ⟨s', rfl, hf'⟩ | ⟨r, rfl, hd⟩
    · exact ih _ _ _ hf' h
    · cases l with
      | nil =>
        rw [List.append_nil]
        exact .inr ⟨r, (Out.ok.inj h).symm, hd⟩
      | cons _ _ => cases h

theorem Reachable.finished (h : P.Reachable honest init n) {i : I} {r : R} (hf : n.status i = .finished r) :
    P.replay (init i) ((n.past i).map Prod.snd) = .ok (.inr r) := by
  have := (h.inv i).status
  rw [hf] at this
  exact this

/-- If `Fol` describes the rounds honest parties go through, then what a party has received in the `k`-th of them from an honest party is of the same round and was sent in it. -/
theorem Reachable.nth_sent' (h : P.Reachable honest init n) {Fol : I → List (List (I × M)) → S → Prop}
    (hfol : ∀ i ∈ honest, ∀ l s, P.replay (init i) l = .ok (.inl s) → Fol i l s) {i j : I} (hi : i ∈ honest) {k : Nat} {m : M} (hm : (j, m) ∈ nth n i k) :
    ∃ l s got, (s, got) ∈ n.past i ∧ Fol i l s ∧ l.length = k ∧ (j, m) ∈ got ∧
      (j ∈ honest → ∃ t l', l' <+: (n.past j).map Prod.snd ∧ Fol j l' t ∧ P.round t = P.round s ∧ (i, m) ∈ P.send t) := by
  obtain ⟨s, got, hp, hg, hr, hs⟩ := h.of_mem_nth hm
  have hlen : k < ((n.past i).map Prod.snd).length := by
    by_contra hk
    unfold nth at hm
    rw [List.getElem?_eq_none (by omega)] at hm
    simp at hm
  rw [← hg] at hm
  refine ⟨_, s, got, hp, hfol i hi _ s hr, by rw [List.length_take]; omega, hm, fun hj => ?_⟩
  obtain ⟨t, l, hl, hrt, hrd, hmem⟩ := h.of_sent (hs _ hm hj)
  exact ⟨t, l, hl, hfol j hj l t hrt, hrd, hmem⟩

/-- The same for protocols whose rounds are numbered one after the other -/
theorem Reachable.nth_sent (h : P.Reachable honest init n) {Fol : I → List (List (I × M)) → S → Prop}
    (hfol : ∀ i ∈ honest, ∀ l s, P.replay (init i) l = .ok (.inl s) → Fol i l s ∧ P.round s = l.length + 1) {i j : I} (hi : i ∈ honest) {k : Nat} {m : M} (hm : (j, m) ∈ nth n i k) :
    (∃ s got, (s, got) ∈ n.past i ∧ P.round s = k + 1 ∧ (j, m) ∈ got) ∧
      (j ∈ honest → ∃ s l, l <+: (n.past j).map Prod.snd ∧ Fol j l s ∧ l.length = k ∧ (i, m) ∈ P.send s) := by
  obtain ⟨l, s, got, hp, hf, hlen, hmem, hs⟩ := h.nth_sent' (Fol := fun i l s => Fol i l s ∧ P.round s = l.length + 1) hfol hi hm
  refine ⟨⟨s, got, hp, by rw [hf.2, hlen], hmem⟩, fun hj => ?_⟩
  obtain ⟨t, l', hl', hf', hr, hm'⟩ := hs hj
  exact ⟨t, l', hl', hf'.1, by rw [hf'.2, hf.2] at hr; omega, hm'⟩

theorem nth_mono {n' : Net I M S E R} {i : I} (h : n.past i <+: n'.past i) {k : Nat} (hk : k < (n.past i).length) : nth n' i k = nth n i k := by
  unfold nth
  obtain ⟨t, ht⟩ := h
  rw [← ht, List.map_append, List.getElem?_append_left (by simpa using hk)]

/-- Somebody who has sent a message of a round has completed the rounds before it. -/
theorem Reachable.completed_of_sent (h : P.Reachable honest init n) {Fol : I → List (List (I × M)) → S → Prop}
    (hfol : ∀ i ∈ honest, ∀ l s, P.replay (init i) l = .ok (.inl s) → Fol i l s ∧ P.round s = l.length + 1) {i j : I} (hi : i ∈ honest) {k : Nat} {m : M}
    (hs : P.Sent n i j (k + 1) m) : k ≤ (n.past i).length := by
  obtain ⟨s, l, hl, hr, hrd, -⟩ := h.of_sent hs
  have h1 := (hfol i hi l s hr).2
  have h2 := hl.length_le
  rw [List.length_map] at h2
  omega

theorem nth_of_eq {i : I} {l : List (List (I × M))} (h : (n.past i).map Prod.snd = l) {k : Nat} (hk : k < l.length) : nth n i k = l[k] := by
  subst h
  unfold nth
  rw [List.getElem?_eq_getElem hk]
  rfl

theorem nth_of_prefix {i : I} {l : List (List (I × M))} (h : l <+: (n.past i).map Prod.snd) {k : Nat} (hk : k < l.length) : nth n i k = l[k] := by
  unfold nth
  obtain ⟨t, ht⟩ := h
  rw [← ht, List.getElem?_append_left hk, List.getElem?_eq_getElem hk]
  rfl

end Spec.Machine

section Parts

variable {I M A : Type}

/-- The messages of one round among those received -/
def parts (part : M → Option A) (got : List (I × M)) : List (I × A) := got.filterMap fun a => (part a.2).map fun x => (a.1, x)

theorem mem_parts {part : M → Option A} {inj : A → M} (hinj : ∀ m a, part m = some a → m = inj a) {got : List (I × M)} {j : I} {x : A} (h : (j, x) ∈ parts part got) :
    (j, inj x) ∈ got := by
  unfold parts at h
  rw [List.mem_filterMap] at h
  obtain ⟨a, ha, he⟩ := h
  rw [Option.map_eq_some_iff] at he
  obtain ⟨y, hy, he⟩ := he
  cases he
  rw [← hinj _ _ hy]
  exact ha

theorem parts_map (part : M → Option A) (inj : A → M) (hinj : ∀ a, part (inj a) = some a) (arr : List (I × A)) :
    parts part (arr.map fun a => (a.1, inj a.2)) = arr := by
  unfold parts
  rw [List.filterMap_map]
  have : ((fun a : I × M => (part a.2).map fun x => (a.1, x)) ∘ fun a : I × A => (a.1, inj a.2)) = some := by
    funext a
    simp [hinj]
  rw [this, List.filterMap_some]

end Parts

namespace KeyInit

variable {I F G Sid V : Type} [LinearOrder I] [Field F] [LinearOrder F] [AddCommGroup G] [Module F G] [DecidableEq G] [DecidableEq V]
variable {hashV : Sid → I → PublicData G → V} {H : SchHash G (SchAux I Sid) → F} {g : G}

theorem one_inj : ∀ (m : Message F G V) a, m.one? = some a → m = .one a := by rintro (_ | _ | _) a h <;> cases h; rfl
theorem two_inj : ∀ (m : Message F G V) a, m.two? = some a → m = .two a := by rintro (_ | _ | _) a h <;> cases h; rfl
theorem three_inj : ∀ (m : Message F G V) a, m.three? = some a → m = .three a := by rintro (_ | _ | _) a h <;> cases h; rfl

theorem parts_one (arr : List (I × V)) : parts Message.one? (arr.map fun a => (a.1, (.one a.2 : Message F G V))) = arr := parts_map Message.one? Message.one (fun _ => rfl) arr
theorem parts_two (arr : List (I × Msg2 G)) : parts Message.two? (arr.map fun a => (a.1, (.two a.2 : Message F G V))) = arr := parts_map Message.two? Message.two (fun _ => rfl) arr
theorem parts_three (arr : List (I × SchProof F)) : parts Message.three? (arr.map fun a => (a.1, (.three a.2 : Message F G V))) = arr := parts_map Message.three? Message.three (fun _ => rfl) arr

/-- The rounds a party can come to with given messages -/
inductive Follows (hashV : Sid → I → PublicData G → V) (c : Context I F G Sid) : List (List (I × Message F G V)) → State I F G Sid V → Prop where
  | one : Follows hashV c [] (.one c)
  | two (in1 : List (I × V)) (capVs : BMap I V) : collect (E := Err) c.otherIds recv1 in1 = .ok capVs →
      Follows hashV c [in1.map fun a => (a.1, .one a.2)] (.two ⟨c, capVs⟩)
  | three (in1 : List (I × V)) (in2 : List (I × Msg2 G)) (r3 : Round3 I F G Sid) : toRound3 hashV c in1 in2 = .ok r3 →
      Follows hashV c [in1.map fun a => (a.1, .one a.2), in2.map fun a => (a.1, .two a.2)] (.three r3)

theorem toRound3_ctx {c : Context I F G Sid} {in1 : List (I × V)} {in2 : List (I × Msg2 G)} {r3 : Round3 I F G Sid} (h : toRound3 hashV c in1 in2 = .ok r3) : r3.ctx = c := by
  simp only [toRound3, Out.bind_eq_ok, finalize2] at h
  obtain ⟨_, _, _, _, _, _, h⟩ := h
  rw [← Out.ok.inj h]

/-- What a party that has finished has received -/
def Done (hashV : Sid → I → PublicData G → V) (H : SchHash G (SchAux I Sid) → F) (g : G) (c : Context I F G Sid) (l : List (List (I × Message F G V)))
    (share : KeyShare I F G) : Prop :=
  ∃ in1 in2 in3, run hashV H g c in1 in2 in3 = .ok share ∧
    l = [in1.map fun a => (a.1, .one a.2), in2.map fun a => (a.1, .two a.2), in3.map fun a => (a.1, .three a.2)]

theorem step_inv (c : Context I F G Sid) (l : List (List (I × Message F G V))) (s : State I F G Sid V) (got : List (I × Message F G V))
    (x : State I F G Sid V ⊕ KeyShare I F G) (hf : Follows hashV c l s) (h : (machine hashV H g).next s got = .ok x) :
    (∃ s', x = .inl s' ∧ Follows hashV c (l ++ [got]) s') ∨ ∃ share, x = .inr share ∧ Done hashV H g c (l ++ [got]) share := by
  cases hf with
  | one =>
    change (gather c.otherIds Message.one? recv1 got).bind _ = _ at h
    rw [Out.bind_eq_ok] at h
    obtain ⟨capVs, hg, hx⟩ := h
    obtain ⟨in1, rfl, hc⟩ := gather_unmap one_inj hg
    exact .inl ⟨_, (Out.ok.inj hx).symm, .two in1 capVs hc⟩
  | two in1 capVs h1 =>
    change (gather c.otherIds Message.two? (recv2 hashV ⟨c, capVs⟩) got).bind _ = _ at h
    simp only [Out.bind_eq_ok] at h
    obtain ⟨pl, hg, r3, hr3, hx⟩ := h
    obtain ⟨in2, rfl, hc⟩ := gather_unmap two_inj hg
    refine .inl ⟨_, (Out.ok.inj hx).symm, .three in1 in2 r3 ?_⟩
    unfold toRound3
    rw [h1, Out.bind_ok]
    simp only
    rw [hc, Out.bind_ok, hr3]
  | three in1 in2 r3 h2 =>
    change (gather r3.ctx.otherIds Message.three? (recv3 H g r3) got).bind _ = _ at h
    simp only [Out.bind_eq_ok] at h
    obtain ⟨pl, hg, share, hs, hx⟩ := h
    obtain ⟨in3, rfl, hc⟩ := gather_unmap three_inj hg
    refine .inr ⟨share, (Out.ok.inj hx).symm, in1, in2, in3, ?_, rfl⟩
    unfold run
    rw [toRound3_ctx h2] at hc
    rw [h2, Out.bind_ok, hc, Out.bind_ok, hs]

theorem replay_inv {c : Context I F G Sid} {l : List (List (I × Message F G V))} {x : State I F G Sid V ⊕ KeyShare I F G}
    (h : (machine hashV H g).replay (.one c) l = .ok x) : (∃ s, x = .inl s ∧ Follows hashV c l s) ∨ ∃ share, x = .inr share ∧ Done hashV H g c l share :=
  Spec.Machine.replay_follows (step_inv c) l [] _ x .one h

/-- What a party has received in round 1, if it has completed it -/
def got1 (n : Spec.Net I (Message F G V) (State I F G Sid V) Err (KeyShare I F G)) (i : I) : List (I × V) := parts Message.one? (Spec.Machine.nth n i 0)

/-- What a party has received in round 2, if it has completed it -/
def got2 (n : Spec.Net I (Message F G V) (State I F G Sid V) Err (KeyShare I F G)) (i : I) : List (I × Msg2 G) := parts Message.two? (Spec.Machine.nth n i 1)

/-- What a party has received in round 3, if it has completed it -/
def got3 (n : Spec.Net I (Message F G V) (State I F G Sid V) Err (KeyShare I F G)) (i : I) : List (I × SchProof F) := parts Message.three? (Spec.Machine.nth n i 2)

/-- What is known of the messages `in1`, `in2`, `in3` that the parties have received in the rounds they have completed -/
structure History (hashV : Sid → I → PublicData G → V) (H : SchHash G (SchAux I Sid) → F) (g : G) (honest : Set I) (c : I → Context I F G Sid)
    (n : Spec.Net I (Message F G V) (State I F G Sid V) Err (KeyShare I F G)) (in1 : I → List (I × V)) (in2 : I → List (I × Msg2 G)) (in3 : I → List (I × SchProof F)) : Prop where
  finished : ∀ i ∈ honest, ∀ share, n.status i = .finished share → run hashV H g (c i) (in1 i) (in2 i) (in3 i) = .ok share
  first : ∀ i ∈ honest, ∀ j ∈ honest, Spec.OnlyFrom j (msg1 hashV (c j)) (in1 i)
  second : ∀ i ∈ honest, ∀ j ∈ honest, Spec.OnlyFrom j (msg2 (c j)) (in2 i)
  third : ∀ i ∈ honest, ∀ j ∈ honest, ∀ m, (j, m) ∈ in3 i → ∃ r3, toRound3 hashV (c j) (in1 j) (in2 j) = .ok r3 ∧ m = msg3 H r3
  past1 : ∀ i ∈ honest, ∀ a ∈ in1 i, ∃ s got, (s, got) ∈ n.past i ∧ (machine hashV H g).round s = 1 ∧ (a.1, .one a.2) ∈ got
  past2 : ∀ i ∈ honest, ∀ a ∈ in2 i, ∃ s got, (s, got) ∈ n.past i ∧ (machine hashV H g).round s = 2 ∧ (a.1, .two a.2) ∈ got

theorem follows_round {c : Context I F G Sid} {l : List (List (I × Message F G V))} {s : State I F G Sid V} (h : Follows hashV c l s) :
    (machine hashV H g).round s = l.length + 1 := by
  cases h <;> rfl

/-- The rounds honest parties go through -/
theorem fol {honest : Set I} {c : I → Context I F G Sid} : ∀ i ∈ honest, ∀ l s, (machine hashV H g).replay (.one (c i)) l = .ok (.inl s) → Follows hashV (c i) l s ∧ (machine hashV H g).round s = l.length + 1 := by
  intro i _ l s hr
  rcases replay_inv hr with ⟨s', hs, hf⟩ | ⟨_, hs, _⟩
  · cases hs
    exact ⟨hf, follows_round hf⟩
  · cases hs

/-- What a party has received in round 1 stays what it is once it has begun to send the messages of round 2. -/
theorem got1_eq {honest : Set I} {c : I → Context I F G Sid} {n : Spec.Net I (Message F G V) (State I F G Sid V) Err (KeyShare I F G)}
    (h : (machine hashV H g).Reachable honest (fun i => .one (c i)) n) {n' : Spec.Net I (Message F G V) (State I F G Sid V) Err (KeyShare I F G)}
    (h' : Relation.ReflTransGen ((machine hashV H g).Step honest) n n') {i j : I} (hi : i ∈ honest) {m : Message F G V} (hs : (machine hashV H g).Sent n i j 2 m) : got1 n' i = got1 n i := by
  unfold got1
  rw [Spec.Machine.nth_mono (Spec.Machine.past_mono_star h' i)]
  have := h.completed_of_sent (Fol := fun i => Follows hashV (c i)) fol hi hs
  omega

theorem history {honest : Set I} {c : I → Context I F G Sid} {n : Spec.Net I (Message F G V) (State I F G Sid V) Err (KeyShare I F G)}
    (h : (machine hashV H g).Reachable honest (fun i => .one (c i)) n) : History hashV H g honest c n (got1 n) (got2 n) (got3 n) := by
  have hfol := fol (honest := honest) (c := c) (hashV := hashV) (H := H) (g := g)
  have hsent := fun {i : I} (hi : i ∈ honest) {j : I} {k : Nat} {m : Message F G V} => h.nth_sent (Fol := fun i => Follows hashV (c i)) hfol (j := j) hi (k := k) (m := m)
  unfold got1 got2 got3
  refine ⟨?_, ?_, ?_, ?_, ?_, ?_⟩
  · intro i hi share hs
    rcases replay_inv (h.finished hs) with ⟨_, hx, _⟩ | ⟨_, hx, in1, in2, in3, hrun, hl⟩
    · cases hx
    · cases hx
      simp only [Spec.Machine.nth_of_eq hl (k := 0) (by simp), Spec.Machine.nth_of_eq hl (k := 1) (by simp), Spec.Machine.nth_of_eq hl (k := 2) (by simp)]
      simp only [List.getElem_cons_zero, List.getElem_cons_succ]
      rw [parts_one, parts_two, parts_three]
      exact hrun
  · intro i hi j hj v hv
    obtain ⟨s, l, -, hf, hlen, hm⟩ := (hsent hi (mem_parts one_inj hv)).2 hj
    cases hf with
    | one =>
      have := (mem_toAll.1 hm).2
      cases this
      rfl
    | two => simp at hlen
    | three => simp at hlen
  · intro i hi j hj v hv
    obtain ⟨s, l, -, hf, hlen, hm⟩ := (hsent hi (mem_parts two_inj hv)).2 hj
    cases hf with
    | one => simp at hlen
    | two =>
      have := (mem_toAll.1 hm).2
      cases this
      rfl
    | three => simp at hlen
  · intro i hi j hj v hv
    obtain ⟨s, l, hl, hf, hlen, hm⟩ := (hsent hi (mem_parts three_inj hv)).2 hj
    cases hf with
    | one => simp at hlen
    | two => simp at hlen
    | three in1 in2 r3 h3 =>
      simp only [Spec.Machine.nth_of_prefix hl (k := 0) (by simp), Spec.Machine.nth_of_prefix hl (k := 1) (by simp)]
      simp only [List.getElem_cons_zero, List.getElem_cons_succ]
      rw [parts_one, parts_two]
      have := (mem_toAll.1 hm).2
      cases this
      exact ⟨r3, h3, rfl⟩
  · intro i hi a ha
    exact (hsent hi (mem_parts one_inj ha)).1
  · intro i hi a ha
    exact (hsent hi (mem_parts two_inj ha)).1

end KeyInit

namespace AuxGen

variable {I Sid V : Type} [LinearOrder I] [DecidableEq V]
variable {E : AuxEnv I Sid} {hashV : Sid → I → Hashed → V}

theorem one_inj : ∀ (m : Message V) a, m.one? = some a → m = .one a := by rintro (_ | _ | _) a h <;> cases h; rfl
theorem two_inj : ∀ (m : Message V) a, m.two? = some a → m = .two a := by rintro (_ | _ | _) a h <;> cases h; rfl
theorem three_inj : ∀ (m : Message V) a, m.three? = some a → m = .three a := by rintro (_ | _ | _) a h <;> cases h; rfl

theorem parts_one (arr : List (I × V)) : parts Message.one? (arr.map fun a => (a.1, (.one a.2 : Message V))) = arr := parts_map Message.one? Message.one (fun _ => rfl) arr
theorem parts_two (arr : List (I × Msg2)) : parts Message.two? (arr.map fun a => (a.1, (.two a.2 : Message V))) = arr := parts_map Message.two? Message.two (fun _ => rfl) arr
theorem parts_three (arr : List (I × Msg3)) : parts Message.three? (arr.map fun a => (a.1, (.three a.2 : Message V))) = arr :=
  parts_map Message.three? Message.three (fun _ => rfl) arr

/-- The rounds a party can come to with given messages -/
inductive Follows (E : AuxEnv I Sid) (hashV : Sid → I → Hashed → V) (c : Context I Sid) : List (List (I × Message V)) → State I Sid V → Prop where
  | one : Follows E hashV c [] (.one c)
  | two (in1 : List (I × V)) (capVs : BMap I V) : collect (E := Err I) c.otherIds recv1 in1 = .ok capVs →
      Follows E hashV c [in1.map fun a => (a.1, .one a.2)] (.two c capVs)
  | three (in1 : List (I × V)) (in2 : List (I × Msg2)) (r3 : Round3 I Sid) (out : List (I × Msg3)) : toRound3 E hashV c in1 in2 = .ok r3 → send3 E r3 = .ok out →
      Follows E hashV c [in1.map fun a => (a.1, .one a.2), in2.map fun a => (a.1, .two a.2)] (.three r3 out)

theorem toRound3_ctx {c : Context I Sid} {in1 : List (I × V)} {in2 : List (I × Msg2)} {r3 : Round3 I Sid} (h : toRound3 E hashV c in1 in2 = .ok r3) : r3.ctx = c := by
  simp only [toRound3, Out.bind_eq_ok, finalize2] at h
  obtain ⟨_, _, _, _, _, _, _, _, h⟩ := h
  rw [← Out.ok.inj h]

theorem send3_mem {r3 : Round3 I Sid} {out : List (I × Msg3)} (h : send3 E r3 = .ok out) {a : I × Msg3} (ha : a ∈ out) : msg3 E r3 a.1 = .ok a.2 := by
  have hf := Out.mapM'_eq_ok_iff.1 h
  obtain ⟨k, hk, rfl⟩ := List.mem_iff_getElem.1 ha
  have := hf.get (by rw [hf.length_eq]; exact hk) hk
  simp only [Out.bind_eq_ok, finalizeResult_eq_ok, List.get_eq_getElem] at this
  obtain ⟨m, hm, he⟩ := this
  rw [← Out.ok.inj he]
  exact hm

/-- What a party that has finished has received -/
def Done (E : AuxEnv I Sid) (hashV : Sid → I → Hashed → V) (c : Context I Sid) (l : List (List (I × Message V))) (res : AuxInfo I PaillierKey PublicAux) : Prop :=
  ∃ in1 in2 in3, run E hashV c in1 in2 in3 = .ok res ∧
    l = [in1.map fun a => (a.1, .one a.2), in2.map fun a => (a.1, .two a.2), in3.map fun a => (a.1, .three a.2)]

theorem step_inv (c : Context I Sid) (l : List (List (I × Message V))) (s : State I Sid V) (got : List (I × Message V)) (x : State I Sid V ⊕ AuxInfo I PaillierKey PublicAux)
    (hf : Follows E hashV c l s) (h : (machine E hashV).next s got = .ok x) :
    (∃ s', x = .inl s' ∧ Follows E hashV c (l ++ [got]) s') ∨ ∃ res, x = .inr res ∧ Done E hashV c (l ++ [got]) res := by
  cases hf with
  | one =>
    change (gather c.otherIds Message.one? recv1 got).bind _ = _ at h
    rw [Out.bind_eq_ok] at h
    obtain ⟨capVs, hg, hx⟩ := h
    obtain ⟨in1, rfl, hc⟩ := gather_unmap one_inj hg
    exact .inl ⟨_, (Out.ok.inj hx).symm, .two in1 capVs hc⟩
  | two in1 capVs h1 =>
    change (gather c.otherIds Message.two? (recv2 E hashV c.sid capVs) got).bind _ = _ at h
    simp only [Out.bind_eq_ok] at h
    obtain ⟨pl, hg, r3, hr3, out, hout, hx⟩ := h
    obtain ⟨in2, rfl, hc⟩ := gather_unmap two_inj hg
    refine .inl ⟨_, (Out.ok.inj hx).symm, .three in1 in2 r3 out ?_ hout⟩
    unfold toRound3
    rw [h1, Out.bind_ok, hc, Out.bind_ok, hr3]
  | three in1 in2 r3 out h2 hout =>
    change (gather r3.ctx.otherIds Message.three? (recv3 E r3) got).bind _ = _ at h
    simp only [Out.bind_eq_ok] at h
    obtain ⟨pl, hg, hx⟩ := h
    obtain ⟨in3, rfl, hc⟩ := gather_unmap three_inj hg
    refine .inr ⟨_, (Out.ok.inj hx).symm, in1, in2, in3, ?_, rfl⟩
    unfold run
    rw [toRound3_ctx h2] at hc
    rw [h2, Out.bind_ok, hout, Out.bind_ok, hc, Out.bind_ok]

theorem replay_inv {c : Context I Sid} {l : List (List (I × Message V))} {x : State I Sid V ⊕ AuxInfo I PaillierKey PublicAux} (h : (machine E hashV).replay (.one c) l = .ok x) :
    (∃ s, x = .inl s ∧ Follows E hashV c l s) ∨ ∃ res, x = .inr res ∧ Done E hashV c l res :=
  Spec.Machine.replay_follows (step_inv c) l [] _ x .one h

/-- What a party has received in round 1, if it has completed it -/
def got1 (n : Spec.Net I (Message V) (State I Sid V) (Err I) (AuxInfo I PaillierKey PublicAux)) (i : I) : List (I × V) := parts Message.one? (Spec.Machine.nth n i 0)

/-- What a party has received in round 2, if it has completed it -/
def got2 (n : Spec.Net I (Message V) (State I Sid V) (Err I) (AuxInfo I PaillierKey PublicAux)) (i : I) : List (I × Msg2) := parts Message.two? (Spec.Machine.nth n i 1)

/-- What a party has received in round 3, if it has completed it -/
def got3 (n : Spec.Net I (Message V) (State I Sid V) (Err I) (AuxInfo I PaillierKey PublicAux)) (i : I) : List (I × Msg3) := parts Message.three? (Spec.Machine.nth n i 2)

/-- What is known of the messages `in1`, `in2`, `in3` that the parties have received in the rounds they have completed -/
structure History (E : AuxEnv I Sid) (hashV : Sid → I → Hashed → V) (honest : Set I) (c : I → Context I Sid) (n : Spec.Net I (Message V) (State I Sid V) (Err I) (AuxInfo I PaillierKey PublicAux))
    (in1 : I → List (I × V)) (in2 : I → List (I × Msg2)) (in3 : I → List (I × Msg3)) : Prop where
  finished : ∀ i ∈ honest, ∀ res, n.status i = .finished res → run E hashV (c i) (in1 i) (in2 i) (in3 i) = .ok res
  first : ∀ i ∈ honest, ∀ j ∈ honest, Spec.OnlyFrom j (msg1 hashV (c j)) (in1 i)
  second : ∀ i ∈ honest, ∀ j ∈ honest, Spec.OnlyFrom j (msg2 (c j)) (in2 i)
  third : ∀ i ∈ honest, ∀ j ∈ honest, ∀ m, (j, m) ∈ in3 i → ∃ r3, toRound3 E hashV (c j) (in1 j) (in2 j) = .ok r3 ∧ msg3 E r3 i = .ok m
  past1 : ∀ i ∈ honest, ∀ a ∈ in1 i, ∃ s got, (s, got) ∈ n.past i ∧ (machine E hashV).round s = 1 ∧ (a.1, .one a.2) ∈ got
  past2 : ∀ i ∈ honest, ∀ a ∈ in2 i, ∃ s got, (s, got) ∈ n.past i ∧ (machine E hashV).round s = 2 ∧ (a.1, .two a.2) ∈ got

theorem follows_round {c : Context I Sid} {l : List (List (I × Message V))} {s : State I Sid V} (h : Follows E hashV c l s) : (machine E hashV).round s = l.length + 1 := by
  cases h <;> rfl

/-- The rounds honest parties go through -/
theorem fol {honest : Set I} {c : I → Context I Sid} : ∀ i ∈ honest, ∀ l s, (machine E hashV).replay (.one (c i)) l = .ok (.inl s) → Follows E hashV (c i) l s ∧ (machine E hashV).round s = l.length + 1 := by
  intro i _ l s hr
  rcases replay_inv hr with ⟨s', hs, hf⟩ | ⟨_, hs, _⟩
  · cases hs
    exact ⟨hf, follows_round hf⟩
  · cases hs

/-- What a party has received in round 1 stays what it is once it has begun to send the messages of round 2. -/
theorem got1_eq {honest : Set I} {c : I → Context I Sid} {n : Spec.Net I (Message V) (State I Sid V) (Err I) (AuxInfo I PaillierKey PublicAux)}
    (h : (machine E hashV).Reachable honest (fun i => .one (c i)) n) {n' : Spec.Net I (Message V) (State I Sid V) (Err I) (AuxInfo I PaillierKey PublicAux)}
    (h' : Relation.ReflTransGen ((machine E hashV).Step honest) n n') {i j : I} (hi : i ∈ honest) {m : Message V} (hs : (machine E hashV).Sent n i j 2 m) : got1 n' i = got1 n i := by
  unfold got1
  rw [Spec.Machine.nth_mono (Spec.Machine.past_mono_star h' i)]
  have := h.completed_of_sent (Fol := fun i => Follows E hashV (c i)) fol hi hs
  omega

theorem history {honest : Set I} {c : I → Context I Sid} {n : Spec.Net I (Message V) (State I Sid V) (Err I) (AuxInfo I PaillierKey PublicAux)}
    (h : (machine E hashV).Reachable honest (fun i => .one (c i)) n) : History E hashV honest c n (got1 n) (got2 n) (got3 n) := by
  have hfol := fol (honest := honest) (c := c) (E := E) (hashV := hashV)
  have hsent := fun {i : I} (hi : i ∈ honest) {j : I} {k : Nat} {m : Message V} => h.nth_sent (Fol := fun i => Follows E hashV (c i)) hfol (j := j) hi (k := k) (m := m)
  unfold got1 got2 got3
  refine ⟨?_, ?_, ?_, ?_, ?_, ?_⟩
  · intro i hi res hs
    rcases replay_inv (h.finished hs) with ⟨_, hx, _⟩ | ⟨_, hx, in1, in2, in3, hrun, hl⟩
    · cases hx
    · cases hx
      simp only [Spec.Machine.nth_of_eq hl (k := 0) (by simp), Spec.Machine.nth_of_eq hl (k := 1) (by simp), Spec.Machine.nth_of_eq hl (k := 2) (by simp)]
      simp only [List.getElem_cons_zero, List.getElem_cons_succ]
      rw [parts_one, parts_two, parts_three]
      exact hrun
  · intro i hi j hj v hv
    obtain ⟨s, l, -, hf, hlen, hm⟩ := (hsent hi (mem_parts one_inj hv)).2 hj
    cases hf with
    | one =>
      have := (mem_toAll.1 hm).2
      cases this
      rfl
    | two => simp at hlen
    | three => simp at hlen
  · intro i hi j hj v hv
    obtain ⟨s, l, -, hf, hlen, hm⟩ := (hsent hi (mem_parts two_inj hv)).2 hj
    cases hf with
    | one => simp at hlen
    | two =>
      have := (mem_toAll.1 hm).2
      cases this
      rfl
    | three => simp at hlen
  · intro i hi j hj v hv
    obtain ⟨s, l, hl, hf, hlen, hm⟩ := (hsent hi (mem_parts three_inj hv)).2 hj
    cases hf with
    | one => simp at hlen
    | two => simp at hlen
    | three in1 in2 r3 out h3 hout =>
      simp only [Spec.Machine.nth_of_prefix hl (k := 0) (by simp), Spec.Machine.nth_of_prefix hl (k := 1) (by simp)]
      simp only [List.getElem_cons_zero, List.getElem_cons_succ]
      rw [parts_one, parts_two]
      obtain ⟨a, ha, he⟩ := List.mem_map.1 hm
      cases he
      exact ⟨r3, h3, send3_mem hout ha⟩
  · intro i hi a ha
    exact (hsent hi (mem_parts one_inj ha)).1
  · intro i hi a ha
    exact (hsent hi (mem_parts two_inj ha)).1

end AuxGen

namespace KeyRefresh

variable {I F G Sid V : Type} [LinearOrder I] [Field F] [LinearOrder F] [AddCommGroup G] [Module F G] [DecidableEq G] [DecidableEq V]
variable {E : Env I Sid F G} {hashV : Sid → I → Hashed I G → V}

theorem one_inj : ∀ (m : Message I F G V) a, m.one? = some a → m = .one a := by rintro (_ | _ | _) a h <;> cases h; rfl
theorem two_inj : ∀ (m : Message I F G V) a, m.two? = some a → m = .two a := by rintro (_ | _ | _) a h <;> cases h; rfl
theorem three_inj : ∀ (m : Message I F G V) a, m.three? = some a → m = .three a := by rintro (_ | _ | _) a h <;> cases h; rfl

theorem parts_one (arr : List (I × V)) : parts Message.one? (arr.map fun a => (a.1, (.one a.2 : Message I F G V))) = arr := parts_map Message.one? Message.one (fun _ => rfl) arr
theorem parts_two (arr : List (I × Msg2 I G)) : parts Message.two? (arr.map fun a => (a.1, (.two a.2 : Message I F G V))) = arr := parts_map Message.two? Message.two (fun _ => rfl) arr
theorem parts_three (arr : List (I × Msg3 I F)) : parts Message.three? (arr.map fun a => (a.1, (.three a.2 : Message I F G V))) = arr :=
  parts_map Message.three? Message.three (fun _ => rfl) arr

/-- The rounds a party can come to with given messages -/
inductive Follows (E : Env I Sid F G) (hashV : Sid → I → Hashed I G → V) (c : Context I F G Sid) : List (List (I × Message I F G V)) → State I F G Sid V → Prop where
  | one : Follows E hashV c [] (.one c)
  | two (in1 : List (I × V)) (capVs : BMap I V) : collect (E := Err I F) c.otherIds recv1 in1 = .ok capVs →
      Follows E hashV c [in1.map fun a => (a.1, .one a.2)] (.two c capVs)
  | three (in1 : List (I × V)) (in2 : List (I × Msg2 I G)) (r3 : Round3 I F G Sid) (out : List (I × Msg3 I F)) : toRound3 E hashV c in1 in2 = .ok r3 → send3 E r3 = .ok out →
      Follows E hashV c [in1.map fun a => (a.1, .one a.2), in2.map fun a => (a.1, .two a.2)] (.three r3 out)

theorem toRound3_ctx {c : Context I F G Sid} {in1 : List (I × V)} {in2 : List (I × Msg2 I G)} {r3 : Round3 I F G Sid} (h : toRound3 E hashV c in1 in2 = .ok r3) : r3.ctx = c := by
  simp only [toRound3, Out.bind_eq_ok, finalizeResult_eq_ok, finalize2] at h
  obtain ⟨_, _, _, _, _, _, _, _, _, _, h⟩ := h
  rw [← Out.ok.inj h]

theorem send3_mem {r3 : Round3 I F G Sid} {out : List (I × Msg3 I F)} (h : send3 E r3 = .ok out) {a : I × Msg3 I F} (ha : a ∈ out) : msg3 E r3 a.1 = .ok a.2 := by
  have hf := Out.mapM'_eq_ok_iff.1 h
  obtain ⟨k, hk, rfl⟩ := List.mem_iff_getElem.1 ha
  have := hf.get (by rw [hf.length_eq]; exact hk) hk
  simp only [Out.bind_eq_ok, finalizeResult_eq_ok, List.get_eq_getElem] at this
  obtain ⟨m, hm, he⟩ := this
  rw [← Out.ok.inj he]
  exact hm

/-- What a party that has finished has received -/
def Done (E : Env I Sid F G) (hashV : Sid → I → Hashed I G → V) (c : Context I F G Sid) (l : List (List (I × Message I F G V))) (res : (KeyShareChange I F G × AuxInfo I PaillierKey PublicAux)) : Prop :=
  ∃ in1 in2 in3, run E hashV c in1 in2 in3 = .ok res ∧
    l = [in1.map fun a => (a.1, .one a.2), in2.map fun a => (a.1, .two a.2), in3.map fun a => (a.1, .three a.2)]

theorem step_inv (c : Context I F G Sid) (l : List (List (I × Message I F G V))) (s : State I F G Sid V) (got : List (I × Message I F G V)) (x : State I F G Sid V ⊕ (KeyShareChange I F G × AuxInfo I PaillierKey PublicAux))
    (hf : Follows E hashV c l s) (h : (machine E hashV).next s got = .ok x) :
    (∃ s', x = .inl s' ∧ Follows E hashV c (l ++ [got]) s') ∨ ∃ res, x = .inr res ∧ Done E hashV c (l ++ [got]) res := by
  cases hf with
  | one =>
    change (gather c.otherIds Message.one? recv1 got).bind _ = _ at h
    rw [Out.bind_eq_ok] at h
    obtain ⟨capVs, hg, hx⟩ := h
    obtain ⟨in1, rfl, hc⟩ := gather_unmap one_inj hg
    exact .inl ⟨_, (Out.ok.inj hx).symm, .two in1 capVs hc⟩
  | two in1 capVs h1 =>
    change (gather c.otherIds Message.two? (recv2 E hashV c.sid c.allIds capVs) got).bind _ = _ at h
    simp only [Out.bind_eq_ok] at h
    obtain ⟨pl, hg, r3, hr3, out, hout, hx⟩ := h
    obtain ⟨in2, rfl, hc⟩ := gather_unmap two_inj hg
    refine .inl ⟨_, (Out.ok.inj hx).symm, .three in1 in2 r3 out ?_ hout⟩
    unfold toRound3
    rw [h1, Out.bind_ok, hc, Out.bind_ok, hr3]
  | three in1 in2 r3 out h2 hout =>
    change (gather r3.ctx.otherIds Message.three? (recv3 E r3) got).bind _ = _ at h
    simp only [Out.bind_eq_ok] at h
    obtain ⟨pl, hg, res, hs, hx⟩ := h
    obtain ⟨in3, rfl, hc⟩ := gather_unmap three_inj hg
    refine .inr ⟨res, (Out.ok.inj hx).symm, in1, in2, in3, ?_, rfl⟩
    unfold run
    rw [toRound3_ctx h2] at hc
    rw [h2, Out.bind_ok, hout, Out.bind_ok, hc, Out.bind_ok, hs]

theorem replay_inv {c : Context I F G Sid} {l : List (List (I × Message I F G V))} {x : State I F G Sid V ⊕ (KeyShareChange I F G × AuxInfo I PaillierKey PublicAux)} (h : (machine E hashV).replay (.one c) l = .ok x) :
    (∃ s, x = .inl s ∧ Follows E hashV c l s) ∨ ∃ res, x = .inr res ∧ Done E hashV c l res :=
  Spec.Machine.replay_follows (step_inv c) l [] _ x .one h

/-- What a party has received in round 1, if it has completed it -/
def got1 (n : Spec.Net I (Message I F G V) (State I F G Sid V) (Err I F) (KeyShareChange I F G × AuxInfo I PaillierKey PublicAux)) (i : I) : List (I × V) := parts Message.one? (Spec.Machine.nth n i 0)

/-- What a party has received in round 2, if it has completed it -/
def got2 (n : Spec.Net I (Message I F G V) (State I F G Sid V) (Err I F) (KeyShareChange I F G × AuxInfo I PaillierKey PublicAux)) (i : I) : List (I × Msg2 I G) := parts Message.two? (Spec.Machine.nth n i 1)

/-- What a party has received in round 3, if it has completed it -/
def got3 (n : Spec.Net I (Message I F G V) (State I F G Sid V) (Err I F) (KeyShareChange I F G × AuxInfo I PaillierKey PublicAux)) (i : I) : List (I × Msg3 I F) := parts Message.three? (Spec.Machine.nth n i 2)

/-- What is known of the messages `in1`, `in2`, `in3` that the parties have received in the rounds they have completed -/
structure History (E : Env I Sid F G) (hashV : Sid → I → Hashed I G → V) (honest : Set I) (c : I → Context I F G Sid) (n : Spec.Net I (Message I F G V) (State I F G Sid V) (Err I F) ((KeyShareChange I F G × AuxInfo I PaillierKey PublicAux)))
    (in1 : I → List (I × V)) (in2 : I → List (I × Msg2 I G)) (in3 : I → List (I × Msg3 I F)) : Prop where
  finished : ∀ i ∈ honest, ∀ res, n.status i = .finished res → run E hashV (c i) (in1 i) (in2 i) (in3 i) = .ok res
  first : ∀ i ∈ honest, ∀ j ∈ honest, Spec.OnlyFrom j (msg1 hashV (c j)) (in1 i)
  second : ∀ i ∈ honest, ∀ j ∈ honest, Spec.OnlyFrom j (msg2 (c j)) (in2 i)
  third : ∀ i ∈ honest, ∀ j ∈ honest, ∀ m, (j, m) ∈ in3 i → ∃ r3, toRound3 E hashV (c j) (in1 j) (in2 j) = .ok r3 ∧ msg3 E r3 i = .ok m
  past1 : ∀ i ∈ honest, ∀ a ∈ in1 i, ∃ s got, (s, got) ∈ n.past i ∧ (machine E hashV).round s = 1 ∧ (a.1, .one a.2) ∈ got
  past2 : ∀ i ∈ honest, ∀ a ∈ in2 i, ∃ s got, (s, got) ∈ n.past i ∧ (machine E hashV).round s = 2 ∧ (a.1, .two a.2) ∈ got

theorem follows_round {c : Context I F G Sid} {l : List (List (I × Message I F G V))} {s : State I F G Sid V} (h : Follows E hashV c l s) : (machine E hashV).round s = l.length + 1 := by
  cases h <;> rfl

/-- The rounds honest parties go through -/
theorem fol {honest : Set I} {c : I → Context I F G Sid} : ∀ i ∈ honest, ∀ l s, (machine E hashV).replay (.one (c i)) l = .ok (.inl s) → Follows E hashV (c i) l s ∧ (machine E hashV).round s = l.length + 1 := by
  intro i _ l s hr
  rcases replay_inv hr with ⟨s', hs, hf⟩ | ⟨_, hs, _⟩
  · cases hs
    exact ⟨hf, follows_round hf⟩
  · cases hs

/-- What a party has received in round 1 stays what it is once it has begun to send the messages of round 2. -/
theorem got1_eq {honest : Set I} {c : I → Context I F G Sid} {n : Spec.Net I (Message I F G V) (State I F G Sid V) (Err I F) ((KeyShareChange I F G × AuxInfo I PaillierKey PublicAux))}
    (h : (machine E hashV).Reachable honest (fun i => .one (c i)) n) {n' : Spec.Net I (Message I F G V) (State I F G Sid V) (Err I F) ((KeyShareChange I F G × AuxInfo I PaillierKey PublicAux))}
    (h' : Relation.ReflTransGen ((machine E hashV).Step honest) n n') {i j : I} (hi : i ∈ honest) {m : Message I F G V} (hs : (machine E hashV).Sent n i j 2 m) : got1 n' i = got1 n i := by
  unfold got1
  rw [Spec.Machine.nth_mono (Spec.Machine.past_mono_star h' i)]
  have := h.completed_of_sent (Fol := fun i => Follows E hashV (c i)) fol hi hs
  omega

theorem history {honest : Set I} {c : I → Context I F G Sid} {n : Spec.Net I (Message I F G V) (State I F G Sid V) (Err I F) ((KeyShareChange I F G × AuxInfo I PaillierKey PublicAux))}
    (h : (machine E hashV).Reachable honest (fun i => .one (c i)) n) : History E hashV honest c n (got1 n) (got2 n) (got3 n) := by
  have hfol := fol (honest := honest) (c := c) (E := E) (hashV := hashV)
  have hsent := fun {i : I} (hi : i ∈ honest) {j : I} {k : Nat} {m : Message I F G V} => h.nth_sent (Fol := fun i => Follows E hashV (c i)) hfol (j := j) hi (k := k) (m := m)
  unfold got1 got2 got3
  refine ⟨?_, ?_, ?_, ?_, ?_, ?_⟩
  · intro i hi res hs
    rcases replay_inv (h.finished hs) with ⟨_, hx, _⟩ | ⟨_, hx, in1, in2, in3, hrun, hl⟩
    · cases hx
    · cases hx
      simp only [Spec.Machine.nth_of_eq hl (k := 0) (by simp), Spec.Machine.nth_of_eq hl (k := 1) (by simp), Spec.Machine.nth_of_eq hl (k := 2) (by simp)]
      simp only [List.getElem_cons_zero, List.getElem_cons_succ]
      rw [parts_one, parts_two, parts_three]
      exact hrun
  · intro i hi j hj v hv
    obtain ⟨s, l, -, hf, hlen, hm⟩ := (hsent hi (mem_parts one_inj hv)).2 hj
    cases hf with
    | one =>
      have := (mem_toAll.1 hm).2
      cases this
      rfl
    | two => simp at hlen
    | three => simp at hlen
  · intro i hi j hj v hv
    obtain ⟨s, l, -, hf, hlen, hm⟩ := (hsent hi (mem_parts two_inj hv)).2 hj
    cases hf with
    | one => simp at hlen
    | two =>
      have := (mem_toAll.1 hm).2
      cases this
      rfl
    | three => simp at hlen
  · intro i hi j hj v hv
    obtain ⟨s, l, hl, hf, hlen, hm⟩ := (hsent hi (mem_parts three_inj hv)).2 hj
    cases hf with
    | one => simp at hlen
    | two => simp at hlen
    | three in1 in2 r3 out h3 hout =>
      simp only [Spec.Machine.nth_of_prefix hl (k := 0) (by simp), Spec.Machine.nth_of_prefix hl (k := 1) (by simp)]
      simp only [List.getElem_cons_zero, List.getElem_cons_succ]
      rw [parts_one, parts_two]
      obtain ⟨a, ha, he⟩ := List.mem_map.1 hm
      cases he
      exact ⟨r3, h3, send3_mem hout ha⟩
  · intro i hi a ha
    exact (hsent hi (mem_parts one_inj ha)).1
  · intro i hi a ha
    exact (hsent hi (mem_parts two_inj ha)).1

end KeyRefresh

namespace KeyResharing

variable {I F G : Type} [LinearOrder I] [Field F] [LinearOrder F] [AddCommGroup G] [Module F G] [DecidableEq G] {g : G}

theorem sendAll_mem {r : Round1 I F G} {out : List (I × Msg F G)} (h : sendAll r = .ok out) {a : I × Msg F G} (ha : a ∈ out) : msg r a.1 = .ok (some a.2) := by
  unfold sendAll at h
  rw [Out.bind_eq_ok] at h
  obtain ⟨l, hl, he⟩ := h
  rw [← Out.ok.inj he] at ha
  rw [List.mem_filterMap] at ha
  obtain ⟨x, hx, hxa⟩ := ha
  have hf := Out.mapM'_eq_ok_iff.1 hl
  obtain ⟨k, hk, rfl⟩ := List.mem_iff_getElem.1 hx
  have := hf.get (by rw [hf.length_eq]; exact hk) hk
  simp only [Out.bind_eq_ok, finalizeResult_eq_ok, List.get_eq_getElem] at this
  obtain ⟨m, hm, he⟩ := this
  have he := Out.ok.inj he
  rw [← he] at hxa
  cases m with
  | none => cases hxa
  | some m => cases hxa; exact hm

/-- What is known of the messages that the parties have received -/
structure History (g : G) (honest : Set I) (r : I → Round1 I F G) (n : Spec.Net I (Msg F G) (State I F G) Err (Option (ThresholdKeyShare I F G)))
    (inbox : I → List (I × Msg F G)) : Prop where
  finished : ∀ i ∈ honest, ∀ res, n.status i = .finished res → run g (r i) (inbox i) = .ok res
  only : ∀ i ∈ honest, ∀ j ∈ honest, ∀ m, (j, m) ∈ inbox i → msg (r j) i = .ok (some m)
  past : ∀ i a, a ∈ inbox i → ∃ s, (s, inbox i) ∈ n.past i

theorem history {honest : Set I} {r : I → Round1 I F G} {init : I → State I F G} (hinit : ∀ i ∈ honest, begin (r i) = .ok (init i))
    {n : Spec.Net I (Msg F G) (State I F G) Err (Option (ThresholdKeyShare I F G))} (h : (machine g).Reachable honest init n) : ∃ inbox, History g honest r n inbox := by
  have hr : ∀ i ∈ honest, (init i).r = r i ∧ sendAll (r i) = .ok (init i).out := by
    intro i hi
    have := hinit i hi
    unfold begin at this
    rw [Out.bind_eq_ok] at this
    obtain ⟨out, ho, he⟩ := this
    rw [← Out.ok.inj he]
    exact ⟨rfl, ho⟩
  have hrep := fun i (hi : i ∈ honest) => Spec.Machine.replay_follows (P := machine (I := I) (F := F) g) (Fol := fun l s => l = [] ∧ s = init i)
    (Done := fun l res => ∃ inbox, l = [inbox] ∧ run g (r i) inbox = .ok res) (by
      rintro l s got x ⟨rfl, rfl⟩ hn
      change (gather (init i).r.expectingMessagesFrom some (recv g (init i).r) got).bind _ = _ at hn
      simp only [Out.bind_eq_ok] at hn
      obtain ⟨pl, hg, res, hres, hx⟩ := hn
      obtain ⟨arr, harr, hc⟩ := gather_unmap (inj := fun a => a) (fun m a h => Option.some.inj h) hg
      refine .inr ⟨res, (Out.ok.inj hx).symm, got, rfl, ?_⟩
      have : got = arr := by
        rw [harr]
        exact List.map_id arr
      unfold run
      rw [this, ← (hr i hi).1, hc, Out.bind_ok, hres])
  have hfol : ∀ i ∈ honest, ∀ l s, (machine g).replay (init i) l = .ok (.inl s) → (l = [] ∧ s = init i) ∧ (machine (I := I) (F := F) g).round s = l.length + 1 := by
    intro i hi l s hx
    rcases hrep i hi l [] _ _ ⟨rfl, rfl⟩ hx with ⟨s', hs, hf⟩ | ⟨_, hs, _⟩
    · cases hs
      refine ⟨hf, ?_⟩
      have : l = [] := hf.1
      rw [this]
      rfl
    · cases hs
  refine ⟨fun i => Spec.Machine.nth n i 0, ?_, ?_, ?_⟩
  · intro i hi res hs
    rcases hrep i hi _ [] _ _ ⟨rfl, rfl⟩ (h.finished hs) with ⟨_, hx, _⟩ | ⟨_, hx, inbox, hl, hrun⟩
    · cases hx
    · cases hx
      rw [List.nil_append] at hl
      simp only [Spec.Machine.nth_of_eq hl (k := 0) (by simp)]
      exact hrun
  · intro i hi j hj m hm
    obtain ⟨s, l, -, ⟨-, rfl⟩, -, hmem⟩ := (h.nth_sent (Fol := fun i l s => l = [] ∧ s = init i) hfol hi hm).2 hj
    exact sendAll_mem (hr j hj).2 hmem
  · intro i a ha
    obtain ⟨s, got, hmem, rfl, -⟩ := h.of_mem_nth ha
    exact ⟨s, hmem⟩

end KeyResharing

namespace Signing

variable {q : Nat} [Fact q.Prime] {I Ep G : Type} [LinearOrder I] [AddCommGroup G] [Module (ZMod q) G] [DecidableEq G] {E : Env q I Ep G}

theorem one_inj : ∀ (m : Message q I G) a, m.one? = some a → m = .one a := by rintro (_ | _ | _ | _ | _) a h <;> cases h; rfl
theorem two_inj : ∀ (m : Message q I G) a, m.two? = some a → m = .two a := by rintro (_ | _ | _ | _ | _) a h <;> cases h; rfl
theorem three_inj : ∀ (m : Message q I G) a, m.three? = some a → m = .three a := by rintro (_ | _ | _ | _ | _) a h <;> cases h; rfl
theorem four_inj : ∀ (m : Message q I G) a, m.four? = some a → m = .four a := by rintro (_ | _ | _ | _ | _) a h <;> cases h; rfl

theorem parts_one (arr : List (I × Msg1 q G)) : parts Message.one? (arr.map fun a => (a.1, (.one a.2 : Message q I G))) = arr := parts_map Message.one? Message.one (fun _ => rfl) arr
theorem parts_two (arr : List (I × Msg2 q I G)) : parts Message.two? (arr.map fun a => (a.1, (.two a.2 : Message q I G))) = arr := parts_map Message.two? Message.two (fun _ => rfl) arr
theorem parts_three (arr : List (I × Msg3 q G)) : parts Message.three? (arr.map fun a => (a.1, (.three a.2 : Message q I G))) = arr :=
  parts_map Message.three? Message.three (fun _ => rfl) arr
theorem parts_four (arr : List (I × ZMod q)) : parts Message.four? (arr.map fun a => (a.1, (.four a.2 : Message q I G))) = arr :=
  parts_map Message.four? Message.four (fun _ => rfl) arr

/-- The rounds a party can come to with given messages -/
inductive Follows (E : Env q I Ep G) (r : Round1 q I Ep G) (out : List (I × Msg1 q G)) : List (List (I × Message q I G)) → State q I Ep G → Prop where
  | one : Follows E r out [] (.one r out)
  | two (in1 : List (I × Msg1 q G)) (r2 : Round2 q I Ep G) : toRound2 E r in1 = .ok r2 → Follows E r out [in1.map fun a => (a.1, .one a.2)] (.two r2)
  | three (in1 : List (I × Msg1 q G)) (in2 : List (I × Msg2 q I G)) (r3 : Round3 q I Ep G) : toRound3 E r in1 in2 = .ok r3 →
      Follows E r out [in1.map fun a => (a.1, .one a.2), in2.map fun a => (a.1, .two a.2)] (.three r3)
  | four (in1 : List (I × Msg1 q G)) (in2 : List (I × Msg2 q I G)) (in3 : List (I × Msg3 q G)) (r4 : Round4 q I Ep G) : toRound4 E r in1 in2 in3 = .ok (.round4 r4) →
      Follows E r out [in1.map fun a => (a.1, .one a.2), in2.map fun a => (a.1, .two a.2), in3.map fun a => (a.1, .three a.2)] (.four r4)
  | error (in1 : List (I × Msg1 q G)) (in2 : List (I × Msg2 q I G)) (in3 : List (I × Msg3 q G)) (re : ErrRound q I Ep G) (m : MsgErr I G) :
      toRound4 E r in1 in2 in3 = .ok (.error re) → msgErr E re = .ok m →
      Follows E r out [in1.map fun a => (a.1, .one a.2), in2.map fun a => (a.1, .two a.2), in3.map fun a => (a.1, .three a.2)] (.error re m)

/-- What a party that has finished has received -/
def Done (E : Env q I Ep G) (r : Round1 q I Ep G) (l : List (List (I × Message q I G))) (sig : RecoverableSignature q) : Prop :=
  ∃ in1 in2 in3 in4, run E r in1 in2 in3 in4 [] = .ok sig ∧
    l = [in1.map fun a => (a.1, .one a.2), in2.map fun a => (a.1, .two a.2), in3.map fun a => (a.1, .three a.2), in4.map fun a => (a.1, .four a.2)]

theorem step_inv (r : Round1 q I Ep G) (out : List (I × Msg1 q G)) (hout : send1 E r = .ok out) (l : List (List (I × Message q I G))) (s : State q I Ep G)
    (got : List (I × Message q I G)) (x : State q I Ep G ⊕ RecoverableSignature q) (hf : Follows E r out l s) (h : (machine E).next s got = .ok x) :
    (∃ s', x = .inl s' ∧ Follows E r out (l ++ [got]) s') ∨ ∃ sig, x = .inr sig ∧ Done E r (l ++ [got]) sig := by
  cases hf with
  | one =>
    change (gather r.ctx.otherIds Message.one? (recv1 E r.ctx) got).bind _ = _ at h
    simp only [Out.bind_eq_ok] at h
    obtain ⟨pl, hg, r2, hr2, hx⟩ := h
    obtain ⟨in1, rfl, hc⟩ := gather_unmap one_inj hg
    refine .inl ⟨_, (Out.ok.inj hx).symm, .two in1 r2 ?_⟩
    unfold toRound2
    rw [hout, Out.bind_ok, hc, Out.bind_ok, hr2]
  | two in1 r2 h2 =>
    change (gather r2.ctx.otherIds Message.two? (recv2 E r2) got).bind _ = _ at h
    simp only [Out.bind_eq_ok] at h
    obtain ⟨pl, hg, r3, hr3, hx⟩ := h
    obtain ⟨in2, rfl, hc⟩ := gather_unmap two_inj hg
    refine .inl ⟨_, (Out.ok.inj hx).symm, .three in1 in2 r3 ?_⟩
    unfold toRound3
    rw [h2, Out.bind_ok, hc, Out.bind_ok, hr3]
  | three in1 in2 r3 h3 =>
    change (gather r3.ctx.otherIds Message.three? (recv3 E r3) got).bind _ = _ at h
    simp only [Out.bind_eq_ok] at h
    obtain ⟨pl, hg, a, ha, s', hs', hx⟩ := h
    obtain ⟨in3, rfl, hc⟩ := gather_unmap three_inj hg
    have h4 : toRound4 E r in1 in2 in3 = .ok a := by
      unfold toRound4
      rw [h3, Out.bind_ok, hc, Out.bind_ok, ha]
    refine .inl ⟨s', (Out.ok.inj hx).symm, ?_⟩
    cases a with
    | round4 r4 =>
      rw [← Out.ok.inj hs']
      exact .four in1 in2 in3 r4 h4
    | error re =>
      simp only [beginAfter3, Out.bind_eq_ok, finalizeResult_eq_ok] at hs'
      obtain ⟨m, hm, he⟩ := hs'
      rw [← Out.ok.inj he]
      exact .error in1 in2 in3 re m h4 hm
  | four in1 in2 in3 r4 h4 =>
    change (gather r4.ctx.otherIds Message.four? (recv4 E r4) got).bind _ = _ at h
    simp only [Out.bind_eq_ok] at h
    obtain ⟨pl, hg, sig, hs, hx⟩ := h
    obtain ⟨in4, rfl, hc⟩ := gather_unmap four_inj hg
    refine .inr ⟨sig, (Out.ok.inj hx).symm, in1, in2, in3, in4, ?_, rfl⟩
    unfold run
    rw [h4, Out.bind_ok]
    unfold last
    simp only
    rw [hc, Out.bind_ok, hs]
  | error in1 in2 in3 re m h4 hm =>
    change (gather re.ctx.otherIds Message.error? (recvErr E re) got).bind _ = _ at h
    simp only [Out.bind_eq_ok, finalizeResult_eq_ok, finalizeErr] at h
    obtain ⟨_, _, _, he, _⟩ := h
    cases he

theorem replay_inv {r : Round1 q I Ep G} {out : List (I × Msg1 q G)} (hout : send1 E r = .ok out) {l : List (List (I × Message q I G))}
    {x : State q I Ep G ⊕ RecoverableSignature q} (h : (machine E).replay (.one r out) l = .ok x) :
    (∃ s, x = .inl s ∧ Follows E r out l s) ∨ ∃ sig, x = .inr sig ∧ Done E r l sig :=
  Spec.Machine.replay_follows (step_inv r out hout) l [] _ x .one h

/-- What a party has received in round 1, if it has completed it -/
def got1 (n : Spec.Net I (Message q I G) (State q I Ep G) (Err I) (RecoverableSignature q)) (i : I) : List (I × Msg1 q G) := parts Message.one? (Spec.Machine.nth n i 0)

/-- What a party has received in round 2, if it has completed it -/
def got2 (n : Spec.Net I (Message q I G) (State q I Ep G) (Err I) (RecoverableSignature q)) (i : I) : List (I × Msg2 q I G) := parts Message.two? (Spec.Machine.nth n i 1)

/-- What a party has received in round 3, if it has completed it -/
def got3 (n : Spec.Net I (Message q I G) (State q I Ep G) (Err I) (RecoverableSignature q)) (i : I) : List (I × Msg3 q G) := parts Message.three? (Spec.Machine.nth n i 2)

/-- What a party has received in round 4, if it has completed it -/
def got4 (n : Spec.Net I (Message q I G) (State q I Ep G) (Err I) (RecoverableSignature q)) (i : I) : List (I × ZMod q) := parts Message.four? (Spec.Machine.nth n i 3)

/-- What is known of the messages that the parties have received in the rounds they have completed -/
structure History (E : Env q I Ep G) (honest : Set I) (r : I → Round1 q I Ep G) (n : Spec.Net I (Message q I G) (State q I Ep G) (Err I) (RecoverableSignature q))
    (in1 : I → List (I × Msg1 q G)) (in2 : I → List (I × Msg2 q I G)) (in3 : I → List (I × Msg3 q G)) (in4 : I → List (I × ZMod q)) : Prop where
  finished : ∀ i ∈ honest, ∀ sig, n.status i = .finished sig → run E (r i) (in1 i) (in2 i) (in3 i) (in4 i) [] = .ok sig
  first : ∀ i ∈ honest, ∀ j ∈ honest, ∀ m, (j, m) ∈ in1 i → msg1 E (r j) i = .ok m
  second : ∀ i ∈ honest, ∀ j ∈ honest, ∀ m, (j, m) ∈ in2 i → ∃ r2, toRound2 E (r j) (in1 j) = .ok r2 ∧ m = msg2 r2
  third : ∀ i ∈ honest, ∀ j ∈ honest, ∀ m, (j, m) ∈ in3 i → ∃ r3, toRound3 E (r j) (in1 j) (in2 j) = .ok r3 ∧ m = r3.msg
  fourth : ∀ i ∈ honest, ∀ j ∈ honest, ∀ m, (j, m) ∈ in4 i → ∃ r4, toRound4 E (r j) (in1 j) (in2 j) (in3 j) = .ok (.round4 r4) ∧ m = r4.sigma
  past1 : ∀ i ∈ honest, ∀ a ∈ in1 i, ∃ s got, (s, got) ∈ n.past i ∧ (machine E).round s = 1 ∧ (a.1, .one a.2) ∈ got
  past2 : ∀ i ∈ honest, ∀ a ∈ in2 i, ∃ s got, (s, got) ∈ n.past i ∧ (machine E).round s = 2 ∧ (a.1, .two a.2) ∈ got
  past3 : ∀ i ∈ honest, ∀ a ∈ in3 i, ∃ s got, (s, got) ∈ n.past i ∧ (machine E).round s = 3 ∧ (a.1, .three a.2) ∈ got

theorem send1_mem {r : Round1 q I Ep G} {out : List (I × Msg1 q G)} (h : send1 E r = .ok out) {a : I × Msg1 q G} (ha : a ∈ out) : msg1 E r a.1 = .ok a.2 := by
  have hf := Out.mapM'_eq_ok_iff.1 h
  obtain ⟨k, hk, rfl⟩ := List.mem_iff_getElem.1 ha
  have := hf.get (by rw [hf.length_eq]; exact hk) hk
  simp only [Out.bind_eq_ok, finalizeResult_eq_ok, List.get_eq_getElem] at this
  obtain ⟨m, hm, he⟩ := this
  rw [← Out.ok.inj he]
  exact hm

theorem history' {honest : Set I} {r : I → Round1 q I Ep G} {init : I → State q I Ep G} (hinit : ∀ i ∈ honest, begin E (r i) = .ok (init i))
    {n : Spec.Net I (Message q I G) (State q I Ep G) (Err I) (RecoverableSignature q)} (h : (machine E).Reachable honest init n) :
    History E honest r n (got1 n) (got2 n) (got3 n) (got4 n) := by
  have hr : ∀ i ∈ honest, ∃ out, init i = .one (r i) out ∧ send1 E (r i) = .ok out := by
    intro i hi
    have := hinit i hi
    unfold begin at this
    rw [Out.bind_eq_ok] at this
    obtain ⟨out, ho, he⟩ := this
    exact ⟨out, (Out.ok.inj he).symm, ho⟩
  let Fol : I → List (List (I × Message q I G)) → State q I Ep G → Prop := fun i l s => ∃ out, send1 E (r i) = .ok out ∧ Follows E (r i) out l s
  have hrep : ∀ i ∈ honest, ∀ l x, (machine E).replay (init i) l = .ok x → (∃ s, x = .inl s ∧ Fol i l s) ∨ ∃ sig, x = .inr sig ∧ Done E (r i) l sig := by
    intro i hi l x hx
    obtain ⟨out, he, ho⟩ := hr i hi
    rw [he] at hx
    rcases replay_inv ho hx with ⟨s, hs, hf⟩ | hd
    · exact .inl ⟨s, hs, out, ho, hf⟩
    · exact .inr hd
  have hfol : ∀ i ∈ honest, ∀ l s, (machine E).replay (init i) l = .ok (.inl s) → Fol i l s := by
    intro i hi l s hx
    rcases hrep i hi l _ hx with ⟨s', hs, hf⟩ | ⟨_, hs, _⟩
    · cases hs
      exact hf
    · cases hs
  -- the rounds before the fourth one
  have hround : ∀ i l s, Fol i l s → (machine E).round s = l.length + 1 ∨ (l.length = 3 ∧ ∃ re m, s = .error re m) := by
    rintro i l s ⟨out, _, hf⟩
    cases hf with
    | error in1 in2 in3 re m => exact .inr ⟨rfl, re, m, rfl⟩
    | _ => exact .inl rfl
  have h4or : ∀ re : ErrRound q I Ep G, ∀ m, (machine E).round (.error re m) = 5 ∨ (machine E).round (.error re m) = 6 := by
    intro re m
    show (if re.hat then 6 else 5) = 5 ∨ (if re.hat then 6 else 5) = 6
    cases re.hat <;> simp
  have hsent : ∀ {i : I}, i ∈ honest → ∀ {j : I} {k : Nat} {m : Message q I G}, k < 3 → (j, m) ∈ Spec.Machine.nth n i k →
      (∃ s got, (s, got) ∈ n.past i ∧ (machine E).round s = k + 1 ∧ (j, m) ∈ got) ∧
        (j ∈ honest → ∃ s l, l <+: (n.past j).map Prod.snd ∧ Fol j l s ∧ l.length = k ∧ (i, m) ∈ (machine E).send s) := by
    intro i hi j k m hk hm
    obtain ⟨l, s, got, hp, hf, hlen, hmem, hs⟩ := h.nth_sent' hfol hi hm
    have hrd : (machine E).round s = k + 1 := by
      rcases hround i l s hf with h | ⟨h, _⟩ <;> omega
    refine ⟨⟨s, got, hp, hrd, hmem⟩, fun hj => ?_⟩
    obtain ⟨t, l', hl', hf', hrt, hm'⟩ := hs hj
    refine ⟨t, l', hl', hf', ?_, hm'⟩
    rw [hrd] at hrt
    rcases hround j l' t hf' with h | ⟨_, re, m', rfl⟩
    · omega
    · rcases h4or re m' with h | h <;> omega
  unfold got1 got2 got3 got4
  refine ⟨?_, ?_, ?_, ?_, ?_, ?_, ?_, ?_⟩
  · intro i hi sig hs
    rcases hrep i hi _ _ (h.finished hs) with ⟨_, hx, _⟩ | ⟨_, hx, in1, in2, in3, in4, hrun, hl⟩
    · cases hx
    · cases hx
      simp only [Spec.Machine.nth_of_eq hl (k := 0) (by simp), Spec.Machine.nth_of_eq hl (k := 1) (by simp), Spec.Machine.nth_of_eq hl (k := 2) (by simp),
        Spec.Machine.nth_of_eq hl (k := 3) (by simp)]
      simp only [List.getElem_cons_zero, List.getElem_cons_succ]
      rw [parts_one, parts_two, parts_three, parts_four]
      exact hrun
  · intro i hi j hj v hv
    obtain ⟨s, l, -, ⟨out, ho, hf⟩, hlen, hm⟩ := (hsent hi (by omega) (mem_parts one_inj hv)).2 hj
    cases hf with
    | one =>
      obtain ⟨a, ha, he⟩ := List.mem_map.1 hm
      cases he
      exact send1_mem ho ha
    | _ => simp at hlen
  · intro i hi j hj v hv
    obtain ⟨s, l, hl, ⟨out, ho, hf⟩, hlen, hm⟩ := (hsent hi (by omega) (mem_parts two_inj hv)).2 hj
    cases hf with
    | two in1 r2 h2 =>
      simp only [Spec.Machine.nth_of_prefix hl (k := 0) (by simp)]
      simp only [List.getElem_cons_zero]
      rw [parts_one]
      have := (mem_toAll.1 hm).2
      cases this
      exact ⟨r2, h2, rfl⟩
    | _ => simp at hlen
  · intro i hi j hj v hv
    obtain ⟨s, l, hl, ⟨out, ho, hf⟩, hlen, hm⟩ := (hsent hi (by omega) (mem_parts three_inj hv)).2 hj
    cases hf with
    | three in1 in2 r3 h3 =>
      simp only [Spec.Machine.nth_of_prefix hl (k := 0) (by simp), Spec.Machine.nth_of_prefix hl (k := 1) (by simp)]
      simp only [List.getElem_cons_zero, List.getElem_cons_succ]
      rw [parts_one, parts_two]
      have := (mem_toAll.1 hm).2
      cases this
      exact ⟨r3, h3, rfl⟩
    | _ => simp at hlen
  · intro i hi j hj v hv
    obtain ⟨l, s, got, -, hf, hlen, -, hs⟩ := h.nth_sent' hfol hi (mem_parts four_inj hv)
    obtain ⟨t, l', hl', ⟨out, ho, hf'⟩, hrt, hm⟩ := hs hj
    cases hf' with
    | one =>
      obtain ⟨a, ha, he⟩ := List.mem_map.1 hm
      cases he
    | two => cases (mem_toAll.1 hm).2
    | three => cases (mem_toAll.1 hm).2
    | error => cases (mem_toAll.1 hm).2
    | four in1 in2 in3 r4 h4 =>
      simp only [Spec.Machine.nth_of_prefix hl' (k := 0) (by simp), Spec.Machine.nth_of_prefix hl' (k := 1) (by simp), Spec.Machine.nth_of_prefix hl' (k := 2) (by simp)]
      simp only [List.getElem_cons_zero, List.getElem_cons_succ]
      rw [parts_one, parts_two, parts_three]
      have := (mem_toAll.1 hm).2
      cases this
      exact ⟨r4, h4, rfl⟩
  · intro i hi a ha
    exact (hsent hi (by omega) (mem_parts one_inj ha)).1
  · intro i hi a ha
    exact (hsent hi (by omega) (mem_parts two_inj ha)).1
  · intro i hi a ha
    exact (hsent hi (by omega) (mem_parts three_inj ha)).1

theorem history {honest : Set I} {r : I → Round1 q I Ep G} {init : I → State q I Ep G} (hinit : ∀ i ∈ honest, begin E (r i) = .ok (init i))
    {n : Spec.Net I (Message q I G) (State q I Ep G) (Err I) (RecoverableSignature q)} (h : (machine E).Reachable honest init n) :
    ∃ in1 in2 in3 in4, History E honest r n in1 in2 in3 in4 := ⟨_, _, _, _, history' hinit h⟩

end Signing

end Synedrion
