import Verif.Props.KeyResharing
import Verif.Lemmas.SigningPanics

/-!
# C47: the causes of a panic in key resharing
-/

set_option linter.unusedSectionVars false

namespace Synedrion.Props

open Spec KeyResharing Shamir

variable {I F G : Type} [LinearOrder I] [Field F] [LinearOrder F] [AddCommGroup G] [Module F G] [DecidableEq G]

private theorem interpolationCoeff_ne_panic {ε : Type} (ids : List F) (x : F) : (interpolationCoeff ids x : Out ε F) ≠ .panic := by
  refine Out.bind_ne_panic (mapM'_ne_panic fun a ha => ?_) (fun _ _ h => by cases h)
  rw [if_neg (sub_ne_zero.2 (by simpa using (List.mem_filter.1 ha).2))]
  intro h; cases h

private theorem joinScalars_ne_panic {ε : Type} (m : BMap F F) : (joinScalars m : Out ε F) ≠ .panic :=
  Out.bind_ne_panic (mapM'_ne_panic fun _ _ => Out.bind_ne_panic (interpolationCoeff_ne_panic _ _) (fun _ _ h => by cases h)) (fun _ _ h => by cases h)

private theorem joinPoints_ne_panic {ε : Type} (m : BMap F G) : (joinPoints m : Out ε G) ≠ .panic :=
  Out.bind_ne_panic (mapM'_ne_panic fun _ _ => Out.bind_ne_panic (interpolationCoeff_ne_panic _ _) (fun _ _ h => by cases h)) (fun _ _ h => by cases h)

private theorem vkeySum_ne_panic (P : BMap I (Msg F G)) : vkeySum P ≠ .panic :=
  Out.bind_ne_panic (mapM'_ne_panic fun _ _ => Out.bind_ne_panic ofOption_ne_panic fun _ _ =>
    Out.bind_ne_panic (interpolationCoeff_ne_panic _ _) (fun _ _ h => by cases h)) (fun _ _ h => by cases h)

private theorem joinSubshares_ne_panic (S : Finset I) (P : BMap I (Msg F G)) : joinSubshares S P ≠ .panic :=
  Out.bind_ne_panic (mapM'_ne_panic fun _ _ => Out.bind_ne_panic ofOption_ne_panic (fun _ _ h => by cases h)) fun _ _ => joinScalars_ne_panic _

private theorem joinPublic_ne_panic (P : BMap I (Msg F G)) (x : F) (h : ∀ j p, P.get? j = some p → 1 < p.publicPolynomial.length) :
    joinPublic P x ≠ .panic := by
  refine Out.bind_ne_panic (mapM'_ne_panic fun p hp => ?_) fun _ _ => joinPoints_ne_panic _
  obtain ⟨e, he, rfl⟩ := List.mem_map.1 hp
  rw [publicEvaluate, evaluatePolynomial_eq (h e.1 e.2 (BMap.get?_eq_some_iff.2 he))]
  intro h; cases h

private theorem recv_cases {g : G} {r : Round1 I F G} {j : I} {m : Msg F G} :
    (recv g r j m = .panic → m.publicPolynomial.length ≤ 1) ∧ (∀ p, recv g r j m = .ok p → p = m ∧ 1 < m.publicPolynomial.length) := by
  unfold recv
  split
  · exact ⟨fun h => (by cases h), fun _ h => (by cases h)⟩
  · split
    · cases hx : (recvGet r.newShareIds r.myId : Out (RecvErr Err) F) with
      | panic => exact absurd hx ofOption_ne_panic
      | err e => exact ⟨fun h => (by cases h), fun _ h => (by cases h)⟩
      | ok x =>
        rw [Out.bind_ok]
        by_cases hl : 1 < m.publicPolynomial.length
        · rw [publicEvaluate, evaluatePolynomial_eq hl, Out.bind_ok]
          split
          · exact ⟨fun h => (by cases h), fun _ h => (by cases h)⟩
          · exact ⟨fun h => (by cases h), fun p h => ⟨(Out.ok.inj h).symm, hl⟩⟩
        · rw [publicEvaluate, evaluatePolynomial_panic (by omega)]
          exact ⟨fun _ => (by omega), fun _ h => (by cases h)⟩
    · exact ⟨fun h => (by cases h), fun _ h => (by cases h)⟩

/-- **C47 (resharing): all causes of a panic.** Full property: no message of another party makes a party panic. It is false (see
`C47_resharing_remote_panic` and `C47_resharing_wrong_key_panic`). Proved instead: these are the only causes. If a party panics in a resharing session,
then one of the messages it received has a public polynomial with at most one coefficient; or it holds an old share itself and was asked to
reshare with a threshold of at most one; or it accepted every message, and the constant terms it accepted do not interpolate to the verifying key it
was told to expect. -/
theorem C47_resharing_partial (g : G) (inp : Inputs I F G) (me : I) (draw : Nat → F) (r : Round1 I F G) (hs : start g inp me draw = .ok r)
    (inbox : List (I × Msg F G)) (h : run g r inbox = .panic) :
    (∃ a ∈ inbox, a.2.publicPolynomial.length ≤ 1) ∨ (inp.oldHolder.isSome ∧ inp.newThreshold ≤ 1) ∨
      ((∀ a ∈ inbox, recv g r a.1 a.2 = .ok a.2) ∧ ∃ (nh : NewHolder I G) (P : BMap I (Msg F G)) (v : G), inp.newHolder = some nh ∧
        (∀ j p, P.get? j = some p → Saw r inbox j p.publicPolynomial p.oldShareId) ∧ vkeySum P = .ok v ∧ v ≠ nh.verifyingKey) := by
  obtain ⟨e1, e2, e3, e4, e5, e6, e7⟩ := resharing_start_ok hs
  by_contra hcon
  push Not at hcon
  obtain ⟨hlen, hthr, hkey⟩ := hcon
  revert h
  unfold run
  cases hc : collect r.expectingMessagesFrom (recv g r) inbox with
  | panic =>
    intro _
    obtain ⟨a, ha, hp⟩ := collect_eq_panic hc
    exact absurd (recv_cases.1 hp) (by have := hlen a ha; omega)
  | err e => intro h; cases h
  | ok pls =>
    rw [Out.bind_ok]
    obtain ⟨nd, ex, kp, al⟩ := collect_eq_ok.1 hc
    have hall : ∀ a ∈ inbox, recv g r a.1 a.2 = .ok a.2 := by
      intro a ha
      obtain ⟨p, hp, _⟩ := al a ha
      rw [hp, (recv_cases.2 p hp).1]
    have hpls : ∀ j p, pls.get? j = some p → (j, p) ∈ inbox := by
      intro j p hjp
      have hj : j ∈ r.expectingMessagesFrom := by rw [← kp, BMap.mem_keySet, BMap.mem_keys_iff]; exact ⟨p, hjp⟩
      obtain ⟨x, p', h1, h2, h3⟩ := collect_mem hc hj
      rw [hjp] at h3
      cases h3
      rw [(recv_cases.2 p h2).1]; exact h1
    suffices hfin : finalize r pls ≠ .panic by
      intro h
      cases hf : finalize r pls with
      | panic => exact hfin hf
      | ok a => rw [hf] at h; cases h
      | err a => rw [hf] at h; cases h
    unfold finalize
    rw [e1]
    cases hnh : inp.newHolder with
    | none => intro h; cases h
    | some nh =>
      have hne : ∀ j ∈ r.expectingMessagesFrom, j ≠ me := by
        intro j hj; rw [e5 nh hnh] at hj; exact Finset.ne_of_mem_erase hj
      have hplsme : ∀ j p, pls.get? j = some p → j ≠ me := fun j p hjp => hne j (by
        rw [← kp, BMap.mem_keySet, BMap.mem_keys_iff]; exact ⟨p, hjp⟩)
      refine Out.bind_ne_panic ofOption_ne_panic fun x _ => ?_
      have hP : withOwn (ε := LocalErr) r x pls ≠ .panic ∧ ∀ P, withOwn (ε := LocalErr) r x pls = .ok P →
          ∀ j p, P.get? j = some p → Saw r inbox j p.publicPolynomial p.oldShareId ∧ 1 < p.publicPolynomial.length := by
        have hrest : ∀ j p, pls.get? j = some p → Saw r inbox j p.publicPolynomial p.oldShareId ∧ 1 < p.publicPolynomial.length := fun j p hjp =>
          ⟨Or.inr ⟨by rw [e4]; exact hplsme j p hjp, p.subshare, hpls j p hjp⟩, hlen _ (hpls j p hjp)⟩
        unfold withOwn
        cases ho : inp.oldHolder with
        | none =>
          rw [e6 ho]
          exact ⟨fun h => (by cases h), fun P hP => by cases hP; exact hrest⟩
        | some ks =>
          obtain ⟨s, hoh⟩ := e7 ks ho
          rw [hoh]
          simp only [evaluate]
          rw [horner_eq (by simp [randomPolynomial]), Out.bind_ok]
          refine ⟨fun h => (by cases h), fun P hP => ?_⟩
          cases hP
          intro j p hjp
          rw [BMap.get?_insert] at hjp
          split at hjp
          · rename_i hj
            cases hjp
            refine ⟨Or.inl ⟨hj, _, hoh, rfl, rfl⟩, ?_⟩
            have := hthr (by simp [ho])
            simp [publicPolynomial, randomPolynomial]; omega
          · exact hrest j p hjp
      refine Out.bind_ne_panic hP.1 fun P hP' => Out.bind_ne_panic (vkeySum_ne_panic P) fun v hv => ?_
      have hveq := hkey hall nh P v hnh (fun j p hjp => (hP.2 P hP' j p hjp).1) hv
      rw [if_neg (by rw [hveq]; simp)]
      refine Out.bind_ne_panic (joinSubshares_ne_panic _ _) fun _ _ => Out.bind_ne_panic (mapM'_ne_panic fun _ _ =>
        Out.bind_ne_panic (joinPublic_ne_panic _ _ fun j p hjp => (hP.2 P hP' j p hjp).2) (fun _ _ h => by cases h)) (fun _ _ h => by cases h)

/-- **C47 (resharing): a consistent message can cause it too.** In any run that would finish, in which the claimed old share ids are distinct and nonzero,
any single contributor can instead make the new holder panic by a message that passes all checks: same old share id, same number of
coefficients, a subshare that matches the polynomial, but a different constant term. Nobody is blamed. -/
theorem C47_resharing_wrong_key_panic (g : G) (hg : g ≠ 0) (inp : Inputs I F G) (me : I) (draw : Nat → F) (r : Round1 I F G)
    (hs : start g inp me draw = .ok r) (nh : NewHolder I G) (hnh : inp.newHolder = some nh)
    (inbox : List (I × Msg F G)) (res : Option (ThresholdKeyShare I F G)) (h : run g r inbox = .ok res)
    (hdist : ∀ j k pol osid pol', Saw r inbox j pol osid → Saw r inbox k pol' osid → j = k)
    (hnz : ∀ j pol osid, Saw r inbox j pol osid → osid ≠ 0) (j : I) (m : Msg F G) (hj : (j, m) ∈ inbox) :
    ∃ m' : Msg F G, m'.oldShareId = m.oldShareId ∧ m'.publicPolynomial.length = m.publicPolynomial.length ∧ recv g r j m' = .ok m' ∧
      run g r (inbox.map fun a => if a.1 = j then (j, m') else a) = .panic := by
  obtain ⟨e1, e2, e3, e4, e5, e6, e7⟩ := resharing_start_ok hs
  unfold run at h
  simp only [Out.bind_eq_ok] at h
  obtain ⟨pls, hc, hf⟩ := h
  obtain ⟨nd, ex, kp, al⟩ := collect_eq_ok.1 hc
  obtain ⟨p, hpm, hgetj⟩ := al _ hj
  obtain ⟨rfl, hml⟩ := recv_cases.2 p hpm
  simp only at hgetj hpm hml
  obtain ⟨c0, tail, hpol⟩ : ∃ c0 tail, p.publicPolynomial = c0 :: tail := by
    cases hc : p.publicPolynomial with
    | nil => rw [hc] at hml; simp at hml
    | cons a t => exact ⟨a, t, rfl⟩
  have hjme : j ≠ me := by
    have : j ∈ r.expectingMessagesFrom := by rw [← ex, List.mem_toFinset]; exact List.mem_map.2 ⟨_, hj, rfl⟩
    rw [e5 nh hnh] at this
    exact Finset.ne_of_mem_erase this
  let m' : Msg F G := ⟨(c0 + g) :: tail, p.oldShareId, p.subshare + 1⟩
  have hm' : recv g r j m' = .ok m' := by
    unfold recv at hpm ⊢
    rw [e1, hnh] at hpm ⊢
    simp only at hpm ⊢
    split at hpm
    · rename_i hm
      rw [if_pos hm]
      simp only [Out.bind_eq_ok] at hpm
      obtain ⟨x, hx, v, hv, hpm⟩ := hpm
      rw [hx, Out.bind_ok, publicEvaluate, evaluatePolynomial_eq (by simpa [m', hpol] using hml), Out.bind_ok]
      rw [publicEvaluate, evaluatePolynomial_eq hml] at hv
      cases hv
      split at hpm
      · simp at hpm
      · rename_i hv
        rw [ne_eq, not_not, hpol, polyValue_cons] at hv
        rw [if_neg]
        simp only [m', polyValue_cons, add_smul, one_smul, ← hv, ne_eq, not_not]
        abel
    · simp at hpm
  refine ⟨m', rfl, by simp [m', hpol], hm', ?_⟩
  have hfst : (inbox.map fun a => if a.1 = j then (j, m') else a).map Prod.fst = inbox.map Prod.fst := by
    rw [List.map_map]
    refine List.map_congr_left fun a _ => ?_
    simp only [Function.comp]
    split <;> simp_all
  have hc' : collect r.expectingMessagesFrom (recv g r) (inbox.map fun a => if a.1 = j then (j, m') else a) = .ok (pls.insert j m') := by
    rw [collect_eq_ok]
    refine ⟨by rw [hfst]; exact nd, by rw [hfst]; exact ex, ?_, ?_⟩
    · rw [BMap.keySet_insert, kp, Finset.insert_eq_of_mem]
      rw [← ex, List.mem_toFinset]; exact List.mem_map.2 ⟨_, hj, rfl⟩
    · intro a ha
      obtain ⟨b, hb, rfl⟩ := List.mem_map.1 ha
      by_cases hbj : b.1 = j
      · rw [if_pos hbj]; exact ⟨m', hm', by simp [BMap.get?_insert]⟩
      · rw [if_neg hbj]
        obtain ⟨p', hp', hg'⟩ := al _ hb
        exact ⟨p', hp', by rw [BMap.get?_insert, if_neg hbj]; exact hg'⟩
  unfold run
  rw [hc', Out.bind_ok]
  rw [finalizeResult_eq_ok] at hf
  suffices finalize r (pls.insert j m') = .panic by rw [this]; rfl
  unfold finalize at hf ⊢
  rw [e1, hnh] at hf ⊢
  simp only [Out.bind_eq_ok] at hf ⊢
  obtain ⟨x, hx, P, hP, vk, hvk, hf⟩ := hf
  split at hf
  · simp at hf
  rename_i hvk'
  rw [ne_eq, not_not] at hvk'
  clear hf
  rw [hx, Out.bind_ok]
  have hpls : ∀ k q, pls.get? k = some q → (k, q) ∈ inbox ∧ k ≠ me := by
    intro k q hkq
    have hk : k ∈ r.expectingMessagesFrom := by rw [← kp, BMap.mem_keySet, BMap.mem_keys_iff]; exact ⟨q, hkq⟩
    obtain ⟨x, p', h1, h2, h3⟩ := collect_mem hc hk
    rw [hkq] at h3
    cases h3
    rw [e5 nh hnh] at hk
    exact ⟨by rw [(recv_cases.2 q h2).1]; exact h1, Finset.ne_of_mem_erase hk⟩
  -- the contributions before and after the change
  have hPs : withOwn (ε := LocalErr) r x (pls.insert j m') = .ok (P.insert j m') ∧ P.get? j = some p ∧
      ∀ k q, P.get? k = some q → Saw r inbox k q.publicPolynomial q.oldShareId ∧ q.publicPolynomial ≠ [] := by
    have hrest : ∀ k q, pls.get? k = some q → Saw r inbox k q.publicPolynomial q.oldShareId ∧ q.publicPolynomial ≠ [] := by
      intro k q hkq
      obtain ⟨h1, h2⟩ := hpls k q hkq
      refine ⟨Or.inr ⟨by rw [e4]; exact h2, q.subshare, h1⟩, ?_⟩
      obtain ⟨p', hp', _⟩ := al _ h1
      have := (recv_cases.2 p' hp').2
      intro hnil
      simp [hnil] at this
    unfold withOwn at hP ⊢
    cases ho : inp.oldHolder with
    | none =>
      rw [e6 ho] at hP ⊢
      cases hP
      exact ⟨rfl, hgetj, hrest⟩
    | some ks =>
      obtain ⟨s, hoh⟩ := e7 ks ho
      rw [hoh] at hP ⊢
      simp only [evaluate] at hP ⊢
      rw [horner_eq (by simp [randomPolynomial]), Out.bind_ok] at hP ⊢
      cases hP
      refine ⟨?_, by rw [BMap.get?_insert, if_neg (by rw [e4]; exact hjme)]; exact hgetj, ?_⟩
      · refine congrArg Out.ok (BMap.ext fun k => ?_)
        simp only [BMap.get?_insert]
        by_cases h1 : k = r.myId
        · rw [if_pos h1, if_neg (by rw [h1, e4]; exact Ne.symm hjme), if_pos h1]
        · rw [if_neg h1]
          by_cases h2 : k = j
          · rw [if_pos h2, if_pos h2]
          · rw [if_neg h2, if_neg h2, if_neg h1]
      · intro k q hkq
        rw [BMap.get?_insert] at hkq
        split at hkq
        · rename_i hk
          cases hkq
          exact ⟨Or.inl ⟨hk, _, hoh, rfl, rfl⟩, by simp [publicPolynomial, randomPolynomial]⟩
        · exact hrest k q hkq
  obtain ⟨hown, hPj, hsaw⟩ := hPs
  rw [hown, Out.bind_ok]
  let mm : I → Msg F G := fun k => (P.get? k).getD default
  have hget : ∀ k ∈ P.keySet, P.get? k = some (mm k) := by
    intro k hk
    rw [BMap.mem_keySet, BMap.mem_keys_iff] at hk
    obtain ⟨q, hq⟩ := hk
    simp [mm, hq]
  have hjS : j ∈ P.keySet := by rw [BMap.mem_keySet, BMap.mem_keys_iff]; exact ⟨p, hPj⟩
  have hmj : mm j = p := by simp [mm, hPj]
  have hPt : P = BMap.tabulate P.keySet mm := BMap.eq_tabulate_of rfl hget
  let m2 : I → Msg F G := fun k => if k = j then m' else mm k
  have hid : ∀ k, (m2 k).oldShareId = (mm k).oldShareId := by
    intro k
    by_cases hkj : k = j
    · rw [hkj, hmj]; simp [m2, m']
    · simp [m2, hkj]
  have hPt2 : P.insert j m' = BMap.tabulate P.keySet m2 := by
    refine BMap.eq_tabulate_of (by rw [BMap.keySet_insert, Finset.insert_eq_of_mem hjS]) fun k hk => ?_
    rw [BMap.get?_insert]
    by_cases hkj : k = j
    · simp [m2, hkj]
    · rw [if_neg hkj, hget k hk]; simp [m2, hkj]
  have hinj : Set.InjOn (fun k => (mm k).oldShareId) P.keySet := by
    intro a ha b hb hab
    have h1 := (hsaw a _ (hget a ha)).1
    have h2 := (hsaw b _ (hget b hb)).1
    simp only at hab
    rw [← hab] at h2
    exact hdist a b _ _ _ h1 h2
  have hinj2 : Set.InjOn (fun k => (m2 k).oldShareId) P.keySet := by simpa only [hid] using hinj
  have hhd : ∀ k ∈ P.keySet, (mm k).publicPolynomial.head? = some ((mm k).publicPolynomial.headD 0) := by
    intro k hk
    have := (hsaw k _ (hget k hk)).2
    cases hc : (mm k).publicPolynomial with
    | nil => exact absurd hc this
    | cons a t => rfl
  have hhd2 : ∀ k ∈ P.keySet, (m2 k).publicPolynomial.head? = some ((mm k).publicPolynomial.headD 0 + if k = j then g else 0) := by
    intro k hk
    by_cases hkj : k = j
    · rw [hkj, hmj, hpol]; simp [m2, m']
    · simp only [m2, if_neg hkj, add_zero]; exact hhd k hk
  have hv2 := vkeySum_tabulate hinj2 hhd2
  rw [hPt, vkeySum_tabulate hinj hhd] at hvk
  simp only [hid, smul_add, Finset.sum_add_distrib, smul_ite, smul_zero, Finset.sum_ite_eq', if_pos hjS] at hv2
  rw [Out.ok.inj hvk, ← hPt2] at hv2
  rw [hv2, Out.bind_ok, if_pos]
  rw [hvk']
  intro heq
  have hz := left_eq_add.1 heq
  rcases smul_eq_zero.1 hz with h0 | h0
  · unfold lagrange0 at h0
    rw [Finset.prod_eq_zero_iff] at h0
    obtain ⟨y, hy, h0⟩ := h0
    obtain ⟨hy1, hy2⟩ := Finset.mem_erase.1 hy
    obtain ⟨k, hk, rfl⟩ := Finset.mem_image.1 hy2
    rcases mul_eq_zero.1 h0 with h0 | h0
    · exact hnz k _ _ (hsaw k _ (hget k hk)).1 h0
    · exact hy1 (sub_eq_zero.1 (inv_eq_zero.1 h0))
  · exact hg h0

/-! ### Concrete cases -/

section
attribute [local instance] Toy.fact11 Toy.order11

/-- Party 4 becomes a new holder together with 2 and 3; the old holders 1 and 2, with shares 8 and 0 of the key 5, contribute. -/
private def inputsNew : Inputs Nat (ZMod 11) (ZMod 11) := ⟨none, some ⟨5, 2, {1, 2}⟩, {2, 3, 4}, 2⟩
private def roundNew : Round1 Nat (ZMod 11) (ZMod 11) := ⟨none, some ⟨5, 2, {1, 2}⟩, newShareIds (ZMod 11) {2, 3, 4}, 2, 4, ∅, {1, 2}⟩

/-- The hypotheses of `C47_resharing_wrong_key_panic` hold of an honest run. -/
example : start (1 : ZMod 11) inputsNew 4 (fun _ => 0) = .ok roundNew ∧
    (run (1 : ZMod 11) roundNew [(2, ⟨[0, 6], 2, 7⟩), (1, ⟨[8, 4], 1, 9⟩)]).isOk = true ∧
    (∀ j k pol osid pol', Saw roundNew [(2, ⟨[0, 6], 2, 7⟩), (1, ⟨[8, 4], 1, 9⟩)] j pol osid →
      Saw roundNew [(2, ⟨[0, 6], 2, 7⟩), (1, ⟨[8, 4], 1, 9⟩)] k pol' osid → j = k) ∧
    (∀ j pol osid, Saw roundNew [(2, ⟨[0, 6], 2, 7⟩), (1, ⟨[8, 4], 1, 9⟩)] j pol osid → osid ≠ 0) := by
  refine ⟨rfl, by decide +kernel, ?_, ?_⟩
  · rintro j k pol osid pol' (⟨_, _, h, _⟩ | ⟨_, s, h⟩) (⟨_, _, h', _⟩ | ⟨_, s', h'⟩)
    · cases h
    · cases h
    · cases h'
    · simp only [List.mem_cons, Prod.mk.injEq, Msg.mk.injEq, List.not_mem_nil, or_false] at h h'
      rcases h with ⟨rfl, _, rfl, _⟩ | ⟨rfl, _, rfl, _⟩ <;> rcases h' with ⟨rfl, _, h', _⟩ | ⟨rfl, _, h', _⟩ <;>
        first | rfl | exact absurd h' (by decide +kernel)
  · rintro j pol osid (⟨_, _, h, _⟩ | ⟨_, s, h⟩)
    · cases h
    · simp only [List.mem_cons, Prod.mk.injEq, Msg.mk.injEq, List.not_mem_nil, or_false] at h
      rcases h with ⟨_, _, rfl, _⟩ | ⟨_, _, rfl, _⟩ <;> decide +kernel

/-- The three causes of a panic: a polynomial with one coefficient, a constant term that moves the key (here of party 2, by one), and … -/
example : run (1 : ZMod 11) roundNew [(2, ⟨[0], 2, 0⟩), (1, ⟨[8, 4], 1, 9⟩)] = .panic := by decide +kernel
example : run (1 : ZMod 11) roundNew [(2, ⟨[1, 6], 2, 8⟩), (1, ⟨[8, 4], 1, 9⟩)] = .panic := by decide +kernel

/-- … the threshold one, for a party that holds an old share: party 1, alone, keeps its share of the key 5 (a sharing with threshold one). -/
example : ((start (1 : ZMod 11) (⟨some ⟨1, 1, 5, BMap.ofList [(1, 1)], BMap.ofList [(1, 5)]⟩, some ⟨5, 1, {1}⟩, {1}, 1⟩ :
    Inputs Nat (ZMod 11) (ZMod 11)) 1 (fun _ => 0)).bind fun r => match run (1 : ZMod 11) r [] with
      | .panic => .panic
      | _ => .ok ()) = .panic := by decide +kernel

end

end Synedrion.Props
