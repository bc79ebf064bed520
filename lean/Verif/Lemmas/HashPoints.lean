import Verif.Model.HashPoints
import Verif.Lemmas.WireFinish

/-!
# Lemmas: panics because of hashed identity points
-/

set_option linter.unusedSectionVars false

namespace Synedrion

open Spec

section Generic

variable {I M S E R : Type} [LinearOrder I] {P : Spec.Machine I M S E R} {T : Transport I M} {panics : Panics I M S} {honest : Set I} {init : I → S}

/-- What holds for the states of an honest execution in which all messages that are sent have the property `good` -/
theorem ideal_inv_good {parties : Finset I} {K : Nat} {ideal : Nat → I → S} {res : I → R} (hI : P.Ideal parties init K ideal res) {inv : I → S → Prop} {good : M → Prop}
    (hsend : ∀ k i, 1 ≤ k → k ≤ K → i ∈ parties → ∀ a ∈ P.send (ideal k i), good a.2) (h0 : ∀ i ∈ parties, inv i (init i))
    (hnext : ∀ i ∈ parties, ∀ s got s', inv i s → (∀ a ∈ P.send s, good a.2) → (∀ a ∈ got, good a.2) → P.next s got = .ok (.inl s') → P.round s' ≤ K → inv i s') :
    ∀ k i, 1 ≤ k → k ≤ K → i ∈ parties → inv i (ideal k i) := by
  intro k
  induction k with
  | zero => intro i h; omega
  | succ k ih =>
    intro i _ hk hi
    rcases Nat.eq_zero_or_pos k with rfl | hk0
    · rw [Nat.zero_add, hI.first i hi]; exact h0 i hi
    · have ih := fun j => ih j hk0 (by omega)
      have hex : ∀ j ∈ bsetIter (P.expected (ideal k i)), ∃ m, (i, m) ∈ P.send (ideal k j) := fun j hj => hI.sends k i hk0 (by omega) hi j (mem_bsetIter.1 hj)
      obtain ⟨got, hfst, hgot⟩ : ∃ got : List (I × M), got.map Prod.fst = bsetIter (P.expected (ideal k i)) ∧ ∀ a ∈ got, (i, a.2) ∈ P.send (ideal k a.1) := by
        generalize bsetIter (P.expected (ideal k i)) = l at hex
        induction l with
        | nil => exact ⟨[], rfl, fun _ h => by cases h⟩
        | cons j l ihl =>
          obtain ⟨got, h1, h2⟩ := ihl fun j hj => hex j (List.mem_cons_of_mem _ hj)
          obtain ⟨m, hm⟩ := hex j List.mem_cons_self
          exact ⟨(j, m) :: got, congrArg (j :: ·) h1, fun a ha => by
            rcases List.mem_cons.1 ha with rfl | ha
            · exact hm
            · exact h2 a ha⟩
      have hexp : ∀ a ∈ got, a.1 ∈ P.expected (ideal k i) := fun a ha => mem_bsetIter.1 (hfst ▸ List.mem_map_of_mem ha)
      refine hnext i hi (ideal k i) got _ (ih i hi) (hsend k i hk0 (by omega) hi)
        (fun a ha => hsend k a.1 hk0 (by omega) (hI.expected k i hk0 (by omega) hi (hexp a ha)) (i, a.2) (hgot a ha))
        (hI.advances k i hk0 (by omega) hi got ⟨?_, ?_, fun a ha => hI.accepts k i hk0 (by omega) hi a.1 (hexp a ha) a.2 (hgot a ha)⟩ hgot) ?_
      · rw [hfst]; exact bsetIter_nodup _
      · rw [hfst]; ext j; rw [List.mem_toFinset, mem_bsetIter]
      · rw [hI.round (k + 1) i (by omega) hk hi]; exact hk

variable {ok : M → Prop} {inv : S → Prop} {parties : Finset I} {K : Nat} {ideal : Nat → I → S} {res : I → R} {good : M → Prop}

/-- All messages in the intended execution are good if all messages are. -/
theorem ideal_sends_good (hI : P.Ideal parties init K ideal res) (h : P.SendsOnly parties init good) :
    ∀ k i, 1 ≤ k → k ≤ K → i ∈ parties → ∀ a ∈ P.send (ideal k i), good a.2 := fun k i h1 h2 hi a ha => by
  obtain ⟨n, hn, hf⟩ := hI.alwaysFinishes.exists_finished
  refine h n hn i hi a.1 k a.2 ⟨ideal k i, ?_, hI.round k i h1 h2 hi, ha⟩
  rw [OnTrack.begun_of_finished (hn.onTrack hI i hi) (hf i hi)]
  exact Spec.Machine.mem_firstStates.2 ⟨k, h1, h2, rfl⟩

variable {G : Type} [Zero G] [DecidableEq G] {own : S → List G} {read : S → I → M → List G}

/-- Parties that follow the protocol finish over serialized messages if everything that they send can be serialized and nothing that they hash is an identity point. -/
theorem overWire_finishes_hash (hF : Faithful P T ok inv) (hinit : ∀ i ∈ parties, inv (init i)) (hsend : ∀ s, inv s → ∀ a ∈ P.send s, ok a.2)
    (hI : P.Ideal parties init K ideal res) (hgood : ∀ m, ok m → ((∃ d, T.pack m = .ok d) ↔ good m)) (hs : P.SendsOnly parties init good) {clean : I → S → Prop}
    (h0 : ∀ i ∈ parties, clean i (init i))
    (hnext : ∀ i ∈ parties, ∀ s got s', clean i s → (∀ a ∈ P.send s, good a.2) → (∀ a ∈ got, good a.2) → P.next s got = .ok (.inl s') → P.round s' ≤ K → clean i s')
    (hown : ∀ i ∈ parties, ∀ s, clean i s → (∀ a ∈ P.send s, good a.2) → 0 ∉ own s)
    (hread : ∀ i ∈ parties, ∀ s, clean i s → (∀ a ∈ P.send s, good a.2) → ∀ j m, good m → 0 ∉ read s j m) :
    (overWire P T (hashPanics own read)).AlwaysFinishes parties init (parties.card * (K * (parties.card + 1))) res := by
  have hinv := ideal_inv (inv := fun _ s => inv s) (ok := ok) hI hinit (fun _ s hs a ha => hsend s hs a ha) fun _ s got s' => hF.next s got s'
  have hg := ideal_sends_good hI hs
  have hc := ideal_inv_good hI hg h0 hnext
  refine (overWire_ideal_quiet hI (fun k i h1 h2 hi a ha => ?_) (fun k i h1 h2 hi j hj m hm => ?_) fun k i h1 h2 hi got _ _ => ?_).alwaysFinishes
  · obtain ⟨d, hd⟩ := (hgood a.2 (hsend _ (hinv k i h1 h2 hi) a ha)).2 (hg k i h1 h2 hi a ha)
    refine ⟨d, hd, ?_⟩
    rw [← hI.round k i h1 h2 hi]
    exact hF.trip _ (hinv k i h1 h2 hi) a ha d hd
  · refine decide_eq_false fun h => ?_
    rcases List.mem_append.1 h with h | h
    · exact hown i hi _ (hc k i h1 h2 hi) (hg k i h1 h2 hi) h
    · exact hread i hi _ (hc k i h1 h2 hi) (hg k i h1 h2 hi) j m (hg k j h1 h2 (hI.expected k i h1 h2 hi hj) _ hm) h
  · exact decide_eq_false (hown i hi _ (hc k i h1 h2 hi) (hg k i h1 h2 hi))

/-- Whoever finishes has hashed no identity point to make its messages. -/
theorem own_of_finished {n : Net I (Packet I) S (WireErr E) R} (h : (overWire P T (hashPanics own read)).Reachable honest init n) {i : I} {r : R} (hf : n.status i = .finished r) {s : S}
    (hs : s ∈ n.begun i) : 0 ∉ own s := by
  obtain ⟨l, ⟨l', hl⟩, hrep⟩ := (h.inv i).begun s hs
  have hst := (h.inv i).status
  rw [hf] at hst
  have hst : (overWire P T (hashPanics own read)).replay (init i) ((n.past i).map Prod.snd) = .ok (.inr r) := hst
  rw [← hl] at hst
  obtain ⟨got, x, hx⟩ := replay_goes_on hrep hst
  intro h0
  unfold overWire at hx
  dsimp only at hx
  split at hx
  · split at hx
    · cases hx
    · rw [if_pos (show (hashPanics own read).next s _ = true from decide_eq_true h0)] at hx
      cases hx
  · cases hx

/-- A party that has to hash an identity point for its messages panics at its first step in the round. -/
theorem own_panics {s : S} (h : 0 ∈ own s) (got : List (I × Packet I)) (hread : (T.unpackAll (P.round s) got).isSome) : (overWire P T (hashPanics own read)).next s got = .panic := by
  unfold overWire
  dsimp only
  split
  · obtain ⟨got', hg⟩ := Option.isSome_iff_exists.1 hread
    rw [hg]
    exact if_pos (decide_eq_true h)
  · rfl

/-- A receiver panics if it has to hash an identity point. -/
theorem read_panics {s : S} {j : I} {d : Packet I} {m : M} (hd : T.unpack (P.round s) d = some m) (h : 0 ∈ read s j m) : (overWire P T (hashPanics own read)).recv s j d = .panic := by
  unfold overWire
  dsimp only
  split
  · rw [hd]
    exact if_pos (decide_eq_true (List.mem_append_right _ h))
  · rfl

end Generic

theorem BMap.mem_at {I G : Type} [LinearOrder I] {m : BMap I G} {i : I} {x : G} : x ∈ m.at i ↔ m.get? i = some x := by
  unfold BMap.at
  rw [Option.mem_toList]

theorem BMap.mem_values {I G : Type} [LinearOrder I] {m : BMap I G} {x : G} : x ∈ m.values ↔ ∃ i, m.get? i = some x := by
  constructor
  · intro h
    obtain ⟨e, he, rfl⟩ := List.mem_map.1 h
    exact ⟨e.1, BMap.get?_eq_some_iff.2 he⟩
  · rintro ⟨i, h⟩
    exact List.mem_map.2 ⟨_, BMap.get?_eq_some_iff.1 h, rfl⟩

theorem gather_get {I M A E Pl : Type} [LinearOrder I] {expected : Finset I} {part : M → Option A} {recv : I → A → Out (RecvErr E) Pl} {got : List (I × M)} {b : BMap I Pl}
    (h : gather expected part recv got = .ok b) {j : I} {p : Pl} (hp : b.get? j = some p) : ∃ a ∈ got, a.1 = j ∧ ∃ x, part a.2 = some x ∧ recv j x = .ok p := by
  obtain ⟨-, h1, h2, h3⟩ := gather_eq_ok.1 h
  have hj : j ∈ expected := by
    rw [← h2, BMap.mem_keySet]
    exact List.mem_map.2 ⟨_, BMap.get?_eq_some_iff.1 hp, rfl⟩
  rw [← h1, List.mem_toFinset] at hj
  obtain ⟨a, ha, rfl⟩ := List.mem_map.1 hj
  obtain ⟨x, p', hx, hr, hg⟩ := h3 a ha
  rw [hp] at hg
  cases Option.some.inj hg
  exact ⟨a, ha, rfl, x, hx, hr⟩

/-! ### Key generation -/

namespace KeyInit

variable {I G Sid V : Type} [LinearOrder I] [AddCommGroup G] {q : Nat} [Fact q.Prime] [LinearOrder (ZMod q)] [Module (ZMod q) G] [DecidableEq G] [DecidableEq V]
  {hashV : Sid → I → PublicData G → V} {H : SchHash G (SchAux I Sid) → ZMod q} {g : G}

/-- A party's points, and those it has received, are no identity points. -/
def Clean : State I (ZMod q) G Sid V → Prop
  | .one c => c.data.capX ≠ 0 ∧ c.data.capA ≠ 0
  | .two r => r.ctx.data.capX ≠ 0 ∧ r.ctx.data.capA ≠ 0
  | .three r => (r.ctx.data.capX ≠ 0 ∧ r.ctx.data.capA ≠ 0) ∧ 0 ∉ r.capXs.values ∧ 0 ∉ r.capAs.values

theorem good_two {m : Msg2 G} (h : keyInitNoIdentity (q := q) (V := V) (.two m)) : m.capX ≠ 0 ∧ m.capA ≠ 0 := by
  have := h 2 .normal ⟨m.capX, m.capA, m.u⟩ rfl
  simp [keyInitPoints] at this
  exact ⟨fun h => this.1 h.symm, fun h => this.2 h.symm⟩

theorem clean_next {s s' : State I (ZMod q) G Sid V} {got : List (I × Message (ZMod q) G V)} (hs : Clean s) (hgot : ∀ a ∈ got, keyInitNoIdentity a.2)
    (h : (machine hashV H g).next s got = .ok (.inl s')) : Clean s' := by
  cases s with
  | one c =>
    obtain ⟨_, _, h⟩ := Out.bind_eq_ok.1 h
    cases Out.ok.inj h
    exact hs
  | two r =>
    obtain ⟨ps, hps, h⟩ := Out.bind_eq_ok.1 h
    obtain ⟨r3, h3, h⟩ := Out.bind_eq_ok.1 h
    cases Out.ok.inj h
    obtain ⟨rho, _, h3⟩ := Out.bind_eq_ok.1 h3
    cases Out.ok.inj h3
    have hall : ∀ j p, ps.get? j = some p → p.capX ≠ 0 ∧ p.capA ≠ 0 := fun j p hp => by
      obtain ⟨a, ha, -, m, hm, hr⟩ := gather_get hps hp
      obtain ⟨_, _, hr⟩ := Out.bind_eq_ok.1 hr
      dsimp only at hr
      split at hr
      · cases hr
      cases Out.ok.inj hr
      have := hgot a ha
      cases ha2 : a.2 with
      | one v => rw [ha2] at hm; cases hm
      | two m' => rw [ha2] at hm this; cases hm; exact good_two this
      | three v => rw [ha2] at hm; cases hm
    refine ⟨hs, fun h0 => ?_, fun h0 => ?_⟩ <;>
    · obtain ⟨j, hj⟩ := BMap.mem_values.1 h0
      rw [BMap.get?_mapVals] at hj
      obtain ⟨p, hp, h⟩ := Option.map_eq_some_iff.1 hj
      first | exact (hall j p hp).1 h | exact (hall j p hp).2 h
  | three r =>
    obtain ⟨_, _, h⟩ := Out.bind_eq_ok.1 h
    obtain ⟨_, _, h⟩ := Out.bind_eq_ok.1 h
    cases Out.ok.inj h

theorem clean_own {s : State I (ZMod q) G Sid V} (hs : Clean s) : 0 ∉ ownPoints s := by
  cases s with
  | one c => simp [ownPoints]; exact ⟨Ne.symm hs.1, Ne.symm hs.2⟩
  | two r => exact List.not_mem_nil
  | three r => simp [ownPoints, schPoints]; exact ⟨Ne.symm hs.1.1, Ne.symm hs.1.2⟩

theorem clean_read {s : State I (ZMod q) G Sid V} (hs : Clean s) {j : I} {m : Message (ZMod q) G V} (hm : keyInitNoIdentity m) : 0 ∉ readPoints s j m := by
  cases s with
  | one c => exact List.not_mem_nil
  | two r =>
    cases m with
    | one v => exact List.not_mem_nil
    | two m => simp [readPoints]; exact ⟨Ne.symm (good_two hm).1, Ne.symm (good_two hm).2⟩
    | three v => exact List.not_mem_nil
  | three r =>
    cases m with
    | one v => exact List.not_mem_nil
    | two m => exact List.not_mem_nil
    | three v =>
      intro h
      rcases List.mem_append.1 h with h | h
      · exact hs.2.1 (BMap.mem_values.2 ⟨j, BMap.mem_at.1 h⟩)
      · exact hs.2.2 (BMap.mem_values.2 ⟨j, BMap.mem_at.1 h⟩)

theorem clean_send {s : State I (ZMod q) G Sid V} (hs : Clean s) {a : I × Message (ZMod q) G V} (ha : a ∈ (machine hashV H g).send s) : keyInitNoIdentity a.2 := by
  cases s with
  | one c =>
    obtain ⟨b, _, rfl⟩ := List.mem_map.1 (show a ∈ (bsetIter c.otherIds).map fun j => (j, Message.one (msg1 hashV c)) from ha)
    intro n p x hx
    rcases p <;> rcases n with _ | _ | _ | _ | n <;> first | (cases hx; done) | exact List.not_mem_nil
  | two r =>
    obtain ⟨b, _, rfl⟩ := List.mem_map.1 (show a ∈ (bsetIter r.ctx.otherIds).map fun j => (j, Message.two (msg2 r.ctx)) from ha)
    intro n p x hx
    rcases p <;> rcases n with _ | _ | _ | _ | n <;> first | (cases hx; done) | skip
    · exact List.not_mem_nil
    · cases Option.some.inj hx
      simp [keyInitPoints, msg2]
      exact ⟨Ne.symm hs.1, Ne.symm hs.2⟩
  | three r =>
    obtain ⟨b, _, rfl⟩ := List.mem_map.1 (show a ∈ (bsetIter r.ctx.otherIds).map fun j => (j, Message.three (msg3 H r)) from ha)
    intro n p x hx
    rcases p <;> rcases n with _ | _ | _ | _ | n <;> first | (cases hx; done) | exact List.not_mem_nil

end KeyInit

/-! ### Key refresh -/

namespace KeyRefresh

variable {I G Sid V : Type} [LinearOrder I] [AddCommGroup G] {q : Nat} [Fact q.Prime] [LinearOrder (ZMod q)] [Module (ZMod q) G] [DecidableEq G] [DecidableEq V]
  {E : Env I Sid (ZMod q) G} {hashV : Sid → I → Hashed I G → V}

/-- A party's points are no identity points, and it has not drawn zero for a mask. -/
def CleanCtx (c : Context I (ZMod q) G Sid) : Prop := 0 ∉ c.data.points ∧ 0 ∉ c.ys.values

/-- A party's points, and those it has received, are no identity points. -/
def Clean : State I (ZMod q) G Sid V → Prop
  | .one c => CleanCtx c
  | .two c _ => CleanCtx c
  | .three r _ => CleanCtx r.ctx ∧ ∀ j p, r.payloads.get? j = some p → 0 ∉ p.capXs.values ++ p.capYs.values ++ p.capAs.values

theorem good_two {m : Msg2 I G} (h : keyRefreshNoIdentity (q := q) (V := V) (.two m)) : 0 ∉ m.capXs.values ++ m.echo.capYs.values ++ m.capAs.values := by
  have h1 := h 2 .echo m.echo rfl
  have h2 := h 2 .normal ⟨m.capXs, m.capAs, m.pk, m.psi, m.u⟩ rfl
  simp [keyRefreshPoints] at h1 h2 ⊢
  exact ⟨h2.1, h1, h2.2⟩

theorem recv2_points {sid : Sid} {ids : Finset I} {capVs : BMap I V} {j : I} {m : Msg2 I G} {p : Payload2 I G} (h : recv2 E hashV sid ids capVs j m = .ok p) :
    p.capXs = m.capXs ∧ p.capYs = m.echo.capYs ∧ p.capAs = m.capAs := by
  obtain ⟨d, hd, h⟩ := Out.bind_eq_ok.1 h
  obtain ⟨_, _, h⟩ := Out.bind_eq_ok.1 h
  obtain ⟨b, _, hd⟩ := Out.bind_eq_ok.1 hd
  cases Out.ok.inj hd
  dsimp only at h
  repeat (split at h; · cases h)
  cases Out.ok.inj h
  exact ⟨rfl, rfl, rfl⟩

theorem clean_next {s s' : State I (ZMod q) G Sid V} {got : List (I × Message I (ZMod q) G V)} (hs : Clean s) (hgot : ∀ a ∈ got, keyRefreshNoIdentity a.2)
    (h : (machine E hashV).next s got = .ok (.inl s')) : Clean s' := by
  cases s with
  | one c =>
    obtain ⟨_, _, h⟩ := Out.bind_eq_ok.1 h
    cases Out.ok.inj h
    exact hs
  | two c capVs =>
    obtain ⟨ps, hps, h⟩ := Out.bind_eq_ok.1 h
    obtain ⟨r3, h3, h⟩ := Out.bind_eq_ok.1 h
    obtain ⟨out, _, h⟩ := Out.bind_eq_ok.1 h
    cases Out.ok.inj h
    obtain ⟨_, _, h3⟩ := Out.bind_eq_ok.1 (finalizeResult_eq_ok.1 h3)
    obtain ⟨_, _, h3⟩ := Out.bind_eq_ok.1 h3
    obtain ⟨_, _, h3⟩ := Out.bind_eq_ok.1 h3
    cases Out.ok.inj h3
    refine ⟨hs, fun j p hp => ?_⟩
    rw [BMap.get?_insert] at hp
    split at hp
    · cases Option.some.inj hp
      exact hs.1
    · obtain ⟨a, ha, -, m, hm, hr⟩ := gather_get hps hp
      obtain ⟨h1, h2, h3⟩ := recv2_points hr
      rw [h1, h2, h3]
      have := hgot a ha
      cases ha2 : a.2 with
      | one v => rw [ha2] at hm; cases hm
      | two m' => rw [ha2] at hm this; cases hm; exact good_two this
      | three v => rw [ha2] at hm; cases hm
  | three r out =>
    obtain ⟨_, _, h⟩ := Out.bind_eq_ok.1 h
    obtain ⟨_, _, h⟩ := Out.bind_eq_ok.1 h
    cases Out.ok.inj h

theorem clean_mask {r : Round3 I (ZMod q) G Sid} {out : List (I × Msg3 I (ZMod q))} (hs : Clean (V := V) (.three r out)) (j : I) : 0 ∉ maskPoints r j := by
  unfold maskPoints
  split
  · next pl y hp hy =>
    intro h
    obtain ⟨x, hx, h⟩ := List.mem_map.1 h
    rcases smul_eq_zero.1 h with rfl | rfl
    · exact hs.1.2 (BMap.mem_values.2 ⟨_, hy⟩)
    · exact hs.2 _ _ hp (List.mem_append_left _ (List.mem_append_right _ (BMap.mem_values.2 ⟨_, BMap.mem_at.1 hx⟩)))
  · exact List.not_mem_nil

theorem clean_own {s : State I (ZMod q) G Sid V} (hs : Clean s) : 0 ∉ ownPoints s := by
  cases s with
  | one c => exact hs.1
  | two c capVs => exact List.not_mem_nil
  | three r out =>
    have h1 := hs.1.1
    simp only [PublicData.points, List.mem_append, not_or] at h1
    intro h
    rcases List.mem_append.1 h with h | h
    · rcases List.mem_append.1 h with h | h
      · exact h1.1.1 h
      · exact h1.2 h
    · obtain ⟨j, _, h⟩ := List.mem_flatMap.1 h
      exact clean_mask hs j h

theorem clean_read {s : State I (ZMod q) G Sid V} (hs : Clean s) {j : I} {m : Message I (ZMod q) G V} (hm : keyRefreshNoIdentity m) : 0 ∉ readPoints s j m := by
  cases s with
  | one c => exact List.not_mem_nil
  | two c capVs =>
    cases m with
    | one v => exact List.not_mem_nil
    | two m => exact good_two hm
    | three v => exact List.not_mem_nil
  | three r out =>
    cases m with
    | one v => exact List.not_mem_nil
    | two m => exact List.not_mem_nil
    | three m =>
      intro h
      rcases List.mem_append.1 h with h | h
      · exact clean_mask hs j h
      · obtain ⟨e, _, h⟩ := List.mem_flatMap.1 h
        split at h
        · next pl hp =>
          have hc := hs.2 _ _ hp
          rcases List.mem_append.1 h with h | h
          · exact hc (List.mem_append_left _ (List.mem_append_left _ (BMap.mem_values.2 ⟨_, BMap.mem_at.1 h⟩)))
          · exact hc (List.mem_append_right _ (BMap.mem_values.2 ⟨_, BMap.mem_at.1 h⟩))
        · cases h

theorem clean_send {s : State I (ZMod q) G Sid V} (hs : Clean s) {a : I × Message I (ZMod q) G V} (ha : a ∈ (machine E hashV).send s) : keyRefreshNoIdentity a.2 := by
  cases s with
  | one c =>
    obtain ⟨b, _, rfl⟩ := List.mem_map.1 (show a ∈ (bsetIter c.otherIds).map fun j => (j, Message.one (msg1 hashV c)) from ha)
    intro n p x hx
    rcases p <;> rcases n with _ | _ | _ | _ | n <;> first | (cases hx; done) | exact List.not_mem_nil
  | two c capVs =>
    obtain ⟨b, _, rfl⟩ := List.mem_map.1 (show a ∈ (bsetIter c.otherIds).map fun j => (j, Message.two (msg2 c)) from ha)
    have h1 := hs.1
    simp only [PublicData.points, List.mem_append, not_or] at h1
    intro n p x hx
    rcases p <;> rcases n with _ | _ | _ | _ | n <;> first | (cases hx; done) | skip
    · cases Option.some.inj hx
      exact h1.1.2
    · cases Option.some.inj hx
      intro h
      rcases List.mem_append.1 h with h | h
      · exact h1.1.1 h
      · exact h1.2 h
  | three r out =>
    obtain ⟨b, _, rfl⟩ := List.mem_map.1 (show a ∈ out.map fun a => (a.1, Message.three a.2) from ha)
    intro n p x hx
    rcases p <;> rcases n with _ | _ | _ | _ | n <;> first | (cases hx; done) | exact List.not_mem_nil

end KeyRefresh

/-! ### Signing -/

namespace Signing

variable {I Ep G : Type} [LinearOrder I] [AddCommGroup G] {q : Nat} [Fact q.Prime] [Module (ZMod q) G] [DecidableEq G] {E : Env q I Ep G}

/-- The points a party has received in round 1 -/
def Payload1.points (p : Payload1 G) : List G := [p.capY, p.capA1, p.capA2, p.capB1, p.capB2]

/-- A party's points, and those it has received, are no identity points. -/
def Clean (E : Env q I Ep G) : State q I Ep G → Prop
  | .one r out => 0 ∉ r.ctx.keyShare.pub.values ∧ r.ctx.otherIds.Nonempty ∧ ∃ a ∈ out, a.2.echo = r.echo
  | .two r => 0 ∉ r.ctx.keyShare.pub.values ∧ r.ctx.otherIds.Nonempty ∧ ∀ j p, r.payloads1.get? j = some p → 0 ∉ p.points
  | .three r => r.ctx.otherIds.Nonempty ∧ (∀ j p, r.payloads1.get? j = some p → 0 ∉ p.points) ∧ ∃ k : ZMod q, r.msg.capDelta = k • r.capGammaCombined
  | .four _ => True
  | .error .. => False

theorem good_one {m : Msg1 q G} (h : signingNoIdentity (I := I) (.one m)) : 0 ∉ m.hashed ∧ ∀ pk, 0 ∉ (m.echo.payload pk).points := by
  have h1 := h 1 .echo m.echo rfl
  have h2 := h 1 .direct ⟨m.psi0, m.psi1⟩ rfl
  simp only [signingPoints, List.mem_cons, List.not_mem_nil, or_false, not_or] at h1 h2
  simp only [Msg1.hashed, encElgPoints, Echo1.pub0, Echo1.pub1, Payload1.points, Echo1.payload, List.mem_append, List.mem_cons, List.not_mem_nil, or_false, not_or]
  tauto

theorem good_two {m : Msg2 q I G} (h : signingNoIdentity (.two m)) : m.echo.capGamma ≠ 0 ∧ 0 ∉ elogPoints m.psiElog ∧ (∀ psi ∈ m.psis.values, psi.capBx ≠ 0) ∧
    ∀ psi ∈ m.hatPsis.values, psi.capBx ≠ 0 := by
  have h1 := h 2 .echo m.echo rfl
  have h2 := h 2 .normal ⟨m.capDs, m.hatCapDs, m.psiElog, m.psis, m.hatPsis⟩ rfl
  simp only [signingPoints, List.mem_cons, List.not_mem_nil, or_false, List.mem_append, not_or] at h1 h2
  exact ⟨Ne.symm h1, h2.1.1, fun psi hp h0 => h2.1.2 (List.mem_map.2 ⟨psi, hp, h0⟩), fun psi hp h0 => h2.2 (List.mem_map.2 ⟨psi, hp, h0⟩)⟩

theorem good_three {m : Msg3 q G} (h : signingNoIdentity (I := I) (.three m)) : m.capDelta ≠ 0 ∧ 0 ∉ elogPoints m.psiPrime := by
  have h2 := h 3 .normal ⟨m.capDelta, m.psiPrime, m.capS⟩ rfl
  simp only [signingPoints, List.cons_append, List.mem_cons, List.not_mem_nil, or_false, List.mem_append, not_or] at h2
  exact ⟨Ne.symm h2.1, h2.2.1⟩

theorem elog_hashed {psi : ElogProof (ZMod q) G} {pub : ElogPublic G} (h : 0 ∉ elogPoints psi) (hp : pub.capL ≠ 0 ∧ pub.capM ≠ 0 ∧ pub.capX ≠ 0 ∧ pub.capY ≠ 0 ∧ pub.h ≠ 0) :
    0 ∉ psi.hashed pub := by
  simp only [elogPoints, ElogProof.hashed, List.mem_cons, List.not_mem_nil, or_false, not_or] at h ⊢
  exact ⟨h.1, h.2.1, h.2.2, Ne.symm hp.1, Ne.symm hp.2.1, Ne.symm hp.2.2.1, Ne.symm hp.2.2.2.1, Ne.symm hp.2.2.2.2⟩

theorem affG_hashed {psi : AffGProof q G} {capX : G} (h : psi.capBx ≠ 0) (hx : capX ≠ 0) : 0 ∉ psi.hashed capX := by
  simp only [AffGProof.hashed, List.mem_cons, List.not_mem_nil, or_false, not_or]
  exact ⟨Ne.symm h, Ne.symm hx⟩

theorem at_hashed {psi : AffGProof q G} {pub : BMap I G} {j : I} (h : psi.capBx ≠ 0) (hx : 0 ∉ pub.values) : 0 ∉ (pub.at j).flatMap psi.hashed := by
  intro h0
  obtain ⟨x, hx', h0⟩ := List.mem_flatMap.1 h0
  exact affG_hashed h (fun hz => hx (hz ▸ BMap.mem_values.2 ⟨j, BMap.mem_at.1 hx'⟩)) h0

theorem points_ne {p : Payload1 G} (h : 0 ∉ p.points) : p.capY ≠ 0 ∧ p.capA1 ≠ 0 ∧ p.capA2 ≠ 0 ∧ p.capB1 ≠ 0 ∧ p.capB2 ≠ 0 := by
  simp only [Payload1.points, List.mem_cons, List.not_mem_nil, or_false, not_or] at h
  exact ⟨Ne.symm h.1, Ne.symm h.2.1, Ne.symm h.2.2.1, Ne.symm h.2.2.2.1, Ne.symm h.2.2.2.2⟩

theorem sent_all {M : Type} {dests : Finset I} {m : M} {good : M → Prop} (hd : dests.Nonempty) (h : ∀ a ∈ toAll dests m, good a.2) : good m := by
  obtain ⟨j, hj⟩ := hd
  exact h (j, m) (List.mem_map.2 ⟨j, mem_bsetIter.2 hj, rfl⟩)

theorem clean_next {s s' : State q I Ep G} {got : List (I × Message q I G)} (hs : Clean E s) (hsend : ∀ a ∈ (machine E).send s, signingNoIdentity a.2)
    (hgot : ∀ a ∈ got, signingNoIdentity a.2) (h : (machine E).next s got = .ok (.inl s')) (hr : (machine E).round s' ≤ 4) : Clean E s' := by
  cases s with
  | one r out =>
    obtain ⟨ps, hps, h⟩ := Out.bind_eq_ok.1 h
    obtain ⟨r2, h2, h⟩ := Out.bind_eq_ok.1 h
    cases Out.ok.inj h
    have h2 := finalizeResult_eq_ok.1 h2
    obtain ⟨_, _, h2⟩ := Out.bind_eq_ok.1 h2
    obtain ⟨_, _, h2⟩ := Out.bind_eq_ok.1 h2
    obtain ⟨_, _, h2⟩ := Out.bind_eq_ok.1 h2
    obtain ⟨_, _, h2⟩ := Out.bind_eq_ok.1 h2
    rw [← Out.ok.inj h2]
    refine ⟨hs.1, hs.2.1, fun j p hp => ?_⟩
    rw [BMap.get?_insert] at hp
    split at hp
    · cases Option.some.inj hp
      obtain ⟨a, ha, he⟩ := hs.2.2
      rw [← he]
      exact (good_one (hsend (a.1, .one a.2) (List.mem_map.2 ⟨a, ha, rfl⟩))).2 _
    · obtain ⟨a, ha, -, m, hm, hr⟩ := gather_get hps hp
      obtain ⟨_, _, hr⟩ := Out.bind_eq_ok.1 hr
      obtain ⟨_, _, hr⟩ := Out.bind_eq_ok.1 hr
      obtain ⟨_, _, hr⟩ := Out.bind_eq_ok.1 hr
      split at hr
      · cases hr
      obtain ⟨_, _, hr⟩ := Out.bind_eq_ok.1 hr
      split at hr
      · cases hr
      rw [← Out.ok.inj hr]
      have := hgot a ha
      cases ha2 : a.2 with
      | one m' => rw [ha2] at hm this; cases hm; exact (good_one this).2 _
      | two _ => rw [ha2] at hm; cases hm
      | three _ => rw [ha2] at hm; cases hm
      | four _ => rw [ha2] at hm; cases hm
      | error _ => rw [ha2] at hm; cases hm
  | two r =>
    obtain ⟨ps, hps, h⟩ := Out.bind_eq_ok.1 h
    obtain ⟨r3, h3, h⟩ := Out.bind_eq_ok.1 h
    cases Out.ok.inj h
    obtain ⟨_, _, h3⟩ := Out.bind_eq_ok.1 (finalizeResult_eq_ok.1 h3)
    rw [← Out.ok.inj h3]
    exact ⟨hs.2.1, hs.2.2, _, rfl⟩
  | three r =>
    obtain ⟨ps, hps, h⟩ := Out.bind_eq_ok.1 h
    obtain ⟨a, _, h⟩ := Out.bind_eq_ok.1 h
    obtain ⟨s₂, h2, h⟩ := Out.bind_eq_ok.1 h
    cases Out.ok.inj h
    cases a with
    | round4 r4 => cases Out.ok.inj h2; trivial
    | error re =>
      obtain ⟨m, _, h2⟩ := Out.bind_eq_ok.1 h2
      cases Out.ok.inj h2
      exfalso
      have hr : (if re.hat then 6 else 5) ≤ 4 := hr
      split at hr <;> omega
  | four r =>
    obtain ⟨_, _, h⟩ := Out.bind_eq_ok.1 h
    obtain ⟨_, _, h⟩ := Out.bind_eq_ok.1 h
    cases Out.ok.inj h
  | error r m => exact hs.elim

theorem clean_own (hg : E.C.g ≠ 0) {s : State q I Ep G} (hs : Clean E s) (hsend : ∀ a ∈ (machine E).send s, signingNoIdentity a.2) : 0 ∉ ownPoints E.C.g s := by
  cases s with
  | one r out =>
    intro h
    rcases List.mem_append.1 h with h | h
    · exact hs.1 h
    · obtain ⟨a, ha, h⟩ := List.mem_flatMap.1 h
      exact (good_one (hsend (a.1, .one a.2) (List.mem_map.2 ⟨a, ha, rfl⟩))).1 h
  | two r =>
    obtain ⟨h1, h2, h3, h4⟩ := good_two (sent_all hs.2.1 (good := signingNoIdentity) hsend)
    intro h
    rcases List.mem_append.1 h with h | h
    · split at h
      · next p hp =>
        have := points_ne (hs.2.2 _ _ hp)
        exact elog_hashed h2 ⟨this.2.2.2.1, this.2.2.2.2, this.1, h1, hg⟩ h
      · cases h
    · obtain ⟨o, ho, h⟩ := List.mem_flatMap.1 h
      obtain ⟨j, hj⟩ := BMap.mem_values.1 ho
      rcases List.mem_append.1 h with h | h
      · exact affG_hashed (h3 o.1.psi (BMap.mem_values.2 ⟨j, by show (r.outs.mapVals _).get? j = _; rw [BMap.get?_mapVals, hj]; rfl⟩)) h1 h
      · exact at_hashed (h4 o.2.psi (BMap.mem_values.2 ⟨j, by show (r.outs.mapVals _).get? j = _; rw [BMap.get?_mapVals, hj]; rfl⟩)) hs.1 h
  | three r =>
    obtain ⟨h1, h2⟩ := good_three (sent_all hs.1 (good := signingNoIdentity) hsend)
    obtain ⟨k, hk⟩ := hs.2.2
    intro h
    unfold ownPoints at h
    dsimp only at h
    split at h
    · next p hp =>
      have := points_ne (hs.2.1 _ _ hp)
      exact elog_hashed h2 ⟨this.2.1, this.2.2.1, this.1, h1, fun h0 => h1 (by rw [hk, show r.capGammaCombined = 0 from h0, smul_zero])⟩ h
    · cases h
  | four r => exact List.not_mem_nil
  | error r m => exact hs.elim

theorem clean_read (hg : E.C.g ≠ 0) {s : State q I Ep G} (hs : Clean E s) (hsend : ∀ a ∈ (machine E).send s, signingNoIdentity a.2) {j : I} {m : Message q I G}
    (hm : signingNoIdentity m) : 0 ∉ readPoints E.C.g s j m := by
  cases s with
  | one r out => cases m <;> first | exact (good_one hm).1 | exact List.not_mem_nil
  | two r =>
    cases m with
    | two m =>
      obtain ⟨h1, h2, h3, h4⟩ := good_two hm
      intro h
      rcases List.mem_append.1 h with h | h
      · rcases List.mem_append.1 h with h | h
        · obtain ⟨psi, hp, h⟩ := List.mem_flatMap.1 h
          exact affG_hashed (h3 psi hp) h1 h
        · obtain ⟨psi, hp, h⟩ := List.mem_flatMap.1 h
          exact at_hashed (h4 psi hp) hs.1 h
      · split at h
        · next p hp =>
          have := points_ne (hs.2.2 _ _ hp)
          exact elog_hashed h2 ⟨this.2.2.2.1, this.2.2.2.2, this.1, h1, hg⟩ h
        · cases h
    | one _ => exact List.not_mem_nil
    | three _ => exact List.not_mem_nil
    | four _ => exact List.not_mem_nil
    | error _ => exact List.not_mem_nil
  | three r =>
    cases m with
    | three m =>
      obtain ⟨h1, -⟩ := good_three (sent_all hs.1 (good := signingNoIdentity) hsend)
      obtain ⟨k, hk⟩ := hs.2.2
      obtain ⟨h2, h3⟩ := good_three hm
      intro h
      unfold readPoints at h
      dsimp only at h
      split at h
      · next p hp =>
        have := points_ne (hs.2.1 _ _ hp)
        exact elog_hashed h3 ⟨this.2.1, this.2.2.1, this.1, h2, fun h0 => h1 (by rw [hk, show r.capGammaCombined = 0 from h0, smul_zero])⟩ h
      · cases h
    | one _ => exact List.not_mem_nil
    | two _ => exact List.not_mem_nil
    | four _ => exact List.not_mem_nil
    | error _ => exact List.not_mem_nil
  | four r => cases m <;> exact List.not_mem_nil
  | error r m => exact hs.elim

end Signing

end Synedrion
