import Verif.Lemmas.WireCourse
import Verif.Lemmas.NetworkWith
import Verif.Spec.WireFinish
import Verif.Spec.Resharing
import Verif.Lemmas.NetworkScriptSigning
import Verif.Lemmas.MachinesHistory

/-!
# Lemmas: who finishes over serialized messages
-/

set_option linter.unusedSectionVars false

namespace Synedrion

open Spec

section Generic

variable {I M S E R : Type} [LinearOrder I] {P : Spec.Machine I M S E R} {T : Transport I M} {panics : Panics I M S} {honest : Set I} {init : I → S}

/-- A party that is at the beginning of a round and finishes later goes on from there. -/
theorem replay_goes_on {s t : S} {l l' : List (List (I × M))} {r : R} (h : P.replay s l = .ok (.inl t)) (hf : P.replay s (l ++ l') = .ok (.inr r)) :
    ∃ got x, P.next t got = .ok x := by
  induction l generalizing s with
  | nil =>
    cases Out.ok.inj h
    cases l' with
    | nil => cases Out.ok.inj hf
    | cons got rest =>
      obtain ⟨x, hx, -⟩ := Out.bind_eq_ok.1 hf
      exact ⟨got, x, hx⟩
  | cons got rest ih =>
    obtain ⟨x, hx, h⟩ := Out.bind_eq_ok.1 h
    obtain ⟨y, hy, hf⟩ := Out.bind_eq_ok.1 hf
    rw [hx] at hy
    cases Out.ok.inj hy
    cases x with
    | inl s' => exact ih h hf
    | inr r' =>
      cases rest with
      | nil => cases Out.ok.inj h
      | cons _ _ => cases h

/-- Whoever finishes could serialize whatever it had to send. -/
theorem packable_of_finished {n : Net I (Packet I) S (WireErr E) R} (h : (overWire P T panics).Reachable honest init n) {i : I} {r : R} (hf : n.status i = .finished r) {s : S}
    (hs : s ∈ n.begun i) : T.packable (P.send s) = true := by
  obtain ⟨l, ⟨l', hl⟩, hrep⟩ := (h.inv i).begun s hs
  have hst := (h.inv i).status
  rw [hf] at hst
  have hst : (overWire P T panics).replay (init i) ((n.past i).map Prod.snd) = .ok (.inr r) := hst
  rw [← hl] at hst
  obtain ⟨got, x, hx⟩ := replay_goes_on hrep hst
  exact (overWire_next_eq_ok hx).1

/-- The states of a party over serialized messages -/
theorem overWire_inv {ok : M → Prop} {inv : S → Prop} (hF : Faithful P T ok inv) {s s' : S} (hs : inv s) {l : List (List (I × Packet I))}
    (h : (overWire P T panics).replay s l = .ok (.inl s')) : inv s' := by
  induction l generalizing s with
  | nil => cases Out.ok.inj h; exact hs
  | cons got rest ih =>
    obtain ⟨y, hy, h⟩ := Out.bind_eq_ok.1 h
    obtain ⟨-, got', hr, hn, -⟩ := overWire_next_eq_ok hy
    cases y with
    | inl s₂ => exact ih (hF.next s got' s₂ hs (fun a ha => by obtain ⟨_, _, _, h⟩ := hr.of_mem ha; exact hF.read _ _ _ h) hn) h
    | inr r =>
      cases rest with
      | nil => cases Out.ok.inj h
      | cons _ _ => cases h

theorem isOk_iff {ε α : Type} {x : Out ε α} : x.isOk = true ↔ ∃ a, x = .ok a := by cases x <;> simp [Out.isOk]

variable {ok : M → Prop} {inv : S → Prop} {parties : Finset I} {K : Nat} {ideal : Nat → I → S} {res : I → R} {good : M → Prop}

theorem OnTrack.begun_of_finished {n : Net I M S E R} {i : I} {r : R} (h : Spec.Machine.OnTrack P parties K ideal res n i) (hf : n.status i = .finished r) :
    n.begun i = Spec.Machine.firstStates ideal i K := by
  cases h with
  | running k got _ _ h => rw [hf] at h; cases h
  | finished _ h => exact h
  | crashed k _ _ h => rw [hf] at h; cases h

/-- Whoever has to send something that cannot be serialized does not finish. -/
theorem overWire_stuck (hF : Faithful P T ok inv) (hsend : ∀ s, inv s → ∀ a ∈ P.send s, ok a.2) (hgood : ∀ m, ok m → ((∃ d, T.pack m = .ok d) ↔ good m))
    {n : Net I (Packet I) S (WireErr E) R} (h : (overWire P T panics).Reachable honest init n) {i : I} (hinit : inv (init i)) {s : S} (hs : s ∈ n.begun i) {a : I × M} (ha : a ∈ P.send s)
    (hbad : ¬ good a.2) (r : R) : n.status i ≠ .finished r := by
  intro hf
  obtain ⟨l, -, hrep⟩ := (h.inv i).begun s hs
  exact hbad ((hgood a.2 (hsend s (overWire_inv hF hinit hrep) a ha)).1 (isOk_iff.1 (List.all_eq_true.1 (packable_of_finished h hf hs) a ha)))

/-- If parties that follow the protocol finish over serialized messages then everything that they send can be serialized. -/
theorem overWire_sendsOnly (hF : Faithful P T ok inv) (hinit : ∀ i ∈ parties, inv (init i)) (hsend : ∀ s, inv s → ∀ a ∈ P.send s, ok a.2)
    (hI : P.Ideal parties init K ideal res) (hgood : ∀ m, ok m → ((∃ d, T.pack m = .ok d) ↔ good m)) {N : Nat} {res' : I → R}
    (h : (overWire P T panics).AlwaysFinishes parties init N res') : P.SendsOnly parties init good := by
  have hinv := ideal_inv (inv := fun _ s => inv s) (ok := ok) hI hinit (fun _ s hs a ha => hsend s hs a ha) fun _ s got s' => hF.next s got s'
  obtain ⟨n, hn, hf⟩ := h.exists_finished
  obtain ⟨n', hn', hs⟩ := overWire_refines hF (fun i hi => hinit i hi) hn
  have hpk : ∀ k i, 1 ≤ k → k ≤ K → i ∈ parties → T.packable (P.send (ideal k i)) = true := fun k i h1 h2 hi => by
    refine packable_of_finished hn (hf i hi) ?_
    rw [← hs.begun, OnTrack.begun_of_finished (hn'.reachable.onTrack hI i hi) (SameCourse.finished hs (hf i hi))]
    exact Spec.Machine.mem_firstStates.2 ⟨k, h1, h2, rfl⟩
  intro n₂ hn₂ i hi j k m hm
  obtain ⟨s, hb, -, hm⟩ := hm
  obtain ⟨k₂, h1, h2, hbeg⟩ := (hn₂.onTrack hI i hi).begun hI.rounds
  rw [hbeg] at hb
  obtain ⟨a, ha1, ha2, rfl⟩ := Spec.Machine.mem_firstStates.1 hb
  exact (hgood m (hsend _ (hinv a i ha1 (ha2.trans h2) hi) _ hm)).1 (isOk_iff.1 (List.all_eq_true.1 (hpk a i ha1 (ha2.trans h2) hi) _ hm))

/-- Parties that follow the protocol finish over serialized messages if and only if everything that they send can be serialized. -/
theorem overWire_finishes_iff (hF : Faithful P T ok inv) (hinit : ∀ i ∈ parties, inv (init i)) (hsend : ∀ s, inv s → ∀ a ∈ P.send s, ok a.2)
    (hI : P.Ideal parties init K ideal res) (hgood : ∀ m, ok m → ((∃ d, T.pack m = .ok d) ↔ good m)) (hpan : PanicsOnly P panics fun m => ¬ good m) :
    (overWire P T panics).AlwaysFinishes parties init (parties.card * (K * (parties.card + 1))) res ↔ P.SendsOnly parties init good := by
  have hinv := ideal_inv (inv := fun _ s => inv s) (ok := ok) hI hinit (fun _ s hs a ha => hsend s hs a ha) fun _ s got s' => hF.next s got s'
  refine ⟨overWire_sendsOnly hF hinit hsend hI hgood, ?_⟩
  · intro h
    obtain ⟨n, hn, hf⟩ := hI.alwaysFinishes.exists_finished
    have hg : ∀ k i, 1 ≤ k → k ≤ K → i ∈ parties → ∀ a ∈ P.send (ideal k i), good a.2 := fun k i h1 h2 hi a ha => by
      refine h n hn i hi a.1 k a.2 ⟨ideal k i, ?_, hI.round k i h1 h2 hi, ha⟩
      rw [OnTrack.begun_of_finished (hn.onTrack hI i hi) (hf i hi)]
      exact Spec.Machine.mem_firstStates.2 ⟨k, h1, h2, rfl⟩
    refine (overWire_ideal hI hpan (fun k i h1 h2 hi a ha => ?_) fun k i h1 h2 hi a ha hb => hb (hg k i h1 h2 hi a ha)).alwaysFinishes
    obtain ⟨d, hd⟩ := (hgood a.2 (hsend _ (hinv k i h1 h2 hi) a ha)).2 (hg k i h1 h2 hi a ha)
    refine ⟨d, hd, ?_⟩
    rw [← hI.round k i h1 h2 hi]
    exact hF.trip _ (hinv k i h1 h2 hi) a ha d hd

end Generic

/-! ### What can be serialized -/

variable {I G V : Type} [LinearOrder I] [AddCommGroup G] {q : Nat} {W : WireFormat G V}

theorem WireCodec.Lawful.enc_ok {ε α : Type} {c : WireCodec ε I α} {fits : α → Prop} {pts : α → List G} (h : c.Lawful fits pts) {x : α} (hx : fits x) :
    (∃ d, c.enc x = .ok d) ↔ 0 ∉ pts x := by
  constructor
  · rintro ⟨d, hd⟩ h0
    rw [h.panic x hx h0] at hd
    cases hd
  · intro h0
    obtain ⟨d, hd, -⟩ := h.ok x hx h0
    exact ⟨d, hd⟩

theorem pack_one {α : Type} {x : Out Unit α} {f : α → Packet I} : (∃ d, (Out.bind x fun e => .ok (f e)) = .ok d) ↔ ∃ e, x = .ok e := by
  cases x <;> simp [Out.bind]

theorem pack_two {α β : Type} {x : Out Unit α} {y : Out Unit β} {f : α → β → Packet I} :
    (∃ d, (Out.bind x fun e => Out.bind y fun n => .ok (f e n)) = .ok d) ↔ (∃ e, x = .ok e) ∧ ∃ n, y = .ok n := by
  cases x <;> cases y <;> simp [Out.bind]

theorem pack_three {α β γ : Type} {x : Out Unit α} {y : Out Unit β} {z : Out Unit γ} {f : α → β → γ → Packet I} :
    (∃ d, (Out.bind x fun e => Out.bind y fun n => Out.bind z fun d => .ok (f e n d)) = .ok d) ↔ (∃ e, x = .ok e) ∧ (∃ n, y = .ok n) ∧ ∃ d, z = .ok d := by
  cases x <;> cases y <;> cases z <;> simp [Out.bind]

namespace Spec.FormatValid

theorem keyInit_packs (hW : FormatValid W q) (m : KeyInit.Message (ZMod q) G V) (hm : keyInitMessageFits m) :
    (∃ d : Packet I, (W.keyInitTransport (q := q)).pack m = .ok d) ↔ keyInitNoIdentity m := by
  cases m with
  | one v =>
    refine Iff.trans (pack_one (x := (W.keyInit (q := q) .echo 1).enc v) (f := fun e => ⟨some e, none, none⟩)) ?_
    refine ⟨fun _ r p x hx => ?_, fun h => ((hW.keyInit_lawful (I := I) .echo 1).enc_ok trivial).2 (h 1 .echo _ rfl)⟩
    rcases p <;> rcases r with _ | _ | _ | _ | r <;> first | (cases hx; done) | exact List.not_mem_nil
  | two m =>
    refine Iff.trans (pack_two (x := (W.keyInit (q := q) .echo 2).enc m.rho) (y := (W.keyInit (q := q) .normal 2).enc ⟨m.capX, m.capA, m.u⟩) (f := fun e n => ⟨some e, some n, none⟩)) ?_
    refine ⟨fun h r p x hx => ?_, fun h => ⟨((hW.keyInit_lawful (I := I) .echo 2).enc_ok (hm 2 .echo _ rfl)).2 (h 2 .echo _ rfl),
      ((hW.keyInit_lawful (I := I) .normal 2).enc_ok (hm 2 .normal _ rfl)).2 (h 2 .normal _ rfl)⟩⟩
    rcases p <;> rcases r with _ | _ | _ | _ | r <;> first | (cases hx; done) | skip
    · exact List.not_mem_nil
    · cases Option.some.inj hx
      exact ((hW.keyInit_lawful (I := I) .normal 2).enc_ok (hm 2 .normal _ rfl)).1 h.2
  | three m =>
    refine Iff.trans (pack_one (x := (W.keyInit (q := q) .normal 3).enc m) (f := fun n => ⟨none, some n, none⟩)) ?_
    refine ⟨fun _ r p x hx => ?_, fun h => ((hW.keyInit_lawful (I := I) .normal 3).enc_ok trivial).2 (h 3 .normal _ rfl)⟩
    rcases p <;> rcases r with _ | _ | _ | _ | r <;> first | (cases hx; done) | exact List.not_mem_nil

theorem keyRefresh_packs (hW : FormatValid W q) (m : KeyRefresh.Message I (ZMod q) G V) (hm : keyRefreshMessageFits W.P m) :
    (∃ d, (W.keyRefreshTransport (q := q)).pack m = .ok d) ↔ keyRefreshNoIdentity m := by
  cases m with
  | one v =>
    refine Iff.trans (pack_one (x := (W.keyRefresh (I := I) (q := q) .echo 1).enc v) (f := fun e => ⟨some e, none, none⟩)) ?_
    refine ⟨fun _ r p x hx => ?_, fun h => ((hW.keyRefresh_lawful (I := I) .echo 1).enc_ok trivial).2 (h 1 .echo _ rfl)⟩
    rcases p <;> rcases r with _ | _ | _ | _ | r <;> first | (cases hx; done) | exact List.not_mem_nil
  | two m =>
    refine Iff.trans pack_two ?_
    refine ⟨fun h r p x hx => ?_, fun h => ⟨((hW.keyRefresh_lawful (I := I) .echo 2).enc_ok (hm 2 .echo _ rfl)).2 (h 2 .echo _ rfl),
      ((hW.keyRefresh_lawful (I := I) .normal 2).enc_ok (hm 2 .normal _ rfl)).2 (h 2 .normal _ rfl)⟩⟩
    rcases p <;> rcases r with _ | _ | _ | _ | r <;> first | (cases hx; done) | skip
    · cases Option.some.inj hx
      exact ((hW.keyRefresh_lawful (I := I) .echo 2).enc_ok (hm 2 .echo _ rfl)).1 h.1
    · cases Option.some.inj hx
      exact ((hW.keyRefresh_lawful (I := I) .normal 2).enc_ok (hm 2 .normal _ rfl)).1 h.2
  | three m =>
    refine Iff.trans pack_three ?_
    refine ⟨fun _ r p x hx => ?_, fun h => ⟨((hW.keyRefresh_lawful (I := I) .echo 3).enc_ok (hm 3 .echo _ rfl)).2 (h 3 .echo _ rfl),
      ((hW.keyRefresh_lawful (I := I) .normal 3).enc_ok (hm 3 .normal _ rfl)).2 (h 3 .normal _ rfl),
      ((hW.keyRefresh_lawful (I := I) .direct 3).enc_ok (hm 3 .direct _ rfl)).2 (h 3 .direct _ rfl)⟩⟩
    rcases p <;> rcases r with _ | _ | _ | _ | r <;> first | (cases hx; done) | exact List.not_mem_nil

theorem resharing_packs (hW : FormatValid W q) (m : KeyResharing.Msg (ZMod q) G) : (∃ d : Packet I, W.resharingTransport.pack m = .ok d) ↔ resharingNoIdentity m := by
  refine pack_two.trans ⟨fun h => (hW.resharingBroadcast_lawful.enc_ok trivial).1 h.1, fun h => ⟨(hW.resharingBroadcast_lawful.enc_ok trivial).2 h,
    (hW.resharingDirect_lawful.enc_ok trivial).2 List.not_mem_nil⟩⟩

theorem signing_packs (hW : FormatValid W q) (m : Signing.Message q I G) (hm : signingMessageFits W.P m) : (∃ d, W.signingTransport.pack m = .ok d) ↔ signingNoIdentity m := by
  cases m with
  | one m =>
    refine Iff.trans pack_two ?_
    refine ⟨fun h r p x hx => ?_, fun h => ⟨((hW.signing_lawful (I := I) .echo 1).enc_ok (hm 1 .echo _ rfl)).2 (h 1 .echo _ rfl),
      ((hW.signing_lawful (I := I) .direct 1).enc_ok (hm 1 .direct _ rfl)).2 (h 1 .direct _ rfl)⟩⟩
    rcases p <;> rcases r with _ | _ | _ | _ | _ | _ | _ | r <;> first | (cases hx; done) | skip
    · cases Option.some.inj hx
      exact ((hW.signing_lawful (I := I) .echo 1).enc_ok (hm 1 .echo _ rfl)).1 h.1
    · cases Option.some.inj hx
      exact ((hW.signing_lawful (I := I) .direct 1).enc_ok (hm 1 .direct _ rfl)).1 h.2
  | two m =>
    refine Iff.trans pack_two ?_
    refine ⟨fun h r p x hx => ?_, fun h => ⟨((hW.signing_lawful (I := I) .echo 2).enc_ok (hm 2 .echo _ rfl)).2 (h 2 .echo _ rfl),
      ((hW.signing_lawful (I := I) .normal 2).enc_ok (hm 2 .normal _ rfl)).2 (h 2 .normal _ rfl)⟩⟩
    rcases p <;> rcases r with _ | _ | _ | _ | _ | _ | _ | r <;> first | (cases hx; done) | skip
    · cases Option.some.inj hx
      exact ((hW.signing_lawful (I := I) .echo 2).enc_ok (hm 2 .echo _ rfl)).1 h.1
    · cases Option.some.inj hx
      exact ((hW.signing_lawful (I := I) .normal 2).enc_ok (hm 2 .normal _ rfl)).1 h.2
  | three m =>
    refine Iff.trans (pack_two (x := (W.signing (I := I) .echo 3).enc m.delta) (y := (W.signing (I := I) .normal 3).enc ⟨m.capDelta, m.psiPrime, m.capS⟩) (f := fun e n => ⟨some e, some n, none⟩)) ?_
    refine ⟨fun h r p x hx => ?_, fun h => ⟨((hW.signing_lawful (I := I) .echo 3).enc_ok (hm 3 .echo _ rfl)).2 (h 3 .echo _ rfl),
      ((hW.signing_lawful (I := I) .normal 3).enc_ok (hm 3 .normal _ rfl)).2 (h 3 .normal _ rfl)⟩⟩
    rcases p <;> rcases r with _ | _ | _ | _ | _ | _ | _ | r <;> first | (cases hx; done) | skip
    · exact List.not_mem_nil
    · cases Option.some.inj hx
      exact ((hW.signing_lawful (I := I) .normal 3).enc_ok (hm 3 .normal _ rfl)).1 h.2
  | four m =>
    refine Iff.trans (pack_one (x := (W.signing (I := I) .normal 4).enc m) (f := fun n => ⟨none, some n, none⟩)) ?_
    refine ⟨fun _ r p x hx => ?_, fun h => ((hW.signing_lawful (I := I) .normal 4).enc_ok trivial).2 (h 4 .normal _ rfl)⟩
    rcases p <;> rcases r with _ | _ | _ | _ | _ | _ | _ | r <;> first | (cases hx; done) | exact List.not_mem_nil
  | error m =>
    refine Iff.trans pack_one ?_
    refine ⟨fun h r p x hx => ?_, fun h => ((hW.signing_lawful (I := I) .echo 5).enc_ok (hm 5 .echo _ rfl)).2 (h 5 .echo _ rfl)⟩
    rcases p <;> rcases r with _ | _ | _ | _ | _ | _ | _ | r <;> first | (cases hx; done) | skip
    all_goals
      cases Option.some.inj hx
      exact ((hW.signing_lawful (I := I) .echo 5).enc_ok (hm 5 .echo _ rfl)).1 h

end Spec.FormatValid
/-! ### Resharing sends an identity point exactly if a share is zero -/

namespace KeyResharing

section

variable {F : Type} [Field F] [LinearOrder F] [Module F G] [DecidableEq G]

theorem mem_sendAll {r : Round1 I F G} {out : List (I × Msg F G)} (h : sendAll r = .ok out) {j : I} (hj : j ∈ r.messageDestinations) {oh : OldData F G} (ho : r.oldHolder = some oh) :
    ∃ m, (j, m) ∈ out ∧ m.publicPolynomial = oh.publicPolynomial := by
  unfold sendAll at h
  obtain ⟨l, hl, h⟩ := Out.bind_eq_ok.1 h
  obtain ⟨x, hx, hjx⟩ := Signing.forall₂_mem (Out.mapM'_eq_ok_iff.1 hl) (mem_bsetIter.2 hj)
  obtain ⟨m, hm, hx'⟩ := Out.bind_eq_ok.1 hjx
  have hm := finalizeResult_eq_ok.1 hm
  unfold msg at hm
  rw [ho] at hm
  obtain ⟨_, _, hm⟩ := Out.bind_eq_ok.1 hm
  obtain ⟨sub, _, hm⟩ := Out.bind_eq_ok.1 hm
  cases Out.ok.inj hm
  cases Out.ok.inj h
  exact ⟨_, List.mem_filterMap.2 ⟨x, hx, (Out.ok.inj hx').symm⟩, rfl⟩

theorem replay_state {g : G} {s s' : State I F G} {l : List (List (I × Msg F G))} (h : (machine g).replay s l = .ok (.inl s')) : s' = s := by
  cases l with
  | nil => cases Out.ok.inj h; rfl
  | cons got rest =>
    obtain ⟨x, hx, h⟩ := Out.bind_eq_ok.1 h
    obtain ⟨_, _, hx⟩ := Out.bind_eq_ok.1 hx
    obtain ⟨_, _, hx⟩ := Out.bind_eq_ok.1 hx
    cases Out.ok.inj hx
    cases rest with
    | nil => cases Out.ok.inj h
    | cons _ _ => cases h

end

variable [Fact q.Prime] [LinearOrder (ZMod q)] [Module (ZMod q) G] [DecidableEq G]

theorem sendsOnly_iff {g : G} (hg : g ≠ 0) {S N : Finset I} {n oldThreshold : Nat} {shares : I → ThresholdKeyShare I (ZMod q) G} {vk : G} {draw : I → Nat → ZMod q}
    (hdraw : ∀ i ∈ S, ∀ k, draw i k ≠ 0) (hN : 2 ≤ N.card) {r : I → Round1 I (ZMod q) G} {init : I → State I (ZMod q) G}
    (hr : ∀ i ∈ S ∪ N, start g (HonestInputs S N shares vk oldThreshold n i) i (draw i) = .ok (r i)) (h0 : ∀ i ∈ S ∪ N, begin (r i) = .ok (init i)) :
    (machine g).SendsOnly (S ∪ N) init resharingNoIdentity ↔ ∀ i ∈ S, (shares i).secretShare ≠ 0 := by
  have hroot : ∀ i ∈ S ∪ N, (init i).r = r i ∧ sendAll (r i) = .ok (init i).out := fun i hi => by
    obtain ⟨out, ho, h⟩ := Out.bind_eq_ok.1 (h0 i hi)
    rw [← Out.ok.inj h]
    exact ⟨rfl, ho⟩
  have hold : ∀ i ∈ S, (r i).messageDestinations = N.erase i ∧ ∃ x, (r i).oldHolder = some ⟨x, Shamir.randomPolynomial (shares i).secretShare n (draw i),
      Shamir.publicPolynomial g (Shamir.randomPolynomial (shares i).secretShare n (draw i))⟩ := fun i hi => by
    have h := hr i (Finset.mem_union_left _ hi)
    unfold start HonestInputs at h
    rw [if_pos hi] at h
    generalize (if i ∈ N then some (⟨vk, oldThreshold, S⟩ : NewHolder I G) else none) = nh at h
    dsimp only at h
    split at h
    · cases h
    obtain ⟨oh, ho, h⟩ := Out.bind_eq_ok.1 h
    obtain ⟨x, _, ho⟩ := Out.bind_eq_ok.1 ho
    rw [← Out.ok.inj h, ← Out.ok.inj ho]
    exact ⟨rfl, x, rfl⟩
  constructor
  · intro h i hi hz
    obtain ⟨hd, x, hx⟩ := hold i hi
    obtain ⟨j, hj, hji⟩ := Finset.exists_mem_ne hN i
    obtain ⟨m, hm, hp⟩ := mem_sendAll (hroot i (Finset.mem_union_left _ hi)).2 (hd ▸ Finset.mem_erase.2 ⟨hji, hj⟩) hx
    refine h _ .refl i (Finset.mem_union_left _ hi) j 1 m ⟨init i, List.mem_singleton.2 rfl, rfl, hm⟩ ?_
    rw [hp, hz]
    exact List.mem_cons.2 (.inl (zero_smul _ _).symm)
  · intro h net hnet i hi j k m hm
    obtain ⟨s, hs, -, hm⟩ := hm
    obtain ⟨l, -, hrep⟩ := (hnet.inv i).begun s hs
    cases replay_state hrep
    have hmsg := sendAll_mem (hroot i hi).2 hm
    by_cases hiS : i ∈ S
    · obtain ⟨-, x, hx⟩ := hold i hiS
      unfold msg at hmsg
      rw [hx] at hmsg
      obtain ⟨_, _, hmsg⟩ := Out.bind_eq_ok.1 hmsg
      obtain ⟨_, _, hmsg⟩ := Out.bind_eq_ok.1 hmsg
      have hmsg : _ = m := Option.some.inj (Out.ok.inj hmsg)
      rw [← hmsg]
      intro h0
      obtain ⟨c, hc, hc0⟩ := List.mem_map.1 h0
      rcases List.mem_cons.1 hc with rfl | hc
      · exact smul_ne_zero (h i hiS) hg hc0
      · obtain ⟨k, _, rfl⟩ := List.mem_map.1 hc
        exact smul_ne_zero (hdraw i hiS k) hg hc0
    · exfalso
      have h := hr i hi
      unfold start HonestInputs at h
      rw [if_neg hiS] at h
      generalize (if i ∈ N then some (⟨vk, oldThreshold, S⟩ : NewHolder I G) else none) = nh at h
      dsimp only at h
      split at h
      · cases h
      obtain ⟨oh, ho, h⟩ := Out.bind_eq_ok.1 h
      cases Out.ok.inj ho
      rw [← Out.ok.inj h] at hmsg
      cases Out.ok.inj hmsg

end KeyResharing

end Synedrion
