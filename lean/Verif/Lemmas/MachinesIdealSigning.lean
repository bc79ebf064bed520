import Verif.Lemmas.MachinesIdeal
import Verif.Props.KeyResharing
import Verif.Props.SigningHonest

/-!
# Key resharing and signing work as intended if all parties follow them
-/

set_option linter.unusedSectionVars false

namespace Synedrion

open Spec

namespace KeyResharing

variable {I F G : Type} [LinearOrder I] [Field F] [LinearOrder F] [AddCommGroup G] [Module F G] [DecidableEq G]

theorem sendAll_ok {r : Round1 I F G} {m : I → Msg F G} (h : ∀ i ∈ r.messageDestinations, msg r i = .ok (some (m i))) :
    sendAll r = .ok ((bsetIter r.messageDestinations).map fun i => (i, m i)) := by
  unfold sendAll
  rw [Out.mapM'_ok_of_forall (g := fun i => some (i, m i)) (l := bsetIter r.messageDestinations) (fun i hi => by
    rw [h i (mem_bsetIter.1 hi)]; rfl), Out.bind_ok]
  refine congrArg Out.ok ?_
  rw [List.filterMap_map]
  exact List.filterMap_eq_map (f := fun i => (i, m i)) ▸ rfl

theorem start_peers {g : G} {inp : Inputs I F G} {id : I} {draw : Nat → F} {r : Round1 I F G} (h : start g inp id draw = .ok r) :
    r.messageDestinations = (if inp.oldHolder.isSome then inp.newHolders.erase id else ∅) ∧
      r.expectingMessagesFrom = (match inp.newHolder with
        | some nh => nh.oldHolders.erase id
        | none => ∅) := by
  unfold start at h
  split at h
  · cases h
  · simp only [Out.bind_eq_ok] at h
    obtain ⟨_, _, h⟩ := h
    rw [← Out.ok.inj h]
    exact ⟨rfl, rfl⟩

theorem ideal (q : Nat) [CharP F q] (g : G) (ids S N : Finset I) (t n : Nat) (shares : I → ThresholdKeyShare I F G) (sk : F)
    (hold : ThresholdSharing g ids t shares sk) (hS : S ⊆ ids) (ht : t ≤ S.card) (hn : 2 ≤ n) (hnN : n ≤ N.card) (hN : N.card < q)
    (oldThreshold : Nat) (draw : I → Nat → F) (r : I → Round1 I F G)
    (hr : ∀ i ∈ S ∪ N, start g (HonestInputs S N shares (sk • g) oldThreshold n i) i (draw i) = .ok (r i)) :
    ∃ (init : I → State I F G) (res : I → Option (ThresholdKeyShare I F G)) (new : I → ThresholdKeyShare I F G),
      (∀ i ∈ S ∪ N, begin (r i) = .ok (init i)) ∧ (machine g).Ideal (S ∪ N) init 1 (fun _ => init) res ∧
      (∀ i ∈ S, i ∉ N → res i = none) ∧ (∀ i ∈ N, res i = some (new i)) ∧ ThresholdSharing g N n new sk := by
  obtain ⟨r', hr', m, hm, hnone, hrun⟩ := Props.C39_honest_resharing q g ids S N t n shares sk hold hS ht hn hnN hN oldThreshold draw
  have hrr : ∀ i ∈ S ∪ N, r' i = r i := fun i hi => Out.ok.inj ((hr' i hi).symm.trans (hr i hi))
  obtain ⟨new, hnew, hkey⟩ := hrun (inOrder S m) fun i _ => inOrder_fromOthers S m i
  have hdest : ∀ i ∈ S ∪ N, (r i).messageDestinations = if i ∈ S then N.erase i else ∅ := by
    intro i hi
    rw [(start_peers (hr i hi)).1]
    by_cases h : i ∈ S <;> simp [h, HonestInputs]
  have hexpect : ∀ i ∈ S ∪ N, (r i).expectingMessagesFrom = if i ∈ N then S.erase i else ∅ := by
    intro i hi
    rw [(start_peers (hr i hi)).2]
    by_cases h : i ∈ N <;> simp [h, HonestInputs]
  have hsend : ∀ i ∈ S ∪ N, sendAll (r i) = .ok ((bsetIter (if i ∈ S then N.erase i else ∅)).map fun j => (j, m i j)) := by
    intro i hi
    rw [← hdest i hi]
    refine sendAll_ok fun j hj => ?_
    rw [hdest i hi] at hj
    by_cases his : i ∈ S
    · rw [if_pos his, Finset.mem_erase] at hj
      rw [← hrr i hi]
      exact (hm i his).2 j hj.2
    · rw [if_neg his] at hj
      simp at hj
  let init : I → State I F G := fun i => ⟨r i, (bsetIter (if i ∈ S then N.erase i else ∅)).map fun j => (j, m i j)⟩
  let res : I → Option (ThresholdKeyShare I F G) := fun i => if i ∈ N then some (new i) else none
  refine ⟨init, res, new, fun i hi => ?_, Machine.Ideal.of_canonical (machine_regular g) le_rfl (fun i _ => rfl) ?_ ?_ (fun _ j i => m j i) ?_ ?_ ?_,
    fun i _ hi => if_neg hi, fun i hi => if_pos hi, hkey⟩
  · unfold begin
    rw [hsend i hi]
    rfl
  · intro k i h1 h2 _
    show 1 = k
    omega
  · intro k i _ _ hi
    show (r i).expectingMessagesFrom ⊆ _
    rw [hexpect i hi]
    split
    · exact (Finset.erase_subset _ _).trans Finset.subset_union_left
    · exact Finset.empty_subset _
  · intro k i _ _ hi j hj x
    change j ∈ (r i).expectingMessagesFrom at hj
    rw [hexpect i hi] at hj
    split at hj
    · rename_i hiN
      rw [Finset.mem_erase] at hj
      show (i, x) ∈ (bsetIter (if j ∈ S then N.erase j else ∅)).map (fun i => (i, m j i)) ↔ _
      rw [if_pos hj.2, List.mem_map]
      constructor
      · rintro ⟨i', _, h⟩
        cases h
        rfl
      · rintro rfl
        exact ⟨i, mem_bsetIter.2 (Finset.mem_erase.2 ⟨fun h => hj.1 h.symm, hiN⟩), rfl⟩
    · simp at hj
  · intro k i h1 h2
    omega
  · intro i hi
    show (gather (r i).expectingMessagesFrom some (recv g (r i)) ((bsetIter (r i).expectingMessagesFrom).map fun j => (j, m j i))).bind _ = _
    have e : ((bsetIter (r i).expectingMessagesFrom).map fun j => (j, m j i)) =
        ((bsetIter (r i).expectingMessagesFrom).map fun j => (j, m j i)).map fun a => (a.1, id a.2) := by
      rw [List.map_map]; rfl
    rw [e, gather_map (part := some) (inj := id) (fun _ => rfl)]
    by_cases hiN : i ∈ N
    · have hx : (r i).expectingMessagesFrom = S.erase i := by rw [hexpect i hi, if_pos hiN]
      have h := hnew i hiN
      rw [hrr i hi] at h
      unfold run inOrder at h
      rw [← hx, Out.bind_eq_ok] at h
      obtain ⟨p, hp, hf⟩ := h
      rw [hp, Out.bind_ok, hf]
      show Out.ok (Sum.inr (some (new i))) = Out.ok (Sum.inr (res i))
      rw [show res i = some (new i) from if_pos hiN]
    · have hiS : i ∈ S := (Finset.mem_union.1 hi).resolve_right hiN
      have hx : (r i).expectingMessagesFrom = ∅ := by rw [hexpect i hi, if_neg hiN]
      have h := hnone i hiS hiN
      rw [hrr i hi] at h
      unfold run at h
      rw [Out.bind_eq_ok] at h
      obtain ⟨p, hp, hf⟩ := h
      rw [hx] at hp ⊢
      rw [show ((bsetIter (∅ : Finset I)).map fun j => (j, m j i)) = [] from by rw [show bsetIter (∅ : Finset I) = [] from List.eq_nil_iff_forall_not_mem.2 fun x hx => by simpa using mem_bsetIter.1 hx]; rfl, hp, Out.bind_ok, hf]
      show Out.ok (Sum.inr none) = Out.ok (Sum.inr (res i))
      rw [show res i = none from if_neg hiN]

end KeyResharing

namespace Signing

variable {q : Nat} [Fact q.Prime] {I Ep G : Type} [LinearOrder I] [AddCommGroup G] [Module (ZMod q) G] [DecidableEq G]

theorem send1_ok {E : Env q I Ep G} {r : Round1 q I Ep G} {m : I → Msg1 q G} (h : ∀ j ∈ r.ctx.otherIds, msg1 E r j = .ok (m j)) :
    send1 E r = .ok ((bsetIter r.ctx.otherIds).map fun j => (j, m j)) := by
  unfold send1
  refine Out.mapM'_ok_of_forall (g := fun j => (j, m j)) fun j hj => ?_
  rw [h j (mem_bsetIter.1 hj)]
  rfl

/-- The intended execution of signing, with its states -/
theorem ideal_states (E : Env q I Ep G) (hE : SigningSetting E) (epidOf : BMap I G → BMap I PublicAux → Ep) (message sk : ZMod q)
    (ids : Finset I) (shares : I → KeyShare I (ZMod q) G) (hshares : SharesKey E.C.g ids shares sk)
    (infos : I → AuxInfo I PaillierKey PublicAux) (setup : I → RPSetup) (haux : UsableAux E.P ids infos setup)
    (d : I → Draws q I) (hd : SigningDrawsValid E.P ids (fun i => (infos i).secret.modulus) (fun i => (setup i).modulus) d)
    (r1 : I → Round1 q I Ep G) (hst : ∀ i ∈ ids, start E epidOf message (shares i) (infos i) i (d i) = .ok (r1 i))
    (hk : ∑ i ∈ ids, (d i).k ≠ 0) (hgamma : ∑ i ∈ ids, (d i).gamma ≠ 0) (hr : (E.C.x ((∑ i ∈ ids, (d i).gamma) • E.C.g) : ZMod q) ≠ 0)
    (hs : message + (E.C.x ((∑ i ∈ ids, (d i).gamma) • E.C.g) : ZMod q) * sk ≠ 0) (hkey : sk • E.C.g ≠ 0) :
    ∃ (init : I → State q I Ep G) (st : Nat → I → State q I Ep G) (sig : RecoverableSignature q),
      (∀ i ∈ ids, begin E (r1 i) = .ok (init i)) ∧ (machine E).Ideal ids init 4 st (fun _ => sig) ∧
      EcdsaValid E.C (sk • E.C.g) message sig.r sig.s ∧ LowS sig.s ∧ recover E.C message sig.r sig.s sig.recoveryId = some (sk • E.C.g) ∧
      sig.r = (E.C.x ((∑ i ∈ ids, (d i).gamma) • E.C.g) : ZMod q) ∧
      ∃ (m1 : I → I → Msg1 q G) (r2 : I → Round2 q I Ep G) (r3 : I → Round3 q I Ep G) (r4 : I → Round4 q I Ep G),
        (∀ i ∈ ids, ∀ j ∈ ids, i ≠ j → msg1 E (r1 i) j = .ok (m1 i j)) ∧ (∀ i ∈ ids, toRound2 E (r1 i) (inOrder ids m1 i) = .ok (r2 i)) ∧
        (∀ i ∈ ids, toRound3 E (r1 i) (inOrder ids m1 i) (inOrder ids (fun j _ => msg2 (r2 j)) i) = .ok (r3 i)) ∧
        ∀ i, st 1 i = .one (r1 i) ((bsetIter (ids.erase i)).map fun j => (j, m1 i j)) ∧ st 2 i = .two (r2 i) ∧ st 3 i = .three (r3 i) ∧ st 4 i = .four (r4 i) := by
  obtain ⟨sig, m1, r2, r3, v1, v2, v3, v4, hm1, hrun⟩ := Props.C41_honest_signature E hE epidOf message sk ids shares hshares infos setup haux d hd r1 hst hk hgamma hr hs hkey
  obtain ⟨h2, hrun⟩ := hrun (inOrder ids m1) fun i _ => inOrder_fromOthers ids m1 i
  obtain ⟨h3, hrun⟩ := hrun (inOrder ids fun j _ => msg2 (r2 j)) fun i _ => inOrder_fromOthers ids (fun j _ => msg2 (r2 j)) i
  obtain ⟨r4, h4, hrun⟩ := hrun (inOrder ids fun j _ => (r3 j).msg) fun i _ => inOrder_fromOthers ids (fun j _ => (r3 j).msg) i
  have h5 := hrun (inOrder ids fun j _ => (r4 j).sigma) (fun _ => []) fun i _ => inOrder_fromOthers ids (fun j _ => (r4 j).sigma) i
  have o1 : ∀ i ∈ ids, (r1 i).ctx.otherIds = ids.erase i := by
    intro i hi
    rw [(start_eq_ok (hst i hi)).2.2.2.2.2.2.1, hshares.holders i hi]
  have c2 : ∀ i ∈ ids, (r2 i).ctx = (r1 i).ctx := fun i hi => toRound2_ok (h2 i hi)
  have c3 : ∀ i ∈ ids, (r3 i).ctx = (r1 i).ctx := fun i hi => (toRound3_ok (h3 i hi)).1
  have c4 : ∀ i ∈ ids, (r4 i).ctx = (r1 i).ctx := by
    intro i hi
    obtain ⟨r, pl, hr, hctx, hown, hc, hf⟩ := toRound4_ok (h4 i hi)
    have hme : r.ctx.myId ∉ pl.keySet := by
      rw [(collect_eq_ok.1 hc).2.2.1, hctx, o1 i hi, (start_eq_ok (hst i hi)).2.2.2.1]; simp
    obtain ⟨_, _, _, _, _, hx, _⟩ := finalize3_round4 hown hme hf
    rw [hx, hctx]
  have hsend : ∀ i ∈ ids, send1 E (r1 i) = .ok ((bsetIter (ids.erase i)).map fun j => (j, m1 i j)) := by
    intro i hi
    rw [← o1 i hi]
    refine send1_ok fun j hj => ?_
    rw [o1 i hi, Finset.mem_erase] at hj
    exact hm1 i hi j hj.2 fun h => hj.1 h.symm
  let init : I → State q I Ep G := fun i => .one (r1 i) ((bsetIter (ids.erase i)).map fun j => (j, m1 i j))
  let st : Nat → I → State q I Ep G := fun k i => if k = 1 then init i else if k = 2 then .two (r2 i) else if k = 3 then .three (r3 i) else .four (r4 i)
  let msg : Nat → I → I → Message q I G := fun k j i => if k = 1 then .one (m1 j i) else if k = 2 then .two (msg2 (r2 j)) else if k = 3 then .three (r3 j).msg else .four (r4 j).sigma
  have hexp : ∀ k i, 1 ≤ k → k ≤ 4 → i ∈ ids → (machine E).expected (st k i) = ids.erase i := by
    intro k i g1 g2 hi
    obtain rfl | rfl | rfl | rfl : k = 1 ∨ k = 2 ∨ k = 3 ∨ k = 4 := by omega
    · exact o1 i hi
    · show (r2 i).ctx.otherIds = _
      rw [c2 i hi]; exact o1 i hi
    · show (r3 i).ctx.otherIds = _
      rw [c3 i hi]; exact o1 i hi
    · show (r4 i).ctx.otherIds = _
      rw [c4 i hi]; exact o1 i hi
  refine ⟨init, st, sig, fun i hi => ?_, Machine.Ideal.of_canonical (machine_regular E) (by omega) (fun i _ => rfl) ?_ ?_ msg ?_ ?_ ?_, v1, v2, v3, v4,
    m1, r2, r3, r4, hm1, h2, h3, fun i => ⟨rfl, rfl, rfl, rfl⟩⟩
  · unfold begin
    rw [hsend i hi]
    rfl
  · intro k i g1 g2 _
    obtain rfl | rfl | rfl | rfl : k = 1 ∨ k = 2 ∨ k = 3 ∨ k = 4 := by omega
    all_goals rfl
  · intro k i g1 g2 hi
    rw [hexp k i g1 g2 hi]; exact Finset.erase_subset _ _
  · intro k i g1 g2 hi j hj m
    rw [hexp k i g1 g2 hi, Finset.mem_erase] at hj
    have hij : i ∈ ids.erase j := Finset.mem_erase.2 ⟨fun h => hj.1 h.symm, hi⟩
    obtain rfl | rfl | rfl | rfl : k = 1 ∨ k = 2 ∨ k = 3 ∨ k = 4 := by omega
    · show (i, m) ∈ ((bsetIter (ids.erase j)).map fun i => (i, m1 j i)).map (fun a => (a.1, Message.one a.2)) ↔ m = .one (m1 j i)
      rw [List.map_map, List.mem_map]
      constructor
      · rintro ⟨i', hi', h⟩
        cases h
        rfl
      · rintro rfl
        exact ⟨i, mem_bsetIter.2 hij, rfl⟩
    · exact mem_toAll.trans (and_iff_right (by rw [c2 j hj.2, o1 j hj.2]; exact hij))
    · exact mem_toAll.trans (and_iff_right (by rw [c3 j hj.2, o1 j hj.2]; exact hij))
    · exact mem_toAll.trans (and_iff_right (by rw [c4 j hj.2, o1 j hj.2]; exact hij))
  · intro k i g1 g2 hi
    rw [hexp k i g1 g2.le hi]
    obtain rfl | rfl | rfl : k = 1 ∨ k = 2 ∨ k = 3 := by omega
    · have e := inOrder_map ids m1 i (Message.one : Msg1 q G → Message q I G)
      show (gather (r1 i).ctx.otherIds Message.one? (recv1 E (r1 i).ctx) ((bsetIter (ids.erase i)).map fun j => (j, Message.one (m1 j i)))).bind _ = _
      rw [e, gather_map (part := Message.one?) (inj := Message.one) (fun _ => rfl)]
      have h := h2 i hi
      unfold toRound2 at h
      rw [hsend i hi, Out.bind_ok, Out.bind_eq_ok] at h
      obtain ⟨pl, hpl, hf⟩ := h
      rw [hpl, Out.bind_ok, hf]
      rfl
    · have e := inOrder_map ids (fun j _ => msg2 (r2 j)) i (Message.two : Msg2 q I G → Message q I G)
      show (gather (r2 i).ctx.otherIds Message.two? (recv2 E (r2 i)) ((bsetIter (ids.erase i)).map fun j => (j, Message.two (msg2 (r2 j))))).bind _ = _
      rw [e, gather_map (part := Message.two?) (inj := Message.two) (fun _ => rfl)]
      have h := h3 i hi
      unfold toRound3 at h
      rw [h2 i hi, Out.bind_ok, Out.bind_eq_ok] at h
      obtain ⟨pl, hpl, hf⟩ := h
      rw [hpl, Out.bind_ok, hf]
      rfl
    · have e := inOrder_map ids (fun j _ => (r3 j).msg) i (Message.three : Msg3 q G → Message q I G)
      show (gather (r3 i).ctx.otherIds Message.three? (recv3 E (r3 i)) ((bsetIter (ids.erase i)).map fun j => (j, Message.three (r3 j).msg))).bind _ = _
      rw [e, gather_map (part := Message.three?) (inj := Message.three) (fun _ => rfl)]
      have h := h4 i hi
      unfold toRound4 at h
      rw [h3 i hi, Out.bind_ok, Out.bind_eq_ok] at h
      obtain ⟨pl, hpl, hf⟩ := h
      rw [hpl, Out.bind_ok, hf]
      rfl
  · intro i hi
    rw [hexp 4 i (by omega) le_rfl hi]
    have e := inOrder_map ids (fun j _ => (r4 j).sigma) i (Message.four : ZMod q → Message q I G)
    show (gather (r4 i).ctx.otherIds Message.four? (recv4 E (r4 i)) ((bsetIter (ids.erase i)).map fun j => (j, Message.four (r4 j).sigma))).bind _ = _
    rw [e, gather_map (part := Message.four?) (inj := Message.four) (fun _ => rfl)]
    have h := h5 i hi
    unfold run at h
    rw [h4 i hi, Out.bind_ok] at h
    unfold last at h
    simp only [Out.bind_eq_ok] at h
    obtain ⟨pl, hpl, hf⟩ := h
    rw [hpl, Out.bind_ok, hf]
    rfl

theorem ideal (E : Env q I Ep G) (hE : SigningSetting E) (epidOf : BMap I G → BMap I PublicAux → Ep) (message sk : ZMod q)
    (ids : Finset I) (shares : I → KeyShare I (ZMod q) G) (hshares : SharesKey E.C.g ids shares sk)
    (infos : I → AuxInfo I PaillierKey PublicAux) (setup : I → RPSetup) (haux : UsableAux E.P ids infos setup)
    (d : I → Draws q I) (hd : SigningDrawsValid E.P ids (fun i => (infos i).secret.modulus) (fun i => (setup i).modulus) d)
    (r1 : I → Round1 q I Ep G) (hst : ∀ i ∈ ids, start E epidOf message (shares i) (infos i) i (d i) = .ok (r1 i))
    (hk : ∑ i ∈ ids, (d i).k ≠ 0) (hgamma : ∑ i ∈ ids, (d i).gamma ≠ 0) (hr : (E.C.x ((∑ i ∈ ids, (d i).gamma) • E.C.g) : ZMod q) ≠ 0)
    (hs : message + (E.C.x ((∑ i ∈ ids, (d i).gamma) • E.C.g) : ZMod q) * sk ≠ 0) (hkey : sk • E.C.g ≠ 0) :
    ∃ (init : I → State q I Ep G) (st : Nat → I → State q I Ep G) (sig : RecoverableSignature q),
      (∀ i ∈ ids, begin E (r1 i) = .ok (init i)) ∧ (machine E).Ideal ids init 4 st (fun _ => sig) ∧
      EcdsaValid E.C (sk • E.C.g) message sig.r sig.s ∧ LowS sig.s ∧ recover E.C message sig.r sig.s sig.recoveryId = some (sk • E.C.g) ∧
      sig.r = (E.C.x ((∑ i ∈ ids, (d i).gamma) • E.C.g) : ZMod q) := by
  obtain ⟨init, st, sig, h0, h1, h2, h3, h4, h5, -⟩ := ideal_states E hE epidOf message sk ids shares hshares infos setup haux d hd r1 hst hk hgamma hr hs hkey
  exact ⟨init, st, sig, h0, h1, h2, h3, h4, h5⟩

end Signing

end Synedrion
