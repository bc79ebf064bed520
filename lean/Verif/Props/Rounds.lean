import Verif.Spec.Rounds
import Verif.Spec.Resharing
import Verif.Lemmas.Toy
import Verif.Lemmas.SigningHonest

/-!
# C64: messages and rounds are declared consistently
-/

set_option linter.unusedSectionVars false

namespace Synedrion.Props

open Rounds Spec

variable {Bytes : Type}

private theorem table {w : Wiring} (h : ∀ n ∈ w.roundIds, ∀ p ∈ [Part.direct, .echo, .normal], w.sends n p = w.expects n p ∧
    w.invalid n p = some (match w.expects n p with | some t => .isNot t | none => .isSome)) :
    ∀ n ∈ w.roundIds, ∀ p, w.sends n p = w.expects n p ∧ w.invalid n p = some (match w.expects n p with | some t => .isNot t | none => .isSome) :=
  fun n hn p => h n hn p (by cases p <;> simp)

/-- **C64 (message parts).** In all rounds of key generation, auxiliary info generation, key refresh and signing, and for every part of a message:
a part sent by a party that follows the protocol is accepted, and the check of evidence does not confirm a fault; and a part that the receiver rejects before looking at its contents,
because it cannot be decoded or should not be there, is exactly one for which the check confirms the fault. A part is accepted exactly if it is what the sender's side of the round
sends: bytes that decode as the declared type, or no part at all if the round sends none. -/
theorem C64_parts (w : Wiring) (hw : w ∈ [keyInit, auxGen, keyRefresh, signing]) (D : MsgType → Bytes → Bool) (n : Nat) (hn : n ∈ w.roundIds) (p : Part) :
    (∀ enc : MsgType → Bytes, (∀ t, D t (enc t) = true) → acceptsPart D w n p (sentPart enc w n p) = true ∧
      verifyIsInvalid D w n p (sentPart enc w n p) = .err .invalidEvidence) ∧
    (∀ part : Option Bytes, verifyIsInvalid D w n p part = .ok () ↔ acceptsPart D w n p part = false) ∧
    (∀ part : Option Bytes, acceptsPart D w n p part = true ↔ match w.sends n p with | some t => ∃ b, part = some b ∧ D t b = true | none => part = none) := by
  have hall : ∀ n ∈ w.roundIds, ∀ p, w.sends n p = w.expects n p ∧ w.invalid n p = some (match w.expects n p with | some t => .isNot t | none => .isSome) := by
    simp only [List.mem_cons, List.not_mem_nil, or_false] at hw
    rcases hw with rfl | rfl | rfl | rfl <;> exact table (by decide)
  obtain ⟨h1, h2⟩ := hall n hn p
  unfold acceptsPart verifyIsInvalid sentPart
  rw [h1, h2]
  cases he : w.expects n p with
  | none =>
    refine ⟨fun enc henc => ⟨rfl, rfl⟩, fun part => ?_, fun part => ?_⟩
    · cases part <;> simp
    · cases part <;> simp
  | some t =>
    refine ⟨fun enc henc => ⟨henc t, if_pos (henc t)⟩, fun part => ?_, fun part => ?_⟩
    · show (if decodes D t part then Out.err EvidenceErr.invalidEvidence else .ok ()) = .ok () ↔ decodes D t part = false
      cases decodes D t part <;> simp
    · cases part <;> simp [decodes]

/-- A part for another round is rejected as evidence. -/
theorem C64_parts_unknown_round (w : Wiring) (hw : w ∈ [keyInit, auxGen, keyRefresh, signing]) (D : MsgType → Bytes → Bool) (n : Nat) (hn : n ∉ w.roundIds) (p : Part)
    (part : Option Bytes) : verifyIsInvalid D w n p part = .err .invalidEvidence := by
  have h : w.invalid n p = some .badRound := by
    simp only [List.mem_cons, List.not_mem_nil, or_false] at hw
    rcases hw with rfl | rfl | rfl | rfl
    · have h1 : n ≠ 1 ∧ n ≠ 2 ∧ n ≠ 3 := by simpa [keyInit, Wiring.roundIds, TransitionInfo.newLinear, TransitionInfo.newLinearTerminating] using hn
      unfold keyInit; simp only; split <;> simp_all
    · have h1 : n ≠ 1 ∧ n ≠ 2 ∧ n ≠ 3 := by simpa [auxGen, Wiring.roundIds, TransitionInfo.newLinear, TransitionInfo.newLinearTerminating] using hn
      unfold auxGen; simp only; split <;> simp_all
    · have h1 : n ≠ 1 ∧ n ≠ 2 ∧ n ≠ 3 := by simpa [keyRefresh, Wiring.roundIds, TransitionInfo.newLinear, TransitionInfo.newLinearTerminating] using hn
      unfold keyRefresh; simp only; split <;> simp_all
    · have h1 : n ≠ 1 ∧ n ≠ 2 ∧ n ≠ 3 ∧ n ≠ 4 ∧ n ≠ 5 ∧ n ≠ 6 := by
        simpa [signing, Wiring.roundIds, TransitionInfo.newLinear, TransitionInfo.newLinearTerminating, TransitionInfo.withChildren, TransitionInfo.withSiblings] using hn
      unfold signing; simp only; split <;> simp_all
  unfold verifyIsInvalid
  rw [h]

/-- **C64 is false of resharing.** The parts an honest party sends are accepted, but evidence about a part that was rejected makes whoever checks it panic. -/
theorem C64_resharing_parts (D : MsgType → Bytes → Bool) (p : Part) :
    (∀ enc : MsgType → Bytes, (∀ t, D t (enc t) = true) → acceptsPart D keyResharing 1 p (sentPart enc keyResharing 1 p) = true) ∧
    (∀ n part, verifyIsInvalid D keyResharing n p part = .panic) := by
  refine ⟨fun enc henc => ?_, fun _ _ => rfl⟩
  cases p
  · exact henc _
  · exact henc _
  · rfl

/-- **C64 (round graph).** -/
theorem C64_round_graph (w : Wiring) (hw : w ∈ [keyInit, auxGen, keyRefresh, keyResharing, signing]) : RoundGraph w := by
  simp only [List.mem_cons, List.not_mem_nil, or_false] at hw
  rcases hw with rfl | rfl | rfl | rfl | rfl <;> exact ⟨by decide, by decide, by decide, by decide, by decide⟩

/-- **C64 is false of the siblings declared in signing.** Round 4 declares that other parties may at the same time be in the rounds 5 and 6. These do not declare it about round 4, nor about
each other, although parties can end up in different ones of them (C62). -/
theorem C64_siblings_not_mutual : ∃ a ∈ signing.transitions, ∃ b ∈ signing.transitions, b.id ∈ a.siblings ∧ a.id ∉ b.siblings := by decide

section
open Signing
variable {q : Nat} [Fact q.Prime] {I Ep G : Type} [LinearOrder I] [AddCommGroup G] [Module (ZMod q) G] [DecidableEq G]

/-- **C64 (transitions of signing).** Round 3 goes on to a declared child; each of them is reached only from round 3, and only round 4 leads to a result. -/
theorem C64_signing_transitions (E : Env q I Ep G) (r : Round3 q I Ep G) (payloads : BMap I (Payload3 q G)) (a : After3 q I Ep G) (h : Signing.finalize3 E r payloads = .ok a) :
    ∃ t3 ∈ signing.transitions, t3.id = 3 ∧ after3Id a ∈ t3.children ∧ ∃ t ∈ signing.transitions, t.id = after3Id a ∧ t.parents = {3} ∧ (t.mayProduceResult = true ↔ ∃ r4, a = .round4 r4) := by
  refine ⟨(TransitionInfo.newLinear 3).withChildren {5, 6}, by decide, rfl, ?_, ?_⟩
  · cases a with
    | round4 r => simp only [after3Id]; decide
    | error r => simp only [after3Id]; split <;> decide
  · cases a with
    | round4 r => exact ⟨(TransitionInfo.newLinearTerminating 4).withSiblings {5, 6}, by decide, rfl, by decide, by simp; rfl⟩
    | error r =>
      cases hh : r.hat
      · exact ⟨⟨5, {3}, ∅, ∅, false⟩, by decide, by simp [after3Id, hh], by decide, by simp⟩
      · exact ⟨⟨6, {3}, ∅, ∅, false⟩, by decide, by simp [after3Id, hh], by decide, by simp⟩

end

section
open KeyResharing
variable {I F G : Type} [LinearOrder I] [Field F] [LinearOrder F] [AddCommGroup G] [Module F G] [DecidableEq G]

/-- **C64 (who talks to whom in resharing).** Let all participants have consistent inputs: `S` are the old holders that contribute and `N` the new holders. Then a party sends to
another one exactly if the other one waits for it, namely from old to new holders, and nobody sends to itself or waits for itself. -/
theorem C64_resharing_communication (g : G) (S N : Finset I) (shares : I → ThresholdKeyShare I F G) (vkey : G) (oldThreshold n : Nat) (i j : I) (di dj : Nat → F)
    (ri rj : Round1 I F G) (hi : start g (HonestInputs S N shares vkey oldThreshold n i) i di = .ok ri) (hj : start g (HonestInputs S N shares vkey oldThreshold n j) j dj = .ok rj) :
    (j ∈ ri.messageDestinations ↔ i ∈ rj.expectingMessagesFrom) ∧ (j ∈ ri.messageDestinations ↔ i ∈ S ∧ j ∈ N ∧ i ≠ j) ∧ i ∉ ri.messageDestinations ∧ i ∉ ri.expectingMessagesFrom := by
  have key : ∀ (i : I) (d : Nat → F) (r : Round1 I F G), start g (HonestInputs S N shares vkey oldThreshold n i) i d = .ok r →
      r.messageDestinations = (if i ∈ S then N.erase i else ∅) ∧ r.expectingMessagesFrom = if i ∈ N then S.erase i else ∅ := by
    intro i d r h
    unfold start at h
    split at h
    · cases h
    · obtain ⟨o, -, h⟩ := Out.bind_eq_ok.1 h
      obtain rfl := Out.ok.inj h
      by_cases hS : i ∈ S <;> by_cases hN : i ∈ N <;> simp [HonestInputs, hS, hN]
  obtain ⟨hi1, hi2⟩ := key i di ri hi
  obtain ⟨hj1, hj2⟩ := key j dj rj hj
  have h1 : j ∈ ri.messageDestinations ↔ i ∈ S ∧ j ∈ N ∧ i ≠ j := by
    rw [hi1]; by_cases hS : i ∈ S <;> simp [hS, and_comm, eq_comm]
  refine ⟨?_, h1, ?_, ?_⟩
  · rw [h1, hj2]; by_cases hN : j ∈ N <;> simp [hN, and_comm]
  · rw [hi1]; split <;> simp
  · rw [hi2]; split <;> simp

end

/-! ### Concrete cases

Messages are lists of numbers that start with the round and a number for the part. -/

section
private def toyEnc (t : MsgType) : List Nat := [t.round, match t.part with | .direct => 0 | .echo => 1 | .normal => 2]
private def toyD (t : MsgType) (b : List Nat) : Bool := decide (b.take 2 = toyEnc t)

example : ∀ t, toyD t (toyEnc t) = true := fun t => by simp [toyD, toyEnc]

/-- A decodable part with further data is accepted; a part that is missing, one of another round and one that should not be there are rejected, and the fault is confirmed. -/
example : acceptsPart toyD signing 1 .direct (some [1, 0, 77]) = true ∧ verifyIsInvalid toyD signing 1 .direct (some [1, 0, 77]) = .err .invalidEvidence ∧
    acceptsPart toyD signing 1 .direct none = false ∧ verifyIsInvalid toyD signing 1 .direct none = .ok () ∧
    acceptsPart toyD signing 5 .echo (some [6, 1]) = false ∧ verifyIsInvalid toyD signing 5 .echo (some [6, 1]) = .ok () ∧
    acceptsPart toyD signing 4 .echo (some [4, 1]) = false ∧ verifyIsInvalid toyD signing 4 .echo (some [4, 1]) = .ok () := by decide

attribute [local instance] Toy.fact11 Toy.order11

/-- Party 2 is an old and a new holder, party 4 a new one: 2 sends to 4, which waits for 2 and sends to nobody. -/
example : ∃ r2 r4 : KeyResharing.Round1 Nat (ZMod 11) (ZMod 11),
    KeyResharing.start (1 : ZMod 11) (HonestInputs {1, 2} {2, 3, 4} (fun i : Nat => ⟨i, 2, 5 + 3 * (i : ZMod 11), BMap.ofList [(1, 1), (2, 2), (3, 3)], BMap.ofList [(1, 8), (2, 0), (3, 3)]⟩) 5 2 2 2) 2
      (fun _ => 6) = .ok r2 ∧
    KeyResharing.start (1 : ZMod 11) (HonestInputs {1, 2} {2, 3, 4} (fun i : Nat => ⟨i, 2, 5 + 3 * (i : ZMod 11), BMap.ofList [(1, 1), (2, 2), (3, 3)], BMap.ofList [(1, 8), (2, 0), (3, 3)]⟩) 5 2 2 4) 4
      (fun _ => 0) = .ok r4 ∧ r2.messageDestinations = {3, 4} ∧ r2.expectingMessagesFrom = {1} ∧ r4.messageDestinations = ∅ ∧ r4.expectingMessagesFrom = {1, 2} :=
  ⟨_, _, rfl, rfl, by decide, by decide, by decide, by decide⟩

end

end Synedrion.Props
