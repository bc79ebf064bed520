import Verif.Props.SigningHonest
import Verif.Props.AuxGen
import Verif.Props.KeyRefresh
import Verif.Props.KeyInit
import Verif.Props.KeyResharing

/-!
# C49: which local inputs the protocol entry points accept

Key initialization, generation of auxiliary info and key refresh reject exactly the parties outside of the party set, signing exactly the inputs whose owners or
party sets differ. Resharing rejects only a party without any role; other inconsistent inputs are accepted, with two witnesses below.
-/

set_option linter.unusedSectionVars false

namespace Synedrion.Props

open Synedrion.Spec

section
variable {I F G Sid : Type} [LinearOrder I] [Field F] [LinearOrder F] [AddCommGroup G] [Module F G] [DecidableEq G]

/-- **C49 (key initialization).** A party outside of the party set gets a local error; any other party starts. -/
theorem C49_key_init (g : G) (allIds : Finset I) (sid : Sid) (id : I) (d : KeyInit.Draws F) :
    (id ∉ allIds → KeyInit.start g allIds sid id d = .err .notMember) ∧
    (id ∈ allIds → ∃ c, KeyInit.start g allIds sid id d = .ok c ∧ c.myId = id ∧ c.otherIds = allIds.erase id) := by
  refine ⟨fun h => if_pos h, fun h => ?_⟩
  refine ⟨_, if_neg (not_not.2 h), rfl, rfl⟩

/-- **C49 (auxiliary info).** A party outside of the party set gets a local error; any other party starts, if its random primes are as the code draws them. -/
theorem C49_aux_gen (E : AuxEnv I Sid) (k : Nat) (allIds : Finset I) (sid : Sid) (id : I) (d : AuxDraws I) :
    (id ∉ allIds → AuxGen.start E allIds sid id d = .err .notMember) ∧
    (id ∈ allIds → DrawsValid E k d → ∃ c, AuxGen.start E allIds sid id d = .ok c ∧ c.myId = id ∧ c.otherIds = allIds.erase id) := by
  refine ⟨fun h => if_pos h, fun h hd => ?_⟩
  obtain ⟨c, hc, -⟩ := C54_start E k allIds sid id h d hd
  refine ⟨c, hc, ?_⟩
  unfold AuxGen.start at hc
  rw [if_neg (not_not.2 h)] at hc
  obtain ⟨x, -, hx⟩ := Out.bind_eq_ok.1 hc
  cases hx
  exact ⟨rfl, rfl⟩

/-- **C49 (key refresh).** A party outside of the party set gets a local error; any other party starts, if its random primes are as the code draws them. -/
theorem C49_key_refresh (E : KeyRefresh.Env I Sid F G) (k : Nat) (allIds : Finset I) (sid : Sid) (id : I) (d : KeyRefresh.Draws I F) :
    (id ∉ allIds → KeyRefresh.start E allIds sid id d = .err .notMember) ∧
    (id ∈ allIds → DrawsValid E.aux k d.aux → ∃ c, KeyRefresh.start E allIds sid id d = .ok c ∧ c.myId = id ∧ c.otherIds = allIds.erase id) := by
  refine ⟨fun h => if_pos h, fun h hd => ?_⟩
  obtain ⟨c, hc⟩ := KeyRefresh.start_valid (sid := sid) h hd
  refine ⟨c, hc, ?_⟩
  unfold KeyRefresh.start at hc
  rw [if_neg (not_not.2 h)] at hc
  obtain ⟨x, -, hx⟩ := Out.bind_eq_ok.1 hc
  obtain ⟨y, -, hy⟩ := Out.bind_eq_ok.1 hx
  cases hy
  exact ⟨rfl, rfl⟩

/-- **C49 (resharing, part).** A party with no role gets a local error, and so does an old holder whose key share does not list its own share id; everything
else starts. Missing: the id of the party is compared neither with the new holders, nor with the old holders, nor with the owner of the key share (see
`C49_resharing_foreign_inputs` and `C49_resharing_unlisted_old_holder`). -/
theorem C49_resharing_partial (g : G) (inp : KeyResharing.Inputs I F G) (id : I) (draw : Nat → F) :
    (inp.oldHolder = none → inp.newHolder = none → KeyResharing.start g inp id draw = .err .badInputs) ∧
    (∀ ks, inp.oldHolder = some ks → ks.shareIds.get? ks.owner = none → KeyResharing.start g inp id draw = .err (.entity .missingId)) ∧
    ((inp.oldHolder.isSome ∨ inp.newHolder.isSome) → (∀ ks, inp.oldHolder = some ks → (ks.shareIds.get? ks.owner).isSome) →
      ∃ r, KeyResharing.start g inp id draw = .ok r ∧ r.myId = id) := by
  refine ⟨?_, ?_, ?_⟩
  · intro h1 h2
    unfold KeyResharing.start
    simp [h1, h2]
  · intro ks h1 h2
    unfold KeyResharing.start
    simp [h1, ThresholdKeyShare.shareId, h2, Out.ofOption, ofEntity, Out.bind]
  · intro h1 h2
    unfold KeyResharing.start
    cases ho : inp.oldHolder with
    | none =>
      have : inp.newHolder.isNone = false := by
        rw [ho] at h1; cases hn : inp.newHolder <;> simp_all
      simp [this, Out.bind]
    | some ks =>
      obtain ⟨s, hs⟩ := Option.isSome_iff_exists.1 (h2 ks ho)
      simp [ThresholdKeyShare.shareId, hs, Out.ofOption, ofEntity, Out.bind]

end

section
variable {q : Nat} [Fact q.Prime] {I Ep G : Type} [LinearOrder I] [AddCommGroup G] [Module (ZMod q) G] [DecidableEq G]

/-- **C49 (signing).** The constructor accepts exactly the key shares and auxiliary infos with the same owner and the same parties. -/
theorem C49_signing_new (keyShare : KeyShare I (ZMod q) G) (auxInfo : AuxInfo I PaillierKey PublicAux) :
    (keyShare.owner ≠ auxInfo.owner → Signing.new keyShare auxInfo = .err .ownerMismatch) ∧
    (keyShare.owner = auxInfo.owner → keyShare.pub.keySet ≠ auxInfo.pub.keySet → Signing.new keyShare auxInfo = .err .partiesMismatch) ∧
    (keyShare.owner = auxInfo.owner → keyShare.pub.keySet = auxInfo.pub.keySet → Signing.new keyShare auxInfo = .ok ()) := by
  refine ⟨fun h => if_pos h, fun h h' => ?_, fun h h' => ?_⟩
  · unfold Signing.new; rw [if_neg (not_not.2 h), if_pos h']
  · unfold Signing.new; rw [if_neg (not_not.2 h), if_neg (not_not.2 h')]

/-- **C49 (signing, id outside of the party set).** Auxiliary info always lists its owner (`AuxInfo::subset` demands it), so a key share that does not list its
own owner is rejected by the constructor. -/
theorem C49_signing_outsider (keyShare : KeyShare I (ZMod q) G) (auxInfo : AuxInfo I PaillierKey PublicAux) (ha : auxInfo.owner ∈ auxInfo.pub.keySet)
    (h : keyShare.owner ∉ keyShare.pub.keySet) : ∃ e, Signing.new keyShare auxInfo = .err e := by
  by_cases ho : keyShare.owner = auxInfo.owner
  · exact ⟨_, (C49_signing_new keyShare auxInfo).2.1 ho fun he => h (by rw [ho, he]; exact ha)⟩
  · exact ⟨_, (C49_signing_new keyShare auxInfo).1 ho⟩

/-- **C49 (signing, other party).** A party that is not the owner of the key share or of the auxiliary info gets a local error. -/
theorem C49_signing_start_owner (E : Signing.Env q I Ep G) (epidOf : BMap I G → BMap I PublicAux → Ep) (message : ZMod q)
    (keyShare : KeyShare I (ZMod q) G) (auxInfo : AuxInfo I PaillierKey PublicAux) (id : I) (d : Signing.Draws q I)
    (h : id ≠ keyShare.owner ∨ id ≠ auxInfo.owner) :
    Signing.start E epidOf message keyShare auxInfo id d = .err .ownerMismatch := if_pos h

/-- **C49 (signing, own inputs).** With matching key shares and usable auxiliary info, as made by the other protocols, each party is accepted and starts. -/
theorem C49_signing_starts (E : Signing.Env q I Ep G) (hE : SigningSetting E) (epidOf : BMap I G → BMap I PublicAux → Ep) (message sk : ZMod q)
    (ids : Finset I) (shares : I → KeyShare I (ZMod q) G) (hshares : SharesKey E.C.g ids shares sk)
    (infos : I → AuxInfo I PaillierKey PublicAux) (setup : I → RPSetup) (haux : UsableAux E.P ids infos setup) (d : I → Signing.Draws q I) :
    ∀ i ∈ ids, ∃ r, Signing.new (shares i) (infos i) = .ok () ∧ Signing.start E epidOf message (shares i) (infos i) i (d i) = .ok r :=
  C41_honest_start E hE epidOf message sk ids shares hshares infos setup haux d

end

/-! ### Concrete cases and counterexamples -/

section
attribute [local instance] Toy.fact11 Toy.order11

example : KeyInit.start (1 : ZMod 11) {1, 2} (7 : Nat) 3 ⟨(4 : ZMod 11), 5, [true], [false]⟩ = .err .notMember := (C49_key_init _ _ _ _ _).1 (by decide)
example : ∃ c, KeyInit.start (1 : ZMod 11) {1, 2} (7 : Nat) 2 ⟨(4 : ZMod 11), 5, [true], [false]⟩ = .ok c ∧ c.myId = 2 ∧ c.otherIds = {1} :=
  (C49_key_init _ _ _ _ _).2 (by decide)

/-- Key share and auxiliary info of different owners, and of different party sets -/
example : Signing.new (⟨1, 3, BMap.ofList [(1, 3), (2, 4)]⟩ : KeyShare Nat (ZMod 11) (ZMod 11)) ⟨2, ⟨5, 7, ⟨5, 7, 0, 0, 0⟩⟩, BMap.empty⟩ = .err .ownerMismatch := by
  decide +kernel

example : Signing.new (⟨1, 3, BMap.ofList [(1, 3), (2, 4)]⟩ : KeyShare Nat (ZMod 11) (ZMod 11)) ⟨1, ⟨5, 7, ⟨5, 7, 0, 0, 0⟩⟩, BMap.empty⟩ = .err .partiesMismatch := by
  decide +kernel

/-- The parties 1, 2, 3 can start signing with their own inputs, but not with the ones of another party. -/
example : ∃ infos : Nat → AuxInfo Nat PaillierKey PublicAux,
    (∃ r, Signing.new (Toy.signShares 2) (infos 2) = .ok () ∧
      Signing.start Toy.signEnv (fun _ _ => 7) (5 : ZMod 11) (Toy.signShares 2) (infos 2) 2 (Toy.signDraws 2) = .ok r) ∧
    Signing.start Toy.signEnv (fun _ _ => 7) (5 : ZMod 11) (Toy.signShares 2) (infos 2) 3 (Toy.signDraws 3) = .err .ownerMismatch := by
  obtain ⟨infos, haux, -⟩ := Toy.exists_signInfos
  exact ⟨infos, C49_signing_starts Toy.signEnv Toy.signEnv_setting (fun _ _ => 7) 5 6 Toy.parties Toy.signShares Toy.signShares_valid infos Toy.ringPedersen haux
    Toy.signDraws 2 (by decide), C49_signing_start_owner _ _ _ _ _ _ _ (.inl (by decide))⟩

/-- Generation of auxiliary info for the parties 1, 2, 3 -/
example : AuxGen.start Toy.auxEnv {1, 2, 3} 7 4 (Toy.auxDraws 4) = .err .notMember := (C49_aux_gen _ 1 _ _ _ _).1 (by decide)
example : ∃ c, AuxGen.start Toy.auxEnv {1, 2, 3} 7 3 (Toy.auxDraws 3) = .ok c ∧ c.myId = 3 ∧ c.otherIds = {1, 2} :=
  (C49_aux_gen _ 2 _ _ _ _).2 (by decide) (Toy.auxDraws_valid 3 (by decide))
example : ∃ c, KeyRefresh.start (⟨Toy.auxEnv, 1, fun h => h.commitment, fun _ _ i p => p + i⟩ : KeyRefresh.Env Nat Nat (ZMod 11) (ZMod 11)) {1, 2, 3} 7 3
    ⟨Toy.auxDraws 3, fun _ => 4, fun _ => 2, fun _ => 3⟩ = .ok c ∧ c.myId = 3 ∧ c.otherIds = {1, 2} :=
  (C49_key_refresh _ 2 _ _ _ _).2 (by decide) (Toy.auxDraws_valid 3 (by decide))

/-- A 2-of-3 sharing of the key 5 by the polynomial 5 + 3X -/
private def oldShare (i : Nat) : ThresholdKeyShare Nat (ZMod 11) (ZMod 11) :=
  ⟨i, 2, 5 + 3 * (i : ZMod 11), BMap.ofList [(1, 1), (2, 2), (3, 3)], BMap.ofList [(1, 8), (2, 0), (3, 3)]⟩

example : KeyResharing.start (F := ZMod 11) (1 : ZMod 11) ⟨none, none, ({1, 2} : Finset Nat), 2⟩ 1 (fun _ => 0) = .err .badInputs := (C49_resharing_partial _ _ _ _).1 rfl rfl

/-- **C49 is false of resharing: foreign inputs are accepted.** Party 9, which is neither a new holder nor the owner of the key share it is given, starts the
protocol without an error. -/
theorem C49_resharing_foreign_inputs : ∃ (inp : KeyResharing.Inputs Nat (ZMod 11) (ZMod 11)) (ks : ThresholdKeyShare Nat (ZMod 11) (ZMod 11))
    (nh : KeyResharing.NewHolder Nat (ZMod 11)) (r : KeyResharing.Round1 Nat (ZMod 11) (ZMod 11)),
    inp.oldHolder = some ks ∧ inp.newHolder = some nh ∧ (9 ∉ inp.newHolders) ∧ ks.owner ≠ 9 ∧ (9 ∉ nh.oldHolders) ∧
      KeyResharing.start (1 : ZMod 11) inp 9 (fun _ => 4) = .ok r :=
  ⟨⟨some (oldShare 1), some ⟨5, 2, {1, 2}⟩, {1, 2, 3}, 2⟩, oldShare 1, ⟨5, 2, {1, 2}⟩, _, rfl, rfl, by decide, by decide, by decide, rfl⟩

/-- **C49 is false of resharing: an unlisted old holder is accepted, with lasting damage.** Party 1 is an old holder, but its description of the old holders
names only 2 and 3. It starts without an error, all messages are honest, and it ends with a secret share that does not belong to its public share. -/
theorem C49_resharing_unlisted_old_holder : ∃ (inp : KeyResharing.Inputs Nat (ZMod 11) (ZMod 11)) (nh : KeyResharing.NewHolder Nat (ZMod 11))
    (r : KeyResharing.Round1 Nat (ZMod 11) (ZMod 11)) (inbox : List (Nat × KeyResharing.Msg (ZMod 11) (ZMod 11)))
    (ks : ThresholdKeyShare Nat (ZMod 11) (ZMod 11)),
    inp.oldHolder = some (oldShare 1) ∧ inp.newHolder = some nh ∧ 1 ∉ nh.oldHolders ∧ KeyResharing.start (1 : ZMod 11) inp 1 (fun _ => 4) = .ok r ∧
      KeyResharing.run (1 : ZMod 11) r inbox = .ok (some ks) ∧ ks.verifyingKey = .ok 5 ∧ ks.publicShares.get? 1 ≠ some (ks.secretShare • (1 : ZMod 11)) := by
  refine ⟨⟨some (oldShare 1), some ⟨5, 2, {2, 3}⟩, {1, 2}, 2⟩, ⟨5, 2, {2, 3}⟩, _, [(2, ⟨[0, 6], 2, 6⟩), (3, ⟨[3, 1], 3, 4⟩)],
    ⟨1, 2, 10, BMap.ofList [(1, 1), (2, 2)], BMap.ofList [(1, 0), (2, 6)]⟩, rfl, rfl, by decide, rfl, ?_⟩
  decide +kernel

end

end Synedrion.Props
