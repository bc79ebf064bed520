import Verif.Lemmas.Required
import Verif.Props.KeyInit
import Verif.Props.AuxGen
import Verif.Props.KeyRefresh
import Verif.Props.SigningEvidence
import Verif.Lemmas.Toy

/-!
# C56: the messages that evidence asks for are the ones that decide it
-/

set_option linter.unusedSectionVars false

namespace Synedrion.Props
open Spec

variable {I : Type} [LinearOrder I]

section KeyInit
open KeyInit
variable {F G Sid V : Type} [Field F] [LinearOrder F] [AddCommGroup G] [Module F G] [DecidableEq G] [DecidableEq V]

/-- **C56 (key initialization).** For every error, whoever checks the evidence needs nothing beyond the declared messages of the accused party: the verdict is the one
that all of its messages would give. -/
theorem C56_key_init (hashV : Sid → I → KeyInit.PublicData G → V) (H : SchHash G (SchAux I Sid) → F) (g : G) (sid : Sid) (guilty : I) (e : KeyInit.Err)
    (t : Transcript I (KeyInit.Parts F G V)) : SelfContained t e.required (KeyInit.verifyMessages hashV H g sid guilty e) := by
  intro p _ h
  obtain ⟨h1, h2, h3⟩ := contains_reads h
  cases e
  · have a1 := h1 .normal (by simp [Err.required])
    have a2 := h1 .echo (by simp [Err.required])
    have a3 := h2 1 .echo (by simp [Err.required])
    simp only [KeyInit.verifyMessages, a1, a2, a3]
  · have a1 := h1 .normal (by simp [Err.required])
    have a2 := h2 2 .normal (by simp [Err.required])
    have a3 := h2 2 .echo (by simp [Err.required])
    have a4 := h3 2 (by simp [Err.required])
    simp only [KeyInit.verifyMessages, a1, a2, a3, a4]

private theorem nodup_required (e : KeyInit.Err) : (e.required.previous.map Prod.fst).Nodup := by
  cases e <;> simp [Err.required]

/-- **C56 (key initialization).** All declared messages are messages that the accused party sends, and the check of what the session layer attaches is the check that
C45 and C46 are about. -/
theorem C56_key_init_verdict (hashV : Sid → I → KeyInit.PublicData G → V) (H : SchHash G (SchAux I Sid) → F) (g : G) (sid : Sid) (guilty : I) (e : KeyInit.Err)
    (m1 : V) (m2 : KeyInit.Msg2 G) (psi : SchProof F) (echos1 : BMap I V) (echos2 : BMap I (List Bool)) :
    (∀ part ∈ e.required.current, ((KeyInit.transcript m1 m2 psi echos1 echos2).msg e.round part).isSome) ∧
    (∀ x ∈ e.required.previous, ∀ part ∈ x.2, ((KeyInit.transcript m1 m2 psi echos1 echos2).msg x.1 part).isSome) ∧
    KeyInit.verifyMessages hashV H g sid guilty e (supply (KeyInit.transcript m1 m2 psi echos1 echos2) e.round e.required) =
      match e with
      | .r2HashMismatch => KeyInit.evidence2 hashV sid guilty m1 m2
      | .r3InvalidSchProof => KeyInit.evidence3 H g sid guilty m2 psi echos2 := by
  refine ⟨?_, ?_, ?_⟩
  · cases e <;> simp [Err.required, Err.round, KeyInit.transcript]
  · cases e <;> simp [Err.required, KeyInit.transcript]
  · rw [C56_key_init hashV H g sid guilty e _ _ (supply_genuine _ _) (supply_contains _ _ (nodup_required e))]
    cases e <;> rfl

/-- **C56 (key initialization, rejected messages).** When a message of round 2 or 3 is rejected, the evidence that the session layer puts together from the declared
messages of its sender is accepted by everyone. -/
theorem C56_key_init_blame (hashV : Sid → I → KeyInit.PublicData G → V) (H : SchHash G (SchAux I Sid) → F) (g : G) (ids : Finset I) (me : I) (hme : me ∈ ids)
    (c : KeyInit.Context I F G Sid) (hid : c.myId = me) (hids : c.otherIds = ids.erase me) (in1 : List (I × V)) (capVs : BMap I V)
    (h1 : collect c.otherIds KeyInit.recv1 in1 = .ok capVs) (j : I) (v : V) (hj : (j, v) ∈ in1) (m2 : KeyInit.Msg2 G) (psi : SchProof F) (echos1 : BMap I V)
    (echos2 : BMap I (List Bool)) :
    (∀ e, KeyInit.recv2 hashV ⟨c, capVs⟩ j m2 = .err (.protocol e) →
      KeyInit.verifyMessages hashV H g c.sid j e (supply (KeyInit.transcript v m2 psi echos1 echos2) e.round e.required) = .ok true) ∧
    (∀ in2 r3 e, KeyInit.toRound3 hashV c in1 in2 = .ok r3 → (j, m2) ∈ in2 → EchosAgainst ids me j c.data.rho (in2.map fun a => (a.1, a.2.rho)) echos2 →
      KeyInit.recv3 H g r3 j psi = .err (.protocol e) →
      KeyInit.verifyMessages hashV H g c.sid j e (supply (KeyInit.transcript v m2 psi echos1 echos2) e.round e.required) = .ok true) := by
  constructor
  · intro e h
    have he : e = .r2HashMismatch := by
      simp only [KeyInit.recv2, recvGet] at h
      cases hg : capVs.get? j with
      | none => simp [hg, Out.ofOption, Out.bind] at h
      | some w =>
        simp only [hg, Out.ofOption_some, Out.bind_ok] at h
        split at h <;> cases h
        rfl
    subst he
    rw [(C56_key_init_verdict hashV H g c.sid j _ v m2 psi echos1 echos2).2.2]
    exact (C45_key_init_round2 hashV c in1 capVs h1 j v hj m2).1.1 h
  · intro in2 r3 e hr hm hec h
    have he : e = .r3InvalidSchProof := by
      simp only [KeyInit.recv3, recvGet] at h
      cases ha : r3.capAs.get? j with
      | none => simp [ha, Out.ofOption, Out.bind] at h
      | some x =>
        cases hx : r3.capXs.get? j with
        | none => simp [hx, ha, Out.ofOption, Out.bind] at h
        | some w =>
          simp only [hx, ha, Out.ofOption_some, Out.bind_ok] at h
          split at h <;> cases h
          rfl
    subst he
    rw [(C56_key_init_verdict hashV H g c.sid j _ v m2 psi echos1 echos2).2.2]
    exact (C45_key_init_round3 hashV H g ids me hme c hid hids in1 in2 r3 hr j m2 hm psi echos2 hec).1.1 h

end KeyInit
section AuxGen
open AuxGen
variable {Sid V : Type} [DecidableEq V]

/-- **C56 (auxiliary info generation).** The same for every error of auxiliary info generation. -/
theorem C56_aux_gen (E : AuxEnv I Sid) (hashV : Sid → I → AuxGen.Hashed → V) (sid : Sid) (guilty : I) (e : AuxGen.Err I)
    (t : Transcript I (AuxGen.Parts V)) : SelfContained t e.required (AuxGen.verifyMessages E hashV sid guilty e) := by
  intro p _ h
  obtain ⟨h1, h2, h3⟩ := contains_reads h
  cases e with
  | r2HashMismatch =>
    have a1 := h1 .normal (by simp [Err.required])
    have a2 := h1 .echo (by simp [Err.required])
    have a3 := h2 1 .echo (by simp [Err.required])
    simp only [AuxGen.verifyMessages, a1, a2, a3]
  | r2PaillierModulusTooSmall =>
    have a1 := h1 .normal (by simp [Err.required])
    simp only [AuxGen.verifyMessages, a1]
  | r2RPModulusTooSmall =>
    have a1 := h1 .echo (by simp [Err.required])
    simp only [AuxGen.verifyMessages, a1]
  | r2PrmFailed =>
    have a1 := h1 .normal (by simp [Err.required])
    have a2 := h1 .echo (by simp [Err.required])
    simp only [AuxGen.verifyMessages, a1, a2]
  | r3ModFailed =>
    have a1 := h1 .normal (by simp [Err.required])
    have a2 := h2 2 .normal (by simp [Err.required])
    have a3 := h2 2 .echo (by simp [Err.required])
    have a4 := h3 2 (by simp [Err.required])
    simp only [AuxGen.verifyMessages, AuxGen.ridFrom, a1, a2, a3, a4]
  | r3FacFailed j =>
    have a1 := h1 .direct (by simp [Err.required])
    have a2 := h2 2 .normal (by simp [Err.required])
    have a3 := h2 2 .echo (by simp [Err.required])
    have a4 := h3 2 (by simp [Err.required])
    simp only [AuxGen.verifyMessages, AuxGen.ridFrom, a1, a2, a3, a4]

private theorem nodup_required_aux (e : AuxGen.Err I) : (e.required.previous.map Prod.fst).Nodup := by
  cases e <;> simp [Err.required]

/-- **C56 (auxiliary info generation).** As `C56_key_init_verdict`. -/
theorem C56_aux_gen_verdict (E : AuxEnv I Sid) (hashV : Sid → I → AuxGen.Hashed → V) (sid : Sid) (guilty : I) (e : AuxGen.Err I) (m1 : V) (m2 : AuxGen.Msg2)
    (m3 : AuxGen.Msg3) (echos1 : BMap I V) (echos2 : BMap I AuxGen.Echo2) :
    (∀ part ∈ e.required.current, ((AuxGen.transcript m1 m2 m3 echos1 echos2).msg e.round part).isSome) ∧
    (∀ x ∈ e.required.previous, ∀ part ∈ x.2, ((AuxGen.transcript m1 m2 m3 echos1 echos2).msg x.1 part).isSome) ∧
    AuxGen.verifyMessages E hashV sid guilty e (supply (AuxGen.transcript m1 m2 m3 echos1 echos2) e.round e.required) =
      if e.round = 2 then AuxGen.evidence2 E hashV sid guilty m1 m2 e else AuxGen.evidence3 E sid guilty m2 m3 echos2 e := by
  refine ⟨?_, ?_, ?_⟩
  · cases e <;> simp [Err.required, Err.round, AuxGen.transcript]
  · cases e <;> simp [Err.required, AuxGen.transcript]
  · rw [C56_aux_gen E hashV sid guilty e _ _ (supply_genuine _ _) (supply_contains _ _ (nodup_required_aux e))]
    have hv : (echos2.mapVals fun _ e => e.rid).values = echos2.values.map AuxGen.Echo2.rid := by
      simp [BMap.values, BMap.mapVals, List.map_map, Function.comp_def]
    cases e with
    | r2HashMismatch =>
      rw [if_pos (by rfl)]
      simp only [AuxGen.verifyMessages, AuxGen.evidence2, AuxGen.Msg2.open, Out.bind_assoc, everything_cur, everything_prev]
      rfl
    | r2PaillierModulusTooSmall | r2RPModulusTooSmall | r2PrmFailed => rfl
    | r3ModFailed =>
      rw [if_neg (by simp [Err.round])]
      simp only [AuxGen.evidence3, AuxGen.reconstructRid, hv]
      rfl
    | r3FacFailed k =>
      rw [if_neg (by simp [Err.round])]
      simp only [AuxGen.evidence3, AuxGen.reconstructRid, hv]
      rfl

/-- **C56 (auxiliary info generation, rejected messages).** As `C56_key_init_blame`. -/
theorem C56_aux_gen_blame (E : AuxEnv I Sid) (hashV : Sid → I → AuxGen.Hashed → V) (ids : Finset I) (sid : Sid) (me : I) (d : AuxDraws I)
    (c : AuxGen.Context I Sid) (hc : AuxGen.start E ids sid me d = .ok c) (in1 : List (I × V)) (capVs : BMap I V)
    (h1 : collect c.otherIds AuxGen.recv1 in1 = .ok capVs) (j : I) (v : V) (hj : (j, v) ∈ in1) (m2 : AuxGen.Msg2) (m3 : AuxGen.Msg3) (echos1 : BMap I V)
    (echos2 : BMap I AuxGen.Echo2) :
    (∀ e, AuxGen.recv2 E hashV c.sid capVs j m2 = .err (.protocol e) →
      AuxGen.verifyMessages E hashV sid j e (supply (AuxGen.transcript v m2 m3 echos1 echos2) e.round e.required) = .ok true) ∧
    (∀ in2 r3 e, AuxGen.toRound3 E hashV c in1 in2 = .ok r3 → (j, m2) ∈ in2 →
      EchosAgainst ids me j (AuxGen.msg2 c).echo (in2.map fun a => (a.1, a.2.echo)) echos2 → AuxGen.recv3 E r3 j m3 = .err (.protocol e) →
      AuxGen.verifyMessages E hashV sid j e (supply (AuxGen.transcript v m2 m3 echos1 echos2) e.round e.required) = .ok true) := by
  have hsid : c.sid = sid := by
    obtain ⟨_, _, _, _, rfl⟩ := AuxGen.start_ok hc
    rfl
  constructor
  · intro e h
    have hev := (C45_aux_gen_round2 E hashV c in1 capVs h1 j v hj m2).1 e h
    rw [(C56_aux_gen_verdict E hashV sid j e v m2 m3 echos1 echos2).2.2]
    rw [hsid] at hev
    cases e with
    | r3ModFailed | r3FacFailed => cases hev
    | _ => exact hev
  · intro in2 r3 e hr hm hec h
    have hev := (C45_aux_gen_round3 E hashV ids sid me d c hc in1 in2 r3 hr j m2 hm m3 echos2 hec).1 e h
    rw [(C56_aux_gen_verdict E hashV sid j e v m2 m3 echos1 echos2).2.2]
    cases e with
    | r3ModFailed | r3FacFailed => rw [if_neg (by simp [Err.round])]; exact hev
    | _ => cases hev

end AuxGen
section KeyRefresh
open KeyRefresh
variable {F G Sid V : Type} [Field F] [LinearOrder F] [AddCommGroup G] [Module F G] [DecidableEq G] [DecidableEq V]

/-- **C56 (key refresh).** The same for every error of key refresh. -/
theorem C56_refresh (E : KeyRefresh.Env I Sid F G) (hashV : Sid → I → KeyRefresh.Hashed I G → V) (sid : Sid) (ids : Finset I) (guilty : I)
    (e : KeyRefresh.Err I F) (t : Transcript I (KeyRefresh.Parts I F G V)) :
    SelfContained t e.required (KeyRefresh.verifyMessages E hashV sid ids guilty e) := by
  intro p _ h
  obtain ⟨h1, h2, h3⟩ := contains_reads h
  cases e with
  | r2HashMismatch =>
    have a1 := h1 .normal (by simp [Err.required])
    have a2 := h1 .echo (by simp [Err.required])
    have a3 := h2 1 .echo (by simp [Err.required])
    simp only [KeyRefresh.verifyMessages, a1, a2, a3]
  | r2WrongIdsX | r2WrongIdsA | r2PaillierModulusTooSmall | r2NonZeroSumOfChanges =>
    have a1 := h1 .normal (by simp [Err.required])
    simp only [KeyRefresh.verifyMessages, a1]
  | r2WrongIdsY | r2RPModulusTooSmall | r3WrongIdsHatPsi =>
    have a1 := h1 .echo (by simp [Err.required])
    simp only [KeyRefresh.verifyMessages, a1]
  | r2PrmFailed =>
    have a1 := h1 .normal (by simp [Err.required])
    have a2 := h1 .echo (by simp [Err.required])
    simp only [KeyRefresh.verifyMessages, a1, a2]
  | r3ModFailed =>
    have a1 := h1 .normal (by simp [Err.required])
    have a2 := h2 2 .normal (by simp [Err.required])
    have a3 := h2 2 .echo (by simp [Err.required])
    have a4 := h3 2 (by simp [Err.required])
    simp only [KeyRefresh.verifyMessages, KeyRefresh.ridFrom, a1, a2, a3, a4]
  | r3ShareChangeMismatch j y =>
    have a1 := h1 .direct (by simp [Err.required])
    have a2 := h2 2 .normal (by simp [Err.required])
    have a3 := h2 2 .echo (by simp [Err.required])
    have a4 := h3 2 (by simp [Err.required])
    simp only [KeyRefresh.verifyMessages, KeyRefresh.ridFrom, a1, a2, a3, a4]
  | r3FacFailed j =>
    have a1 := h1 .direct (by simp [Err.required])
    have a2 := h2 2 .normal (by simp [Err.required])
    have a3 := h2 2 .echo (by simp [Err.required])
    have a4 := h3 2 (by simp [Err.required])
    simp only [KeyRefresh.verifyMessages, KeyRefresh.ridFrom, a1, a2, a3, a4]
  | r3SchFailed j =>
    have a1 := h1 .echo (by simp [Err.required])
    have a2 := h2 2 .normal (by simp [Err.required])
    have a3 := h2 2 .echo (by simp [Err.required])
    have a4 := h3 2 (by simp [Err.required])
    simp only [KeyRefresh.verifyMessages, KeyRefresh.ridFrom, a1, a2, a3, a4]

private theorem nodup_required_refresh (e : KeyRefresh.Err I F) : (e.required.previous.map Prod.fst).Nodup := by
  cases e <;> simp [Err.required]

/-- **C56 (key refresh).** As `C56_key_init_verdict`. -/
theorem C56_refresh_verdict (E : KeyRefresh.Env I Sid F G) (hashV : Sid → I → KeyRefresh.Hashed I G → V) (sid : Sid) (ids : Finset I) (guilty : I)
    (e : KeyRefresh.Err I F) (m1 : V) (m2 : KeyRefresh.Msg2 I G) (m3 : KeyRefresh.Msg3 I F) (echos1 : BMap I V) (echos2 : BMap I (KeyRefresh.Echo2 I G))
    (echos3 : BMap I (BMap I (SchProof F))) :
    (∀ part ∈ e.required.current, ((KeyRefresh.transcript m1 m2 m3 echos1 echos2 echos3).msg e.round part).isSome) ∧
    (∀ x ∈ e.required.previous, ∀ part ∈ x.2, ((KeyRefresh.transcript m1 m2 m3 echos1 echos2 echos3).msg x.1 part).isSome) ∧
    KeyRefresh.verifyMessages E hashV sid ids guilty e (supply (KeyRefresh.transcript m1 m2 m3 echos1 echos2 echos3) e.round e.required) =
      if e.round = 2 then KeyRefresh.evidence2 E hashV sid ids guilty m1 m2 e else KeyRefresh.evidence3 E sid ids guilty m2 m3 echos2 e := by
  refine ⟨?_, ?_, ?_⟩
  · cases e <;> simp [Err.required, Err.round, KeyRefresh.transcript]
  · cases e <;> simp [Err.required, KeyRefresh.transcript]
  · rw [C56_refresh E hashV sid ids guilty e _ _ (supply_genuine _ _) (supply_contains _ _ (nodup_required_refresh e))]
    cases e with
    | r2HashMismatch =>
      rw [if_pos (by rfl)]
      simp only [KeyRefresh.verifyMessages, KeyRefresh.evidence2, KeyRefresh.Msg2.open, AuxGen.Msg2.open, Out.bind_assoc, everything_cur, everything_prev]
      rfl
    | r3ShareChangeMismatch k y =>
      rw [if_neg (by simp [Err.round])]
      rfl
    | r3ModFailed | r3FacFailed | r3WrongIdsHatPsi | r3SchFailed => rw [if_neg (by simp [Err.round])]; rfl
    | _ => rfl

/-- **C56 (key refresh, rejected messages).** As `C56_key_init_blame`. -/
theorem C56_refresh_blame (E : KeyRefresh.Env I Sid F G) (hg : E.g ≠ 0) (hashV : Sid → I → KeyRefresh.Hashed I G → V) (ids : Finset I) (sid : Sid) (me : I)
    (d : KeyRefresh.Draws I F) (c : KeyRefresh.Context I F G Sid) (hc : KeyRefresh.start E ids sid me d = .ok c) (in1 : List (I × V)) (capVs : BMap I V)
    (h1 : collect c.otherIds (KeyRefresh.recv1 : I → V → Out (RecvErr (KeyRefresh.Err I F)) V) in1 = .ok capVs) (j : I) (v : V) (hj : (j, v) ∈ in1)
    (m2 : KeyRefresh.Msg2 I G) (m3 : KeyRefresh.Msg3 I F) (echos1 : BMap I V) (echos2 : BMap I (KeyRefresh.Echo2 I G))
    (echos3 : BMap I (BMap I (SchProof F))) :
    (∀ e, KeyRefresh.recv2 E hashV c.sid c.allIds capVs j m2 = .err (.protocol e) →
      KeyRefresh.verifyMessages E hashV sid ids j e (supply (KeyRefresh.transcript v m2 m3 echos1 echos2 echos3) e.round e.required) = .ok true) ∧
    (∀ in2 r3 e, KeyRefresh.toRound3 E hashV c in1 in2 = .ok r3 → (j, m2) ∈ in2 →
      EchosAgainst ids me j (KeyRefresh.msg2 c).echo (in2.map fun a => (a.1, a.2.echo)) echos2 → KeyRefresh.recv3 E r3 j m3 = .err (.protocol e) →
      KeyRefresh.verifyMessages E hashV sid ids j e (supply (KeyRefresh.transcript v m2 m3 echos1 echos2 echos3) e.round e.required) = .ok true) := by
  have hsid : c.sid = sid ∧ c.allIds = ids := by
    obtain ⟨hme, _, _, _, _, _, rfl⟩ := KeyRefresh.start_ok hc
    exact ⟨rfl, by simp [KeyRefresh.hctx]⟩
  constructor
  · intro e h
    have hev := (C45_refresh_round2 E hashV c in1 capVs h1 j v hj m2).1 e h
    rw [(C56_refresh_verdict E hashV sid ids j e v m2 m3 echos1 echos2 echos3).2.2]
    rw [hsid.1, hsid.2] at hev
    cases e with
    | r3ShareChangeMismatch | r3ModFailed | r3FacFailed | r3WrongIdsHatPsi | r3SchFailed => cases hev
    | _ => exact hev
  · intro in2 r3 e hr hm hec h
    have hev := (C45_refresh_round3 E hg hashV ids sid me d c hc in1 in2 r3 hr j m2 hm m3 echos2 hec).1 e h
    rw [(C56_refresh_verdict E hashV sid ids j e v m2 m3 echos1 echos2 echos3).2.2]
    cases e with
    | r3ShareChangeMismatch | r3ModFailed | r3FacFailed | r3WrongIdsHatPsi | r3SchFailed => rw [if_neg (by simp [Err.round])]; exact hev
    | _ => cases hev

end KeyRefresh
section Signing
open Signing
variable {q : Nat} [Fact q.Prime] {Ep G : Type} [AddCommGroup G] [Module (ZMod q) G] [DecidableEq G]

/-- **C56 (signing), partial.** The same for every error of signing except for a failed aff-g* proof of round 6, as long as there are no normal broadcasts in the rounds 5
and 6, as is the case for every party that follows the protocol. -/
theorem C56_signing_partial (E : Signing.Env q I Ep G) (named : Bool) (a : AssocData q I Ep G) (guilty : I) (e : Signing.Err I)
    (he : ∀ j, e ≠ .affGStarFailed true j) (t : Transcript I (Signing.Parts q I G)) (h5 : t.msg 5 .normal = none) (h6 : t.msg 6 .normal = none) :
    SelfContained t e.required (Signing.verifyMessages E named a guilty e) := by
  intro p hg h
  obtain ⟨h1, h2, h3⟩ := contains_reads h
  cases e with
  | r1EncElg0Failed | r1EncElg1Failed =>
    have a1 := h1 .echo (by simp [Err.required])
    have a2 := h1 .direct (by simp [Err.required])
    simp only [Signing.verifyMessages, a1, a2]
  | r2WrongIdsD | r2WrongIdsPsi =>
    have a1 := h1 .normal (by simp [Err.required])
    simp only [Signing.verifyMessages, a1]
  | r2WrongIdsF =>
    have a1 := h1 .echo (by simp [Err.required])
    simp only [Signing.verifyMessages, a1]
  | r2AffGPsiFailed j =>
    have a1 := h1 .echo (by simp [Err.required])
    have a2 := h1 .normal (by simp [Err.required])
    have a3 := h3 1 (by simp [Err.required])
    simp only [Signing.verifyMessages, a1, a2, a3]
  | r2AffGHatPsiFailed j =>
    have a1 := h1 .echo (by simp [Err.required])
    have a2 := h1 .normal (by simp [Err.required])
    have a3 := h3 1 (by simp [Err.required])
    simp only [Signing.verifyMessages, a1, a2, a3]
  | r2ElogFailed =>
    have a1 := h1 .echo (by simp [Err.required])
    have a2 := h1 .normal (by simp [Err.required])
    have a3 := h2 1 .echo (by simp [Err.required])
    simp only [Signing.verifyMessages, a1, a2, a3]
  | r3ElogFailed =>
    have a1 := h1 .normal (by simp [Err.required])
    have a2 := h2 1 .echo (by simp [Err.required])
    have a3 := h2 2 .echo (by simp [Err.required])
    simp only [Signing.verifyMessages, a1, a2, a3]
  | r4InvalidSignatureShare =>
    have a1 := h1 .normal (by simp [Err.required])
    have a2 := h2 2 .echo (by simp [Err.required])
    have a3 := h2 3 .echo (by simp [Err.required])
    have a4 := h2 3 .normal (by simp [Err.required])
    have a5 := h3 2 (by simp [Err.required])
    have a6 := h3 3 (by simp [Err.required])
    simp only [Signing.verifyMessages, a1, a2, a3, a4, a5, a6]
  | decFailed hat =>
    cases hat
    all_goals
      have a1 := h1 .echo (by simp [Err.required])
      have a2 := h2 1 .echo (by simp [Err.required])
      have a3 := h2 2 .echo (by simp [Err.required])
      have a4 := h2 2 .normal (by simp [Err.required])
      have a5 := h2 3 .normal (by simp [Err.required])
      have a6 := h3 2 (by simp [Err.required])
      simp only [Signing.verifyMessages, a1, a2, a3, a4, a5, a6]
  | wrongIdsPsi hat =>
    cases hat
    · have hn : p.current .normal = none := by
        cases hc : p.current .normal with
        | none => rfl
        | some m => exact absurd ((hg.1 _ _ hc).symm.trans h5) (by simp)
      have a1 : p.cur .normal = (everything t 5).cur .normal := by
        show Out.ofOption () _ = Out.ofOption () _
        rw [hn]; exact (congrArg (Out.ofOption ()) h5).symm
      simp only [Signing.verifyMessages, a1]
      rfl
    · have hn : p.current .normal = none := by
        cases hc : p.current .normal with
        | none => rfl
        | some m => exact absurd ((hg.1 _ _ hc).symm.trans h6) (by simp)
      have a1 : p.cur .normal = (everything t 6).cur .normal := by
        show Out.ofOption () _ = Out.ofOption () _
        rw [hn]; exact (congrArg (Out.ofOption ()) h6).symm
      simp only [Signing.verifyMessages, a1]
      rfl
  | affGStarFailed hat j =>
    cases hat
    · have a1 := h1 .echo (by simp [Err.required])
      have a2 := h2 2 .echo (by simp [Err.required])
      have a3 := h2 2 .normal (by simp [Err.required])
      have a4 := h3 1 (by simp [Err.required])
      have a5 := h3 2 (by simp [Err.required])
      simp only [Signing.verifyMessages, a1, a2, a3, a4, a5]
    · exact absurd rfl (he j)

private theorem nodup_required_signing (e : Signing.Err I) : (e.required.previous.map Prod.fst).Nodup := by
  rcases e with _ | _ | _ | _ | _ | _ | _ | _ | _ | _ | (_ | _) | (_ | _) | ⟨_ | _, _⟩ <;> simp [Err.required]

private theorem bind_twice {α β ε : Type} (x : Out ε α) (f : α → Out ε β) : (x.bind fun _ => x.bind f) = x.bind f := by
  cases x <;> rfl

/-- **C56 (signing).** All declared messages are messages that the accused party sends, and the check of what the session layer attaches is the check that C45, C46 and
C52 are about. (For the errors in a wrong set of proofs in the rounds 5 and 6 and for a failed aff-g* proof of round 6 this check is the one that always fails.) -/
theorem C56_signing_verdict (E : Signing.Env q I Ep G) (named : Bool) (a : AssocData q I Ep G) (guilty : I) (m1 : Signing.Msg1 q G) (m2 : Signing.Msg2 q I G)
    (m3 : Signing.Msg3 q G) (sigma : ZMod q) (m5 m6 : Signing.MsgErr I G) (echos1 : BMap I (Signing.Echo1 G)) (echos2 : BMap I (Signing.Echo2 I G))
    (echos3 : BMap I (ZMod q)) (echos5 echos6 : BMap I (Signing.MsgErr I G)) (e : Signing.Err I) :
    (∀ part ∈ e.required.current,
      ((Signing.transcript m1 m2 m3 (some sigma) (some m5) (some m6) echos1 echos2 echos3 echos5 echos6).msg e.round part).isSome) ∧
    (∀ x ∈ e.required.previous, ∀ part ∈ x.2,
      ((Signing.transcript m1 m2 m3 (some sigma) (some m5) (some m6) echos1 echos2 echos3 echos5 echos6).msg x.1 part).isSome) ∧
    Signing.verifyMessages E named a guilty e
        (supply (Signing.transcript m1 m2 m3 (some sigma) (some m5) (some m6) echos1 echos2 echos3 echos5 echos6) e.round e.required) =
      match e.round with
      | 1 => Signing.evidence1 E a guilty m1 e
      | 2 => Signing.evidence2 E a guilty m1.echo m2 echos1 e
      | 3 => Signing.evidence3 E a guilty m1.echo m2.echo m3 e
      | 4 => Signing.evidence4 E a m2.echo m3 sigma echos2 echos3 e
      | 5 => Signing.evidenceErr E named a guilty m1.echo m2 m3 m5 echos1 echos2 e
      | _ => Signing.evidenceErr E named a guilty m1.echo m2 m3 m6 echos1 echos2 e := by
  refine ⟨?_, ?_, ?_⟩
  · rcases e with _ | _ | _ | _ | _ | _ | _ | _ | _ | _ | (_ | _) | (_ | _) | ⟨_ | _, _⟩ <;> simp [Err.required, Err.round, Signing.transcript]
  · rcases e with _ | _ | _ | _ | _ | _ | _ | _ | _ | _ | (_ | _) | (_ | _) | ⟨_ | _, _⟩ <;> simp [Err.required, Signing.transcript]
  · by_cases he : ∃ j, e = .affGStarFailed true j
    · obtain ⟨j, rfl⟩ := he
      rfl
    · rw [C56_signing_partial E named a guilty e (fun j hj => he ⟨j, hj⟩) _ rfl rfl _ (supply_genuine _ _) (supply_contains _ _ (nodup_required_signing e))]
      rcases e with _ | _ | _ | _ | _ | j | j | _ | _ | _ | (_ | _) | (_ | _) | ⟨_ | _, j⟩
      all_goals try rfl
      · exact bind_twice _ _
      · exact bind_twice _ _
      · cases named <;> rfl
      · exact absurd ⟨j, rfl⟩ he

/-- **C56 (signing) is false for a failed aff-g* proof of round 6:** the check reads a message of round 2 that is not declared. What the session layer attaches is
rejected whatever the accused party sent; with all of its messages, the check would go on to the proof. -/
theorem C56_signing_round6_undeclared (E : Signing.Env q I Ep G) (named : Bool) (a : AssocData q I Ep G) (guilty failedFor : I) (t : Transcript I (Signing.Parts q I G)) :
    Signing.verifyMessages E named a guilty (.affGStarFailed true failedFor) (supply t 6 (Err.required (.affGStarFailed true failedFor))) = .err () ∧
    ∀ (forAux fromAux : PublicAux) (nb2 : Signing.Normal2 q I G) (m : Signing.MsgErr I G) (capX : G) (capD capF : Nat) (r1 : Signing.Echo1 G)
      (r2 : Signing.Echo2 I G) (psi : AffGStarProof G),
      a.aux.get? failedFor = some forAux → a.aux.get? guilty = some fromAux → forAux.pk % 2 = 1 → fromAux.pk % 2 = 1 → a.shares.get? failedFor = some capX →
      t.msg 2 .normal = some nb2 → t.msg 6 .echo = some m → nb2.hatCapDs.get? failedFor = some capD → (t.combined 1).get? failedFor = some r1 →
      (t.combined 2).get? failedFor = some r2 → r2.hatCapFs.get? guilty = some capF → m.psis.get? failedFor = some psi →
      Signing.verifyMessages E named a guilty (.affGStarFailed true failedFor) (everything t 6) =
        (Signing.starVerify E fromAux.pk forAux.pk psi (.ofWire forAux.pk capD) (.ofWire forAux.pk r1.capK) (.ofWire fromAux.pk capF) capX (a.epid, guilty)).bind
          fun ok => .ok (!ok) := by
  refine ⟨rfl, ?_⟩
  intro forAux fromAux nb2 m capX capD capF r1 r2 psi h1 h2 o1 o2 h3 h4 h5 h6 h7 h8 h9 h10
  simp only [Signing.verifyMessages]
  simp only [Package.echos, Package.prev, Package.cur, everything, AssocData.auxOf, h1, h2, Out.ofOption_some, Out.bind_ok, publicModulusNew, o1, o2, h3, h4]
  refine (congrArg (fun x => Out.bind (Out.ofOption () x) _) (show t.msg 6 .echo = some m from h5)).trans ?_
  simp only [Out.ofOption_some, Out.bind_ok, if_true, h6, h7, h8, h9, h10]

end Signing

/-! ### Concrete cases -/

section Examples
attribute [local instance] Toy.fact11 Toy.order11

/-- Key initialization: party 1 committed to the value 5 and revealed one that hashes to 3. The declared messages convince; without the one of round 1 they would not. -/
example : KeyInit.verifyMessages (fun (_ : Nat) (_ : Nat) d => d.capX) (fun _ => 0) (1 : ZMod 11) 9 1 .r2HashMismatch
      (supply (KeyInit.transcript (5 : ZMod 11) ⟨[true], 3, 4, []⟩ (⟨0, 0⟩ : SchProof (ZMod 11)) BMap.empty BMap.empty) 2 (KeyInit.Err.required .r2HashMismatch)) =
      .ok true ∧
    KeyInit.verifyMessages (fun (_ : Nat) (_ : Nat) d => d.capX) (fun _ => 0) (1 : ZMod 11) 9 1 .r2HashMismatch
      (supply (KeyInit.transcript (5 : ZMod 11) ⟨[true], 3, 4, []⟩ (⟨0, 0⟩ : SchProof (ZMod 11)) BMap.empty BMap.empty) 2 ⟨[.echo, .normal], [], []⟩) = .err () := by
  constructor <;> decide

/-- The hypotheses of `C56_key_init_blame`: party 2 receives the two messages of party 1 -/
example : collect {1} (KeyInit.recv1 : Nat → ZMod 11 → Out (RecvErr KeyInit.Err) (ZMod 11)) [(1, 5)] = .ok (BMap.ofList [(1, 5)]) ∧
    KeyInit.recv2 (fun (_ : Nat) (_ : Nat) (d : KeyInit.PublicData (ZMod 11)) => d.capX)
      ⟨(⟨{1}, 2, (0 : ZMod 11), 0, ⟨0, 0, [], []⟩, 9⟩ : KeyInit.Context Nat (ZMod 11) (ZMod 11) Nat), BMap.ofList [(1, 5)]⟩ 1 ⟨[true], 3, 4, []⟩ =
      .err (.protocol .r2HashMismatch) :=
  ⟨rfl, rfl⟩

/-- Key refresh: party 1 sent a map of changes without an entry for party 2; its broadcast alone shows it. -/
example (E : KeyRefresh.Env Nat Nat (ZMod 11) (ZMod 11)) (m3 : KeyRefresh.Msg3 Nat (ZMod 11)) :
    KeyRefresh.verifyMessages E (fun _ _ _ => (0 : Nat)) 9 {1, 2} 1 .r2WrongIdsX
      (supply (KeyRefresh.transcript 0 ⟨⟨⟨15, 2, 4⟩, BMap.ofList [(1, 1), (2, 1)], []⟩, BMap.ofList [(1, 0)], BMap.empty, 15, ⟨[], [], []⟩, []⟩
        m3 BMap.empty BMap.empty BMap.empty) 2 (KeyRefresh.Err.required (I := Nat) (F := ZMod 11) .r2WrongIdsX)) =
      .ok true :=
  (C56_refresh_verdict E _ 9 {1, 2} 1 .r2WrongIdsX 0 _ m3 _ _ _).2.2.trans (congrArg Out.ok (by decide))

/-- Signing: party 1 with modulus 35 is accused of a wrong aff-g* proof of round 6 for party 2 with modulus 77. The declared messages do not decide: with them the
evidence is malformed, with all messages the check fails an assertion. -/
example : ∃ t, ¬ SelfContained t (Signing.Err.required (.affGStarFailed true 2)) (Signing.verifyMessages Toy.signEnv false
    ⟨7, BMap.ofList [(2, 1)], BMap.ofList [(1, ⟨35, ⟨35, 2, 4⟩⟩), (2, ⟨77, ⟨77, 2, 4⟩⟩)], 5⟩ (1 : Nat) (.affGStarFailed true 2)) := by
  refine ⟨Signing.transcript ⟨⟨2, 3, 1, 1, 1, 1, 1⟩, ⟨0, 0, 0, 0, 0, 0, ⟨1, 0⟩, 0, 0, ⟨1, 0⟩⟩, ⟨0, 0, 0, 0, 0, 0, ⟨1, 0⟩, 0, 0, ⟨1, 0⟩⟩⟩
    ⟨⟨1, BMap.empty, BMap.empty⟩, BMap.empty, BMap.ofList [(2, 5)], ⟨1, 1, 1, 1, 1, 1⟩, BMap.empty, BMap.empty⟩ ⟨1, 1, ⟨1, 1, 1, 1, 1, 1⟩, 1⟩ none none
    (some ⟨⟨[], [], []⟩, BMap.ofList [(2, ⟨[true], [], []⟩)]⟩) (BMap.ofList [(2, ⟨2, 3, 1, 1, 1, 1, 1⟩)])
    (BMap.ofList [(2, ⟨1, BMap.empty, BMap.ofList [(1, 6)]⟩)]) BMap.empty BMap.empty BMap.empty, fun h => ?_⟩
  have h' := h _ (supply_genuine _ _) (supply_contains _ _ (by decide))
  have h2 := (C56_signing_round6_undeclared Toy.signEnv false _ (1 : Nat) 2 _).1.symm.trans (h'.trans
    ((C56_signing_round6_undeclared Toy.signEnv false _ (1 : Nat) 2 _).2 ⟨77, ⟨77, 2, 4⟩⟩ ⟨35, ⟨35, 2, 4⟩⟩ _ _ 1 5 6 ⟨2, 3, 1, 1, 1, 1, 1⟩
      ⟨1, BMap.empty, BMap.ofList [(1, 6)]⟩ ⟨[true], [], []⟩ (by decide) (by decide) (by decide) (by decide) (by decide) rfl rfl (by decide) rfl rfl
      (by decide) rfl))
  cases h2

end Examples

end Synedrion.Props
