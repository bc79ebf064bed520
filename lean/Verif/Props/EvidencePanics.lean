import Verif.Model.KeyInit
import Verif.Model.KeyResharing
import Verif.Spec.EvidenceAux
import Verif.Lemmas.SigningErrPanics
import Verif.Lemmas.KeyRefresh
import Verif.Props.SigningEvidence
import Verif.Props.SigningPanics
import Verif.Lemmas.ToySigningRun
import Verif.Lemmas.ToyAux

/-!
# C67: checking evidence must not crash whoever checks it
-/

set_option linter.unusedSectionVars false

namespace Synedrion.Props

open Synedrion Spec

private theorem precomputed_ok {ε : Type} {w : RPParamsWire} (h : w.modulus % 2 = 1) :
    (w.toPrecomputed : Out ε _) = .ok ⟨(w.baseRandomizer : ZMod w.modulus), (w.baseValue : ZMod w.modulus)⟩ := by
  unfold RPParamsWire.toPrecomputed publicModulusNew
  rw [if_pos h]; rfl

private theorem precomputed_panic {ε : Type} {w : RPParamsWire} : (w.toPrecomputed : Out ε _) = .panic ↔ w.modulus % 2 = 0 := by
  unfold RPParamsWire.toPrecomputed publicModulusNew
  split
  · constructor
    · intro h; cases h
    · omega
  · constructor
    · omega
    · intro _; rfl

private theorem modulus_panic {ε : Type} {N : Nat} : (publicModulusNew N : Out ε _) = .panic ↔ N % 2 = 0 := by
  unfold publicModulusNew
  split
  · constructor
    · intro h; cases h
    · omega
  · constructor
    · omega
    · intro _; rfl

private theorem bind_panic_iff {ε α β : Type} {x : Out ε α} {f : α → Out ε β} : x.bind f = .panic ↔ x = .panic ∨ ∃ a, x = .ok a ∧ f a = .panic := by
  cases x <;> simp

private theorem ofOption_panic {α : Type} {o : Option α} : ¬ (Out.ofOption () o = .panic) := by cases o <;> simp

/-! ### Key generation -/

section KeyInit

variable {F : Type} [Field F] [LinearOrder F] {I G V Sid : Type} [LinearOrder I] [AddCommGroup G] [Module F G] [DecidableEq G] [DecidableEq V]

/-- **C67 (key generation, partial).** Full property: no evidence makes its check panic. The check of a round 2 error never panics. That of a round 3 error panics
exactly if one of the supplied round 2 echo broadcasts has a random string of another length than the one of the accused party. -/
theorem C67_key_init_partial (hashV : Sid → I → KeyInit.PublicData G → V) (H : SchHash G (KeyInit.SchAux I Sid) → F) (g : G) (sid : Sid) (guilty : I) (m1 : V)
    (m2 : KeyInit.Msg2 G) (psi : SchProof F) (echos : BMap I (List Bool)) :
    KeyInit.evidence2 hashV sid guilty m1 m2 ≠ .panic ∧
    (KeyInit.evidence3 H g sid guilty m2 psi echos = .panic ↔ ∃ j rho, echos.get? j = some rho ∧ rho.length ≠ m2.rho.length) := by
  refine ⟨by simp [KeyInit.evidence2], ?_⟩
  unfold KeyInit.evidence3
  rw [bind_panic_iff, xorAll_eq_panic]
  constructor
  · rintro (⟨x, hx, hne⟩ | ⟨_, _, h⟩)
    · obtain ⟨⟨j, rho⟩, he, rfl⟩ := List.mem_map.1 hx
      exact ⟨j, _, BMap.get?_eq_some_iff.2 he, hne⟩
    · cases h
  · rintro ⟨j, rho, hj, hne⟩
    exact .inl ⟨rho, List.mem_map.2 ⟨_, BMap.get?_eq_some_iff.1 hj, rfl⟩, hne⟩

end KeyInit

/-! ### Auxiliary info generation -/

section AuxGen

variable {I V Sid : Type} [LinearOrder I] [DecidableEq V]

private theorem fac_ne_panic {Aux : Type} {P : Params} (hmw : P.modBits < P.wide) (H : FacHash Aux → SInt) {N0 : Nat} (hN0 : N0 < 2 ^ P.modBits) {w : RPParamsWire}
    (hw : WellFormedRP w) (psi : FacProof) (h1 : Nat.Coprime psi.capP w.modulus) (h2 : Nat.Coprime psi.capQ w.modulus) (aux : Aux) (rp : RPParams w.modulus)
    (hrp : (w.toPrecomputed : Out Unit _) = .ok rp) : (psi.verify P H N0 rp aux : Out Unit _) ≠ .panic := by
  rw [precomputed_ok hw.1] at hrp
  cases hrp
  obtain ⟨b, hb⟩ := FacProof.verify_no_panic (ε := Unit) hmw H hN0 ⟨(w.baseRandomizer : ZMod w.modulus), (w.baseValue : ZMod w.modulus)⟩
    ⟨(ZMod.isUnit_iff_coprime _ _).2 hw.2.1, (ZMod.isUnit_iff_coprime _ _).2 hw.2.2⟩ aux psi ((ZMod.isUnit_iff_coprime _ _).2 h1)
    ((ZMod.isUnit_iff_coprime _ _).2 h2)
  rw [hb]; simp

/-- **C67 (auxiliary info, partial).** The check of a round 2 error panics only if the accused party sent an even modulus. That of a round 3 error panics only if
the accused party sent an even or too large modulus, or one of the supplied echo broadcasts of round 2 has a random string of another length or ring-Pedersen
parameters that are not well-formed, or the commitments of the factoring proof are not invertible modulo its ring-Pedersen modulus. -/
theorem C67_aux_gen_partial (E : AuxEnv I Sid) (hP : E.P.modBits < E.P.wide) (hashV : Sid → I → AuxGen.Hashed → V) (sid : Sid) (guilty : I) (m1 : V) (m2 : AuxGen.Msg2)
    (m3 : AuxGen.Msg3) (echos : BMap I AuxGen.Echo2) (e : AuxGen.Err I) :
    (AuxGen.evidence2 E hashV sid guilty m1 m2 e = .panic → m2.pk % 2 = 0 ∨ m2.echo.rp.modulus % 2 = 0) ∧
    (AuxGen.evidence3 E sid guilty m2 m3 echos e = .panic → m2.pk % 2 = 0 ∨ 2 ^ E.P.modBits ≤ m2.pk ∨
      ∃ j echo, echos.get? j = some echo ∧ BadEcho m2.echo.rid m3.psi echo.rid echo.rp) := by
  have hrid : ∀ {f : List Bool → Evidence}, (AuxGen.reconstructRid m2.echo.rid (echos.mapVals fun _ e => e.rid)).bind f = .panic →
      (∃ j echo, echos.get? j = some echo ∧ BadEcho m2.echo.rid m3.psi echo.rid echo.rp) ∨ ∃ rid, f rid = .panic := by
    intro f h
    rcases bind_panic_iff.1 h with h | ⟨rid, _, h⟩
    · obtain ⟨x, hx, hne⟩ := xorAll_eq_panic.1 h
      obtain ⟨⟨j, rho⟩, he, rfl⟩ := List.mem_map.1 hx
      have := BMap.get?_eq_some_iff.2 he
      rw [BMap.get?_mapVals] at this
      obtain ⟨echo, hj, rfl⟩ := Option.map_eq_some_iff.1 this
      exact .inl ⟨j, echo, hj, .inl hne⟩
    · exact .inr ⟨rid, h⟩
  constructor
  · intro h
    cases e with
    | r2HashMismatch =>
      rcases bind_panic_iff.1 h with h | ⟨_, _, h⟩
      · exact Synedrion.Msg2.open_eq_panic.1 h
      · cases h
    | r2PrmFailed =>
      rcases bind_panic_iff.1 h with h | ⟨_, _, h⟩
      · exact .inr (precomputed_panic.1 h)
      · cases h
    | _ => cases h
  · intro h
    cases e with
    | r3ModFailed =>
      rcases hrid h with h | ⟨rid, h⟩
      · exact .inr (.inr h)
      · rcases bind_panic_iff.1 h with h | ⟨_, _, h⟩
        · exact .inl (modulus_panic.1 h)
        · cases h
    | r3FacFailed by' =>
      rcases hrid h with h | ⟨rid, h⟩
      · exact .inr (.inr h)
      rcases bind_panic_iff.1 h with h | ⟨echo, he, h⟩
      · exact absurd h ofOption_panic
      rcases bind_panic_iff.1 h with h | ⟨pk, hpk, h⟩
      · exact .inl (modulus_panic.1 h)
      have hpk' : pk = m2.pk := by
        unfold publicModulusNew at hpk
        split at hpk <;> cases hpk
        rfl
      subst hpk'
      by_cases hbig : 2 ^ E.P.modBits ≤ m2.pk
      · exact .inr (.inl hbig)
      refine .inr (.inr ⟨by', echo, Out.ofOption_eq_ok.1 he, ?_⟩)
      by_contra hbad
      unfold BadEcho at hbad
      push Not at hbad
      rcases bind_panic_iff.1 h with h | ⟨rp, hrp, h⟩
      · have := precomputed_panic.1 h
        have := hbad.2.1.1
        omega
      rcases bind_panic_iff.1 h with h | ⟨_, _, h⟩
      · exact fac_ne_panic hP _ (not_le.1 hbig) hbad.2.1 _ hbad.2.2.1 hbad.2.2.2 _ rp hrp h
      · cases h
    | _ => cases h

/-- **C67 is false of auxiliary info generation.** Whoever sent an even modulus, or a random string of another length than another party, has signed messages
whose check as evidence panics, whatever else they contain. -/
theorem C67_aux_gen_panics (E : AuxEnv I Sid) (hashV : Sid → I → AuxGen.Hashed → V) (sid : Sid) (guilty : I) (m1 : V) (m2 : AuxGen.Msg2)
    (m3 : AuxGen.Msg3) (echos : BMap I AuxGen.Echo2) :
    (m2.pk % 2 = 0 ∨ m2.echo.rp.modulus % 2 = 0 → AuxGen.evidence2 E hashV sid guilty m1 m2 .r2HashMismatch = .panic) ∧
    (m2.echo.rp.modulus % 2 = 0 → AuxGen.evidence2 E hashV sid guilty m1 m2 .r2PrmFailed = .panic) ∧
    (m2.pk % 2 = 0 → AuxGen.evidence3 E sid guilty m2 m3 echos .r3ModFailed = .panic) ∧
    ∀ j echo, echos.get? j = some echo → echo.rid.length ≠ m2.echo.rid.length →
      AuxGen.evidence3 E sid guilty m2 m3 echos .r3ModFailed = .panic ∧ ∀ i, AuxGen.evidence3 E sid guilty m2 m3 echos (.r3FacFailed i) = .panic := by
  refine ⟨fun h => bind_panic_iff.2 (.inl (Synedrion.Msg2.open_eq_panic.2 h)), fun h => bind_panic_iff.2 (.inl (precomputed_panic.2 h)), fun h => ?_, fun j echo hj hne => ?_⟩
  · refine bind_panic_iff.2 ?_
    cases hx : (AuxGen.reconstructRid m2.echo.rid (echos.mapVals fun _ e => e.rid)) with
    | panic => exact .inl rfl
    | err e => exact absurd hx xorAll_ne_err
    | ok rid => exact .inr ⟨rid, rfl, bind_panic_iff.2 (.inl (modulus_panic.2 h))⟩
  · have : AuxGen.reconstructRid m2.echo.rid (echos.mapVals fun _ e => e.rid) = .panic := by
      refine xorAll_eq_panic.2 ⟨echo.rid, List.mem_map.2 ⟨(j, echo.rid), ?_, rfl⟩, hne⟩
      rw [← BMap.get?_eq_some_iff, BMap.get?_mapVals, hj]; rfl
    exact ⟨bind_panic_iff.2 (.inl this), fun i => bind_panic_iff.2 (.inl this)⟩

end AuxGen

/-! ### Key refresh -/

section KeyRefresh

variable {F : Type} [Field F] [LinearOrder F] {I G V Sid : Type} [LinearOrder I] [AddCommGroup G] [Module F G] [DecidableEq G] [DecidableEq V]

private theorem refresh_rid {psi : FacProof} {own : KeyRefresh.Echo2 I G} {echos : BMap I (KeyRefresh.Echo2 I G)} {f : List Bool → Evidence}
    (h : (KeyRefresh.reconstructRid own echos).bind f = .panic) :
    (∃ j echo, echos.get? j = some echo ∧ BadEcho own.rid psi echo.rid echo.rp) ∨ ∃ rid, f rid = .panic := by
  rcases bind_panic_iff.1 h with h | ⟨rid, _, h⟩
  · obtain ⟨x, hx, hne⟩ := xorAll_eq_panic.1 h
    obtain ⟨echo, he, rfl⟩ := List.mem_map.1 hx
    obtain ⟨⟨j, echo'⟩, he', rfl⟩ := List.mem_map.1 he
    exact .inl ⟨j, _, BMap.get?_eq_some_iff.2 he', .inl hne⟩
  · exact .inr ⟨rid, h⟩

/-- **C67 (key refresh, partial).** As for auxiliary info generation. -/
theorem C67_refresh_partial (E : KeyRefresh.Env I Sid F G) (hP : E.aux.P.modBits < E.aux.P.wide) (hashV : Sid → I → KeyRefresh.Hashed I G → V) (sid : Sid) (ids : Finset I)
    (guilty : I) (m1 : V) (m2 : KeyRefresh.Msg2 I G) (m3 : KeyRefresh.Msg3 I F) (echos : BMap I (KeyRefresh.Echo2 I G)) (e : KeyRefresh.Err I F) :
    (KeyRefresh.evidence2 E hashV sid ids guilty m1 m2 e = .panic → m2.pk % 2 = 0 ∨ m2.echo.rp.modulus % 2 = 0) ∧
    (KeyRefresh.evidence3 E sid ids guilty m2 m3 echos e = .panic → m2.pk % 2 = 0 ∨ 2 ^ E.aux.P.modBits ≤ m2.pk ∨
      ∃ j echo, echos.get? j = some echo ∧ BadEcho m2.echo.rid m3.psi echo.rid echo.rp) := by
  constructor
  · intro h
    cases e with
    | r2HashMismatch =>
      rcases bind_panic_iff.1 h with h | ⟨_, _, h⟩
      · rcases bind_panic_iff.1 h with h | ⟨_, _, h⟩
        · exact Synedrion.Msg2.open_eq_panic.1 h
        · cases h
      · cases h
    | r2PrmFailed =>
      rcases bind_panic_iff.1 h with h | ⟨_, _, h⟩
      · exact .inr (precomputed_panic.1 h)
      · cases h
    | _ => cases h
  · intro h
    cases e with
    | r3ShareChangeMismatch by' y =>
      unfold KeyRefresh.evidence3 at h
      rcases bind_panic_iff.1 h with h | ⟨_, _, h⟩
      · exact absurd h ofOption_panic
      rcases bind_panic_iff.1 h with h | ⟨_, _, h⟩
      · exact absurd h ofOption_panic
      split at h
      · cases h
      rcases refresh_rid (psi := m3.psi) h with h | ⟨rid, h⟩
      · exact .inr (.inr h)
      rcases bind_panic_iff.1 h with h | ⟨_, _, h⟩
      · exact absurd h ofOption_panic
      rcases bind_panic_iff.1 h with h | ⟨_, _, h⟩
      · exact absurd h ofOption_panic
      cases h
    | r3ModFailed =>
      rcases refresh_rid (psi := m3.psi) h with h | ⟨rid, h⟩
      · exact .inr (.inr h)
      · rcases bind_panic_iff.1 h with h | ⟨_, _, h⟩
        · exact .inl (modulus_panic.1 h)
        · cases h
    | r3FacFailed by' =>
      rcases refresh_rid (psi := m3.psi) h with h | ⟨rid, h⟩
      · exact .inr (.inr h)
      rcases bind_panic_iff.1 h with h | ⟨echo, he, h⟩
      · exact absurd h ofOption_panic
      rcases bind_panic_iff.1 h with h | ⟨pk, hpk, h⟩
      · exact .inl (modulus_panic.1 h)
      have hpk' : pk = m2.pk := by
        unfold publicModulusNew at hpk
        split at hpk <;> cases hpk
        rfl
      subst hpk'
      by_cases hbig : 2 ^ E.aux.P.modBits ≤ m2.pk
      · exact .inr (.inl hbig)
      refine .inr (.inr ⟨by', echo, Out.ofOption_eq_ok.1 he, ?_⟩)
      by_contra hbad
      unfold BadEcho at hbad
      push Not at hbad
      rcases bind_panic_iff.1 h with h | ⟨rp, hrp, h⟩
      · have := precomputed_panic.1 h
        have := hbad.2.1.1
        omega
      rcases bind_panic_iff.1 h with h | ⟨_, _, h⟩
      · exact fac_ne_panic hP _ (not_le.1 hbig) hbad.2.1 _ hbad.2.2.1 hbad.2.2.2 _ rp hrp h
      · cases h
    | r3SchFailed by' =>
      rcases refresh_rid (psi := m3.psi) h with h | ⟨rid, h⟩
      · exact .inr (.inr h)
      rcases bind_panic_iff.1 h with h | ⟨_, _, h⟩
      · exact absurd h ofOption_panic
      rcases bind_panic_iff.1 h with h | ⟨_, _, h⟩
      · exact absurd h ofOption_panic
      rcases bind_panic_iff.1 h with h | ⟨_, _, h⟩
      · exact absurd h ofOption_panic
      cases h
    | _ => cases h

/-- **C67 is false of key refresh**, for the same reasons. -/
theorem C67_refresh_panics (E : KeyRefresh.Env I Sid F G) (hashV : Sid → I → KeyRefresh.Hashed I G → V) (sid : Sid) (ids : Finset I)
    (guilty : I) (m1 : V) (m2 : KeyRefresh.Msg2 I G) (m3 : KeyRefresh.Msg3 I F) (echos : BMap I (KeyRefresh.Echo2 I G)) :
    (m2.pk % 2 = 0 ∨ m2.echo.rp.modulus % 2 = 0 → KeyRefresh.evidence2 E hashV sid ids guilty m1 m2 .r2HashMismatch = .panic) ∧
    (m2.echo.rp.modulus % 2 = 0 → KeyRefresh.evidence2 E hashV sid ids guilty m1 m2 .r2PrmFailed = .panic) ∧
    (m2.pk % 2 = 0 → KeyRefresh.evidence3 E sid ids guilty m2 m3 echos .r3ModFailed = .panic) ∧
    ∀ j echo, echos.get? j = some echo → echo.rid.length ≠ m2.echo.rid.length →
      KeyRefresh.evidence3 E sid ids guilty m2 m3 echos .r3ModFailed = .panic ∧ (∀ i, KeyRefresh.evidence3 E sid ids guilty m2 m3 echos (.r3FacFailed i) = .panic) ∧
      ∀ i, KeyRefresh.evidence3 E sid ids guilty m2 m3 echos (.r3SchFailed i) = .panic := by
  refine ⟨fun h => bind_panic_iff.2 (.inl (KeyRefresh.open_of_even h)), fun h => bind_panic_iff.2 (.inl (precomputed_panic.2 h)), fun h => ?_, fun j echo hj hne => ?_⟩
  · refine bind_panic_iff.2 ?_
    cases hx : (KeyRefresh.reconstructRid m2.echo echos) with
    | panic => exact .inl rfl
    | err e => exact absurd hx xorAll_ne_err
    | ok rid => exact .inr ⟨rid, rfl, bind_panic_iff.2 (.inl (modulus_panic.2 h))⟩
  · have : KeyRefresh.reconstructRid m2.echo echos = .panic := by
      refine xorAll_eq_panic.2 ⟨echo.rid, List.mem_map.2 ⟨echo, List.mem_map.2 ⟨(j, echo), BMap.get?_eq_some_iff.1 hj, rfl⟩, rfl⟩, hne⟩
    exact ⟨bind_panic_iff.2 (.inl this), fun i => bind_panic_iff.2 (.inl this), fun i => bind_panic_iff.2 (.inl this)⟩

end KeyRefresh

/-! ### Signing -/

section Signing

open Signing

variable {q : Nat} [Fact q.Prime] {I Ep G : Type} [LinearOrder I] [AddCommGroup G] [Module (ZMod q) G] [DecidableEq G]

private theorem auxOf_ok {a : AssocData q I Ep G} {id : I} {p : PublicAux} (h : a.auxOf id = .ok p) : a.aux.get? id = some p := Out.ofOption_eq_ok.1 h

private theorem modulus_ok {ε : Type} {N pk : Nat} (h : (publicModulusNew N : Out ε _) = .ok pk) : pk = N := by
  unfold publicModulusNew at h
  split at h <;> cases h
  rfl

private theorem modulus_ne_panic {ε : Type} {N : Nat} (h : N % 2 = 1) : (publicModulusNew N : Out ε _) ≠ .panic := by
  intro hp
  have := modulus_panic.1 hp
  omega

private theorem valid_of_wire {w : RPParamsWire} (hw : WellFormedRP w) : RPParams.Valid (⟨(w.baseRandomizer : ZMod w.modulus), (w.baseValue : ZMod w.modulus)⟩ : RPParams w.modulus) :=
  ⟨(ZMod.isUnit_iff_coprime _ _).2 hw.2.1, (ZMod.isUnit_iff_coprime _ _).2 hw.2.2⟩

private theorem precompute_of {ε : Type} {p : PublicAux} (h1 : p.pk % 2 = 1) (h2 : WellFormedRP p.rp) :
    ∃ b, (precompute p : Out ε _) = .ok b ∧ b.pk = p.pk ∧ b.rp.rp.Valid := by
  unfold precompute
  rw [show (publicModulusNew p.pk : Out ε _) = .ok p.pk from if_pos h1, precomputed_ok h2.1]
  exact ⟨_, rfl, rfl, valid_of_wire h2⟩

private theorem affG_evidence_ne_panic {E : Env q I Ep G} (hq : q < 2 ^ E.P.numBits) {a : AssocData q I Ep G} (ha : WellFormedAux a.aux) {guilty failedFor : I}
    {echos1 : BMap I (Echo1 G)} {capX : Out Unit G} (hX : capX ≠ .panic) {psis : BMap I (AffGProof q G)} {capDs capFs : BMap I Nat}
    (h : evidenceAffG E a guilty failedFor echos1 capX psis capDs capFs = .panic) :
    (∃ r p, echos1.get? failedFor = some r ∧ a.aux.get? failedFor = some p ∧ ¬ Nat.Coprime r.capK p.pk) ∨
    ∃ w p, capFs.get? failedFor = some w ∧ a.aux.get? guilty = some p ∧ ¬ Nat.Coprime w p.pk := by
  by_contra hcon
  push Not at hcon
  refine absurd h ?_
  unfold evidenceAffG
  refine Out.bind_ne_panic ofOption_ne_panic fun r1 hr1 => Out.bind_ne_panic hX fun X _ => Out.bind_ne_panic ofOption_ne_panic fun fa hfa =>
    Out.bind_ne_panic ofOption_ne_panic fun ga hga => ?_
  have w1 := ha _ _ (auxOf_ok hfa)
  have w2 := ha _ _ (auxOf_ok hga)
  rw [precomputed_ok w1.2.1, Out.bind_ok]
  refine Out.bind_ne_panic (modulus_ne_panic w1.1) fun fpk hfpk => Out.bind_ne_panic (modulus_ne_panic w2.1) fun gpk hgpk =>
    Out.bind_ne_panic ofOption_ne_panic fun D _ => Out.bind_ne_panic ofOption_ne_panic fun Fw hF => Out.bind_ne_panic ofOption_ne_panic fun psi _ =>
    Out.bind_ne_panic ?_ fun _ _ => by simp
  obtain rfl := modulus_ok hfpk
  obtain rfl := modulus_ok hgpk
  unfold affGVerify
  simp only [Cipher.ofWire, Cipher.under_self, Out.bind_ok]
  exact affG_ne_panic hq _ _ _ _ (isUnit_ctOfWire (hcon.1 _ _ (Out.ofOption_eq_ok.1 hr1) (auxOf_ok hfa)))
    (isUnit_ctOfWire (hcon.2 _ _ (Out.ofOption_eq_ok.1 hF) (auxOf_ok hga))) (valid_of_wire w1.2) _

private theorem dec_evidence_ne_panic {E : Env q I Ep G} {a : AssocData q I Ep G} (ha : WellFormedAux a.aux) {guilty : I} {e1 : Echo1 G} {capDs : BMap I Nat}
    {capFs : I → Out Unit Nat} (hF : ∀ i, capFs i ≠ .panic) {capX : Out Unit G} (hX : capX ≠ .panic) {capS capG : G} {psiStar : DecProof G}
    (h : evidenceDec E a guilty e1 capDs capFs capX capS capG psiStar = .panic) : ∃ p, a.aux.get? guilty = some p ∧ ¬ Nat.Coprime e1.capK p.pk := by
  by_contra hcon
  push Not at hcon
  refine absurd h ?_
  unfold evidenceDec
  refine Out.bind_ne_panic ofOption_ne_panic fun p hp => ?_
  have w := ha _ _ (auxOf_ok hp)
  obtain ⟨b, hb, hbp, -⟩ := precompute_of (ε := Unit) w.1 w.2
  rw [hb, Out.bind_ok]
  have k1 := Cipher.sumNonEmpty_keyed (e := ()) (N := b.pk)
    (l := (bsetIter (a.others guilty)).map fun id => (Out.ofOption () (capDs.get? id)).bind fun d => .ok (Cipher.ofWire b.pk d)) (by
      intro x hx
      obtain ⟨id, _, rfl⟩ := List.mem_map.1 hx
      refine ⟨Out.bind_ne_panic ofOption_ne_panic fun _ _ => by simp, fun c hc => ?_⟩
      obtain ⟨d, -, hc⟩ := Out.bind_eq_ok.1 hc
      cases hc; rfl)
  have k2 := Cipher.sumNonEmpty_keyed (e := ()) (N := b.pk)
    (l := (bsetIter (a.others guilty)).map fun id => (capFs id).bind fun f => .ok (Cipher.ofWire b.pk f)) (by
      intro x hx
      obtain ⟨id, _, rfl⟩ := List.mem_map.1 hx
      refine ⟨Out.bind_ne_panic (hF _) fun _ _ => by simp, fun c hc => ?_⟩
      obtain ⟨d, -, hc⟩ := Out.bind_eq_ok.1 hc
      cases hc; rfl)
  have hagg : evidenceAggregate b.pk (a.others guilty) capDs capFs ≠ .panic ∧ ∀ c, evidenceAggregate b.pk (a.others guilty) capDs capFs = .ok c →
      c.pk = b.pk ∧ (a.others guilty).Nonempty := by
    unfold evidenceAggregate
    refine ⟨Out.bind_ne_panic k1.1 fun d hd => Out.bind_ne_panic k2.1 fun f hf => Cipher.add_ne_panic ((k2.2 _ hf).trans (k1.2 _ hd).symm), fun c hc => ?_⟩
    obtain ⟨d, hd, hc⟩ := Out.bind_eq_ok.1 hc
    obtain ⟨f, hf, hc⟩ := Out.bind_eq_ok.1 hc
    refine ⟨(Cipher.add_pk hc).trans (k1.2 _ hd), ?_⟩
    rw [Finset.nonempty_iff_ne_empty]
    intro he
    rw [he] at hd
    cases hd
  refine Out.bind_ne_panic hagg.1 fun D hD => Out.bind_ne_panic hX fun X _ => Out.bind_ne_panic (Cipher.under_ne_panic (hagg.2 _ hD).1) fun d _ =>
    Out.bind_ne_panic (dec_ne_panic _ _ _ _ ?_ ?_ _ _) fun _ _ => by simp
  · exact isUnit_ctOfWire (by rw [hbp]; exact hcon _ (auxOf_ok hp))
  · obtain ⟨j, hj⟩ := (hagg.2 _ hD).2
    have hg : guilty ∈ a.aux.keySet := BMap.mem_keySet.2 (BMap.mem_keys_iff.2 ⟨_, auxOf_ok hp⟩)
    have hj' := Finset.mem_erase.1 hj
    exact Finset.one_lt_card.2 ⟨j, hj'.2, guilty, hg, hj'.1⟩

/-- **C67 (signing, partial).** Full property: no evidence makes its check panic. With well-formed auxiliary data it does not for the errors of rounds 1, 3 and 4.
For those of round 2 it panics only if a supplied ciphertext is not invertible: the `K` of the party that the failed proof is for, or an `F` that the accused
party made. For those of rounds 5 and 6 it panics only if the `K` of the accused party is not invertible, or for a failed aff-g* proof of round 5. -/
theorem C67_signing_partial (E : Env q I Ep G) (hq : q < 2 ^ E.P.numBits) (named : Bool) (a : AssocData q I Ep G) (ha : WellFormedAux a.aux) (guilty : I) (e : Err I) :
    (∀ m, evidence1 E a guilty m e ≠ .panic) ∧
    (∀ e1 m echos1, evidence2 E a guilty e1 m echos1 e = .panic →
      (∃ j r p, echos1.get? j = some r ∧ a.aux.get? j = some p ∧ ¬ Nat.Coprime r.capK p.pk) ∨
      ∃ j w p, (m.echo.capFs.get? j = some w ∨ m.echo.hatCapFs.get? j = some w) ∧ a.aux.get? guilty = some p ∧ ¬ Nat.Coprime w p.pk) ∧
    (∀ e1 e2 m, evidence3 E a guilty e1 e2 m e ≠ .panic) ∧
    (∀ e2 m3 sigma echos2 echos3, evidence4 E a e2 m3 sigma echos2 echos3 e ≠ .panic) ∧
    ∀ e1 m2 m3 m echos1 echos2, evidenceErr E named a guilty e1 m2 m3 m echos1 echos2 e = .panic →
      (∃ j, e = .affGStarFailed false j) ∨ ∃ p, a.aux.get? guilty = some p ∧ ¬ Nat.Coprime e1.capK p.pk := by
  refine ⟨fun m => ?_, fun e1 m echos1 h => ?_, fun e1 e2 m => ?_, fun e2 m3 sigma echos2 echos3 => ?_, fun e1 m2 m3 m echos1 echos2 h => ?_⟩
  · have key : ∀ p : PublicAux, a.auxOf guilty = .ok p → ∀ (prf : EncElgProof q G) (pub : (N : Nat) → EncElgPublic N G),
        ((precompute p : Out Unit _).bind fun b => (prf.verify E.P E.encH E.C.g (pub b.pk) b.rp.rp (a.epid, guilty) : Out Unit _).bind fun ok => .ok (!ok)) ≠ .panic := by
      intro p hp prf pub
      have w := ha _ _ (auxOf_ok hp)
      obtain ⟨b, hb, -, hv⟩ := precompute_of (ε := Unit) w.1 w.2
      rw [hb, Out.bind_ok]
      exact Out.bind_ne_panic (encElg_ne_panic hq _ _ _ _ hv _) fun _ _ => by simp
    cases e with
    | r1EncElg0Failed => exact Out.bind_ne_panic ofOption_ne_panic fun p hp => key p hp m.psi0 (fun N => m.echo.pub0 N)
    | r1EncElg1Failed => exact Out.bind_ne_panic ofOption_ne_panic fun p hp => key p hp m.psi1 (fun N => m.echo.pub1 N)
    | _ => intro h; cases h
  · cases e with
    | r2AffGPsiFailed j =>
      rcases affG_evidence_ne_panic hq ha (by simp) h with ⟨r, p, h1, h2, h3⟩ | ⟨w, p, h1, h2, h3⟩
      · exact .inl ⟨j, r, p, h1, h2, h3⟩
      · exact .inr ⟨j, w, p, .inl h1, h2, h3⟩
    | r2AffGHatPsiFailed j =>
      rcases affG_evidence_ne_panic hq ha ofOption_ne_panic h with ⟨r, p, h1, h2, h3⟩ | ⟨w, p, h1, h2, h3⟩
      · exact .inl ⟨j, r, p, h1, h2, h3⟩
      · exact .inr ⟨j, w, p, .inr h1, h2, h3⟩
    | _ => cases h
  · cases e <;> (intro h; cases h)
  · cases e with
    | r4InvalidSignatureShare =>
      intro h
      simp only [evidence4] at h
      split at h <;> cases h
    | _ => intro h; cases h
  · cases e with
    | decFailed b =>
      cases b with
      | false => exact .inr (dec_evidence_ne_panic ha (fun i => Out.bind_ne_panic ofOption_ne_panic fun _ _ => ofOption_ne_panic) (by simp) h)
      | true =>
        cases named with
        | true => cases h
        | false => exact .inr (dec_evidence_ne_panic ha (fun i => Out.bind_ne_panic ofOption_ne_panic fun _ _ => ofOption_ne_panic) ofOption_ne_panic h)
    | affGStarFailed b j =>
      cases b with
      | false => exact .inl ⟨j, rfl⟩
      | true => cases h
    | _ => cases h

/-- **C67 is false of signing.** Whatever the session and the broadcast of the other party, a party can choose its message of round 2 so that the check of the
evidence against it panics (unless a challenge happens to be zero): it sends the ciphertext `0`. -/
theorem C67_signing_panics (E : Env q I Ep G) (hE : SigningSetting E) (a : AssocData q I Ep G) (ha : WellFormedAux a.aux) (guilty victim : I) (p pv : PublicAux)
    (hp : a.aux.get? guilty = some p) (hp1 : 1 < p.pk) (hv : a.aux.get? victim = some pv) (e1 : Echo1 G) (echos1 : BMap I (Echo1 G)) (r : Echo1 G)
    (hr : echos1.get? victim = some r) :
    ∃ m : Msg2 q I G, (m.echo.capFs.get? victim = some 0 ∧ ∃ psi, m.psis.get? victim = some psi ∧ ∃ t, t.aux = (a.epid, guilty) ∧ psi.e = E.affH t) ∧
      ((∀ t, t.aux = (a.epid, guilty) → E.affH t ≠ 0) → evidence2 E a guilty e1 m echos1 (.r2AffGPsiFailed victim) = .panic) := by
  have w1 := ha _ _ hv
  have w2 := ha _ _ hp
  obtain ⟨psi, ⟨t, ht, hpe⟩, hpsi⟩ := affG_panic hE (N0 := pv.pk) (N1 := p.pk) (by omega) hp1
    (⟨(pv.rp.baseRandomizer : ZMod pv.rp.modulus), (pv.rp.baseValue : ZMod pv.rp.modulus)⟩ : RPParams pv.rp.modulus) (a.epid, guilty) (ctOfWire pv.pk r.capK) (ctOfWire pv.pk 0)
  refine ⟨⟨⟨E.C.g, BMap.tabulate {victim} fun _ => 0, BMap.empty⟩, BMap.tabulate {victim} fun _ => 0, BMap.empty, ⟨0, 0, 0, 0, 0, 0⟩, BMap.tabulate {victim} fun _ => psi, BMap.empty⟩,
    ⟨?_, psi, ?_, t, ht, hpe⟩, fun hne => ?_⟩
  · rw [BMap.get?_tabulate, if_pos (Finset.mem_singleton_self _)]
  · rw [BMap.get?_tabulate, if_pos (Finset.mem_singleton_self _)]
  · unfold evidence2 evidenceAffG AssocData.auxOf
    simp only [hr, hv, hp, Out.ofOption, Out.bind_ok, BMap.get?_tabulate, if_pos (Finset.mem_singleton_self victim), precomputed_ok w1.2.1]
    rw [show (publicModulusNew pv.pk : Out Unit _) = .ok pv.pk from if_pos w1.1, show (publicModulusNew p.pk : Out Unit _) = .ok p.pk from if_pos w2.1]
    unfold affGVerify
    simp only [Cipher.ofWire, Cipher.under_self, Out.bind_ok]
    rw [hpsi (hpe ▸ hne t ht)]
    rfl

end Signing

/-! ### Resharing -/

/-- **C67 is false of resharing.** Every check of evidence panics: it is not implemented. -/
theorem C67_resharing_panics {F : Type} [Field F] [LinearOrder F] {I G : Type} [LinearOrder I] [AddCommGroup G] [Module F G] [DecidableEq G] (e : KeyResharing.Err) (guilty : I)
    (m : KeyResharing.Msg F G) : KeyResharing.evidence e guilty m = .panic := rfl

/-! ### Examples -/

section Examples

open Signing

attribute [local instance] Toy.fact11 Toy.order11

/-- `C67_key_init_partial`: an echo broadcast with one bit more makes the check panic, one with the same length does not. -/
example : KeyInit.evidence3 (F := ZMod 11) (fun t => (t.aux.id : ZMod 11)) (1 : ZMod 11) (7 : Nat) (1 : Nat) ⟨[true], 2, 3, []⟩ ⟨1, 5⟩
      (BMap.ofList [(2, [false, true]), (3, [true])]) = .panic ∧
    KeyInit.evidence3 (F := ZMod 11) (fun t => (t.aux.id : ZMod 11)) (1 : ZMod 11) (7 : Nat) (1 : Nat) ⟨[true], 2, 3, []⟩ ⟨1, 5⟩
      (BMap.ofList [(2, [false]), (3, [true])]) ≠ .panic := by
  constructor
  · exact (C67_key_init_partial (V := Nat) (fun _ _ _ => 0) _ _ _ _ 0 _ _ _).2.2 ⟨2, [false, true], by decide, by decide⟩
  · decide +kernel

private def toyFac : FacProof := ⟨⟨32, 1⟩, 2, 4, 1, 1, 1, ⟨8, 1⟩, ⟨8, 1⟩, ⟨8, 1⟩, ⟨8, 1⟩, ⟨8, 1⟩⟩

/-- `C67_aux_gen_partial`: the check of a factoring proof made for a well-formed party does not panic. -/
example : AuxGen.evidence3 Toy.auxEnv (7 : Nat) (1 : Nat) ⟨⟨⟨35, 4, 2⟩, [true]⟩, 77, ⟨[], [], []⟩, []⟩ ⟨⟨0, [], []⟩, toyFac⟩ (BMap.ofList [(2, ⟨⟨35, 4, 2⟩, [false]⟩)])
    (.r3FacFailed 2) ≠ .panic := by
  intro h
  rcases (C67_aux_gen_partial Toy.auxEnv (by decide) (V := Nat) (fun _ _ _ => 0) 7 1 0 _ _ _ _).2 h with h | h | ⟨j, echo, hj, h⟩
  · exact absurd h (by decide)
  · exact absurd h (by decide)
  · have := (BMap.get?_ofList_eq_some (by decide)).1 hj
    simp only [List.mem_singleton, Prod.mk.injEq] at this
    obtain ⟨rfl, rfl⟩ := this
    unfold BadEcho WellFormedRP at h
    revert h
    decide

/-- `C67_aux_gen_panics`: an even modulus, and strings of different lengths -/
example : AuxGen.evidence2 Toy.auxEnv (fun _ _ _ => (0 : Nat)) (7 : Nat) (1 : Nat) 0 ⟨⟨⟨35, 4, 2⟩, [true]⟩, 76, ⟨[], [], []⟩, []⟩ .r2HashMismatch = .panic ∧
    AuxGen.evidence3 Toy.auxEnv (7 : Nat) (1 : Nat) ⟨⟨⟨35, 4, 2⟩, [true]⟩, 77, ⟨[], [], []⟩, []⟩ ⟨⟨0, [], []⟩, toyFac⟩
      (BMap.ofList [(2, ⟨⟨35, 4, 2⟩, [false, true]⟩)]) .r3ModFailed = .panic :=
  ⟨(C67_aux_gen_panics Toy.auxEnv _ 7 1 0 _ ⟨⟨0, [], []⟩, toyFac⟩ BMap.empty).1 (.inl (by decide)),
    ((C67_aux_gen_panics Toy.auxEnv (V := Nat) (fun _ _ _ => 0) 7 1 0 _ _ _).2.2.2 2 ⟨⟨35, 4, 2⟩, [false, true]⟩ (by decide) (by decide)).1⟩

private def toyRefresh : KeyRefresh.Env Nat Nat (ZMod 11) (ZMod 11) := ⟨Toy.auxEnv, 1, fun t => (t.aux.2.1 : ZMod 11), fun _ _ i x => i + x⟩

/-- `C67_refresh_partial` -/
example : KeyRefresh.evidence3 toyRefresh 7 {1, 2} 1 ⟨⟨⟨35, 4, 2⟩, BMap.empty, [true]⟩, BMap.empty, BMap.empty, 77, ⟨[], [], []⟩, []⟩
    ⟨BMap.empty, ⟨0, [], []⟩, toyFac, 0⟩ (BMap.ofList [(2, ⟨⟨35, 4, 2⟩, BMap.empty, [false]⟩)]) (.r3FacFailed 2) ≠ .panic := by
  intro h
  rcases (C67_refresh_partial toyRefresh (by decide) (V := Nat) (fun _ _ _ => 0) 7 {1, 2} 1 0 _ _ _ _).2 h with h | h | ⟨j, echo, hj, h⟩
  · exact absurd h (by decide)
  · exact absurd h (by decide)
  · have := (BMap.get?_ofList_eq_some (by decide)).1 hj
    simp only [List.mem_singleton, Prod.mk.injEq] at this
    obtain ⟨rfl, rfl⟩ := this
    unfold BadEcho WellFormedRP at h
    revert h
    decide

/-- `C67_refresh_panics` -/
example : KeyRefresh.evidence2 toyRefresh (fun _ _ _ => (0 : Nat)) 7 {1, 2} 1 0 ⟨⟨⟨36, 4, 2⟩, BMap.empty, [true]⟩, BMap.empty, BMap.empty, 77, ⟨[], [], []⟩, []⟩ .r2PrmFailed = .panic :=
  (C67_refresh_panics toyRefresh _ 7 {1, 2} 1 0 _ ⟨BMap.empty, ⟨0, [], []⟩, toyFac, 0⟩ BMap.empty).2.1 (by decide)

private def toyAssoc : AssocData 11 Nat Nat (ZMod 11) := ⟨7, BMap.empty, BMap.ofList [(1, ⟨35, ⟨35, 2, 4⟩⟩), (2, ⟨77, ⟨77, 2, 4⟩⟩)], 5⟩

private theorem toyAssoc_wellFormed : WellFormedAux toyAssoc.aux := by
  intro id a h
  have := (BMap.get?_ofList_eq_some (by decide)).1 h
  simp only [List.mem_cons, Prod.mk.injEq, List.not_mem_nil, or_false] at this
  rcases this with ⟨rfl, rfl⟩ | ⟨rfl, rfl⟩ <;> exact ⟨by decide, by decide, by decide, by decide⟩

/-- `C67_signing_partial`: with invertible ciphertexts, the check against party 1 for its proof to party 2 does not panic. -/
example : evidence2 Toy.signEnv toyAssoc 1 (⟨2, 3, 1, 1, 1, 1, 1⟩ : Echo1 (ZMod 11))
    ⟨⟨1, BMap.ofList [(2, 6)], BMap.empty⟩, BMap.ofList [(2, 5)], BMap.empty, ⟨1, 1, 1, 1, 1, 1⟩,
      BMap.ofList [(2, ⟨3, 0, 1, 0, 0, 0, 0, 0, ⟨33, 1⟩, ⟨8, 1⟩, ⟨8, 1⟩, ⟨8, 1⟩, 0, 0⟩)], BMap.empty⟩
    (BMap.ofList [(2, ⟨2, 3, 1, 1, 1, 1, 1⟩)]) (.r2AffGPsiFailed 2) ≠ .panic := by
  intro h
  rcases (C67_signing_partial Toy.signEnv (by decide) false toyAssoc toyAssoc_wellFormed 1 _).2.1 _ _ _ h with ⟨j, r, p, h1, h2, h3⟩ | ⟨j, w, p, h1, h2, h3⟩
  · have k1 := (BMap.get?_ofList_eq_some (by decide)).1 h1
    have k2 := (BMap.get?_ofList_eq_some (by decide)).1 h2
    simp only [List.mem_cons, Prod.mk.injEq, List.not_mem_nil, or_false] at k1 k2
    obtain ⟨rfl, rfl⟩ := k1
    rcases k2 with ⟨hj, rfl⟩ | ⟨-, rfl⟩
    · exact absurd hj (by decide)
    · exact h3 (by decide)
  · have hw : w = 6 := by
      rcases h1 with h1 | h1
      · have k1 := (BMap.get?_ofList_eq_some (by decide)).1 h1
        simp only [List.mem_cons, Prod.mk.injEq, List.not_mem_nil, or_false] at k1
        exact k1.2
      · cases h1
    subst hw
    have : p = ⟨35, ⟨35, 2, 4⟩⟩ := Option.some.inj (h2.symm.trans (by decide))
    subst this
    exact h3 (by decide)

/-- `C67_signing_panics`: party 1 sends the ciphertext 0 to party 2. -/
example : ∃ m : Msg2 11 Nat (ZMod 11), evidence2 Toy.signEnv toyAssoc 1 ⟨2, 3, 1, 1, 1, 1, 1⟩ m (BMap.ofList [(2, ⟨2, 3, 1, 1, 1, 1, 1⟩)]) (.r2AffGPsiFailed 2) = .panic := by
  obtain ⟨m, -, hm⟩ := C67_signing_panics Toy.signEnv Toy.signEnv_setting toyAssoc toyAssoc_wellFormed 1 2 ⟨35, ⟨35, 2, 4⟩⟩ ⟨77, ⟨77, 2, 4⟩⟩ (by decide) (by decide)
    (by decide) ⟨2, 3, 1, 1, 1, 1, 1⟩ (BMap.ofList [(2, ⟨2, 3, 1, 1, 1, 1, 1⟩)]) ⟨2, 3, 1, 1, 1, 1, 1⟩ (by decide)
  refine ⟨m, hm fun t ht => ?_⟩
  show (t.aux.2 : ZMod 11) + 2 ≠ 0
  rw [ht]
  show ((1 : Nat) : ZMod 11) + 2 ≠ 0
  decide

/-- `C67_resharing_panics` -/
example : KeyResharing.evidence KeyResharing.Err.subshareMismatch (1 : Nat) (⟨[3, 4], 1, 5⟩ : KeyResharing.Msg (ZMod 11) (ZMod 11)) = .panic := C67_resharing_panics ..

end Examples

end Synedrion.Props
