import Verif.Model.PointHashing
import Verif.Props.CurveBytes
import Verif.Lemmas.Session
import Verif.Lemmas.ToyAux
import Verif.Lemmas.ToySigningRun
import Verif.Props.KeyRefresh

/-!
# Property C58 in the protocols: received points that are the identity
-/

set_option linter.unusedSectionVars false

namespace Synedrion.Props
open Spec

variable {ε G : Type} [AddCommGroup G]

/-- **C58 (several points).** Serializing points panics exactly when the identity is among them; otherwise it succeeds. -/
theorem C58_points_panic_iff {S : Sec1 G} (hS : Sec1Laws S) (pts : List G) :
    ((0 : G) ∈ pts → (pointsToBytes S pts : Out ε _) = .panic) ∧ ((0 : G) ∉ pts → ∃ bs, (pointsToBytes S pts : Out ε _) = .ok bs) := by
  induction pts with
  | nil => exact ⟨fun h => absurd h (by simp), fun _ => ⟨[], rfl⟩⟩
  | cons p pts ih =>
    simp only [pointsToBytes, Out.mapM'] at ih ⊢
    constructor
    · intro h
      by_cases hp : p = 0
      · rw [(C58_point_panics_iff hS p).2 hp]; rfl
      · obtain ⟨b, hb, -⟩ := C58_point_round_trip_partial (ε := ε) hS p hp
        rw [hb, Out.bind_ok, ih.1 (by rcases List.mem_cons.1 h with h | h; exact absurd h.symm hp; exact h)]; rfl
    · intro h
      simp only [List.mem_cons, not_or] at h
      obtain ⟨b, hb, -⟩ := C58_point_round_trip_partial (ε := ε) hS p (fun e => h.1 e.symm)
      obtain ⟨bs, hbs⟩ := ih.2 h.2
      exact ⟨b :: bs, by rw [hb, Out.bind_ok, hbs, Out.bind_ok]⟩

section KeyRefresh
open KeyRefresh
variable {I F Sid V : Type} [LinearOrder I] [Field F] [LinearOrder F] [Module F G] [DecidableEq G] [DecidableEq V]

/-- **C58 (key refresh, agreement with the model).** If no received point is the identity, the round is the modelled one. -/
theorem C58_refresh_agrees {S : Sec1 G} (hS : Sec1Laws S) (E : Env I Sid F G) (hashV : Sid → I → Hashed I G → V) (sid : Sid) (allIds : Finset I) (capVs : BMap I V) (sender : I)
    (m : Msg2 I G) (hX : 0 ∉ m.capXs.values) (hY : 0 ∉ m.echo.capYs.values) (hA : 0 ∉ m.capAs.values) :
    recv2Checked S E hashV sid allIds capVs sender m = recv2 E hashV sid allIds capVs sender m := by
  rw [recv2Checked]
  cases h : (m.open : Out (RecvErr (Err I F)) _) with
  | err e => rw [recv2, h]; rfl
  | panic => rw [recv2, h]; rfl
  | ok data =>
    have hd : data.capXs = m.capXs ∧ data.capYs = m.echo.capYs ∧ data.capAs = m.capAs := by
      simp only [Msg2.open, Out.bind_eq_ok] at h
      obtain ⟨b, -, h⟩ := h
      cases h
      exact ⟨rfl, rfl, rfl⟩
    obtain ⟨bs, hbs⟩ := (C58_points_panic_iff (ε := RecvErr (Err I F)) hS data.points).2 (by
      simp only [PublicData.points, hd.1, hd.2.1, hd.2.2, List.mem_append, not_or]
      exact ⟨⟨hX, hY⟩, hA⟩)
    rw [Out.bind_ok, hbs]
    cases hv : capVs.get? sender with
    | none => rw [recv2, h, Out.bind_ok, recvGet, hv]; rfl
    | some v => rw [recvGet, hv, Out.ofOption_some, Out.bind_ok, Out.bind_ok]

/-- **C47, C58 (key refresh).** A peer whose message opens and contains the identity among its points crashes the receiver. -/
theorem C58_refresh_identity_panics {S : Sec1 G} (hS : Sec1Laws S) (E : Env I Sid F G) (hashV : Sid → I → Hashed I G → V) (sid : Sid) (allIds : Finset I) (capVs : BMap I V)
    (sender : I) (hs : sender ∈ capVs.keySet) (m : Msg2 I G) (hopen : (m.open : Out (RecvErr (Err I F)) _).isOk)
    (h0 : 0 ∈ m.capXs.values ∨ 0 ∈ m.echo.capYs.values ∨ 0 ∈ m.capAs.values) :
    recv2Checked S E hashV sid allIds capVs sender m = .panic := by
  obtain ⟨v, hv⟩ : ∃ v, capVs.get? sender = some v := by
    cases h : capVs.get? sender with
    | some v => exact ⟨v, rfl⟩
    | none => exact absurd (BMap.mem_keySet.1 hs) (BMap.get?_eq_none_iff.1 h)
  cases h : (m.open : Out (RecvErr (Err I F)) _) with
  | err e => rw [h] at hopen; cases hopen
  | panic => rw [h] at hopen; cases hopen
  | ok data =>
    have hd : data.capXs = m.capXs ∧ data.capYs = m.echo.capYs ∧ data.capAs = m.capAs := by
      simp only [Msg2.open, Out.bind_eq_ok] at h
      obtain ⟨b, -, h⟩ := h
      cases h
      exact ⟨rfl, rfl, rfl⟩
    rw [recv2Checked, h, Out.bind_ok, recvGet, hv, Out.ofOption_some, Out.bind_ok, (C58_points_panic_iff hS data.points).1]
    · rfl
    · simp only [PublicData.points, hd.1, hd.2.1, hd.2.2, List.mem_append]
      tauto

/-- **C58 (key refresh with one party).** The only share change of a single party is zero, so an honest party refreshing alone crashes before its first message, whatever it draws. -/
theorem C58_refresh_alone_panics {S : Sec1 G} (hS : Sec1Laws S) (E : Env I Sid F G) (hashV : Sid → I → Hashed I G → V) (sid : Sid) (id : I) (d : Draws I F)
    (c : Context I F G Sid) (hc : start E {id} sid id d = .ok c) : (msg1Checked S hashV c : Out ε _) = .panic := by
  have h0 : (0 : G) ∈ c.data.points := by
    simp only [start, Finset.mem_singleton, not_true_eq_false, if_false, Out.bind_eq_ok] at hc
    obtain ⟨x, -, parts, hp, hc⟩ := hc
    simp only [Finset.card_singleton, Shamir.secretSplit, if_true] at hp
    cases hp
    cases hc
    have hx : (BMap.ofList ((bsetIter ({id} : Finset I)).zip [(0 : F)])).mapVals (fun _ x => x • E.g) =
        (BMap.empty.insert id (0 : F)).mapVals (fun _ x => x • E.g) := by
      rw [bsetIter_eq_sort, Finset.sort_singleton]; rfl
    simp only [PublicData.points, List.mem_append, hx]
    refine .inl (.inl ?_)
    simp [BMap.mapVals, BMap.values, BMap.insert, BMap.insertList, BMap.empty]
  rw [msg1Checked, (C58_points_panic_iff hS _).1 h0]; rfl

section Concrete
attribute [local instance] Toy.fact11 Toy.order11

/-- Party 1 starts a refresh alone with honest draws. -/
example : ∃ (E : Env Nat Nat (ZMod 11) (ZMod 11)) (d : Draws Nat (ZMod 11)) (c : Context Nat (ZMod 11) (ZMod 11) Nat), start E {1} 7 1 d = .ok c ∧
    (msg1Checked Toy.sec1 (fun s i h => (s, i, h)) c : Out Unit _) = .panic := by
  obtain ⟨c, hc⟩ := (C38_start (⟨Toy.auxEnv, 1, fun h => h.commitment + 3, fun _ _ i p => p + i⟩ : Env Nat Nat (ZMod 11) (ZMod 11)) 2 {1} 7 1
    ⟨Toy.auxDraws 1, fun n => (n : ℕ), fun j => (j : ℕ), fun j => (j + 2 : ℕ)⟩ (Toy.auxDraws_valid 1 (by decide))).1 (by decide)
  exact ⟨_, _, c, hc, C58_refresh_alone_panics Toy.sec1_laws _ _ _ _ _ c hc⟩

/-- Party 2 sends share changes of which one is zero. -/
example : ∃ (capVs : BMap Nat Nat) (m : Msg2 Nat (ZMod 11)), 2 ∈ capVs.keySet ∧ (m.open : Out (RecvErr (Err Nat (ZMod 11))) _).isOk = true ∧ 0 ∈ m.capXs.values :=
  ⟨BMap.empty.insert 2 9, ⟨⟨⟨15, 2, 4⟩, BMap.empty, [true]⟩, (BMap.empty.insert 1 4).insert 2 0, BMap.empty, 21, ⟨[], [], []⟩, []⟩, by decide +kernel, by decide +kernel,
    by decide +kernel⟩

end Concrete

end KeyRefresh

section Signing
open Signing
variable {q : Nat} {I Ep : Type} [LinearOrder I] [Fact q.Prime] [Module (ZMod q) G] [DecidableEq G]

/-- **C58 (signing, agreement with the model).** If no received point is the identity, round 1 is the modelled one. -/
theorem C58_signing_agrees {S : Sec1 G} (hS : Sec1Laws S) (E : Env q I Ep G) (c : Context q I Ep G) (sender : I) (m : Msg1 q G)
    (h : ∀ p ∈ [m.psi0.capY, m.psi0.capZ, m.psi1.capY, m.psi1.capZ, m.echo.capY, m.echo.capA1, m.echo.capA2, m.echo.capB1, m.echo.capB2], p ≠ 0) :
    recv1Checked S E c sender m = recv1 E c sender m := by
  simp only [List.mem_cons, List.not_mem_nil, or_false, forall_eq_or_imp, forall_eq] at h
  obtain ⟨h1, h2, h3, h4, h5, h6, h7, h8, h9⟩ := h
  have hp0 : ∀ pk, (0 : G) ∉ encElgPoints m.psi0 (m.echo.pub0 pk) := fun pk => by
    simp [encElgPoints, Echo1.pub0, h1.symm, h2.symm, h5.symm, h6.symm, h7.symm]
  have hp1 : ∀ pk, (0 : G) ∉ encElgPoints m.psi1 (m.echo.pub1 pk) := fun pk => by
    simp [encElgPoints, Echo1.pub1, h3.symm, h4.symm, h5.symm, h8.symm, h9.symm]
  have e0 : ∀ pk, ∃ bs, (pointsToBytes S (encElgPoints m.psi0 (m.echo.pub0 pk)) : Out (RecvErr (Err I)) _) = .ok bs :=
    fun pk => (C58_points_panic_iff hS _).2 (hp0 pk)
  have e1 : ∀ pk, ∃ bs, (pointsToBytes S (encElgPoints m.psi1 (m.echo.pub1 pk)) : Out (RecvErr (Err I)) _) = .ok bs :=
    fun pk => (C58_points_panic_iff hS _).2 (hp1 pk)
  rw [recv1Checked, recv1]
  refine congrArg _ (funext fun mine => congrArg _ (funext fun theirs => ?_))
  obtain ⟨b0, e0⟩ := e0 theirs.pk
  obtain ⟨b1, e1⟩ := e1 theirs.pk
  simp only [encElgVerifyChecked, e0, e1, Out.bind_ok]

/-- **C47, C58 (signing).** A peer that sends the identity as one of its points in round 1 crashes the receiver: no proof is even looked at. -/
theorem C58_signing_identity_panics {S : Sec1 G} (hS : Sec1Laws S) (E : Env q I Ep G) (c : Context q I Ep G) (sender : I) (m : Msg1 q G)
    (hme : c.myId ∈ c.pubAux.keySet) (hs : sender ∈ c.pubAux.keySet)
    (h0 : m.psi0.capY = 0 ∨ m.psi0.capZ = 0 ∨ m.echo.capY = 0 ∨ m.echo.capA1 = 0 ∨ m.echo.capA2 = 0) :
    recv1Checked S E c sender m = .panic := by
  have get : ∀ i ∈ c.pubAux.keySet, ∃ v, c.pubAux.get? i = some v := fun i hi => by
    cases h : c.pubAux.get? i with
    | some v => exact ⟨v, rfl⟩
    | none => exact absurd (BMap.mem_keySet.1 hi) (BMap.get?_eq_none_iff.1 h)
  obtain ⟨mine, hmine⟩ := get _ hme
  obtain ⟨theirs, htheirs⟩ := get _ hs
  have hp : (0 : G) ∈ encElgPoints m.psi0 (m.echo.pub0 theirs.pk) := by
    simp only [encElgPoints, Echo1.pub0, List.mem_cons, List.not_mem_nil, or_false]
    rcases h0 with h | h | h | h | h <;> simp [h]
  simp only [recv1Checked, recvGet, hmine, htheirs, Out.ofOption_some, Out.bind_ok, encElgVerifyChecked, (C58_points_panic_iff hS _).1 hp]
  rfl

section Concrete
attribute [local instance] Toy.fact11 Toy.order11
open Toy (arrivals)

/-- In the run of three parties, party 1 sends the honest message with its first point replaced. -/
example : ∃ (c : Context 11 Nat Nat (ZMod 11)) (m : Msg1 11 (ZMod 11)) (p : Payload1 (ZMod 11)), recv1 Toy.signEnv c 1 m = .ok p ∧
    recv1Checked Toy.sec1 Toy.signEnv c 1 { m with echo := { m.echo with capY := 0 } } = .panic := by
  obtain ⟨infos, S, m1, o, -, -, -, -, hE, -, -, -, -, -, h1, -⟩ := Toy.signRun
  have hacc := (h1 1 (by decide) 2 (by decide) (by decide)).accepted
  rw [hE] at hacc
  have hk : (S.ctx 2).myId ∈ (S.ctx 2).pubAux.keySet ∧ 1 ∈ (S.ctx 2).pubAux.keySet := by
    have h := hacc
    simp only [recv1, recvGet, Out.bind_eq_ok, Out.ofOption_eq_ok] at h
    obtain ⟨a, ha, b, hb, -⟩ := h
    exact ⟨BMap.mem_keySet.2 (BMap.mem_keys_iff.2 ⟨a, ha⟩), BMap.mem_keySet.2 (BMap.mem_keys_iff.2 ⟨b, hb⟩)⟩
  exact ⟨S.ctx 2, m1 1 2, _, hacc, C58_signing_identity_panics Toy.sec1_laws _ _ _ _ hk.1 hk.2 (.inr (.inr (.inl rfl)))⟩

end Concrete

end Signing
end Synedrion.Props
