import Verif.Lemmas.WireProofs
import Verif.Lemmas.Wire
import Verif.Spec.Signing

/-!
# Lemmas: honest parties send messages that fit their encodings
-/

set_option linter.unusedSectionVars false

namespace Synedrion

open Spec

theorem Spec.Machine.Reached.inv {I M S E R : Type} {P : Spec.Machine I M S E R} {ok : M → Prop} {s₀ s : S} {inv : S → Prop} (h0 : inv s₀)
    (hs : ∀ s got s', inv s → (∀ a ∈ got, ok a.2) → P.next s got = .ok (.inl s') → inv s') (h : P.Reached ok s₀ s) : inv s := by
  induction h with
  | start => exact h0
  | step _ hg hn ih => exact hs _ _ _ ih hg hn

theorem finGet_eq_ok {I V : Type} [LinearOrder I] {m : BMap I V} {k : I} {v : V} : finGet m k = .ok v ↔ m.get? k = some v := Out.ofOption_eq_ok

theorem buildMap_forall {ε I α : Type} [LinearOrder I] {s : Finset I} {f : I → Out ε α} {m : BMap I α} {p : α → Prop} (h : buildMap s f = .ok m)
    (hf : ∀ i ∈ s, ∀ v, f i = .ok v → p v) : AllValues p m := by
  obtain ⟨l, hl, h⟩ := Out.bind_eq_ok.1 h
  rw [← Out.ok.inj h]
  intro v hv
  obtain ⟨i, hi⟩ := BMap.mem_values_ofList hv
  refine mapM'_forall (p := fun e : I × α => p e.2) hl (fun i hi e he => ?_) (i, v) hi
  obtain ⟨v, hv, he⟩ := Out.bind_eq_ok.1 he
  rw [← Out.ok.inj he]
  exact hf i (mem_bsetIter.1 hi) v hv

theorem traverse_forall {ε I α β : Type} [LinearOrder I] {m : BMap I α} {f : I → α → Out ε β} {m' : BMap I β} {p : β → Prop} (h : m.traverse f = .ok m')
    (hf : ∀ i, ∀ v ∈ m.values, ∀ w, f i v = .ok w → p w) : AllValues p m' := by
  obtain ⟨l, hl, h⟩ := Out.bind_eq_ok.1 h
  rw [← Out.ok.inj h]
  intro v hv
  obtain ⟨i, hi⟩ := BMap.mem_values_ofList hv
  refine mapM'_forall (p := fun e : I × β => p e.2) hl (fun a ha e he => ?_) (i, v) hi
  obtain ⟨v, hv, he⟩ := Out.bind_eq_ok.1 he
  rw [← Out.ok.inj he]
  exact hf a.1 a.2 (List.mem_map_of_mem ha) v hv

theorem AllValues.get {I α : Type} [LinearOrder I] {p : α → Prop} {m : BMap I α} (h : AllValues p m) {i : I} {v : α} (hv : m.get? i = some v) : p v :=
  h v (List.mem_map.2 ⟨(i, v), BMap.get?_eq_some_iff.1 hv, rfl⟩)

theorem AllValues.mapVals {I α β : Type} [LinearOrder I] {p : α → Prop} {p' : β → Prop} {m : BMap I α} {f : I → α → β} (h : AllValues p m) (hf : ∀ i a, p a → p' (f i a)) :
    AllValues p' (m.mapVals f) := by
  intro v hv
  obtain ⟨e, he, rfl⟩ := List.mem_map.1 hv
  obtain ⟨e', he', rfl⟩ := List.mem_map.1 (show e ∈ m.entries.map fun e => (e.1, f e.1 e.2) from he)
  exact hf _ _ (h _ (List.mem_map_of_mem he'))

theorem publicModulusNew_eq {ε : Type} {m m' : Nat} (h : (publicModulusNew m : Out ε _) = .ok m') : m = m' ∧ m ≠ 0 := by
  unfold publicModulusNew at h
  split at h
  · cases h; exact ⟨rfl, by omega⟩
  · cases h

theorem AllValues.insert {I α : Type} [LinearOrder I] {p : α → Prop} {m : BMap I α} (h : AllValues p m) (i : I) {v : α} (hv : p v) : AllValues p (m.insert i v) := by
  intro w hw
  obtain ⟨e, he, rfl⟩ := List.mem_map.1 hw
  have h1 : (m.insert i v).get? e.1 = some e.2 := BMap.get?_eq_some_iff.2 he
  rw [BMap.get?_insert] at h1
  split at h1
  · cases h1; exact hv
  · exact AllValues.get h h1

/-- All payloads that are gathered have a property if those of fitting messages have it. -/
theorem gather_forall {I M A E Pl : Type} [LinearOrder I] {expected : Finset I} {part : M → Option A} {recv : I → A → Out (RecvErr E) Pl} {got : List (I × M)} {b : BMap I Pl}
    {p : Pl → Prop} (h : gather expected part recv got = .ok b) (hp : ∀ a ∈ got, ∀ x y, part a.2 = some x → recv a.1 x = .ok y → p y) : AllValues p b := by
  obtain ⟨_, h1, h2, h3⟩ := gather_eq_ok.1 h
  intro v hv
  obtain ⟨e, he, rfl⟩ := List.mem_map.1 hv
  have h4 : b.get? e.1 = some e.2 := BMap.get?_eq_some_iff.2 he
  have h5 : e.1 ∈ expected := by rw [← h2, BMap.mem_keySet]; exact List.mem_map.2 ⟨e, he, rfl⟩
  rw [← h1, List.mem_toFinset, List.mem_map] at h5
  obtain ⟨a, ha, ha'⟩ := h5
  obtain ⟨x, y, hx, hy, hb⟩ := h3 a ha
  rw [ha', h4] at hb
  rw [Option.some.inj hb]
  exact hp a ha x y hx hy

namespace AuxGen

variable {I Sid V : Type} [LinearOrder I] [DecidableEq V] {E : AuxEnv I Sid} {hashV : Sid → I → Hashed → V}

/-- The parts of the message of round 2 -/
def DataFits (P : Params) (d : PublicData) : Prop :=
  ModulusFits P.uint d.rp.modulus ∧ (RPFits P d.rp.rp.toWire ∧ BitsFit d.rid) ∧ d.pk < 2 ^ P.uint ∧ PrmFits P d.psi ∧ BitsFit d.u

/-- A Paillier key that fits -/
def SecretFits (P : Params) (k : PaillierKey) : Prop := k.p ≠ 0 ∧ k.q ≠ 0 ∧ ModulusFits P.uint (k.p * k.q)

theorem makeData_fits {ε : Type} (hE : AuxHashesFit E) {sid : Sid} {id : I} {d : AuxDraws I} (hd : AuxDrawsFit E.P d) {x : PaillierKey × PublicData}
    (h : (makeData E sid id d : Out ε _) = .ok x) : SecretFits E.P x.1 ∧ DataFits E.P x.2 := by
  obtain ⟨sk, h1, h⟩ := Out.bind_eq_ok.1 h
  obtain ⟨_, h2, h⟩ := Out.bind_eq_ok.1 h
  rw [← Out.ok.inj h]
  unfold SecretKey.new at h1
  split at h1
  · cases h1
  · next hpq =>
    rw [not_or] at hpq
    have ho : d.p * d.q % 2 = 1 := by
      obtain ⟨_, h3, _⟩ := Out.bind_eq_ok.1 h1
      by_contra hn
      unfold publicModulusNew at h3
      rw [if_neg hn] at h3
      cases h3
    have ho' : d.rpP * d.rpQ % 2 = 1 := by
      by_contra hn
      unfold publicModulusNew at h2
      rw [if_neg hn] at h2
      cases h2
    have hrp : ModulusFits E.P.uint (d.rpP * d.rpQ) := ⟨(publicModulusNew_eq h2).2, hd.rp⟩
    have odd_lt : ∀ n : Nat, n % 2 = 1 → n ≤ 2 ^ E.P.uint → E.P.uint ≠ 0 → n < 2 ^ E.P.uint := by
      intro n hn hle hu
      refine lt_of_le_of_ne hle fun h => ?_
      have : 2 ∣ 2 ^ E.P.uint := dvd_pow_self 2 hu
      omega
    have ht : (d.rpP - 1) * (d.rpQ - 1) ≤ 2 ^ E.P.uint := (Nat.mul_le_mul (Nat.sub_le ..) (Nat.sub_le ..)).trans hd.rp
    have hu : E.P.uint ≠ 0 := by
      intro h0
      have h1 := hd.rp
      rw [h0, pow_zero] at h1
      have h2 := hd.totient
      have h3 := Nat.pos_of_mul_pos_right h2
      have h4 := Nat.pos_of_mul_pos_left h2
      have h5 : 2 * 2 ≤ d.rpP * d.rpQ := Nat.mul_le_mul (by omega) (by omega)
      omega
    exact ⟨⟨hpq.1, hpq.2, Nat.mul_ne_zero hpq.1 hpq.2, hd.key⟩, hrp, ⟨⟨odd_lt _ ho' hd.rp hu, hrp.val_lt _, hrp.val_lt _⟩, hd.rid⟩, odd_lt _ ho hd.key hu,
      PrmProof.prove_fits hrp hE.prm hd.totient ht hd.prmMasks, hd.u⟩

theorem open_fits {ε : Type} {P : Params} {m : Msg2} {d : PublicData} (hm : m.echo.rp.modulus < 2 ^ P.uint) (h : (m.open : Out ε _) = .ok d) : ModulusFits P.uint d.rp.modulus := by
  obtain ⟨_, _, h⟩ := Out.bind_eq_ok.1 h
  obtain ⟨rp, h2, h⟩ := Out.bind_eq_ok.1 h
  obtain ⟨_, h3, _⟩ := Out.bind_eq_ok.1 h2
  rw [← Out.ok.inj h]
  exact ⟨(publicModulusNew_eq h3).2, hm.le⟩

theorem makeMod_fits {ε : Type} (hE : AuxHashesFit E) {k : PaillierKey} (hk : SecretFits E.P k) {d : Nat} {b : Bool} {aux : Sid × I × List Bool} {psi : ModProof}
    (h : (makeMod E k d b aux : Out ε _) = .ok psi) : ModFits E.P psi :=
  ModProof.prove_fits hk.1 hk.2.1 hk.2.2 (hk.2.2.val_lt _) hE.mod h

theorem makeFac_fits {ε : Type} (hE : AuxHashesFit E) {k : PaillierKey} {rp : RPSetup} (hrp : ModulusFits E.P.uint rp.modulus) {aux : Sid × I × List Bool} {masks : FacMasks}
    {psi : FacProof} (h : (makeFac E k rp aux masks : Out ε _) = .ok psi) : FacFits E.P psi :=
  FacProof.prove_fits hrp hE.fac h

/-- The invariant of a run -/
def StateFits (P : Params) : State I Sid V → Prop
  | .one c => SecretFits P c.key ∧ DataFits P c.data
  | .two c _ => SecretFits P c.key ∧ DataFits P c.data
  | .three _ out => ∀ a ∈ out, ModFits P a.2.psiPrime ∧ FacFits P a.2.psi

theorem recv2_fits {P : Params} {sid : Sid} {capVs : BMap I V} {j : I} {m : Msg2} (hm : m.echo.rp.modulus < 2 ^ P.uint) {p : Payload2}
    (h : recv2 E hashV sid capVs j m = .ok p) : ModulusFits P.uint p.rp.modulus := by
  obtain ⟨d, h1, h⟩ := Out.bind_eq_ok.1 h
  obtain ⟨_, _, h⟩ := Out.bind_eq_ok.1 h
  split at h
  · cases h
  split at h
  · cases h
  split at h
  · cases h
  split at h
  · cases h
  rw [← Out.ok.inj h]
  exact open_fits hm h1

theorem next_fits (hE : AuxHashesFit E) {s s' : State I Sid V} {got : List (I × Message V)} (hs : StateFits E.P s) (hg : ∀ a ∈ got, auxGenMessageFits E.P a.2)
    (h : (machine E hashV).next s got = .ok (.inl s')) : StateFits E.P s' := by
  cases s with
  | one c =>
    obtain ⟨_, _, h⟩ := Out.bind_eq_ok.1 h
    cases Out.ok.inj h
    exact hs
  | two c capVs =>
    obtain ⟨payloads, h1, h⟩ := Out.bind_eq_ok.1 h
    obtain ⟨r3, h2, h⟩ := Out.bind_eq_ok.1 h
    obtain ⟨out, h3, h⟩ := Out.bind_eq_ok.1 h
    cases Out.ok.inj h
    obtain ⟨rid, _, h2⟩ := Out.bind_eq_ok.1 h2
    obtain ⟨psi, hpsi, h2⟩ := Out.bind_eq_ok.1 h2
    have hpl : AllValues (fun p : Payload2 => ModulusFits E.P.uint p.rp.modulus) payloads := gather_forall h1 fun a ha x y hx hy => by
      refine recv2_fits ?_ hy
      have h5 := hg a ha
      cases ha2 : a.2 with
      | one v => rw [ha2] at hx; cases hx
      | three v => rw [ha2] at hx; cases hx
      | two m =>
        rw [ha2] at hx h5
        cases hx
        exact (h5 2 .echo x.echo rfl).1.1
    rw [← Out.ok.inj h2] at h3
    refine mapM'_forall (p := fun a : I × Msg3 => ModFits E.P a.2.psiPrime ∧ FacFits E.P a.2.psi) h3 fun j _ a ha => ?_
    obtain ⟨m, hm, ha⟩ := Out.bind_eq_ok.1 ha
    rw [← Out.ok.inj ha]
    obtain ⟨pl, hp, hm⟩ := Out.bind_eq_ok.1 (finalizeResult_eq_ok.1 hm)
    obtain ⟨psi', hf, hm⟩ := Out.bind_eq_ok.1 hm
    rw [← Out.ok.inj hm]
    exact ⟨makeMod_fits hE hs.1 hpsi, makeFac_fits hE (AllValues.get (AllValues.insert hpl _ hs.2.1) (finGet_eq_ok.1 hp)) hf⟩
  | three r out =>
    obtain ⟨_, _, h⟩ := Out.bind_eq_ok.1 h
    cases Out.ok.inj h

theorem send_fits {s : State I Sid V} (hs : StateFits E.P s) {a : I × Message V} (ha : a ∈ (machine E hashV).send s) : auxGenMessageFits E.P a.2 := by
  cases s with
  | one c =>
    obtain ⟨b, _, rfl⟩ := List.mem_map.1 (show a ∈ (bsetIter c.otherIds).map fun j => (j, Message.one (msg1 hashV c)) from ha)
    intro n p x hx
    rcases p <;> rcases n with _ | _ | _ | _ | n <;> first | (cases hx; done) | trivial
  | two c capVs =>
    obtain ⟨b, _, rfl⟩ := List.mem_map.1 (show a ∈ (bsetIter c.otherIds).map fun j => (j, Message.two (msg2 c)) from ha)
    intro n p x hx
    rcases p <;> rcases n with _ | _ | _ | _ | n <;> first | (cases hx; done) | (cases Option.some.inj hx; first | exact hs.2.2.1 | exact hs.2.2.2)
  | three r out =>
    obtain ⟨b, hb, rfl⟩ := List.mem_map.1 (show a ∈ out.map fun a => (a.1, Message.three a.2) from ha)
    intro n p x hx
    rcases p <;> rcases n with _ | _ | _ | _ | n <;> first | (cases hx; done) | (cases Option.some.inj hx; first | exact (hs b hb).1 | exact (hs b hb).2)

end AuxGen

namespace KeyRefresh

variable {q : Nat} [Fact q.Prime] [LinearOrder (ZMod q)] {I G Sid V : Type} [LinearOrder I] [AddCommGroup G] [Module (ZMod q) G] [DecidableEq G] [DecidableEq V]
  {E : Env I Sid (ZMod q) G} {hashV : Sid → I → Hashed I G → V}

/-- The invariant of a run -/
def StateFits (P : Params) : State I (ZMod q) G Sid V → Prop
  | .one c => AuxGen.SecretFits P c.key ∧ AuxGen.DataFits P c.data.base
  | .two c _ => AuxGen.SecretFits P c.key ∧ AuxGen.DataFits P c.data.base
  | .three _ out => ∀ a ∈ out, ModFits P a.2.psiPrime ∧ FacFits P a.2.psi

theorem recv2_fits {P : Params} {sid : Sid} {ids : Finset I} {capVs : BMap I V} {j : I} {m : Msg2 I G} (hm : m.echo.rp.modulus < 2 ^ P.uint) {p : Payload2 I G}
    (h : recv2 E hashV sid ids capVs j m = .ok p) : ModulusFits P.uint p.base.rp.modulus := by
  obtain ⟨d, h1, h⟩ := Out.bind_eq_ok.1 h
  obtain ⟨_, _, h⟩ := Out.bind_eq_ok.1 h
  obtain ⟨b, hb, h1⟩ := Out.bind_eq_ok.1 h1
  split at h
  · cases h
  split at h
  · cases h
  split at h
  · cases h
  split at h
  · cases h
  split at h
  · cases h
  split at h
  · cases h
  split at h
  · cases h
  split at h
  · cases h
  rw [← Out.ok.inj h, ← Out.ok.inj h1]
  exact AuxGen.open_fits (m := m.base) hm hb

theorem next_fits (hE : AuxHashesFit E.aux) {s s' : State I (ZMod q) G Sid V} {got : List (I × Message I (ZMod q) G V)} (hs : StateFits E.aux.P s)
    (hg : ∀ a ∈ got, keyRefreshMessageFits E.aux.P a.2) (h : (machine E hashV).next s got = .ok (.inl s')) : StateFits E.aux.P s' := by
  cases s with
  | one c =>
    obtain ⟨_, _, h⟩ := Out.bind_eq_ok.1 h
    cases Out.ok.inj h
    exact hs
  | two c capVs =>
    obtain ⟨payloads, h1, h⟩ := Out.bind_eq_ok.1 h
    obtain ⟨r3, h2, h⟩ := Out.bind_eq_ok.1 h
    obtain ⟨out, h3, h⟩ := Out.bind_eq_ok.1 h
    cases Out.ok.inj h
    obtain ⟨rid, _, h2⟩ := Out.bind_eq_ok.1 (finalizeResult_eq_ok.1 h2)
    obtain ⟨psi, hpsi, h2⟩ := Out.bind_eq_ok.1 h2
    obtain ⟨_, _, h2⟩ := Out.bind_eq_ok.1 h2
    have hpl : AllValues (fun p : Payload2 I G => ModulusFits E.aux.P.uint p.base.rp.modulus) payloads := gather_forall h1 fun a ha x y hx hy => by
      refine recv2_fits ?_ hy
      have h5 := hg a ha
      cases ha2 : a.2 with
      | one v => rw [ha2] at hx; cases hx
      | three v => rw [ha2] at hx; cases hx
      | two m =>
        rw [ha2] at hx h5
        cases hx
        exact (h5 2 .echo x.echo rfl).1.1
    rw [← Out.ok.inj h2] at h3
    refine mapM'_forall (p := fun a : I × Msg3 I (ZMod q) => ModFits E.aux.P a.2.psiPrime ∧ FacFits E.aux.P a.2.psi) h3 fun j _ a ha => ?_
    obtain ⟨m, hm, ha⟩ := Out.bind_eq_ok.1 ha
    rw [← Out.ok.inj ha]
    obtain ⟨pl, hp, hm⟩ := Out.bind_eq_ok.1 (finalizeResult_eq_ok.1 hm)
    obtain ⟨psi', hf, hm⟩ := Out.bind_eq_ok.1 hm
    obtain ⟨_, _, hm⟩ := Out.bind_eq_ok.1 hm
    obtain ⟨_, _, hm⟩ := Out.bind_eq_ok.1 hm
    obtain ⟨_, _, hm⟩ := Out.bind_eq_ok.1 hm
    rw [← Out.ok.inj hm]
    exact ⟨AuxGen.makeMod_fits hE hs.1 hpsi, AuxGen.makeFac_fits hE (AllValues.get (AllValues.insert hpl c.myId (v := c.data.payload) hs.2.1) (finGet_eq_ok.1 hp)) hf⟩
  | three r out =>
    obtain ⟨_, _, h⟩ := Out.bind_eq_ok.1 h
    obtain ⟨_, _, h⟩ := Out.bind_eq_ok.1 h
    cases Out.ok.inj h

theorem send_fits {s : State I (ZMod q) G Sid V} (hs : StateFits E.aux.P s) {a : I × Message I (ZMod q) G V} (ha : a ∈ (machine E hashV).send s) :
    keyRefreshMessageFits E.aux.P a.2 := by
  cases s with
  | one c =>
    obtain ⟨b, _, rfl⟩ := List.mem_map.1 (show a ∈ (bsetIter c.otherIds).map fun j => (j, Message.one (msg1 hashV c)) from ha)
    intro n p x hx
    rcases p <;> rcases n with _ | _ | _ | _ | n <;> first | (cases hx; done) | trivial
  | two c capVs =>
    obtain ⟨b, _, rfl⟩ := List.mem_map.1 (show a ∈ (bsetIter c.otherIds).map fun j => (j, Message.two (msg2 c)) from ha)
    intro n p x hx
    rcases p <;> rcases n with _ | _ | _ | _ | n <;> first | (cases hx; done) | (cases Option.some.inj hx; first | exact hs.2.2.1 | exact hs.2.2.2)
  | three r out =>
    obtain ⟨b, hb, rfl⟩ := List.mem_map.1 (show a ∈ out.map fun a => (a.1, Message.three a.2) from ha)
    intro n p x hx
    rcases p <;> rcases n with _ | _ | _ | _ | n <;> first | (cases hx; done) | (cases Option.some.inj hx; first | exact (hs b hb).1 | exact (hs b hb).2 | trivial)

end KeyRefresh

namespace KeyInit

variable {q : Nat} [Fact q.Prime] [LinearOrder (ZMod q)] {I G Sid V : Type} [LinearOrder I] [AddCommGroup G] [Module (ZMod q) G] [DecidableEq G] [DecidableEq V]
  {hashV : Sid → I → PublicData G → V} {H : SchHash G (SchAux I Sid) → ZMod q} {g : G}

/-- The invariant of a run -/
def StateFits : State I (ZMod q) G Sid V → Prop
  | .one c => BitsFit c.data.rho ∧ BitsFit c.data.u
  | .two r => BitsFit r.ctx.data.rho ∧ BitsFit r.ctx.data.u
  | .three _ => True

theorem next_fits {s s' : State I (ZMod q) G Sid V} {got : List (I × Message (ZMod q) G V)} (hs : StateFits s) (h : (machine hashV H g).next s got = .ok (.inl s')) : StateFits s' := by
  cases s with
  | one c =>
    obtain ⟨_, _, h⟩ := Out.bind_eq_ok.1 h
    cases Out.ok.inj h
    exact hs
  | two r =>
    obtain ⟨_, _, h⟩ := Out.bind_eq_ok.1 h
    obtain ⟨_, _, h⟩ := Out.bind_eq_ok.1 h
    cases Out.ok.inj h
    trivial
  | three r =>
    obtain ⟨_, _, h⟩ := Out.bind_eq_ok.1 h
    obtain ⟨_, _, h⟩ := Out.bind_eq_ok.1 h
    cases Out.ok.inj h

theorem send_fits {s : State I (ZMod q) G Sid V} (hs : StateFits s) {a : I × Message (ZMod q) G V} (ha : a ∈ (machine hashV H g).send s) : keyInitMessageFits a.2 := by
  cases s with
  | one c =>
    obtain ⟨b, _, rfl⟩ := List.mem_map.1 (show a ∈ (bsetIter c.otherIds).map fun j => (j, Message.one (msg1 hashV c)) from ha)
    intro n p x hx
    rcases p <;> rcases n with _ | _ | _ | _ | n <;> first | (cases hx; done) | trivial
  | two r =>
    obtain ⟨b, _, rfl⟩ := List.mem_map.1 (show a ∈ (bsetIter r.ctx.otherIds).map fun j => (j, Message.two (msg2 r.ctx)) from ha)
    intro n p x hx
    rcases p <;> rcases n with _ | _ | _ | _ | n <;> first | (cases hx; done) | (cases Option.some.inj hx; first | exact hs.1 | exact hs.2)
  | three r =>
    obtain ⟨b, _, rfl⟩ := List.mem_map.1 (show a ∈ (bsetIter r.ctx.otherIds).map fun j => (j, Message.three (msg3 H r)) from ha)
    intro n p x hx
    rcases p <;> rcases n with _ | _ | _ | _ | n <;> first | (cases hx; done) | trivial

end KeyInit

namespace Signing

variable {q : Nat} [Fact q.Prime] {I Ep G : Type} [LinearOrder I] [AddCommGroup G] [Module (ZMod q) G] [DecidableEq G] {E : Env q I Ep G}

/-- What a party knows from the beginning fits. -/
structure CtxFits (P : Params) (c : Context q I Ep G) : Prop where
  pubAux : AllValues (fun a => KeyFits P a.pk ∧ ModulusFits P.uint a.rp.modulus) c.pubAux
  key : KeyFits P c.key.modulus
  draws : SigningDrawsFit P c.otherIds c.d

/-- The parts of round 1 -/
def Msg1Fits (P : Params) (m : Msg1 q G) : Prop := (m.echo.capK < 2 ^ P.wide ∧ m.echo.capG < 2 ^ P.wide) ∧ EncElgFits P m.psi0 ∧ EncElgFits P m.psi1

/-- What is sent for a multiplication -/
def MtaFits (P : Params) (o : MtaOut q G) : Prop := o.capD.toWire < 2 ^ P.wide ∧ o.capF.toWire < 2 ^ P.wide ∧ AffGFits P o.psi

theorem precompute_fits {ε : Type} {P : Params} (hP : P.SelfConsistent) {a : PublicAux} (ha : AuxFits P a) {b : PubAux} (h : (precompute a : Out ε _) = .ok b) :
    KeyFits P b.pk ∧ ModulusFits P.uint b.rp.modulus := by
  obtain ⟨pk, h1, h⟩ := Out.bind_eq_ok.1 h
  obtain ⟨rp, h2, h⟩ := Out.bind_eq_ok.1 h
  obtain ⟨n, h3, _⟩ := Out.bind_eq_ok.1 h2
  rw [← Out.ok.inj h]
  obtain ⟨rfl, h0⟩ := publicModulusNew_eq h1
  exact ⟨KeyFits.of_lt hP h0 ha.1, (publicModulusNew_eq h3).2, ha.2⟩

theorem start_fits {epidOf : BMap I G → BMap I PublicAux → Ep} {message : ZMod q} {ks : KeyShare I (ZMod q) G} {aux : AuxInfo I PaillierKey PublicAux} {id : I} {d : Draws q I}
    {r : Round1 q I Ep G} (hP : E.P.SelfConsistent) (haux : AllValues (AuxFits E.P) aux.pub) (h0 : aux.secret.modulus ≠ 0) (hkey : aux.secret.modulus < 2 ^ E.P.modBits)
    (hd : SigningDrawsFit E.P (ks.pub.keySet.erase id) d) (h : start E epidOf message ks aux id d = .ok r) :
    CtxFits E.P r.ctx ∧ r.echo.capK < 2 ^ E.P.wide ∧ r.echo.capG < 2 ^ E.P.wide := by
  unfold start at h
  split at h
  · cases h
  · obtain ⟨pubAux, h1, h⟩ := Out.bind_eq_ok.1 h
    obtain ⟨_, _, h⟩ := Out.bind_eq_ok.1 h
    obtain ⟨_, _, h⟩ := Out.bind_eq_ok.1 h
    obtain ⟨_, _, h⟩ := Out.bind_eq_ok.1 h
    obtain ⟨_, _, h⟩ := Out.bind_eq_ok.1 h
    rw [← Out.ok.inj h]
    have hk := KeyFits.of_lt hP h0 hkey
    exact ⟨⟨traverse_forall h1 fun _ a ha b hb => precompute_fits hP (haux a ha) hb, hk, hd⟩, hk.wide.val_lt _, hk.wide.val_lt _⟩

theorem msg1_fits (hE : SigningHashesFit E) {r : Round1 q I Ep G} (hc : CtxFits E.P r.ctx) (hr : r.echo.capK < 2 ^ E.P.wide ∧ r.echo.capG < 2 ^ E.P.wide) {j : I} {m : Msg1 q G}
    (h : msg1 E r j = .ok m) : Msg1Fits E.P m := by
  have hq := (Fact.out : q.Prime).pos
  unfold msg1 at h
  obtain ⟨_, _, h⟩ := Out.bind_eq_ok.1 h
  obtain ⟨t, ht, h⟩ := Out.bind_eq_ok.1 h
  obtain ⟨_, h1, h⟩ := Out.bind_eq_ok.1 h
  obtain ⟨_, _, h⟩ := Out.bind_eq_ok.1 h
  obtain ⟨_, h2, h⟩ := Out.bind_eq_ok.1 h
  rw [← Out.ok.inj h]
  have ht := AllValues.get hc.pubAux (finGet_eq_ok.1 ht)
  exact ⟨hr, EncElgProof.prove_fits hq hE.order hc.key ht.2 h1, EncElgProof.prove_fits hq hE.order hc.key ht.2 h2⟩

theorem under_eq {ε : Type} {N : Nat} {c : Cipher} {x : Ct N} (h : (c.under N : Out ε _) = .ok x) : c.pk = N := by
  by_contra hn
  unfold Cipher.under at h
  rw [dif_neg hn] at h
  cases h

theorem mtaSend_fits (hE : SigningHashesFit E) {c : Context q I Ep G} (hc : CtxFits E.P c) {t : PubAux} (ht : KeyFits E.P t.pk ∧ ModulusFits E.P.uint t.rp.modulus) {capK : Cipher} {x : SInt}
    {capX : G} {d : MtaDraws I} {id : I} {o : MtaOut q G} (h : mtaSend E c t capK x capX d id = .ok o) : MtaFits E.P o := by
  have hq := (Fact.out : q.Prime).pos
  unfold mtaSend at h
  obtain ⟨capF, hF, h⟩ := Out.bind_eq_ok.1 h
  obtain ⟨kx, _, h⟩ := Out.bind_eq_ok.1 h
  obtain ⟨_, _, h⟩ := Out.bind_eq_ok.1 h
  obtain ⟨capD, _, h⟩ := Out.bind_eq_ok.1 h
  obtain ⟨psi, hpsi, h⟩ := Out.bind_eq_ok.1 h
  obtain ⟨_, _, hpsi⟩ := Out.bind_eq_ok.1 hpsi
  obtain ⟨_, hD', hpsi⟩ := Out.bind_eq_ok.1 hpsi
  obtain ⟨_, hF', hpsi⟩ := Out.bind_eq_ok.1 hpsi
  rw [← Out.ok.inj h]
  refine ⟨ModulusFits.val_lt ?_ capD.val, ModulusFits.val_lt ?_ capF.val, AffGProof.prove_fits hq hE.order ht.1 hc.key ht.2 hpsi⟩
  · rw [under_eq hD']; exact ht.1.wide
  · rw [under_eq hF']; exact hc.key.wide

theorem finalize1_fits (hE : SigningHashesFit E) {r : Round1 q I Ep G} (hc : CtxFits E.P r.ctx) {payloads : BMap I (Payload1 G)} {r2 : Round2 q I Ep G}
    (h : finalize1 E r payloads = .ok r2) : CtxFits E.P r2.ctx ∧ AllValues (fun o => MtaFits E.P o.1 ∧ MtaFits E.P o.2) r2.outs := by
  unfold finalize1 at h
  obtain ⟨_, _, h⟩ := Out.bind_eq_ok.1 h
  obtain ⟨_, _, h⟩ := Out.bind_eq_ok.1 h
  obtain ⟨_, _, h⟩ := Out.bind_eq_ok.1 h
  obtain ⟨outs, ho, h⟩ := Out.bind_eq_ok.1 h
  rw [← Out.ok.inj h]
  refine ⟨hc, buildMap_forall ho fun i _ v hv => ?_⟩
  obtain ⟨t, ht, hv⟩ := Out.bind_eq_ok.1 hv
  obtain ⟨_, _, hv⟩ := Out.bind_eq_ok.1 hv
  obtain ⟨_, h1, hv⟩ := Out.bind_eq_ok.1 hv
  obtain ⟨_, h2, hv⟩ := Out.bind_eq_ok.1 hv
  rw [← Out.ok.inj hv]
  have ht := AllValues.get hc.pubAux (finGet_eq_ok.1 ht)
  exact ⟨mtaSend_fits hE hc ht h1, mtaSend_fits hE hc ht h2⟩

theorem finalize2_ctx {r : Round2 q I Ep G} {payloads : BMap I (Payload2 q I G)} {r3 : Round3 q I Ep G} (h : finalize2 E r payloads = .ok r3) : r3.ctx = r.ctx := by
  unfold finalize2 at h
  obtain ⟨_, _, h⟩ := Out.bind_eq_ok.1 h
  rw [← Out.ok.inj h]

theorem signedOfSecret_fits {ε : Type} {P : Params} {x : ZMod q} {a : SInt} (h : (signedOfSecret P x : Out ε _) = .ok a) : a.Fits := by
  unfold signedOfSecret SInt.newModulo at h
  split at h
  · cases h
  · split at h
    · cases h
    · generalize (if q / 2 < x.val then (x.val : Int) - q else x.val) = v at h
      dsimp only at h
      split at h
      · next hb => rw [← Out.ok.inj h]; exact hb.2
      · cases h

theorem ensureRange_fits {w exp : Nat} {a b : SInt} (h : a.ensureRange w exp = some b) : b.Fits := by
  unfold SInt.ensureRange at h
  split at h
  · next hr =>
    cases h
    obtain ⟨h1, h2⟩ := of_decide_eq_true hr.1
    have h3 : (2 : Int) ^ (exp - 1) < 2 ^ (exp + 1) := pow_lt_pow_right₀ (by norm_num) (by omega)
    show a.val.natAbs < 2 ^ (exp + 1)
    have h4 : ((a.val.natAbs : Nat) : Int) < ((2 ^ (exp + 1) : Nat) : Int) := by
      rw [Int.natCast_natAbs, abs_lt]
      push_cast
      constructor <;> linarith
    exact_mod_cast h4
  · cases h

theorem msgErr_fits (hE : SigningHashesFit E) {r : ErrRound q I Ep G} (hc : CtxFits E.P r.ctx) (hb : ∀ j ∈ r.ctx.otherIds, (r.mta.beta j).WF E.P.uint)
    (hd : ∀ eph ∈ r.dec, eph.alpha.WF E.P.uint ∧ eph.beta.WF E.P.wide) (hs : ∀ j ∈ r.ctx.otherIds, ∀ eph ∈ r.star j, eph.alpha.WF E.P.uint ∧ eph.beta.WF E.P.uint) {m : MsgErr I G}
    (h : msgErr E r = .ok m) : errFits E.P m := by
  unfold msgErr at h
  obtain ⟨_, _, h⟩ := Out.bind_eq_ok.1 h
  obtain ⟨_, _, h⟩ := Out.bind_eq_ok.1 h
  obtain ⟨_, _, h⟩ := Out.bind_eq_ok.1 h
  obtain ⟨x, hx, h⟩ := Out.bind_eq_ok.1 h
  obtain ⟨_, _, h⟩ := Out.bind_eq_ok.1 h
  obtain ⟨_, _, h⟩ := Out.bind_eq_ok.1 h
  obtain ⟨_, _, h⟩ := Out.bind_eq_ok.1 h
  obtain ⟨_, _, h⟩ := Out.bind_eq_ok.1 h
  obtain ⟨_, _, h⟩ := Out.bind_eq_ok.1 h
  obtain ⟨y, hy, h⟩ := Out.bind_eq_ok.1 h
  obtain ⟨_, _, h⟩ := Out.bind_eq_ok.1 h
  obtain ⟨_, _, h⟩ := Out.bind_eq_ok.1 h
  obtain ⟨_, _, h⟩ := Out.bind_eq_ok.1 h
  obtain ⟨_, _, h⟩ := Out.bind_eq_ok.1 h
  obtain ⟨psiStar, h1, h⟩ := Out.bind_eq_ok.1 h
  obtain ⟨psis, h2, h⟩ := Out.bind_eq_ok.1 h
  rw [← Out.ok.inj h]
  have hx := signedOfSecret_fits hx
  refine ⟨DecProof.prove_fits hc.key hE.decH hx (ensureRange_fits (Out.ofOption_eq_ok.1 hy)) hd h1, buildMap_forall h2 fun j hj psi hpsi => ?_⟩
  unfold starFor at hpsi
  obtain ⟨t, ht, hpsi⟩ := Out.bind_eq_ok.1 hpsi
  obtain ⟨_, _, hpsi⟩ := Out.bind_eq_ok.1 hpsi
  obtain ⟨_, _, hpsi⟩ := Out.bind_eq_ok.1 hpsi
  obtain ⟨_, _, hpsi⟩ := Out.bind_eq_ok.1 hpsi
  obtain ⟨_, _, hpsi⟩ := Out.bind_eq_ok.1 hpsi
  obtain ⟨psi', hp, hpsi⟩ := Out.bind_eq_ok.1 hpsi
  have : psi' = psi := by
    split at hpsi
    · obtain ⟨_, _, hpsi⟩ := Out.bind_eq_ok.1 hpsi
      obtain ⟨_, _, hpsi⟩ := Out.bind_eq_ok.1 hpsi
      exact Out.ok.inj hpsi
    · exact Out.ok.inj hpsi
  subst this
  have ht := AllValues.get hc.pubAux (finGet_eq_ok.1 ht)
  unfold starProve at hp
  obtain ⟨_, _, hp⟩ := Out.bind_eq_ok.1 hp
  obtain ⟨_, _, hp⟩ := Out.bind_eq_ok.1 hp
  obtain ⟨_, _, hp⟩ := Out.bind_eq_ok.1 hp
  exact AffGStarProof.prove_fits ht.1 hc.key hE.starH hx (hb j hj).2 (hs j hj) hp

/-- The invariant of a run -/
def StateFits (P : Params) : State q I Ep G → Prop
  | .one r out => CtxFits P r.ctx ∧ ∀ a ∈ out, Msg1Fits P a.2
  | .two r => CtxFits P r.ctx ∧ AllValues (fun o => MtaFits P o.1 ∧ MtaFits P o.2) r.outs
  | .three r => CtxFits P r.ctx
  | .four _ => True
  | .error _ m => errFits P m

theorem begin_fits (hE : SigningHashesFit E) {r : Round1 q I Ep G} (hc : CtxFits E.P r.ctx) (hr : r.echo.capK < 2 ^ E.P.wide ∧ r.echo.capG < 2 ^ E.P.wide) {s : State q I Ep G}
    (h : begin E r = .ok s) : StateFits E.P s := by
  obtain ⟨out, ho, h⟩ := Out.bind_eq_ok.1 h
  rw [← Out.ok.inj h]
  refine ⟨hc, mapM'_forall (p := fun a : I × Msg1 q G => Msg1Fits E.P a.2) ho fun j _ a ha => ?_⟩
  obtain ⟨m, hm, ha⟩ := Out.bind_eq_ok.1 ha
  rw [← Out.ok.inj ha]
  exact msg1_fits hE hc hr (finalizeResult_eq_ok.1 hm)

theorem next_fits (hE : SigningHashesFit E) {s s' : State q I Ep G} {got : List (I × Message q I G)} (hs : StateFits E.P s) (h : (machine E).next s got = .ok (.inl s')) :
    StateFits E.P s' := by
  cases s with
  | one r out =>
    obtain ⟨_, _, h⟩ := Out.bind_eq_ok.1 h
    obtain ⟨r2, h1, h⟩ := Out.bind_eq_ok.1 h
    cases Out.ok.inj h
    exact finalize1_fits hE hs.1 (finalizeResult_eq_ok.1 h1)
  | two r =>
    obtain ⟨_, _, h⟩ := Out.bind_eq_ok.1 h
    obtain ⟨r2, h1, h⟩ := Out.bind_eq_ok.1 h
    cases Out.ok.inj h
    show CtxFits E.P r2.ctx
    rw [finalize2_ctx (finalizeResult_eq_ok.1 h1)]
    exact hs.1
  | three r =>
    obtain ⟨_, _, h⟩ := Out.bind_eq_ok.1 h
    obtain ⟨a, h1, h⟩ := Out.bind_eq_ok.1 h
    obtain ⟨s2, h2, h⟩ := Out.bind_eq_ok.1 h
    cases Out.ok.inj h
    have h1 := finalizeResult_eq_ok.1 h1
    cases a with
    | round4 r4 => cases Out.ok.inj h2; trivial
    | error re =>
      obtain ⟨m, hm, h2⟩ := Out.bind_eq_ok.1 h2
      rw [← Out.ok.inj h2]
      have hm := finalizeResult_eq_ok.1 hm
      have hs : CtxFits E.P r.ctx := hs
      unfold finalize3 at h1
      dsimp only at h1
      split at h1
      · cases Out.ok.inj h1
        exact msgErr_fits hE hs (fun j hj => (hs.draws.beta j hj).1) (fun e he => hs.draws.dec e (List.mem_append_left _ he))
          (fun j hj e he => hs.draws.star j hj e (List.mem_append_left _ he)) hm
      · split at h1
        · cases Out.ok.inj h1
          exact msgErr_fits hE hs (fun j hj => (hs.draws.beta j hj).2) (fun e he => hs.draws.dec e (List.mem_append_right _ he))
            (fun j hj e he => hs.draws.star j hj e (List.mem_append_right _ he)) hm
        · split at h1 <;> cases h1
  | four r =>
    obtain ⟨_, _, h⟩ := Out.bind_eq_ok.1 h
    obtain ⟨_, _, h⟩ := Out.bind_eq_ok.1 h
    cases Out.ok.inj h
  | error r m =>
    obtain ⟨_, _, h⟩ := Out.bind_eq_ok.1 h
    obtain ⟨_, _, h⟩ := Out.bind_eq_ok.1 h
    cases Out.ok.inj h

theorem messageFits_one {P : Params} {m : Msg1 q G} (h : Msg1Fits P m) : signingMessageFits P (.one m : Message q I G) := by
  intro r p x hx
  rcases p <;> rcases r with _ | _ | _ | _ | _ | _ | _ | r <;> first | (cases hx; done) | (cases Option.some.inj hx; first | exact h.1 | exact h.2)

theorem messageFits_two {P : Params} {r : Round2 q I Ep G} (h : AllValues (fun o => MtaFits P o.1 ∧ MtaFits P o.2) r.outs) : signingMessageFits P (.two (msg2 r)) := by
  intro n p x hx
  rcases p <;> rcases n with _ | _ | _ | _ | _ | _ | _ | n <;> first | (cases hx; done) | cases Option.some.inj hx
  · exact ⟨AllValues.mapVals h fun _ o ho => ho.1.2.1, AllValues.mapVals h fun _ o ho => ho.2.2.1⟩
  · exact ⟨AllValues.mapVals h fun _ o ho => ho.1.1, AllValues.mapVals h fun _ o ho => ho.2.1, AllValues.mapVals h fun _ o ho => ho.1.2.2,
      AllValues.mapVals h fun _ o ho => ho.2.2.2⟩

theorem messageFits_three {P : Params} (m : Msg3 q G) : signingMessageFits P (.three m : Message q I G) := by
  intro n p x hx
  rcases p <;> rcases n with _ | _ | _ | _ | _ | _ | _ | n <;> first | (cases hx; done) | trivial

theorem messageFits_four {P : Params} (m : ZMod q) : signingMessageFits P (.four m : Message q I G) := by
  intro n p x hx
  rcases p <;> rcases n with _ | _ | _ | _ | _ | _ | _ | n <;> first | (cases hx; done) | trivial

theorem messageFits_error {P : Params} {m : MsgErr I G} (h : errFits P m) : signingMessageFits P (.error m : Message q I G) := by
  intro n p x hx
  rcases p <;> rcases n with _ | _ | _ | _ | _ | _ | _ | n <;> first | (cases hx; done) | (cases Option.some.inj hx; exact h)

theorem send_fits {s : State q I Ep G} (hs : StateFits E.P s) {a : I × Message q I G} (ha : a ∈ (machine E).send s) : signingMessageFits E.P a.2 := by
  cases s with
  | one r out =>
    obtain ⟨b, hb, rfl⟩ := List.mem_map.1 (show a ∈ out.map fun a => (a.1, Message.one a.2) from ha)
    exact messageFits_one (hs.2 b hb)
  | two r =>
    obtain ⟨b, _, rfl⟩ := List.mem_map.1 (show a ∈ (bsetIter r.ctx.otherIds).map fun j => (j, Message.two (msg2 r)) from ha)
    exact messageFits_two hs.2
  | three r =>
    obtain ⟨b, _, rfl⟩ := List.mem_map.1 (show a ∈ (bsetIter r.ctx.otherIds).map fun j => (j, Message.three r.msg) from ha)
    exact messageFits_three _
  | four r =>
    obtain ⟨b, _, rfl⟩ := List.mem_map.1 (show a ∈ (bsetIter r.ctx.otherIds).map fun j => (j, Message.four r.sigma) from ha)
    exact messageFits_four _
  | error r m =>
    obtain ⟨b, _, rfl⟩ := List.mem_map.1 (show a ∈ (bsetIter r.ctx.otherIds).map fun j => (j, Message.error m) from ha)
    exact messageFits_error hs

end Signing

end Synedrion
