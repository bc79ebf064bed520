import Verif.Lemmas.WireHonest
import Verif.Lemmas.ToySigningRun
import Verif.Props.CurveBytes
import Verif.Props.Network
import Verif.Lemmas.NetworkScriptSigning

/-!
# C90: messages survive the wire
-/

set_option linter.unusedSectionVars false

namespace Synedrion.Props

open Spec

variable {ε I G V : Type} [LinearOrder I] [AddCommGroup G] {q : Nat} {W : WireFormat G V}

/-- Every part of every message of the five protocols that is a value of its type and contains no identity point can be encoded, and decoding gives it back. False for
parts with an identity point: `C90_identity_not_sent`. -/
theorem C90_round_trip_partial (hW : FormatValid W q) :
    (∀ p r (m : KeyInit.Parts (ZMod q) G V p r), keyInitFits p r m → 0 ∉ keyInitPoints p r m → RoundTrips (W.keyInit p r : WireCodec ε I _) m) ∧
    (∀ p r (m : AuxGen.Parts V p r), auxGenFits W.P p r m → RoundTrips (W.auxGen p r : WireCodec ε I _) m) ∧
    (∀ p r (m : KeyRefresh.Parts I (ZMod q) G V p r), keyRefreshFits W.P p r m → 0 ∉ keyRefreshPoints p r m → RoundTrips (W.keyRefresh p r : WireCodec ε I _) m) ∧
    (∀ m : List G × ZMod q, 0 ∉ m.1 → RoundTrips (W.resharingBroadcast : WireCodec ε I _) m) ∧
    (∀ m : ZMod q, RoundTrips (W.resharingDirect : WireCodec ε I _) m) ∧
    (∀ p r (m : Signing.Parts q I G p r), signingFits W.P p r m → 0 ∉ signingPoints p r m → RoundTrips (W.signing p r : WireCodec ε I _) m) :=
  ⟨fun p r => (hW.keyInit_lawful p r).ok, fun p r m h => (hW.auxGen_lawful p r).ok m h List.not_mem_nil, fun p r => (hW.keyRefresh_lawful p r).ok,
    fun m h => hW.resharingBroadcast_lawful.ok m trivial h, fun m => hW.resharingDirect_lawful.ok m trivial List.not_mem_nil, fun p r => (hW.signing_lawful p r).ok⟩

/-- Encoding a part that contains an identity point panics: it is never sent. -/
theorem C90_identity_not_sent (hW : FormatValid W q) :
    (∀ p r (m : KeyInit.Parts (ZMod q) G V p r), keyInitFits p r m → 0 ∈ keyInitPoints p r m → (W.keyInit p r : WireCodec ε I _).enc m = .panic) ∧
    (∀ p r (m : KeyRefresh.Parts I (ZMod q) G V p r), keyRefreshFits W.P p r m → 0 ∈ keyRefreshPoints p r m → (W.keyRefresh p r : WireCodec ε I _).enc m = .panic) ∧
    (∀ m : List G × ZMod q, 0 ∈ m.1 → (W.resharingBroadcast : WireCodec ε I _).enc m = .panic) ∧
    (∀ p r (m : Signing.Parts q I G p r), signingFits W.P p r m → 0 ∈ signingPoints p r m → (W.signing p r : WireCodec ε I _).enc m = .panic) :=
  ⟨fun p r => (hW.keyInit_lawful p r).panic, fun p r => (hW.keyRefresh_lawful p r).panic, fun m h => hW.resharingBroadcast_lawful.panic m trivial h,
    fun p r => (hW.signing_lawful p r).panic⟩

/-- Whatever is sent, what is decoded is a value of its type: all integers are in range. -/
theorem C90_decoded_fits (hW : FormatValid W q) (d : Data I) :
    (∀ p r m, (W.keyInit p r : WireCodec ε I (KeyInit.Parts (ZMod q) G V p r)).dec d = some m → keyInitFits p r m) ∧
    (∀ p r m, (W.auxGen p r : WireCodec ε I (AuxGen.Parts V p r)).dec d = some m → auxGenFits W.P p r m) ∧
    (∀ p r m, (W.keyRefresh p r : WireCodec ε I (KeyRefresh.Parts I (ZMod q) G V p r)).dec d = some m → keyRefreshFits W.P p r m) ∧
    (∀ p r m, (W.signing p r : WireCodec ε I (Signing.Parts q I G p r)).dec d = some m → signingFits W.P p r m) :=
  ⟨fun p r => (hW.keyInit_lawful p r).sound d, fun p r => (hW.auxGen_lawful p r).sound d, fun p r => (hW.keyRefresh_lawful p r).sound d,
    fun p r => (hW.signing_lawful p r).sound d⟩

/-! ### What honest parties send -/

section Honest

variable {Sid Ep : Type} [Fact q.Prime] [LinearOrder (ZMod q)] [Module (ZMod q) G] [DecidableEq G] [DecidableEq V]

/-- In key generation every part of every message of an honest party arrives as it was sent, unless it contains an identity point, whatever the party has received. -/
theorem C90_key_init_sent_partial (hW : FormatValid W q) {hashV : Sid → I → KeyInit.PublicData G → V} {H : SchHash G (KeyInit.SchAux I Sid) → ZMod q} {g : G} {allIds : Finset I}
    {sid : Sid} {id : I} {d : KeyInit.Draws (ZMod q)} {c : KeyInit.Context I (ZMod q) G Sid} {s : KeyInit.State I (ZMod q) G Sid V}
    (hd : BitsFit d.rho ∧ BitsFit d.u) (hstart : KeyInit.start g allIds sid id d = .ok c) (hs : (KeyInit.machine hashV H g).Reached (fun _ => True) (.one c) s)
    {a : I × KeyInit.Message (ZMod q) G V} (ha : a ∈ (KeyInit.machine hashV H g).send s) {p : Part} {r : Nat} {x : KeyInit.Parts (ZMod q) G V p r} (hx : a.2.part r p = some x)
    (h0 : 0 ∉ keyInitPoints p r x) : RoundTrips (W.keyInit p r : WireCodec ε I _) x := by
  refine (hW.keyInit_lawful p r).ok x (KeyInit.send_fits (hs.inv (inv := KeyInit.StateFits) ?_ fun _ _ _ h _ hn => KeyInit.next_fits h hn) ha r p x hx) h0
  unfold KeyInit.start at hstart
  split at hstart
  · cases hstart
  · cases Out.ok.inj hstart
    exact hd

/-- In auxiliary info generation every part of every message of an honest party arrives as it was sent, whatever the party has received over the wire. -/
theorem C90_aux_gen_sent (hW : FormatValid W q) {E : AuxEnv I Sid} {hashV : Sid → I → AuxGen.Hashed → V} {allIds : Finset I} {sid : Sid} {id : I} {d : AuxDraws I}
    {c : AuxGen.Context I Sid} {s : AuxGen.State I Sid V} (hP : W.P = E.P) (hE : AuxHashesFit E) (hd : AuxDrawsFit E.P d) (hstart : AuxGen.start E allIds sid id d = .ok c)
    (hs : (AuxGen.machine E hashV).Reached (auxGenMessageFits E.P) (.one c) s) {a : I × AuxGen.Message V} (ha : a ∈ (AuxGen.machine E hashV).send s)
    {p : Part} {r : Nat} {x : AuxGen.Parts V p r} (hx : a.2.part r p = some x) : RoundTrips (W.auxGen p r : WireCodec ε I _) x := by
  refine (hW.auxGen_lawful p r).ok x (hP ▸ AuxGen.send_fits (hs.inv (inv := AuxGen.StateFits E.P) ?_ fun _ _ _ h hg hn => AuxGen.next_fits hE h hg hn) ha r p x hx) List.not_mem_nil
  unfold AuxGen.start at hstart
  split at hstart
  · cases hstart
  · obtain ⟨y, hy, hstart⟩ := Out.bind_eq_ok.1 hstart
    cases Out.ok.inj hstart
    exact AuxGen.makeData_fits hE hd hy

/-- In key refresh every part of every message of an honest party arrives as it was sent, unless it contains an identity point, whatever the party has received over the wire. -/
theorem C90_key_refresh_sent_partial (hW : FormatValid W q) {E : KeyRefresh.Env I Sid (ZMod q) G} {hashV : Sid → I → KeyRefresh.Hashed I G → V} {allIds : Finset I} {sid : Sid} {id : I}
    {d : KeyRefresh.Draws I (ZMod q)} {c : KeyRefresh.Context I (ZMod q) G Sid} {s : KeyRefresh.State I (ZMod q) G Sid V} (hP : W.P = E.aux.P) (hE : AuxHashesFit E.aux)
    (hd : AuxDrawsFit E.aux.P d.aux) (hstart : KeyRefresh.start E allIds sid id d = .ok c)
    (hs : (KeyRefresh.machine E hashV).Reached (keyRefreshMessageFits E.aux.P) (.one c) s) {a : I × KeyRefresh.Message I (ZMod q) G V} (ha : a ∈ (KeyRefresh.machine E hashV).send s)
    {p : Part} {r : Nat} {x : KeyRefresh.Parts I (ZMod q) G V p r} (hx : a.2.part r p = some x) (h0 : 0 ∉ keyRefreshPoints p r x) :
    RoundTrips (W.keyRefresh p r : WireCodec ε I _) x := by
  refine (hW.keyRefresh_lawful p r).ok x (hP ▸ KeyRefresh.send_fits (hs.inv (inv := KeyRefresh.StateFits E.aux.P) ?_ fun _ _ _ h hg hn => KeyRefresh.next_fits hE h hg hn) ha r p x hx) h0
  unfold KeyRefresh.start at hstart
  split at hstart
  · cases hstart
  · obtain ⟨y, hy, hstart⟩ := Out.bind_eq_ok.1 hstart
    obtain ⟨_, _, hstart⟩ := Out.bind_eq_ok.1 hstart
    cases Out.ok.inj hstart
    exact AuxGen.makeData_fits hE hd hy

/-- In signing every part of every message of an honest signer arrives as it was sent, unless it contains an identity point, whatever the signer has received. -/
theorem C90_signing_sent_partial (hW : FormatValid W q) {E : Signing.Env q I Ep G} {epidOf : BMap I G → BMap I PublicAux → Ep} {message : ZMod q} {ks : KeyShare I (ZMod q) G}
    {aux : AuxInfo I PaillierKey PublicAux} {id : I} {d : Signing.Draws q I} {r₁ : Signing.Round1 q I Ep G} {s₀ s : Signing.State q I Ep G} (hP : W.P = E.P)
    (hc : E.P.SelfConsistent) (hE : SigningHashesFit E) (haux : AllValues (AuxFits E.P) aux.pub) (hkey : aux.secret.modulus ≠ 0 ∧ aux.secret.modulus < 2 ^ E.P.modBits)
    (hd : SigningDrawsFit E.P (ks.pub.keySet.erase id) d) (hstart : Signing.start E epidOf message ks aux id d = .ok r₁) (hbegin : Signing.begin E r₁ = .ok s₀)
    (hs : (Signing.machine E).Reached (fun _ => True) s₀ s) {a : I × Signing.Message q I G} (ha : a ∈ (Signing.machine E).send s) {p : Part} {r : Nat}
    {x : Signing.Parts q I G p r} (hx : a.2.part r p = some x) (h0 : 0 ∉ signingPoints p r x) : RoundTrips (W.signing p r : WireCodec ε I _) x := by
  obtain ⟨h1, h2⟩ := Signing.start_fits hc haux hkey.1 hkey.2 hd hstart
  exact (hW.signing_lawful p r).ok x
    (hP ▸ Signing.send_fits (hs.inv (inv := Signing.StateFits E.P) (Signing.begin_fits hE h1 h2 hbegin) fun _ _ _ h _ hn => Signing.next_fits hE h hn) ha r p x hx) h0

end Honest

/-! ### Concrete cases -/

section Examples

attribute [local instance] Toy.fact11 Toy.order11

/-- The sizes of the test parameters, the toy curve, hashes that are byte strings -/
def toyWire : WireFormat (ZMod 11) (List Byte) := ⟨Params.test, 4, Toy.sec1, id, id⟩

theorem toyWire_valid : FormatValid toyWire 11 where
  order := by decide
  scalar := by decide
  uint := by decide
  wide := by decide
  extra := by decide
  points := Toy.sec1_laws
  digest _ := rfl

/-- A message of round 2 of key generation with the points 3 and 5 arrives; one with an identity point is not sent. -/
example : keyInitFits (q := 11) (V := List Byte) .normal 2 ⟨3, 5, [true, false]⟩ ∧ RoundTrips (toyWire.keyInit (q := 11) .normal 2 : WireCodec Unit Nat _) ⟨3, 5, [true, false]⟩ ∧
    (toyWire.keyInit (q := 11) .normal 2 : WireCodec Unit Nat _).enc ⟨0, 5, [true]⟩ = .panic := by
  have h : ∀ b : List Bool, b.length ≤ 2 → BitsFit b := fun b hb => lt_of_le_of_lt hb (by norm_num)
  exact ⟨h _ (by simp), (C90_round_trip_partial toyWire_valid).1 .normal 2 _ (h _ (by simp)) (by decide), (C90_identity_not_sent toyWire_valid).1 .normal 2 _ (h _ (by simp)) (by decide)⟩

/-- The bytes of that message -/
example : (toyWire.keyInit (q := 11) .normal 2 : WireCodec Unit Nat _).enc ⟨3, 5, [true, false]⟩ =
    .ok (.seq [.bytes [2#8, 3#8], .bytes [2#8, 5#8], .seq [.nat 2, .bytes [128#8]]]) := rfl

/-- A message with an integer that is too large is not decoded. -/
example : (toyWire.signing (q := 11) .normal 4 : WireCodec Unit Nat _).dec (.bytes [0#8, 0#8, 0#8, 12#8]) = none := by decide +kernel

def wireHash : Nat → Nat → AuxGen.Hashed → List Byte := fun s i _ => [BitVec.ofNat 8 s, BitVec.ofNat 8 i]

theorem auxHashesFit : AuxHashesFit Toy.auxEnv where
  prm t := by show List.length [_, _] < 2 ^ 32; simp
  mod t y hy := by
    have : y = 1 := by simpa [Toy.auxEnv] using hy
    subst this
    decide +kernel
  fac t := by
    refine ⟨show 32 < 256 by decide, ?_⟩
    show ((t.aux.2.1 : Int) % 1000 - 500).natAbs < 2 ^ 32
    omega

theorem auxDrawsFit (i : Nat) : AuxDrawsFit Params.test (Toy.auxDraws i) where
  key := by show Toy.primeP * Toy.primeQ ≤ _; decide +kernel
  rp := by show Toy.primeQ * Toy.primeP ≤ _; decide +kernel
  totient := by show 0 < (Toy.primeQ - 1) * (Toy.primeP - 1); decide +kernel
  prmMasks a ha := by
    have h : a < 100 := by
      simp [Toy.auxDraws] at ha
      omega
    exact h.trans (show 100 < (Toy.primeQ - 1) * (Toy.primeP - 1) by decide +kernel)
  rid := by show List.length [_, _, _] < 2 ^ 32; simp
  u := by show List.length [_] < 2 ^ 32; simp

/-- A party that has received hashes sends its message of round 2 of auxiliary info generation. -/
example : ∃ (c : AuxGen.Context Nat Nat) (s : AuxGen.State Nat Nat (List Byte)) (a : Nat × AuxGen.Message (List Byte)) (x : AuxGen.Parts (List Byte) .normal 2),
    AuxGen.start Toy.auxEnv {1, 2, 3} 7 1 (Toy.auxDraws 1) = .ok c ∧ (AuxGen.machine Toy.auxEnv wireHash).Reached (auxGenMessageFits Params.test) (.one c) s ∧
    a ∈ (AuxGen.machine Toy.auxEnv wireHash).send s ∧ a.2.part 2 .normal = some x ∧ RoundTrips (toyWire.auxGen .normal 2 : WireCodec Unit Nat _) x := by
  obtain ⟨c, hc, h⟩ := C54_start Toy.auxEnv 2 {1, 2, 3} 7 1 (by decide) (Toy.auxDraws 1) (Toy.auxDraws_valid 1 (by decide))
  have ho : c.otherIds = {2, 3} := by
    unfold AuxGen.start at hc
    rw [if_neg (by decide)] at hc
    obtain ⟨_, _, hc⟩ := Out.bind_eq_ok.1 hc
    cases Out.ok.inj hc
    show ({1, 2, 3} : Finset Nat).erase 1 = {2, 3}
    decide
  have hr : (AuxGen.machine Toy.auxEnv wireHash).Reached (auxGenMessageFits Params.test) (.one c) (.two c (BMap.ofList [(2, [1#8]), (3, [])])) := by
    refine .step (got := [(2, .one [1#8]), (3, .one [])]) .start ?_ ?_
    · intro a ha n p x hx
      simp only [List.mem_cons, List.not_mem_nil, or_false] at ha
      rcases ha with rfl | rfl <;> rcases p <;> rcases n with _ | _ | _ | _ | n <;> first | (cases hx; done) | trivial
    · show (gather c.otherIds _ _ _).bind _ = _
      rw [ho]
      rfl
  have hm : (2, AuxGen.Message.two (AuxGen.msg2 c)) ∈ (AuxGen.machine Toy.auxEnv wireHash).send (.two c (BMap.ofList [(2, [1#8]), (3, [])])) :=
    List.mem_map.2 ⟨2, mem_bsetIter.2 (by rw [ho]; decide), rfl⟩
  exact ⟨c, _, _, _, hc, hr, hm, rfl, C90_aux_gen_sent toyWire_valid rfl auxHashesFit (auxDrawsFit 1) hc hr hm rfl⟩

theorem signHashesFit : SigningHashesFit Toy.signEnv where
  order := by decide
  decH t := by show List.length [_, _] < 2 ^ 32; simp
  starH t := by show List.length [_] < 2 ^ 32; simp

theorem signDrawsFit (i : Nat) (others : Finset Nat) : SigningDrawsFit Params.test others (Toy.signDraws i) where
  beta j _ := by
    have h : ∀ n : Nat, ((⟨160, (n % 100 : Nat) - (j % 100 : Nat)⟩ : SInt)).WF Params.test.uint := fun n => by
      refine ⟨show 160 < 256 by decide, ?_⟩
      show ((n % 100 : Nat) - (j % 100 : Nat) : Int).natAbs < 2 ^ 160
      omega
    exact ⟨h i, h (i + 7)⟩
  dec := by
    intro eph h
    simp only [Toy.signDraws, List.mem_append, List.mem_cons, List.not_mem_nil, or_false] at h
    rcases h with (rfl | rfl) | rfl | rfl <;> exact ⟨⟨by decide, by decide⟩, by decide, by decide⟩
  star := by
    intro j _ eph h
    simp only [Toy.signDraws, List.mem_append, List.mem_cons, List.not_mem_nil, or_false] at h
    rcases h with rfl | rfl <;> exact ⟨⟨by decide, by decide⟩, by decide, by decide⟩

/-- A signer sends its message of round 1. -/
example : ∃ (aux : AuxInfo Nat PaillierKey PublicAux) (r₁ : Signing.Round1 11 Nat Nat (ZMod 11)) (s : Signing.State 11 Nat Nat (ZMod 11)) (a : Nat × Signing.Message 11 Nat (ZMod 11))
    (x : Signing.Parts 11 Nat (ZMod 11) .echo 1), Signing.start Toy.signEnv (fun _ _ => 7) 5 (Toy.signShares 1) aux 1 (Toy.signDraws 1) = .ok r₁ ∧
    Signing.begin Toy.signEnv r₁ = .ok s ∧ a ∈ (Signing.machine Toy.signEnv).send s ∧ a.2.part 1 .echo = some x ∧
    RoundTrips (toyWire.signing .echo 1 : WireCodec Unit Nat _) x := by
  obtain ⟨infos, haux, hmod⟩ := Toy.exists_signInfos
  have hd : SigningDrawsValid Toy.signEnv.P Toy.parties (fun i => (infos i).secret.modulus) (fun i => (Toy.ringPedersen i).modulus) Toy.signDraws := by
    rw [funext hmod]; exact Toy.signDraws_valid
  have hst := C41_honest_start Toy.signEnv Toy.signEnv_setting (fun _ _ => 7) 5 6 Toy.parties Toy.signShares Toy.signShares_valid infos Toy.ringPedersen haux Toy.signDraws
  have : Nonempty (Signing.Round1 11 Nat Nat (ZMod 11)) := ⟨(hst 1 (by decide)).choose⟩
  obtain ⟨r1, hr1⟩ := exists_fun hst
  obtain ⟨init, sig, h0, -⟩ := C80_signing Toy.signEnv Toy.signEnv_setting (fun _ _ => 7) 5 6 Toy.parties Toy.signShares Toy.signShares_valid
    infos Toy.ringPedersen haux Toy.signDraws hd r1 (fun i hi => (hr1 i hi).2) (by decide +kernel) (by decide +kernel) (by decide +kernel) (by decide +kernel) (by decide +kernel)
  have hone : (1 : Nat) ∈ Toy.parties := by decide
  have hs := (hr1 1 hone).2
  have hb := h0 1 hone
  have hfit : AllValues (AuxFits Params.test) (infos 1).pub := by
    intro v hv
    obtain ⟨e, he, rfl⟩ := List.mem_map.1 hv
    have h1 : (infos 1).pub.get? e.1 = some e.2 := BMap.get?_eq_some_iff.2 he
    have h2 : e.1 ∈ Toy.parties := by
      rw [← haux.consistent.holders 1 hone, BMap.mem_keySet]
      exact List.mem_map.2 ⟨e, he, rfl⟩
    rw [haux.consistent.public_agree 1 hone e.1 h2] at h1
    rw [← Option.some.inj h1]
    refine ⟨?_, ?_⟩
    · show (infos e.1).secret.modulus < _
      rw [hmod]
      decide +kernel
    · show Toy.primeQ * Toy.primeP ≤ _
      decide +kernel
  have key : ∀ a ∈ (Signing.machine Toy.signEnv).send (init 1), ∀ (x : Signing.Parts 11 Nat (ZMod 11) .echo 1), a.2.part 1 .echo = some x → 0 ∉ signingPoints .echo 1 x →
      RoundTrips (toyWire.signing .echo 1 : WireCodec Unit Nat _) x := fun a ha x hx h => 
    C90_signing_sent_partial toyWire_valid rfl Toy.signEnv_setting.consistent signHashesFit hfit (by rw [hmod]; exact ⟨by decide +kernel, by decide +kernel⟩)
      (signDrawsFit 1 _) hs hb .start ha hx h
  obtain ⟨out, ho, hb'⟩ := Out.bind_eq_ok.1 hb
  obtain ⟨hctx, hecho⟩ : 2 ∈ (r1 1).ctx.otherIds ∧ (0 : ZMod 11) ∉ signingPoints (q := 11) (I := Nat) .echo 1 (r1 1).echo := by
    unfold Signing.start at hs
    split at hs
    · cases hs
    obtain ⟨_, _, hs⟩ := Out.bind_eq_ok.1 hs
    obtain ⟨_, _, hs⟩ := Out.bind_eq_ok.1 hs
    obtain ⟨_, _, hs⟩ := Out.bind_eq_ok.1 hs
    obtain ⟨_, _, hs⟩ := Out.bind_eq_ok.1 hs
    obtain ⟨_, _, hs⟩ := Out.bind_eq_ok.1 hs
    rw [← Out.ok.inj hs]
    refine ⟨?_, ?_⟩
    · show 2 ∈ (Toy.signShares 1).pub.keySet.erase 1
      decide +kernel
    · show (0 : ZMod 11) ∉ [(Toy.signDraws 1).y • Toy.signEnv.C.g, (Toy.signDraws 1).a • Toy.signEnv.C.g,
        (Toy.signDraws 1).a • (Toy.signDraws 1).y • Toy.signEnv.C.g + (Toy.signDraws 1).k • Toy.signEnv.C.g, (Toy.signDraws 1).b • Toy.signEnv.C.g,
        (Toy.signDraws 1).b • (Toy.signDraws 1).y • Toy.signEnv.C.g + (Toy.signDraws 1).gamma • Toy.signEnv.C.g]
      decide +kernel
  have hne : ∃ a ∈ out, ∃ m : Signing.Msg1 11 (ZMod 11), a.2 = m ∧ m.echo = (r1 1).echo := by
    obtain ⟨a, ha, h⟩ := Signing.forall₂_mem (Out.mapM'_eq_ok_iff.1 ho) (mem_bsetIter.2 hctx)
    refine ⟨a, ha, a.2, rfl, ?_⟩
    obtain ⟨m, hm, h⟩ := Out.bind_eq_ok.1 h
    rw [← Out.ok.inj h]
    have hm := finalizeResult_eq_ok.1 hm
    unfold Signing.msg1 at hm
    obtain ⟨_, _, hm⟩ := Out.bind_eq_ok.1 hm
    obtain ⟨_, _, hm⟩ := Out.bind_eq_ok.1 hm
    obtain ⟨_, _, hm⟩ := Out.bind_eq_ok.1 hm
    obtain ⟨_, _, hm⟩ := Out.bind_eq_ok.1 hm
    obtain ⟨_, _, hm⟩ := Out.bind_eq_ok.1 hm
    rw [← Out.ok.inj hm]
  obtain ⟨a, ha, m, rfl, hm⟩ := hne
  have hsend : (a.1, Signing.Message.one a.2) ∈ (Signing.machine Toy.signEnv).send (init 1) := by
    rw [← Out.ok.inj hb']
    exact List.mem_map.2 ⟨a, ha, rfl⟩
  exact ⟨infos 1, r1 1, init 1, _, a.2.echo, hs, hb, hsend, rfl, key _ hsend _ rfl (by rw [hm]; exact hecho)⟩

end Examples

end Synedrion.Props
