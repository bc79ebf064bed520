import Verif.Lemmas.WireFinish
import Verif.Props.WireNet
import Verif.Props.Network

/-!
# C92: who finishes over serialized messages
-/

set_option linter.unusedSectionVars false

namespace Synedrion.Props

open Spec

variable {I G V Sid Ep : Type} [LinearOrder I] [AddCommGroup G] {q : Nat} [Fact q.Prime] [Module (ZMod q) G] [DecidableEq G] {W : WireFormat G V}

section Sessions

variable [LinearOrder (ZMod q)] [DecidableEq V]

/-! ### Key generation -/

/-- **C92 (key generation).** Parties that follow the protocol finish over serialized messages, under any schedule, if and only if nobody sends an identity point (hashing panics at most because of
such points). -/
theorem C92_key_init (hW : FormatValid W q) (hashV : Sid → I → KeyInit.PublicData G → V) (H : SchHash G (KeyInit.SchAux I Sid) → ZMod q) (g : G) (hg : g ≠ 0)
    (panics : Panics I (KeyInit.Message (ZMod q) G V) (KeyInit.State I (ZMod q) G Sid V)) (hpan : PanicsOnly (KeyInit.machine hashV H g) panics fun m => ¬ keyInitNoIdentity m)
    (ids : Finset I) (sid : Sid) (d : I → KeyInit.Draws (ZMod q)) (len : Nat) (hlen : ∀ i ∈ ids, (d i).rho.length = len) (hd : ∀ i ∈ ids, BitsFit (d i).rho ∧ BitsFit (d i).u)
    (c : I → KeyInit.Context I (ZMod q) G Sid) (hc : ∀ i ∈ ids, KeyInit.start g ids sid i (d i) = .ok (c i)) (hsum : ∑ i ∈ ids, (d i).x ≠ 0) :
    ∃ shares : I → KeyShare I (ZMod q) G, SharesKey g ids shares (∑ i ∈ ids, (d i).x) ∧
      ((overWire (KeyInit.machine hashV H g) W.keyInitTransport panics).AlwaysFinishes ids (fun i => .one (c i)) (ids.card * (3 * (ids.card + 1))) shares ↔
        (KeyInit.machine hashV H g).SendsOnly ids (fun i => .one (c i)) keyInitNoIdentity) := by
  obtain ⟨st, shares, hI, hk⟩ := KeyInit.ideal hashV H g hg ids sid d len hlen c hc hsum
  exact ⟨shares, hk, overWire_finishes_iff (KeyInit.faithful hW) (fun i hi => KeyInit.initial_fits (hd i hi) (hc i hi)) (fun s hs a ha => KeyInit.send_fits hs ha) hI
    (fun m hm => hW.keyInit_packs m hm) hpan⟩

/-- Whatever the others do, a party that has to send an identity point does not finish. -/
theorem C92_key_init_stuck (hW : FormatValid W q) (hashV : Sid → I → KeyInit.PublicData G → V) (H : SchHash G (KeyInit.SchAux I Sid) → ZMod q) (g : G)
    (panics : Panics I (KeyInit.Message (ZMod q) G V) (KeyInit.State I (ZMod q) G Sid V)) (honest : Set I) (ids : Finset I) (sid : Sid) (d : I → KeyInit.Draws (ZMod q))
    (c : I → KeyInit.Context I (ZMod q) G Sid) (i : I) (hd : BitsFit (d i).rho ∧ BitsFit (d i).u) (hc : KeyInit.start g ids sid i (d i) = .ok (c i))
    (n : Net I (Packet I) (KeyInit.State I (ZMod q) G Sid V) (WireErr KeyInit.Err) (KeyShare I (ZMod q) G))
    (h : (overWire (KeyInit.machine hashV H g) W.keyInitTransport panics).Reachable honest (fun i => .one (c i)) n) (s : KeyInit.State I (ZMod q) G Sid V) (hs : s ∈ n.begun i)
    (j : I) (m : KeyInit.Message (ZMod q) G V) (hm : (j, m) ∈ (KeyInit.machine hashV H g).send s) (hbad : ¬ keyInitNoIdentity m) : ∀ share, n.status i ≠ .finished share :=
  overWire_stuck (KeyInit.faithful hW) (fun _ hs _ ha => KeyInit.send_fits hs ha) (fun m hm => hW.keyInit_packs m hm) h (KeyInit.initial_fits hd hc) hs hm hbad

/-! ### Key refresh -/

/-- **C92 (key refresh).** -/
theorem C92_key_refresh (hW : FormatValid W q) (E : KeyRefresh.Env I Sid (ZMod q) G) (hP : W.P = E.aux.P) (hE : AuxHashesFit E.aux) (k : Nat) (hEv : HashesValid E.aux k)
    (hashV : Sid → I → KeyRefresh.Hashed I G → V) (panics : Panics I (KeyRefresh.Message I (ZMod q) G V) (KeyRefresh.State I (ZMod q) G Sid V))
    (hpan : PanicsOnly (KeyRefresh.machine E hashV) panics fun m => ¬ keyRefreshNoIdentity m) (ids : Finset I) (sid : Sid)
    (d : I → KeyRefresh.Draws I (ZMod q)) (hd : ∀ i ∈ ids, AuxDrawsFit E.aux.P (d i).aux) (hdv : ∀ i ∈ ids, DrawsValid E.aux k (d i).aux)
    (hfac : ∀ i ∈ ids, ∀ j ∈ ids, i ≠ j → FacDrawsValid E.aux.P ((d i).aux.p * (d i).aux.q) ((d j).aux.rpP * (d j).aux.rpQ) ((d i).aux.facMasks j))
    (len : Nat) (hlen : ∀ i ∈ ids, (d i).aux.rid.length = len)
    (c : I → KeyRefresh.Context I (ZMod q) G Sid) (hc : ∀ i ∈ ids, KeyRefresh.start E ids sid i (d i) = .ok (c i)) :
    ∃ res : I → KeyShareChange I (ZMod q) G × AuxInfo I PaillierKey PublicAux, ZeroSumChange E.g ids (fun i => (res i).1) ∧
      (UsableAux E.aux.P ids (fun i => (res i).2)
        fun j => ⟨_, RPParams.withSecret ((d j).aux.rpP * (d j).aux.rpQ) E.aux.P.modBits (d j).aux.lambda (d j).aux.tDraw⟩) ∧
      ((overWire (KeyRefresh.machine E hashV) W.keyRefreshTransport panics).AlwaysFinishes ids (fun i => .one (c i)) (ids.card * (3 * (ids.card + 1))) res ↔
        (KeyRefresh.machine E hashV).SendsOnly ids (fun i => .one (c i)) keyRefreshNoIdentity) := by
  obtain ⟨st, res, hI, h1, -, -, h2⟩ := KeyRefresh.ideal E k hEv hashV ids sid d hdv hfac len hlen c hc
  exact ⟨res, h1, h2, overWire_finishes_iff (KeyRefresh.faithful hW hP hE) (fun i hi => KeyRefresh.initial_fits hE (hd i hi) (hc i hi))
    (fun s hs a ha => KeyRefresh.send_fits (hashV := hashV) hs ha) hI (fun m hm => hW.keyRefresh_packs m (hP ▸ hm)) hpan⟩

/-- Whatever the others do, a party that has to send an identity point does not finish. -/
theorem C92_key_refresh_stuck (hW : FormatValid W q) (E : KeyRefresh.Env I Sid (ZMod q) G) (hP : W.P = E.aux.P) (hE : AuxHashesFit E.aux) (hashV : Sid → I → KeyRefresh.Hashed I G → V)
    (panics : Panics I (KeyRefresh.Message I (ZMod q) G V) (KeyRefresh.State I (ZMod q) G Sid V)) (honest : Set I) (ids : Finset I) (sid : Sid) (d : I → KeyRefresh.Draws I (ZMod q))
    (c : I → KeyRefresh.Context I (ZMod q) G Sid) (i : I) (hd : AuxDrawsFit E.aux.P (d i).aux) (hc : KeyRefresh.start E ids sid i (d i) = .ok (c i))
    (n : Net I (Packet I) (KeyRefresh.State I (ZMod q) G Sid V) (WireErr (KeyRefresh.Err I (ZMod q))) (KeyShareChange I (ZMod q) G × AuxInfo I PaillierKey PublicAux))
    (h : (overWire (KeyRefresh.machine E hashV) W.keyRefreshTransport panics).Reachable honest (fun i => .one (c i)) n) (s : KeyRefresh.State I (ZMod q) G Sid V) (hs : s ∈ n.begun i)
    (j : I) (m : KeyRefresh.Message I (ZMod q) G V) (hm : (j, m) ∈ (KeyRefresh.machine E hashV).send s) (hbad : ¬ keyRefreshNoIdentity m) : ∀ res, n.status i ≠ .finished res :=
  overWire_stuck (KeyRefresh.faithful hW hP hE) (fun _ hs _ ha => KeyRefresh.send_fits (hashV := hashV) hs ha) (fun m hm => hW.keyRefresh_packs m (hP ▸ hm)) h
    (KeyRefresh.initial_fits hE hd hc) hs hm hbad

/-! ### Key resharing -/

/-- **C92 (key resharing).** -/
theorem C92_resharing (hW : FormatValid W q) (g : G) (panics : Panics I (KeyResharing.Msg (ZMod q) G) (KeyResharing.State I (ZMod q) G))
    (hpan : PanicsOnly (KeyResharing.machine g) panics fun m => ¬ resharingNoIdentity m) (ids S N : Finset I) (t n : Nat) (shares : I → ThresholdKeyShare I (ZMod q) G) (sk : ZMod q)
    (hold : ThresholdSharing g ids t shares sk) (hS : S ⊆ ids) (ht : t ≤ S.card) (hn : 2 ≤ n) (hnN : n ≤ N.card) (hN : N.card < q)
    (oldThreshold : Nat) (draw : I → Nat → ZMod q) (r : I → KeyResharing.Round1 I (ZMod q) G)
    (hr : ∀ i ∈ S ∪ N, KeyResharing.start g (HonestInputs S N shares (sk • g) oldThreshold n i) i (draw i) = .ok (r i)) :
    ∃ (init : I → KeyResharing.State I (ZMod q) G) (res : I → Option (ThresholdKeyShare I (ZMod q) G)) (new : I → ThresholdKeyShare I (ZMod q) G),
      (∀ i ∈ S ∪ N, KeyResharing.begin (r i) = .ok (init i)) ∧
      (∀ i ∈ S, i ∉ N → res i = none) ∧ (∀ i ∈ N, res i = some (new i)) ∧ ThresholdSharing g N n new sk ∧
      ((overWire (KeyResharing.machine g) W.resharingTransport panics).AlwaysFinishes (S ∪ N) init ((S ∪ N).card * (1 * ((S ∪ N).card + 1))) res ↔
        (KeyResharing.machine g).SendsOnly (S ∪ N) init resharingNoIdentity) := by
  obtain ⟨init, res, new, h0, hI, h1, h2, h3⟩ := KeyResharing.ideal q g ids S N t n shares sk hold hS ht hn hnN hN oldThreshold draw r hr
  exact ⟨init, res, new, h0, h1, h2, h3, overWire_finishes_iff (KeyResharing.faithful hW) (fun _ _ => trivial) (fun _ _ _ _ => trivial) hI (fun m _ => hW.resharing_packs m) hpan⟩

/-- Whatever the others do, a party that has to send an identity point does not finish. -/
theorem C92_resharing_stuck (hW : FormatValid W q) (g : G) (panics : Panics I (KeyResharing.Msg (ZMod q) G) (KeyResharing.State I (ZMod q) G)) (honest : Set I)
    (init : I → KeyResharing.State I (ZMod q) G) (n : Net I (Packet I) (KeyResharing.State I (ZMod q) G) (WireErr KeyResharing.Err) (Option (ThresholdKeyShare I (ZMod q) G)))
    (h : (overWire (KeyResharing.machine g) W.resharingTransport panics).Reachable honest init n) (i : I) (s : KeyResharing.State I (ZMod q) G) (hs : s ∈ n.begun i)
    (j : I) (m : KeyResharing.Msg (ZMod q) G) (hm : (j, m) ∈ (KeyResharing.machine g).send s) (hbad : ¬ resharingNoIdentity m) : ∀ res, n.status i ≠ .finished res :=
  overWire_stuck (KeyResharing.faithful hW) (fun _ _ _ _ => trivial) (fun m _ => hW.resharing_packs m) h trivial hs hm hbad

/-- If the random coefficients are not zero (the code draws them so) then the parties of a resharing finish over serialized messages if and only if no old holder has zero for a share. -/
theorem C92_resharing_zero_share (hW : FormatValid W q) (g : G) (hg : g ≠ 0) (panics : Panics I (KeyResharing.Msg (ZMod q) G) (KeyResharing.State I (ZMod q) G))
    (hpan : PanicsOnly (KeyResharing.machine g) panics fun m => ¬ resharingNoIdentity m) (ids S N : Finset I) (t n : Nat) (shares : I → ThresholdKeyShare I (ZMod q) G) (sk : ZMod q)
    (hold : ThresholdSharing g ids t shares sk) (hS : S ⊆ ids) (ht : t ≤ S.card) (hn : 2 ≤ n) (hnN : n ≤ N.card) (hN : N.card < q)
    (oldThreshold : Nat) (draw : I → Nat → ZMod q) (hdraw : ∀ i ∈ S, ∀ k, draw i k ≠ 0) (r : I → KeyResharing.Round1 I (ZMod q) G)
    (hr : ∀ i ∈ S ∪ N, KeyResharing.start g (HonestInputs S N shares (sk • g) oldThreshold n i) i (draw i) = .ok (r i)) :
    ∃ (init : I → KeyResharing.State I (ZMod q) G) (res : I → Option (ThresholdKeyShare I (ZMod q) G)),
      (∀ i ∈ S ∪ N, KeyResharing.begin (r i) = .ok (init i)) ∧
      ((overWire (KeyResharing.machine g) W.resharingTransport panics).AlwaysFinishes (S ∪ N) init ((S ∪ N).card * (1 * ((S ∪ N).card + 1))) res ↔
        ∀ i ∈ S, (shares i).secretShare ≠ 0) := by
  obtain ⟨init, res, new, h0, -, -, -, hiff⟩ := C92_resharing hW g panics hpan ids S N t n shares sk hold hS ht hn hnN hN oldThreshold draw r hr
  refine ⟨init, res, h0, hiff.trans ?_⟩
  exact KeyResharing.sendsOnly_iff hg hdraw (by omega) hr h0

end Sessions

/-! ### Signing -/

/-- **C92 (signing).** -/
theorem C92_signing (hW : FormatValid W q) (E : Signing.Env q I Ep G) (hS : SigningSetting E) (hP : W.P = E.P) (hE : SigningHashesFit E)
    (epidOf : BMap I G → BMap I PublicAux → Ep) (message sk : ZMod q) (panics : Panics I (Signing.Message q I G) (Signing.State q I Ep G))
    (hpan : PanicsOnly (Signing.machine E) panics fun m => ¬ signingNoIdentity m) (ids : Finset I) (shares : I → KeyShare I (ZMod q) G) (hshares : SharesKey E.C.g ids shares sk)
    (infos : I → AuxInfo I PaillierKey PublicAux) (setup : I → RPSetup) (haux : UsableAux E.P ids infos setup) (hfit : ∀ i ∈ ids, AllValues (AuxFits E.P) (infos i).pub)
    (hmod : ∀ i ∈ ids, (infos i).secret.modulus ≠ 0 ∧ (infos i).secret.modulus < 2 ^ E.P.modBits)
    (d : I → Signing.Draws q I) (hd : SigningDrawsValid E.P ids (fun i => (infos i).secret.modulus) (fun i => (setup i).modulus) d)
    (hdf : ∀ i ∈ ids, SigningDrawsFit E.P ((shares i).pub.keySet.erase i) (d i))
    (r1 : I → Signing.Round1 q I Ep G) (hst : ∀ i ∈ ids, Signing.start E epidOf message (shares i) (infos i) i (d i) = .ok (r1 i))
    (hk : ∑ i ∈ ids, (d i).k ≠ 0) (hgamma : ∑ i ∈ ids, (d i).gamma ≠ 0) (hr : (E.C.x ((∑ i ∈ ids, (d i).gamma) • E.C.g) : ZMod q) ≠ 0)
    (hs : message + (E.C.x ((∑ i ∈ ids, (d i).gamma) • E.C.g) : ZMod q) * sk ≠ 0) (hkey : sk • E.C.g ≠ 0) :
    ∃ (init : I → Signing.State q I Ep G) (sig : RecoverableSignature q),
      (∀ i ∈ ids, Signing.begin E (r1 i) = .ok (init i)) ∧ EcdsaValid E.C (sk • E.C.g) message sig.r sig.s ∧ LowS sig.s ∧
      ((overWire (Signing.machine E) W.signingTransport panics).AlwaysFinishes ids init (ids.card * (4 * (ids.card + 1))) (fun _ => sig) ↔
        (Signing.machine E).SendsOnly ids init signingNoIdentity) := by
  obtain ⟨init, st, sig, h0, hI, h1, h2, -⟩ := Signing.ideal E hS epidOf message sk ids shares hshares infos setup haux d hd r1 hst hk hgamma hr hs hkey
  exact ⟨init, sig, h0, h1, h2, overWire_finishes_iff (Signing.faithful hW hP hE) (fun i hi => by
    obtain ⟨h1, h2⟩ := Signing.start_fits hS.consistent (hfit i hi) (hmod i hi).1 (hmod i hi).2 (hdf i hi) (hst i hi)
    exact Signing.begin_fits hE h1 h2 (h0 i hi)) (fun s hs a ha => Signing.send_fits hs ha) hI (fun m hm => hW.signing_packs m (hP ▸ hm)) hpan⟩

/-- Whatever the others do, a party that has to send an identity point does not finish. -/
theorem C92_signing_stuck (hW : FormatValid W q) (E : Signing.Env q I Ep G) (hP : W.P = E.P) (hc : E.P.SelfConsistent) (hE : SigningHashesFit E)
    (epidOf : BMap I G → BMap I PublicAux → Ep) (message : ZMod q) (panics : Panics I (Signing.Message q I G) (Signing.State q I Ep G)) (honest : Set I) (i : I)
    (ks : KeyShare I (ZMod q) G) (aux : AuxInfo I PaillierKey PublicAux) (haux : AllValues (AuxFits E.P) aux.pub)
    (hkey : aux.secret.modulus ≠ 0 ∧ aux.secret.modulus < 2 ^ E.P.modBits) (d : Signing.Draws q I) (hd : SigningDrawsFit E.P (ks.pub.keySet.erase i) d)
    (r : Signing.Round1 q I Ep G) (hr : Signing.start E epidOf message ks aux i d = .ok r) (init : I → Signing.State q I Ep G) (hinit : Signing.begin E r = .ok (init i))
    (n : Net I (Packet I) (Signing.State q I Ep G) (WireErr (Signing.Err I)) (RecoverableSignature q))
    (h : (overWire (Signing.machine E) W.signingTransport panics).Reachable honest init n) (s : Signing.State q I Ep G) (hs : s ∈ n.begun i)
    (j : I) (m : Signing.Message q I G) (hm : (j, m) ∈ (Signing.machine E).send s) (hbad : ¬ signingNoIdentity m) : ∀ sig, n.status i ≠ .finished sig := by
  obtain ⟨h1, h2⟩ := Signing.start_fits hc haux hkey.1 hkey.2 hd hr
  exact overWire_stuck (Signing.faithful hW hP hE) (fun _ hs _ ha => Signing.send_fits hs ha) (fun m hm => hW.signing_packs m (hP ▸ hm)) h (Signing.begin_fits hE h1 h2 hinit) hs hm hbad

/-! ### The hypotheses are met -/

section Examples

attribute [local instance] Toy.fact11 Toy.order11

private def calm {M S : Type} : Panics Nat M S := ⟨fun _ _ _ => false, fun _ _ => false⟩

private theorem calm_only {M S E R : Type} (P : Spec.Machine Nat M S E R) (bad : M → Prop) : PanicsOnly P calm bad := ⟨(fun _ _ _ h => by cases h), (fun _ _ h => by cases h)⟩

private theorem bits (i : Nat) : BitsFit (kgDraws i).rho ∧ BitsFit (kgDraws i).u := ⟨by simp [BitsFit, kgDraws], by simp [BitsFit, kgDraws]⟩

/-- The key generation of three parties: nobody has drawn zero, nobody sends an identity point, and everyone finishes. -/
example : ∃ shares : Nat → KeyShare Nat (ZMod 11) (ZMod 11),
    (KeyInit.machine kgByteHash kgH (1 : ZMod 11)).SendsOnly {1, 2, 3} (fun i => .one (kgCtx i)) keyInitNoIdentity ∧
    (overWire (KeyInit.machine kgByteHash kgH (1 : ZMod 11)) toyWire.keyInitTransport calm).AlwaysFinishes {1, 2, 3} (fun i => .one (kgCtx i)) 36 shares := by
  obtain ⟨_, h, -⟩ := C91_key_init_finishes_partial toyWire_valid kgByteHash kgH (1 : ZMod 11) (by decide) calm {1, 2, 3} 7 kgDraws 3 (fun _ _ => rfl) (fun i _ => bits i)
    kgCtx kgStart (by decide +kernel) (by decide +kernel) (calm_only _ _)
  obtain ⟨_, _, hI, -⟩ := KeyInit.ideal kgByteHash kgH (1 : ZMod 11) (by decide) {1, 2, 3} 7 kgDraws 3 (fun _ _ => rfl) kgCtx kgStart (by decide +kernel)
  have hs := overWire_sendsOnly (KeyInit.faithful toyWire_valid) (fun i hi => KeyInit.initial_fits (bits i) (kgStart i hi)) (fun s hs a ha => KeyInit.send_fits hs ha) hI
    (fun m hm => toyWire_valid.keyInit_packs m hm) h
  obtain ⟨shares, -, hiff⟩ := C92_key_init toyWire_valid kgByteHash kgH (1 : ZMod 11) (by decide) calm (calm_only _ _) {1, 2, 3} 7 kgDraws 3 (fun _ _ => rfl) (fun i _ => bits i)
    kgCtx kgStart (by decide +kernel)
  exact ⟨shares, hs, hiff.2 hs⟩

private def zeroDraws (i : Nat) : KeyInit.Draws (ZMod 11) := if i = 2 then ⟨0, 4, [true, false, false], [false]⟩ else kgDraws i

private def zeroCtx (i : Nat) : KeyInit.Context Nat (ZMod 11) (ZMod 11) Nat := if i = 2 then ⟨{1, 3}, 2, 0, 4, ⟨0, 4, [true, false, false], [false]⟩, 7⟩ else kgCtx i

/-- Party 2 draws zero: it sends an identity point, so that not everyone finishes. -/
example : ∃ shares : Nat → KeyShare Nat (ZMod 11) (ZMod 11), SharesKey (1 : ZMod 11) {1, 2, 3} shares (∑ i ∈ {1, 2, 3}, (zeroDraws i).x) ∧
    ¬ (KeyInit.machine kgByteHash kgH (1 : ZMod 11)).SendsOnly {1, 2, 3} (fun i => .one (zeroCtx i)) keyInitNoIdentity := by
  have hb : ∀ i ∈ ({1, 2, 3} : Finset Nat), BitsFit (zeroDraws i).rho ∧ BitsFit (zeroDraws i).u := fun i _ => by
    unfold zeroDraws
    split
    · simp [BitsFit]
    · exact bits i
  have hc : ∀ i ∈ ({1, 2, 3} : Finset Nat), KeyInit.start (1 : ZMod 11) {1, 2, 3} 7 i (zeroDraws i) = .ok (zeroCtx i) := fun i hi => by
    unfold zeroDraws zeroCtx
    split
    · next h => subst h; rfl
    · exact kgStart i hi
  obtain ⟨shares, hk, hiff⟩ := C92_key_init toyWire_valid kgByteHash kgH (1 : ZMod 11) (by decide) calm (calm_only _ _) {1, 2, 3} 7 zeroDraws 3
    (fun i _ => by unfold zeroDraws; split <;> rfl) hb zeroCtx hc (by decide +kernel)
  refine ⟨shares, hk, fun hs => ?_⟩
  obtain ⟨n, hn, hf⟩ := (hiff.2 hs).exists_finished
  exact C91_key_init_zero toyWire_valid kgByteHash kgH 1 calm _ {1, 2, 3} 7 zeroDraws zeroCtx 2 (by simp) (hb 2 (by simp)).2 (hc 2 (by simp)) ⟨1, by decide, by decide⟩ (.inl rfl) n hn _
    (hf 2 (by simp))

/-- Three parties refresh a key over serialized messages. -/
example : ∃ (ctx : Nat → KeyRefresh.Context Nat (ZMod 11) (ZMod 11) Nat) (res : Nat → KeyShareChange Nat (ZMod 11) (ZMod 11) × AuxInfo Nat PaillierKey PublicAux),
    (∀ i ∈ ({1, 2, 3} : Finset Nat), KeyRefresh.start refreshCaseEnv {1, 2, 3} 7 i (refreshCaseDraws i) = .ok (ctx i)) ∧
    ((overWire (KeyRefresh.machine refreshCaseEnv fun _ _ _ => ([] : List Byte)) toyWire.keyRefreshTransport calm).AlwaysFinishes {1, 2, 3} (fun i => .one (ctx i)) 36 res ↔
      (KeyRefresh.machine refreshCaseEnv fun _ _ _ => ([] : List Byte)).SendsOnly {1, 2, 3} (fun i => .one (ctx i)) keyRefreshNoIdentity) := by
  have hst : ∀ i ∈ ({1, 2, 3} : Finset Nat), ∃ c, KeyRefresh.start refreshCaseEnv ({1, 2, 3} : Finset Nat) 7 i (refreshCaseDraws i) = .ok c :=
    fun i hi => (C38_start refreshCaseEnv 2 {1, 2, 3} 7 i (refreshCaseDraws i) (Toy.auxDraws_valid i (by simp at hi; omega))).1 hi
  have : Nonempty (KeyRefresh.Context Nat (ZMod 11) (ZMod 11) Nat) := ⟨(hst 1 (by decide)).choose⟩
  obtain ⟨ctx, hctx⟩ := exists_fun hst
  obtain ⟨res, -, -, h⟩ := C92_key_refresh toyWire_valid refreshCaseEnv rfl auxHashesFit 2 Toy.auxEnv_valid (fun _ _ _ => ([] : List Byte)) calm (calm_only _ _) {1, 2, 3} 7 refreshCaseDraws
    (fun i _ => auxDrawsFit i) (fun i hi => Toy.auxDraws_valid i (by simp at hi; omega)) (fun i _ j _ _ => Toy.facDraws_valid i j) 3 (fun _ _ => rfl) ctx hctx
  exact ⟨ctx, res, hctx, h⟩

/-- Parties 1 and 3 of a sharing with threshold 2 hand it over to 2, 3 and 4 over serialized messages; none of their shares is zero, and everyone finishes. The share of party 2 is zero, and if
1 and 2 hand over the key then not everyone does. -/
example : (∃ (init : Nat → KeyResharing.State Nat (ZMod 11) (ZMod 11)) (res : Nat → Option (ThresholdKeyShare Nat (ZMod 11) (ZMod 11))),
      (overWire (KeyResharing.machine (1 : ZMod 11)) toyWire.resharingTransport calm).AlwaysFinishes ({1, 3} ∪ {2, 3, 4}) init 20 res) ∧
    ∃ (init : Nat → KeyResharing.State Nat (ZMod 11) (ZMod 11)) (res : Nat → Option (ThresholdKeyShare Nat (ZMod 11) (ZMod 11))),
      ¬ (overWire (KeyResharing.machine (1 : ZMod 11)) toyWire.resharingTransport calm).AlwaysFinishes ({1, 2} ∪ {2, 3, 4}) init 20 res := by
  constructor
  · obtain ⟨r, hr, -⟩ := C39_honest_resharing 11 (1 : ZMod 11) {1, 2, 3} {1, 3} {2, 3, 4} 2 3 reshareCase 5 reshareCase_sharing (by decide) (by decide) (by decide) (by decide) (by decide) 2
      fun _ _ => 3
    obtain ⟨init, res, -, hiff⟩ := C92_resharing_zero_share toyWire_valid (1 : ZMod 11) (by decide) calm (calm_only _ _) {1, 2, 3} {1, 3} {2, 3, 4} 2 3 reshareCase 5 reshareCase_sharing
      (by decide) (by decide) (by decide) (by decide) (by decide) 2 (fun _ _ => 3) (fun _ _ _ => by decide) r hr
    exact ⟨init, res, hiff.2 (by decide +kernel)⟩
  · obtain ⟨r, hr, -⟩ := C39_honest_resharing 11 (1 : ZMod 11) {1, 2, 3} {1, 2} {2, 3, 4} 2 3 reshareCase 5 reshareCase_sharing (by decide) (by decide) (by decide) (by decide) (by decide) 2
      fun _ _ => 3
    obtain ⟨init, res, -, hiff⟩ := C92_resharing_zero_share toyWire_valid (1 : ZMod 11) (by decide) calm (calm_only _ _) {1, 2, 3} {1, 2} {2, 3, 4} 2 3 reshareCase 5 reshareCase_sharing
      (by decide) (by decide) (by decide) (by decide) (by decide) 2 (fun _ _ => 3) (fun _ _ _ => by decide) r hr
    exact ⟨init, res, fun h => hiff.1 h 2 (by decide) (by decide +kernel)⟩

/-- Three parties sign over serialized messages. -/
example : ∃ (infos : Nat → AuxInfo Nat PaillierKey PublicAux) (r1 : Nat → Signing.Round1 11 Nat Nat (ZMod 11)) (init : Nat → Signing.State 11 Nat Nat (ZMod 11)) (sig : RecoverableSignature 11),
    (∀ i ∈ Toy.parties, Signing.start Toy.signEnv (fun _ _ => 7) (5 : ZMod 11) (Toy.signShares i) (infos i) i (Toy.signDraws i) = .ok (r1 i)) ∧
    (∀ i ∈ Toy.parties, Signing.begin Toy.signEnv (r1 i) = .ok (init i)) ∧
    ((overWire (Signing.machine Toy.signEnv) toyWire.signingTransport calm).AlwaysFinishes Toy.parties init 48 (fun _ => sig) ↔
      (Signing.machine Toy.signEnv).SendsOnly Toy.parties init signingNoIdentity) := by
  obtain ⟨infos, haux, hmod⟩ := Toy.exists_signInfos
  have hd : SigningDrawsValid Toy.signEnv.P Toy.parties (fun i => (infos i).secret.modulus) (fun i => (Toy.ringPedersen i).modulus) Toy.signDraws := by
    rw [funext hmod]; exact Toy.signDraws_valid
  have hst := C41_honest_start Toy.signEnv Toy.signEnv_setting (fun _ _ => 7) 5 6 Toy.parties Toy.signShares Toy.signShares_valid infos Toy.ringPedersen haux Toy.signDraws
  have : Nonempty (Signing.Round1 11 Nat Nat (ZMod 11)) := ⟨(hst 1 (by decide)).choose⟩
  obtain ⟨r1, hr1⟩ := exists_fun hst
  have hfit : ∀ i ∈ Toy.parties, AllValues (AuxFits Params.test) (infos i).pub := by
    intro i hi v hv
    obtain ⟨e, he, rfl⟩ := List.mem_map.1 hv
    have h1 : (infos i).pub.get? e.1 = some e.2 := BMap.get?_eq_some_iff.2 he
    have h2 : e.1 ∈ Toy.parties := by
      rw [← haux.consistent.holders i hi, BMap.mem_keySet]
      exact List.mem_map.2 ⟨e, he, rfl⟩
    rw [haux.consistent.public_agree i hi e.1 h2] at h1
    rw [← Option.some.inj h1]
    refine ⟨?_, ?_⟩
    · show (infos e.1).secret.modulus < _
      rw [hmod]
      decide +kernel
    · show Toy.primeQ * Toy.primeP ≤ _
      decide +kernel
  obtain ⟨init, sig, h0, -, -, hiff⟩ := C92_signing toyWire_valid Toy.signEnv Toy.signEnv_setting rfl signHashesFit (fun _ _ => 7) 5 6 calm (calm_only _ _) Toy.parties Toy.signShares
    Toy.signShares_valid infos Toy.ringPedersen haux hfit (fun i _ => by rw [hmod]; exact ⟨by decide +kernel, by decide +kernel⟩) Toy.signDraws hd (fun i _ => signDrawsFit i _) r1
    (fun i hi => (hr1 i hi).2) (by decide +kernel) (by decide +kernel) (by decide +kernel) (by decide +kernel) (by decide +kernel)
  exact ⟨infos, r1, init, sig, fun i hi => (hr1 i hi).2, h0, hiff⟩

end Examples

end Synedrion.Props
