import Verif.Lemmas.HashPointsNet
import Verif.Props.WireNet
import Verif.Props.Network

/-!
# C93: identity points that are hashed
-/

set_option linter.unusedSectionVars false

namespace Synedrion.Props

open Spec

variable {ε I G V Sid Ep : Type} [LinearOrder I] [AddCommGroup G] {q : Nat} [Fact q.Prime] [Module (ZMod q) G] [DecidableEq G] {W : WireFormat G V}

/-- **C93 (what can be received).** A part of a message can be received if and only if it is a value of its type: whoever writes the bytes by hand can also send identity points, which the code itself
never does (`C90_identity_not_sent`). -/
theorem C93_receivable (hW : FormatValid W q) :
    (∀ p r (m : KeyInit.Parts (ZMod q) G V p r), (∃ d, (W.keyInit p r : WireCodec ε I _).dec d = some m) ↔ keyInitFits p r m) ∧
    (∀ p r (m : KeyRefresh.Parts I (ZMod q) G V p r), (∃ d, (W.keyRefresh p r : WireCodec ε I _).dec d = some m) ↔ keyRefreshFits W.P p r m) ∧
    (∀ m : List G × ZMod q, ∃ d, (W.resharingBroadcast : WireCodec ε I _).dec d = some m) ∧
    (∀ p r (m : Signing.Parts q I G p r), (∃ d, (W.signing p r : WireCodec ε I _).dec d = some m) ↔ signingFits W.P p r m) :=
  ⟨fun p r m => ⟨fun ⟨d, hd⟩ => (hW.keyInit_lawful p r).sound d m hd, hW.keyInit_onto p r m⟩,
    fun p r m => ⟨fun ⟨d, hd⟩ => (hW.keyRefresh_lawful p r).sound d m hd, hW.keyRefresh_onto p r m⟩,
    fun m => hW.resharingBroadcast_onto m trivial,
    fun p r m => ⟨fun ⟨d, hd⟩ => (hW.signing_lawful p r).sound d m hd, hW.signing_onto p r m⟩⟩

section Sessions

variable [LinearOrder (ZMod q)] [DecidableEq V]

/-! ### Key generation -/

/-- **C93 (key generation).** With the panics of hashing identity points, parties that follow the protocol finish over serialized messages, under any schedule, if and only if none of them has drawn
zero for its share or for its proof. -/
theorem C93_key_init (hW : FormatValid W q) (hashV : Sid → I → KeyInit.PublicData G → V) (H : SchHash G (KeyInit.SchAux I Sid) → ZMod q) (g : G) (hg : g ≠ 0)
    (ids : Finset I) (sid : Sid) (d : I → KeyInit.Draws (ZMod q)) (len : Nat) (hlen : ∀ i ∈ ids, (d i).rho.length = len) (hd : ∀ i ∈ ids, BitsFit (d i).rho ∧ BitsFit (d i).u)
    (c : I → KeyInit.Context I (ZMod q) G Sid) (hc : ∀ i ∈ ids, KeyInit.start g ids sid i (d i) = .ok (c i)) (hsum : ∑ i ∈ ids, (d i).x ≠ 0) :
    ∃ shares : I → KeyShare I (ZMod q) G, SharesKey g ids shares (∑ i ∈ ids, (d i).x) ∧
      ((overWire (KeyInit.machine hashV H g) W.keyInitTransport KeyInit.hashPanics).AlwaysFinishes ids (fun i => .one (c i)) (ids.card * (3 * (ids.card + 1))) shares ↔
        ∀ i ∈ ids, (d i).x ≠ 0 ∧ (d i).tau ≠ 0) := by
  obtain ⟨st, shares, hI, hk⟩ := KeyInit.ideal hashV H g hg ids sid d len hlen c hc hsum
  refine ⟨shares, hk, fun h i hi => ?_, fun h => ?_⟩
  · obtain ⟨n, hn, hf⟩ := h.exists_finished
    have h0 := own_of_finished_first hn (hf i hi)
    obtain ⟨h1, h2, -⟩ := KeyInit.start_points (hc i hi)
    refine ⟨fun hx => h0 ?_, fun hx => h0 ?_⟩
    · exact List.mem_cons.2 (.inl (by rw [h1, hx, zero_smul]))
    · exact List.mem_cons.2 (.inr (List.mem_singleton.2 (by rw [h2, hx, zero_smul])))
  · have hc0 : ∀ i ∈ ids, KeyInit.Clean (V := V) (.one (c i)) := fun i hi => by
      obtain ⟨h1, h2, -⟩ := KeyInit.start_points (hc i hi)
      exact ⟨by rw [h1]; exact smul_ne_zero (h i hi).1 hg, by rw [h2]; exact smul_ne_zero (h i hi).2 hg⟩
    have hs : (KeyInit.machine hashV H g).SendsOnly ids (fun i => .one (c i)) keyInitNoIdentity := by
      have := ideal_inv (inv := fun _ s => KeyInit.Clean s) (ok := keyInitNoIdentity) hI hc0 (fun _ s hs a ha => KeyInit.clean_send hs ha)
        fun _ s got s' hs hg hn => KeyInit.clean_next hs hg hn
      exact sendsOnly_of_ideal hI fun k i h1 h2 hi a ha => KeyInit.clean_send (this k i h1 h2 hi) ha
    exact overWire_finishes_hash (KeyInit.faithful hW) (fun i hi => KeyInit.initial_fits (hd i hi) (hc i hi)) (fun s hs a ha => KeyInit.send_fits hs ha) hI
      (fun m hm => hW.keyInit_packs m hm) hs (clean := fun _ s => KeyInit.Clean s) hc0 (fun _ _ s got s' hs _ hg hn _ => KeyInit.clean_next hs hg hn) (fun _ _ s hs _ => KeyInit.clean_own hs)
      fun _ _ s hs _ j m hm => KeyInit.clean_read hs hm

/-- Whatever the others do, a party that has drawn zero does not finish. -/
theorem C93_key_init_stuck (W : WireFormat G V) (hashV : Sid → I → KeyInit.PublicData G → V) (H : SchHash G (KeyInit.SchAux I Sid) → ZMod q) (g : G) (honest : Set I) (ids : Finset I)
    (sid : Sid) (d : I → KeyInit.Draws (ZMod q)) (c : I → KeyInit.Context I (ZMod q) G Sid) (i : I) (hc : KeyInit.start g ids sid i (d i) = .ok (c i)) (h0 : (d i).x = 0 ∨ (d i).tau = 0)
    (n : Net I (Packet I) (KeyInit.State I (ZMod q) G Sid V) (WireErr KeyInit.Err) (KeyShare I (ZMod q) G))
    (h : (overWire (KeyInit.machine hashV H g) W.keyInitTransport KeyInit.hashPanics).Reachable honest (fun i => .one (c i)) n) : ∀ share, n.status i ≠ .finished share := by
  intro share hf
  have hown := own_of_finished_first h hf
  obtain ⟨h1, h2, -⟩ := KeyInit.start_points hc
  rcases h0 with hx | hx
  · exact hown (List.mem_cons.2 (.inl (by rw [h1, hx, zero_smul])))
  · exact hown (List.mem_cons.2 (.inr (List.mem_singleton.2 (by rw [h2, hx, zero_smul]))))

/-- Whenever an honest party of a key generation waits for the round 2 message of a dishonest one, the dishonest one can make the honest one panic, with any message that contains an identity point. -/
theorem C93_key_init_crash (hW : FormatValid W q) (hashV : Sid → I → KeyInit.PublicData G → V) (H : SchHash G (KeyInit.SchAux I Sid) → ZMod q) (g : G) (honest : Set I)
    (init : I → KeyInit.State I (ZMod q) G Sid V) (n : Net I (Packet I) (KeyInit.State I (ZMod q) G Sid V) (WireErr KeyInit.Err) (KeyShare I (ZMod q) G))
    (h : (overWire (KeyInit.machine hashV H g) W.keyInitTransport KeyInit.hashPanics).Reachable honest init n) (i j : I) (hi : i ∈ honest) (hj : j ∉ honest)
    (r : KeyInit.Round2 I (ZMod q) G Sid V) (got : List (I × Packet I)) (hst : n.status i = .running (.two r) got) (hexp : j ∈ r.ctx.otherIds) (hnew : j ∉ got.map Prod.fst)
    (m : KeyInit.Msg2 G) (hm : keyInitMessageFits (q := q) (V := V) (.two m)) (h0 : ¬ keyInitNoIdentity (q := q) (V := V) (.two m)) :
    ∃ d, (W.keyInitTransport (q := q)).unpack 2 d = some (.two m) ∧
      (overWire (KeyInit.machine hashV H g) W.keyInitTransport KeyInit.hashPanics).recv (.two r) j d = .panic ∧
      (overWire (KeyInit.machine hashV H g) W.keyInitTransport KeyInit.hashPanics).Reachable honest init { n with status := Function.update n.status i .panicked } := by
  have h0 : 0 ∈ KeyInit.readPoints (.two r) j (.two m : KeyInit.Message (ZMod q) G V) := KeyInit.not_good_two h0
  obtain ⟨d, hd⟩ := KeyInit.read_unpack (hashV := hashV) (H := H) (g := g) hW hm h0
  exact ⟨d, hd, read_panics hd h0, h.tail (overWire_crash hi hst hexp hnew hj hd h0)⟩

/-! ### Key refresh -/

/-- **C93 (key refresh).** With the panics of hashing identity points, parties that follow the protocol finish over serialized messages, under any schedule, if and only if there is more than one of
them and nobody has drawn zero for a share change, for a mask or for a proof, nor share changes of which the last, by which they add up to zero, is itself zero. -/
theorem C93_key_refresh (hW : FormatValid W q) (E : KeyRefresh.Env I Sid (ZMod q) G) (hg : E.g ≠ 0) (hP : W.P = E.aux.P) (hE : AuxHashesFit E.aux) (k : Nat) (hEv : HashesValid E.aux k)
    (hashV : Sid → I → KeyRefresh.Hashed I G → V) (ids : Finset I) (sid : Sid)
    (d : I → KeyRefresh.Draws I (ZMod q)) (hd : ∀ i ∈ ids, AuxDrawsFit E.aux.P (d i).aux) (hdv : ∀ i ∈ ids, DrawsValid E.aux k (d i).aux)
    (hfac : ∀ i ∈ ids, ∀ j ∈ ids, i ≠ j → FacDrawsValid E.aux.P ((d i).aux.p * (d i).aux.q) ((d j).aux.rpP * (d j).aux.rpQ) ((d i).aux.facMasks j))
    (len : Nat) (hlen : ∀ i ∈ ids, (d i).aux.rid.length = len)
    (c : I → KeyRefresh.Context I (ZMod q) G Sid) (hc : ∀ i ∈ ids, KeyRefresh.start E ids sid i (d i) = .ok (c i)) :
    ∃ res : I → KeyShareChange I (ZMod q) G × AuxInfo I PaillierKey PublicAux, ZeroSumChange E.g ids (fun i => (res i).1) ∧
      (UsableAux E.aux.P ids (fun i => (res i).2)
        fun j => ⟨_, RPParams.withSecret ((d j).aux.rpP * (d j).aux.rpQ) E.aux.P.modBits (d j).aux.lambda (d j).aux.tDraw⟩) ∧
      ((overWire (KeyRefresh.machine E hashV) W.keyRefreshTransport KeyRefresh.hashPanics).AlwaysFinishes ids (fun i => .one (c i)) (ids.card * (3 * (ids.card + 1))) res ↔
        ∀ i ∈ ids, (2 ≤ ids.card ∧ (∀ k < ids.card - 1, (d i).split k ≠ 0) ∧ ∑ k ∈ Finset.range (ids.card - 1), (d i).split k ≠ 0) ∧ ∀ j ∈ ids, (d i).ys j ≠ 0 ∧ (d i).taus j ≠ 0) := by
  obtain ⟨st, res, hI, h1, -, -, h2⟩ := KeyRefresh.ideal E k hEv hashV ids sid d hdv hfac len hlen c hc
  refine ⟨res, h1, h2, fun h i hi => ?_, fun h => ?_⟩
  · obtain ⟨n, hn, hf⟩ := h.exists_finished
    rw [← KeyRefresh.start_xs (hc i hi)]
    exact (KeyRefresh.start_clean hg (hc i hi)).1 ((KeyRefresh.cleanCtx_iff hg (hc i hi)).2 (own_of_finished_first hn (hf i hi)))
  · have hc0 : ∀ i ∈ ids, KeyRefresh.Clean (V := V) (.one (c i)) := fun i hi => (KeyRefresh.start_clean hg (hc i hi)).2 (by
      rw [KeyRefresh.start_xs (hc i hi)]
      exact h i hi)
    have hs : (KeyRefresh.machine E hashV).SendsOnly ids (fun i => .one (c i)) keyRefreshNoIdentity := by
      have := ideal_inv (inv := fun _ s => KeyRefresh.Clean s) (ok := keyRefreshNoIdentity) hI hc0 (fun _ s hs a ha => KeyRefresh.clean_send hs ha)
        fun _ s got s' hs hg hn => KeyRefresh.clean_next hs hg hn
      exact sendsOnly_of_ideal hI fun k i h1 h2 hi a ha => KeyRefresh.clean_send (this k i h1 h2 hi) ha
    exact overWire_finishes_hash (KeyRefresh.faithful hW hP hE) (fun i hi => KeyRefresh.initial_fits hE (hd i hi) (hc i hi)) (fun s hs a ha => KeyRefresh.send_fits (hashV := hashV) hs ha) hI
      (fun m hm => hW.keyRefresh_packs m (hP ▸ hm)) hs (clean := fun _ s => KeyRefresh.Clean s) hc0 (fun _ _ s got s' hs _ hg hn _ => KeyRefresh.clean_next hs hg hn)
      (fun _ _ s hs _ => KeyRefresh.clean_own hs) fun _ _ s hs _ j m hm => KeyRefresh.clean_read hs hm

/-- Whatever the others do, a party with such a draw does not finish; nor does the only holder of a key, whose one share change is zero. -/
theorem C93_key_refresh_stuck (W : WireFormat G V) (E : KeyRefresh.Env I Sid (ZMod q) G) (hg : E.g ≠ 0) (hashV : Sid → I → KeyRefresh.Hashed I G → V) (ids : Finset I) (sid : Sid) (i : I)
    (d : KeyRefresh.Draws I (ZMod q)) (c : I → KeyRefresh.Context I (ZMod q) G Sid) (hc : KeyRefresh.start E ids sid i d = .ok (c i)) (honest : Set I)
    (h0 : ids.card ≤ 1 ∨ (∃ k < ids.card - 1, d.split k = 0) ∨ ∑ k ∈ Finset.range (ids.card - 1), d.split k = 0 ∨ ∃ j ∈ ids, d.ys j = 0 ∨ d.taus j = 0)
    (n : Net I (Packet I) (KeyRefresh.State I (ZMod q) G Sid V) (WireErr (KeyRefresh.Err I (ZMod q))) (KeyShareChange I (ZMod q) G × AuxInfo I PaillierKey PublicAux))
    (h : (overWire (KeyRefresh.machine E hashV) W.keyRefreshTransport KeyRefresh.hashPanics).Reachable honest (fun i => .one (c i)) n) : ∀ res, n.status i ≠ .finished res := by
  intro res hf
  obtain ⟨h1, h2⟩ := (KeyRefresh.start_clean hg hc).1 ((KeyRefresh.cleanCtx_iff hg hc).2 (own_of_finished_first h hf))
  obtain ⟨h3, h4, h5⟩ := (KeyRefresh.start_xs hc).1 h1
  rcases h0 with h0 | ⟨k, hk, h0⟩ | h0 | ⟨j, hj, h0⟩
  · omega
  · exact h4 k hk h0
  · exact h5 h0
  · exact h0.elim (h2 j hj).1 (h2 j hj).2

/-- Whenever an honest party of a key refresh waits for the round 2 message of a dishonest one, the dishonest one can make the honest one panic, with any message that contains an identity point. -/
theorem C93_key_refresh_crash (hW : FormatValid W q) (E : KeyRefresh.Env I Sid (ZMod q) G) (hashV : Sid → I → KeyRefresh.Hashed I G → V) (honest : Set I)
    (init : I → KeyRefresh.State I (ZMod q) G Sid V)
    (n : Net I (Packet I) (KeyRefresh.State I (ZMod q) G Sid V) (WireErr (KeyRefresh.Err I (ZMod q))) (KeyShareChange I (ZMod q) G × AuxInfo I PaillierKey PublicAux))
    (h : (overWire (KeyRefresh.machine E hashV) W.keyRefreshTransport KeyRefresh.hashPanics).Reachable honest init n) (i j : I) (hi : i ∈ honest) (hj : j ∉ honest)
    (c : KeyRefresh.Context I (ZMod q) G Sid) (capVs : BMap I V) (got : List (I × Packet I)) (hst : n.status i = .running (.two c capVs) got) (hexp : j ∈ c.otherIds)
    (hnew : j ∉ got.map Prod.fst) (m : KeyRefresh.Msg2 I G) (hm : keyRefreshMessageFits (q := q) (V := V) W.P (.two m)) (h0 : ¬ keyRefreshNoIdentity (q := q) (V := V) (.two m)) :
    ∃ d, (W.keyRefreshTransport (q := q)).unpack 2 d = some (.two m) ∧
      (overWire (KeyRefresh.machine E hashV) W.keyRefreshTransport KeyRefresh.hashPanics).recv (.two c capVs) j d = .panic ∧
      (overWire (KeyRefresh.machine E hashV) W.keyRefreshTransport KeyRefresh.hashPanics).Reachable honest init { n with status := Function.update n.status i .panicked } := by
  have h0 : 0 ∈ KeyRefresh.readPoints (.two c capVs) j (.two m : KeyRefresh.Message I (ZMod q) G V) := KeyRefresh.not_good_two h0
  obtain ⟨d, hd⟩ := KeyRefresh.read_unpack (E := E) (hashV := hashV) hW hm h0
  exact ⟨d, hd, read_panics hd h0, h.tail (overWire_crash hi hst hexp hnew hj hd h0)⟩

end Sessions

/-! ### Signing -/

/-- **C93 (signing).** With the panics of hashing identity points, two or more signers that follow the protocol finish over serialized messages, under any schedule, if and only if nobody sends an
identity point and nobody's share of the key is zero. -/
theorem C93_signing (hW : FormatValid W q) (E : Signing.Env q I Ep G) (hS : SigningSetting E) (hg : E.C.g ≠ 0) (hP : W.P = E.P) (hE : SigningHashesFit E)
    (epidOf : BMap I G → BMap I PublicAux → Ep) (message sk : ZMod q) (ids : Finset I) (htwo : 2 ≤ ids.card) (shares : I → KeyShare I (ZMod q) G) (hshares : SharesKey E.C.g ids shares sk)
    (infos : I → AuxInfo I PaillierKey PublicAux) (setup : I → RPSetup) (haux : UsableAux E.P ids infos setup) (hfit : ∀ i ∈ ids, AllValues (AuxFits E.P) (infos i).pub)
    (hmod : ∀ i ∈ ids, (infos i).secret.modulus ≠ 0 ∧ (infos i).secret.modulus < 2 ^ E.P.modBits)
    (d : I → Signing.Draws q I) (hd : SigningDrawsValid E.P ids (fun i => (infos i).secret.modulus) (fun i => (setup i).modulus) d)
    (hdf : ∀ i ∈ ids, SigningDrawsFit E.P ((shares i).pub.keySet.erase i) (d i))
    (r1 : I → Signing.Round1 q I Ep G) (hst : ∀ i ∈ ids, Signing.start E epidOf message (shares i) (infos i) i (d i) = .ok (r1 i))
    (hk : ∑ i ∈ ids, (d i).k ≠ 0) (hgamma : ∑ i ∈ ids, (d i).gamma ≠ 0) (hr : (E.C.x ((∑ i ∈ ids, (d i).gamma) • E.C.g) : ZMod q) ≠ 0)
    (hs : message + (E.C.x ((∑ i ∈ ids, (d i).gamma) • E.C.g) : ZMod q) * sk ≠ 0) (hkey : sk • E.C.g ≠ 0) :
    ∃ (init : I → Signing.State q I Ep G) (sig : RecoverableSignature q),
      (∀ i ∈ ids, Signing.begin E (r1 i) = .ok (init i)) ∧ EcdsaValid E.C (sk • E.C.g) message sig.r sig.s ∧ LowS sig.s ∧
      ((overWire (Signing.machine E) W.signingTransport (Signing.hashPanics E.C.g)).AlwaysFinishes ids init (ids.card * (4 * (ids.card + 1))) (fun _ => sig) ↔
        (Signing.machine E).SendsOnly ids init signingNoIdentity ∧ ∀ i ∈ ids, (shares i).secret ≠ 0) := by
  obtain ⟨init, st, sig, h0, hI, h1, h2, -⟩ := Signing.ideal E hS epidOf message sk ids shares hshares infos setup haux d hd r1 hst hk hgamma hr hs hkey
  have hinit : ∀ i ∈ ids, Signing.StateFits E.P (init i) := fun i hi => by
    obtain ⟨h1, h2⟩ := Signing.start_fits hS.consistent (hfit i hi) (hmod i hi).1 (hmod i hi).2 (hdf i hi) (hst i hi)
    exact Signing.begin_fits hE h1 h2 (h0 i hi)
  refine ⟨init, sig, h0, h1, h2, fun h => ⟨overWire_sendsOnly (Signing.faithful hW hP hE) hinit (fun s hs a ha => Signing.send_fits hs ha) hI
    (fun m hm => hW.signing_packs m (hP ▸ hm)) h, fun i hi hz => ?_⟩, fun ⟨hs, hz⟩ => ?_⟩
  · obtain ⟨n, hn, hf⟩ := h.exists_finished
    refine own_of_finished_first hn (hf i hi) ?_
    obtain ⟨out, ho, hks, -⟩ := Signing.begin_clean (hst i hi) (h0 i hi)
    rw [ho]
    refine List.mem_append_left _ ?_
    rw [hks]
    exact (Signing.pub_values hg hshares hi).2 ⟨i, hi, hz⟩
  · have hc0 : ∀ i ∈ ids, Signing.Clean E (init i) := fun i hi => by
      obtain ⟨out, ho, hks, hoth, hne⟩ := Signing.begin_clean (hst i hi) (h0 i hi)
      have hn : (r1 i).ctx.otherIds.Nonempty := by
        rw [hoth, hshares.holders i hi, ← Finset.card_pos, Finset.card_erase_of_mem hi]
        omega
      rw [ho]
      refine ⟨?_, hn, hne hn⟩
      rw [hks, Signing.pub_values hg hshares hi]
      rintro ⟨j, hj, hj0⟩
      exact hz j hj hj0
    exact overWire_finishes_hash (Signing.faithful hW hP hE) hinit (fun s hs a ha => Signing.send_fits hs ha) hI
      (fun m hm => hW.signing_packs m (hP ▸ hm)) hs (clean := fun _ s => Signing.Clean E s) hc0 (fun _ _ s got s' hs hse hg hn hr => Signing.clean_next hs hse hg hn hr)
      (fun _ _ s hs hse => Signing.clean_own hg hs hse) fun _ _ s hs hse j m hm => Signing.clean_read hg hs hse hm

/-- Whatever the others do, a signer does not finish if a signer's public share is the identity, that is, if a share of the key is zero. -/
theorem C93_signing_stuck (W : WireFormat G V) (E : Signing.Env q I Ep G) (epidOf : BMap I G → BMap I PublicAux → Ep) (message : ZMod q) (honest : Set I) (i : I) (ks : KeyShare I (ZMod q) G)
    (aux : AuxInfo I PaillierKey PublicAux) (d : Signing.Draws q I) (r : Signing.Round1 q I Ep G) (hr : Signing.start E epidOf message ks aux i d = .ok r)
    (init : I → Signing.State q I Ep G) (hinit : Signing.begin E r = .ok (init i)) (j : I) (h0 : ks.pub.get? j = some 0)
    (n : Net I (Packet I) (Signing.State q I Ep G) (WireErr (Signing.Err I)) (RecoverableSignature q))
    (h : (overWire (Signing.machine E) W.signingTransport (Signing.hashPanics E.C.g)).Reachable honest init n) : ∀ sig, n.status i ≠ .finished sig := by
  intro sig hf
  refine own_of_finished_first h hf ?_
  obtain ⟨out, ho, hks, -⟩ := Signing.begin_clean hr hinit
  rw [ho]
  refine List.mem_append_left _ ?_
  rw [hks]
  exact BMap.mem_values.2 ⟨j, h0⟩

/-- Whenever an honest signer waits for the round 1 or round 2 message of a dishonest one, the dishonest one can make the honest one panic, with any message that contains an identity point; in round 3
with any message with an identity point in its proof or for its share of the public nonce. -/
theorem C93_signing_crash (hW : FormatValid W q) (E : Signing.Env q I Ep G) (honest : Set I) (init : I → Signing.State q I Ep G)
    (n : Net I (Packet I) (Signing.State q I Ep G) (WireErr (Signing.Err I)) (RecoverableSignature q))
    (h : (overWire (Signing.machine E) W.signingTransport (Signing.hashPanics E.C.g)).Reachable honest init n) (i j : I) (hi : i ∈ honest) (hj : j ∉ honest)
    (s : Signing.State q I Ep G) (got : List (I × Packet I)) (hst : n.status i = .running s got) (hexp : j ∈ (Signing.machine E).expected s) (hnew : j ∉ got.map Prod.fst)
    (m : Signing.Message q I G) (hm : signingMessageFits W.P m)
    (h0 : (∃ r out m1, s = .one r out ∧ m = .one m1 ∧ ¬ signingNoIdentity m) ∨
      (∃ r m2, s = .two r ∧ m = .two m2 ∧ j ∈ r.payloads1.keySet ∧ j ∈ r.ctx.keyShare.pub.keySet ∧ ¬ signingNoIdentity m) ∨
      (∃ r m3, s = .three r ∧ m = .three m3 ∧ j ∈ r.payloads1.keySet ∧ 0 ∈ m3.capDelta :: elogPoints m3.psiPrime)) :
    ∃ d, W.signingTransport.unpack ((Signing.machine E).round s) d = some m ∧
      (overWire (Signing.machine E) W.signingTransport (Signing.hashPanics E.C.g)).recv s j d = .panic ∧
      (overWire (Signing.machine E) W.signingTransport (Signing.hashPanics E.C.g)).Reachable honest init { n with status := Function.update n.status i .panicked } := by
  have h0 : 0 ∈ Signing.readPoints E.C.g s j m := by
    rcases h0 with ⟨r, out, m1, rfl, rfl, h0⟩ | ⟨r, m2, rfl, rfl, h1, h2, h0⟩ | ⟨r, m3, rfl, rfl, h1, h0⟩
    · exact Signing.not_good_one h0
    · exact Signing.not_good_two h1 h2 h0
    · exact Signing.not_good_three h1 h0
  obtain ⟨d, hd⟩ := Signing.read_unpack (E := E) hW hm h0
  exact ⟨d, hd, read_panics hd h0, h.tail (overWire_crash hi hst hexp hnew hj hd h0)⟩

/-- A dishonest signer can make an honest one panic at once, with its first packet. -/
theorem C93_signing_crash_at_once (hW : FormatValid W q) (E : Signing.Env q I Ep G) (huint : 0 < W.P.uint) (hwide : 0 < W.P.wide) (epidOf : BMap I G → BMap I PublicAux → Ep) (message : ZMod q)
    (honest : Set I) (i j : I) (hi : i ∈ honest) (hj : j ∉ honest) (ks : KeyShare I (ZMod q) G) (hks : j ∈ ks.pub.keySet)
    (aux : AuxInfo I PaillierKey PublicAux) (d : Signing.Draws q I) (r : Signing.Round1 q I Ep G) (hr : Signing.start E epidOf message ks aux i d = .ok r)
    (init : I → Signing.State q I Ep G) (hinit : Signing.begin E r = .ok (init i)) :
    ∃ n, (overWire (Signing.machine E) W.signingTransport (Signing.hashPanics E.C.g)).Step honest
        ((overWire (Signing.machine E) W.signingTransport (Signing.hashPanics E.C.g)).start init) n ∧ n.status i = .panicked := by
  obtain ⟨out, ho, -, hoth, -⟩ := Signing.begin_clean hr hinit
  let psi : EncElgProof q G := ⟨0, 0, 0, 0, 0, 0, ⟨0, 0⟩, 0, 0, ⟨0, 0⟩⟩
  have hpsi : EncElgFits W.P psi := ⟨Nat.two_pow_pos _, Nat.two_pow_pos _, Nat.two_pow_pos _, ⟨huint, Nat.two_pow_pos _⟩, Nat.two_pow_pos _, ⟨hwide, Nat.two_pow_pos _⟩⟩
  have hm : signingMessageFits W.P (.one ⟨⟨0, 0, 0, 0, 0, 0, 0⟩, psi, psi⟩ : Signing.Message q I G) := by
    intro r p x hx
    rcases p <;> rcases r with _ | _ | r <;> first | (cases hx; done) | cases Option.some.inj hx
    · exact ⟨Nat.two_pow_pos _, Nat.two_pow_pos _⟩
    · exact ⟨hpsi, hpsi⟩
  have h0 : 0 ∈ Signing.readPoints E.C.g (.one r out) j (.one ⟨⟨0, 0, 0, 0, 0, 0, 0⟩, psi, psi⟩ : Signing.Message q I G) := List.mem_cons_self
  obtain ⟨d, hd⟩ := Signing.read_unpack (E := E) hW hm h0
  have hij : j ≠ i := fun h => hj (h ▸ hi)
  refine ⟨_, overWire_crash hi (s := .one r out) (got := []) (congrArg (Status.running · []) ho) ?_ (by simp) hj hd h0, Function.update_self ..⟩
  show j ∈ r.ctx.otherIds
  rw [hoth]
  exact Finset.mem_erase.2 ⟨hij, hks⟩

/-! ### The hypotheses are met -/

section Examples

attribute [local instance] Toy.fact11 Toy.order11

private theorem bits (i : Nat) : BitsFit (kgDraws i).rho ∧ BitsFit (kgDraws i).u := ⟨by simp [BitsFit, kgDraws], by simp [BitsFit, kgDraws]⟩

/-- The key generation of three parties, none of which has drawn zero. -/
example : ∃ shares : Nat → KeyShare Nat (ZMod 11) (ZMod 11), SharesKey (1 : ZMod 11) {1, 2, 3} shares 4 ∧
    (overWire (KeyInit.machine kgByteHash kgH (1 : ZMod 11)) toyWire.keyInitTransport KeyInit.hashPanics).AlwaysFinishes {1, 2, 3} (fun i => .one (kgCtx i)) 36 shares := by
  obtain ⟨shares, hk, hiff⟩ := C93_key_init toyWire_valid kgByteHash kgH (1 : ZMod 11) (by decide) {1, 2, 3} 7 kgDraws 3 (fun _ _ => rfl) (fun i _ => bits i)
    kgCtx kgStart (by decide +kernel)
  exact ⟨shares, hk, hiff.2 (by decide +kernel)⟩

private def zeroDraws (i : Nat) : KeyInit.Draws (ZMod 11) := if i = 2 then ⟨3, 0, [true, false, false], [false]⟩ else kgDraws i

private def zeroCtx (i : Nat) : KeyInit.Context Nat (ZMod 11) (ZMod 11) Nat := if i = 2 then ⟨{1, 3}, 2, 3, 0, ⟨3, 0, [true, false, false], [false]⟩, 7⟩ else kgCtx i

/-- Party 2 has drawn zero for its proof, and does not finish. -/
example (honest : Set Nat) (n : Net Nat (Packet Nat) (KeyInit.State Nat (ZMod 11) (ZMod 11) Nat (List Byte)) (WireErr KeyInit.Err) (KeyShare Nat (ZMod 11) (ZMod 11)))
    (h : (overWire (KeyInit.machine kgByteHash kgH (1 : ZMod 11)) toyWire.keyInitTransport KeyInit.hashPanics).Reachable honest (fun i => .one (zeroCtx i)) n) :
    ∀ share, n.status 2 ≠ .finished share :=
  C93_key_init_stuck toyWire kgByteHash kgH 1 honest {1, 2, 3} 7 zeroDraws zeroCtx 2 rfl (.inr rfl) n h

private abbrev crashCase : Machine Nat (Packet Nat) (KeyInit.State Nat (ZMod 11) (ZMod 11) Nat (List Byte)) (WireErr KeyInit.Err) (KeyShare Nat (ZMod 11) (ZMod 11)) :=
  overWire (KeyInit.machine kgByteHash kgH (1 : ZMod 11)) toyWire.keyInitTransport KeyInit.hashPanics

private def commitment : Packet Nat := ⟨some (.seq [.bytes []]), none, none⟩

private theorem crashReceive {n : Net Nat (Packet Nat) (KeyInit.State Nat (ZMod 11) (ZMod 11) Nat (List Byte)) (WireErr KeyInit.Err) (KeyShare Nat (ZMod 11) (ZMod 11))}
    (h : crashCase.Reachable {1} (fun i => .one (kgCtx i)) n) {got : List (Nat × Packet Nat)} (hst : n.status 1 = .running (.one (kgCtx 1)) got) (j : Nat) (hj : j ∈ (kgCtx 1).otherIds)
    (hnew : j ∉ got.map Prod.fst) (hbad : j ≠ 1) :
    ∃ n', crashCase.Reachable {1} (fun i => .one (kgCtx i)) n' ∧ n'.status 1 = .running (.one (kgCtx 1)) (got ++ [(j, commitment)]) := by
  have h1 := Machine.Step.receive (P := crashCase) (honest := {1}) n 1 (.one (kgCtx 1)) got j commitment rfl hst hj hnew fun h => absurd h hbad
  refine ⟨_, h.tail h1, ?_⟩
  simp only [Function.update_self]
  rfl

/-- Party 1 generates a key with two dishonest ones, gets a commitment from each of them, and then an identity point from party 3. -/
example : ∃ n, (overWire (KeyInit.machine kgByteHash kgH (1 : ZMod 11)) toyWire.keyInitTransport KeyInit.hashPanics).Reachable {1} (fun i => .one (kgCtx i)) n ∧ n.status 1 = .panicked := by
  obtain ⟨n, hn, r, hst⟩ : ∃ n, (overWire (KeyInit.machine kgByteHash kgH (1 : ZMod 11)) toyWire.keyInitTransport KeyInit.hashPanics).Reachable {1} (fun i => .one (kgCtx i)) n ∧
      ∃ r : KeyInit.Round2 Nat (ZMod 11) (ZMod 11) Nat (List Byte), n.status 1 = .running (.two r) [] ∧ 3 ∈ r.ctx.otherIds := by
    obtain ⟨n1, h1, s1⟩ := crashReceive (n := crashCase.start fun i => .one (kgCtx i)) .refl (got := []) rfl 2 (by decide) (by decide) (by decide)
    obtain ⟨n2, h2, s2⟩ := crashReceive h1 s1 3 (by decide) (by decide) (by decide)
    have h3 := Machine.Step.advance (P := crashCase) (honest := {1}) n2 1 (.one (kgCtx 1)) [(2, commitment), (3, commitment)] rfl s2 (by decide)
    obtain ⟨r, hr, h0⟩ : ∃ r, crashCase.advanced (.one (kgCtx 1)) [(2, commitment), (3, commitment)] = .running (.two r) [] ∧ 3 ∈ r.ctx.otherIds := ⟨_, rfl, by decide⟩
    refine ⟨_, h2.tail h3, r, ?_, h0⟩
    simp only [Function.update_self]
    exact hr
  have hm : keyInitMessageFits (.two ⟨[], 0, 1, []⟩ : KeyInit.Message (ZMod 11) (ZMod 11) (List Byte)) := by
    intro r p x hx
    rcases p <;> rcases r with _ | _ | _ | r <;> first | (cases hx; done) | cases Option.some.inj hx
    all_goals simp [keyInitFits, BitsFit]
  obtain ⟨d, -, -, h⟩ := C93_key_init_crash toyWire_valid kgByteHash kgH 1 {1} _ n hn 1 3 rfl (by decide) r [] hst.1 hst.2 (by simp) _ hm
    fun h => (KeyInit.good_two h).1 rfl
  exact ⟨_, h, by simp⟩

private theorem refreshStart (draws : Nat → KeyRefresh.Draws Nat (ZMod 11)) (h : ∀ i, (draws i).aux = Toy.auxDraws i) :
    ∃ ctx : Nat → KeyRefresh.Context Nat (ZMod 11) (ZMod 11) Nat, ∀ i ∈ ({1, 2, 3} : Finset Nat), KeyRefresh.start refreshCaseEnv {1, 2, 3} 7 i (draws i) = .ok (ctx i) := by
  have hst : ∀ i ∈ ({1, 2, 3} : Finset Nat), ∃ c, KeyRefresh.start refreshCaseEnv ({1, 2, 3} : Finset Nat) 7 i (draws i) = .ok c :=
    fun i hi => (C38_start refreshCaseEnv 2 {1, 2, 3} 7 i (draws i) (by rw [h]; exact Toy.auxDraws_valid i (by simp at hi; omega))).1 hi
  have : Nonempty (KeyRefresh.Context Nat (ZMod 11) (ZMod 11) Nat) := ⟨(hst 1 (by decide)).choose⟩
  obtain ⟨ctx, hctx⟩ := exists_fun hst
  exact ⟨ctx, hctx⟩

private def calmDraws (i : Nat) : KeyRefresh.Draws Nat (ZMod 11) := ⟨Toy.auxDraws i, fun n => (n + i : ℕ), fun j => (i + j : ℕ), fun j => (i + 2 * j : ℕ)⟩

/-- Three parties refresh a key; with `refreshCaseDraws` party 1 has drawn zero for the proof of the change of the share of party 2, and does not finish. -/
example : (∃ (ctx : Nat → KeyRefresh.Context Nat (ZMod 11) (ZMod 11) Nat) (res : Nat → KeyShareChange Nat (ZMod 11) (ZMod 11) × AuxInfo Nat PaillierKey PublicAux),
      (∀ i ∈ ({1, 2, 3} : Finset Nat), KeyRefresh.start refreshCaseEnv {1, 2, 3} 7 i (calmDraws i) = .ok (ctx i)) ∧
      (overWire (KeyRefresh.machine refreshCaseEnv fun _ _ _ => ([] : List Byte)) toyWire.keyRefreshTransport KeyRefresh.hashPanics).AlwaysFinishes {1, 2, 3} (fun i => .one (ctx i)) 36 res) ∧
    ∃ ctx : Nat → KeyRefresh.Context Nat (ZMod 11) (ZMod 11) Nat,
      (∀ i ∈ ({1, 2, 3} : Finset Nat), KeyRefresh.start refreshCaseEnv {1, 2, 3} 7 i (refreshCaseDraws i) = .ok (ctx i)) ∧
      ∀ honest n, (overWire (KeyRefresh.machine refreshCaseEnv fun _ _ _ => ([] : List Byte)) toyWire.keyRefreshTransport KeyRefresh.hashPanics).Reachable honest (fun i => .one (ctx i)) n →
        ∀ res, n.status 1 ≠ .finished res := by
  constructor
  · obtain ⟨ctx, hctx⟩ := refreshStart calmDraws fun _ => rfl
    obtain ⟨res, -, -, h⟩ := C93_key_refresh toyWire_valid refreshCaseEnv (by decide) rfl auxHashesFit 2 Toy.auxEnv_valid (fun _ _ _ => ([] : List Byte)) {1, 2, 3} 7 calmDraws
      (fun i _ => auxDrawsFit i) (fun i hi => Toy.auxDraws_valid i (by simp at hi; omega)) (fun i _ j _ _ => Toy.facDraws_valid i j) 3 (fun _ _ => rfl) ctx hctx
    exact ⟨ctx, res, hctx, h.2 (by decide +kernel)⟩
  · obtain ⟨ctx, hctx⟩ := refreshStart refreshCaseDraws fun _ => rfl
    exact ⟨ctx, hctx, fun honest n h => C93_key_refresh_stuck toyWire refreshCaseEnv (by decide) _ {1, 2, 3} 7 1 _ ctx (hctx 1 (by decide)) honest
      (.inr (.inr (.inr ⟨2, by decide, .inr (by decide)⟩))) n h⟩

/-- Three parties sign over serialized messages; a dishonest party 2 can make party 1 panic at once. -/
example : ∃ (infos : Nat → AuxInfo Nat PaillierKey PublicAux) (r1 : Nat → Signing.Round1 11 Nat Nat (ZMod 11)) (init : Nat → Signing.State 11 Nat Nat (ZMod 11)) (sig : RecoverableSignature 11),
    (∀ i ∈ Toy.parties, Signing.start Toy.signEnv (fun _ _ => 7) (5 : ZMod 11) (Toy.signShares i) (infos i) i (Toy.signDraws i) = .ok (r1 i)) ∧
    (∀ i ∈ Toy.parties, Signing.begin Toy.signEnv (r1 i) = .ok (init i)) ∧
    ((overWire (Signing.machine Toy.signEnv) toyWire.signingTransport (Signing.hashPanics Toy.signEnv.C.g)).AlwaysFinishes Toy.parties init 48 (fun _ => sig) ↔
      (Signing.machine Toy.signEnv).SendsOnly Toy.parties init signingNoIdentity) ∧
    ∃ n, (overWire (Signing.machine Toy.signEnv) toyWire.signingTransport (Signing.hashPanics Toy.signEnv.C.g)).Reachable {1} init n ∧ n.status 1 = .panicked := by
  obtain ⟨infos, haux, hmod⟩ := Toy.exists_signInfos
  have hd : SigningDrawsValid Toy.signEnv.P Toy.parties (fun i => (infos i).secret.modulus) (fun i => (Toy.ringPedersen i).modulus) Toy.signDraws := by
    rw [funext hmod]; exact Toy.signDraws_valid
  have hst := C41_honest_start Toy.signEnv Toy.signEnv_setting (fun _ _ => 7) 5 6 Toy.parties Toy.signShares Toy.signShares_valid infos Toy.ringPedersen haux Toy.signDraws
  have : Nonempty (Signing.Round1 11 Nat Nat (ZMod 11)) := ⟨(hst 1 (by decide)).choose⟩
  obtain ⟨r1, hr1⟩ := exists_fun hst
  have hfit : ∀ i ∈ Toy.parties, AllValues (AuxFits Params.test) (infos i).pub := by
    intro i hi v hv
    obtain ⟨e, he, rfl⟩ := List.mem_map.1 hv
    have h1 : (infos i).pub.get? e.1 = some e.2 := BMap.get?_eq_some_iff.2 he
    have h2 : e.1 ∈ Toy.parties := by
      rw [← haux.consistent.holders i hi, BMap.mem_keySet]
      exact List.mem_map.2 ⟨e, he, rfl⟩
    rw [haux.consistent.public_agree i hi e.1 h2] at h1
    rw [← Option.some.inj h1]
    refine ⟨?_, ?_⟩
    · show (infos e.1).secret.modulus < _
      rw [hmod]
      decide +kernel
    · show Toy.primeQ * Toy.primeP ≤ _
      decide +kernel
  obtain ⟨init, sig, h0, -, -, hiff⟩ := C93_signing toyWire_valid Toy.signEnv Toy.signEnv_setting (by decide) rfl signHashesFit (fun _ _ => 7) 5 6 Toy.parties (by decide) Toy.signShares
    Toy.signShares_valid infos Toy.ringPedersen haux hfit (fun i _ => by rw [hmod]; exact ⟨by decide +kernel, by decide +kernel⟩) Toy.signDraws hd (fun i _ => signDrawsFit i _) r1
    (fun i hi => (hr1 i hi).2) (by decide +kernel) (by decide +kernel) (by decide +kernel) (by decide +kernel) (by decide +kernel)
  obtain ⟨n, hn, hp⟩ := C93_signing_crash_at_once toyWire_valid Toy.signEnv (by decide) (by decide) (fun _ _ => 7) 5 {1} 1 2 rfl (by decide) (Toy.signShares 1) (by decide +kernel) (infos 1)
    (Toy.signDraws 1) (r1 1) (hr1 1 (by decide)).2 init (h0 1 (by decide))
  refine ⟨infos, r1, init, sig, fun i hi => (hr1 i hi).2, h0, hiff.trans ⟨And.left, fun h => ⟨h, by decide +kernel⟩⟩, n, Relation.ReflTransGen.single hn, hp⟩

end Examples

end Synedrion.Props
