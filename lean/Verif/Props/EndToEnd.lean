import Verif.Spec.EndToEnd
import Verif.Lemmas.EndToEnd
import Verif.Props.SigningZero
import Verif.Props.LifeCycle
import Verif.Props.WireNet

/-!
# C102: from key generation to a signature over serialized messages
-/

set_option linter.unusedSectionVars false

namespace Synedrion.Props

open Spec

variable {I G V Sid Ep : Type} [LinearOrder I] [AddCommGroup G] {q : Nat} [Fact q.Prime] [Module (ZMod q) G] [DecidableEq G] {W : WireFormat G V}

/-- Auxiliary info that the parties generated together has values of the sizes that serialization demands. -/
private theorem usable_fits {P : Params} (hP : P.SelfConsistent) {ids : Finset I} {infos : I → AuxInfo I PaillierKey PublicAux} {setup : I → RPSetup} (h : UsableAux P ids infos setup) :
    (∀ i ∈ ids, AllValues (Spec.AuxFits P) (infos i).pub) ∧ ∀ i ∈ ids, (infos i).secret.modulus ≠ 0 ∧ (infos i).secret.modulus < 2 ^ P.modBits := by
  obtain ⟨-, ⟨hm, -, hu, -⟩, -⟩ := hP
  have hmod : ∀ i ∈ ids, (infos i).secret.p * (infos i).secret.q ≠ 0 ∧ (infos i).secret.p * (infos i).secret.q < 2 ^ P.modBits := by
    intro i hi
    have hp := h.primes i hi
    refine ⟨hp.primes.pos.ne', ?_⟩
    rw [hm, two_mul, pow_add]
    exact Nat.mul_lt_mul'' hp.highP hp.highQ
  refine ⟨fun i hi v hv => ?_, hmod⟩
  obtain ⟨e, he, rfl⟩ := List.mem_map.1 hv
  have h1 : (infos i).pub.get? e.1 = some e.2 := BMap.get?_eq_some_iff.2 he
  have h2 : e.1 ∈ ids := by
    rw [← h.consistent.holders i hi, BMap.mem_keySet]
    exact List.mem_map.2 ⟨e, he, rfl⟩
  rw [h.consistent.public_agree i hi e.1 h2] at h1
  rw [← Option.some.inj h1]
  exact ⟨(hmod _ h2).2, ((h.rpSize _ h2).trans_le (Nat.pow_le_pow_right (by norm_num) hu)).le⟩

/-- Shares of a key and auxiliary info of the same parties are enough to sign. -/
private theorem signs (hW : FormatValid W q) (E : Signing.Env q I Ep G) (hS : SigningSetting E) (hE : SigningHashesFit E) (hg : E.C.g ≠ 0) (hP : W.P = E.P)
    (epidOf : BMap I G → BMap I PublicAux → Ep) {ids : Finset I} (htwo : 2 ≤ ids.card) {shares : I → KeyShare I (ZMod q) G} {sk : ZMod q} (hkey : sk ≠ 0) (hsh : SharesKey E.C.g ids shares sk)
    {infos : I → AuxInfo I PaillierKey PublicAux} {setup : I → RPSetup} (haux : UsableAux E.P ids infos setup) {message : ZMod q} {s : I → Signing.Draws q I} {N Nh : I → Nat}
    (hN : ∀ i ∈ ids, (infos i).secret.modulus = N i) (hNh : ∀ i ∈ ids, (setup i).modulus = Nh i) (hs : SigningReady E ids N Nh sk message s) (h0 : ∀ i ∈ ids, (shares i).secret ≠ 0) :
    SignsAlways W E epidOf ids shares infos message s (sk • E.C.g) := by
  obtain ⟨i0, hi0⟩ : ids.Nonempty := Finset.card_pos.1 (by omega)
  obtain ⟨hfit, hm⟩ := usable_fits hS.consistent haux
  have hv : SigningDrawsValid E.P ids (fun i => (infos i).secret.modulus) (fun i => (setup i).modulus) s := by
    have hv := hs.valid
    refine ⟨fun i hi => ?_, fun i hi => ?_, fun i hi j hj hij => ?_, fun i hi j hj hij => ?_, fun i hi j hj hij => ?_, fun i hi j hj hij => ?_⟩
    · rw [hN i hi]; exact hv.nu i hi
    · rw [hN i hi]; exact hv.rho i hi
    · rw [hN i hi, hNh j hj]; exact hv.enc0 i hi j hj hij
    · rw [hN i hi, hNh j hj]; exact hv.enc1 i hi j hj hij
    · rw [hN i hi, hN j hj, hNh j hj]; exact hv.mta i hi j hj hij
    · rw [hN i hi, hN j hj, hNh j hj]; exact hv.hatMta i hi j hj hij
  have hst := C41_honest_start E hS epidOf message _ ids shares hsh infos _ haux s
  have : Nonempty (Signing.Round1 q I Ep G) := ⟨(hst i0 hi0).choose⟩
  obtain ⟨r1, hr1⟩ := exists_fun hst
  obtain ⟨init, sig, hb, hval, hlow, hiff⟩ := C97_signing hW E hS hg hP hE epidOf message _ ids htwo shares hsh infos _ haux hfit hm s hv
    (fun i hi => by rw [hsh.holders i hi]; exact hs.fit i hi) r1 (fun i hi => (hr1 i hi).2) hs.k hs.gamma hs.r hs.s (smul_ne_zero hkey hg)
  exact ⟨r1, init, sig, fun i hi => ⟨(hr1 i hi).1, (hr1 i hi).2, hb i hi⟩, hiff.2 fun i hi => ⟨h0 i hi, hs.avoids i hi⟩, hval, hlow⟩

variable [LinearOrder (ZMod q)] [DecidableEq V]

/-- **C102.** Two or more parties that follow the protocols and do not draw zeros generate a key, generate auxiliary info and sign, exchanging serialized messages: every session starts with what the
sessions before it returned, and finishes under any schedule. All of them have the same verifying key, which belongs to the sum of what they drew, and the same normalized signature, which is valid under it. -/
theorem C102_generate_and_sign (hW : FormatValid W q) (initHash : Sid → I → KeyInit.PublicData G → V) (H : SchHash G (KeyInit.SchAux I Sid) → ZMod q)
    (A : AuxEnv I Sid) (hA : AuxHashesFit A) (k : Nat) (hAv : HashesValid A k) (auxHash : Sid → I → AuxGen.Hashed → V)
    (E : Signing.Env q I Ep G) (hS : SigningSetting E) (hE : SigningHashesFit E) (hg : E.C.g ≠ 0) (hPA : W.P = A.P) (hP : W.P = E.P)
    (epidOf : BMap I G → BMap I PublicAux → Ep) (ids : Finset I) (htwo : 2 ≤ ids.card) (sid sid' : Sid) (message : ZMod q)
    (d : I → KeyInit.Draws (ZMod q)) (len : Nat) (hlen : ∀ i ∈ ids, (d i).rho.length = len) (hd : ∀ i ∈ ids, BitsFit (d i).rho ∧ BitsFit (d i).u)
    (hd0 : ∀ i ∈ ids, (d i).x ≠ 0 ∧ (d i).tau ≠ 0) (hkey : ∑ i ∈ ids, (d i).x ≠ 0)
    (a : I → AuxDraws I) (len' : Nat) (hlen' : ∀ i ∈ ids, (a i).rid.length = len') (ha : ∀ i ∈ ids, AuxDrawsFit A.P (a i)) (hav : ∀ i ∈ ids, DrawsValid A k (a i))
    (hfac : ∀ i ∈ ids, ∀ j ∈ ids, i ≠ j → FacDrawsValid A.P ((a i).p * (a i).q) ((a j).rpP * (a j).rpQ) ((a i).facMasks j))
    (s : I → Signing.Draws q I) (hs : SigningReady E ids (fun i => (a i).p * (a i).q) (fun i => (a i).rpP * (a i).rpQ) (∑ i ∈ ids, (d i).x) message s) :
    ∃ (c : I → KeyInit.Context I (ZMod q) G Sid) (shares : I → KeyShare I (ZMod q) G) (c' : I → AuxGen.Context I Sid) (infos : I → AuxInfo I PaillierKey PublicAux),
      (∀ i ∈ ids, KeyInit.start E.C.g ids sid i (d i) = .ok (c i)) ∧
      (overWire (KeyInit.machine initHash H E.C.g) W.keyInitTransport KeyInit.hashPanics).AlwaysFinishes ids (fun i => .one (c i)) (ids.card * (3 * (ids.card + 1))) shares ∧
      (∀ i ∈ ids, ((shares i).verifyingKey : Out Unit G) = .ok ((∑ i ∈ ids, (d i).x) • E.C.g)) ∧
      (∀ i ∈ ids, AuxGen.start A ids sid' i (a i) = .ok (c' i)) ∧
      (overWire (AuxGen.machine A auxHash) W.auxGenTransport ⟨fun _ _ _ => false, fun _ _ => false⟩).AlwaysFinishes ids (fun i => .one (c' i)) (ids.card * (3 * (ids.card + 1))) infos ∧
      SignsAlways W E epidOf ids shares infos message s ((∑ i ∈ ids, (d i).x) • E.C.g) := by
  obtain ⟨i0, hi0⟩ : ids.Nonempty := Finset.card_pos.1 (by omega)
  -- Key generation
  have hst : ∀ i ∈ ids, ∃ c, KeyInit.start E.C.g ids sid i (d i) = .ok c := fun i hi => by
    unfold KeyInit.start
    rw [if_neg (not_not.2 hi)]
    exact ⟨_, rfl⟩
  have : Nonempty (KeyInit.Context I (ZMod q) G Sid) := ⟨(hst i0 hi0).choose⟩
  obtain ⟨c, hc⟩ := exists_fun hst
  obtain ⟨shares, hsh, hfin⟩ := C93_key_init hW initHash H E.C.g hg ids sid d len hlen hd c hc hkey
  have hfin := hfin.2 hd0
  have hsec : ∀ i ∈ ids, (shares i).secret = (d i).x := fun i hi => by
    obtain ⟨n, hn, hf⟩ := hfin.exists_finished
    exact (C96_key_init hW initHash H E.C.g _ (ids : Set I) ids sid d hd c hc n hn i hi _ (hf i hi)).2.1
  -- Auxiliary info
  have hst' : ∀ i ∈ ids, ∃ c, AuxGen.start A ids sid' i (a i) = .ok c := fun i hi => by
    obtain ⟨c, h, -⟩ := C54_start A k ids sid' i hi (a i) (hav i hi)
    exact ⟨c, h⟩
  have : Nonempty (AuxGen.Context I Sid) := ⟨(hst' i0 hi0).choose⟩
  obtain ⟨c', hc'⟩ := exists_fun hst'
  obtain ⟨infos, hfin', hcon, huse⟩ := C91_aux_gen_finishes hW A hPA hA k hAv auxHash ids sid' a ha hav hfac len' hlen' c' hc'
  rw [← hPA, hP] at huse
  have hmod : ∀ i ∈ ids, (infos i).secret.modulus = (a i).p * (a i).q := fun i hi => by
    have h1 := huse.consistent.public_agree i hi i hi
    rw [hcon.public_agree i hi i hi] at h1
    exact (congrArg PublicAux.pk (Option.some.inj h1)).symm
  -- Signing
  exact ⟨c, shares, c', infos, hc, hfin, fun i hi => hsh.vk hg hkey hi, hc', hfin',
    signs hW E hS hE hg hP epidOf htwo hkey hsh huse hmod (fun _ _ => rfl) hs fun i hi => by rw [hsec i hi]; exact (hd0 i hi).1⟩

/-- **C102 (refresh).** Holders of shares of a key refresh it and sign with the new shares and the new auxiliary info: the refresh finishes under any schedule, everyone can apply its change, has the same
verifying key as before, and, if the parts of zero that they drew for each other do not happen to make somebody's share zero, they can sign. -/
theorem C102_refresh_and_sign (hW : FormatValid W q) (R : KeyRefresh.Env I Sid (ZMod q) G) (hA : AuxHashesFit R.aux) (k : Nat) (hAv : HashesValid R.aux k)
    (refreshHash : Sid → I → KeyRefresh.Hashed I G → V)
    (E : Signing.Env q I Ep G) (hS : SigningSetting E) (hE : SigningHashesFit E) (hg : E.C.g ≠ 0) (hgR : R.g = E.C.g) (hPA : W.P = R.aux.P) (hP : W.P = E.P)
    (epidOf : BMap I G → BMap I PublicAux → Ep) (ids : Finset I) (htwo : 2 ≤ ids.card) (sid : Sid) (message : ZMod q)
    (shares : I → KeyShare I (ZMod q) G) (sk : ZMod q) (hkey : sk ≠ 0) (hsh : SharesKey E.C.g ids shares sk)
    (d : I → KeyRefresh.Draws I (ZMod q)) (len : Nat) (hlen : ∀ i ∈ ids, (d i).aux.rid.length = len) (hd : ∀ i ∈ ids, AuxDrawsFit R.aux.P (d i).aux)
    (hdv : ∀ i ∈ ids, DrawsValid R.aux k (d i).aux)
    (hfac : ∀ i ∈ ids, ∀ j ∈ ids, i ≠ j → FacDrawsValid R.aux.P ((d i).aux.p * (d i).aux.q) ((d j).aux.rpP * (d j).aux.rpQ) ((d i).aux.facMasks j))
    (hd0 : ∀ i ∈ ids, ((∀ k < ids.card - 1, (d i).split k ≠ 0) ∧ ∑ k ∈ Finset.range (ids.card - 1), (d i).split k ≠ 0) ∧ ∀ j ∈ ids, (d i).ys j ≠ 0 ∧ (d i).taus j ≠ 0)
    (hnew : ∀ i ∈ ids, (shares i).secret + ∑ j ∈ ids, part ids 0 (fun p => (d j).split p) i ≠ 0)
    (s : I → Signing.Draws q I) (hs : SigningReady E ids (fun i => (d i).aux.p * (d i).aux.q) (fun i => (d i).aux.rpP * (d i).aux.rpQ) sk message s) :
    ∃ (c : I → KeyRefresh.Context I (ZMod q) G Sid) (res : I → KeyShareChange I (ZMod q) G × AuxInfo I PaillierKey PublicAux) (shares' : I → KeyShare I (ZMod q) G),
      (∀ i ∈ ids, KeyRefresh.start R ids sid i (d i) = .ok (c i)) ∧
      (overWire (KeyRefresh.machine R refreshHash) W.keyRefreshTransport KeyRefresh.hashPanics).AlwaysFinishes ids (fun i => .one (c i)) (ids.card * (3 * (ids.card + 1))) res ∧
      (∀ i ∈ ids, (shares i).update (res i).1 = .ok (shares' i)) ∧
      (∀ i ∈ ids, ((shares i).verifyingKey : Out Unit G) = .ok (sk • E.C.g) ∧ ((shares' i).verifyingKey : Out Unit G) = .ok (sk • E.C.g)) ∧
      SignsAlways W E epidOf ids shares' (fun i => (res i).2) message s (sk • E.C.g) := by
  obtain ⟨i0, hi0⟩ : ids.Nonempty := Finset.card_pos.1 (by omega)
  have hst : ∀ i ∈ ids, ∃ c, KeyRefresh.start R ids sid i (d i) = .ok c := fun i hi => (C38_start R k ids sid i (d i) (hdv i hi)).1 hi
  have : Nonempty (KeyRefresh.Context I (ZMod q) G Sid) := ⟨(hst i0 hi0).choose⟩
  obtain ⟨c, hc⟩ := exists_fun hst
  obtain ⟨res, hz, huse, hfin⟩ := C93_key_refresh hW R (by rw [hgR]; exact hg) hPA hA k hAv refreshHash ids sid d hd hdv hfac len hlen c hc
  have hfin := hfin.2 fun i hi => ⟨⟨htwo, (hd0 i hi).1.1, (hd0 i hi).1.2⟩, (hd0 i hi).2⟩
  rw [hgR] at hz
  obtain ⟨shares', hf, hsh', hvk⟩ := C15_refresh_history (ε := Unit) E.C.g hg ids shares sk hsh [fun i => (res i).1] (by simpa using hz)
  have hupd : ∀ i ∈ ids, (shares i).update (res i).1 = .ok (shares' i) := by
    intro i hi
    have := hf i hi
    simp only [List.map_cons, List.map_nil, updateAll] at this
    obtain ⟨_, h, h'⟩ := Out.bind_eq_ok.1 this
    cases h'
    exact h
  rw [← hPA, hP] at huse
  have hmod : ∀ i ∈ ids, (res i).2.secret.modulus = (d i).aux.p * (d i).aux.q := fun i hi => by
    obtain ⟨n, hn, hf⟩ := hfin.exists_finished
    obtain ⟨-, -, hp, hq, -⟩ := C96_key_refresh hW R hPA hA refreshHash _ (ids : Set I) ids sid d hd c hc n hn i hi _ _ (hf i hi)
    exact congrArg₂ (· * ·) hp hq
  refine ⟨c, res, shares', hc, hfin, hupd, fun i hi => ⟨hsh.vk hg hkey hi, hvk hkey i hi⟩,
    signs hW E hS hE hg hP epidOf htwo hkey hsh' huse hmod (fun _ _ => rfl) hs fun i hi => ?_⟩
  obtain ⟨n, hn, hf⟩ := hfin.exists_finished
  rw [refresh_adds hW R (by rw [hgR]; exact hg) hPA hA refreshHash _ ids sid d hd c hc n hn i hi _ (hf i hi) _ _ (hupd i hi)]
  exact hnew i hi

/-- **C102 (resharing).** Enough holders of threshold shares, none of them zero, hand the key over to new holders, whose number and threshold are at least two: this finishes under any schedule, and then any
new holders that are as many as the new threshold can convert their shares, restrict their auxiliary info to themselves, and if none of their shares is zero, sign under the same verifying key. -/
theorem C102_reshare_and_sign (hW : FormatValid W q) (panics : Panics I (KeyResharing.Msg (ZMod q) G) (KeyResharing.State I (ZMod q) G))
    (E : Signing.Env q I Ep G) (hpan : PanicsOnly (KeyResharing.machine E.C.g) panics fun m => ¬ resharingNoIdentity m)
    (hS : SigningSetting E) (hE : SigningHashesFit E) (hg : E.C.g ≠ 0) (hP : W.P = E.P)
    (epidOf : BMap I G → BMap I PublicAux → Ep) (ids S N : Finset I) (t n : Nat) (shares : I → ThresholdKeyShare I (ZMod q) G) (sk : ZMod q) (hkey : sk ≠ 0)
    (hold : ThresholdSharing E.C.g ids t shares sk) (hsub : S ⊆ ids) (ht : t ≤ S.card) (hn : 2 ≤ n) (hnN : n ≤ N.card) (hN : N.card < q) (hsec : ∀ i ∈ S, (shares i).secretShare ≠ 0)
    (oldThreshold : Nat) (draw : I → Nat → ZMod q) (hdraw : ∀ i ∈ S, ∀ k, draw i k ≠ 0) :
    ∃ (r : I → KeyResharing.Round1 I (ZMod q) G) (init : I → KeyResharing.State I (ZMod q) G) (res : I → Option (ThresholdKeyShare I (ZMod q) G)) (new : I → ThresholdKeyShare I (ZMod q) G),
      (∀ i ∈ S ∪ N, KeyResharing.start E.C.g (HonestInputs S N shares (sk • E.C.g) oldThreshold n i) i (draw i) = .ok (r i) ∧ KeyResharing.begin (r i) = .ok (init i)) ∧
      (overWire (KeyResharing.machine E.C.g) W.resharingTransport panics).AlwaysFinishes (S ∪ N) init ((S ∪ N).card * (1 * ((S ∪ N).card + 1))) res ∧
      (∀ i ∈ N, res i = some (new i) ∧ (new i).verifyingKey = .ok (sk • E.C.g)) ∧ ThresholdSharing E.C.g N n new sk ∧
      ∀ T ⊆ N, T.card = n → ∀ dbg : Bool, ∃ full : I → KeyShare I (ZMod q) G, (∀ i ∈ T, (new i).toKeyShare dbg T = .ok (full i)) ∧
        ∀ (infos : I → AuxInfo I PaillierKey PublicAux) (setup : I → RPSetup), UsableAux E.P N infos setup →
          ∃ infos' : I → AuxInfo I PaillierKey PublicAux, (∀ i ∈ T, (infos i).subset T = .ok (infos' i)) ∧
            ∀ (message : ZMod q) (s : I → Signing.Draws q I), SigningReady E T (fun i => (infos i).secret.modulus) (fun i => (setup i).modulus) sk message s →
              (∀ i ∈ T, (new i).secretShare ≠ 0) → SignsAlways W E epidOf T full infos' message s (sk • E.C.g) := by
  obtain ⟨r, hr, -⟩ := C39_honest_resharing q E.C.g ids S N t n shares sk hold hsub ht hn hnN hN oldThreshold draw
  obtain ⟨init, res, new, h0, -, h2, h3, hiff⟩ := C92_resharing hW E.C.g panics hpan ids S N t n shares sk hold hsub ht hn hnN hN oldThreshold draw r hr
  have hfin := hiff.2 ((KeyResharing.sendsOnly_iff hg hdraw (by omega) hr h0).2 hsec)
  have hvk : ∀ i ∈ N, (new i).verifyingKey = .ok (sk • E.C.g) := fun i hi => h3.vk hg hkey hi
  have hids : ∀ i ∈ N, ∀ x ∈ (new i).shareIds.values, x ≠ 0 := fun i hi => by
    obtain ⟨n, hn, hf⟩ := hfin.exists_finished
    have hi' := Finset.mem_union_right S hi
    exact resharing_ids_ne_zero hW E.C.g panics _ _ draw r hr init h0 n hn i hi' ⟨sk • E.C.g, oldThreshold, S⟩ (if_pos hi)
      (fun h => by
        by_contra hS'
        simp only [HonestInputs, if_neg hS'] at h
        cases h) hN (new i) (by rw [hf i hi', h2 i hi])
  refine ⟨r, init, res, new, fun i hi => ⟨hr i hi, h0 i hi⟩, hfin, fun i hi => ⟨h2 i hi, hvk i hi⟩, h3, fun T hT hcard dbg => ?_⟩
  obtain ⟨⟨full, hfull, hsh⟩, -⟩ := C13_threshold_to_full E.C.g hg N n new sk h3 hkey T hT hcard.ge dbg fun _ => hcard
  refine ⟨full, hfull, fun infos setup haux => ?_⟩
  obtain ⟨i0, hi0⟩ : T.Nonempty := Finset.card_pos.1 (by omega)
  have hex : ∀ i ∈ T, ∃ x, (infos i).subset T = .ok x := fun i hi => (C18_subset_exact (infos i) T).1.2
    ⟨by rw [haux.consistent.owner i (hT hi)]; exact hi, by rw [haux.consistent.holders i (hT hi)]; exact hT⟩
  have : Nonempty (AuxInfo I PaillierKey PublicAux) := ⟨(hex i0 hi0).choose⟩
  obtain ⟨infos', hi'⟩ := exists_fun hex
  have hs := fun i (hi : i ∈ T) => (C18_subset_exact (infos i) T).2.2 _ (hi' i hi)
  have hsec' : ∀ i ∈ T, (infos' i).secret = (infos i).secret := fun i hi => (hs i hi).2.1
  have haux' : UsableAux E.P T infos' setup := by
    refine ⟨⟨fun i hi => (hs i hi).1.trans (haux.consistent.owner i (hT hi)), fun i hi => (hs i hi).2.2.1, fun i hi j hj => ?_, fun _ _ => rfl⟩,
      fun i hi => by rw [hsec' i hi]; exact haux.primes i (hT hi), fun i hi => by rw [hsec' i hi]; exact haux.secretKey i (hT hi), fun i hi => haux.rpOdd i (hT hi),
      fun i hi => haux.rpSize i (hT hi), fun i hi => haux.rpValid i (hT hi)⟩
    rw [((hs i hi).2.2.2 j hj).1, hsec' j hj]
    exact haux.consistent.public_agree i (hT hi) j (hT hj)
  exact ⟨infos', hi', fun message s hr h0 => signs hW E hS hE hg hP epidOf (by omega) hkey hsh haux' (fun i hi => by rw [hsec' i hi]) (fun _ _ => rfl) hr fun i hi =>
    toKeyShare_ne_zero (hfull i hi) (hids i (hT hi)) (h0 i hi)⟩

/-! ### Examples -/

section Examples

attribute [local instance] Toy.fact11 Toy.order11

private def keyDraws (i : Nat) : KeyInit.Draws (ZMod 11) := ⟨i, (i + 3 : ℕ), [i % 2 = 0, true, false], [true]⟩

private theorem ready : SigningReady Toy.signEnv Toy.parties (fun _ => Toy.primeP * Toy.primeQ) (fun i => (Toy.ringPedersen i).modulus) 6 5 signQuietDraws :=
  ⟨signQuietDraws_valid, fun i _ => signQuietDrawsFit i _, by decide +kernel, by decide +kernel, by decide +kernel, by decide +kernel, fun i hi => (signQuietDraws_avoid i hi).2⟩

/-- Three parties with 256-bit Paillier keys generate a key and auxiliary info, and sign. -/
example : ∃ (c : Nat → KeyInit.Context Nat (ZMod 11) (ZMod 11) Nat) (shares : Nat → KeyShare Nat (ZMod 11) (ZMod 11)) (c' : Nat → AuxGen.Context Nat Nat)
      (infos : Nat → AuxInfo Nat PaillierKey PublicAux),
    (overWire (KeyInit.machine kgByteHash kgH (1 : ZMod 11)) toyWire.keyInitTransport KeyInit.hashPanics).AlwaysFinishes Toy.parties (fun i => .one (c i)) 36 shares ∧
    (overWire (AuxGen.machine Toy.auxEnv wireHash) toyWire.auxGenTransport ⟨fun _ _ _ => false, fun _ _ => false⟩).AlwaysFinishes Toy.parties (fun i => .one (c' i)) 36 infos ∧
    SignsAlways toyWire Toy.signEnv (fun _ _ => 7) Toy.parties shares infos 5 signQuietDraws 6 := by
  obtain ⟨c, shares, c', infos, -, h1, -, -, h2, h3⟩ := C102_generate_and_sign toyWire_valid kgByteHash kgH Toy.auxEnv auxHashesFit 2 Toy.auxEnv_valid wireHash Toy.signEnv Toy.signEnv_setting
    signHashesFit (by decide) rfl rfl (fun _ _ => 7) Toy.parties (by decide) 7 8 5 keyDraws 3 (fun _ _ => rfl) (fun i _ => ⟨by simp [BitsFit, keyDraws], by simp [BitsFit, keyDraws]⟩)
    (by decide +kernel) (by decide +kernel) Toy.auxDraws 3 (fun _ _ => rfl) (fun i _ => auxDrawsFit i) (fun i hi => Toy.auxDraws_valid i (by simp [Toy.parties] at hi; omega))
    (fun i _ j _ _ => Toy.facDraws_valid i j) signQuietDraws ready
  exact ⟨c, shares, c', infos, h1, h2, h3⟩

private def mildDraws (i : Nat) : KeyRefresh.Draws Nat (ZMod 11) := ⟨Toy.auxDraws i, fun n => (n + 2 * i : ℕ), fun j => (i + j : ℕ), fun j => (i + 2 * j : ℕ)⟩

/-- Three holders of the shares 1, 2 and 3 of the key 6 refresh them and sign. -/
example : ∃ (c : Nat → KeyRefresh.Context Nat (ZMod 11) (ZMod 11) Nat) (res : Nat → KeyShareChange Nat (ZMod 11) (ZMod 11) × AuxInfo Nat PaillierKey PublicAux)
      (shares' : Nat → KeyShare Nat (ZMod 11) (ZMod 11)),
    (overWire (KeyRefresh.machine refreshCaseEnv fun _ _ _ => ([] : List Byte)) toyWire.keyRefreshTransport KeyRefresh.hashPanics).AlwaysFinishes Toy.parties (fun i => .one (c i)) 36 res ∧
    (∀ i ∈ Toy.parties, (Toy.signShares i).update (res i).1 = .ok (shares' i)) ∧
    SignsAlways toyWire Toy.signEnv (fun _ _ => 7) Toy.parties shares' (fun i => (res i).2) 5 signQuietDraws 6 := by
  obtain ⟨c, res, shares', -, h1, h2, -, h3⟩ := C102_refresh_and_sign toyWire_valid refreshCaseEnv auxHashesFit 2 Toy.auxEnv_valid (fun _ _ _ => ([] : List Byte)) Toy.signEnv Toy.signEnv_setting
    signHashesFit (by decide) rfl rfl rfl (fun _ _ => 7) Toy.parties (by decide) 7 5 Toy.signShares 6 (by decide) Toy.signShares_valid mildDraws 3 (fun _ _ => rfl) (fun i _ => auxDrawsFit i)
    (fun i hi => Toy.auxDraws_valid i (by simp [Toy.parties] at hi; omega)) (fun i _ j _ _ => Toy.facDraws_valid i j) (by decide +kernel) (by decide +kernel) signQuietDraws ready
  exact ⟨c, res, shares', h1, h2, h3⟩

private theorem ready2 (T : Finset Nat) (hT : T = {1, 2} ∨ T = {1, 3} ∨ T = {2, 3}) :
    SigningReady Toy.signEnv T (fun _ => Toy.primeP * Toy.primeQ) (fun i => (Toy.ringPedersen i).modulus) 5 4 signQuietDraws := by
  refine ⟨⟨fun _ _ => Toy.two_coprime, fun _ _ => Toy.four_coprime, fun _ _ j _ _ => Toy.encMasks_valid 3 j, fun _ _ j _ _ => Toy.encMasks_valid 3 j, fun i _ j _ _ => Toy.mtaDraws_valid i j,
    fun i _ j _ _ => Toy.mtaDraws_valid (2 * i) j⟩, fun i _ => signQuietDrawsFit i _, ?_, ?_, ?_, ?_, fun i hi => ⟨?_, ?_, ?_, ?_, ?_, ?_⟩⟩ <;> (try revert i) <;> rcases hT with rfl | rfl | rfl <;> decide +kernel

/-- The polynomial of a sharing with threshold 2 of a key that is not zero has at most one root. -/
private theorem one_zero {new : Nat → ThresholdKeyShare Nat (ZMod 11) (ZMod 11)} (h : ThresholdSharing (1 : ZMod 11) {1, 2, 3} 2 new 5) {i j : Nat} (hi : i ∈ ({1, 2, 3} : Finset Nat))
    (hj : j ∈ ({1, 2, 3} : Finset Nat)) (hij : i ≠ j) : (new i).secretShare ≠ 0 ∨ (new j).secretShare ≠ 0 := by
  obtain ⟨-, sid, tail, hlen, hinj, h⟩ := h
  by_contra hc
  push Not at hc
  rw [(h i hi).2.2.1, (h j hj).2.2.1] at hc
  match tail, hlen with
  | [], _ => simp only [Shamir.polyValue_cons, Shamir.polyValue_nil, smul_eq_mul, mul_zero, add_zero] at hc; exact absurd hc.1 (by decide)
  | [a], _ =>
    simp only [Shamir.polyValue_cons, Shamir.polyValue_nil, smul_eq_mul, mul_zero, add_zero] at hc
    have ha : a ≠ 0 := by
      rintro rfl
      simp only [mul_zero, add_zero] at hc
      exact absurd hc.1 (by decide)
    exact hij (hinj hi hj (mul_right_cancel₀ ha (add_left_cancel (hc.1.trans hc.2.symm))))

/-- Two of the holders of a 2-of-3 sharing of the key 5 reshare it among three holders, two of which sign. -/
example : ∃ (init : Nat → KeyResharing.State Nat (ZMod 11) (ZMod 11)) (res : Nat → Option (ThresholdKeyShare Nat (ZMod 11) (ZMod 11))) (new : Nat → ThresholdKeyShare Nat (ZMod 11) (ZMod 11))
      (T : Finset Nat) (full : Nat → KeyShare Nat (ZMod 11) (ZMod 11)) (infos : Nat → AuxInfo Nat PaillierKey PublicAux),
    (overWire (KeyResharing.machine (1 : ZMod 11)) toyWire.resharingTransport ⟨fun _ _ _ => false, fun _ _ => false⟩).AlwaysFinishes {1, 2, 3} init 12 res ∧
    (∀ i ∈ ({1, 2, 3} : Finset Nat), res i = some (new i)) ∧ T.card = 2 ∧ (∀ i ∈ T, (new i).toKeyShare true T = .ok (full i)) ∧
    SignsAlways toyWire Toy.signEnv (fun _ _ => 7) T full infos 4 signQuietDraws 5 := by
  obtain ⟨r, init, res, new, -, h1, h2, h3, h4⟩ := C102_reshare_and_sign toyWire_valid ⟨fun _ _ _ => false, fun _ _ => false⟩ Toy.signEnv
    ⟨fun _ _ _ h => (by cases h), fun _ _ h => (by cases h)⟩ Toy.signEnv_setting signHashesFit (by decide) rfl (fun _ _ => 7) {1, 2, 3} {1, 3} {1, 2, 3} 2 2 reshareCase 5 (by decide)
    reshareCase_sharing (by decide) (by decide) (by decide) (by decide) (by decide) (by decide +kernel) 2 (fun _ _ => 3) (fun _ _ _ => by decide)
  obtain ⟨T, hT, h0⟩ : ∃ T : Finset Nat, (T = {1, 2} ∨ T = {1, 3} ∨ T = {2, 3}) ∧ ∀ i ∈ T, (new i).secretShare ≠ 0 := by
    have a12 := one_zero h3 (i := 1) (j := 2) (by decide) (by decide) (by decide)
    have a13 := one_zero h3 (i := 1) (j := 3) (by decide) (by decide) (by decide)
    have a23 := one_zero h3 (i := 2) (j := 3) (by decide) (by decide) (by decide)
    by_cases z1 : (new 1).secretShare = 0
    · exact ⟨{2, 3}, .inr (.inr rfl), by simp [a12.resolve_left (not_not.2 z1), a13.resolve_left (not_not.2 z1)]⟩
    · rcases a23 with z | z
      · exact ⟨{1, 2}, .inl rfl, by simp [z1, z]⟩
      · exact ⟨{1, 3}, .inr (.inl rfl), by simp [z1, z]⟩
  have hc : T.card = 2 := by rcases hT with rfl | rfl | rfl <;> rfl
  obtain ⟨full, hf, h⟩ := h4 T (by rcases hT with rfl | rfl | rfl <;> decide) hc true
  obtain ⟨infos, haux, hmod⟩ := Toy.exists_signInfos
  obtain ⟨infos', -, h⟩ := h infos Toy.ringPedersen haux
  exact ⟨init, res, new, T, full, infos', h1, fun i hi => (h2 i hi).1, hc, hf, h 4 signQuietDraws (by rw [funext hmod]; exact ready2 T hT) h0⟩

end Examples

end Synedrion.Props
