import Verif.Lemmas.AuxWire
import Verif.Props.LifeWire

/-!
# C100: the auxiliary info that sessions over serialized messages end with is fit for signing

Auxiliary info is generated, or replaced by a key refresh, restricted to some of the parties, stored and read back (`Spec/AuxWire`). In all sessions the parties that are not honest send any data.
-/

set_option linter.unusedSectionVars false

namespace Synedrion.Props

open Spec

variable {I G Sid V CC : Type} {q : Nat} [Fact q.Prime] [LinearOrder (ZMod q)] [LinearOrder I] [AddCommGroup G] [Module (ZMod q) G] [DecidableEq G] [DecidableEq V]
variable {W : WireFormat G V} {K : KeyEnv I (ZMod q) G Sid V V CC}

/-- **C100 (auxiliary info).** After any such history the honest parties hold the same public auxiliary info for exactly the parties it is for; all its moduli, those of dishonest parties too, are odd
and fit their type, and the ring-Pedersen parameters are residues; each has the primes of its own modulus. With bytes enough for a prime and for a modulus, auxiliary info is read back as it was stored. -/
theorem C100_aux_info (hF : LifeFormat K W) (hu : W.P.uint ≠ 0) (hA : ∀ s i h h', K.auxHash s i h = K.auxHash s i h' → h = h')
    (hR : ∀ s i h h', K.refreshHash s i h = K.refreshHash s i h' → h = h') (h n : Nat) (hh : W.P.half ≤ 8 * h) (hn : W.P.uint ≤ 8 * n) (honest : Set I) (ids : Finset I)
    (infos : I → AuxInfo I PaillierKey PublicAux) (hinfos : HoldsAuxOver W K h n honest ids infos) :
    AuxView W.P honest ids infos ∧ ∀ i ∈ honest, ∃ b, ((infos i).store h n).load h n = some b ∧ (b.expand : Out Unit _) = .ok (infos i) :=
  have hv := hinfos.view hF hu hA hR hh hn
  ⟨hv, fun _ hi => hv.restored hh hn hi⟩

private theorem precompute_sound {ε : Type} {P : Params} {x : PublicAux} (h : AuxSound P x) : ∃ y, (Signing.precompute x : Out ε _) = .ok y := by
  unfold Signing.precompute RPParamsWire.toPrecomputed publicModulusNew
  rw [if_pos h.pkOdd, if_pos h.rpOdd]
  exact ⟨_, rfl⟩

/-- **C100 (start).** With a key share and auxiliary info of any such histories for the same parties, every honest signer can start signing, whatever the dishonest parties sent: its inputs are accepted
and nothing panics. All honest signers take the same execution id and the same set of parties. -/
theorem C100_start (hF : LifeFormat K W) (hu : W.P.uint ≠ 0) {Ep : Type} (E : Signing.Env q I Ep G) (hE : SigningSetting E) (hq : K.order = q) (hg : K.refresh.g ≠ 0)
    (hI : ∀ s i h h', K.initHash s i h = K.initHash s i h' → h = h') (hA : ∀ s i h h', K.auxHash s i h = K.auxHash s i h' → h = h')
    (hR : ∀ s i h h', K.refreshHash s i h = K.refreshHash s i h' → h = h') (h n : Nat) (hh : W.P.half ≤ 8 * h) (hn : W.P.uint ≤ 8 * n) (honest : Set I) (ids : Finset I)
    (shares : I → KeyShare I (ZMod q) G) (vk : G) (hshares : KeepsFullOver W K honest ids shares vk) (infos : I → AuxInfo I PaillierKey PublicAux)
    (hinfos : HoldsAuxOver W K h n honest ids infos) (epidOf : BMap I G → BMap I PublicAux → Ep) (message : ZMod q) (d : I → Signing.Draws q I) :
    ∃ e : Ep, ∀ i ∈ honest, Signing.new (shares i) (infos i) = .ok () ∧
      ∃ r, Signing.start E epidOf message (shares i) (infos i) i (d i) = .ok r ∧ r.ctx.epid = e ∧ r.ctx.allIds = ids ∧ r.ctx.message = message := by
  obtain ⟨-, hv, -⟩ := C99_full_shares hF hq hg hI hR _ _ _ _ hshares
  have ha := hinfos.view hF hu hA hR hh hn
  have one : ∀ i ∈ honest, Signing.new (shares i) (infos i) = .ok () ∧ ∃ r, Signing.start E epidOf message (shares i) (infos i) i (d i) = .ok r ∧
      r.ctx.epid = epidOf (shares i).pub (infos i).pub ∧ r.ctx.allIds = ids ∧ r.ctx.message = message := by
    intro i hi
    have ho : (shares i).owner = i := hv.owner i hi
    have hoa := ha.owner i hi
    refine ⟨?_, ?_⟩
    · unfold Signing.new
      rw [if_neg (by rw [ho, hoa]; simp), if_neg (by rw [hv.holders i hi, ha.holders i hi]; simp)]
    · have hpub : (infos i).pub = BMap.tabulate ids fun j => ((infos i).pub.get? j).getD ⟨1, ⟨1, 0, 0⟩⟩ :=
        BMap.eq_tabulate_of (ha.holders i hi) fun j hj => by
          rw [← ha.holders i hi, BMap.mem_keySet, BMap.mem_keys_iff] at hj
          obtain ⟨x, hx⟩ := hj
          rw [hx]; rfl
      have hpre : ∀ j ∈ ids, ∃ y, (Signing.precompute (((infos i).pub.get? j).getD ⟨1, ⟨1, 0, 0⟩⟩) : Out LocalErr _) = .ok y := fun j hj => by
        rw [← ha.holders i hi, BMap.mem_keySet, BMap.mem_keys_iff] at hj
        obtain ⟨x, hx⟩ := hj
        rw [hx]
        exact precompute_sound (ha.sound i hi j x hx)
      have : Nonempty Signing.PubAux := ⟨(hpre i (ha.member i hi)).choose⟩
      obtain ⟨w, hw⟩ := exists_fun hpre
      have htr : ((infos i).pub.traverse fun _ a => Signing.precompute a : Out LocalErr _) = .ok (BMap.tabulate ids w) := by
        rw [hpub]
        exact traverse_tabulate_ok fun j hj => hw j hj
      unfold Signing.start
      rw [if_neg (by rw [ho, hoa]; simp), htr]
      simp only [Signing.signedOfSecret_ok hE, Out.bind_ok]
      rw [enc_eq (Signing.signedI_fits hE _), Out.bind_ok, enc_eq (Signing.signedI_fits hE _), Out.bind_ok]
      exact ⟨_, rfl, rfl, hv.holders i hi, rfl⟩
  by_cases hne : honest.Nonempty
  · obtain ⟨i0, hi0⟩ := hne
    refine ⟨epidOf (shares i0).pub (infos i0).pub, fun i hi => ?_⟩
    rw [hv.same_public i0 hi0 i hi, ha.same_public i0 hi0 i hi]
    exact one i hi
  · exact ⟨epidOf (BMap.ofList []) (BMap.ofList []), fun i hi => absurd ⟨i, hi⟩ hne⟩

/-- **C100 (signing).** After any such histories, in any execution of signing over serialized messages: every signature an honest signer ends with is a normalized, valid signature of its message under the
verifying key of the history and recovers it, and if the serialized echo-broadcasts agree then all honest signers that end with a signature end with the same one. Nothing is assumed about the auxiliary
info beyond where it comes from. -/
theorem C100_sign (hF : LifeFormat K W) (hu : W.P.uint ≠ 0) (hb : W.P.uint ≤ W.P.modBits) {Ep : Type} (E : Signing.Env q I Ep G) (hC : CurveLaws E.C q) (hP : W.P = E.P) (hc : E.P.SelfConsistent)
    (hE : SigningHashesFit E) (hq : K.order = q) (hg : K.refresh.g ≠ 0) (hI : ∀ s i h h', K.initHash s i h = K.initHash s i h' → h = h')
    (hA : ∀ s i h h', K.auxHash s i h = K.auxHash s i h' → h = h') (hR : ∀ s i h h', K.refreshHash s i h = K.refreshHash s i h' → h = h')
    (h n : Nat) (hh : W.P.half ≤ 8 * h) (hn : W.P.uint ≤ 8 * n) (honest : Set I) (ids : Finset I) (shares : I → KeyShare I (ZMod q) G) (vk : G) (hshares : KeepsFullOver W K honest ids shares vk)
    (infos : I → AuxInfo I PaillierKey PublicAux) (hinfos : HoldsAuxOver W K h n honest ids infos) (epidOf : BMap I G → BMap I PublicAux → Ep) (message : ZMod q)
    (panics : Panics I (Signing.Message q I G) (Signing.State q I Ep G)) (d : I → Signing.Draws q I) (hd : ∀ i ∈ honest, SigningDrawsFit E.P (ids.erase i) (d i)) (r : I → Signing.Round1 q I Ep G)
    (hr : ∀ i ∈ honest, Signing.start E epidOf message (shares i) (infos i) i (d i) = .ok (r i)) (init : I → Signing.State q I Ep G)
    (hinit : ∀ i ∈ honest, Signing.begin E (r i) = .ok (init i))
    (net : Net I (Packet I) (Signing.State q I Ep G) (WireErr (Signing.Err I)) (RecoverableSignature q))
    (hnet : (overWire (Signing.machine E) W.signingTransport panics).Reachable honest init net) :
    (∀ i ∈ honest, ∀ sig, net.status i = .finished sig →
      EcdsaValid E.C vk message sig.r sig.s ∧ LowS sig.s ∧ recover E.C message sig.r sig.s sig.recoveryId = some vk) ∧
    ((overWire (Signing.machine E) W.signingTransport panics).EchoAgree honest 2 Packet.echo net →
      ∀ i ∈ honest, ∀ j ∈ honest, ∀ sig sig', net.status i = .finished sig → net.status j = .finished sig' → sig = sig') := by
  obtain ⟨-, hv, -⟩ := C99_full_shares hF hq hg hI hR _ _ _ _ hshares
  have ha := hinfos.view hF hu hA hR hh hn
  have hle : 2 ^ W.P.uint ≤ 2 ^ E.P.modBits := Nat.pow_le_pow_right (by norm_num) (by rw [← hP]; exact hb)
  refine C99_sign hF E hC hP hc hE hq hg hI hR honest ids shares vk hshares epidOf message panics honest subset_rfl infos (fun i hi v hx => ?_) (fun i hi => ?_) d
    (fun i hi => by rw [hv.holders i hi]; exact hd i hi) r hr init hinit net hnet
  · obtain ⟨j, hj⟩ := BMap.mem_values.1 hx
    have hs := ha.sound i hi j v hj
    exact ⟨hs.pkHigh.trans_le hle, by rw [← hP]; exact hs.rpHigh.le⟩
  · obtain ⟨x, hx, he⟩ := ha.own i hi
    have hs := ha.sound i hi i x hx
    have hm : (infos i).secret.modulus = x.pk := he.symm
    rw [hm]
    exact ⟨(by intro e; have := hs.pkOdd; rw [e] at this; cases this), hs.pkHigh.trans_le hle⟩

/-- The bounds on sizes that `C100_aux_info` and `C100_sign` assume hold for all parameter sets of the code, with the sizes of the integers in bytes. -/
example : ∀ P ∈ [Params.test, Params.production112, Params.production128], P.uint ≠ 0 ∧ P.uint ≤ P.modBits ∧ P.half ≤ 8 * (P.half / 8) ∧ P.uint ≤ 8 * (P.uint / 8) := by decide

/-! ### Concrete histories -/

section Concrete

attribute [local instance] Toy.fact11 Toy.order11

/-- 1, 2 and 3 generate auxiliary info over serialized messages. -/
private theorem aux_generated_case : ∃ infos setup, AuxGeneratedOver toyWire wireKeys (Toy.parties : Set Nat) Toy.parties infos ∧ UsableAux Params.test Toy.parties infos setup ∧
    (∀ i ∈ Toy.parties, (infos i).secret.modulus = Toy.primeP * Toy.primeQ) ∧ ∀ i, (setup i).modulus = Toy.primeQ * Toy.primeP := by
  have hst : ∀ i ∈ Toy.parties, ∃ c, AuxGen.start Toy.auxEnv Toy.parties 7 i (Toy.auxDraws i) = .ok c := by
    intro i hi
    obtain ⟨c, h, _⟩ := C54_start Toy.auxEnv 2 Toy.parties 7 i hi (Toy.auxDraws i) (Toy.auxDraws_valid i (by simp [Toy.parties] at hi; omega))
    exact ⟨c, h⟩
  have : Nonempty (AuxGen.Context Nat Nat) := ⟨(hst 1 (by decide)).choose⟩
  obtain ⟨ctx, hctx⟩ := exists_fun hst
  obtain ⟨res, h, hcon, huse⟩ := C91_aux_gen_finishes toyWire_valid Toy.auxEnv rfl auxHashesFit 2 Toy.auxEnv_valid wireKeys.auxHash Toy.parties 7 Toy.auxDraws (fun i _ => auxDrawsFit i)
    (fun i hi => Toy.auxDraws_valid i (by simp [Toy.parties] at hi; omega)) (fun i _ j _ _ => Toy.facDraws_valid i j) 3 (fun _ _ => rfl) ctx (fun i hi => (hctx i hi))
  have hoth : ∀ i ∈ Toy.parties, (ctx i).otherIds = Toy.parties.erase i := fun i hi => by
    obtain ⟨_, _, sk, _, h⟩ := AuxGen.start_ok (hctx i hi)
    rw [h]
  obtain ⟨n, hn, hf, he⟩ := h.exists_agreeing (echo := Packet.echo) (k := 1)
    (fun i hi l s hs => by
      obtain ⟨l', -, hs'⟩ := overWire_replay hs
      intro j hj
      have hj : j ∈ (ctx i).otherIds := by
        rw [← (AuxGen.replay_expected hs').1]
        exact hj
      rw [hoth i hi] at hj
      exact (Finset.mem_erase.1 hj).2)
    (fun i hi l s hs hk => by
      obtain ⟨l', hl, hs'⟩ := overWire_replay hs
      rw [← hl]
      exact (AuxGen.replay_expected hs').2.symm.trans hk)
    (fun s hs a ha b hb => by
      obtain ⟨m, hm, hp⟩ := mem_packAll.1 ha
      obtain ⟨m', hm', hp'⟩ := mem_packAll.1 hb
      have e : m = m' := AuxGen.send_one s hs _ hm _ hm'
      rw [e] at hp
      rw [Out.ok.inj (hp.symm.trans hp')]) (Toy.parties : Set Nat) subset_rfl
  refine ⟨res, _, ⟨_, 7, Toy.auxDraws, ctx, _, n, subset_rfl, fun i _ => auxDrawsStorable i, fun i hi => hctx i hi, hn, he, hf⟩, huse, fun i hi => ?_, fun i => rfl⟩
  have e := Option.some.inj ((huse.consistent.public_agree i hi i hi).symm.trans (hcon.public_agree i hi i hi))
  exact congrArg PublicAux.pk e

/-- The hypotheses of C100 are met: 1, 2 and 3 generate auxiliary info over serialized messages, store it and read it back, take a key that was dealt to them, and there is an execution of signing over serialized
messages in which all of them end with the same valid signature. -/
example : ∃ (infos : Nat → AuxInfo Nat PaillierKey PublicAux) (r1 : Nat → Signing.Round1 11 Nat Nat (ZMod 11)) (init : Nat → Signing.State 11 Nat Nat (ZMod 11))
    (n : Net Nat (Packet Nat) (Signing.State 11 Nat Nat (ZMod 11)) (WireErr (Signing.Err Nat)) (RecoverableSignature 11)) (sig : RecoverableSignature 11),
    HoldsAuxOver toyWire wireKeys 16 32 (Toy.parties : Set Nat) Toy.parties infos ∧
    (∀ i ∈ Toy.parties, Signing.start Toy.signEnv (fun _ _ => 7) 5 (Toy.signShares i) (infos i) i (signQuietDraws i) = .ok (r1 i)) ∧
    (overWire (Signing.machine Toy.signEnv) toyWire.signingTransport (Signing.hashPanics Toy.signEnv.C.g)).Reachable (Toy.parties : Set Nat) init n ∧ (∀ i ∈ Toy.parties, n.status i = .finished sig) ∧
    EcdsaValid Toy.signEnv.C 6 5 sig.r sig.s := by
  obtain ⟨infos, setup, hgen, huse, hmod, hset⟩ := aux_generated_case
  obtain ⟨hF, h1, h2, h3, h4⟩ := wireKeys_ok
  have hold : HoldsAuxOver toyWire wireKeys 16 32 (Toy.parties : Set Nat) Toy.parties infos := .generated _ _ _ hgen
  obtain ⟨hv, hback⟩ := C100_aux_info hF (by decide) wireKeys_aux h4 16 32 (by decide) (by decide) _ _ _ hold
  have hold' : HoldsAuxOver toyWire wireKeys 16 32 (Toy.parties : Set Nat) Toy.parties infos := .stored _ _ _ _ _ hold subset_rfl fun i hi => .inr (hback i hi)
  obtain ⟨e, hst⟩ := C100_start hF (by decide) Toy.signEnv Toy.signEnv_setting h1 h2 h3 wireKeys_aux h4 16 32 (by decide) (by decide) _ _ _ 6 wireDealt _ hold' (fun _ _ => 7) 5 signQuietDraws
  have hst : ∀ i ∈ Toy.parties, ∃ r, Signing.start Toy.signEnv (fun _ _ => 7) 5 (Toy.signShares i) (infos i) i (signQuietDraws i) = .ok r := fun i hi => by
    obtain ⟨-, r, hr, -⟩ := hst i hi
    exact ⟨r, hr⟩
  have : Nonempty (Signing.Round1 11 Nat Nat (ZMod 11)) := ⟨(hst 1 (by decide)).choose⟩
  obtain ⟨r1, hr1⟩ := exists_fun hst
  have hd : SigningDrawsValid Toy.signEnv.P Toy.parties (fun i => (infos i).secret.modulus) (fun i => (setup i).modulus) signQuietDraws := by
    have h := signQuietDraws_valid
    constructor
    · intro i hi; rw [hmod i hi]; exact h.nu i hi
    · intro i hi; rw [hmod i hi]; exact h.rho i hi
    · intro i hi j hj hij; rw [hmod i hi, hset j]; exact h.enc0 i hi j hj hij
    · intro i hi j hj hij; rw [hmod i hi, hset j]; exact h.enc1 i hi j hj hij
    · intro i hi j hj hij; rw [hmod i hi, hmod j hj, hset j]; exact h.mta i hi j hj hij
    · intro i hi j hj hij; rw [hmod i hi, hmod j hj, hset j]; exact h.hatMta i hi j hj hij
  have hfit : ∀ i ∈ Toy.parties, AllValues (Spec.AuxFits Toy.signEnv.P) (infos i).pub := fun i hi v hx => by
    obtain ⟨j, hj⟩ := BMap.mem_values.1 hx
    have hs := hv.sound i hi j v hj
    exact ⟨hs.pkHigh, hs.rpHigh.le⟩
  obtain ⟨init, sig, hi0, -, -, hiff⟩ := C97_signing toyWire_valid Toy.signEnv Toy.signEnv_setting (by decide) rfl signHashesFit (fun _ _ => 7) 5 6 Toy.parties (by decide) Toy.signShares
    Toy.signShares_valid infos setup huse hfit (fun i hi => by rw [hmod i hi]; exact ⟨by decide +kernel, by decide +kernel⟩) signQuietDraws hd (fun i _ => signQuietDrawsFit i _) r1
    (fun i hi => (hr1 i hi)) (by decide +kernel) (by decide +kernel) (by decide +kernel) (by decide +kernel) (by decide +kernel)
  obtain ⟨n, hn, hf⟩ := (hiff.2 signQuietDraws_avoid).exists_finished
  exact ⟨infos, r1, init, n, sig, hold', fun i hi => hr1 i hi, hn, hf, ((C100_sign hF (by decide) (by decide) Toy.signEnv Toy.signEnv_setting.laws rfl Toy.signEnv_setting.consistent signHashesFit h1 h2 h3
    wireKeys_aux h4 16 32 (by decide) (by decide) _ _ _ 6 wireDealt _ hold' (fun _ _ => 7) 5 _ signQuietDraws (fun i _ => signQuietDrawsFit i _) r1 (fun i hi => hr1 i hi) init hi0 n hn).1 1 (by decide)
    sig (hf 1 (by decide))).1⟩

/-- 1, 2 and 3, of whom 1 and 2 are honest, refresh a key over serialized messages; 1 and 2 then restrict their new auxiliary info to themselves. -/
example : ∃ infos : Nat → AuxInfo Nat PaillierKey PublicAux, HoldsAuxOver toyWire wireKeys 16 32 {1, 2} {1, 2} infos ∧ (infos 1).pub = (infos 2).pub := by
  obtain ⟨-, infos, -, href, -⟩ := refreshed_case
  obtain ⟨hF, -, -, -, h4⟩ := wireKeys_ok
  have hold : HoldsAuxOver toyWire wireKeys 16 32 {1, 2} {1, 2, 3} infos := .refreshed _ _ _ href
  obtain ⟨hv, -⟩ := C100_aux_info hF (by decide) wireKeys_aux h4 16 32 (by decide) (by decide) _ _ _ hold
  have hs : ∀ i ∈ ({1, 2} : Finset Nat), ∃ info, (infos i).subset {1, 2} = .ok info := fun i hi => by
    have hi' : i ∈ ({1, 2} : Set Nat) := by simpa using hi
    exact (C18_subset_exact (infos i) {1, 2}).1.2 ⟨by rw [hv.owner i hi']; exact hi, by rw [hv.holders i hi']; decide⟩
  have : Nonempty (AuxInfo Nat PaillierKey PublicAux) := ⟨infos 1⟩
  obtain ⟨infos', hs⟩ := exists_fun hs
  have hold' : HoldsAuxOver toyWire wireKeys 16 32 {1, 2} {1, 2} infos' := .subset _ _ _ _ _ _ hold subset_rfl fun i hi => hs i (by simpa using hi)
  exact ⟨infos', hold', (C100_aux_info hF (by decide) wireKeys_aux h4 16 32 (by decide) (by decide) _ _ _ hold').1.same_public 1 (by simp) 2 (by simp)⟩

end Concrete

end Synedrion.Props
