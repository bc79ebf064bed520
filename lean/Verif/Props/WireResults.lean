import Verif.Spec.WireResults
import Verif.Props.WireNet
import Verif.Props.NonceFixed
import Verif.Props.KeyResharing
import Verif.Props.KeyRefresh
import Verif.Props.AuxGen
import Verif.Props.Signing
import Verif.Props.WireFinish
import Verif.Props.HashPoints
import Verif.Lemmas.ToySigningRun

/-!
# Property C96: what the result of a session over serialized messages is worth
-/

set_option linter.unusedSectionVars false

namespace Synedrion.Props

open Spec

variable {I G V Sid Ep : Type} [LinearOrder I] [AddCommGroup G] {q : Nat} [Fact q.Prime] [Module (ZMod q) G] [DecidableEq G] {W : WireFormat G V}

private theorem toWire_eq {N : Nat} (hN : N % 2 = 1) (rp rp' : RPParams N) (hs : rp'.s = ((rp.s.val : ℕ) : ZMod N)) (ht : rp'.t = ((rp.t.val : ℕ) : ZMod N)) :
    rp'.toWire = rp.toWire := by
  have : NeZero N := ⟨fun h => by rw [h] at hN; cases hN⟩
  rw [ZMod.natCast_zmod_val] at hs ht
  unfold RPParams.toWire
  rw [hs, ht]

section Sessions

variable [LinearOrder (ZMod q)] [DecidableEq V]

/-- **C96 (key generation).** Whatever bytes dishonest parties send and however the network behaves, an honest party that finishes key generation has a share of its own secret over exactly the
agreed parties, of a key that is not the identity; it has the genuine public share of every honest party, finished or not; and the public share of each other one comes with a Schnorr proof
accepted for this session, this party and one random string. -/
theorem C96_key_init (hW : FormatValid W q) (hashV : Sid → I → KeyInit.PublicData G → V) (H : SchHash G (KeyInit.SchAux I Sid) → ZMod q) (g : G)
    (panics : Panics I (KeyInit.Message (ZMod q) G V) (KeyInit.State I (ZMod q) G Sid V)) (honest : Set I) (ids : Finset I) (sid : Sid) (d : I → KeyInit.Draws (ZMod q))
    (hd : ∀ i ∈ honest, BitsFit (d i).rho ∧ BitsFit (d i).u) (c : I → KeyInit.Context I (ZMod q) G Sid) (hc : ∀ i ∈ honest, KeyInit.start g ids sid i (d i) = .ok (c i))
    (n : Net I (Packet I) (KeyInit.State I (ZMod q) G Sid V) (WireErr KeyInit.Err) (KeyShare I (ZMod q) G))
    (h : (overWire (KeyInit.machine hashV H g) W.keyInitTransport panics).Reachable honest (fun i => .one (c i)) n) (i : I) (hi : i ∈ honest) (ks : KeyShare I (ZMod q) G)
    (hf : n.status i = .finished ks) :
    ks.owner = i ∧ ks.secret = (d i).x ∧ ks.pub.keySet = ids ∧ ks.verifyingKeyAsPoint ≠ 0 ∧ (∀ j ∈ honest, ks.pub.get? j = some ((d j).x • g)) ∧
      ∃ rho : List Bool, ∀ j ∈ ids, j ≠ i → ∃ (capX capA : G) (psi : SchProof (ZMod q)), ks.pub.get? j = some capX ∧
        psi.challenge = H ⟨⟨sid, j, rho⟩, capX, capA⟩ ∧ capA + psi.challenge • capX = psi.proof • g := by
  obtain ⟨n', hn', hs⟩ := C91_key_init hW hashV H g panics honest ids sid d hd c hc n h
  obtain ⟨in1, in2, in3, -, hrun, hgen⟩ := C81_key_init hashV H g honest c n' hn'.reachable
  obtain ⟨h1, h2, h3, h4, h5, rho, -, h6⟩ := C37_finishing_party hashV H g ids sid i (d i) _ (hc i hi) _ _ _ ks (hrun i hi ks (SameCourse.finished hs hf))
  refine ⟨h1, h2, h3, h5, fun j hj => ?_, rho, fun j hj hne => ?_⟩
  · by_cases hij : j = i
    · rw [hij]; exact h4
    · have hcj := hc j hj
      unfold KeyInit.start at hcj
      split at hcj
      · cases hcj
      rename_i hmem
      obtain ⟨v, m, psi, -, hm, -, -, hp, -⟩ := h6 j (not_not.1 hmem) hij
      rw [hp, ((hgen i hi j hj).2.1) m hm, ← Out.ok.inj hcj]
      rfl
  · obtain ⟨v, m, psi, -, -, -, -, hp, hpsi⟩ := h6 j hj hne
    exact ⟨m.capX, m.capA, psi, hp, hpsi⟩

/-- **C96 (auxiliary info).** Whatever bytes dishonest parties send and however the network behaves, an honest party that finishes has its own secret key, and public data of exactly the
agreed parties: the genuine ones of every honest party; those of each other one have moduli that are odd and not too small and come with accepted proofs, the one about small factors made with
its own parameters. -/
theorem C96_aux_gen (hW : FormatValid W q) (E : AuxEnv I Sid) (hP : W.P = E.P) (hE : AuxHashesFit E) (hashV : Sid → I → AuxGen.Hashed → V)
    (panics : Panics I (AuxGen.Message V) (AuxGen.State I Sid V)) (honest : Set I) (ids : Finset I) (sid : Sid) (d : I → AuxDraws I) (hd : ∀ i ∈ honest, AuxDrawsFit E.P (d i))
    (c : I → AuxGen.Context I Sid) (hc : ∀ i ∈ honest, AuxGen.start E ids sid i (d i) = .ok (c i))
    (n : Net I (Packet I) (AuxGen.State I Sid V) (WireErr (AuxGen.Err I)) (AuxInfo I PaillierKey PublicAux))
    (h : (overWire (AuxGen.machine E hashV) W.auxGenTransport panics).Reachable honest (fun i => .one (c i)) n) (i : I) (hi : i ∈ honest) (info : AuxInfo I PaillierKey PublicAux)
    (hf : n.status i = .finished info) :
    let rp j := RPParams.withSecret ((d j).rpP * (d j).rpQ) E.P.modBits (d j).lambda (d j).tDraw
    info.owner = i ∧ info.secret.p = (d i).p ∧ info.secret.q = (d i).q ∧ info.pub.keySet = ids ∧
      (∀ j ∈ honest, info.pub.get? j = some ⟨(d j).p * (d j).q, (rp j).toWire⟩) ∧
      ∃ rid : List Bool, ∀ j ∈ ids, j ≠ i → ∃ x, info.pub.get? j = some x ∧ Vetted E sid j rid (rp i) x := by
  intro rp
  obtain ⟨n', hn', hs⟩ := C91_aux_gen hW E hP hE hashV panics honest ids sid d hd c hc n h
  obtain ⟨in1, in2, in3, -, hrun, hgen⟩ := C81_aux_gen E hashV honest c n' hn'.reachable
  obtain ⟨h1, h2, h3, h4, h5, rid, -, h6⟩ := C54_finishing_party E hashV ids sid i (d i) _ (hc i hi) _ _ _ info (hrun i hi info (SameCourse.finished hs hf))
  refine ⟨h1, h2, h3, h4, fun j hj => ?_, rid, fun j hj hne => ?_⟩
  · by_cases hij : j = i
    · rw [hij]; exact h5
    · obtain ⟨hmem, hodd, sk, -, hcj⟩ := AuxGen.start_ok (hc j hj)
      obtain ⟨v, m, m3, rpj, -, hm, -, hrs, hrt, -, hp, -⟩ := h6 j hmem hij
      have e := (hgen i hi j hj).2.1 m hm
      rw [hcj] at e
      subst e
      rw [hp]
      congr 2
      exact toWire_eq hodd (rp j) rpj hrs hrt
  · obtain ⟨v, m, m3, rpj, -, -, -, -, -, -, hp, a1, a2, a3, a4, a5, a6, a7⟩ := h6 j hj hne
    exact ⟨_, hp, _, rpj, m.psi, m3.psiPrime, m3.psi, rfl, a1, a2, a3, a4, a5, a6, a7⟩

/-- **C96 (key refresh).** Whatever bytes dishonest parties send and however the network behaves: an honest party that finishes key refresh can update its key share, which keeps the key and, if the
share was right before, is right afterwards. The new auxiliary info has the guarantees of `C96_aux_gen`. -/
theorem C96_key_refresh (hW : FormatValid W q) (E : KeyRefresh.Env I Sid (ZMod q) G) (hP : W.P = E.aux.P) (hE : AuxHashesFit E.aux) (hashV : Sid → I → KeyRefresh.Hashed I G → V)
    (panics : Panics I (KeyRefresh.Message I (ZMod q) G V) (KeyRefresh.State I (ZMod q) G Sid V)) (honest : Set I) (ids : Finset I) (sid : Sid) (d : I → KeyRefresh.Draws I (ZMod q))
    (hd : ∀ i ∈ honest, AuxDrawsFit E.aux.P (d i).aux) (c : I → KeyRefresh.Context I (ZMod q) G Sid) (hc : ∀ i ∈ honest, KeyRefresh.start E ids sid i (d i) = .ok (c i))
    (n : Net I (Packet I) (KeyRefresh.State I (ZMod q) G Sid V) (WireErr (KeyRefresh.Err I (ZMod q))) (KeyShareChange I (ZMod q) G × AuxInfo I PaillierKey PublicAux))
    (h : (overWire (KeyRefresh.machine E hashV) W.keyRefreshTransport panics).Reachable honest (fun i => .one (c i)) n) (i : I) (hi : i ∈ honest)
    (change : KeyShareChange I (ZMod q) G) (info : AuxInfo I PaillierKey PublicAux) (hf : n.status i = .finished (change, info)) :
    let rp j := RPParams.withSecret ((d j).aux.rpP * (d j).aux.rpQ) E.aux.P.modBits (d j).aux.lambda (d j).aux.tDraw
    (∀ ks : KeyShare I (ZMod q) G, ks.owner = i → ks.pub.keySet = ids → ∃ ks', ks.update change = .ok ks' ∧ ks'.owner = i ∧ ks'.pub.keySet = ids ∧
      ks'.verifyingKeyAsPoint = ks.verifyingKeyAsPoint ∧ (ks.pub.get? i = some (ks.secret • E.g) → ks'.pub.get? i = some (ks'.secret • E.g))) ∧
    info.owner = i ∧ info.secret.p = (d i).aux.p ∧ info.secret.q = (d i).aux.q ∧ info.pub.keySet = ids ∧
      (∀ j ∈ honest, info.pub.get? j = some ⟨(d j).aux.p * (d j).aux.q, (rp j).toWire⟩) ∧
      ∃ rid : List Bool, ∀ j ∈ ids, j ≠ i → ∃ x, info.pub.get? j = some x ∧ Vetted E.aux sid j rid (rp i) x := by
  intro rp
  obtain ⟨n', hn', hs⟩ := C91_key_refresh hW E hP hE hashV panics honest ids sid d hd c hc n h
  obtain ⟨in1, in2, in3, -, hrun, hgen⟩ := C81_key_refresh E hashV honest c n' hn'.reachable
  have hr := hrun i hi _ (SameCourse.finished hs hf)
  obtain ⟨-, -, -, -, h1, h2, h3, h4, h5, rid, capX, -, -, -, h6⟩ := C38_finishing_party E hashV ids sid i (d i) _ (hc i hi) _ _ _ change info hr
  refine ⟨fun ks ho hk => C38_update E hashV ids sid i (d i) _ (hc i hi) _ _ _ change info hr ks ho hk, h1, h2, h3, h4, fun j hj => ?_, rid, fun j hj hne => ?_⟩
  · by_cases hij : j = i
    · rw [hij]; exact h5
    · obtain ⟨hmem, hodd, sk, x, -, -, hcj⟩ := KeyRefresh.start_ok (hc j hj)
      obtain ⟨m, m3, rpj, hm, -, -, -, hrs, hrt, -, hp, -⟩ := h6 j hmem hij
      have e := (hgen i hi j hj).2.1 m hm
      rw [hcj] at e
      subst e
      rw [hp]
      congr 2
      exact toWire_eq hodd (rp j) rpj hrs hrt
  · obtain ⟨m, m3, rpj, -, -, -, -, -, -, -, hp, a1, a2, a3, a4, a5, a6, a7, -⟩ := h6 j hj hne
    exact ⟨_, hp, _, rpj, m.psi, m3.psiPrime, m3.psi, rfl, a1, a2, a3, a4, a5, a6, a7⟩

/-- **C96 (key resharing).** Whatever bytes dishonest old holders send and however the network behaves: an honest new holder that finishes (and that, if it is an old holder, is among those it expects
contributions from) owns a share over exactly the new holders that matches its public share. (Whether it is a share of the expected key is the subject of C40.) -/
theorem C96_resharing (hW : FormatValid W q) (g : G) (panics : Panics I (KeyResharing.Msg (ZMod q) G) (KeyResharing.State I (ZMod q) G)) (honest : Set I)
    (inp : I → KeyResharing.Inputs I (ZMod q) G) (draw : I → Nat → ZMod q)
    (r : I → KeyResharing.Round1 I (ZMod q) G) (hr : ∀ i ∈ honest, KeyResharing.start g (inp i) i (draw i) = .ok (r i)) (init : I → KeyResharing.State I (ZMod q) G)
    (hinit : ∀ i ∈ honest, KeyResharing.begin (r i) = .ok (init i))
    (n : Net I (Packet I) (KeyResharing.State I (ZMod q) G) (WireErr KeyResharing.Err) (Option (ThresholdKeyShare I (ZMod q) G)))
    (h : (overWire (KeyResharing.machine g) W.resharingTransport panics).Reachable honest init n) (i : I) (hi : i ∈ honest)
    (nh : KeyResharing.NewHolder I G) (hnh : (inp i).newHolder = some nh) (hold : (inp i).oldHolder.isSome → i ∈ nh.oldHolders)
    (res : Option (ThresholdKeyShare I (ZMod q) G)) (hf : n.status i = .finished res) :
    ∃ ks, res = some ks ∧ ks.owner = i ∧ ks.threshold = (inp i).newThreshold ∧ ks.shareIds.keySet = (inp i).newHolders ∧ ks.publicShares.keySet = (inp i).newHolders ∧
      ks.publicShares.get? i = some (ks.secretShare • g) := by
  obtain ⟨n', hn', hs⟩ := C91_resharing hW g panics honest init n h
  obtain ⟨inbox, hrun, -⟩ := C81_key_resharing g honest r init hinit n' hn'
  exact C40_own_share_consistent g (inp i) i (draw i) (r i) (hr i hi) nh hnh hold (inbox i) res (hrun i hi res (SameCourse.finished hs hf))

end Sessions

/-! ### Signing -/

section Signing

/-- **C96 (signing).** Whatever bytes dishonest signers send and however the network behaves, a signature an honest signer ends with is a valid ECDSA signature of its message under the group key,
is normalized, and its recovery id gives the group key. -/
theorem C96_signing (hW : FormatValid W q) (E : Signing.Env q I Ep G) (hC : CurveLaws E.C q) (hP : W.P = E.P) (hc : E.P.SelfConsistent) (hE : SigningHashesFit E)
    (epidOf : BMap I G → BMap I PublicAux → Ep) (message : ZMod q) (panics : Panics I (Signing.Message q I G) (Signing.State q I Ep G)) (honest : Set I)
    (ks : I → KeyShare I (ZMod q) G) (aux : I → AuxInfo I PaillierKey PublicAux) (haux : ∀ i ∈ honest, AllValues (AuxFits E.P) (aux i).pub)
    (hkey : ∀ i ∈ honest, (aux i).secret.modulus ≠ 0 ∧ (aux i).secret.modulus < 2 ^ E.P.modBits) (d : I → Signing.Draws q I)
    (hd : ∀ i ∈ honest, SigningDrawsFit E.P ((ks i).pub.keySet.erase i) (d i)) (r : I → Signing.Round1 q I Ep G)
    (hr : ∀ i ∈ honest, Signing.start E epidOf message (ks i) (aux i) i (d i) = .ok (r i)) (init : I → Signing.State q I Ep G)
    (hinit : ∀ i ∈ honest, Signing.begin E (r i) = .ok (init i))
    (n : Net I (Packet I) (Signing.State q I Ep G) (WireErr (Signing.Err I)) (RecoverableSignature q))
    (h : (overWire (Signing.machine E) W.signingTransport panics).Reachable honest init n) (i : I) (hi : i ∈ honest) (sig : RecoverableSignature q) (hf : n.status i = .finished sig) :
    EcdsaValid E.C (ks i).pub.values.sum message sig.r sig.s ∧ LowS sig.s ∧ recover E.C message sig.r sig.s sig.recoveryId = some (ks i).pub.values.sum := by
  obtain ⟨n', hn', hs⟩ := C91_signing hW E hP hc hE epidOf message panics honest ks aux haux hkey d hd r hr init hinit n h
  obtain ⟨in1, in2, in3, in4, -, -, hrun, -⟩ := C81_signing E honest r init hinit n' hn'.reachable
  exact C42_output_valid E hC epidOf message (ks i) (aux i) i (d i) (r i) (hr i hi) _ _ _ _ [] sig (hrun i hi sig (SameCourse.finished hs hf))

private theorem pull {P : Spec.Machine I M S E R} {T : Transport I M} {honest : Set I} {n : Net I (Packet I) S (WireErr E) R} {n' : Net I M S E R}
    (h : SameCourse T P.round honest n n') {i : I} {s : S} {got : List (I × M)} (hp : (s, got) ∈ n'.past i) {k : Nat} (hk : P.round s = k) {j : I} {m : M} (hm : (j, m) ∈ got) :
    ∃ y ∈ n.past i, P.round y.1 = k ∧ ∃ p, (j, p) ∈ y.2 ∧ T.unpack k p = some m := by
  obtain ⟨_, h1, -⟩ := h.past i
  obtain ⟨y, hy, e, hr⟩ := mem_of_forall₂ h1 hp
  have hk' : P.round y.1 = k := by rw [e]; exact hk
  rw [hk'] at hr
  obtain ⟨⟨j', p⟩, hd, h2, hu⟩ := hr.of_mem hm
  cases h2
  exact ⟨y, List.mem_of_mem_take hy, hk', p, hd, hu⟩

private theorem senders {E : Signing.Env q I Ep G} {r : Signing.Round1 q I Ep G} {in1 : List (I × Signing.Msg1 q G)} {in2 : List (I × Signing.Msg2 q I G)} {in3 : List (I × Signing.Msg3 q G)}
    {in4 : List (I × ZMod q)} {inErr : List (I × Signing.MsgErr I G)} {sig : RecoverableSignature q} (h : Signing.run E r in1 in2 in3 in4 inErr = .ok sig) :
    (in1.map Prod.fst).toFinset = r.ctx.otherIds ∧ (in2.map Prod.fst).toFinset = r.ctx.otherIds := by
  unfold Signing.run Signing.toRound4 Signing.toRound3 at h
  simp only [Out.bind_eq_ok, finalizeResult_eq_ok] at h
  obtain ⟨_, ⟨_, ⟨r2, h2, _, hc, _⟩, _⟩, _⟩ := h
  have e := (collect_eq_ok.1 hc).2.1
  rw [Signing.toRound2_ok h2] at e
  unfold Signing.toRound2 at h2
  simp only [Out.bind_eq_ok, finalizeResult_eq_ok] at h2
  obtain ⟨_, _, _, h1, _⟩ := h2
  exact ⟨(collect_eq_ok.1 h1).2.1, e⟩

private theorem exists_from {M : Type} {l : List (I × M)} {s : Finset I} (h : (l.map Prod.fst).toFinset = s) {j : I} (hj : j ∈ s) : ∃ m, (j, m) ∈ l := by
  rw [← h, List.mem_toFinset, List.mem_map] at hj
  obtain ⟨⟨_, m⟩, hm, rfl⟩ := hj
  exact ⟨m, hm⟩

private theorem from_mem {M : Type} {l : List (I × M)} {s : Finset I} (h : (l.map Prod.fst).toFinset = s) {a : I × M} (ha : a ∈ l) : a.1 ∈ s := by
  rw [← h]
  exact List.mem_toFinset.2 (List.mem_map.2 ⟨a, ha, rfl⟩)

/-- **C96 (the signature is fixed after round 1).** Take two executions over serialized messages in which the honest signer `i` began with the same data and received the same round 1 broadcasts,
for instance because both continue a situation in which it has completed round 1. Whatever bytes dishonest signers send from then on, having seen the honest signers' answers, and however the network behaves:
if `i` finishes in both, the signatures are the same, unless one of the proofs it received in round 2 was a guess. -/
theorem C96_signature_fixed (hW : FormatValid W q) (E : Signing.Env q I Ep G) (hC : CurveLaws E.C q) (hg : E.C.g ≠ 0) (hP : W.P = E.P) (hc : E.P.SelfConsistent) (hE : SigningHashesFit E)
    (epidOf : BMap I G → BMap I PublicAux → Ep) (message : ZMod q) (panics : Panics I (Signing.Message q I G) (Signing.State q I Ep G)) (honest : Set I)
    (ks : I → KeyShare I (ZMod q) G) (aux : I → AuxInfo I PaillierKey PublicAux) (haux : ∀ i ∈ honest, AllValues (AuxFits E.P) (aux i).pub)
    (hkey : ∀ i ∈ honest, (aux i).secret.modulus ≠ 0 ∧ (aux i).secret.modulus < 2 ^ E.P.modBits) (d : I → Signing.Draws q I)
    (hd : ∀ i ∈ honest, SigningDrawsFit E.P ((ks i).pub.keySet.erase i) (d i)) (r : I → Signing.Round1 q I Ep G)
    (hr : ∀ i ∈ honest, Signing.start E epidOf message (ks i) (aux i) i (d i) = .ok (r i)) (init : I → Signing.State q I Ep G)
    (hinit : ∀ i ∈ honest, Signing.begin E (r i) = .ok (init i))
    (n n' : Net I (Packet I) (Signing.State q I Ep G) (WireErr (Signing.Err I)) (RecoverableSignature q))
    (h : (overWire (Signing.machine E) W.signingTransport panics).Reachable honest init n)
    (h' : (overWire (Signing.machine E) W.signingTransport panics).Reachable honest init n') (i : I) (hi : i ∈ honest) (hme : i ∈ (ks i).pub.keySet)
    (hsame : ∀ x ∈ n.past i, ∀ x' ∈ n'.past i, (Signing.machine E).round x.1 = 1 → (Signing.machine E).round x'.1 = 1 →
      ∀ j p p', (j, p) ∈ x.2 → (j, p') ∈ x'.2 → p.echo = p'.echo)
    (hguess : ∀ n₁ ∈ [n, n'], ∀ x ∈ n₁.past i, ∀ y ∈ n₁.past i, (Signing.machine E).round x.1 = 1 → (Signing.machine E).round y.1 = 2 → ∀ j p p' (m : Signing.Msg1 q G) (m' : Signing.Msg2 q I G), (j, p) ∈ x.2 → (j, p') ∈ y.2 →
      W.signingTransport.unpack 1 p = some (.one m) → W.signingTransport.unpack 2 p' = some (.two m') →
      ¬ Guessed E.elogH E.C.g m.echo m'.echo.capGamma (epidOf (ks i).pub (aux i).pub, j) m'.psiElog)
    (sig sig' : RecoverableSignature q) (hf : n.status i = .finished sig) (hf' : n'.status i = .finished sig') : sig = sig' := by
  classical
  obtain ⟨k, hk, hs⟩ := C91_signing hW E hP hc hE epidOf message panics honest ks aux haux hkey d hd r hr init hinit n h
  obtain ⟨k', hk', hs'⟩ := C91_signing hW E hP hc hE epidOf message panics honest ks aux haux hkey d hd r hr init hinit n' h'
  obtain ⟨in1, in2, in3, in4, p1, p2, hrun, -⟩ := C81_signing E honest r init hinit k hk.reachable
  obtain ⟨in1', in2', in3', in4', p1', p2', hrun', -⟩ := C81_signing E honest r init hinit k' hk'.reachable
  have hR := hrun i hi sig (SameCourse.finished hs hf)
  have hR' := hrun' i hi sig' (SameCourse.finished hs' hf')
  obtain ⟨s1, s2⟩ := senders hR
  obtain ⟨s1', s2'⟩ := senders hR'
  obtain ⟨_, _, _, _, _, _, hoth, _⟩ := Signing.start_eq_ok (hr i hi)
  have hne : ∀ j ∈ (r i).ctx.otherIds, j ≠ i := fun j hj => by
    rw [hoth] at hj
    exact Finset.ne_of_mem_erase hj
  have same : ∀ j m m', (j, m) ∈ in1 i → (j, m') ∈ in1' i → m.echo = m'.echo := by
    intro j m m' hm hm'
    obtain ⟨s, got, a1, a2, a3⟩ := p1 i hi _ hm
    obtain ⟨s', got', b1, b2, b3⟩ := p1' i hi _ hm'
    obtain ⟨y, hy, hyr, p, hp, hu⟩ := pull hs a1 a2 a3
    obtain ⟨y', hy', hyr', p', hp', hu'⟩ := pull hs' b1 b2 b3
    exact Option.some.inj (WireFormat.signing_echo₁ hu hu' (hsame y hy y' hy' hyr hyr' j p p' hp hp'))
  have hfirst : ∀ j, ∃ e : Signing.Echo1 G, (j = i → e = (r i).echo) ∧ (∀ m, (j, m) ∈ in1 i → m.echo = e) ∧ ∀ m, (j, m) ∈ in1' i → m.echo = e := by
    intro j
    by_cases hj : j ∈ (r i).ctx.otherIds
    · obtain ⟨m, hm⟩ := exists_from s1 hj
      obtain ⟨m', hm'⟩ := exists_from s1' hj
      exact ⟨m.echo, fun e => absurd e (hne j hj), fun x hx => (same j x m' hx hm').trans (same j m m' hm hm').symm, fun x hx => (same j m x hm hx).symm⟩
    · exact ⟨(r i).echo, fun _ => rfl, fun m hm => absurd (from_mem s1 hm) hj, fun m hm => absurd (from_mem s1' hm) hj⟩
  choose first hown h1 h1' using hfirst
  refine (C71_nonce_fixed E hC hg epidOf message message (ks i) (ks i) rfl (aux i) (aux i) i i hme hme (d i) (d i) (r i) (r i) (hr i hi) (hr i hi) (in1 i) (in1' i) (in2 i) (in2' i)
    (in3 i) (in3' i) (in4 i) (in4' i) [] [] first (hown i rfl) (hown i rfl) (fun a ha => h1 a.1 a.2 ha) (fun a ha => h1' a.1 a.2 ha) ?_ ?_ sig sig' hR hR').2 rfl
  · intro a ha
    obtain ⟨m, hm⟩ := exists_from s1 (from_mem s2 ha)
    obtain ⟨s, got, a1, a2, a3⟩ := p1 i hi _ hm
    obtain ⟨s', got', b1, b2, b3⟩ := p2 i hi _ ha
    obtain ⟨y, hy, hyr, p, hp, hu⟩ := pull hs a1 a2 a3
    obtain ⟨y', hy', hyr', p', hp', hu'⟩ := pull hs b1 b2 b3
    rw [← h1 a.1 m hm]
    exact hguess n (by simp) y hy y' hy' hyr hyr' a.1 p p' m a.2 hp hp' hu hu'
  · intro a ha
    obtain ⟨m, hm⟩ := exists_from s1' (from_mem s2' ha)
    obtain ⟨s, got, a1, a2, a3⟩ := p1' i hi _ hm
    obtain ⟨s', got', b1, b2, b3⟩ := p2' i hi _ ha
    obtain ⟨y, hy, hyr, p, hp, hu⟩ := pull hs' a1 a2 a3
    obtain ⟨y', hy', hyr', p', hp', hu'⟩ := pull hs' b1 b2 b3
    rw [← h1' a.1 m hm]
    exact hguess n' (by simp) y hy y' hy' hyr hyr' a.1 p p' m a.2 hp hp' hu hu'

end Signing

/-! ### The hypotheses are met -/

section Examples

attribute [local instance] Toy.fact11 Toy.order11

private def calm {M S : Type} : Panics Nat M S := ⟨fun _ _ _ => false, fun _ _ => false⟩

private theorem calm_only {M S E R : Type} (P : Spec.Machine Nat M S E R) (bad : M → Prop) : PanicsOnly P calm bad := ⟨(fun _ _ _ h => by cases h), (fun _ _ h => by cases h)⟩

private theorem bits (i : Nat) : BitsFit (kgDraws i).rho ∧ BitsFit (kgDraws i).u := ⟨by simp [BitsFit, kgDraws], by simp [BitsFit, kgDraws]⟩

/-- Three parties generate a key; all of them finish, and have the genuine public shares. -/
example : ∃ (n : Spec.Net Nat _ _ _ _) (shares : Nat → KeyShare Nat (ZMod 11) (ZMod 11)),
    (overWire (KeyInit.machine kgByteHash kgH (1 : ZMod 11)) toyWire.keyInitTransport calm).Reachable (({1, 2, 3} : Finset Nat) : Set Nat) (fun i => .one (kgCtx i)) n ∧
    (∀ i ∈ ({1, 2, 3} : Finset Nat), n.status i = .finished (shares i)) ∧ (shares 1).pub.get? 3 = some ((kgDraws 3).x • 1) := by
  obtain ⟨shares, h, -⟩ := C91_key_init_finishes_partial toyWire_valid kgByteHash kgH (1 : ZMod 11) (by decide) calm {1, 2, 3} 7 kgDraws 3 (fun _ _ => rfl) (fun i _ => bits i)
    kgCtx kgStart (by decide +kernel) (by decide +kernel) (calm_only _ _)
  obtain ⟨n, hn, hf⟩ := h.exists_finished
  obtain ⟨-, -, -, -, hp, -⟩ := C96_key_init toyWire_valid kgByteHash kgH 1 calm _ {1, 2, 3} 7 kgDraws (fun i _ => bits i) kgCtx (fun i hi => kgStart i hi) n hn 1 (by simp) _ (hf 1 (by decide))
  exact ⟨n, shares, hn, hf, hp 3 (by simp)⟩

/-- Three parties generate auxiliary info; all of them finish, and the data of each other one is vetted. -/
example : ∃ (ctx : Nat → AuxGen.Context Nat Nat) (n : Spec.Net Nat _ _ _ _) (res : Nat → AuxInfo Nat PaillierKey PublicAux) (rid : List Bool) (x : PublicAux),
    (overWire (AuxGen.machine Toy.auxEnv wireHash) toyWire.auxGenTransport ⟨fun _ _ _ => false, fun _ _ => false⟩).Reachable (({1, 2, 3} : Finset Nat) : Set Nat) (fun i => .one (ctx i)) n ∧
    (∀ i ∈ ({1, 2, 3} : Finset Nat), n.status i = .finished (res i)) ∧ (res 1).pub.get? 3 = some x ∧
    Vetted Toy.auxEnv 7 3 rid (RPParams.withSecret ((Toy.auxDraws 1).rpP * (Toy.auxDraws 1).rpQ) Toy.auxEnv.P.modBits (Toy.auxDraws 1).lambda (Toy.auxDraws 1).tDraw) x := by
  have hst : ∀ i ∈ ({1, 2, 3} : Finset Nat), ∃ c, AuxGen.start Toy.auxEnv ({1, 2, 3} : Finset Nat) 7 i (Toy.auxDraws i) = .ok c := by
    intro i hi
    obtain ⟨c, h, _⟩ := C54_start Toy.auxEnv 2 {1, 2, 3} 7 i hi (Toy.auxDraws i) (Toy.auxDraws_valid i (by simp at hi; omega))
    exact ⟨c, h⟩
  have : Nonempty (AuxGen.Context Nat Nat) := ⟨(hst 1 (by decide)).choose⟩
  obtain ⟨ctx, hctx⟩ := exists_fun hst
  obtain ⟨res, h, -⟩ := C91_aux_gen_finishes toyWire_valid Toy.auxEnv rfl auxHashesFit 2 Toy.auxEnv_valid wireHash {1, 2, 3} 7 Toy.auxDraws (fun i _ => auxDrawsFit i)
    (fun i hi => Toy.auxDraws_valid i (by simp at hi; omega)) (fun i _ j _ _ => Toy.facDraws_valid i j) 3 (fun _ _ => rfl) ctx hctx
  obtain ⟨n, hn, hf⟩ := h.exists_finished
  obtain ⟨-, -, -, -, -, rid, hv⟩ := C96_aux_gen (q := 11) (G := ZMod 11) toyWire_valid Toy.auxEnv rfl auxHashesFit wireHash _ _ {1, 2, 3} 7 Toy.auxDraws (fun i _ => auxDrawsFit i) ctx
    (fun i hi => hctx i hi) n hn 1 (by simp) _ (hf 1 (by decide))
  obtain ⟨x, hx, hv⟩ := hv 3 (by decide) (by decide)
  exact ⟨ctx, n, res, rid, x, hn, hf, hx, hv⟩

private def calmDraws (i : Nat) : KeyRefresh.Draws Nat (ZMod 11) := ⟨Toy.auxDraws i, fun n => (n + i : ℕ), fun j => (i + j : ℕ), fun j => (i + 2 * j : ℕ)⟩

/-- Three parties refresh a key; all of them finish, and can update their shares. -/
example : ∃ (ctx : Nat → KeyRefresh.Context Nat (ZMod 11) (ZMod 11) Nat) (n : Spec.Net Nat _ _ _ _) (res : Nat → KeyShareChange Nat (ZMod 11) (ZMod 11) × AuxInfo Nat PaillierKey PublicAux)
    (ks : KeyShare Nat (ZMod 11) (ZMod 11)),
    (overWire (KeyRefresh.machine refreshCaseEnv fun _ _ _ => ([] : List Byte)) toyWire.keyRefreshTransport KeyRefresh.hashPanics).Reachable (({1, 2, 3} : Finset Nat) : Set Nat)
      (fun i => .one (ctx i)) n ∧
    (∀ i ∈ ({1, 2, 3} : Finset Nat), n.status i = .finished (res i)) ∧ (Toy.signShares 1).update (res 1).1 = .ok ks ∧ ks.verifyingKeyAsPoint = (Toy.signShares 1).verifyingKeyAsPoint := by
  have hst : ∀ i ∈ ({1, 2, 3} : Finset Nat), ∃ c, KeyRefresh.start refreshCaseEnv ({1, 2, 3} : Finset Nat) 7 i (calmDraws i) = .ok c :=
    fun i hi => (C38_start refreshCaseEnv 2 {1, 2, 3} 7 i (calmDraws i) (Toy.auxDraws_valid i (by simp at hi; omega))).1 hi
  have : Nonempty (KeyRefresh.Context Nat (ZMod 11) (ZMod 11) Nat) := ⟨(hst 1 (by decide)).choose⟩
  obtain ⟨ctx, hctx⟩ := exists_fun hst
  obtain ⟨res, -, -, h⟩ := C93_key_refresh toyWire_valid refreshCaseEnv (by decide) rfl auxHashesFit 2 Toy.auxEnv_valid (fun _ _ _ => ([] : List Byte)) {1, 2, 3} 7 calmDraws
    (fun i _ => auxDrawsFit i) (fun i hi => Toy.auxDraws_valid i (by simp at hi; omega)) (fun i _ j _ _ => Toy.facDraws_valid i j) 3 (fun _ _ => rfl) ctx hctx
  obtain ⟨n, hn, hf⟩ := (h.2 (by decide +kernel)).exists_finished
  obtain ⟨hu, -⟩ := C96_key_refresh toyWire_valid refreshCaseEnv rfl auxHashesFit (fun _ _ _ => ([] : List Byte)) _ _ {1, 2, 3} 7 calmDraws (fun i _ => auxDrawsFit i) ctx
    (fun i hi => hctx i hi) n hn 1 (by simp) _ _ (hf 1 (by decide))
  obtain ⟨ks, h1, -, -, h2, -⟩ := hu (Toy.signShares 1) rfl (Toy.signShares_valid.holders 1 (by decide))
  exact ⟨ctx, n, res, ks, hn, hf, h1, h2⟩

/-- Parties 1 and 3 of a sharing with threshold 2 hand it over to 2, 3 and 4; party 4 finishes with a share. -/
example : ∃ (init : Nat → KeyResharing.State Nat (ZMod 11) (ZMod 11)) (n : Spec.Net Nat _ _ _ _) (ks : ThresholdKeyShare Nat (ZMod 11) (ZMod 11)),
    (overWire (KeyResharing.machine (1 : ZMod 11)) toyWire.resharingTransport calm).Reachable ((({1, 3} ∪ {2, 3, 4} : Finset Nat)) : Set Nat) init n ∧
    n.status 4 = .finished (some ks) ∧ ks.publicShares.get? 4 = some (ks.secretShare • 1) := by
  obtain ⟨r, hr, -⟩ := C39_honest_resharing 11 (1 : ZMod 11) {1, 2, 3} {1, 3} {2, 3, 4} 2 3 reshareCase 5 reshareCase_sharing (by decide) (by decide) (by decide) (by decide) (by decide) 2
    fun _ _ => 3
  obtain ⟨init, res, hi, hiff⟩ := C92_resharing_zero_share toyWire_valid (1 : ZMod 11) (by decide) calm (calm_only _ _) {1, 2, 3} {1, 3} {2, 3, 4} 2 3 reshareCase 5 reshareCase_sharing
    (by decide) (by decide) (by decide) (by decide) (by decide) 2 (fun _ _ => 3) (fun _ _ _ => by decide) r hr
  obtain ⟨n, hn, hf⟩ := (hiff.2 (by decide +kernel)).exists_finished
  obtain ⟨ks, hks, -, -, -, -, hp⟩ := C96_resharing toyWire_valid 1 calm _ _ _ r (fun i hi => hr i hi) init (fun i h => hi i h) n hn 4 (by simp) _ rfl (fun h => absurd h (by decide)) _ (hf 4 (by decide))
  exact ⟨init, n, ks, hn, by rw [hf 4 (by decide), hks], hp⟩

end Examples

end Synedrion.Props
