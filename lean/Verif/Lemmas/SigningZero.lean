import Verif.Spec.SigningZero
import Verif.Spec.WireFinish
import Verif.Lemmas.SigningRun
import Verif.Lemmas.HashPointsNet
import Verif.Lemmas.MachinesIdealSigning

/-!
# Lemmas: the points that honest signers send
-/

set_option linter.unusedSectionVars false

namespace Synedrion.Signing

open Spec

variable {q : Nat} [Fact q.Prime] {I Ep G : Type} [LinearOrder I] [AddCommGroup G] [Module (ZMod q) G] [DecidableEq G]

theorem encElg_prove_points {ε Aux : Type} {P : Params} {H : EncElgHash G Aux → ZMod q} {g : G} {N0 Nh : Nat} {x : SInt} {rho : Nat} {b : ZMod q} {pub : EncElgPublic N0 G} {setup : RPParams Nh}
    {aux : Aux} {mask : EncElgMasks q} {psi : EncElgProof q G} (h : (EncElgProof.prove P H g x rho b pub setup aux mask : Out ε _) = .ok psi) :
    psi.capY = mask.beta • pub.capA + scalarOfSigned q mask.alpha • g ∧ psi.capZ = mask.beta • g := by
  unfold EncElgProof.prove at h
  obtain ⟨_, -, h⟩ := Out.bind_eq_ok.1 h
  obtain ⟨_, -, h⟩ := Out.bind_eq_ok.1 h
  obtain ⟨_, -, h⟩ := Out.bind_eq_ok.1 h
  obtain ⟨_, -, h⟩ := Out.bind_eq_ok.1 h
  obtain ⟨_, -, h⟩ := Out.bind_eq_ok.1 h
  obtain ⟨_, -, h⟩ := Out.bind_eq_ok.1 h
  obtain ⟨_, -, h⟩ := Out.bind_eq_ok.1 h
  rw [← Out.ok.inj h]
  exact ⟨rfl, rfl⟩

theorem affG_prove_point {ε Aux : Type} {P : Params} {H : AffGHash G Aux → ZMod q} {g : G} {N0 N1 Nh : Nat} {x y : SInt} {rho rhoY : Nat} {pub : AffGPublic N0 N1 G} {setup : RPParams Nh}
    {aux : Aux} {mask : AffGMasks} {psi : AffGProof q G} (h : (AffGProof.prove P H g x y rho rhoY pub setup aux mask : Out ε _) = .ok psi) : psi.capBx = scalarOfSigned q mask.alpha • g := by
  unfold AffGProof.prove at h
  iterate 15 (obtain ⟨_, -, h⟩ := Out.bind_eq_ok.1 h)
  rw [← Out.ok.inj h]

theorem mtaSend_point {E : Env q I Ep G} {c : Context q I Ep G} {target : PubAux} {capK : Cipher} {x : SInt} {capX : G} {d : MtaDraws I} {id : I} {o : MtaOut q G}
    (h : mtaSend E c target capK x capX d id = .ok o) : o.psi.capBx = scalarOfSigned q (d.masks id).alpha • E.C.g := by
  unfold mtaSend at h
  iterate 4 (obtain ⟨_, -, h⟩ := Out.bind_eq_ok.1 h)
  obtain ⟨psi, hp, h⟩ := Out.bind_eq_ok.1 h
  unfold affGProve at hp
  iterate 3 (obtain ⟨_, -, hp⟩ := Out.bind_eq_ok.1 hp)
  rw [← Out.ok.inj h]
  exact affG_prove_point hp

theorem msg1_points {E : Env q I Ep G} {r : Round1 q I Ep G} {j : I} {m : Msg1 q G} (h : msg1 E r j = .ok m) : m.echo = r.echo ∧
    (m.psi0.capY = (r.ctx.d.enc0 j).beta • r.echo.capY + scalarOfSigned q (r.ctx.d.enc0 j).alpha • E.C.g ∧ m.psi0.capZ = (r.ctx.d.enc0 j).beta • E.C.g) ∧
    m.psi1.capY = (r.ctx.d.enc1 j).beta • r.echo.capY + scalarOfSigned q (r.ctx.d.enc1 j).alpha • E.C.g ∧ m.psi1.capZ = (r.ctx.d.enc1 j).beta • E.C.g := by
  unfold msg1 at h
  obtain ⟨_, -, h⟩ := Out.bind_eq_ok.1 h
  obtain ⟨_, -, h⟩ := Out.bind_eq_ok.1 h
  obtain ⟨psi0, h0, h⟩ := Out.bind_eq_ok.1 h
  obtain ⟨_, -, h⟩ := Out.bind_eq_ok.1 h
  obtain ⟨psi1, h1, h⟩ := Out.bind_eq_ok.1 h
  rw [← Out.ok.inj h]
  exact ⟨rfl, encElg_prove_points h0, encElg_prove_points h1⟩

theorem good_one_iff {m : Msg1 q G} : signingNoIdentity (I := I) (.one m) ↔
    0 ∉ [m.echo.capY, m.echo.capA1, m.echo.capA2, m.echo.capB1, m.echo.capB2] ∧ 0 ∉ [m.psi0.capY, m.psi0.capZ, m.psi1.capY, m.psi1.capZ] := by
  refine ⟨fun h => ⟨h 1 .echo m.echo rfl, h 1 .direct ⟨m.psi0, m.psi1⟩ rfl⟩, fun ⟨h1, h2⟩ r p x hx => ?_⟩
  rcases p <;> rcases r with _ | _ | r <;> first | (cases hx; done) | cases Option.some.inj hx
  · exact h1
  · exact h2

theorem good_two_iff {m : Msg2 q I G} : signingNoIdentity (.two m) ↔ m.echo.capGamma ≠ 0 ∧ 0 ∉ elogPoints m.psiElog ∧ (∀ psi ∈ m.psis.values, psi.capBx ≠ 0) ∧
    ∀ psi ∈ m.hatPsis.values, psi.capBx ≠ 0 := by
  refine ⟨good_two, fun ⟨h1, h2, h3, h4⟩ r p x hx => ?_⟩
  rcases p <;> rcases r with _ | _ | _ | r <;> first | (cases hx; done) | cases Option.some.inj hx
  · simpa [signingPoints] using Ne.symm h1
  · simp only [signingPoints, List.mem_append, List.mem_map, not_or, not_exists, not_and]
    exact ⟨⟨h2, h3⟩, h4⟩

theorem good_three_iff {m : Msg3 q G} : signingNoIdentity (I := I) (.three m) ↔ 0 ∉ m.capDelta :: elogPoints m.psiPrime ++ [m.capS] := by
  refine ⟨fun h => h 3 .normal ⟨m.capDelta, m.psiPrime, m.capS⟩ rfl, fun h r p x hx => ?_⟩
  rcases p <;> rcases r with _ | _ | _ | _ | r <;> first | (cases hx; done) | cases Option.some.inj hx
  all_goals first | exact h | exact List.not_mem_nil

theorem good_four (s : ZMod q) : signingNoIdentity (I := I) (G := G) (.four s) := by
  intro r p x hx
  rcases p <;> rcases r with _ | _ | _ | _ | _ | r <;> first | (cases hx; done) | cases Option.some.inj hx
  all_goals exact List.not_mem_nil

section Points

variable {g : G} (hg : g ≠ 0)
include hg

theorem smul_gen_eq {x : ZMod q} : x • g = 0 ↔ x = 0 := by
  rw [smul_eq_zero]
  exact or_iff_left hg

theorem echo_good {y a b k gamma : ZMod q} :
    0 ∉ [y • g, a • g, a • y • g + k • g, b • g, b • y • g + gamma • g] ↔ y ≠ 0 ∧ a ≠ 0 ∧ a * y + k ≠ 0 ∧ b ≠ 0 ∧ b * y + gamma ≠ 0 := by
  simp only [List.mem_cons, List.not_mem_nil, or_false, not_or, eq_comm (a := (0 : G)), smul_smul, ← add_smul, smul_gen_eq hg, ne_eq]

theorem enc_good {y b0 b1 a0 a1 : ZMod q} :
    0 ∉ [b0 • y • g + a0 • g, b0 • g, b1 • y • g + a1 • g, b1 • g] ↔ (b0 ≠ 0 ∧ b0 * y + a0 ≠ 0) ∧ b1 ≠ 0 ∧ b1 * y + a1 ≠ 0 := by
  simp only [List.mem_cons, List.not_mem_nil, or_false, not_or, eq_comm (a := (0 : G)), smul_smul, ← add_smul, smul_gen_eq hg, ne_eq]
  tauto

theorem elog_good {Aux : Type} {H : ElogHash G Aux → ZMod q} {v lambda y a m : ZMod q} {pub : ElogPublic G} {aux : Aux} (hX : pub.capX = y • g) (hh : pub.h ≠ 0) :
    0 ∉ elogPoints (ElogProof.prove H g v lambda pub aux a m) ↔ a ≠ 0 ∧ m ≠ 0 ∧ m + a * y ≠ 0 := by
  simp only [elogPoints, ElogProof.prove, hX, List.mem_cons, List.not_mem_nil, or_false, not_or, eq_comm (a := (0 : G)), smul_smul, ← add_smul, smul_gen_eq hg, smul_gen_eq hh, ne_eq]
  tauto

end Points

namespace Run

variable {S : Run q I Ep G} {sk : ZMod q} {o : I → I → MtaOut q G × MtaOut q G}

theorem one_good (hg : S.E.C.g ≠ 0) {i j : I} {m : Msg1 q G} (h : S.Sent1 i j m) : signingNoIdentity (I := I) (.one m) ↔
    ((S.d i).y ≠ 0 ∧ (S.d i).a ≠ 0 ∧ (S.d i).a * (S.d i).y + (S.d i).k ≠ 0 ∧ (S.d i).b ≠ 0 ∧ (S.d i).b * (S.d i).y + (S.d i).gamma ≠ 0) ∧
    ∀ m ∈ [(S.d i).enc0 j, (S.d i).enc1 j], m.beta ≠ 0 ∧ m.beta * (S.d i).y + scalarOfSigned q m.alpha ≠ 0 := by
  obtain ⟨h1, ⟨h2, h3⟩, h4, h5⟩ := msg1_points h.sent
  rw [good_one_iff, h1, h2, h3, h4, h5]
  simp only [List.forall_mem_cons, List.not_mem_nil, false_imp_iff, implies_true, and_true]
  exact and_congr (echo_good hg) (enc_good hg)

theorem two_good (hg : S.E.C.g ≠ 0) (ho : S.BothDone o) {i : I} (hi : i ∈ S.ids) : signingNoIdentity (.two (msg2 (S.r2 o i))) ↔
    (S.d i).gamma ≠ 0 ∧ ((S.d i).elogAlpha ≠ 0 ∧ (S.d i).elogM ≠ 0 ∧ (S.d i).elogM + (S.d i).elogAlpha * (S.d i).y ≠ 0) ∧
    ∀ j ∈ S.ids, j ≠ i → ∀ m ∈ [(S.d i).mta.masks j, (S.d i).hatMta.masks j], scalarOfSigned q m.alpha ≠ 0 := by
  have hv : ∀ f : MtaOut q G × MtaOut q G → AffGProof q G, (∀ psi ∈ ((S.r2 o i).outs.mapVals fun _ o => f o).values, psi.capBx ≠ 0) ↔
      ∀ j ∈ S.ids, j ≠ i → (f (o i j)).capBx ≠ 0 := by
    intro f
    show (∀ psi ∈ ((BMap.tabulate (S.ids.erase i) (o i)).mapVals fun _ o => f o).values, psi.capBx ≠ 0) ↔ _
    rw [KeyRefresh.mapVals_tabulate, BMap.values_tabulate, List.forall_mem_map]
    exact ⟨fun h j hj hne => h j (mem_bsetIter.2 (Finset.mem_erase.2 ⟨hne, hj⟩)), fun h j hj => h j (Finset.mem_erase.1 (mem_bsetIter.1 hj)).2 (Finset.mem_erase.1 (mem_bsetIter.1 hj)).1⟩
  rw [good_two_iff]
  refine and_congr (not_congr (smul_gen_eq hg)) (and_congr (elog_good hg rfl hg) ?_)
  refine Iff.trans (and_congr (hv fun o => o.1.psi) (hv fun o => o.2.psi)) ?_
  have e1 : ∀ j ∈ S.ids, j ≠ i → (o i j).1.psi.capBx = scalarOfSigned q ((S.d i).mta.masks j).alpha • S.E.C.g := fun j hj hne => mtaSend_point (ho.mta i hi j hj hne.symm).sent
  have e2 : ∀ j ∈ S.ids, j ≠ i → (o i j).2.psi.capBx = scalarOfSigned q ((S.d i).hatMta.masks j).alpha • S.E.C.g := fun j hj hne => mtaSend_point (ho.hatMta i hi j hj hne.symm).sent
  simp only [List.forall_mem_cons, List.not_mem_nil, false_imp_iff, implies_true, and_true]
  refine ⟨fun ⟨h1, h2⟩ j hj hne => ⟨fun h => h1 j hj hne ?_, fun h => h2 j hj hne ?_⟩, fun h => ⟨fun j hj hne h0 => (h j hj hne).1 ?_, fun j hj hne h0 => (h j hj hne).2 ?_⟩⟩
  · rw [e1 j hj hne, h, zero_smul]
  · rw [e2 j hj hne, h, zero_smul]
  · rwa [e1 j hj hne, smul_gen_eq hg] at h0
  · rwa [e2 j hj hne, smul_gen_eq hg] at h0

theorem share_eq (h : S.Good sk) {i : I} (hi : i ∈ S.ids) :
    S.chi i = sk * (S.d i).k + ∑ j ∈ S.ids.erase i, (scalarOfSigned q ((S.d i).hatMta.beta j) - scalarOfSigned q ((S.d j).hatMta.beta i)) := by
  unfold chi share alpha
  rw [← h.keys.sum, ← Finset.add_sum_erase S.ids _ hi, Finset.sum_sub_distrib, Finset.sum_sub_distrib, ← Finset.sum_mul]
  ring

theorem three_good (hg : S.E.C.g ≠ 0) (hgamma : S.gammaAll ≠ 0) {i : I} : signingNoIdentity (I := I) (.three (S.msg3 i)) ↔
    (S.d i).k ≠ 0 ∧ ((S.d i).elogAlpha' ≠ 0 ∧ (S.d i).elogM' ≠ 0 ∧ (S.d i).elogM' + (S.d i).elogAlpha' * (S.d i).y ≠ 0) ∧ S.chi i ≠ 0 := by
  have hG : S.capGammaAll ≠ 0 := fun h => hgamma ((smul_gen_eq hg).1 h)
  rw [good_three_iff]
  simp only [List.cons_append, List.mem_cons, List.mem_append, List.not_mem_nil, or_false, not_or, eq_comm (a := (0 : G)), msg3, smul_gen_eq hG]
  exact and_congr Iff.rfl (and_congr (elog_good hg rfl hG) Iff.rfl)

/-- All that a party sends -/
theorem all_good (hg : S.E.C.g ≠ 0) (h : S.Good sk) (hgamma : S.gammaAll ≠ 0) (htwo : 2 ≤ S.ids.card) (ho : S.BothDone o) {m1 : I → I → Msg1 q G}
    (hm1 : ∀ i ∈ S.ids, ∀ j ∈ S.ids, i ≠ j → S.Sent1 i j (m1 i j)) {i : I} (hi : i ∈ S.ids) :
    ((∀ j ∈ S.ids, j ≠ i → signingNoIdentity (I := I) (.one (m1 i j))) ∧ signingNoIdentity (.two (msg2 (S.r2 o i))) ∧ signingNoIdentity (I := I) (.three (S.msg3 i))) ↔
      SigningAvoidsZero sk S.ids S.d i := by
  rw [two_good hg ho hi, three_good hg hgamma, share_eq h hi]
  have h1 : (∀ j ∈ S.ids, j ≠ i → signingNoIdentity (I := I) (.one (m1 i j))) ↔
      ((S.d i).y ≠ 0 ∧ (S.d i).a ≠ 0 ∧ (S.d i).a * (S.d i).y + (S.d i).k ≠ 0 ∧ (S.d i).b ≠ 0 ∧ (S.d i).b * (S.d i).y + (S.d i).gamma ≠ 0) ∧
      ∀ j ∈ S.ids, j ≠ i → ∀ m ∈ [(S.d i).enc0 j, (S.d i).enc1 j], m.beta ≠ 0 ∧ m.beta * (S.d i).y + scalarOfSigned q m.alpha ≠ 0 := by
    refine ⟨fun h => ⟨?_, fun j hj hne => ((one_good hg (hm1 i hi j hj hne.symm)).1 (h j hj hne)).2⟩, fun h j hj hne => (one_good hg (hm1 i hi j hj hne.symm)).2 ⟨h.1, h.2 j hj hne⟩⟩
    obtain ⟨j, hj, hne⟩ := Finset.exists_mem_ne (by omega : 1 < S.ids.card) i
    exact ((one_good hg (hm1 i hi j hj hne.symm)).1 (h j hj hne)).1
  rw [h1]
  constructor
  · rintro ⟨⟨⟨a1, a2, a3, a4, a5⟩, a6⟩, ⟨b1, b2, b3⟩, c1, c2, c3⟩
    exact ⟨⟨c1, b1, a1, a2, a4⟩, ⟨a3, a5⟩, a6, by simpa using ⟨b2, c2⟩, b3, c3⟩
  · rintro ⟨⟨c1, b1, a1, a2, a4⟩, ⟨a3, a5⟩, a6, b2, b3, c3⟩
    simp only [List.forall_mem_cons, List.not_mem_nil, false_imp_iff, implies_true, and_true] at b2
    exact ⟨⟨⟨a1, a2, a3, a4, a5⟩, a6⟩, ⟨b1, b2.1, b3⟩, c1, b2.2, c3⟩

end Run

/-- Honest signers send no identity point exactly if what they have drawn does not lead to one. -/
theorem sendsOnly_iff (E : Env q I Ep G) (hE : SigningSetting E) (hg : E.C.g ≠ 0) (epidOf : BMap I G → BMap I PublicAux → Ep) (message sk : ZMod q)
    (ids : Finset I) (htwo : 2 ≤ ids.card) (shares : I → KeyShare I (ZMod q) G) (hshares : SharesKey E.C.g ids shares sk)
    (infos : I → AuxInfo I PaillierKey PublicAux) (setup : I → RPSetup) (haux : UsableAux E.P ids infos setup)
    (d : I → Draws q I) (hd : SigningDrawsValid E.P ids (fun i => (infos i).secret.modulus) (fun i => (setup i).modulus) d)
    (r1 : I → Round1 q I Ep G) (hst : ∀ i ∈ ids, start E epidOf message (shares i) (infos i) i (d i) = .ok (r1 i))
    (hk : ∑ i ∈ ids, (d i).k ≠ 0) (hgamma : ∑ i ∈ ids, (d i).gamma ≠ 0) (hr : (E.C.x ((∑ i ∈ ids, (d i).gamma) • E.C.g) : ZMod q) ≠ 0)
    (hs : message + (E.C.x ((∑ i ∈ ids, (d i).gamma) • E.C.g) : ZMod q) * sk ≠ 0) (hkey : sk • E.C.g ≠ 0)
    (init : I → State q I Ep G) (hinit : ∀ i ∈ ids, begin E (r1 i) = .ok (init i)) :
    (machine E).SendsOnly ids init signingNoIdentity ↔ ∀ i ∈ ids, SigningAvoidsZero sk ids d i := by
  obtain ⟨init', st, sig, h0, hI, -, -, -, -, m1, r2, r3, r4, hm1, h2, h3, hstates⟩ :=
    ideal_states E hE epidOf message sk ids shares hshares infos setup haux d hd r1 hst hk hgamma hr hs hkey
  have hI : (machine E).Ideal ids init 4 st (fun _ => sig) := ⟨hI.rounds, fun i hi => (hI.first i hi).trans (Out.ok.inj ((h0 i hi).symm.trans (hinit i hi))),
    hI.round, hI.expected, hI.sends, hI.accepts, hI.advances, hI.finishes⟩
  have good := honest_good E hE epidOf message sk ids shares hshares infos setup haux d hd
  have hr1 : ∀ i ∈ ids, r1 i = (honest E epidOf message ids shares infos setup d).r1 i := fun i hi =>
    Out.ok.inj ((hst i hi).symm.trans (honest_start E hE epidOf message sk ids shares hshares infos setup haux d hi))
  obtain ⟨m1', o, ho, hsent, hrun⟩ := Run.good_rounds good
  generalize hS : honest E epidOf message ids shares infos setup d = S at *
  have eE : S.E = E := by rw [← hS]; rfl
  have eids : S.ids = ids := by rw [← hS]; rfl
  have ed : S.d = d := by rw [← hS]; rfl
  have hmm : ∀ i ∈ ids, ∀ j ∈ ids, i ≠ j → m1' i j = m1 i j := by
    intro i hi j hj hij
    have h := (hsent i (eids ▸ hi) j (eids ▸ hj) hij).sent
    rw [eE, ← hr1 i hi, hm1 i hi j hj hij] at h
    exact (Out.ok.inj h).symm
  have e1 : ∀ i ∈ ids, inOrder ids m1 i = inOrder ids m1' i := by
    intro i hi
    refine List.map_congr_left fun j hj => ?_
    obtain ⟨hne, hj⟩ := Finset.mem_erase.1 (mem_bsetIter.1 hj)
    rw [hmm j hj i hi hne]
  obtain ⟨t2, t3⟩ := hrun (inOrder ids m1) fun i hi => by
    rw [eids] at hi ⊢
    rw [e1 i hi]
    exact inOrder_fromOthers ids m1' i
  have er2 : ∀ i ∈ ids, r2 i = S.r2 o i := by
    intro i hi
    have h := t2 i (eids ▸ hi)
    rw [eE, ← hr1 i hi, h2 i hi] at h
    exact Out.ok.inj h
  have t3 := t3 (inOrder ids fun j _ => msg2 (r2 j)) fun i hi => by
    rw [eids] at hi ⊢
    rw [show inOrder ids (fun j _ => msg2 (r2 j)) i = inOrder ids (fun j _ => msg2 (S.r2 o j)) i from List.map_congr_left fun j hj => by
      dsimp only
      rw [er2 j (Finset.mem_erase.1 (mem_bsetIter.1 hj)).2]]
    exact inOrder_fromOthers ids (fun j _ => msg2 (S.r2 o j)) i
  have er3 : ∀ i ∈ ids, r3 i = S.r3 o i := by
    intro i hi
    have h := t3 i (eids ▸ hi)
    rw [eE, ← hr1 i hi, h3 i hi] at h
    exact Out.ok.inj h
  have hall : ∀ {i : I} (_ : i ∈ ids), ((∀ j ∈ ids, j ≠ i → signingNoIdentity (I := I) (.one (m1' i j))) ∧ signingNoIdentity (.two (msg2 (S.r2 o i))) ∧
      signingNoIdentity (I := I) (.three (S.msg3 i))) ↔ SigningAvoidsZero sk ids d i := fun {i} hi => by
    have := Run.all_good (S := S) (o := o) (by rw [eE]; exact hg) good (by unfold Run.gammaAll; rw [ed, eids]; exact hgamma) (by rw [eids]; exact htwo) ho hsent (i := i) (eids ▸ hi)
    rw [eids, ed] at this
    exact this
  have oth2 : ∀ i ∈ ids, (r2 i).ctx.otherIds = ids.erase i := fun i hi => by
    rw [er2 i hi, ← eids]; rfl
  have oth3 : ∀ i ∈ ids, (r3 i).ctx.otherIds = ids.erase i := fun i hi => by
    rw [er3 i hi, ← eids]; rfl
  constructor
  · intro h i hi
    have h := ideal_sends_good hI h
    refine (hall hi).1 ⟨fun j hj hne => ?_, ?_, ?_⟩
    · have := h 1 i le_rfl (by omega) hi (j, .one (m1 i j)) (by
        rw [(hstates i).1]
        exact List.mem_map.2 ⟨(j, m1 i j), List.mem_map.2 ⟨j, mem_bsetIter.2 (Finset.mem_erase.2 ⟨hne, hj⟩), rfl⟩, rfl⟩)
      rw [hmm i hi j hj hne.symm]
      exact this
    · obtain ⟨j, hj, hne⟩ := Finset.exists_mem_ne (by omega : 1 < ids.card) i
      have := h 2 i (by omega) (by omega) hi (j, .two (msg2 (r2 i))) (by
        rw [(hstates i).2.1]
        exact mem_toAll.2 ⟨by rw [oth2 i hi]; exact Finset.mem_erase.2 ⟨hne, hj⟩, rfl⟩)
      rw [er2 i hi] at this
      exact this
    · obtain ⟨j, hj, hne⟩ := Finset.exists_mem_ne (by omega : 1 < ids.card) i
      have := h 3 i (by omega) (by omega) hi (j, .three (r3 i).msg) (by
        rw [(hstates i).2.2.1]
        exact mem_toAll.2 ⟨by rw [oth3 i hi]; exact Finset.mem_erase.2 ⟨hne, hj⟩, rfl⟩)
      rw [er3 i hi] at this
      exact this
  · intro h
    refine sendsOnly_of_ideal hI fun k i g1 g2 hi a ha => ?_
    obtain ⟨a1, a2, a3⟩ := (hall hi).2 (h i hi)
    obtain rfl | rfl | rfl | rfl : k = 1 ∨ k = 2 ∨ k = 3 ∨ k = 4 := by omega
    · rw [(hstates i).1] at ha
      obtain ⟨x, hx, rfl⟩ := List.mem_map.1 ha
      obtain ⟨j, hj, rfl⟩ := List.mem_map.1 hx
      obtain ⟨hne, hj⟩ := Finset.mem_erase.1 (mem_bsetIter.1 hj)
      have := a1 j hj hne
      rw [hmm i hi j hj hne.symm] at this
      exact this
    · rw [(hstates i).2.1] at ha
      obtain ⟨j, m⟩ := a
      obtain ⟨-, rfl⟩ := mem_toAll.1 ha
      rw [er2 i hi]
      exact a2
    · rw [(hstates i).2.2.1] at ha
      obtain ⟨j, m⟩ := a
      obtain ⟨-, rfl⟩ := mem_toAll.1 ha
      rw [er3 i hi]
      exact a3
    · rw [(hstates i).2.2.2] at ha
      obtain ⟨j, m⟩ := a
      obtain ⟨-, rfl⟩ := mem_toAll.1 ha
      exact good_four _

end Synedrion.Signing
