import Verif.Lemmas.SigningRun
import Verif.Spec.SigningDamaged
import Verif.Props.ZkContext

/-!
# Lemmas about signing with key material that does not match that of the others
-/

set_option linter.unusedSectionVars false

namespace Synedrion

open Spec KeyRefresh

/-- A list of calls of which some fail, all of them in the same way -/
theorem Out.mapM'_some_fail {ε α β : Type} {f : α → Out ε β} {l : List α} {P : ε → Prop} (h : ∀ a ∈ l, (∃ b, f a = .ok b) ∨ ∃ e, P e ∧ f a = .err e)
    (hx : ∃ a ∈ l, ∃ e, f a = .err e) : ∃ e, P e ∧ Out.mapM' f l = .err e := by
  induction l with
  | nil => obtain ⟨a, ha, -⟩ := hx; cases ha
  | cons a l ih =>
    rcases h a (List.mem_cons_self ..) with ⟨b, hb⟩ | ⟨e, he, hb⟩
    · have : ∃ a ∈ l, ∃ e, f a = .err e := by
        obtain ⟨a', ha', e, he⟩ := hx
        rcases List.mem_cons.1 ha' with rfl | ha'
        · rw [hb] at he; cases he
        · exact ⟨a', ha', e, he⟩
      obtain ⟨e, he, hm⟩ := ih (fun a ha => h a (List.mem_cons_of_mem _ ha)) this
      exact ⟨e, he, by rw [Out.mapM', hb, Out.bind_ok, hm]; rfl⟩
    · exact ⟨e, he, by rw [Out.mapM', hb]; rfl⟩

/-- A round in which some of the messages are rejected, and the others accepted -/
theorem collect_some_fault {I M Pl E : Type} [LinearOrder I] {ids : Finset I} {i : I} {recv : I → M → Out (RecvErr E) Pl} {arr : List (I × M)} {msg : I → M}
    {P : I → E → Prop} (hp : FromOthers ids i msg arr) (h : ∀ j ∈ ids, j ≠ i → (∃ p, recv j (msg j) = .ok p) ∨ ∃ e, P j e ∧ recv j (msg j) = .err (.protocol e))
    (hx : ∃ j ∈ ids, j ≠ i ∧ ∃ e, recv j (msg j) = .err (.protocol e)) : ∃ j e, P j e ∧ j ∈ ids ∧ j ≠ i ∧ collect (ids.erase i) recv arr = .err (.fault j e) := by
  obtain ⟨nd, hm⟩ := hp
  have hset : (arr.map Prod.fst).toFinset = ids.erase i := by
    ext k
    simp only [List.mem_toFinset, List.mem_map, Finset.mem_erase]
    constructor
    · rintro ⟨a, ha, rfl⟩
      exact ⟨((hm a).1 ha).2.1, ((hm a).1 ha).1⟩
    · rintro ⟨h1, h2⟩
      exact ⟨(k, msg k), (hm _).2 ⟨h2, h1, rfl⟩, rfl⟩
  unfold collect
  rw [if_pos ⟨nd, hset⟩]
  obtain ⟨e, ⟨j, e', hPj, h1, h2, rfl⟩, he⟩ := Out.mapM'_some_fail (f := fun a : I × M => received a.1 (recv a.1 a.2)) (l := arr)
    (P := fun a => ∃ j e, P j e ∧ j ∈ ids ∧ j ≠ i ∧ a = .fault j e) (by
      intro a ha
      obtain ⟨h1, h2, h3⟩ := (hm a).1 ha
      rw [h3]
      rcases h a.1 h1 h2 with ⟨p, hp⟩ | ⟨e, he, hp⟩
      · exact .inl ⟨_, by rw [hp]; rfl⟩
      · exact .inr ⟨_, ⟨a.1, e, he, h1, h2, rfl⟩, by rw [hp]; rfl⟩) (by
      obtain ⟨j, hj, hne, e, he⟩ := hx
      exact ⟨(j, msg j), (hm _).2 ⟨hj, hne, rfl⟩, _, by rw [he]; rfl⟩)
  exact ⟨j, e', hPj, h1, h2, by rw [he]; rfl⟩

variable {q : Nat} [Fact q.Prime] {I Ep G : Type} [LinearOrder I] [AddCommGroup G] [Module (ZMod q) G] [DecidableEq G]

/-- Replacing the point `X` in an accepted statement (and in the challenge) leaves only the check on the curve. -/
theorem AffGProof.verify_replace {ε Aux : Type} (P : Params) (H : AffGHash G Aux → ZMod q) (g : G) {N0 N1 Nh : Nat} (prf : AffGProof q G) (pub : AffGPublic N0 N1 G) (x : ZMod q)
    (setup : RPParams Nh) (aux : Aux)
    (h : (prf.verify P (fun h => H { h with capX := pub.capX }) g { pub with capX := x • g } setup aux : Out ε _) = .ok true) :
    (prf.verify P H g pub setup aux : Out ε _) = .ok (decide (x • g = pub.capX ∨ prf.e = 0)) := by
  simp only [AffGProof.verify] at h ⊢
  obtain ⟨h1, h⟩ := Out.check_eq_true.1 h
  obtain ⟨h2, h⟩ := Out.check_eq_true.1 h
  obtain ⟨h3, h⟩ := Out.check_eq_true.1 h
  have h1' := of_decide_eq_true h1
  have h1'' : H (affGHash prf.capA prf.capBx prf.capBy prf.capE prf.capF prf.capS prf.capT pub setup aux) = prf.e := h1'
  obtain ⟨cz, h4, h⟩ := Out.bind_eq_ok.1 h
  obtain ⟨de, h5, h⟩ := Out.bind_eq_ok.1 h
  obtain ⟨h6, h⟩ := Out.check_eq_true.1 h
  obtain ⟨h7, h⟩ := Out.check_eq_true.1 h
  have h7 := of_decide_eq_true h7
  rw [decide_eq_true h1'', Out.check_true, h2, Out.check_true, h3, Out.check_true, h4, Out.bind_ok]
  refine (congrArg (fun o => Out.bind o _) h5).trans ?_
  rw [Out.bind_ok]
  refine (congrArg (fun b => Out.check b _) h6).trans ?_
  rw [Out.check_true]
  have hc : (scalarOfSigned q prf.z1 • g = prf.capBx + H (affGHash prf.capA prf.capBx prf.capBy prf.capE prf.capF prf.capS prf.capT pub setup aux) • pub.capX) ↔
      (x • g = pub.capX ∨ prf.e = 0) := by
    rw [h7, h1'', add_right_inj]
    change H (affGHash prf.capA prf.capBx prf.capBy prf.capE prf.capF prf.capS prf.capT pub setup aux) • x • g = _ ↔ _
    rw [h1'', ← sub_eq_zero, ← smul_sub]
    constructor
    · intro h0
      by_cases he : prf.e = 0
      · exact .inr he
      · left
        have := congrArg (fun y => prf.e⁻¹ • y) h0
        simp only [smul_smul, inv_mul_cancel₀ he, one_smul, smul_zero] at this
        exact sub_eq_zero.1 this
    · rintro (h0 | h0)
      · rw [h0, sub_self, smul_zero]
      · rw [h0, zero_smul]
  rw [decide_eq_decide.2 hc]
  by_cases hd : x • g = pub.capX ∨ prf.e = 0
  · rw [decide_eq_true hd, Out.check_true]
    exact h
  · rw [decide_eq_false hd, Out.check_false]

namespace Signing

/-- A multiplication by a party whose scalar `x` does not belong to the published `capX` -/
theorem mtaSend_other {E : Env q I Ep G} (hE : SigningSetting E) {c : Context q I Ep G} {target : PubAux} (hkeys : MtaKeys E.P target.pk c.key.modulus target.rp) {capK : Cipher}
    {k : Int} (hK : capK.Holds target.pk k) (x : ZMod q) (capX : G) (d : MtaDraws I) (j : I) (hd : MtaDrawsValid E.P target.pk c.key.modulus target.rp.modulus d j) :
    ∃ out : MtaOut q G, mtaSend E c target capK (signedI E.P x) capX d j = .ok out ∧
      out.capD.Holds target.pk ((signedI E.P x).val * k - (d.beta j).val) ∧ out.capF.Holds c.key.modulus (d.beta j).val ∧
      (∀ ε, (affGVerify E target.pk c.key.modulus out.psi capK out.capD out.capF capX target.rp (c.epid, c.myId) : Out ε _) =
        .ok (decide (x • E.C.g = capX ∨ out.psi.e = 0))) ∧
      ∃ h, out.psi.e = E.affH h ∧ h.aux = (c.epid, c.myId) ∧ h.capX = capX := by
  let E' : Env q I Ep G := { E with affH := fun h => E.affH { h with capX := capX } }
  have hE' : SigningSetting E' := ⟨hE.consistent, hE.curve, hE.order, hE.odd, hE.laws⟩
  obtain ⟨out, h1, h2, h3, -, -, h4⟩ := mtaSend_honest hE' (c := c) (target := target) hkeys hK x d j hd
  refine ⟨out, h1, h2, h3, fun ε => ?_, ?_⟩
  rotate_left
  · have h4 := h4 Unit
    unfold affGVerify at h4
    obtain ⟨c', -, h4⟩ := Out.bind_eq_ok.1 h4
    obtain ⟨d', -, h4⟩ := Out.bind_eq_ok.1 h4
    obtain ⟨y', -, h4⟩ := Out.bind_eq_ok.1 h4
    simp only [AffGProof.verify] at h4
    exact ⟨_, (of_decide_eq_true (Out.check_eq_true.1 h4).1).symm, rfl, rfl⟩
  have h4 := h4 ε
  unfold affGVerify at h4 ⊢
  obtain ⟨c', hc, h4⟩ := Out.bind_eq_ok.1 h4
  obtain ⟨d', hd', h4⟩ := Out.bind_eq_ok.1 h4
  obtain ⟨y', hy, h4⟩ := Out.bind_eq_ok.1 h4
  rw [hc, Out.bind_ok, hd', Out.bind_ok, hy, Out.bind_ok]
  exact AffGProof.verify_replace E.P E.affH E.C.g out.psi ⟨c', d', y', capX⟩ x target.rp.rp (c.epid, c.myId) h4

namespace Run

variable (S : Run q I Ep G) (x : I → ZMod q)

/-- The share of a party with another secret -/
def shareWith (i : I) : KeyShare I (ZMod q) G := { S.shares i with secret := x i }

/-- The state of a party that uses the secrets `x` -/
def ctxWith (i : I) : Context q I Ep G := { S.ctx i with keyShare := S.shareWith x i }

def r1With (i : I) : Round1 q I Ep G := ⟨S.ctxWith x i, S.echo i⟩

/-- What belongs to the multiplication with the share -/
structure HatDone (i j : I) (o : MtaOut q G) : Prop where
  sent : mtaSend S.E (S.ctxWith x i) ⟨S.N j, S.setup j⟩ ⟨S.N j, S.capK j⟩ (signedI S.E.P (x i)) ((S.shares i).secret • S.E.C.g) (S.d i).hatMta j = .ok o
  capD : o.capD.Holds (S.N j) ((signedI S.E.P (x i)).val * (signedI S.E.P (S.d j).k).val - ((S.d i).hatMta.beta j).val)
  capF : o.capF.Holds (S.N i) ((S.d i).hatMta.beta j).val
  verdict : ∀ ε, (affGVerify S.E (S.N j) (S.N i) o.psi ⟨S.N j, S.capK j⟩ o.capD o.capF ((S.shares i).secret • S.E.C.g) (S.setup j) (S.epid, i) : Out ε _) =
    .ok (decide (x i • S.E.C.g = (S.shares i).secret • S.E.C.g ∨ o.psi.e = 0))
  hash : ∃ h, o.psi.e = S.E.affH h ∧ h.aux = (S.epid, i) ∧ h.capX = (S.shares i).secret • S.E.C.g

variable {S x} {sk : ZMod q}

theorem Good.hatDone (h : S.Good sk) {i j : I} (hi : i ∈ S.ids) (hj : j ∈ S.ids) (hij : i ≠ j) : ∃ o, S.HatDone x i j o := by
  have hkeys : MtaKeys S.E.P (S.N j) (S.N i) (S.setup j) := ⟨h.pos hj, h.pos hi, h.rpPos j hj, h.rpSize j hj, h.rpValid j hj⟩
  obtain ⟨o, h1, h2, h3, h4, h5⟩ := mtaSend_other h.setting (c := S.ctxWith x i) (target := ⟨S.N j, S.setup j⟩) hkeys (h.capK_holds hj) (x i) ((S.shares i).secret • S.E.C.g)
    (S.d i).hatMta j (h.draws.hatMta i hi j hj hij)
  exact ⟨o, h1, h2, h3, h4, h5⟩

/-- Both multiplications -/
structure AllDone (S : Run q I Ep G) (x : I → ZMod q) (o : I → I → MtaOut q G × MtaOut q G) : Prop where
  mta : ∀ i ∈ S.ids, ∀ j ∈ S.ids, i ≠ j → S.MtaDone i j (S.d i).gamma (S.d i).mta (o i j).1
  hatMta : ∀ i ∈ S.ids, ∀ j ∈ S.ids, i ≠ j → S.HatDone x i j (o i j).2

theorem Good.allDone (h : S.Good sk) (x : I → ZMod q) : ∃ o, S.AllDone x o := by
  have hall : ∀ i j, ∃ o : MtaOut q G × MtaOut q G, i ∈ S.ids → j ∈ S.ids → i ≠ j → S.MtaDone i j (S.d i).gamma (S.d i).mta o.1 ∧ S.HatDone x i j o.2 := by
    intro i j
    by_cases hij : i ∈ S.ids ∧ j ∈ S.ids ∧ i ≠ j
    · obtain ⟨hi, hj, hne⟩ := hij
      obtain ⟨o1, h1⟩ := h.mta hi hj (S.d i).gamma (S.d i).mta (h.draws.mta i hi j hj hne)
      obtain ⟨o2, h2⟩ := h.hatDone (x := x) hi hj hne
      exact ⟨(o1, o2), fun _ _ _ => ⟨h1, h2⟩⟩
    · have p : MtaOut q G := ⟨⟨0, 0⟩, ⟨0, 0⟩, ⟨0, 0, 0, 0, 0, 0, 0, 0, ⟨0, 0⟩, ⟨0, 0⟩, ⟨0, 0⟩, ⟨0, 0⟩, 0, 0⟩⟩
      exact ⟨(p, p), fun hi hj hne => absurd ⟨hi, hj, hne⟩ hij⟩
  choose o ho using hall
  exact ⟨o, fun i hi j hj hne => (ho i j hi hj hne).1, fun i hi j hj hne => (ho i j hi hj hne).2⟩

def r2With (S : Run q I Ep G) (x : I → ZMod q) (o : I → I → MtaOut q G × MtaOut q G) (i : I) : Round2 q I Ep G :=
  ⟨S.ctxWith x i, BMap.tabulate S.ids S.pl1, (S.d i).gamma • S.E.C.g, S.psiElog i, BMap.tabulate (S.ids.erase i) (o i)⟩

variable {o : I → I → MtaOut q G × MtaOut q G}

theorem Good.finalize1With (h : S.Good sk) (ho : S.AllDone x o) {i : I} (hi : i ∈ S.ids) :
    Signing.finalize1 S.E (S.r1With x i) (BMap.tabulate (S.ids.erase i) S.pl1) = .ok (S.r2With x o i) := by
  have hE := h.setting
  unfold Signing.finalize1
  have hpay : (S.r1With x i).echo.payload (S.r1With x i).ctx.key.modulus = S.pl1 i := h.payload_eq hi
  simp only [hpay]
  simp only [r1With, ctxWith, shareWith, ctx, finGet, signedOfSecret_ok hE, Out.bind_ok, BMap.insert_tabulate_erase hi, h.keys.public_matches i hi i hi, Out.ofOption_some]
  rw [buildMap_ok (v := o i), Out.bind_ok]
  · rfl
  · intro j hj
    obtain ⟨hne, hj⟩ := Finset.mem_erase.1 hj
    simp only [pubAux, BMap.get?_tabulate, hj, if_true, Out.ofOption_some, Out.bind_ok]
    have h1 := (ho.mta i hi j hj (Ne.symm hne)).sent
    have h2 := (ho.hatMta i hi j hj (Ne.symm hne)).sent
    refine (congrArg (fun x => Out.bind x _) h1).trans ?_
    rw [Out.bind_ok]
    refine (congrArg (fun x => Out.bind x _) h2).trans ?_
    rw [Out.bind_ok]

/-- The check of the proofs about the share: it succeeds if every proof is accepted, and otherwise blames the sender. -/
theorem Good.hatVerify (h : S.Good sk) (ho : S.AllDone x o) {i j : I} (hi : i ∈ S.ids) {capX : Out (RecvErr (Err I)) G} (hX : capX = .ok ((S.shares i).secret • S.E.C.g)) :
    ((x i • S.E.C.g = (S.shares i).secret • S.E.C.g ∨ ∀ k ∈ S.ids, k ≠ i → (o i k).2.psi.e = 0) →
      Signing.mtaVerify S.E (S.ctxWith x j) (BMap.tabulate S.ids S.pl1) i (S.N i) capX .r2AffGHatPsiFailed (BMap.tabulate (S.ids.erase i) fun k => (o i k).2.psi)
        (BMap.tabulate (S.ids.erase i) fun k => (o i k).2.capD.toWire) (BMap.tabulate (S.ids.erase i) fun k => (o i k).2.capF.toWire) =
        .ok (BMap.tabulate (S.ids.erase i) fun k => ((o i k).2.capD, (o i k).2.capF))) ∧
    (x i • S.E.C.g ≠ (S.shares i).secret • S.E.C.g → (∃ k ∈ S.ids, k ≠ i ∧ (o i k).2.psi.e ≠ 0) →
      ∃ k, Signing.mtaVerify S.E (S.ctxWith x j) (BMap.tabulate S.ids S.pl1) i (S.N i) capX .r2AffGHatPsiFailed (BMap.tabulate (S.ids.erase i) fun k => (o i k).2.psi)
        (BMap.tabulate (S.ids.erase i) fun k => (o i k).2.capD.toWire) (BMap.tabulate (S.ids.erase i) fun k => (o i k).2.capF.toWire) =
        .err (.protocol (.r2AffGHatPsiFailed k))) := by
  have key : ∀ k ∈ S.ids, k ≠ i →
      ((recvGet (S.ctxWith x j).pubAux k).bind fun target => (recvGet (BMap.tabulate S.ids S.pl1) k).bind fun p =>
        (recvGet (BMap.tabulate (S.ids.erase i) fun k => (o i k).2.capD.toWire) k).bind fun d =>
        (recvGet (BMap.tabulate (S.ids.erase i) fun k => (o i k).2.capF.toWire) k).bind fun f =>
        capX.bind fun capX => let capD := Cipher.ofWire target.pk d
          let capF := Cipher.ofWire (S.N i) f
          (affGVerify S.E target.pk (S.N i) (o i k).2.psi p.capK capD capF capX target.rp ((S.ctxWith x j).epid, i)).bind fun ok =>
            if ¬ ok then .err (.protocol (Err.r2AffGHatPsiFailed k)) else .ok (capD, capF)) =
      if x i • S.E.C.g = (S.shares i).secret • S.E.C.g ∨ (o i k).2.psi.e = 0 then .ok ((o i k).2.capD, (o i k).2.capF) else .err (.protocol (Err.r2AffGHatPsiFailed k)) := by
    intro k hk hne
    have hd := ho.hatMta i hi k hk (Ne.symm hne)
    have hk' : k ∈ S.ids.erase i := Finset.mem_erase.2 ⟨hne, hk⟩
    simp only [recvGet, ctxWith, ctx, pubAux, BMap.get?_tabulate, hk, hk', hX, if_true, Out.ofOption_some, Out.bind_ok]
    rw [ofWire_toWire' (h.pos hk) hd.capD.pk, ofWire_toWire' (h.pos hi) hd.capF.pk]
    refine (congrArg (fun x => Out.bind x _) (hd.verdict _)).trans ?_
    rw [Out.bind_ok]
    by_cases hc : x i • S.E.C.g = (S.shares i).secret • S.E.C.g ∨ (o i k).2.psi.e = 0
    · rw [if_pos hc, decide_eq_true hc, if_neg (by simp)]
    · rw [if_neg hc, decide_eq_false hc, if_pos (by simp)]
  constructor
  · intro hx
    unfold Signing.mtaVerify
    apply traverse_tabulate_ok
    intro k hk
    obtain ⟨hne, hk'⟩ := Finset.mem_erase.1 hk
    rw [key k hk' hne, if_pos (hx.imp_right fun h0 => h0 k hk' hne)]
  · rintro hx ⟨k, hk, hne, he⟩
    unfold Signing.mtaVerify BMap.traverse
    obtain ⟨e, ⟨k', rfl⟩, hm⟩ := Out.mapM'_some_fail
      (f := fun e : I × AffGProof q G => ((recvGet (S.ctxWith x j).pubAux e.1).bind fun target => (recvGet (BMap.tabulate S.ids S.pl1) e.1).bind fun p =>
        (recvGet (BMap.tabulate (S.ids.erase i) fun k => (o i k).2.capD.toWire) e.1).bind fun d =>
        (recvGet (BMap.tabulate (S.ids.erase i) fun k => (o i k).2.capF.toWire) e.1).bind fun f =>
        capX.bind fun capX => let capD := Cipher.ofWire target.pk d
          let capF := Cipher.ofWire (S.N i) f
          (affGVerify S.E target.pk (S.N i) e.2 p.capK capD capF capX target.rp ((S.ctxWith x j).epid, i)).bind fun ok =>
            if ¬ ok then .err (.protocol (Err.r2AffGHatPsiFailed e.1)) else .ok (capD, capF)).bind fun w => .ok (e.1, w))
      (l := (BMap.tabulate (S.ids.erase i) fun k => (o i k).2.psi).entries) (P := fun e => ∃ k, e = RecvErr.protocol (Err.r2AffGHatPsiFailed k)) (by
        intro a ha
        obtain ⟨k, hk, rfl⟩ := List.mem_map.1 ha
        obtain ⟨hne, hk'⟩ := Finset.mem_erase.1 (mem_bsetIter.1 hk)
        simp only
        rw [key k hk' hne]
        split
        · exact .inl ⟨_, rfl⟩
        · exact .inr ⟨_, ⟨k, rfl⟩, rfl⟩) ⟨(k, (o i k).2.psi), List.mem_map.2 ⟨k, mem_bsetIter.2 (Finset.mem_erase.2 ⟨hne, hk⟩), rfl⟩, .protocol (.r2AffGHatPsiFailed k), by
        simp only
        rw [key k hk hne, if_neg (by rintro (h0 | h0); exacts [hx h0, he h0])]; rfl⟩
    exact ⟨k', (congrArg (fun x => Out.bind x _) hm).trans rfl⟩

/-- The sender `i` used another secret, and some challenge is not zero: then its proofs are rejected. -/
def Noticed (S : Run q I Ep G) (x : I → ZMod q) (o : I → I → MtaOut q G × MtaOut q G) (i : I) : Prop :=
  x i • S.E.C.g ≠ (S.shares i).secret • S.E.C.g ∧ ∃ k ∈ S.ids, k ≠ i ∧ (o i k).2.psi.e ≠ 0

theorem Good.recv2With (h : S.Good sk) (ho : S.AllDone x o) {i j : I} (hi : i ∈ S.ids) (hj : j ∈ S.ids) (hij : i ≠ j) :
    (¬ S.Noticed x o i → ∃ p, Signing.recv2 S.E (S.r2With x o j) i (msg2 (S.r2With x o i)) = .ok p) ∧
    (S.Noticed x o i → ∃ k, Signing.recv2 S.E (S.r2With x o j) i (msg2 (S.r2With x o i)) = .err (.protocol (.r2AffGHatPsiFailed k))) := by
  have hmsg : msg2 (S.r2With x o i) = ⟨⟨(S.d i).gamma • S.E.C.g, BMap.tabulate (S.ids.erase i) fun k => (o i k).1.capF.toWire,
      BMap.tabulate (S.ids.erase i) fun k => (o i k).2.capF.toWire⟩, BMap.tabulate (S.ids.erase i) fun k => (o i k).1.capD.toWire,
      BMap.tabulate (S.ids.erase i) fun k => (o i k).2.capD.toWire, S.psiElog i, BMap.tabulate (S.ids.erase i) fun k => (o i k).1.psi,
      BMap.tabulate (S.ids.erase i) fun k => (o i k).2.psi⟩ := by
    unfold msg2 r2With
    simp only [mapVals_tabulate]
  rw [hmsg]
  unfold Signing.recv2
  have hexp : (S.r2With x o j).ctx.allIds.erase i = S.ids.erase i := rfl
  have hpa : (S.r2With x o j).ctx.pubAux = S.pubAux := rfl
  have hp1 : (S.r2With x o j).payloads1 = BMap.tabulate S.ids S.pl1 := rfl
  have hme : (S.r2With x o j).ctx.myId = j := rfl
  have hkey : (S.r2With x o j).ctx.key = S.key j := rfl
  have hep : (S.r2With x o j).ctx.epid = S.epid := rfl
  have hks : (S.r2With x o j).ctx.keyShare.pub = (S.shares j).pub := rfl
  simp only [hexp, hpa, hp1, hme, hkey, hep, hks, recvGet, pubAux, BMap.get?_tabulate, hi, if_true, Out.ofOption_some, Out.bind_ok, BMap.keySet_tabulate, ne_eq, not_true, if_false]
  have hv1 := h.mtaVerify (j := j) hi (o := fun k => (o i k).1) (ho.mta i hi) .r2AffGPsiFailed (capX := .ok ((S.d i).gamma • S.E.C.g)) rfl
  obtain ⟨hv2, hv3⟩ := h.hatVerify (j := j) ho hi (capX := recvGet (S.shares j).pub i)
    (by unfold recvGet; rw [h.keys.public_matches j hj i hi, Out.ofOption_some])
  constructor
  · intro hn
    have hn' : x i • S.E.C.g = (S.shares i).secret • S.E.C.g ∨ ∀ k ∈ S.ids, k ≠ i → (o i k).2.psi.e = 0 := by
      by_contra hc
      push Not at hc
      exact hn hc
    have hv2 := hv2 hn'
    have helog : (S.psiElog i).verify S.E.elogH S.E.C.g ((S.pl1 i).elogPub S.E.C.g ((S.d i).gamma • S.E.C.g)) (S.epid, i) = true := by
      apply Props.C26_complete
      refine ⟨rfl, ?_, rfl⟩
      show (S.d i).b • (S.d i).y • S.E.C.g + (S.d i).gamma • S.E.C.g = (S.d i).gamma • S.E.C.g + (S.d i).b • (S.d i).y • S.E.C.g
      abel
    have hjm : j ∈ S.ids.erase i := Finset.mem_erase.2 ⟨Ne.symm hij, hj⟩
    have hw : S.E.P.modBits ≤ S.E.P.uint := h.setting.consistent.2.1.2.2.1
    have hdec := (ho.hatMta i hi j hj hij).capD.decrypt (ε := RecvErr (Err I)) (P := S.E.P) (h.key j hj) (h.size j hj) hw (by
      have h1 := mta_bound h.setting (signedI_abs h.setting (x i)) (signedI_abs h.setting (S.d j).k) (h.draws.hatMta i hi j hj hij).beta.2
      have h2 : ((2 ^ (S.E.P.modBits - 2) : Nat) : Int) ≤ (S.N j : Int) := by exact_mod_cast h.big j hj
      push_cast at h2
      exact lt_of_lt_of_le h1 h2)
    have step : ∀ {a b : Out (RecvErr (Err I)) (Payload2 q I G)}, a = b → (∃ p, b = .ok p) → ∃ p, a = .ok p := by
      rintro _ _ rfl h; exact h
    refine step (congrArg (fun x => Out.bind x _) hv1) ?_
    rw [Out.bind_ok]
    refine step (congrArg (fun x => Out.bind x _) hv2) ?_
    rw [Out.bind_ok, helog]
    simp only [not_true, if_false, BMap.get?_tabulate, hjm, if_true, Out.ofOption_some, Out.bind_ok, mapVals_tabulate]
    rw [h.decrypt hj (ho.mta i hi j hj hij) (h.draws.mta i hi j hj hij).beta, Out.bind_ok]
    refine step (congrArg (fun x => Out.bind x _) hdec) ?_
    exact ⟨_, rfl⟩
  · rintro ⟨hx, hk⟩
    obtain ⟨k, hk⟩ := hv3 hx hk
    refine ⟨k, (congrArg (fun x => Out.bind x _) hv1).trans ?_⟩
    rw [Out.bind_ok]
    exact (congrArg (fun x => Out.bind x _) hk).trans rfl

end Run

/-- Rounds 1 and 2 of a run with other secrets -/
theorem Run.with_rounds {S : Run q I Ep G} {sk : ZMod q} (good : S.Good sk) (x : I → ZMod q) :
    ∃ (m1 : I → I → Msg1 q G) (o : I → I → MtaOut q G × MtaOut q G), S.AllDone x o ∧
      (∀ i ∈ S.ids, ∀ j ∈ S.ids, i ≠ j → msg1 S.E (S.r1With x i) j = .ok (m1 i j)) ∧
      ∀ in1 : I → List (I × Msg1 q G), (∀ i ∈ S.ids, FromOthers S.ids i (fun j => m1 j i) (in1 i)) →
        (∀ i ∈ S.ids, toRound2 S.E (S.r1With x i) (in1 i) = .ok (S.r2With x o i)) ∧
        ∀ in2 : I → List (I × Msg2 q I G), (∀ i ∈ S.ids, FromOthers S.ids i (fun j => msg2 (S.r2With x o j)) (in2 i)) →
          ∀ j ∈ S.ids, (∃ i ∈ S.ids, i ≠ j ∧ S.Noticed x o i) →
            ∃ i k, S.Noticed x o i ∧ i ∈ S.ids ∧ i ≠ j ∧ toRound3 S.E (S.r1With x j) (in1 j) (in2 j) = .err (.fault i (.r2AffGHatPsiFailed k)) := by
  have hm1 : ∀ i j, ∃ m : Msg1 q G, i ∈ S.ids → j ∈ S.ids → i ≠ j → S.Sent1 i j m := by
    intro i j
    by_cases hij : i ∈ S.ids ∧ j ∈ S.ids ∧ i ≠ j
    · obtain ⟨m, hm⟩ := good.sent1 hij.1 hij.2.1 hij.2.2
      exact ⟨m, fun _ _ _ => hm⟩
    · have p : EncElgProof q G := ⟨0, 0, 0, 0, 0, 0, ⟨0, 0⟩, 0, 0, ⟨0, 0⟩⟩
      exact ⟨⟨⟨0, 0, 0, 0, 0, 0, 0⟩, p, p⟩, fun a b c => absurd ⟨a, b, c⟩ hij⟩
  choose m1 hm1 using hm1
  obtain ⟨o, ho⟩ := good.allDone x
  have hsent : ∀ i ∈ S.ids, ∀ j ∈ S.ids, i ≠ j → msg1 S.E (S.r1With x i) j = .ok (m1 i j) := fun i hi j hj hij => (hm1 i j hi hj hij).sent
  refine ⟨m1, o, ho, hsent, fun in1 h1 => ?_⟩
  have t2 : ∀ i ∈ S.ids, toRound2 S.E (S.r1With x i) (in1 i) = .ok (S.r2With x o i) := by
    intro i hi
    unfold toRound2
    have hsend : send1 S.E (S.r1With x i) = .ok ((bsetIter (S.ids.erase i)).map fun j => (j, m1 i j)) := by
      unfold send1
      refine Out.mapM'_ok_of_forall (g := fun j => (j, m1 i j)) fun j hj => ?_
      obtain ⟨hne, hj⟩ := Finset.mem_erase.1 (mem_bsetIter.1 hj)
      rw [finalizeResult_eq_ok.2 (hsent i hi j hj (Ne.symm hne)), Out.bind_ok]
    rw [hsend, Out.bind_ok]
    have hc := collect_others (h1 i hi) (recv := recv1 S.E (S.ctxWith x i)) (pl := S.pl1) (fun j hj hne => (hm1 j i hj hi hne).accepted)
    refine (congrArg (fun x => Out.bind x _) hc).trans ?_
    rw [Out.bind_ok]
    exact finalizeResult_eq_ok.2 (good.finalize1With ho hi)
  refine ⟨t2, fun in2 h2 j hj hn => ?_⟩
  obtain ⟨i, e, ⟨hni, k, rfl⟩, hi, hij, hc⟩ := collect_some_fault (h2 j hj) (recv := recv2 S.E (S.r2With x o j))
    (P := fun i e => S.Noticed x o i ∧ ∃ k, e = Err.r2AffGHatPsiFailed k) (by
      intro i hi hne
      obtain ⟨a, b⟩ := good.recv2With ho hi hj hne
      by_cases hni : S.Noticed x o i
      · obtain ⟨k, hk⟩ := b hni
        exact .inr ⟨_, ⟨hni, k, rfl⟩, hk⟩
      · exact .inl (a hni)) (by
      obtain ⟨i, hi, hne, hni⟩ := hn
      obtain ⟨k, hk⟩ := (good.recv2With ho hi hj hne).2 hni
      exact ⟨i, hi, hne, _, hk⟩)
  refine ⟨i, k, hni, hi, hij, ?_⟩
  unfold toRound3
  rw [t2 j hj, Out.bind_ok]
  exact (congrArg (fun x => Out.bind x _) hc).trans rfl

section
variable (E : Env q I Ep G) (hE : SigningSetting E) (epidOf : BMap I G → BMap I PublicAux → Ep) (message sk : ZMod q) (ids : Finset I)
  (shares : I → KeyShare I (ZMod q) G) (hshares : SharesKey E.C.g ids shares sk) (infos : I → AuxInfo I PaillierKey PublicAux) (setup : I → RPSetup)
  (haux : UsableAux E.P ids infos setup) (d : I → Draws q I) (x : I → ZMod q)

include hE hshares haux in
theorem with_start {i : I} (hi : i ∈ ids) :
    start E epidOf message { shares i with secret := x i } (infos i) i (d i) = .ok ((honest E epidOf message ids shares infos setup d).r1With x i) := by
  have h := honest_start E hE epidOf message sk ids shares hshares infos setup haux d hi
  unfold start at h ⊢
  simp only at h ⊢
  by_cases ho : i ≠ (shares i).owner ∨ i ≠ (infos i).owner
  · rw [if_pos ho] at h; cases h
  rw [if_neg ho] at h ⊢
  obtain ⟨a, ha, h⟩ := Out.bind_eq_ok.1 h
  obtain ⟨b, hb, h⟩ := Out.bind_eq_ok.1 h
  obtain ⟨c, hc, h⟩ := Out.bind_eq_ok.1 h
  obtain ⟨e, he, h⟩ := Out.bind_eq_ok.1 h
  obtain ⟨f, hf, h⟩ := Out.bind_eq_ok.1 h
  rw [ha, Out.bind_ok, hb, Out.bind_ok, hc, Out.bind_ok, he, Out.bind_ok, hf, Out.bind_ok]
  have h := Out.ok.inj h
  refine congrArg Out.ok ?_
  have h1 := congrArg Round1.ctx h
  have h2 := congrArg Round1.echo h
  unfold Run.r1With Run.ctxWith Run.shareWith
  simp only [Run.r1] at h1 h2
  rw [← h1, ← h2]
  rfl

end

/-- A proof of round 1 answers the challenge for what its sender put into it. -/
theorem msg1_challenge {E : Env q I Ep G} {r : Round1 q I Ep G} {j : I} {m : Msg1 q G} (h : msg1 E r j = .ok m) :
    ∃ target, r.ctx.pubAux.get? j = some target ∧
      m.psi0.e = E.encH (encInput r.ctx.epid r.ctx.myId r.ctx.key.modulus target.rp.rp.toWire m) := by
  unfold msg1 at h
  obtain ⟨k, hk, h⟩ := Out.bind_eq_ok.1 h
  obtain ⟨target, ht, h⟩ := Out.bind_eq_ok.1 h
  obtain ⟨psi0, h0, h⟩ := Out.bind_eq_ok.1 h
  obtain ⟨gamma, hg, h⟩ := Out.bind_eq_ok.1 h
  obtain ⟨psi1, h1, h⟩ := Out.bind_eq_ok.1 h
  rw [← Out.ok.inj h]
  refine ⟨target, Out.ofOption_eq_ok.1 ht, ?_⟩
  unfold EncElgProof.prove at h0
  obtain ⟨-, -, h0⟩ := Out.bind_eq_ok.1 h0
  obtain ⟨capS, -, h0⟩ := Out.bind_eq_ok.1 h0
  obtain ⟨capD, -, h0⟩ := Out.bind_eq_ok.1 h0
  simp only at h0
  obtain ⟨capT, -, h0⟩ := Out.bind_eq_ok.1 h0
  obtain ⟨z1, -, h0⟩ := Out.bind_eq_ok.1 h0
  obtain ⟨z2, -, h0⟩ := Out.bind_eq_ok.1 h0
  obtain ⟨z3, -, h0⟩ := Out.bind_eq_ok.1 h0
  rw [← Out.ok.inj h0]
  rfl

theorem recv1_other {E : Env q I Ep G} {c : Context q I Ep G} {i : I} {m : Msg1 q G} {mine theirs : PubAux} (hm : c.pubAux.get? c.myId = some mine)
    (ht : c.pubAux.get? i = some theirs) (hne : E.encH (encInput c.epid i theirs.pk mine.rp.rp.toWire m) ≠ m.psi0.e) :
    recv1 E c i m = .err (.protocol .r1EncElg0Failed) := by
  unfold recv1
  rw [recvGet, hm, Out.ofOption_some, Out.bind_ok, recvGet, ht, Out.ofOption_some, Out.bind_ok]
  simp only
  rw [Props.C34_enc_elg_rejected _ _ _ _ _ _ hne, Out.bind_ok, if_pos (by simp)]

end Signing
end Synedrion
