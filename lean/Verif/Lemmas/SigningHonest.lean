import Verif.Lemmas.SigningMta
import Verif.Lemmas.KeyRefresh
import Verif.Props.ZkCurve

/-!
# Lemmas about interactive signing: runs of honest parties
-/

set_option linter.unusedSectionVars false

namespace Synedrion.Signing

open Spec KeyRefresh

variable {q : Nat} [Fact q.Prime] {I Ep G : Type} [LinearOrder I] [AddCommGroup G] [Module (ZMod q) G] [DecidableEq G]

/-- What determines a run of honest parties -/
structure Run (q : Nat) (I Ep G : Type) [LinearOrder I] where
  E : Env q I Ep G
  message : ZMod q
  epid : Ep
  ids : Finset I
  shares : I → KeyShare I (ZMod q) G
  key : I → PaillierKey
  setup : I → RPSetup
  d : I → Draws q I

namespace Run

/-- The Paillier modulus of a party -/
def N (S : Run q I Ep G) (i : I) : Nat := (S.key i).modulus

/-- The conditions on an honest run -/
structure Good (S : Run q I Ep G) (sk : ZMod q) : Prop where
  setting : SigningSetting S.E
  keys : SharesKey S.E.C.g S.ids S.shares sk
  key : ∀ i ∈ S.ids, KeyFacts (S.key i).sk
  size : ∀ i ∈ S.ids, S.N i < 2 ^ S.E.P.modBits
  big : ∀ i ∈ S.ids, 2 ^ (S.E.P.modBits - 2) ≤ S.N i
  rpPos : ∀ i ∈ S.ids, 0 < (S.setup i).modulus
  rpSize : ∀ i ∈ S.ids, (S.setup i).modulus < 2 ^ S.E.P.modBits
  rpValid : ∀ i ∈ S.ids, (S.setup i).rp.Valid
  draws : SigningDrawsValid S.E.P S.ids S.N (fun j => (S.setup j).modulus) S.d

variable (S : Run q I Ep G)

def pubAux : BMap I PubAux := BMap.tabulate S.ids fun j => ⟨S.N j, S.setup j⟩

def ctx (i : I) : Context q I Ep G := ⟨S.message, S.epid, i, S.ids.erase i, S.ids, S.shares i, S.key i, S.pubAux, S.d i⟩

/-- The ciphertext of `k` -/
def capK (i : I) : Ct (S.N i) := oneAdd (S.N i) (signedI S.E.P (S.d i).k).val * ((S.d i).rho : Ct (S.N i)) ^ S.N i

/-- The ciphertext of `gamma` -/
def capG (i : I) : Ct (S.N i) := oneAdd (S.N i) (signedI S.E.P (S.d i).gamma).val * ((S.d i).nu : Ct (S.N i)) ^ S.N i

def echo (i : I) : Echo1 G :=
  let g := S.E.C.g
  let capY := (S.d i).y • g
  ⟨ctToWire (S.capK i), ctToWire (S.capG i), capY, (S.d i).a • g, (S.d i).a • capY + (S.d i).k • g, (S.d i).b • g, (S.d i).b • capY + (S.d i).gamma • g⟩

def r1 (i : I) : Round1 q I Ep G := ⟨S.ctx i, S.echo i⟩

/-- The payload of party `i` in round 1 -/
def pl1 (i : I) : Payload1 G :=
  let e := S.echo i
  ⟨⟨S.N i, S.capK i⟩, e.capY, e.capA1, e.capA2, e.capB1, e.capB2⟩

/-- The messages of round 1 between two parties: the proofs are made and accepted. -/
structure Sent1 (i j : I) (m : Msg1 q G) : Prop where
  sent : msg1 S.E (S.r1 i) j = .ok m
  accepted : recv1 S.E (S.ctx j) i m = .ok (S.pl1 i)

variable {S} {sk : ZMod q}

section
variable (h : S.Good sk)
include h

theorem Good.pos {i : I} (hi : i ∈ S.ids) : 0 < S.N i := lt_of_lt_of_le (by positivity) (h.big i hi)

theorem Good.capK_holds {i : I} (hi : i ∈ S.ids) : Cipher.Holds (S.N i) (signedI S.E.P (S.d i).k).val ⟨S.N i, S.capK i⟩ := by
  obtain ⟨u, hu⟩ := natCast_unit_sq (h.draws.rho i hi)
  exact ⟨u, by rw [hu]; rfl⟩

theorem Good.payload_eq {i : I} (hi : i ∈ S.ids) : (S.echo i).payload (S.N i) = S.pl1 i := by
  unfold Echo1.payload pl1
  have : Cipher.ofWire (S.N i) (S.echo i).capK = ⟨S.N i, S.capK i⟩ := Cipher.ofWire_toWire (h.pos hi) _
  rw [this]

theorem Good.enc_accepted {i j : I} (hi : i ∈ S.ids) (hj : j ∈ S.ids) (x : ZMod q) (rho : Nat) (hrho : Nat.Coprime rho (S.N i)) (b : ZMod q) (capC : Nat)
    (hC : capC = ctToWire (oneAdd (S.N i) (signedI S.E.P x).val * (rho : Ct (S.N i)) ^ S.N i)) (capY capB capX : G)
    (hB : capB = b • S.E.C.g) (hX : capX = b • capY + x • S.E.C.g) (mask : EncElgMasks q)
    (hmask : EncElgDrawsValid S.E.P (S.N i) (S.setup j).modulus mask) (aux : Ep × I) :
    ∃ prf, (EncElgProof.prove S.E.P S.E.encH S.E.C.g (signedI S.E.P x) rho b (⟨ctOfWire (S.N i) capC, capY, capB, capX⟩ : EncElgPublic (S.N i) G)
        (S.setup j).rp aux mask : Out LocalErr _) = .ok prf ∧
      ∀ ε, (prf.verify S.E.P S.E.encH S.E.C.g (⟨ctOfWire (S.N i) capC, capY, capB, capX⟩ : EncElgPublic (S.N i) G) (S.setup j).rp aux : Out ε _) = .ok true := by
  have : NeZero q := ⟨(Fact.out : q.Prime).ne_zero⟩
  have hE := h.setting
  have hset : Props.EncElgSetting S.E.P q (S.N i) (S.setup j).rp :=
    ⟨hE.consistent, hE.order, hE.curve, h.pos hi, h.rpPos j hj, h.rpSize j hj, h.rpValid j hj⟩
  have hrel : Props.EncElgRelation S.E.P.L (S.N i) S.E.C.g (⟨ctOfWire (S.N i) capC, capY, capB, capX⟩ : EncElgPublic (S.N i) G) (signedI S.E.P x).val rho b := by
    refine ⟨signedI_inPm hE x, ?_, hrho, hB, ?_⟩
    · rw [hC, ctWire (h.pos hi)]; rfl
    · show capX = ((centre x : Int) : ZMod q) • S.E.C.g + b • capY
      rw [centre_cast, hX, add_comm]
  have hacc := Props.C27_inner_mask_accepted (ε := LocalErr) S.E.encH S.E.C.g (S.setup j).rp hset (signedI S.E.P x) (signedI_fits hE x) (signedI_bound hE x)
    rho b _ hrel aux mask hmask.masks hmask.inner
  obtain ⟨prf, hp, hv⟩ := Out.bind_eq_ok.1 hacc
  exact ⟨prf, hp, fun ε => Out.eq_ok_of_cast (EncElgProof.verify_cast ..) hv⟩

theorem Good.sent1 {i j : I} (hi : i ∈ S.ids) (hj : j ∈ S.ids) (hij : i ≠ j) : ∃ m, S.Sent1 i j m := by
  have hE := h.setting
  obtain ⟨psi0, hp0, hv0⟩ := h.enc_accepted hi hj (S.d i).k (S.d i).rho (h.draws.rho i hi) (S.d i).a _ rfl (S.echo i).capY (S.echo i).capA1 (S.echo i).capA2
    rfl rfl _ (h.draws.enc0 i hi j hj hij) (S.epid, i)
  obtain ⟨psi1, hp1, hv1⟩ := h.enc_accepted hi hj (S.d i).gamma (S.d i).nu (h.draws.nu i hi) (S.d i).b _ rfl (S.echo i).capY (S.echo i).capB1 (S.echo i).capB2
    rfl rfl _ (h.draws.enc1 i hi j hj hij) (S.epid, i)
  refine ⟨⟨S.echo i, psi0, psi1⟩, ?_, ?_⟩
  · unfold msg1
    simp only [r1, ctx, finGet, pubAux, signedOfSecret_ok hE, Out.bind_ok, BMap.get?_tabulate, hj, if_true, Out.ofOption_some]
    refine (congrArg (fun o => Out.bind o _) hp0).trans ?_
    rw [Out.bind_ok]
    refine (congrArg (fun o => Out.bind o _) hp1).trans ?_
    rw [Out.bind_ok]
  · unfold recv1
    simp only [ctx, recvGet, pubAux, Out.bind_ok, BMap.get?_tabulate, hi, hj, if_true, Out.ofOption_some]
    refine (congrArg (fun o => Out.bind o _) (hv0 _)).trans ?_
    rw [Out.bind_ok, if_neg (by simp)]
    refine (congrArg (fun o => Out.bind o _) (hv1 _)).trans ?_
    rw [Out.bind_ok, if_neg (by simp), h.payload_eq hi]

end

/-! ### Round 2 -/

/-- The state of a multiplication of `x`, held by `i`, with the `k` of `j`: the messages are made, hold the right values, and the proof is accepted. -/
structure MtaDone (S : Run q I Ep G) (i j : I) (x : ZMod q) (d : MtaDraws I) (o : MtaOut q G) : Prop where
  sent : mtaSend S.E (S.ctx i) ⟨S.N j, S.setup j⟩ ⟨S.N j, S.capK j⟩ (signedI S.E.P x) (x • S.E.C.g) d j = .ok o
  capD : o.capD.Holds (S.N j) ((signedI S.E.P x).val * (signedI S.E.P (S.d j).k).val - (d.beta j).val)
  capF : o.capF.Holds (S.N i) (d.beta j).val
  capDEq : ∃ U : (ZMod (S.N j ^ 2))ˣ, S.capK j = (U : Ct (S.N j)) ∧
    o.capD = ⟨S.N j, ((U ^ (signedI S.E.P x).val : (ZMod (S.N j ^ 2))ˣ) : Ct (S.N j)) * (oneAdd (S.N j) (-(d.beta j).val) * ((d.s j : Nat) : Ct (S.N j)) ^ S.N j)⟩
  capFEq : o.capF = ⟨S.N i, oneAdd (S.N i) (d.beta j).val * ((d.r j : Nat) : Ct (S.N i)) ^ S.N i⟩
  accepted : ∀ ε, (affGVerify S.E (S.N j) (S.N i) o.psi ⟨S.N j, S.capK j⟩ o.capD o.capF (x • S.E.C.g) (S.setup j) (S.epid, i) : Out ε _) = .ok true

theorem Good.mta {i j : I} (h : S.Good sk) (hi : i ∈ S.ids) (hj : j ∈ S.ids) (x : ZMod q) (d : MtaDraws I)
    (hd : MtaDrawsValid S.E.P (S.N j) (S.N i) (S.setup j).modulus d j) : ∃ o, S.MtaDone i j x d o := by
  have hkeys : MtaKeys S.E.P (S.N j) (S.N i) (S.setup j) := ⟨h.pos hj, h.pos hi, h.rpPos j hj, h.rpSize j hj, h.rpValid j hj⟩
  obtain ⟨o, h1, h2, h3, ⟨U, hU, h4⟩, h5, h6⟩ := mtaSend_honest h.setting (c := S.ctx i) (target := ⟨S.N j, S.setup j⟩) hkeys (h.capK_holds hj) x d j hd
  exact ⟨o, h1, h2, h3, ⟨U, by simpa using hU, h4⟩, h5, h6⟩

/-- Both multiplications of `i` with `j` -/
structure BothDone (S : Run q I Ep G) (o : I → I → MtaOut q G × MtaOut q G) : Prop where
  mta : ∀ i ∈ S.ids, ∀ j ∈ S.ids, i ≠ j → S.MtaDone i j (S.d i).gamma (S.d i).mta (o i j).1
  hatMta : ∀ i ∈ S.ids, ∀ j ∈ S.ids, i ≠ j → S.MtaDone i j (S.shares i).secret (S.d i).hatMta (o i j).2

theorem Good.bothDone (h : S.Good sk) : ∃ o, S.BothDone o := by
  have hall : ∀ i j, ∃ o : MtaOut q G × MtaOut q G, i ∈ S.ids → j ∈ S.ids → i ≠ j →
      S.MtaDone i j (S.d i).gamma (S.d i).mta o.1 ∧ S.MtaDone i j (S.shares i).secret (S.d i).hatMta o.2 := by
    intro i j
    by_cases hij : i ∈ S.ids ∧ j ∈ S.ids ∧ i ≠ j
    · obtain ⟨hi, hj, hne⟩ := hij
      obtain ⟨o1, h1⟩ := h.mta hi hj (S.d i).gamma (S.d i).mta (h.draws.mta i hi j hj hne)
      obtain ⟨o2, h2⟩ := h.mta hi hj (S.shares i).secret (S.d i).hatMta (h.draws.hatMta i hi j hj hne)
      exact ⟨(o1, o2), fun _ _ _ => ⟨h1, h2⟩⟩
    · have p : MtaOut q G := ⟨⟨0, 0⟩, ⟨0, 0⟩, ⟨0, 0, 0, 0, 0, 0, 0, 0, ⟨0, 0⟩, ⟨0, 0⟩, ⟨0, 0⟩, ⟨0, 0⟩, 0, 0⟩⟩
      exact ⟨(p, p), fun hi hj hne => absurd ⟨hi, hj, hne⟩ hij⟩
  choose o ho using hall
  exact ⟨o, fun i hi j hj hne => (ho i j hi hj hne).1, fun i hi j hj hne => (ho i j hi hj hne).2⟩

def psiElog (S : Run q I Ep G) (i : I) : ElogProof (ZMod q) G :=
  ElogProof.prove S.E.elogH S.E.C.g (S.d i).gamma (S.d i).b ((S.pl1 i).elogPub S.E.C.g ((S.d i).gamma • S.E.C.g)) (S.epid, i) (S.d i).elogAlpha (S.d i).elogM

def r2 (S : Run q I Ep G) (o : I → I → MtaOut q G × MtaOut q G) (i : I) : Round2 q I Ep G :=
  ⟨S.ctx i, BMap.tabulate S.ids S.pl1, (S.d i).gamma • S.E.C.g, S.psiElog i, BMap.tabulate (S.ids.erase i) (o i)⟩

variable {o : I → I → MtaOut q G × MtaOut q G}

theorem Good.finalize1 (h : S.Good sk) (ho : S.BothDone o) {i : I} (hi : i ∈ S.ids) :
    finalize1 S.E (S.r1 i) (BMap.tabulate (S.ids.erase i) S.pl1) = .ok (S.r2 o i) := by
  have hE := h.setting
  unfold Signing.finalize1
  have hpay : (S.r1 i).echo.payload (S.r1 i).ctx.key.modulus = S.pl1 i := h.payload_eq hi
  simp only [hpay]
  simp only [r1, ctx, finGet, signedOfSecret_ok hE, Out.bind_ok, BMap.insert_tabulate_erase hi, h.keys.public_matches i hi i hi, Out.ofOption_some]
  rw [buildMap_ok (v := o i), Out.bind_ok]
  · rfl
  · intro j hj
    obtain ⟨hne, hj⟩ := Finset.mem_erase.1 hj
    simp only [pubAux, BMap.get?_tabulate, hj, if_true, Out.ofOption_some, Out.bind_ok]
    have h1 := (ho.mta i hi j hj (Ne.symm hne)).sent
    have h2 := (ho.hatMta i hi j hj (Ne.symm hne)).sent
    refine (congrArg (fun x => Out.bind x _) h1).trans ?_
    rw [Out.bind_ok]
    refine (congrArg (fun x => Out.bind x _) h2).trans ?_
    rw [Out.bind_ok]

/-- The share of the product that `j` gets from the multiplication of `x i` with its `k` -/
def alpha (S : Run q I Ep G) (x : I → ZMod q) (d : I → MtaDraws I) (i j : I) : ZMod q := x i * (S.d j).k - scalarOfSigned q ((d i).beta j)

def pl2 (S : Run q I Ep G) (o : I → I → MtaOut q G × MtaOut q G) (i j : I) : Payload2 q I G where
  capGamma := (S.d i).gamma • S.E.C.g
  alpha := S.alpha (fun i => (S.d i).gamma) (fun i => (S.d i).mta) i j
  hatAlpha := S.alpha (fun i => (S.shares i).secret) (fun i => (S.d i).hatMta) i j
  capDs := BMap.tabulate (S.ids.erase i) fun j => (o i j).1.capD
  capFs := BMap.tabulate (S.ids.erase i) fun j => (o i j).1.capF
  hatCapDs := BMap.tabulate (S.ids.erase i) fun j => (o i j).2.capD
  hatCapFs := BMap.tabulate (S.ids.erase i) fun j => (o i j).2.capF

theorem ofWire_toWire' {N : Nat} (hN : 0 < N) {c : Cipher} (hc : c.pk = N) : Cipher.ofWire N c.toWire = c := by
  obtain ⟨pk, v⟩ := c
  simp only at hc
  subst hc
  exact Cipher.ofWire_toWire hN v

theorem Good.mtaVerify (h : S.Good sk) {i j : I} (hi : i ∈ S.ids) {x : ZMod q} {d : MtaDraws I} {o : I → MtaOut q G}
    (ho : ∀ k ∈ S.ids, i ≠ k → S.MtaDone i k x d (o k)) (failed : I → Err I) {capX : Out (RecvErr (Err I)) G} (hX : capX = .ok (x • S.E.C.g)) :
    mtaVerify S.E (S.ctx j) (BMap.tabulate S.ids S.pl1) i (S.N i) capX failed (BMap.tabulate (S.ids.erase i) fun k => (o k).psi)
      (BMap.tabulate (S.ids.erase i) fun k => (o k).capD.toWire) (BMap.tabulate (S.ids.erase i) fun k => (o k).capF.toWire) =
      .ok (BMap.tabulate (S.ids.erase i) fun k => ((o k).capD, (o k).capF)) := by
  unfold Signing.mtaVerify
  apply traverse_tabulate_ok
  intro k hk
  obtain ⟨hne, hk'⟩ := Finset.mem_erase.1 hk
  have hd := ho k hk' (Ne.symm hne)
  simp only [recvGet, ctx, pubAux, BMap.get?_tabulate, hk', hk, hX, if_true, Out.ofOption_some, Out.bind_ok]
  rw [ofWire_toWire' (h.pos hk') hd.capD.pk, ofWire_toWire' (h.pos hi) hd.capF.pk]
  refine (congrArg (fun x => Out.bind x _) (hd.accepted _)).trans ?_
  rw [Out.bind_ok, if_neg (by simp)]

/-- The decryption of what an honest party made for the multiplication -/
theorem Good.decrypt (h : S.Good sk) {i j : I} (hj : j ∈ S.ids) {x : ZMod q} {d : MtaDraws I} {o : MtaOut q G}
    (ho : S.MtaDone i j x d o) (hd : (d.beta j).IsDraw S.E.P.LP) :
    ∀ ε, ((S.key j).decryptCipher S.E.P o.capD : Out ε _) =
      .ok ⟨S.E.P.modBits - 1, (signedI S.E.P x).val * (signedI S.E.P (S.d j).k).val - (d.beta j).val⟩ := by
  have hE := h.setting
  have hw : S.E.P.modBits ≤ S.E.P.uint := hE.consistent.2.1.2.2.1
  refine ho.capD.decrypt (h.key j hj) (h.size j hj) hw ?_
  have h1 := mta_bound hE (signedI_abs hE x) (signedI_abs hE (S.d j).k) hd.2
  have h2 : ((2 ^ (S.E.P.modBits - 2) : Nat) : Int) ≤ (S.N j : Int) := by exact_mod_cast h.big j hj
  push_cast at h2
  exact lt_of_lt_of_le h1 h2

theorem scalarOfSigned_mta (x k : ZMod q) (P : Params) (b : SInt) (n : Nat) :
    scalarOfSigned q ⟨n, (signedI P x).val * (signedI P k).val - b.val⟩ = x * k - scalarOfSigned q b := by
  unfold scalarOfSigned
  show (((centre x * centre k - b.val : Int)) : ZMod q) = _
  push_cast
  rw [centre_cast, centre_cast]

theorem Good.recv2 (h : S.Good sk) (ho : S.BothDone o) {i j : I} (hi : i ∈ S.ids) (hj : j ∈ S.ids) (hij : i ≠ j) :
    recv2 S.E (S.r2 o j) i (msg2 (S.r2 o i)) = .ok (S.pl2 o i j) := by
  have hmsg : msg2 (S.r2 o i) = ⟨⟨(S.d i).gamma • S.E.C.g, BMap.tabulate (S.ids.erase i) fun k => (o i k).1.capF.toWire,
      BMap.tabulate (S.ids.erase i) fun k => (o i k).2.capF.toWire⟩, BMap.tabulate (S.ids.erase i) fun k => (o i k).1.capD.toWire,
      BMap.tabulate (S.ids.erase i) fun k => (o i k).2.capD.toWire, S.psiElog i, BMap.tabulate (S.ids.erase i) fun k => (o i k).1.psi,
      BMap.tabulate (S.ids.erase i) fun k => (o i k).2.psi⟩ := by
    unfold msg2 r2
    simp only [mapVals_tabulate]
  rw [hmsg]
  unfold Signing.recv2
  have hexp : (S.r2 o j).ctx.allIds.erase i = S.ids.erase i := rfl
  have hpa : (S.r2 o j).ctx.pubAux = S.pubAux := rfl
  have hp1 : (S.r2 o j).payloads1 = BMap.tabulate S.ids S.pl1 := rfl
  have hme : (S.r2 o j).ctx.myId = j := rfl
  have hkey : (S.r2 o j).ctx.key = S.key j := rfl
  have hep : (S.r2 o j).ctx.epid = S.epid := rfl
  have hks : (S.r2 o j).ctx.keyShare = S.shares j := rfl
  simp only [hexp, hpa, hp1, hme, hkey, hep, hks, recvGet, pubAux, BMap.get?_tabulate, hi, if_true, Out.ofOption_some, Out.bind_ok, BMap.keySet_tabulate, ne_eq, not_true, if_false]
  have hv1 := h.mtaVerify (j := j) hi (o := fun k => (o i k).1) (ho.mta i hi) .r2AffGPsiFailed (capX := .ok ((S.d i).gamma • S.E.C.g)) rfl
  have hv2 := h.mtaVerify (j := j) hi (o := fun k => (o i k).2) (ho.hatMta i hi) .r2AffGHatPsiFailed (capX := recvGet (S.shares j).pub i)
    (by unfold recvGet; rw [h.keys.public_matches j hj i hi, Out.ofOption_some])
  refine (congrArg (fun x => Out.bind x _) hv1).trans ?_
  rw [Out.bind_ok]
  refine (congrArg (fun x => Out.bind x _) hv2).trans ?_
  rw [Out.bind_ok]
  have helog : (S.psiElog i).verify S.E.elogH S.E.C.g ((S.pl1 i).elogPub S.E.C.g ((S.d i).gamma • S.E.C.g)) (S.epid, i) = true := by
    apply Props.C26_complete
    refine ⟨rfl, ?_, rfl⟩
    show (S.d i).b • (S.d i).y • S.E.C.g + (S.d i).gamma • S.E.C.g = (S.d i).gamma • S.E.C.g + (S.d i).b • (S.d i).y • S.E.C.g
    abel
  rw [helog]
  have hjm : j ∈ S.ids.erase i := Finset.mem_erase.2 ⟨Ne.symm hij, hj⟩
  simp only [not_true, if_false, BMap.get?_tabulate, hjm, if_true, Out.ofOption_some, Out.bind_ok, mapVals_tabulate]
  rw [h.decrypt hj (ho.mta i hi j hj hij) (h.draws.mta i hi j hj hij).beta, Out.bind_ok,
    h.decrypt hj (ho.hatMta i hi j hj hij) (h.draws.hatMta i hi j hj hij).beta, Out.bind_ok, scalarOfSigned_mta, scalarOfSigned_mta]
  rfl

/-! ### Round 3 -/

/-- The sum of the shares of products that `j` has after the multiplications -/
def share (S : Run q I Ep G) (x : I → ZMod q) (d : I → MtaDraws I) (j : I) : ZMod q :=
  x j * (S.d j).k + ∑ i ∈ S.ids.erase j, S.alpha x d i j + ∑ i ∈ S.ids.erase j, scalarOfSigned q ((d j).beta i)

/-- The shares add up to the product of the sums. -/
theorem sum_share (S : Run q I Ep G) (x : I → ZMod q) (d : I → MtaDraws I) :
    ∑ j ∈ S.ids, S.share x d j = (∑ i ∈ S.ids, x i) * ∑ j ∈ S.ids, (S.d j).k := by
  have h1 : ∀ j ∈ S.ids, S.share x d j = (∑ i ∈ S.ids, x i) * (S.d j).k - (∑ i ∈ S.ids, scalarOfSigned q ((d i).beta j)) +
      ∑ i ∈ S.ids, scalarOfSigned q ((d j).beta i) := by
    intro j hj
    unfold share alpha
    rw [← Finset.add_sum_erase S.ids x hj, ← Finset.add_sum_erase S.ids (fun i => scalarOfSigned q ((d i).beta j)) hj,
      ← Finset.add_sum_erase S.ids (fun i => scalarOfSigned q ((d j).beta i)) hj, Finset.sum_sub_distrib, ← Finset.sum_mul]
    ring
  rw [Finset.sum_congr rfl h1, Finset.sum_add_distrib, Finset.sum_sub_distrib, ← Finset.mul_sum, Finset.sum_comm (s := S.ids) (t := S.ids)]
  ring

def delta (S : Run q I Ep G) (j : I) : ZMod q := S.share (fun i => (S.d i).gamma) (fun i => (S.d i).mta) j
def chi (S : Run q I Ep G) (j : I) : ZMod q := S.share (fun i => (S.shares i).secret) (fun i => (S.d i).hatMta) j

/-- The joint values -/
def kAll (S : Run q I Ep G) : ZMod q := ∑ i ∈ S.ids, (S.d i).k
def gammaAll (S : Run q I Ep G) : ZMod q := ∑ i ∈ S.ids, (S.d i).gamma
def capGammaAll (S : Run q I Ep G) : G := S.gammaAll • S.E.C.g

theorem sum_delta (S : Run q I Ep G) : ∑ j ∈ S.ids, S.delta j = S.gammaAll * S.kAll := sum_share ..

theorem Good.sum_chi (h : S.Good sk) : ∑ j ∈ S.ids, S.chi j = sk * S.kAll := by
  unfold chi
  rw [sum_share, h.keys.sum]; rfl

def msg3 (S : Run q I Ep G) (i : I) : Msg3 q G :=
  ⟨S.delta i, (S.d i).k • S.capGammaAll,
    ElogProof.prove S.E.elogH S.E.C.g (S.d i).k (S.d i).a ((S.pl1 i).elogPub' ((S.d i).k • S.capGammaAll) S.capGammaAll) (S.epid, i) (S.d i).elogAlpha'
      (S.d i).elogM', S.chi i • S.capGammaAll⟩

def r3 (S : Run q I Ep G) (o : I → I → MtaOut q G × MtaOut q G) (i : I) : Round3 q I Ep G where
  ctx := S.ctx i
  capGammaCombined := S.capGammaAll
  chi := S.chi i
  payloads1 := BMap.tabulate S.ids S.pl1
  capGammas := BMap.tabulate S.ids fun j => (S.d j).gamma • S.E.C.g
  capDs := BMap.tabulate S.ids fun i => BMap.tabulate (S.ids.erase i) fun j => (o i j).1.capD
  capFs := BMap.tabulate S.ids fun i => BMap.tabulate (S.ids.erase i) fun j => (o i j).1.capF
  hatCapDs := BMap.tabulate S.ids fun i => BMap.tabulate (S.ids.erase i) fun j => (o i j).2.capD
  hatCapFs := BMap.tabulate S.ids fun i => BMap.tabulate (S.ids.erase i) fun j => (o i j).2.capF
  msg := S.msg3 i

theorem finalize2_ok {i : I} (hi : i ∈ S.ids) :
    finalize2 S.E (S.r2 o i) (BMap.tabulate (S.ids.erase i) fun j => S.pl2 o j i) = .ok (S.r3 o i) := by
  unfold finalize2
  have hme : (S.r2 o i).ctx.myId = i := rfl
  have hp1 : (S.r2 o i).payloads1 = BMap.tabulate S.ids S.pl1 := rfl
  have hout : (S.r2 o i).outs = BMap.tabulate (S.ids.erase i) (o i) := rfl
  simp only [hme, hp1, hout, mapVals_tabulate, finGet, BMap.get?_tabulate, hi, if_true, Out.ofOption_some, Out.bind_ok]
  have e1 : (BMap.tabulate (S.ids.erase i) fun j => (S.pl2 o j i).capGamma).insert i (S.r2 o i).capGamma =
      BMap.tabulate S.ids fun j => (S.d j).gamma • S.E.C.g := BMap.insert_tabulate_erase hi fun j => (S.d j).gamma • S.E.C.g
  have e2 := BMap.insert_tabulate_erase hi fun i => BMap.tabulate (S.ids.erase i) fun j => (o i j).1.capD
  have e3 := BMap.insert_tabulate_erase hi fun i => BMap.tabulate (S.ids.erase i) fun j => (o i j).1.capF
  have e4 := BMap.insert_tabulate_erase hi fun i => BMap.tabulate (S.ids.erase i) fun j => (o i j).2.capD
  have e5 := BMap.insert_tabulate_erase hi fun i => BMap.tabulate (S.ids.erase i) fun j => (o i j).2.capF
  have e6 : (BMap.tabulate S.ids fun j => (S.d j).gamma • S.E.C.g).values.sum = S.capGammaAll := by
    rw [BMap.sum_values_tabulate, ← Finset.sum_smul]; rfl
  rw [e1, e6]
  have e7 : ∀ f : Payload2 q I G → ZMod q, ((BMap.tabulate (S.ids.erase i) fun j => S.pl2 o j i).values.map f).sum = ∑ j ∈ S.ids.erase i, f (S.pl2 o j i) := by
    intro f; rw [BMap.values_tabulate, List.map_map, sum_bsetIter]; rfl
  have e8 : ∀ d : MtaDraws I, d.betaSum q (S.ids.erase i) = ∑ j ∈ S.ids.erase i, scalarOfSigned q (d.beta j) := by
    intro d; unfold MtaDraws.betaSum; rw [sum_bsetIter]
  have hoth : (S.r2 o i).ctx.otherIds = S.ids.erase i := rfl
  rw [e7, e7, hoth, e8, e8]
  have e9 : (S.r2 o i).ctx.d.gamma * (S.r2 o i).ctx.d.k + ∑ j ∈ S.ids.erase i, (S.pl2 o j i).alpha +
      ∑ j ∈ S.ids.erase i, scalarOfSigned q ((S.r2 o i).ctx.d.mta.beta j) = S.delta i := rfl
  have e10 : (S.r2 o i).ctx.keyShare.secret * (S.r2 o i).ctx.d.k + ∑ j ∈ S.ids.erase i, (S.pl2 o j i).hatAlpha +
      ∑ j ∈ S.ids.erase i, scalarOfSigned q ((S.r2 o i).ctx.d.hatMta.beta j) = S.chi i := rfl
  rw [e9, e10]
  refine congrArg Out.ok ?_
  unfold r3
  rw [← e2, ← e3, ← e4, ← e5]
  rfl

theorem recv3_ok {i j : I} (hi : i ∈ S.ids) : recv3 S.E (S.r3 o j) i (S.msg3 i) = .ok (S.msg3 i).payload := by
  unfold recv3
  have hp1 : (S.r3 o j).payloads1 = BMap.tabulate S.ids S.pl1 := rfl
  simp only [hp1, recvGet, BMap.get?_tabulate, hi, if_true, Out.ofOption_some, Out.bind_ok]
  have helog : (S.msg3 i).psiPrime.verify S.E.elogH S.E.C.g ((S.pl1 i).elogPub' (S.msg3 i).capDelta (S.r3 o j).capGammaCombined) ((S.r3 o j).ctx.epid, i) = true := by
    refine Props.C26_complete S.E.elogH S.E.C.g _ (S.d i).k (S.d i).a (S.epid, i) _ _ ⟨rfl, ?_, rfl⟩
    show (S.d i).a • (S.d i).y • S.E.C.g + (S.d i).k • S.E.C.g = (S.d i).k • S.E.C.g + (S.d i).a • (S.d i).y • S.E.C.g
    abel
  rw [helog]
  simp

/-! ### Round 4 -/

/-- The inverse of the joint `delta` -/
def deltaInv (S : Run q I Ep G) : ZMod q := (S.gammaAll * S.kAll)⁻¹

def sigma (S : Run q I Ep G) (i : I) : ZMod q :=
  (S.d i).k * S.deltaInv * S.message + S.chi i * S.deltaInv * S.E.C.xCoordinate q S.capGammaAll

def r4 (S : Run q I Ep G) (i : I) : Round4 q I Ep G where
  ctx := S.ctx i
  capGammaCombined := S.capGammaAll
  tildeK := (S.d i).k * S.deltaInv
  tildeChi := S.chi i * S.deltaInv
  tildeCapDeltas := BMap.tabulate S.ids fun j => S.deltaInv • (S.d j).k • S.capGammaAll
  tildeCapSs := BMap.tabulate S.ids fun j => S.deltaInv • S.chi j • S.capGammaAll
  sigma := S.sigma i

theorem Good.key_eq (h : S.Good sk) {i : I} (hi : i ∈ S.ids) : verifyingKeyPoint (S.shares i) = sk • S.E.C.g := by
  unfold verifyingKeyPoint
  have : (S.shares i).pub = BMap.tabulate S.ids fun j => (S.shares j).secret • S.E.C.g :=
    BMap.eq_tabulate_of (h.keys.holders i hi) (fun j hj => h.keys.public_matches i hi j hj)
  rw [this, BMap.sum_values_tabulate, ← Finset.sum_smul, h.keys.sum]

/-- The end of round 3: only a joint `delta` of zero stops the parties. -/
theorem Good.finalize3 (h : S.Good sk) {i : I} (hi : i ∈ S.ids) :
    finalize3 S.E (S.r3 o i) (BMap.tabulate (S.ids.erase i) fun j => (S.msg3 j).payload) =
      if S.gammaAll * S.kAll = 0 then .err .finalCheck else .ok (.round4 (S.r4 i)) := by
  unfold Signing.finalize3
  have hins : (BMap.tabulate (S.ids.erase i) fun j => (S.msg3 j).payload).insert (S.r3 o i).ctx.myId (S.r3 o i).msg.payload =
      BMap.tabulate S.ids fun j => (S.msg3 j).payload := BMap.insert_tabulate_erase hi fun j => (S.msg3 j).payload
  simp only [hins, mapVals_tabulate]
  have hs : ∀ {M : Type} [AddCommMonoid M] (f : Payload3 q G → M), ((BMap.tabulate S.ids fun j => (S.msg3 j).payload).values.map f).sum =
      ∑ j ∈ S.ids, f (S.msg3 j).payload := by
    intro M _ f; rw [BMap.values_tabulate, List.map_map, sum_bsetIter]; rfl
  rw [hs, hs, hs]
  have e1 : ∑ j ∈ S.ids, (S.msg3 j).payload.delta = S.gammaAll * S.kAll := S.sum_delta
  have e2 : ∑ j ∈ S.ids, (S.msg3 j).payload.capDelta = (S.gammaAll * S.kAll) • S.E.C.g := by
    show ∑ j ∈ S.ids, (S.d j).k • S.capGammaAll = _
    rw [← Finset.sum_smul]
    show S.kAll • S.gammaAll • S.E.C.g = _
    rw [smul_smul, mul_comm]
  have e3 : ∑ j ∈ S.ids, (S.msg3 j).payload.capS = (S.gammaAll * S.kAll) • verifyingKeyPoint (S.r3 o i).ctx.keyShare := by
    show ∑ j ∈ S.ids, S.chi j • S.capGammaAll = (S.gammaAll * S.kAll) • verifyingKeyPoint (S.shares i)
    rw [← Finset.sum_smul, h.sum_chi, h.key_eq hi]
    show (sk * S.kAll) • S.gammaAll • S.E.C.g = _
    rw [smul_smul, smul_smul]; congr 1; ring
  rw [e1, e2, e3]
  simp only [ne_eq, not_true, if_false]
  rfl

theorem recv4_ok {i j : I} (hi : i ∈ S.ids) : recv4 S.E (S.r4 j) i (S.sigma i) = .ok (S.sigma i) := by
  unfold recv4
  have h1 : (S.r4 j).tildeCapDeltas.get? i = some (S.deltaInv • (S.d i).k • S.capGammaAll) := by simp only [r4, BMap.get?_tabulate, hi, if_true]
  have h2 : (S.r4 j).tildeCapSs.get? i = some (S.deltaInv • S.chi i • S.capGammaAll) := by simp only [r4, BMap.get?_tabulate, hi, if_true]
  simp only [recvGet, h1, h2, Out.ofOption_some, Out.bind_ok]
  rw [if_neg]
  rw [not_not]
  show S.sigma i • S.capGammaAll = S.message • _ + S.E.C.xCoordinate q S.capGammaAll • _
  unfold sigma
  module

theorem Good.sum_sigma (h : S.Good sk) (hk : S.kAll ≠ 0) (hg : S.gammaAll ≠ 0) :
    ∑ i ∈ S.ids, S.sigma i = S.gammaAll⁻¹ * (S.message + S.E.C.xCoordinate q S.capGammaAll * sk) := by
  unfold sigma
  rw [Finset.sum_add_distrib, ← Finset.sum_mul, ← Finset.sum_mul, ← Finset.sum_mul, ← Finset.sum_mul, h.sum_chi]
  show S.kAll * S.deltaInv * S.message + _ = _
  unfold deltaInv
  field_simp

theorem Good.finalize4 (h : S.Good sk) {i : I} (hi : i ∈ S.ids) (hk : S.kAll ≠ 0) (hg : S.gammaAll ≠ 0) :
    finalize4 S.E (S.r4 i) (BMap.tabulate (S.ids.erase i) S.sigma) =
      Out.ofOption .finalCheck (RecoverableSignature.fromScalars S.E.C (S.E.C.xCoordinate q S.capGammaAll)
        (S.gammaAll⁻¹ * (S.message + S.E.C.xCoordinate q S.capGammaAll * sk)) (sk • S.E.C.g) S.message) := by
  unfold Signing.finalize4
  have hs : (BMap.tabulate (S.ids.erase i) S.sigma).values.sum + (S.r4 i).sigma = S.gammaAll⁻¹ * (S.message + S.E.C.xCoordinate q S.capGammaAll * sk) := by
    rw [BMap.sum_values_tabulate, ← h.sum_sigma hk hg]
    exact Finset.sum_erase_add S.ids S.sigma hi
  rw [hs]
  have hkey : verifyingKeyPoint (S.r4 i).ctx.keyShare = sk • S.E.C.g := h.key_eq hi
  rw [hkey]
  rfl

end Run
end Synedrion.Signing
