import Verif.Lemmas.SigningRun
import Verif.Lemmas.SigningReach

/-!
# Runs of interactive signing in which wrong shares `delta` are announced in round 3
-/

set_option linter.unusedSectionVars false

namespace Synedrion.Signing

open Spec Props

variable {q : Nat} [Fact q.Prime] {I Ep G : Type} [LinearOrder I] [AddCommGroup G] [Module (ZMod q) G] [DecidableEq G]

theorem encrypts_of_holds {N : Nat} (hN : 0 < N) {m : Int} {c : Cipher} (h : c.Holds N m) :
    ∃ rho, Nat.Coprime rho N ∧ Encrypts N m rho (ctOfWire N c.toWire) := by
  obtain ⟨u, rfl⟩ := h
  have : NeZero (N ^ 2) := ⟨by positivity⟩
  refine ⟨(u : ZMod (N ^ 2)).val, ?_, ?_⟩
  · exact Nat.Coprime.coprime_dvd_right (Dvd.intro_left (N ^ 1) rfl) (ZMod.val_coe_unit_coprime u)
  · have := Cipher.ofWire_toWire hN (oneAdd N m * (u : Ct N) ^ N)
    unfold Cipher.ofWire at this
    simp only [Cipher.mk.injEq, heq_eq_eq, true_and] at this
    rw [this]
    unfold Encrypts
    rw [ZMod.natCast_zmod_val]
    rfl

namespace Run

variable {S : Run q I Ep G} {sk : ZMod q} {o : I → I → MtaOut q G × MtaOut q G}

/-- The message of round 3 with another `delta` -/
def claim (S : Run q I Ep G) (delta : I → ZMod q) (i : I) : Msg3 q G := { S.msg3 i with delta := delta i }

/-- The state of `i` in the error round that follows -/
def errRound (S : Run q I Ep G) (o : I → I → MtaOut q G × MtaOut q G) (delta : I → ZMod q) (i : I) : ErrRound q I Ep G :=
  ⟨false, S.ctx i, BMap.tabulate S.ids fun j => (S.pl1 j).capK, (S.r3 o i).capDs, (S.r3 o i).capFs, (S.r3 o i).capGammas,
    BMap.tabulate S.ids fun j => delta j • S.E.C.g, S.E.C.g, (S.d i).gamma, (S.d i).mta, (S.d i).dec, (S.d i).star⟩

theorem recv3_claim {delta : I → ZMod q} {i j : I} (hi : i ∈ S.ids) : recv3 S.E (S.r3 o j) i (S.claim delta i) = .ok (S.claim delta i).payload := by
  have h := recv3_ok (S := S) (o := o) (i := i) (j := j) hi
  unfold recv3 at h ⊢
  simp only [Out.bind_eq_ok] at h
  obtain ⟨p, hp, h⟩ := h
  rw [hp, Out.bind_ok]
  split at h
  · cases h
  · rename_i hv
    exact if_neg hv

theorem finalize3_claim (hg : S.E.C.g ≠ 0) {delta : I → ZMod q} (hne : ∑ j ∈ S.ids, delta j ≠ S.gammaAll * S.kAll) {i : I} (hi : i ∈ S.ids)
    (hown : delta i = S.delta i) :
    finalize3 S.E (S.r3 o i) (BMap.tabulate (S.ids.erase i) fun j => (S.claim delta j).payload) = .ok (.error (S.errRound o delta i)) := by
  unfold Signing.finalize3
  have hmine : (S.r3 o i).msg.payload = (S.claim delta i).payload := by
    show (⟨S.delta i, _, _⟩ : Payload3 q G) = ⟨delta i, _, _⟩
    rw [hown]; rfl
  have hins : (BMap.tabulate (S.ids.erase i) fun j => (S.claim delta j).payload).insert (S.r3 o i).ctx.myId (S.r3 o i).msg.payload =
      BMap.tabulate S.ids fun j => (S.claim delta j).payload := by
    rw [hmine]; exact BMap.insert_tabulate_erase hi fun j => (S.claim delta j).payload
  simp only [hins, KeyRefresh.mapVals_tabulate]
  have hs : ∀ {M : Type} [AddCommMonoid M] (f : Payload3 q G → M), ((BMap.tabulate S.ids fun j => (S.claim delta j).payload).values.map f).sum =
      ∑ j ∈ S.ids, f (S.claim delta j).payload := by
    intro M _ f; rw [BMap.values_tabulate, List.map_map, sum_bsetIter]; rfl
  rw [hs, hs]
  have e1 : ∑ j ∈ S.ids, (S.claim delta j).payload.delta = ∑ j ∈ S.ids, delta j := rfl
  have e2 : ∑ j ∈ S.ids, (S.claim delta j).payload.capDelta = (S.gammaAll * S.kAll) • S.E.C.g := by
    show ∑ j ∈ S.ids, (S.d j).k • S.capGammaAll = _
    rw [← Finset.sum_smul]
    show S.kAll • S.gammaAll • S.E.C.g = _
    rw [smul_smul, mul_comm]
  rw [e1, e2, if_pos (fun h => hne (smul_left_injective _ hg h))]
  have hp1 : (S.r3 o i).payloads1 = BMap.tabulate S.ids S.pl1 := rfl
  rw [hp1, KeyRefresh.mapVals_tabulate]
  rfl

theorem toRound4_claim (hg : S.E.C.g ≠ 0) {delta : I → ZMod q} (hne : ∑ j ∈ S.ids, delta j ≠ S.gammaAll * S.kAll) {i : I} (hi : i ∈ S.ids)
    (hown : delta i = S.delta i) {r1 : Round1 q I Ep G} {in1 : List (I × Msg1 q G)} {in2 : List (I × Msg2 q I G)}
    (h3 : toRound3 S.E r1 in1 in2 = .ok (S.r3 o i)) {in3 : List (I × Msg3 q G)} (hin3 : FromOthers S.ids i (S.claim delta) in3) :
    toRound4 S.E r1 in1 in2 in3 = .ok (.error (S.errRound o delta i)) := by
  unfold toRound4
  rw [h3, Out.bind_ok]
  have hc := collect_others hin3 (recv := recv3 S.E (S.r3 o i)) (pl := fun j => (S.claim delta j).payload) (fun j hj hne => recv3_claim hj)
  refine (congrArg (fun x => Out.bind x _) hc).trans ?_
  rw [Out.bind_ok, finalize3_claim hg hne hi hown]
  rfl

/-- What an honest party made for the multiplication is in the range of the proofs. -/
theorem MtaDone.inMtaRange (h : S.Good sk) {i j : I} (hj : j ∈ S.ids) {x : ZMod q} {d : MtaDraws I} {o : MtaOut q G} (ho : S.MtaDone i j x d o)
    (hd : (d.beta j).IsDraw S.E.P.LP) : InMtaRange S.E.P (S.N j) o.capD.toWire := by
  have hE := h.setting
  obtain ⟨rho, h1, h2⟩ := encrypts_of_holds (h.pos hj) ho.capD
  refine ⟨_, rho, h1, h2, ?_⟩
  obtain ⟨hc0, ⟨hm1, hm2, hm3, hm4, hm5, hm6⟩, hs1, hs2, hs3, hs4, hs5, hs6, hs7⟩ := hE.consistent
  have hL : 0 < S.E.P.L := hE.curve
  have e1 : |(signedI S.E.P x).val * (signedI S.E.P (S.d j).k).val| ≤ 2 ^ (2 * S.E.P.L + S.E.P.EPS - 1) := by
    rw [abs_mul]
    calc _ ≤ 2 ^ (S.E.P.L - 1) * 2 ^ (S.E.P.L - 1) := mul_le_mul (signedI_abs hE x).le (signedI_abs hE _).le (abs_nonneg _) (by positivity)
      _ = (2 : Int) ^ (S.E.P.L - 1 + (S.E.P.L - 1)) := by rw [pow_add]
      _ ≤ _ := pow_le_pow_right₀ (by norm_num) (by omega)
  have e2 : |(d.beta j).val| ≤ 2 ^ (S.E.P.LP + S.E.P.EPS) := by
    have := hd.2
    unfold InPm at this
    have h3 : (2 : Int) ^ (S.E.P.LP - 1) ≤ 2 ^ (S.E.P.LP + S.E.P.EPS) := pow_le_pow_right₀ (by norm_num) (by omega)
    rw [abs_le]
    constructor <;> omega
  have := abs_sub ((signedI S.E.P x).val * (signedI S.E.P (S.d j).k).val) (d.beta j).val
  omega

/-- The ciphertext that an honest party sends in round 1 is invertible. -/
theorem Sent1.unit_capK (h : S.Good sk) {j i : I} (hj : j ∈ S.ids) {m : Msg1 q G} (hm : S.Sent1 j i m) : IsUnit (ctOfWire (S.N j) m.echo.capK) := by
  have hsent := hm.sent
  unfold msg1 at hsent
  simp only [Out.bind_eq_ok] at hsent
  obtain ⟨_, _, _, _, _, _, _, _, _, _, he⟩ := hsent
  rw [← Out.ok.inj he]
  obtain ⟨U, hU⟩ := (h.capK_holds hj).unit
  simp only [Cipher.mk.injEq, heq_eq_eq, true_and] at hU
  have hw := Cipher.ofWire_toWire (h.pos hj) (S.capK j)
  unfold Cipher.ofWire Cipher.toWire at hw
  simp only [Cipher.mk.injEq, heq_eq_eq, true_and] at hw
  show IsUnit (ctOfWire (S.N j) (ctToWire (S.capK j)))
  rw [hw, hU]
  exact U.isUnit

/-- The ciphertexts that an honest party sends in round 2 are in the range of the proofs. -/
theorem BothDone.inMtaRange (h : S.Good sk) {o : I → I → MtaOut q G × MtaOut q G} (ho : S.BothDone o) {j i : I} (hj : j ∈ S.ids) (hi : i ∈ S.ids) (hne : j ≠ i) {w : Nat}
    (hw : (msg2 (S.r2 o j)).capDs.get? i = some w ∨ (msg2 (S.r2 o j)).hatCapDs.get? i = some w) : InMtaRange S.E.P (S.N i) w := by
  have hout : (S.r2 o j).outs = BMap.tabulate (S.ids.erase j) (o j) := rfl
  have hmem : i ∈ S.ids.erase j := Finset.mem_erase.2 ⟨Ne.symm hne, hi⟩
  unfold msg2 at hw
  simp only [hout, KeyRefresh.mapVals_tabulate, BMap.get?_tabulate, hmem, if_true] at hw
  rcases hw with hw | hw <;> cases hw
  · exact (ho.mta j hj i hi hne).inMtaRange h hi (h.draws.mta j hj i hi hne).beta
  · exact (ho.hatMta j hj i hi hne).inMtaRange h hi (h.draws.hatMta j hj i hi hne).beta

end Run

section
variable (E : Env q I Ep G) (hE : SigningSetting E) (epidOf : BMap I G → BMap I PublicAux → Ep) (message sk : ZMod q) (ids : Finset I)
  (shares : I → KeyShare I (ZMod q) G) (hshares : SharesKey E.C.g ids shares sk) (infos : I → AuxInfo I PaillierKey PublicAux) (setup : I → RPSetup)
  (haux : UsableAux E.P ids infos setup) (d : I → Draws q I)
  (hd : SigningDrawsValid E.P ids (fun i => (infos i).secret.modulus) (fun i => (setup i).modulus) d)

include hE hshares haux hd in
/-- A party that has announced the right `delta` is believed in the error round. It would also be believed if it had announced another one. -/
theorem claim_believed (hg : E.C.g ≠ 0) {c : Nat} (hfew : FewParties E.P ids.card c)
    (hderr : ∀ i ∈ ids, ErrorDrawsValid E (ids.erase i) (infos i).secret.modulus (fun j => (infos j).secret.modulus) c (d i))
    {S : Run q I Ep G} (hS : S = honest E epidOf message ids shares infos setup d) {m1 : I → I → Msg1 q G} {o : I → I → MtaOut q G × MtaOut q G}
    (ho : S.BothDone o) (hm1 : ∀ i ∈ S.ids, ∀ j ∈ S.ids, i ≠ j → S.Sent1 i j (m1 i j))
    (hr : ∀ in1 : I → List (I × Msg1 q G), (∀ i ∈ S.ids, FromOthers S.ids i (fun j => m1 j i) (in1 i)) →
        (∀ i ∈ S.ids, toRound2 S.E (S.r1 i) (in1 i) = .ok (S.r2 o i)) ∧
        ∀ in2 : I → List (I × Msg2 q I G), (∀ i ∈ S.ids, FromOthers S.ids i (fun j => msg2 (S.r2 o j)) (in2 i)) →
          ∀ i ∈ S.ids, toRound3 S.E (S.r1 i) (in1 i) (in2 i) = .ok (S.r3 o i))
    {delta : I → ZMod q} (hne : ∑ j ∈ S.ids, delta j ≠ S.gammaAll * S.kAll) {i : I} (hi : i ∈ S.ids) (hown : delta i = S.delta i) :
    (∃ msg, msgErr E (S.errRound o delta i) = .ok msg ∧ ∀ r', SameView (S.errRound o delta i) r' → recvErr E r' i msg = .ok ()) ∧
    ∀ s : ZMod q, Nat.Coprime (infos i).secret.modulus q → ∃ msg, ∀ ss : BMap I G, ss.get? i = some (s • E.C.g) →
      ∀ r', SameView { S.errRound o delta i with capSs := ss } r' → recvErr E r' i msg = .ok () := by
  have good : S.Good sk := hS ▸ honest_good E hE epidOf message sk ids shares hshares infos setup haux d hd
  have hids : S.ids = ids := by rw [hS]; rfl
  have hSE : S.E = E := by rw [hS]; rfl
  have hSd : S.d = d := by rw [hS]; rfl
  have hN : ∀ j, S.N j = (infos j).secret.modulus := by rw [hS]; intro j; rfl
  have hi' : i ∈ ids := hids ▸ hi
  have h0 : start E epidOf message (shares i) (infos i) i (d i) = .ok (S.r1 i) := by
    rw [hS]; exact honest_start E hE epidOf message sk ids shares hshares infos setup haux d hi'
  have hall : ∀ {M : Type} (k : I) (f : I → M), FromOthers S.ids k f ((bsetIter (S.ids.erase k)).map fun j => (j, f j)) := fun k f =>
    fromOthers_iff.2 (List.Perm.refl _)
  have t3 := (hr _ (fun k _ => hall k fun j => m1 j k)).2 _ (fun k _ => hall k fun j => msg2 (S.r2 o j)) i hi
  have t4 := Run.toRound4_claim (hSE ▸ hg) hne hi hown t3 (hall i (S.claim delta))
  rw [hSE] at t4
  have hkeys : (shares i).pub.keySet = ids := hshares.holders i hi'
  obtain ⟨e1, e2, e3, pk', k, capK, cd, md, hown', hdraws, hmd⟩ := error_round hE (c := c) (n := ids.card)
    (pk := fun i => ⟨(infos i).secret.p * (infos i).secret.q, (setup i).rp.toWire⟩) hfew (by rw [hkeys]; exact hi')
    (hshares.public_matches i hi' i hi') (by rw [hkeys]; exact fun j hj => haux.consistent.public_agree i hi' j hj) rfl (haux.primes i hi') (haux.secretKey i hi')
    (by rw [hkeys]; exact hderr i hi') h0
    (fun j m hm => by
      obtain ⟨hj, hji, hm⟩ := ((hall i fun j => m1 j i).2 (j, m)).1 hm
      rw [show m = m1 j i from hm]
      have := (hm1 j hj i hi hji).unit_capK good hj
      rwa [hN] at this)
    (fun j m hm w hw => by
      obtain ⟨hj, hji, hm⟩ := ((hall i fun j => msg2 (S.r2 o j)).2 (j, m)).1 hm
      rw [show m = msg2 (S.r2 o j) from hm] at hw
      exact hSE ▸ hN i ▸ ho.inMtaRange good hj hi hji hw) t4
  have hkey : (S.errRound o delta i).ctx.key = (infos i).secret := e3
  have := own_claims hE hown' hdraws (by rw [e2, hkeys]; exact hfew) (by rw [e3]; exact haux.primes i hi') (by rw [e3]; exact haux.secretKey i hi') hmd
  rw [e1, hkey] at this
  have hcg : (S.errRound o delta i).capG = E.C.g := by rw [← hSE]; rfl
  refine ⟨this.1, fun s hc => ?_⟩
  obtain ⟨msg, hmsg⟩ := this.2 s hc
  exact ⟨msg, fun ss hss => hmsg ss (by rw [hss, hcg])⟩

end

end Synedrion.Signing
