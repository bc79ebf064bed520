import Verif.Lemmas.SigningRun
import Verif.Lemmas.ToySigning

/-!
# C41, C43: signing by honest parties
-/

set_option linter.unusedSectionVars false

namespace Synedrion.Props

open Synedrion Spec Signing

variable {q : Nat} [Fact q.Prime] {I Ep G : Type} [LinearOrder I] [AddCommGroup G] [Module (ZMod q) G] [DecidableEq G]

/-- **C43 (exact conversion).** One party holds the scalar `x`, the other one the scalar `k` and a Paillier key of full size, and has published the encryption
of (the signed representative of) `k`. Then the first party can make its messages, and what the second one decrypts, plus the first one's mask, is exactly the
product of the signed representatives: there is no wrap-around modulo the Paillier modulus. So the two shares add up to `x k` modulo the group order. -/
theorem C43_mta_exact (E : Env q I Ep G) (hE : SigningSetting E) (c : Context q I Ep G) (hown : 0 < c.key.modulus)
    (key : PaillierKey) (hprimes : FullSizePrimes E.P key.p key.q) (hkey : (SecretKey.new key.p key.q : Out Unit _) = .ok key.sk)
    (setup : RPSetup) (hpos : 0 < setup.modulus) (hsize : setup.modulus < 2 ^ E.P.modBits) (hbases : setup.rp.Valid)
    (x k : ZMod q) (xSigned kSigned : SInt) (hx : (signedOfSecret E.P x : Out Unit _) = .ok xSigned) (hk : (signedOfSecret E.P k : Out Unit _) = .ok kSigned)
    (rho : Nat) (hrho : Nat.Coprime rho key.modulus) (capK : Cipher) (hK : (Cipher.encrypt key.modulus kSigned rho : Out Unit _) = .ok capK)
    (d : MtaDraws I) (id : I) (hd : MtaDrawsValid E.P key.modulus c.key.modulus setup.modulus d id) :
    ∃ (out : MtaOut q G) (alpha : SInt), mtaSend E c ⟨key.modulus, setup⟩ capK xSigned (x • E.C.g) d id = .ok out ∧
      (key.decryptCipher E.P out.capD : Out Unit _) = .ok alpha ∧ alpha.val + (d.beta id).val = xSigned.val * kSigned.val ∧
      scalarOfSigned q alpha + scalarOfSigned q (d.beta id) = x * k := by
  rw [signedOfSecret_ok hE] at hx hk
  cases hx
  cases hk
  have hm : E.P.modBits = 2 * E.P.primeBits := hE.consistent.2.1.1
  have hfacts := facts_of_new hprimes.primes hkey
  have hN : 0 < key.modulus := by have := odd_of_primes hprimes.primes; unfold PaillierKey.modulus; omega
  obtain ⟨capK', hK', hKh, _⟩ := Cipher.encrypt_holds (signedI_fits hE k) hrho
  rw [hK'] at hK
  cases hK
  obtain ⟨out, h1, h2, _⟩ := mtaSend_honest hE (c := c) (target := ⟨key.modulus, setup⟩) ⟨hN, hown, hpos, hsize, hbases⟩ hKh x d id hd
  have hb := mta_bound hE (signedI_abs hE x) (signedI_abs hE k) hd.beta.2
  have hbig : 2 ^ (E.P.modBits - 2) ≤ key.modulus := by
    have hpb := FullSizePrimes.primeBits_pos hprimes
    rw [show E.P.modBits - 2 = (E.P.primeBits - 1) + (E.P.primeBits - 1) by omega, pow_add]
    exact Nat.mul_le_mul hprimes.lowP hprimes.lowQ
  have hbig' : ((2 ^ (E.P.modBits - 2) : Nat) : Int) ≤ (key.modulus : Int) := by exact_mod_cast hbig
  push_cast at hbig'
  have hdec := Cipher.Holds.decrypt hfacts (FullSizePrimes.lt hprimes hm) hE.consistent.2.1.2.2.1 h2 (lt_of_lt_of_le hb hbig') Unit
  refine ⟨out, _, h1, hdec, by simp only; ring, ?_⟩
  rw [Run.scalarOfSigned_mta]
  ring

section
variable (E : Env q I Ep G) (hE : SigningSetting E) (epidOf : BMap I G → BMap I PublicAux → Ep) (message sk : ZMod q) (ids : Finset I)
  (shares : I → KeyShare I (ZMod q) G) (hshares : SharesKey E.C.g ids shares sk) (infos : I → AuxInfo I PaillierKey PublicAux) (setup : I → RPSetup)
  (haux : UsableAux E.P ids infos setup) (d : I → Draws q I)
  (hd : SigningDrawsValid E.P ids (fun i => (infos i).secret.modulus) (fun i => (setup i).modulus) d)

include hE hshares haux hd in
private theorem honest_rounds (r1 : I → Round1 q I Ep G) (hst : ∀ i ∈ ids, start E epidOf message (shares i) (infos i) i (d i) = .ok (r1 i)) :
    ∃ (m1 : I → I → Msg1 q G) (r2 : I → Round2 q I Ep G) (r3 : I → Round3 q I Ep G),
      (∀ i ∈ ids, ∀ j ∈ ids, i ≠ j → msg1 E (r1 i) j = .ok (m1 i j)) ∧
      ∀ in1 : I → List (I × Msg1 q G), (∀ i ∈ ids, FromOthers ids i (fun j => m1 j i) (in1 i)) →
        (∀ i ∈ ids, toRound2 E (r1 i) (in1 i) = .ok (r2 i)) ∧
        ∀ in2 : I → List (I × Msg2 q I G), (∀ i ∈ ids, FromOthers ids i (fun j => msg2 (r2 j)) (in2 i)) →
          (∀ i ∈ ids, toRound3 E (r1 i) (in1 i) (in2 i) = .ok (r3 i)) ∧
          ∀ in3 : I → List (I × Msg3 q G), (∀ i ∈ ids, FromOthers ids i (fun j => (r3 j).msg) (in3 i)) →
            ((∑ i ∈ ids, (d i).gamma) * (∑ i ∈ ids, (d i).k) = 0 → ∀ i ∈ ids, toRound4 E (r1 i) (in1 i) (in2 i) (in3 i) = .err (.localErr .finalCheck)) ∧
            ((∑ i ∈ ids, (d i).gamma) * (∑ i ∈ ids, (d i).k) ≠ 0 →
              ∃ r4 : I → Round4 q I Ep G, (∀ i ∈ ids, toRound4 E (r1 i) (in1 i) (in2 i) (in3 i) = .ok (.round4 (r4 i))) ∧
              ∀ (in4 : I → List (I × ZMod q)) (inErr : I → List (I × MsgErr I G)), (∀ i ∈ ids, FromOthers ids i (fun j => (r4 j).sigma) (in4 i)) →
                ∀ i ∈ ids, run E (r1 i) (in1 i) (in2 i) (in3 i) (in4 i) (inErr i) =
                  finalizeResult (Out.ofOption .finalCheck (RecoverableSignature.fromScalars E.C (E.C.x ((∑ i ∈ ids, (d i).gamma) • E.C.g) : ZMod q)
                    ((∑ i ∈ ids, (d i).gamma)⁻¹ * (message + (E.C.x ((∑ i ∈ ids, (d i).gamma) • E.C.g) : ZMod q) * sk)) (sk • E.C.g) message))) := by
  obtain ⟨S, hS⟩ : ∃ S, S = honest E epidOf message ids shares infos setup d := ⟨_, rfl⟩
  have good : S.Good sk := hS ▸ honest_good E hE epidOf message sk ids shares hshares infos setup haux d hd
  have hr1 : ∀ i ∈ ids, r1 i = S.r1 i := by
    intro i hi
    have h := hst i hi
    rw [honest_start E hE epidOf message sk ids shares hshares infos setup haux d hi] at h
    rw [hS]; exact (Out.ok.inj h).symm
  have hids : S.ids = ids := by rw [hS]; rfl
  have hSE : S.E = E := by rw [hS]; rfl
  have hmsg : S.message = message := by rw [hS]; rfl
  have hSd : S.d = d := by rw [hS]; rfl
  clear hS
  subst hids hSE hmsg hSd
  obtain ⟨m1, o, ho, hm1, hrounds⟩ := Run.good_rounds good
  refine ⟨m1, S.r2 o, S.r3 o, ?_, ?_⟩
  · intro i hi j hj hij
    rw [hr1 i hi]; exact (hm1 i hi j hj hij).sent
  intro in1 h1
  obtain ⟨t2', hr3⟩ := hrounds in1 h1
  have t2 : ∀ i ∈ S.ids, toRound2 S.E (r1 i) (in1 i) = .ok (S.r2 o i) := fun i hi => by rw [hr1 i hi]; exact t2' i hi
  refine ⟨t2, fun in2 h2 => ?_⟩
  have t3 : ∀ i ∈ S.ids, toRound3 S.E (r1 i) (in1 i) (in2 i) = .ok (S.r3 o i) := fun i hi => by rw [hr1 i hi]; exact hr3 in2 h2 i hi
  refine ⟨t3, fun in3 h3 => ?_⟩
  have t4 : ∀ i ∈ S.ids, toRound4 S.E (r1 i) (in1 i) (in2 i) (in3 i) = finalizeResult (if S.gammaAll * S.kAll = 0 then .err .finalCheck else .ok (.round4 (S.r4 i))) := by
    intro i hi
    unfold toRound4
    rw [t3 i hi, Out.bind_ok]
    have hc := collect_others (h3 i hi) (recv := recv3 S.E (S.r3 o i)) (pl := fun j => (S.msg3 j).payload) (fun j hj hne => Run.recv3_ok hj)
    refine (congrArg (fun x => Out.bind x _) hc).trans ?_
    rw [Out.bind_ok, good.finalize3 hi]
  refine ⟨fun h0 i hi => ?_, fun h0 => ⟨S.r4, ?_⟩⟩
  · rw [t4 i hi, if_pos (show S.gammaAll * S.kAll = 0 from h0)]; rfl
  have t4' : ∀ i ∈ S.ids, toRound4 S.E (r1 i) (in1 i) (in2 i) (in3 i) = .ok (.round4 (S.r4 i)) := by
    intro i hi; rw [t4 i hi, if_neg (show ¬ S.gammaAll * S.kAll = 0 from h0)]; rfl
  refine ⟨t4', fun in4 inErr h4 i hi => ?_⟩
  obtain ⟨hgamma, hk⟩ := mul_ne_zero_iff.1 h0
  unfold run
  rw [t4' i hi, Out.bind_ok]
  unfold last
  simp only
  have hc := collect_others (h4 i hi) (recv := recv4 S.E (S.r4 i)) (pl := S.sigma) (fun j hj hne => Run.recv4_ok hj)
  refine (congrArg (fun x => Out.bind x _) hc).trans ?_
  rw [Out.bind_ok, good.finalize4 hi hk hgamma]
  rfl

include hE hshares haux hd in
/-- **C41 (honest parties).** If every party of `ids` starts signing the same message with matching key shares and auxiliary info and honest draws, and the
messages of each round arrive in any order, then the parties can make their messages and accept those of the others, nobody is blamed, and all of them output
the same signature. It is a normalized, valid ECDSA signature of the message under the group key, and its recovery id gives the group key. The exceptions are
those of ECDSA itself, in which no signature exists for the joint random values: the joint `k` or `gamma` is zero, the nonce's x coordinate is zero modulo the
order, or the resulting `s` is zero; and the group key must not be zero. -/
theorem C41_honest_signature (r1 : I → Round1 q I Ep G) (hst : ∀ i ∈ ids, start E epidOf message (shares i) (infos i) i (d i) = .ok (r1 i))
    (hk : ∑ i ∈ ids, (d i).k ≠ 0) (hgamma : ∑ i ∈ ids, (d i).gamma ≠ 0) (hr : (E.C.x ((∑ i ∈ ids, (d i).gamma) • E.C.g) : ZMod q) ≠ 0)
    (hs : message + (E.C.x ((∑ i ∈ ids, (d i).gamma) • E.C.g) : ZMod q) * sk ≠ 0) (hkey : sk • E.C.g ≠ 0) :
    ∃ (sig : RecoverableSignature q) (m1 : I → I → Msg1 q G) (r2 : I → Round2 q I Ep G) (r3 : I → Round3 q I Ep G),
      EcdsaValid E.C (sk • E.C.g) message sig.r sig.s ∧ LowS sig.s ∧ recover E.C message sig.r sig.s sig.recoveryId = some (sk • E.C.g) ∧
      sig.r = (E.C.x ((∑ i ∈ ids, (d i).gamma) • E.C.g) : ZMod q) ∧
      (∀ i ∈ ids, ∀ j ∈ ids, i ≠ j → msg1 E (r1 i) j = .ok (m1 i j)) ∧
      ∀ in1 : I → List (I × Msg1 q G), (∀ i ∈ ids, FromOthers ids i (fun j => m1 j i) (in1 i)) →
        (∀ i ∈ ids, toRound2 E (r1 i) (in1 i) = .ok (r2 i)) ∧
        ∀ in2 : I → List (I × Msg2 q I G), (∀ i ∈ ids, FromOthers ids i (fun j => msg2 (r2 j)) (in2 i)) →
          (∀ i ∈ ids, toRound3 E (r1 i) (in1 i) (in2 i) = .ok (r3 i)) ∧
          ∀ in3 : I → List (I × Msg3 q G), (∀ i ∈ ids, FromOthers ids i (fun j => (r3 j).msg) (in3 i)) →
            ∃ r4 : I → Round4 q I Ep G, (∀ i ∈ ids, toRound4 E (r1 i) (in1 i) (in2 i) (in3 i) = .ok (.round4 (r4 i))) ∧
              ∀ (in4 : I → List (I × ZMod q)) (inErr : I → List (I × MsgErr I G)), (∀ i ∈ ids, FromOthers ids i (fun j => (r4 j).sigma) (in4 i)) →
                ∀ i ∈ ids, run E (r1 i) (in1 i) (in2 i) (in3 i) (in4 i) (inErr i) = .ok sig := by
  obtain ⟨m1, r2, r3, hm, hrounds⟩ := honest_rounds E hE epidOf message sk ids shares hshares infos setup haux d hd r1 hst
  -- the signature
  have hvalid : EcdsaValid E.C (sk • E.C.g) message (E.C.x ((∑ i ∈ ids, (d i).gamma) • E.C.g) : ZMod q)
      ((∑ i ∈ ids, (d i).gamma)⁻¹ * (message + (E.C.x ((∑ i ∈ ids, (d i).gamma) • E.C.g) : ZMod q) * sk)) := by
    generalize hgdef : (∑ i ∈ ids, (d i).gamma) = gamma at *
    generalize hxdef : (E.C.x (gamma • E.C.g) : ZMod q) = x at *
    have hpt : (message * (gamma⁻¹ * (message + x * sk))⁻¹) • E.C.g + (x * (gamma⁻¹ * (message + x * sk))⁻¹) • sk • E.C.g = gamma • E.C.g := by
      rw [smul_smul, ← add_smul]
      congr 1
      field_simp
    refine ⟨hr, mul_ne_zero (inv_ne_zero hgamma) hs, ?_, ?_⟩
    · rw [hpt]
      intro h0
      apply hr
      rw [← hxdef, h0, hE.laws.x_zero, Nat.cast_zero]
    · rw [hpt]; exact hxdef
  obtain ⟨sig, hsig⟩ := C44_valid_accepted E.C hE.laws _ _ _ hkey _ hvalid
  obtain ⟨v1, v2, v3, v4, _⟩ := C44_signature_valid E.C hE.laws _ _ _ _ _ hsig
  refine ⟨sig, m1, r2, r3, v1, v2, v3, v4, hm, fun in1 h1 => ?_⟩
  obtain ⟨t2, k2⟩ := hrounds in1 h1
  refine ⟨t2, fun in2 h2 => ?_⟩
  obtain ⟨t3, k3⟩ := k2 in2 h2
  refine ⟨t3, fun in3 h3 => ?_⟩
  obtain ⟨-, k4⟩ := k3 in3 h3
  obtain ⟨r4, t4, k5⟩ := k4 (mul_ne_zero hgamma hk)
  refine ⟨r4, t4, fun in4 inErr h4 i hi => ?_⟩
  rw [k5 in4 inErr h4 i hi, hsig]
  rfl

include hE hshares haux hd in
/-- **C41 (honest parties never blame each other or panic).** For all honest draws, also the exceptional ones: all parties output the same signature, or all of
them stop with a local error. -/
theorem C41_honest_no_blame (r1 : I → Round1 q I Ep G) (hst : ∀ i ∈ ids, start E epidOf message (shares i) (infos i) i (d i) = .ok (r1 i)) :
    ∃ (m1 : I → I → Msg1 q G) (r2 : I → Round2 q I Ep G) (r3 : I → Round3 q I Ep G),
      (∀ i ∈ ids, ∀ j ∈ ids, i ≠ j → msg1 E (r1 i) j = .ok (m1 i j)) ∧
      ∀ in1 : I → List (I × Msg1 q G), (∀ i ∈ ids, FromOthers ids i (fun j => m1 j i) (in1 i)) →
        (∀ i ∈ ids, toRound2 E (r1 i) (in1 i) = .ok (r2 i)) ∧
        ∀ in2 : I → List (I × Msg2 q I G), (∀ i ∈ ids, FromOthers ids i (fun j => msg2 (r2 j)) (in2 i)) →
          (∀ i ∈ ids, toRound3 E (r1 i) (in1 i) (in2 i) = .ok (r3 i)) ∧
          ∀ in3 : I → List (I × Msg3 q G), (∀ i ∈ ids, FromOthers ids i (fun j => (r3 j).msg) (in3 i)) →
            (∀ i ∈ ids, toRound4 E (r1 i) (in1 i) (in2 i) (in3 i) = .err (.localErr .finalCheck)) ∨
            ∃ r4 : I → Round4 q I Ep G, (∀ i ∈ ids, toRound4 E (r1 i) (in1 i) (in2 i) (in3 i) = .ok (.round4 (r4 i))) ∧
              ∀ (in4 : I → List (I × ZMod q)) (inErr : I → List (I × MsgErr I G)), (∀ i ∈ ids, FromOthers ids i (fun j => (r4 j).sigma) (in4 i)) →
                (∃ sig, ∀ i ∈ ids, run E (r1 i) (in1 i) (in2 i) (in3 i) (in4 i) (inErr i) = .ok sig) ∨
                ∀ i ∈ ids, run E (r1 i) (in1 i) (in2 i) (in3 i) (in4 i) (inErr i) = .err (.localErr .finalCheck) := by
  obtain ⟨m1, r2, r3, hm, hrounds⟩ := honest_rounds E hE epidOf message sk ids shares hshares infos setup haux d hd r1 hst
  refine ⟨m1, r2, r3, hm, fun in1 h1 => ?_⟩
  obtain ⟨t2, k2⟩ := hrounds in1 h1
  refine ⟨t2, fun in2 h2 => ?_⟩
  obtain ⟨t3, k3⟩ := k2 in2 h2
  refine ⟨t3, fun in3 h3 => ?_⟩
  obtain ⟨k4, k4'⟩ := k3 in3 h3
  by_cases h0 : (∑ i ∈ ids, (d i).gamma) * (∑ i ∈ ids, (d i).k) = 0
  · exact .inl (k4 h0)
  obtain ⟨r4, t4, k5⟩ := k4' h0
  refine .inr ⟨r4, t4, fun in4 inErr h4 => ?_⟩
  cases hsig : RecoverableSignature.fromScalars E.C (E.C.x ((∑ i ∈ ids, (d i).gamma) • E.C.g) : ZMod q)
      ((∑ i ∈ ids, (d i).gamma)⁻¹ * (message + (E.C.x ((∑ i ∈ ids, (d i).gamma) • E.C.g) : ZMod q) * sk)) (sk • E.C.g) message with
  | none => exact .inr fun i hi => by rw [k5 in4 inErr h4 i hi, hsig]; rfl
  | some sig => exact .inl ⟨sig, fun i hi => by rw [k5 in4 inErr h4 i hi, hsig]; rfl⟩

include hE hshares haux in
/-- **C41 (starting).** With matching key shares and auxiliary info every party of `ids` can start. -/
theorem C41_honest_start : ∀ i ∈ ids, ∃ r, new (shares i) (infos i) = .ok () ∧ start E epidOf message (shares i) (infos i) i (d i) = .ok r := by
  intro i hi
  refine ⟨_, ?_, honest_start E hE epidOf message sk ids shares hshares infos setup haux d hi⟩
  unfold new
  rw [if_neg (by rw [hshares.owner i hi, haux.consistent.owner i hi]; simp), if_neg (by rw [hshares.holders i hi, haux.consistent.holders i hi]; simp)]

end

/-! ### A concrete case -/

section Examples

attribute [local instance] Toy.fact11

/-- The arrivals in the order of the senders -/
private def inOrder {M : Type} (f : Nat → M) (i : Nat) : List (Nat × M) := (bsetIter (Toy.parties.erase i)).map fun j => (j, f j)

private theorem inOrder_fromOthers {M : Type} (f : Nat → M) (i : Nat) : FromOthers Toy.parties i f (inOrder f i) := fromOthers_iff.2 (List.Perm.refl _)

/-- Three parties with 256-bit Paillier keys sign the message 5 with the key 6, and all of them output the same signature, with the `r` of the nonce `9 = -2`. -/
example : ∃ (infos : Nat → AuxInfo Nat PaillierKey PublicAux) (r1 : Nat → Round1 11 Nat Nat (ZMod 11)) (sig : RecoverableSignature 11)
    (in1 : Nat → List (Nat × Msg1 11 (ZMod 11))) (in2 : Nat → List (Nat × Msg2 11 Nat (ZMod 11))) (in3 : Nat → List (Nat × Msg3 11 (ZMod 11)))
    (in4 : Nat → List (Nat × ZMod 11)), EcdsaValid Props.toyCurve (6 : ZMod 11) (5 : ZMod 11) sig.r sig.s ∧ sig.r = 2 ∧
    (∀ i ∈ Toy.parties, start Toy.signEnv (fun _ _ => 7) (5 : ZMod 11) (Toy.signShares i) (infos i) i (Toy.signDraws i) = .ok (r1 i)) ∧
    ∀ i ∈ Toy.parties, run Toy.signEnv (r1 i) (in1 i) (in2 i) (in3 i) (in4 i) [] = .ok sig := by
  obtain ⟨infos, haux, hmod⟩ := Toy.exists_signInfos
  have hd : SigningDrawsValid Toy.signEnv.P Toy.parties (fun i => (infos i).secret.modulus) (fun i => (Toy.ringPedersen i).modulus) Toy.signDraws := by
    rw [funext hmod]; exact Toy.signDraws_valid
  have hst := C41_honest_start Toy.signEnv Toy.signEnv_setting (fun _ _ => 7) 5 6 Toy.parties Toy.signShares Toy.signShares_valid infos Toy.ringPedersen haux Toy.signDraws
  have hst' : ∀ i, ∃ r : Round1 11 Nat Nat (ZMod 11), i ∈ Toy.parties →
      start Toy.signEnv (fun _ _ => 7) (5 : ZMod 11) (Toy.signShares i) (infos i) i (Toy.signDraws i) = .ok r := by
    intro i
    by_cases hi : i ∈ Toy.parties
    · obtain ⟨r, -, hr⟩ := hst i hi
      exact ⟨r, fun _ => hr⟩
    · obtain ⟨r, -, hr⟩ := hst 1 (by decide)
      exact ⟨r, fun h => absurd h hi⟩
  choose r1 hr1 using hst'
  obtain ⟨sig, m1, r2, r3, h1, -, -, h4, -, hrun⟩ := C41_honest_signature Toy.signEnv Toy.signEnv_setting (fun _ _ => 7) 5 6 Toy.parties Toy.signShares Toy.signShares_valid
    infos Toy.ringPedersen haux Toy.signDraws hd r1 hr1 (by decide +kernel) (by decide +kernel) (by decide +kernel) (by decide +kernel) (by decide +kernel)
  obtain ⟨-, hrun⟩ := hrun (fun i => inOrder (fun j => m1 j i) i) (fun i _ => inOrder_fromOthers _ i)
  obtain ⟨-, hrun⟩ := hrun (fun i => inOrder (fun j => msg2 (r2 j)) i) (fun i _ => inOrder_fromOthers _ i)
  obtain ⟨r4, -, hrun⟩ := hrun (fun i => inOrder (fun j => (r3 j).msg) i) (fun i _ => inOrder_fromOthers _ i)
  refine ⟨infos, r1, sig, _, _, _, fun i => inOrder (fun j => (r4 j).sigma) i, ?_, ?_, hr1, hrun _ (fun _ => []) (fun i _ => inOrder_fromOthers _ i)⟩
  · have : (6 : ZMod 11) • Toy.signEnv.C.g = 6 := by decide +kernel
    rw [this] at h1
    exact h1
  · rw [h4]; decide +kernel

end Examples

end Synedrion.Props
