import Verif.Spec.KeyExtraction
import Verif.Lemmas.ZeroKnowledge
import Verif.Lemmas.SigningRun
import Verif.Lemmas.ToySigningRun
import Verif.Props.ZkSoundness

/-!
# Property C69: the answers in the multiplications hide the secret scalars

What a signer answers to an encrypted nonce share is distributed almost independently of its secret scalar, provided that the encrypted value is in the range that the proof with it is meant to establish. It
is not independent of it for other values, and since that proof can be forged (C53), a dishonest signer can read the secrets of all the others in one session.
-/

set_option linter.unusedSectionVars false

namespace Synedrion.Props

open Spec Signing

variable {q : Nat} [Fact q.Prime] {I Ep G : Type} [LinearOrder I] [AddCommGroup G] [Module (ZMod q) G] [DecidableEq G]

/-- The choices can be put in the place of honest draws. -/
private theorem withChoices_valid {P : Params} {N0 N1 Nh : Nat} {d : MtaDraws I} {j : I} (hd : MtaDrawsValid P N0 N1 Nh d j) {c : Int × Nat} (hc : c ∈ answerChoices P N0) :
    MtaDrawsValid P N0 N1 Nh (withChoices P d j c) j := by
  obtain ⟨h1, h2⟩ := Finset.mem_product.1 hc
  refine ⟨?_, hd.r, ?_, hd.masks, hd.innerAlpha, hd.innerBeta⟩
  · show SInt.IsDraw P.LP (Function.update d.beta j _ j)
    rw [Function.update_self]
    exact ⟨rfl, mem_pm.1 h1⟩
  · show Nat.Coprime (Function.update d.s j _ j) N0
    rw [Function.update_self]
    exact (mem_residues.1 h2).2

/-- **C69 (in range; part).** Let a signer answer the ciphertext `K` of a value `k` of at most `L + EPS` bits. For any two secrets `x` and `x'` the ciphertexts `D` it sends, with a uniform mask in
`±2^LP` and a uniform randomizer, are at most `2^-L` apart. So their recipient, who can decrypt them, learns next to nothing about the secret, whatever its computing power. Missing: other ciphertexts `K`,
for which it is false (`C69_key_revealed`); the other parts of the answer are an encryption under the signer's own key and a proof (C60). -/
theorem C69_answer_hides_partial (E : Env q I Ep G) (hE : SigningSetting E) (c : Context q I Ep G) (target : PubAux) (hpk : 0 < target.pk) (hown : 0 < c.key.modulus)
    (hrp : 0 < target.rp.modulus) (hsize : target.rp.modulus < 2 ^ E.P.modBits) (hbases : target.rp.rp.Valid)
    (k : Int) (hk : |k| ≤ 2 ^ (E.P.L + E.P.EPS)) (rho : Nat) (hrho : Nat.Coprime rho target.pk)
    (d : MtaDraws I) (j : I) (hd : MtaDrawsValid E.P target.pk c.key.modulus target.rp.modulus d j)
    (x x' : ZMod q) (xs xs' : SInt) (hx : (signedOfSecret E.P x : Out Unit _) = .ok xs) (hx' : (signedOfSecret E.P x' : Out Unit _) = .ok xs') :
    let answer (x : ZMod q) (xs : SInt) (choices : Int × Nat) : Out LocalErr Nat :=
      (mtaSend E c target ⟨target.pk, encryption target.pk k rho⟩ xs (x • E.C.g) (withChoices E.P d j choices) j).bind fun out => .ok out.capD.toWire
    StatClose (1 / 2 ^ E.P.L) (answerChoices E.P target.pk) (answer x xs) (answerChoices E.P target.pk) (answer x' xs') := by
  intro answer
  rw [signedOfSecret_ok hE] at hx hx'
  cases hx
  cases hx'
  obtain ⟨U, hU⟩ := natCast_unit_sq hrho
  have hkeys : MtaKeys E.P target.pk c.key.modulus target.rp := ⟨hpk, hown, hrp, hsize, hbases⟩
  have henc : ∀ (m : Int) (r : Nat) (u : (ZMod (target.pk ^ 2))ˣ), (u : Ct target.pk) = (r : Ct target.pk) → encryption target.pk m r = ((encU target.pk m u : (ZMod (target.pk ^ 2))ˣ) : Ct target.pk) := by
    intro m r u hu
    rw [encU_val, hu]; rfl
  have hKh : Cipher.Holds target.pk k ⟨target.pk, encryption target.pk k rho⟩ := ⟨U, by rw [henc k rho U hU, encU_val]⟩
  -- the answer as a function of the choices
  have hans : ∀ (y : ZMod q) (cs : Int × Nat), cs ∈ answerChoices E.P target.pk → ∀ V : (ZMod (target.pk ^ 2))ˣ, (V : Ct target.pk) = (cs.2 : Ct target.pk) →
      answer y (signedI E.P y) cs = .ok (ctToWire ((encU target.pk (k * (signedI E.P y).val - cs.1) (U ^ (signedI E.P y).val * V) : (ZMod (target.pk ^ 2))ˣ) : Ct target.pk)) := by
    intro y cs hcs V hV
    obtain ⟨out, h1, -, -, ⟨W, hW, h4⟩, -⟩ := mtaSend_honest hE (c := c) (target := target) hkeys hKh y _ j (withChoices_valid hd hcs)
    have hW' : W = encU target.pk k U := by
      have h5 : encryption target.pk k rho = (W : Ct target.pk) := eq_of_heq (Cipher.mk.inj hW).2
      exact Units.ext (h5.symm.trans (henc k rho U hU))
    show (mtaSend _ _ _ _ _ _ _ _).bind _ = _
    rw [h1, Out.bind_ok, h4]
    refine congrArg Out.ok ?_
    show ctToWire _ = ctToWire _
    refine congrArg ctToWire ?_
    have hb : (withChoices E.P d j cs).beta j = ⟨E.P.LP, cs.1⟩ := Function.update_self ..
    have hs : (withChoices E.P d j cs).s j = cs.2 := Function.update_self ..
    rw [hb, hs, hW', ← hV, ← encU_val, ← Units.val_mul, encU_zpow, encU_mul, sub_eq_add_neg]
  set a := (signedI E.P x).val with ha
  set b := (signedI E.P x').val with hb
  have hfits : (⟨(a - b).natAbs, a - b⟩ : SInt).Fits := Nat.lt_two_pow_self
  -- the difference of the secrets is absorbed by the mask and the randomizer
  have hshift : (k * (b - a)).natAbs ≤ 2 ^ (E.P.L + E.P.EPS + E.P.L) := by
    have h1 := signedI_abs hE x
    have h2 := signedI_abs hE x'
    have hL : 0 < E.P.L := hE.curve
    have h3 : |b - a| ≤ 2 ^ E.P.L := by
      calc |b - a| ≤ |b| + |a| := abs_sub _ _
        _ ≤ 2 ^ (E.P.L - 1) + 2 ^ (E.P.L - 1) := add_le_add h2.le h1.le
        _ = 2 ^ E.P.L := by rw [← two_mul, ← pow_succ']; congr 1; omega
    have h4 : |k * (b - a)| ≤ 2 ^ (E.P.L + E.P.EPS + E.P.L) := by
      rw [abs_mul, pow_add]
      exact mul_le_mul hk h3 (abs_nonneg _) (by positivity)
    rw [← Int.natCast_natAbs] at h4
    exact_mod_cast h4
  refine statClose_of_matching rfl (fun cs : Int × Nat => cs.1 + k * (b - a) ∈ pm E.P.LP)
    (fun cs => (cs.1 + k * (b - a), (zpowMod (rho : ZMod target.pk) (a - b) * (cs.2 : ZMod target.pk)).val)) ?_ ?_ ?_ (by positivity) ?_
  · rintro ⟨m, s⟩ hcs hg
    obtain ⟨-, hs⟩ := Finset.mem_product.1 hcs
    exact Finset.mem_product.2 ⟨hg, masked_mem hpk hrho (mem_residues.1 hs).2 _⟩
  · rintro ⟨m, s⟩ hcs ⟨m', s'⟩ hcs' - - h
    obtain ⟨-, hs⟩ := Finset.mem_product.1 hcs
    obtain ⟨-, hs'⟩ := Finset.mem_product.1 hcs'
    simp only [Prod.mk.injEq] at h ⊢
    exact ⟨add_right_cancel h.1, masked_inj hpk hrho (mem_residues.1 hs).1 (mem_residues.1 hs').1 _ h.2⟩
  · rintro ⟨m, s⟩ hcs hg
    obtain ⟨-, hs⟩ := Finset.mem_product.1 hcs
    have hsc := (mem_residues.1 hs).2
    obtain ⟨V, hV⟩ := natCast_unit_sq hsc
    have hmem := masked_mem hpk hrho hsc (a - b)
    obtain ⟨V', hV'⟩ := natCast_unit_sq (mem_residues.1 hmem).2
    rw [hans x (m, s) hcs V hV, hans x' _ (Finset.mem_product.2 ⟨hg, hmem⟩) V' hV']
    refine congrArg Out.ok (congrArg ctToWire (congrArg Units.val ?_))
    have h1 := encryption_masked hpk hU hV hrho hfits (-(m + k * (b - a)))
    rw [henc _ _ V' hV'] at h1
    have h2 : encU target.pk (-(m + k * (b - a))) V' = encU target.pk (-(m + k * (b - a))) (U ^ (a - b) * V) := Units.ext h1
    have h3 : encU target.pk (k * b - (m + k * (b - a))) (U ^ b * V') = encU target.pk (k * b) (U ^ b) * encU target.pk (-(m + k * (b - a))) V' := by
      rw [encU_mul, sub_eq_add_neg]
    rw [h3, h2, encU_mul, ← mul_assoc, ← zpow_add, show k * b + -(m + k * (b - a)) = k * a - m by ring, show b + (a - b) = a by ring]
  · have hLP : 0 < E.P.LP := LP_pos hE
    have h0 := Mostly.pm_shift hLP hshift
    have h1 := Mostly.fst (S' := residues target.pk) h0
    refine Mostly.mono h1 (le_of_eq ?_)
    obtain ⟨-, -, hs1, hs2, hs3, hs4, hs5, hs6, hs7⟩ := hE.consistent
    have hexp : E.P.LP = E.P.L + E.P.EPS + E.P.L + E.P.L := by
      have : E.P.LP = E.P.primeBits + E.P.L := rfl
      omega
    rw [hexp, pow_add _ (E.P.L + E.P.EPS + E.P.L)]
    push_cast
    field_simp

/-! ### The dishonest signer -/

section
variable {S : Run q I Ep G} {sk : ZMod q}

private theorem greedy_holds {P : Params} {N : Nat} (hN : 0 < N) (g : G) : ((greedyEcho P g N).payload N).capK.Holds N (2 ^ P.LP) := by
  have : NeZero N := ⟨hN.ne'⟩
  have : NeZero (N ^ 2) := ⟨by positivity⟩
  refine ⟨1, ?_⟩
  show Cipher.ofWire N (encryption N (2 ^ P.LP) 1).val = _
  have h : Cipher.ofWire N (ctToWire (encryption N (2 ^ P.LP) 1)) = ⟨N, encryption N (2 ^ P.LP) 1⟩ := Cipher.ofWire_toWire hN _
  refine h.trans ?_
  unfold encryption
  rw [Nat.cast_one, Units.val_one]
  rfl

private theorem greedy_accepted (h : S.Good sk) {i j : I} (hi : i ∈ S.ids) (hj : j ∈ S.ids) :
    recv1 S.E (S.ctx i) j (greedyMessage S.E (S.N j) (S.setup i) (S.epid, j)) = .ok ((greedyEcho S.E.P S.E.C.g (S.N j)).payload (S.N j)) := by
  have : NeZero q := ⟨(Fact.out : q.Prime).ne_zero⟩
  have hE := h.setting
  have hone : 1 < 2 ^ S.E.P.L := Nat.one_lt_two_pow (Nat.pos_iff_ne_zero.1 hE.curve)
  have hpos : 0 < 2 ^ S.E.P.L := by positivity
  unfold recv1
  simp only [Run.ctx, recvGet, Run.pubAux, Out.bind_ok, BMap.get?_tabulate, hi, hj, if_true, Out.ofOption_some]
  have h0 := encElgForgery_accepted (ε := RecvErr (Err I)) hE.consistent hE.curve hE.order S.E.encH S.E.C.g (h.pos hj) (h.rpPos i hi)
    ((greedyEcho S.E.P S.E.C.g (S.N j)).pub0 (S.N j)) (S.setup i).rp (S.epid, j) 0 1 hpos hone 1 1
    (by show S.E.C.g = (1 : ZMod q) • S.E.C.g; rw [one_smul]) (by show S.E.C.g = ((0 : Nat) : ZMod q) • S.E.C.g + (1 : ZMod q) • S.E.C.g; simp)
  have h1 := encElgForgery_accepted (ε := RecvErr (Err I)) hE.consistent hE.curve hE.order S.E.encH S.E.C.g (h.pos hj) (h.rpPos i hi)
    ((greedyEcho S.E.P S.E.C.g (S.N j)).pub1 (S.N j)) (S.setup i).rp (S.epid, j) 0 1 hpos hone 1 1
    (by show S.E.C.g = (1 : ZMod q) • S.E.C.g; rw [one_smul]) (by show S.E.C.g = ((0 : Nat) : ZMod q) • S.E.C.g + (1 : ZMod q) • S.E.C.g; simp)
  refine (congrArg (fun o => Out.bind o _) h0).trans ?_
  rw [Out.bind_ok, if_neg (by simp)]
  refine (congrArg (fun o => Out.bind o _) h1).trans ?_
  rw [Out.bind_ok, if_neg (by simp)]
  rfl

/-- A scalar times `2^LP` minus a mask does not wrap around, and determines the scalar. -/
private theorem greedy_read {E : Env q I Ep G} (hE : SigningSetting E) (x : ZMod q) {m : Int} (hm : InPm E.P.LP m) :
    2 * |(signedI E.P x).val * 2 ^ E.P.LP - m| < 2 ^ (E.P.modBits - 2) ∧ ∀ n, readAnswer E.P q ⟨n, (signedI E.P x).val * 2 ^ E.P.LP - m⟩ = x := by
  obtain ⟨hc0, ⟨hm1, hm2, hm3, hm4, hm5, hm6⟩, hs1, hs2, hs3, hs4, hs5, hs6, hs7⟩ := hE.consistent
  have hL : 0 < E.P.L := hE.curve
  have hLP : 0 < E.P.LP := LP_pos hE
  have hx := signedI_abs hE x
  have h2 : |m| ≤ 2 ^ (E.P.LP - 1) := abs_le.2 ⟨by have := hm.1; omega, hm.2⟩
  constructor
  · have h1 : |(signedI E.P x).val * 2 ^ E.P.LP| ≤ 2 ^ (E.P.L - 1 + E.P.LP) := by
      rw [abs_mul, abs_of_nonneg (show (0 : Int) ≤ 2 ^ E.P.LP by positivity), pow_add]
      exact mul_le_mul_of_nonneg_right hx.le (by positivity)
    have h3 : (2 : Int) ^ (E.P.LP - 1) ≤ 2 ^ (E.P.L - 1 + E.P.LP) := pow_le_pow_right₀ (by norm_num) (by omega)
    calc 2 * |(signedI E.P x).val * 2 ^ E.P.LP - m| ≤ 2 * (2 ^ (E.P.L - 1 + E.P.LP) + 2 ^ (E.P.L - 1 + E.P.LP)) := by
          have := abs_sub ((signedI E.P x).val * 2 ^ E.P.LP) m
          omega
      _ = 2 ^ (E.P.L - 1 + E.P.LP + 2) := by ring
      _ < 2 ^ (E.P.modBits - 2) := pow_lt_pow_right₀ (by norm_num) (by omega)
  · intro n
    unfold readAnswer
    have hhalf : (2 : Int) ^ E.P.LP = 2 * 2 ^ (E.P.LP - 1) := by rw [← pow_succ']; congr 1; omega
    have hq : ((signedI E.P x).val * 2 ^ E.P.LP - m + 2 ^ (E.P.LP - 1)) / 2 ^ E.P.LP = (signedI E.P x).val := by
      rw [show (signedI E.P x).val * 2 ^ E.P.LP - m + 2 ^ (E.P.LP - 1) = (2 ^ (E.P.LP - 1) - m) + (signedI E.P x).val * 2 ^ E.P.LP by ring,
        Int.add_mul_ediv_right _ _ (by positivity), Int.ediv_eq_zero_of_lt (by have := hm.2; omega) (by have := hm.1; omega), zero_add]
    show ((((signedI E.P x).val * 2 ^ E.P.LP - m + 2 ^ (E.P.LP - 1)) / 2 ^ E.P.LP : Int) : ZMod q) = x
    rw [hq]
    exact centre_cast x

end

section
variable (E : Env q I Ep G) (hE : SigningSetting E) (epidOf : BMap I G → BMap I PublicAux → Ep) (message sk : ZMod q) (ids : Finset I)
  (shares : I → KeyShare I (ZMod q) G) (hshares : SharesKey E.C.g ids shares sk) (infos : I → AuxInfo I PaillierKey PublicAux) (setup : I → RPSetup)
  (haux : UsableAux E.P ids infos setup) (d : I → Draws q I)
  (hd : SigningDrawsValid E.P ids (fun i => (infos i).secret.modulus) (fun i => (setup i).modulus) d)

include hE hshares haux hd in
/-- **C69 (finding).** Let the parties of `ids` start to sign, with valid shares, auxiliary info and draws. All but `j` follow the protocol; `j` follows it up to the messages of round 1, where it sends
`greedyMessage` instead, which it can make without any secret. Whatever the order of arrival, all the others accept these messages and go on to round 2. Each of them broadcasts there a ciphertext for `j`
from which `j` reads the secret share of the sender, exactly and for all draws, and another one from which it reads the sender's share of the nonce. Together with its own share `j` then has the key. -/
theorem C69_key_revealed {j : I} (hj : j ∈ ids) (r1 : I → Round1 q I Ep G) (hst : ∀ i ∈ ids, start E epidOf message (shares i) (infos i) i (d i) = .ok (r1 i)) :
    ∃ m1 : I → I → Msg1 q G, (∀ i ∈ ids, ∀ k ∈ ids, i ≠ k → msg1 E (r1 i) k = .ok (m1 i k)) ∧
      ∀ in1 : I → List (I × Msg1 q G),
        (∀ i ∈ ids, i ≠ j → FromOthers ids i (fun k => if k = j then greedyMessage E (infos j).secret.modulus (setup i) ((r1 j).ctx.epid, j) else m1 k i) (in1 i)) →
        ∃ (r2 : I → Round2 q I Ep G) (w hatW : I → Nat) (v hatV : I → SInt),
          (∀ i ∈ ids, i ≠ j → toRound2 E (r1 i) (in1 i) = .ok (r2 i) ∧
            (msg2 (r2 i)).capDs.get? j = some (w i) ∧ ((infos j).secret.decryptCipher E.P (.ofWire (infos j).secret.modulus (w i)) : Out Unit _) = .ok (v i) ∧
            readAnswer E.P q (v i) = (d i).gamma ∧
            (msg2 (r2 i)).hatCapDs.get? j = some (hatW i) ∧ ((infos j).secret.decryptCipher E.P (.ofWire (infos j).secret.modulus (hatW i)) : Out Unit _) = .ok (hatV i) ∧
            readAnswer E.P q (hatV i) = (shares i).secret) ∧
          (shares j).secret + ∑ i ∈ ids.erase j, readAnswer E.P q (hatV i) = sk := by
  obtain ⟨S, hS⟩ : ∃ S, S = honest E epidOf message ids shares infos setup d := ⟨_, rfl⟩
  have good : S.Good sk := hS ▸ honest_good E hE epidOf message sk ids shares hshares infos setup haux d hd
  have hr1 : ∀ i ∈ ids, r1 i = S.r1 i := by
    intro i hi
    have h := hst i hi
    rw [honest_start E hE epidOf message sk ids shares hshares infos setup haux d hi] at h
    rw [hS]; exact (Out.ok.inj h).symm
  have hids : S.ids = ids := by rw [hS]; rfl
  have hSE : S.E = E := by rw [hS]; rfl
  have hSd : S.d = d := by rw [hS]; rfl
  have hSs : S.shares = shares := by rw [hS]; rfl
  have hSk : ∀ i, S.key i = (infos i).secret := fun i => by rw [hS]; rfl
  have hSu : S.setup = setup := by rw [hS]; rfl
  clear hS
  subst hids hSE hSd hSs hSu
  obtain ⟨m1, o, ho, hm1, -⟩ := Run.good_rounds good
  refine ⟨m1, fun i hi k hk hik => by rw [hr1 i hi]; exact (hm1 i hi k hk hik).sent, fun in1 h1 => ?_⟩
  have hep : (r1 j).ctx.epid = S.epid := by rw [hr1 j hj]; rfl
  have hN : (infos j).secret.modulus = S.N j := by rw [← hSk]; rfl
  rw [hep, hN] at h1
  -- the answers
  have hans : ∀ i ∈ S.ids, i ≠ j → ∀ (x : ZMod q) (dr : MtaDraws I), MtaDrawsValid S.E.P (S.N j) (S.N i) (S.setup j).modulus dr j → ∃ out : MtaOut q G,
      mtaSend S.E (S.ctx i) ⟨S.N j, S.setup j⟩ ((greedyEcho S.E.P S.E.C.g (S.N j)).payload (S.N j)).capK (signedI S.E.P x) (x • S.E.C.g) dr j = .ok out ∧
      ∃ v, ((infos j).secret.decryptCipher S.E.P (.ofWire (S.N j) out.capD.toWire) : Out Unit _) = .ok v ∧ readAnswer S.E.P q v = x := by
    intro i hi hne x dr hdr
    have hkeys : MtaKeys S.E.P (S.N j) (S.N i) (S.setup j) := ⟨good.pos hj, good.pos hi, good.rpPos j hj, good.rpSize j hj, good.rpValid j hj⟩
    obtain ⟨out, h2, h3, -⟩ := mtaSend_honest good.setting (c := S.ctx i) (target := ⟨S.N j, S.setup j⟩) hkeys (greedy_holds (good.pos hj) S.E.C.g) x dr j hdr
    obtain ⟨h4, h5⟩ := greedy_read good.setting x hdr.beta.2
    refine ⟨out, h2, _, ?_, h5 (S.E.P.modBits - 1)⟩
    rw [Run.ofWire_toWire' (good.pos hj) h3.pk, ← hSk]
    have h6 : ((2 ^ (S.E.P.modBits - 2) : Nat) : Int) ≤ (S.N j : Int) := by exact_mod_cast good.big j hj
    push_cast at h6
    exact Cipher.Holds.decrypt (good.key j hj) (good.size j hj) good.setting.consistent.2.1.2.2.1 h3 (lt_of_lt_of_le h4 h6) Unit
  have hboth : ∀ i, ∃ (out : MtaOut q G × MtaOut q G) (v hatV : SInt), i ∈ S.ids → i ≠ j →
      (mtaSend S.E (S.ctx i) ⟨S.N j, S.setup j⟩ ((greedyEcho S.E.P S.E.C.g (S.N j)).payload (S.N j)).capK (signedI S.E.P (S.d i).gamma) ((S.d i).gamma • S.E.C.g) (S.d i).mta j =
        .ok out.1 ∧ ((infos j).secret.decryptCipher S.E.P (.ofWire (S.N j) out.1.capD.toWire) : Out Unit _) = .ok v ∧ readAnswer S.E.P q v = (S.d i).gamma) ∧
      (mtaSend S.E (S.ctx i) ⟨S.N j, S.setup j⟩ ((greedyEcho S.E.P S.E.C.g (S.N j)).payload (S.N j)).capK (signedI S.E.P (S.shares i).secret) ((S.shares i).secret • S.E.C.g)
        (S.d i).hatMta j = .ok out.2 ∧ ((infos j).secret.decryptCipher S.E.P (.ofWire (S.N j) out.2.capD.toWire) : Out Unit _) = .ok hatV ∧
        readAnswer S.E.P q hatV = (S.shares i).secret) := by
    intro i
    by_cases hij : i ∈ S.ids ∧ i ≠ j
    · obtain ⟨o1, a1, v1, b1, c1⟩ := hans i hij.1 hij.2 (S.d i).gamma (S.d i).mta (good.draws.mta i hij.1 j hj hij.2)
      obtain ⟨o2, a2, v2, b2, c2⟩ := hans i hij.1 hij.2 (S.shares i).secret (S.d i).hatMta (good.draws.hatMta i hij.1 j hj hij.2)
      exact ⟨(o1, o2), v1, v2, fun _ _ => ⟨⟨a1, b1, c1⟩, a2, b2, c2⟩⟩
    · exact ⟨o i j, ⟨0, 0⟩, ⟨0, 0⟩, fun a b => absurd ⟨a, b⟩ hij⟩
  choose out v hatV hout using hboth
  let pl : I → Payload1 G := fun k => if k = j then (greedyEcho S.E.P S.E.C.g (S.N j)).payload (S.N j) else S.pl1 k
  let outs : I → I → MtaOut q G × MtaOut q G := fun i k => if k = j then out i else o i k
  let r2 : I → Round2 q I Ep G := fun i =>
    ⟨S.ctx i, (BMap.tabulate (S.ids.erase i) pl).insert i (S.pl1 i), (S.d i).gamma • S.E.C.g, S.psiElog i, BMap.tabulate (S.ids.erase i) (outs i)⟩
  refine ⟨r2, fun i => (out i).1.capD.toWire, fun i => (out i).2.capD.toWire, v, hatV, ?_, ?_⟩
  · intro i hi hne
    obtain ⟨⟨a1, b1, c1⟩, a2, b2, c2⟩ := hout i hi hne
    have hjm : j ∈ S.ids.erase i := Finset.mem_erase.2 ⟨Ne.symm hne, hj⟩
    refine ⟨?_, ?_, by rw [hN]; exact b1, c1, ?_, by rw [hN]; exact b2, c2⟩
    · rw [hr1 i hi]
      unfold toRound2
      have hsend : send1 S.E (S.r1 i) = .ok ((bsetIter (S.ids.erase i)).map fun j => (j, m1 i j)) := by
        unfold send1
        refine Out.mapM'_ok_of_forall (g := fun j => (j, m1 i j)) fun k hk => ?_
        obtain ⟨hne, hk⟩ := Finset.mem_erase.1 (mem_bsetIter.1 hk)
        rw [finalizeResult_eq_ok.2 (hm1 i hi k hk (Ne.symm hne)).sent, Out.bind_ok]
      rw [hsend, Out.bind_ok]
      have hc := collect_others (h1 i hi hne) (recv := recv1 S.E (S.ctx i)) (pl := pl) (fun k hk hki => by
        by_cases hkj : k = j
        · subst hkj
          simp only [if_true, pl]
          exact greedy_accepted good hi hk
        · simp only [hkj, if_false, pl]
          exact (hm1 k hk i hi hki).accepted)
      refine (congrArg (fun x => Out.bind x _) hc).trans ?_
      rw [Out.bind_ok]
      refine finalizeResult_eq_ok.2 ?_
      unfold finalize1
      have hpay : (S.r1 i).echo.payload (S.r1 i).ctx.key.modulus = S.pl1 i := good.payload_eq hi
      simp only [hpay]
      simp only [Run.r1, Run.ctx, finGet, signedOfSecret_ok good.setting, Out.bind_ok, good.keys.public_matches i hi i hi, Out.ofOption_some]
      rw [buildMap_ok (v := outs i), Out.bind_ok]
      · rfl
      · intro k hk
        obtain ⟨hki, hk'⟩ := Finset.mem_erase.1 hk
        simp only [Run.pubAux, BMap.get?_tabulate, hk', hk, if_true, Out.ofOption_some, Out.bind_ok, BMap.get?_insert, hki, if_false]
        by_cases hkj : k = j
        · subst hkj
          simp only [if_true, pl, outs]
          refine (congrArg (fun x => Out.bind x _) a1).trans ?_
          rw [Out.bind_ok]
          refine (congrArg (fun x => Out.bind x _) a2).trans ?_
          rw [Out.bind_ok]
        · simp only [hkj, if_false, pl, outs]
          have h1 := (ho.mta i hi k hk' (Ne.symm hki)).sent
          have h2 := (ho.hatMta i hi k hk' (Ne.symm hki)).sent
          refine (congrArg (fun x => Out.bind x _) h1).trans ?_
          rw [Out.bind_ok]
          refine (congrArg (fun x => Out.bind x _) h2).trans ?_
          rw [Out.bind_ok]
    · simp only [msg2, r2, BMap.get?_mapVals, BMap.get?_tabulate, hjm, if_true, outs, Option.map_some]
    · simp only [msg2, r2, BMap.get?_mapVals, BMap.get?_tabulate, hjm, if_true, outs, Option.map_some]
  · rw [Finset.sum_congr rfl (fun i hi => (hout i (Finset.mem_of_mem_erase hi) (Finset.ne_of_mem_erase hi)).2.2.2), Finset.add_sum_erase S.ids (fun i => (S.shares i).secret) hj]
    exact good.keys.sum

end

/-! ### The hypotheses can be met -/

section Examples
attribute [local instance] Toy.fact11 Toy.order11

/-- In the example run, party 2 sends `greedyMessage` and reads the shares 1 and 3 of the others; the key is 6. -/
example : ∃ (infos : Nat → AuxInfo Nat PaillierKey PublicAux) (r1 : Nat → Round1 11 Nat Nat (ZMod 11)) (in1 : Nat → List (Nat × Msg1 11 (ZMod 11)))
    (r2 : Nat → Round2 11 Nat Nat (ZMod 11)) (w : Nat → Nat) (v : Nat → SInt),
    (∀ i ∈ Toy.parties, start Toy.signEnv (fun _ _ => 7) (5 : ZMod 11) (Toy.signShares i) (infos i) i (Toy.signDraws i) = .ok (r1 i)) ∧
    (∀ i ∈ Toy.parties, i ≠ 2 → toRound2 Toy.signEnv (r1 i) (in1 i) = .ok (r2 i) ∧ (msg2 (r2 i)).hatCapDs.get? 2 = some (w i) ∧
      ((infos 2).secret.decryptCipher Toy.signEnv.P (.ofWire (infos 2).secret.modulus (w i)) : Out Unit _) = .ok (v i)) ∧
    readAnswer Toy.signEnv.P 11 (v 1) = 1 ∧ readAnswer Toy.signEnv.P 11 (v 3) = 3 := by
  obtain ⟨infos, S, -, -, haux, hdv, -, -, -, -, -, -, -, hst, -⟩ := Toy.signRun
  obtain ⟨m1, -, h⟩ := C69_key_revealed Toy.signEnv Toy.signEnv_setting (fun _ _ => 7) 5 6 Toy.parties Toy.signShares Toy.signShares_valid infos Toy.ringPedersen haux Toy.signDraws hdv
    (j := 2) (by decide) S.r1 hst
  have hin : ∃ in1 : Nat → List (Nat × Msg1 11 (ZMod 11)), ∀ i ∈ Toy.parties, i ≠ 2 → FromOthers Toy.parties i (fun k => if k = 2 then
      greedyMessage Toy.signEnv (infos 2).secret.modulus (Toy.ringPedersen i) ((S.r1 2).ctx.epid, 2) else m1 k i) (in1 i) :=
    ⟨fun i => Toy.arrivals _ i, fun i _ _ => Toy.arrivals_fromOthers _ i⟩
  obtain ⟨in1, hin⟩ := hin
  obtain ⟨r2, _, w, _, v, hr, -⟩ := h in1 hin
  refine ⟨infos, S.r1, in1, r2, w, v, hst, fun i hi hne => ?_, ?_, ?_⟩
  · obtain ⟨h1, -, -, -, h2, h3, -⟩ := hr i hi hne
    exact ⟨h1, h2, h3⟩
  · exact (hr 1 (by decide) (by decide)).2.2.2.2.2.2
  · exact ((hr 3 (by decide) (by decide)).2.2.2.2.2.2).trans (by decide +kernel)

/-- In the same setting the answers of party 1 to an encryption of 5 hide whether its secret is 3 or 9. -/
example : ∃ (c : Context 11 Nat Nat (ZMod 11)) (target : PubAux) (xs xs' : SInt),
    (signedOfSecret Toy.signEnv.P (3 : ZMod 11) : Out Unit _) = .ok xs ∧ (signedOfSecret Toy.signEnv.P (9 : ZMod 11) : Out Unit _) = .ok xs' ∧
    StatClose (1 / 2 ^ 32) (answerChoices Toy.signEnv.P target.pk)
      (fun choices => (mtaSend Toy.signEnv c target ⟨target.pk, encryption target.pk 5 2⟩ xs ((3 : ZMod 11) • Toy.signEnv.C.g)
        (withChoices Toy.signEnv.P (Toy.mtaDraws 1) 3 choices) 3).bind fun out => .ok out.capD.toWire)
      (answerChoices Toy.signEnv.P target.pk)
      (fun choices => (mtaSend Toy.signEnv c target ⟨target.pk, encryption target.pk 5 2⟩ xs' ((9 : ZMod 11) • Toy.signEnv.C.g)
        (withChoices Toy.signEnv.P (Toy.mtaDraws 1) 3 choices) 3).bind fun out => .ok out.capD.toWire) := by
  obtain ⟨infos, S, -, -, haux, -, hmod, -, -, -, -, -, -, hst, -⟩ := Toy.signRun
  have hkey : (S.r1 1).ctx.key.modulus = Toy.primeP * Toy.primeQ := by
    rw [(start_eq_ok (hst 1 (by decide))).2.2.2.2.2.2.2.2.2]; exact hmod 1
  refine ⟨(S.r1 1).ctx, ⟨Toy.primeP * Toy.primeQ, Toy.ringPedersen 3⟩, _, _, signedOfSecret_ok Toy.signEnv_setting _, signedOfSecret_ok Toy.signEnv_setting _, ?_⟩
  refine C69_answer_hides_partial Toy.signEnv Toy.signEnv_setting (S.r1 1).ctx ⟨Toy.primeP * Toy.primeQ, Toy.ringPedersen 3⟩ (by decide) (by rw [hkey]; decide) (by decide +kernel)
    (by decide +kernel) ?_ 5 (by decide +kernel) 2 Toy.two_coprime (Toy.mtaDraws 1) 3 ?_ 3 9 _ _ (signedOfSecret_ok Toy.signEnv_setting _) (signedOfSecret_ok Toy.signEnv_setting _)
  · exact haux.rpValid 3 (by decide)
  · rw [hkey]; exact Toy.mtaDraws_valid 1 3

end Examples

end Synedrion.Props
