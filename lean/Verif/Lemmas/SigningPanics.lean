import Verif.Lemmas.SigningRun
import Verif.Lemmas.SigningReach
import Verif.Lemmas.SigningEvidence
import Verif.Props.ZkSoundness

/-!
# Lemmas about interactive signing: what can panic
-/

set_option linter.unusedSectionVars false

namespace Synedrion

open Spec

theorem Out.bind_ne_panic {ε α β : Type} {x : Out ε α} {f : α → Out ε β} (hx : x ≠ .panic) (hf : ∀ a, x = .ok a → f a ≠ .panic) : x.bind f ≠ .panic := by
  cases x with
  | ok a => exact hf a rfl
  | err e => intro h; cases h
  | panic => exact absurd rfl hx

theorem Out.check_ne_panic {ε : Type} {b : Bool} {rest : Out ε Bool} (h : rest ≠ .panic) : Out.check b rest ≠ .panic := by
  cases b with
  | false => intro h; cases h
  | true => exact h

theorem ofOption_ne_panic {ε α : Type} {e : ε} {x : Option α} : Out.ofOption e x ≠ .panic := by cases x <;> (intro h; cases h)

theorem mapM'_ne_panic {ε α β : Type} {f : α → Out ε β} {l : List α} (h : ∀ a ∈ l, f a ≠ .panic) : Out.mapM' f l ≠ .panic := by
  intro hp
  obtain ⟨a, ha, hf⟩ := Out.mapM'_eq_panic hp
  exact h a ha hf

theorem buildMap_ne_panic {ε I V : Type} [LinearOrder I] {s : Finset I} {f : I → Out ε V} (h : ∀ i ∈ s, f i ≠ .panic) : buildMap s f ≠ .panic := by
  unfold buildMap
  refine Out.bind_ne_panic (mapM'_ne_panic fun i hi => ?_) fun _ _ => by simp
  exact Out.bind_ne_panic (h i (mem_bsetIter.1 hi)) fun _ _ => by simp

theorem traverse_ne_panic {ε I V W : Type} [LinearOrder I] {m : BMap I V} {f : I → V → Out ε W} (h : ∀ i v, m.get? i = some v → f i v ≠ .panic) :
    m.traverse f ≠ .panic := by
  unfold BMap.traverse
  refine Out.bind_ne_panic (mapM'_ne_panic fun e he => ?_) fun _ _ => by simp
  exact Out.bind_ne_panic (h _ _ (BMap.get?_eq_some_iff.2 he)) fun _ _ => by simp

theorem traverse_panic {ε I V W : Type} [LinearOrder I] {m : BMap I V} {f : I → V → Out ε W} {i : I} {v : V} (hi : m.get? i = some v)
    (h : ∀ i v, m.get? i = some v → f i v = .panic) : m.traverse f = .panic := by
  unfold BMap.traverse
  have hmem := BMap.get?_eq_some_iff.1 hi
  cases he : m.entries with
  | nil => rw [he] at hmem; cases hmem
  | cons e l =>
    rw [Out.mapM', h e.1 e.2 (BMap.get?_eq_some_iff.2 (by rw [he]; exact List.mem_cons_self))]
    rfl

theorem powPublic_ne_panic {ε : Type} {n : Nat} {a : ZMod n} (ha : IsUnit a) (e : SInt) : (powPublic a e : Out ε _) ≠ .panic := by
  obtain ⟨b, hb, _⟩ := powPublic_ok_of_isUnit (ε := ε) ha e
  rw [hb]; simp

theorem commitPublic_ne_panic {ε : Type} {N : Nat} {rp : RPParams N} (h : rp.Valid) (v r : SInt) : (rp.commitPublic v r : Out ε _) ≠ .panic := by
  unfold RPParams.commitPublic
  exact Out.bind_ne_panic (powPublic_ne_panic h.1 v) fun _ _ => Out.bind_ne_panic (powPublic_ne_panic h.2 r) fun _ _ => by simp

/-- Decryption with a well-formed key never panics, not even for a ciphertext that is not invertible. -/
theorem decrypt_ne_panic {ε : Type} {p q w bits : Nat} {sk : SecretKey p q} (hk : KeyFacts sk) (hb : p * q < 2 ^ bits) (hw : bits ≤ w) (c : Ct (p * q)) :
    (decrypt w bits sk c : Out ε _) ≠ .panic := by
  have hpos := hk.primes.pos
  have : NeZero (p * q) := ⟨hpos.ne'⟩
  have : NeZero ((p * q) ^ 2) := ⟨by positivity⟩
  have htle : sk.totient < 2 ^ bits := by
    rw [hk.totient]
    exact lt_of_le_of_lt (Nat.mul_le_mul (Nat.sub_le _ _) (Nat.sub_le _ _)) hb
  unfold decrypt
  rw [if_pos htle]
  simp only
  generalize powUnsigned c sk.totient bits - 1 = t
  have hx : t.val / (p * q) < 2 ^ w := by
    have h1 : t.val < (p * q) ^ 2 := ZMod.val_lt t
    have h2 : t.val / (p * q) < p * q := Nat.div_lt_of_lt_mul (by rw [← pow_two]; exact h1)
    exact lt_trans h2 (lt_of_lt_of_le hb (Nat.pow_le_pow_right (by norm_num) hw))
  rw [decide_eq_true hx]
  show SInt.newModulo _ _ _ _ ≠ _
  obtain ⟨v, hv, _⟩ := newModulo_ok (ε := ε) (odd_of_primes hk.primes) (ZMod.val_lt (((t.val / (p * q) : Nat) : ZMod (p * q)) * sk.invTotient)) hb hw
  rw [hv]; simp

section
variable {q : Nat} [NeZero q] {G : Type} [AddCommGroup G] [Module (ZMod q) G] [DecidableEq G] {Aux ε : Type}

/-- The verifier of enc-elg does not panic if its own ring-Pedersen bases are invertible. -/
theorem encElg_ne_panic {P : Params} (hq : q < 2 ^ P.numBits) (H : EncElgHash G Aux → ZMod q) (g : G) {N0 Nh : Nat} (prf : EncElgProof q G)
    (pub : EncElgPublic N0 G) {setup : RPParams Nh} (hrp : setup.Valid) (aux : Aux) : (prf.verify P H g pub setup aux : Out ε _) ≠ .panic := by
  simp only [EncElgProof.verify]
  refine Out.check_ne_panic (Out.check_ne_panic (Out.bind_ne_panic ?_ fun _ _ => Out.check_ne_panic (Out.check_ne_panic (Out.check_ne_panic
    (Out.bind_ne_panic (commitPublic_ne_panic hrp _ _) fun _ _ => Out.bind_ne_panic ?_ fun _ _ => Out.check_ne_panic (by simp))))))
  · unfold ctMulPublic; rw [powPublic_scalar hq]; simp
  · rw [powPublic_scalar hq]; simp

/-- The verifier of aff-g does not panic if the ring-Pedersen bases and the ciphertexts `C` and `Y` are invertible. -/
theorem affG_ne_panic {P : Params} (hq : q < 2 ^ P.numBits) (H : AffGHash G Aux → ZMod q) (g : G) {N0 N1 Nh : Nat} (prf : AffGProof q G)
    (pub : AffGPublic N0 N1 G) (hC : IsUnit pub.capC) (hY : IsUnit pub.capY) {setup : RPParams Nh} (hrp : setup.Valid) (aux : Aux) :
    (prf.verify P H g pub setup aux : Out ε _) ≠ .panic := by
  simp only [AffGProof.verify]
  refine Out.check_ne_panic (Out.check_ne_panic (Out.check_ne_panic (Out.bind_ne_panic (powPublic_ne_panic hC _) fun _ _ => Out.bind_ne_panic ?_ fun _ _ =>
    Out.check_ne_panic (Out.check_ne_panic (Out.bind_ne_panic (powPublic_ne_panic hY _) fun _ _ => Out.check_ne_panic
      (Out.bind_ne_panic (commitPublic_ne_panic hrp _ _) fun _ _ => Out.bind_ne_panic ?_ fun _ _ => Out.check_ne_panic
        (Out.bind_ne_panic (commitPublic_ne_panic hrp _ _) fun _ _ => Out.bind_ne_panic ?_ fun _ _ => Out.check_ne_panic (by simp)))))))) 
  · unfold ctMulPublic; rw [powPublic_scalar hq]; simp
  · rw [powPublic_scalar hq]; simp
  · rw [powPublic_scalar hq]; simp

end

theorem isUnit_ctOfWire {N w : Nat} (h : Nat.Coprime w N) : IsUnit (ctOfWire N w) :=
  (ZMod.isUnit_iff_coprime _ _).2 (h.pow_right 2)

namespace Signing

variable {q : Nat} [Fact q.Prime] {I Ep G : Type} [LinearOrder I] [AddCommGroup G] [Module (ZMod q) G] [DecidableEq G]
variable {E : Env q I Ep G} (hE : SigningSetting E)
include hE

/-- An honest party can make its ciphertexts and its proof for every invertible ciphertext. -/
theorem mtaSend_unit {c : Context q I Ep G} {target : PubAux} (hkeys : MtaKeys E.P target.pk c.key.modulus target.rp) {K : Ct target.pk}
    (hK : IsUnit K) (x : ZMod q) (d : MtaDraws I) (j : I) (hd : MtaDrawsValid E.P target.pk c.key.modulus target.rp.modulus d j) :
    ∃ out : MtaOut q G, mtaSend E c target ⟨target.pk, K⟩ (signedI E.P x) (x • E.C.g) d j = .ok out := by
  have : NeZero q := ⟨(Fact.out : q.Prime).ne_zero⟩
  obtain ⟨pk, rp⟩ := target
  simp only at *
  obtain ⟨U, rfl⟩ := hK
  have hb : (d.beta j).Fits := hd.beta.fits (LP_pos hE)
  obtain ⟨capF, hF, -, hFe⟩ := Cipher.encrypt_holds hb hd.r
  have hnb : (d.beta j).neg.Fits := by
    show (-(d.beta j).val).natAbs < _
    rw [Int.natAbs_neg]; exact hb
  obtain ⟨mask, hM, -, hMe⟩ := Cipher.encrypt_holds hnb hd.s
  have hset : Props.AffGSetting E.P q pk c.key.modulus rp.rp :=
    ⟨hE.consistent, hE.order, hE.curve, hkeys.pos0, hkeys.pos1, hkeys.hatPos, hkeys.hatSize, hkeys.bases⟩
  have hrel : Props.AffGRelation E.P pk c.key.modulus E.C.g q
      ⟨(U : Ct pk), ((U ^ (signedI E.P x).val : (ZMod (pk ^ 2))ˣ) : Ct pk) * (oneAdd pk (-(d.beta j).val) * ((d.s j : Nat) : Ct pk) ^ pk),
        oneAdd c.key.modulus (d.beta j).val * ((d.r j : Nat) : Ct c.key.modulus) ^ c.key.modulus, x • E.C.g⟩
      (signedI E.P x).val (d.beta j).val (d.s j) (d.r j) := by
    refine ⟨signedI_inPm hE x, hd.beta.2, ⟨U, rfl, _, rfl, rfl⟩, rfl, hd.s, hd.r, ?_⟩
    show x • E.C.g = ((centre x : Int) : ZMod q) • E.C.g
    rw [centre_cast]
  have hacc := Props.C28_inner_masks_accepted (ε := LocalErr) E.affH E.C.g rp.rp hset (signedI E.P x) (d.beta j) (signedI_fits hE x) (signedI_bound hE x) hb
    hd.beta.1.le (d.s j) (d.r j) _ hrel (c.epid, c.myId) (d.masks j) hd.masks hd.innerAlpha hd.innerBeta
  obtain ⟨psi, hpsi, -⟩ := Out.bind_eq_ok.1 hacc
  unfold mtaSend
  rw [hF, Out.bind_ok, Cipher.mulSecret_unit U (signedI_fits hE x), Out.bind_ok, hM, Out.bind_ok, hMe]
  unfold Cipher.add
  simp only [Cipher.under_self, Out.bind_ok]
  unfold affGProve
  rw [hFe]
  simp only [Cipher.under_self, Out.bind_ok]
  exact ⟨_, congrArg (fun y => Out.bind y _) hpsi⟩

omit hE in
theorem mtaSend_ne_err {c : Context q I Ep G} {target : PubAux} {capK : Cipher} {x : SInt} {capX : G} {d : MtaDraws I} {j : I} {e : LocalErr} :
    mtaSend E c target capK x capX d j ≠ .err e := by
  have hb : ∀ {α β : Type} {x : Out LocalErr α} {f : α → Out LocalErr β}, (∀ e, x ≠ .err e) → (∀ a, ∀ e, f a ≠ .err e) → ∀ e, x.bind f ≠ .err e := by
    intro α β x f hx hf e
    cases x with
    | ok a => exact hf a e
    | err e' => exact absurd rfl (hx e')
    | panic => intro h; cases h
  have hc : ∀ {α : Type} {x : Out Empty α} {y : Out LocalErr α}, Out.cast LocalErr x = y → ∀ e, y ≠ .err e := by
    intro α x y h e he
    rcases Out.ok_or_panic_of_cast h with h | ⟨a, h⟩ <;> rw [h] at he <;> cases he
  have henc : ∀ N m rho (e : LocalErr), (Cipher.encrypt N m rho : Out LocalErr _) ≠ .err e := fun N m rho =>
    hb (hc (enc_cast (ε := Empty) N m rho)) (by simp)
  have hund : ∀ N (c : Cipher) (e : LocalErr), (c.under N : Out LocalErr _) ≠ .err e := by
    intro N c e; unfold Cipher.under; split <;> simp
  unfold mtaSend
  refine hb (henc _ _ _) (fun _ => hb (hb (hc (ctMulSecret_cast (ε := Empty) _ _)) (by simp)) fun _ => hb (henc _ _ _) fun _ => hb (hb (hund _ _) (by simp)) fun _ => hb ?_ (by simp)) e
  unfold affGProve
  exact hb (hund _ _) fun _ => hb (hund _ _) fun _ => hb (hund _ _) fun _ => hc (AffGProof.prove_cast (ε := Empty) ..)

/-- A multiplication with a ciphertext that is not invertible panics. -/
theorem mtaSend_not_unit {c : Context q I Ep G} {target : PubAux} (hpk : 1 < target.pk) {K : Ct target.pk} (hK : ¬ IsUnit K) {x : ZMod q} (hx : x ≠ 0)
    (capX : G) (d : MtaDraws I) (j : I) : mtaSend E c target ⟨target.pk, K⟩ (signedI E.P x) capX d j = .panic := by
  have hx0 : (signedI E.P x).val ≠ 0 := by
    intro h
    apply hx
    rw [← centre_cast x, show centre x = 0 from h, Int.cast_zero]
  have h2 : (Cipher.mulSecret ⟨target.pk, K⟩ (signedI E.P x) : Out LocalErr _) = .panic := by
    unfold Cipher.mulSecret
    simp only
    rw [(Props.C20_non_unit_panics (ε := LocalErr) target.pk hpk K hK (signedI E.P x) (signedI_fits hE x) hx0).2.1]
    rfl
  cases hm : mtaSend E c target ⟨target.pk, K⟩ (signedI E.P x) capX d j with
  | panic => rfl
  | err e => exact absurd hm mtaSend_ne_err
  | ok o =>
    unfold mtaSend at hm
    rw [h2] at hm
    obtain ⟨_, _, h⟩ := Out.bind_eq_ok.1 hm
    cases h

end Signing
end Synedrion
