import Verif.Lemmas.SigningHonest
import Verif.Spec.SigningError

/-!
# Lemmas about the error rounds of signing
-/

set_option linter.unusedSectionVars false

namespace Synedrion

open Spec

/-! ### Sums of ciphertexts -/

namespace Cipher

theorem sumLoop_holds {α : Type} {N : Nat} {cx : α → Cipher} {v : α → Int} : ∀ (l : List α) {acc : Cipher} {a : Int}, acc.Holds N a →
    (∀ x ∈ l, (cx x).Holds N (v x)) → ∃ c : Cipher, c.Holds N (a + (l.map v).sum) ∧
      ∀ (ε : Type) (f : α → Out ε Cipher), (∀ x ∈ l, f x = .ok (cx x)) → sumLoop acc (l.map f) = .ok c := by
  intro l
  induction l with
  | nil => intro acc a h _; exact ⟨acc, by simpa using h, fun _ _ _ => rfl⟩
  | cons x l ih =>
    intro acc a h hl
    obtain ⟨e, he, heh⟩ := h.add (hl x List.mem_cons_self)
    obtain ⟨c, hc, hcs⟩ := ih heh (fun y hy => hl y (List.mem_cons_of_mem _ hy))
    refine ⟨c, by simpa [add_assoc] using hc, fun ε f hf => ?_⟩
    rw [List.map_cons, sumLoop, hf x List.mem_cons_self, Out.bind_ok, he, Out.bind_ok]
    exact hcs ε f fun y hy => hf y (List.mem_cons_of_mem _ hy)

theorem sumNonEmpty_holds {α : Type} {N : Nat} {cx : α → Cipher} {v : α → Int} {l : List α} (hl : l ≠ []) (h : ∀ x ∈ l, (cx x).Holds N (v x)) :
    ∃ c : Cipher, c.Holds N (l.map v).sum ∧
      ∀ (ε : Type) (e : ε) (f : α → Out ε Cipher), (∀ x ∈ l, f x = .ok (cx x)) → sumNonEmpty e (l.map f) = .ok c := by
  cases l with
  | nil => exact absurd rfl hl
  | cons x l =>
    obtain ⟨c, hc, hcs⟩ := sumLoop_holds l (h x List.mem_cons_self) (fun y hy => h y (List.mem_cons_of_mem _ hy))
    refine ⟨c, by simpa using hc, fun ε e f hf => ?_⟩
    rw [List.map_cons, sumNonEmpty, hf x List.mem_cons_self, Out.bind_ok]
    exact hcs ε f fun y hy => hf y (List.mem_cons_of_mem _ hy)

/-- Deriving the randomizer of a ciphertext. -/
theorem Holds.randomizer {P : Params} {key : PaillierKey} (hp : PaillierPrimes key.p key.q) (hsk : (SecretKey.new key.p key.q : Out Unit _) = .ok key.sk)
    (hb : key.modulus < 2 ^ P.modBits) (hw : P.modBits ≤ P.uint) {m : Int} {c : Cipher} (hc : c.Holds key.modulus m) (hm : 2 * |m| < (key.modulus : Nat)) :
    ∃ rho, Nat.Coprime rho key.modulus ∧ c = ⟨key.modulus, oneAdd key.modulus m * (rho : Ct key.modulus) ^ key.modulus⟩ ∧
      ∀ ε, (key.randomizerOf P c : Out ε _) = .ok rho := by
  have hdec := hc.decrypt (Props.facts_of_new hp hsk) hb hw hm Unit
  obtain ⟨U, hU⟩ : ∃ U : (ZMod ((key.p * key.q) ^ 2))ˣ, c = ⟨key.p * key.q, (U : Ct (key.p * key.q))⟩ := hc.unit
  subst hU
  unfold PaillierKey.decryptCipher PaillierKey.modulus at hdec
  rw [under_self, Out.bind_ok] at hdec
  obtain ⟨m', h1, h2, h3⟩ := (Props.C21_randomizer_recovery hp key.sk hsk P.uint P.modBits hb hw).2 _ U.isUnit
  have hm' : m' = ⟨P.modBits - 1, m⟩ := Out.ok.inj (h1.symm.trans hdec)
  subst hm'
  refine ⟨_, h2, ?_, fun ε => by unfold PaillierKey.randomizerOf PaillierKey.modulus; rw [under_self, Out.bind_ok]⟩
  have hfit : (⟨P.modBits - 1, m⟩ : SInt).Fits := by
    by_contra hn
    unfold SInt.Fits at hn
    unfold enc at h3
    rw [if_neg hn] at h3
    cases h3
  rw [enc_eq hfit] at h3
  exact congrArg (Cipher.mk (key.p * key.q)) (Out.ok.inj h3).symm

end Cipher

namespace Signing

variable {q : Nat} [Fact q.Prime] {I Ep G : Type} [LinearOrder I] [AddCommGroup G] [Module (ZMod q) G] [DecidableEq G]

/-- An entry of a matrix -/
def Entry (m : BMap I (BMap I Cipher)) (by' for' : I) (c : Cipher) : Prop := ∃ row, m.get? by' = some row ∧ row.get? for' = some c

theorem Entry.get {m : BMap I (BMap I Cipher)} {by' for' : I} {c : Cipher} (h : Entry m by' for' c) {ε : Type} (missing : ε) :
    matrixGet missing m for' by' = .ok c := by
  obtain ⟨row, h1, h2⟩ := h
  unfold matrixGet
  rw [h1, Out.ofOption_some, Out.bind_ok, h2, Out.ofOption_some]

theorem aggregate_holds {N : Nat} {ids : Finset I} (hne : ids.Nonempty) {cd cf : I → Cipher} {md mf : I → Int} (hd : ∀ i ∈ ids, (cd i).Holds N (md i))
    (hf : ∀ i ∈ ids, (cf i).Holds N (mf i)) {capDs capFs : BMap I (BMap I Cipher)} {party : I} (hds : ∀ i ∈ ids, Entry capDs i party (cd i))
    (hfs : ∀ i ∈ ids, Entry capFs party i (cf i)) :
    ∃ c : Cipher, c.Holds N (∑ i ∈ ids, md i + ∑ i ∈ ids, mf i) ∧
      ∀ (ε : Type) (missing emptyErr : ε), aggregate missing emptyErr capDs capFs party ids = .ok c := by
  have hl : bsetIter ids ≠ [] := by
    obtain ⟨i, hi⟩ := hne
    intro h
    have := mem_bsetIter.2 hi
    rw [h] at this
    cases this
  obtain ⟨c1, h1, h1'⟩ := Cipher.sumNonEmpty_holds hl (fun i hi => hd i (mem_bsetIter.1 hi))
  obtain ⟨c2, h2, h2'⟩ := Cipher.sumNonEmpty_holds hl (fun i hi => hf i (mem_bsetIter.1 hi))
  rw [sum_bsetIter] at h1 h2
  obtain ⟨c, hc, hh⟩ := h1.add h2
  refine ⟨c, hh, fun ε missing emptyErr => ?_⟩
  unfold aggregate
  rw [h1' ε emptyErr (fun id => matrixGet missing capDs party id) (fun i hi => (hds i (mem_bsetIter.1 hi)).get missing), Out.bind_ok,
    h2' ε emptyErr (fun id => matrixGet missing capFs id party) (fun i hi => (hfs i (mem_bsetIter.1 hi)).get missing), Out.bind_ok, hc]

section
variable {E : Env q I Ep G} (hE : SigningSetting E)
include hE

/-- The value decrypted in an error round is in the announced interval and does not wrap around. -/
theorem err_bound {others : Finset I} {n c : Nat} (hn : others.card + 1 = n) (hfew : FewParties E.P n c) {x k : Int} {md beta : I → Int}
    (hx : |x| < 2 ^ (E.P.L - 1)) (hk : |k| < 2 ^ (E.P.L - 1)) (hmd : ∀ i ∈ others, |md i| ≤ 2 ^ (E.P.LP + E.P.EPS) + 2 ^ (2 * E.P.L + E.P.EPS - 1))
    (hb : ∀ i ∈ others, InPm E.P.LP (beta i)) :
    |x * k + (∑ i ∈ others, md i + ∑ i ∈ others, beta i)| < 2 ^ (E.P.LP + E.P.EPS + c) := by
  have hL : 0 < E.P.L := hE.curve
  have hLP := LP_pos hE
  have hnc := hfew.log.1
  have hc := hfew.slack
  have hw := hfew.noWrap
  have hge : 2 * E.P.L + E.P.EPS ≤ E.P.LP := by
    obtain ⟨hc0, ⟨hm1, hm2, hm3, hm4, hm5, hm6⟩, hs1, hs2, hs3, hs4, hs5, hs6, hs7⟩ := hE.consistent
    omega
  have h1 : |x * k| ≤ 2 ^ (2 * E.P.L - 2) := by
    rw [abs_mul]
    calc |x| * |k| ≤ 2 ^ (E.P.L - 1) * 2 ^ (E.P.L - 1) := mul_le_mul hx.le hk.le (abs_nonneg _) (by positivity)
      _ = 2 ^ (E.P.L - 1 + (E.P.L - 1)) := (pow_add ..).symm
      _ = 2 ^ (2 * E.P.L - 2) := by congr 1; omega
  have h2 : |∑ i ∈ others, md i| ≤ others.card * (2 ^ (E.P.LP + E.P.EPS) + 2 ^ (2 * E.P.L + E.P.EPS - 1)) := by
    refine (Finset.abs_sum_le_sum_abs _ _).trans ((Finset.sum_le_card_nsmul _ _ _ hmd).trans_eq ?_)
    rw [nsmul_eq_mul]
  have h3 : |∑ i ∈ others, beta i| ≤ others.card * 2 ^ (E.P.LP - 1) := by
    refine (Finset.abs_sum_le_sum_abs _ _).trans ((Finset.sum_le_card_nsmul _ _ (2 ^ (E.P.LP - 1)) fun i hi => ?_).trans_eq ?_)
    · exact abs_le.2 ⟨by have := (hb i hi).1; omega, (hb i hi).2⟩
    · rw [nsmul_eq_mul]
  have h4 : |x * k + (∑ i ∈ others, md i + ∑ i ∈ others, beta i)| ≤ |x * k| + (|∑ i ∈ others, md i| + |∑ i ∈ others, beta i|) :=
    (abs_add_le _ _).trans (add_le_add le_rfl (abs_add_le _ _))
  have hcard : ((others.card : Int) + 1) ≤ 2 ^ c := by
    have : others.card + 1 ≤ 2 ^ c := by omega
    exact_mod_cast this
  have e1 : (2 : Int) ^ (2 * E.P.L - 2) ≤ 2 ^ (2 * E.P.L + E.P.EPS - 1) := pow_le_pow_right₀ (by norm_num) (by omega)
  have e2 : (2 : Int) ^ c * 2 ^ (2 * E.P.L + E.P.EPS - 1) ≤ 2 ^ (E.P.LP + E.P.EPS - 1) := by
    rw [← pow_add]; exact pow_le_pow_right₀ (by norm_num) (by omega)
  have e3 : (2 : Int) ^ c * 2 ^ (E.P.LP - 1) ≤ 2 ^ (E.P.LP + E.P.EPS - 1) := by
    rw [← pow_add]; exact pow_le_pow_right₀ (by norm_num) (by omega)
  have e4 : (2 : Int) ^ (E.P.LP + E.P.EPS) = 2 ^ (E.P.LP + E.P.EPS - 1) + 2 ^ (E.P.LP + E.P.EPS - 1) := by
    rw [← two_mul, ← pow_succ']; congr 1; omega
  have e5 : (2 : Int) ^ (E.P.LP + E.P.EPS + c) = 2 ^ c * 2 ^ (E.P.LP + E.P.EPS) := by rw [← pow_add]; congr 1; omega
  have p1 : (0 : Int) < 2 ^ (E.P.LP - 1) := by positivity
  have p2 : (0 : Int) < 2 ^ (2 * E.P.L + E.P.EPS - 1) := by positivity
  have p3 : (0 : Int) < 2 ^ (E.P.LP + E.P.EPS) := by positivity
  rw [e5]
  generalize (2 : Int) ^ (E.P.LP + E.P.EPS) = A at *
  generalize (2 : Int) ^ (2 * E.P.L + E.P.EPS - 1) = B at *
  generalize (2 : Int) ^ (E.P.LP - 1) = C at *
  generalize (2 : Int) ^ (E.P.LP + E.P.EPS - 1) = A' at *
  generalize (2 : Int) ^ c = T at *
  generalize (others.card : Int) = m at *
  generalize |x * k + (∑ i ∈ others, md i + ∑ i ∈ others, beta i)| = Y at *
  generalize |∑ i ∈ others, md i| = Y1 at *
  generalize |∑ i ∈ others, beta i| = Y2 at *
  generalize |x * k| = Y3 at *
  generalize (2 : Int) ^ (2 * E.P.L - 2) = D at *
  have f1 : (m + 1) * A ≤ T * A := mul_le_mul_of_nonneg_right hcard p3.le
  have f2 : (m + 1) * B ≤ T * B := mul_le_mul_of_nonneg_right hcard p2.le
  have f3 : (m + 1) * C ≤ T * C := mul_le_mul_of_nonneg_right hcard p1.le
  nlinarith

/-- The same bound, as needed for the decryption -/
theorem err_no_wrap {n c : Nat} (hfew : FewParties E.P n c) {N : Nat} (hN : 2 ^ (E.P.modBits - 2) ≤ N) {y : Int} (hy : |y| < 2 ^ (E.P.LP + E.P.EPS + c)) :
    2 * |y| < (N : Int) := by
  obtain ⟨hc0, ⟨hm1, hm2, hm3, hm4, hm5, hm6⟩, hs1, hs2, hs3, hs4, hs5, hs6, hs7⟩ := hE.consistent
  have hL : 0 < E.P.L := hE.curve
  have hw := hfew.noWrap
  have hlp : E.P.LP = E.P.primeBits + E.P.L := rfl
  have h2 : ((2 ^ (E.P.modBits - 2) : Nat) : Int) ≤ (N : Int) := by exact_mod_cast hN
  push_cast at h2
  have h3 : (2 : Int) * 2 ^ (E.P.LP + E.P.EPS + c) ≤ 2 ^ (E.P.modBits - 2) := by
    rw [← pow_succ']; exact pow_le_pow_right₀ (by norm_num) (by omega)
  omega

/-! ### One party in an error round -/

/-- What the state of an honest party in an error round is like: `pk` are the public keys, `k` its share of the nonce, `capK` the ciphertexts of round 1, `cd`
the ciphertexts the others made for it, which hold the values `md`. -/
structure Own (E : Env q I Ep G) (r : ErrRound q I Ep G) (pk : I → PubAux) (k : ZMod q) (capK cd : I → Cipher) (md : I → Int) : Prop where
  me : r.ctx.myId ∈ r.ctx.allIds
  others : r.ctx.otherIds = r.ctx.allIds.erase r.ctx.myId
  pub : ∀ i ∈ r.ctx.allIds, r.ctx.pubAux.get? i = some (pk i)
  pkMe : (pk r.ctx.myId).pk = r.ctx.key.modulus
  pos : ∀ i ∈ r.ctx.allIds, 0 < (pk i).pk
  capKs : ∀ i ∈ r.ctx.allIds, r.capKs.get? i = some (capK i)
  capKMe : (capK r.ctx.myId).Holds r.ctx.key.modulus (signedI E.P k).val
  received : ∀ i ∈ r.ctx.otherIds, Entry r.capDs i r.ctx.myId (cd i)
  holds : ∀ i ∈ r.ctx.otherIds, (cd i).Holds r.ctx.key.modulus (md i)
  sent : ∀ i ∈ r.ctx.otherIds, ∃ U : (ZMod ((pk i).pk ^ 2))ˣ, capK i = ⟨(pk i).pk, (U : Ct (pk i).pk)⟩ ∧
    Entry r.capDs r.ctx.myId i ⟨(pk i).pk, ((U ^ (signedI E.P r.x).val : (ZMod ((pk i).pk ^ 2))ˣ) : Ct (pk i).pk) *
      (oneAdd (pk i).pk (-(r.mta.beta i).val) * ((r.mta.s i : Nat) : Ct (pk i).pk) ^ (pk i).pk)⟩
  sentF : ∀ i ∈ r.ctx.otherIds, Entry r.capFs r.ctx.myId i
    ⟨r.ctx.key.modulus, oneAdd r.ctx.key.modulus (r.mta.beta i).val * ((r.mta.r i : Nat) : Ct r.ctx.key.modulus) ^ r.ctx.key.modulus⟩
  capX : r.capXs.get? r.ctx.myId = some (r.x • E.C.g)
  capS : r.capSs.get? r.ctx.myId =
    some ((r.x * k + (∑ i ∈ r.ctx.otherIds, ((md i : Int) : ZMod q) + ∑ i ∈ r.ctx.otherIds, scalarOfSigned q (r.mta.beta i))) • r.capG)

/-- The part of this that is about what the party itself has sent in round 2 -/
structure OwnSent (E : Env q I Ep G) (r : ErrRound q I Ep G) (pk : I → PubAux) (capK : I → Cipher) : Prop where
  me : r.ctx.myId ∈ r.ctx.allIds
  others : r.ctx.otherIds = r.ctx.allIds.erase r.ctx.myId
  pub : ∀ i ∈ r.ctx.allIds, r.ctx.pubAux.get? i = some (pk i)
  pkMe : (pk r.ctx.myId).pk = r.ctx.key.modulus
  pos : ∀ i ∈ r.ctx.allIds, 0 < (pk i).pk
  capKs : ∀ i ∈ r.ctx.allIds, r.capKs.get? i = some (capK i)
  sent : ∀ i ∈ r.ctx.otherIds, ∃ U : (ZMod ((pk i).pk ^ 2))ˣ, capK i = ⟨(pk i).pk, (U : Ct (pk i).pk)⟩ ∧
    Entry r.capDs r.ctx.myId i ⟨(pk i).pk, ((U ^ (signedI E.P r.x).val : (ZMod ((pk i).pk ^ 2))ˣ) : Ct (pk i).pk) *
      (oneAdd (pk i).pk (-(r.mta.beta i).val) * ((r.mta.s i : Nat) : Ct (pk i).pk) ^ (pk i).pk)⟩
  sentF : ∀ i ∈ r.ctx.otherIds, Entry r.capFs r.ctx.myId i
    ⟨r.ctx.key.modulus, oneAdd r.ctx.key.modulus (r.mta.beta i).val * ((r.mta.r i : Nat) : Ct r.ctx.key.modulus) ^ r.ctx.key.modulus⟩
  capX : r.capXs.get? r.ctx.myId = some (r.x • E.C.g)

omit hE in
theorem Own.toSent {r : ErrRound q I Ep G} {pk : I → PubAux} {k : ZMod q} {capK cd : I → Cipher} {md : I → Int} (h : Own E r pk k capK cd md) :
    OwnSent E r pk capK := ⟨h.me, h.others, h.pub, h.pkMe, h.pos, h.capKs, h.sent, h.sentF, h.capX⟩

/-- The draws an honest party uses in an error round -/
structure OwnDraws (E : Env q I Ep G) (r : ErrRound q I Ep G) (pk : I → PubAux) (c : Nat) : Prop where
  beta : ∀ j ∈ r.ctx.otherIds, (r.mta.beta j).IsDraw E.P.LP
  rCop : ∀ j ∈ r.ctx.otherIds, Nat.Coprime (r.mta.r j) r.ctx.key.modulus
  sCop : ∀ j ∈ r.ctx.otherIds, Nat.Coprime (r.mta.s j) (pk j).pk
  dec : DecDrawsValid E.P r.ctx.key.modulus c r.dec
  star : ∀ j ∈ r.ctx.otherIds, StarDrawsValid E.P (pk j).pk r.ctx.key.modulus (r.star j)
  decCount : ∀ t, (E.decH t).length = r.dec.length
  starCount : ∀ t, ∀ j ∈ r.ctx.otherIds, (E.starH t).length = (r.star j).length

omit hE in
theorem dec_inRange {P : Params} {N c : Nat} {l : List DecEphemeral} (h : DecDrawsValid P N c l) {x y : Int} (hx : |x| < 2 ^ (P.L - 1))
    (hy : |y| < 2 ^ (P.LP + P.EPS + c)) : ∀ a ∈ l, ∀ b : Bool, Props.DecInRange P c x y a b := by
  intro a ha b
  have h1 := h.innerAlpha a ha
  have h2 := h.innerBeta a ha
  have h1' : ((a.alpha.val.natAbs : Int) + 2 ^ (P.L - 1)) < 2 ^ (P.L + P.EPS - 1) := by exact_mod_cast h1
  have h2' : ((a.beta.val.natAbs : Int) + 2 ^ (P.LP + P.EPS + c)) < 2 ^ (P.LP + P.EPS + c + P.EPS) := by exact_mod_cast h2
  rw [Int.natCast_natAbs] at h1' h2'
  have hx' := abs_lt.1 hx
  have hy' := abs_lt.1 hy
  have ha1 := neg_abs_le a.alpha.val
  have ha2 := le_abs_self a.alpha.val
  have hb1 := neg_abs_le a.beta.val
  have hb2 := le_abs_self a.beta.val
  have he : P.LP + P.EPS + 1 + c + P.EPS - 1 = P.LP + P.EPS + c + P.EPS := by omega
  unfold Props.DecInRange InPm
  rw [he]
  cases b
  · simp only [Bool.false_eq_true, if_false]
    constructor <;> constructor <;> omega
  · simp only [if_true]
    constructor <;> constructor <;> omega

omit hE in
theorem star_inRange {P : Params} {N0 N1 : Nat} {l : List AffGStarEphemeral} (h : StarDrawsValid P N0 N1 l) {x y : Int} (hx : |x| < 2 ^ (P.L - 1))
    (hy : InPm P.LP y) : ∀ a ∈ l, ∀ b : Bool, Props.AffGStarInRange P x y a b := by
  intro a ha b
  have h1 := h.innerAlpha a ha
  have h2 := h.innerBeta a ha
  have h1' : ((a.alpha.val.natAbs : Int) + 2 ^ (P.L - 1)) < 2 ^ (P.L + P.EPS - 1) := by exact_mod_cast h1
  have h2' : ((a.beta.val.natAbs : Int) + 2 ^ (P.LP - 1)) < 2 ^ (P.LP + P.EPS - 1) := by exact_mod_cast h2
  rw [Int.natCast_natAbs] at h1' h2'
  have hx' := abs_lt.1 hx
  obtain ⟨hy1, hy2⟩ := hy
  have ha1 := neg_abs_le a.alpha.val
  have ha2 := le_abs_self a.alpha.val
  have hb1 := neg_abs_le a.beta.val
  have hb2 := le_abs_self a.beta.val
  unfold Props.AffGStarInRange InPm
  cases b
  · simp only [Bool.false_eq_true, if_false]
    constructor <;> constructor <;> omega
  · simp only [if_true]
    constructor <;> constructor <;> omega

/-- The aff-g* proof for another party can be made, and is accepted. -/
theorem own_star {r : ErrRound q I Ep G} {pk : I → PubAux} {capK : I → Cipher} {c : Nat} (h : OwnSent E r pk capK)
    (hd : OwnDraws E r pk c) {id : I} (hid : id ∈ r.ctx.otherIds) :
    ∃ psi : AffGStarProof G, starFor E r (signedI E.P r.x) id = .ok psi ∧ ∀ (ε : Type) (capD capF : Cipher), Entry r.capDs r.ctx.myId id capD →
      Entry r.capFs r.ctx.myId id capF →
      (starVerify E (pk id).pk r.ctx.key.modulus psi (capK id) capD capF (r.x • E.C.g) (r.ctx.epid, r.ctx.myId) : Out ε _) = .ok true := by
  have : NeZero q := ⟨(Fact.out : q.Prime).ne_zero⟩
  have hid' : id ∈ r.ctx.allIds := by rw [h.others] at hid; exact Finset.mem_of_mem_erase hid
  obtain ⟨U, hU, hD⟩ := h.sent id hid
  have hF := h.sentF id hid
  have hb : (r.mta.beta id).Fits := (hd.beta id hid).fits (LP_pos hE)
  have hN : 0 < r.ctx.key.modulus := by have := h.pos _ h.me; rwa [h.pkMe] at this
  have hrel : Props.AffGRelation E.P (pk id).pk r.ctx.key.modulus E.C.g q
      ⟨(U : Ct (pk id).pk), ((U ^ (signedI E.P r.x).val : (ZMod ((pk id).pk ^ 2))ˣ) : Ct (pk id).pk) *
          (oneAdd (pk id).pk (-(r.mta.beta id).val) * ((r.mta.s id : Nat) : Ct (pk id).pk) ^ (pk id).pk),
        oneAdd r.ctx.key.modulus (r.mta.beta id).val * ((r.mta.r id : Nat) : Ct r.ctx.key.modulus) ^ r.ctx.key.modulus, r.x • E.C.g⟩
      (signedI E.P r.x).val (r.mta.beta id).val (r.mta.s id) (r.mta.r id) := by
    refine ⟨signedI_inPm hE r.x, (hd.beta id hid).2, ⟨U, rfl, _, rfl, rfl⟩, rfl, hd.sCop id hid, hd.rCop id hid, ?_⟩
    show r.x • E.C.g = ((centre r.x : Int) : ZMod q) • E.C.g
    rw [centre_cast]
  obtain ⟨psi, hprove, hver⟩ := Props.C29_honest (ε := LocalErr) hE.consistent hE.curve E.starH E.C.g (h.pos id hid') hN (signedI E.P r.x) (r.mta.beta id)
    (signedI_fits hE r.x) (signedI_bound hE r.x) hb (hd.beta id hid).1.le (r.mta.s id) (r.mta.r id) _ hrel (r.ctx.epid, r.ctx.myId) (r.star id)
    (hd.star id hid).masks (fun t => hd.starCount t id hid)
  rw [decide_eq_true (fun x' hx' => star_inRange (hd.star id hid) (signedI_abs hE r.x) (hd.beta id hid).2 _ (List.of_mem_zip hx').1 _)] at hver
  have hacc : ∀ (ε : Type) (capD capF : Cipher), Entry r.capDs r.ctx.myId id capD → Entry r.capFs r.ctx.myId id capF →
      (starVerify E (pk id).pk r.ctx.key.modulus psi (capK id) capD capF (r.x • E.C.g) (r.ctx.epid, r.ctx.myId) : Out ε _) = .ok true := by
    intro ε capD capF h1 h2
    have e1 : capD = _ := Out.ok.inj ((h1.get ()).symm.trans (hD.get ()))
    have e2 : capF = _ := Out.ok.inj ((h2.get ()).symm.trans (hF.get ()))
    rw [e1, e2, hU]
    unfold starVerify
    simp only [Cipher.under_self, Out.bind_ok]
    exact Out.eq_ok_of_cast (AffGStarProof.verify_cast ..) hver
  refine ⟨psi, ?_, hacc⟩
  unfold starFor
  simp only [finGet, h.pub id hid', h.capKs id hid', h.capX, Out.ofOption_some, Out.bind_ok, hD.get, hF.get]
  refine (congrArg (fun x => Out.bind x _) (a₂ := .ok psi) ?_).trans ?_
  · rw [hU]
    unfold starProve
    simp only [Cipher.under_self, Out.bind_ok]
    exact hprove
  rw [Out.bind_ok]
  split
  · rw [hacc _ _ _ hD hF, Out.bind_ok]; rfl
  · rfl

/-- An honest party can prove its innocence in an error round, and is believed by everyone who has the same view. But it could as well prove any other
decrypted value. -/
theorem own_claims {r : ErrRound q I Ep G} {pk : I → PubAux} {k : ZMod q} {capK cd : I → Cipher} {md : I → Int} {c : Nat} (h : Own E r pk k capK cd md)
    (hd : OwnDraws E r pk c) (hfew : FewParties E.P r.ctx.allIds.card c)
    (hprimes : FullSizePrimes E.P r.ctx.key.p r.ctx.key.q) (hkey : (SecretKey.new r.ctx.key.p r.ctx.key.q : Out Unit _) = .ok r.ctx.key.sk)
    (hmd : ∀ i ∈ r.ctx.otherIds, |md i| ≤ 2 ^ (E.P.LP + E.P.EPS) + 2 ^ (2 * E.P.L + E.P.EPS - 1)) :
    (∃ msg, msgErr E r = .ok msg ∧ ∀ r', SameView r r' → recvErr E r' r.ctx.myId msg = .ok ()) ∧
    ∀ s : ZMod q, Nat.Coprime r.ctx.key.modulus q → ∃ msg, ∀ ss : BMap I G, ss.get? r.ctx.myId = some (s • r.capG) →
      ∀ r', SameView { r with capSs := ss } r' → recvErr E r' r.ctx.myId msg = .ok () := by
  have : NeZero q := ⟨(Fact.out : q.Prime).ne_zero⟩
  have hm : E.P.modBits = 2 * E.P.primeBits := hE.consistent.2.1.1
  have hw : E.P.modBits ≤ E.P.uint := hE.consistent.2.1.2.2.1
  have hsize : r.ctx.key.modulus < 2 ^ E.P.modBits := FullSizePrimes.lt hprimes hm
  have hbig : 2 ^ (E.P.modBits - 2) ≤ r.ctx.key.modulus := by
    have hpb := FullSizePrimes.primeBits_pos hprimes
    rw [show E.P.modBits - 2 = (E.P.primeBits - 1) + (E.P.primeBits - 1) by omega, pow_add]
    exact Nat.mul_le_mul hprimes.lowP hprimes.lowQ
  have hN : 0 < r.ctx.key.modulus := lt_of_lt_of_le (by positivity) hbig
  have hcard : r.ctx.otherIds.card + 1 = r.ctx.allIds.card := by
    rw [h.others]; exact Finset.card_erase_add_one h.me
  have hne : r.ctx.otherIds.Nonempty := by
    rw [← Finset.card_pos]; have := hfew.parties; omega
  -- the aggregated ciphertext
  obtain ⟨capD, hDh, hD⟩ := aggregate_holds hne (cd := cd) (md := md) (mf := fun i => (r.mta.beta i).val) h.holds
    (cf := fun i => ⟨r.ctx.key.modulus, oneAdd r.ctx.key.modulus (r.mta.beta i).val * ((r.mta.r i : Nat) : Ct r.ctx.key.modulus) ^ r.ctx.key.modulus⟩)
    (fun i hi => by
      obtain ⟨u, hu⟩ := natCast_unit_sq (hd.rCop i hi)
      exact ⟨u, by rw [hu]⟩) h.received h.sentF
  obtain ⟨kx, hkx, hkxh⟩ := h.capKMe.mulSecret (signedI_fits hE r.x)
  obtain ⟨full, hfull, hfullh⟩ := hkxh.add hDh
  have hbound := err_bound hE hcard hfew (signedI_abs hE r.x) (signedI_abs hE k) hmd (fun i hi => (hd.beta i hi).2)
  generalize hy : (signedI E.P r.x).val * (signedI E.P k).val + (∑ i ∈ r.ctx.otherIds, md i + ∑ i ∈ r.ctx.otherIds, (r.mta.beta i).val) = y at *
  have hnw := err_no_wrap hE hfew hbig hbound
  have hdec := hfullh.decrypt (Props.facts_of_new hprimes.primes hkey) hsize hw hnw
  obtain ⟨rho, hrho, hfulle, hrand⟩ := hfullh.randomizer hprimes.primes hkey hsize hw hnw
  obtain ⟨c', hc', hlog⟩ := Props.C30_interval_width (ε := LocalErr) r.ctx.allIds.card hfew.parties
  have hcc : c' = c := le_antisymm (hlog.2 c hfew.log.1) (hfew.log.2 c' hlog.1)
  subst hcc
  -- the range check
  have hlp : E.P.LP = E.P.primeBits + E.P.L := rfl
  obtain ⟨hc0, ⟨hm1, hm2, hm3, hm4, hm5, hm6⟩, hs1, hs2, hs3, hs4, hs5, hs6, hs7⟩ := hE.consistent
  have hL : 0 < E.P.L := hE.curve
  have hnw' := hfew.noWrap
  have hyPm : InPm (E.P.LP + E.P.EPS + 1 + c') y := by
    have := abs_lt.1 hbound
    unfold InPm
    rw [show E.P.LP + E.P.EPS + 1 + c' - 1 = E.P.LP + E.P.EPS + c' by omega]
    constructor <;> omega
  have hens : SInt.ensureRange E.P.uint ⟨E.P.modBits - 1, y⟩ (decYBound E.P c') = some ⟨E.P.LP + E.P.EPS + 1 + c' + 1, y⟩ := by
    unfold SInt.ensureRange decYBound
    rw [if_pos ⟨by unfold SInt.inRange; exact decide_eq_true hyPm, by omega⟩]
  -- the dec proof
  obtain ⟨UK, hUK⟩ := h.capKMe.unit
  obtain ⟨UD, hUD⟩ := hDh.unit
  have hrel : Props.DecRelation E.P r.ctx.key.modulus E.C.g q
      (⟨(UK : Ct r.ctx.key.modulus), r.x • E.C.g, (UD : Ct r.ctx.key.modulus),
        (r.x * k + (∑ i ∈ r.ctx.otherIds, ((md i : Int) : ZMod q) + ∑ i ∈ r.ctx.otherIds, scalarOfSigned q (r.mta.beta i))) • r.capG, r.capG,
        r.ctx.allIds.card⟩ : DecPublic r.ctx.key.modulus G) c' (signedI E.P r.x).val y rho := by
    refine ⟨hfew.parties, hlog, signedI_inPm hE r.x, hyPm, ⟨UK, rfl, ?_⟩, hrho, ?_, ?_⟩
    · have hkxe : kx = ⟨r.ctx.key.modulus, ((UK ^ (signedI E.P r.x).val : (ZMod (r.ctx.key.modulus ^ 2))ˣ) : Ct r.ctx.key.modulus)⟩ := by
        have h1 := hkx Unit
        rw [hUK, Cipher.mulSecret_unit UK (signedI_fits hE r.x)] at h1
        exact (Out.ok.inj h1).symm
      have h2 := hfull Unit
      rw [hkxe, hUD, hfulle] at h2
      unfold Cipher.add at h2
      simp only [Cipher.under_self, Out.bind_ok, Out.ok.injEq, Cipher.mk.injEq, heq_eq_eq, true_and] at h2
      unfold Encrypts
      exact h2
    · show r.x • E.C.g = ((centre r.x : Int) : ZMod q) • E.C.g
      rw [centre_cast]
    · show _ = ((y : Int) : ZMod q) • r.capG
      rw [← hy]
      push_cast
      have e1 : (((signedI E.P r.x).val : Int) : ZMod q) = r.x := centre_cast r.x
      have e2 : (((signedI E.P k).val : Int) : ZMod q) = k := centre_cast k
      rw [e1, e2]
      rfl
  have hyFits : (⟨E.P.LP + E.P.EPS + 1 + c' + 1, y⟩ : SInt).Fits := by
    unfold SInt.Fits
    have h1 : (y.natAbs : Int) < 2 ^ (E.P.LP + E.P.EPS + 1 + c' + 1) := by
      rw [Int.natCast_natAbs]
      exact lt_of_lt_of_le hbound (pow_le_pow_right₀ (by norm_num) (by omega))
    exact_mod_cast h1
  obtain ⟨psiStar, hprove, hver⟩ := Props.C30_honest (ε := LocalErr) hE.consistent hE.curve E.decH E.C.g hN c' hfew.wide (signedI E.P r.x)
    ⟨E.P.LP + E.P.EPS + 1 + c' + 1, y⟩ (signedI_fits hE r.x) (signedI_bound hE r.x) hyFits (show E.P.LP + E.P.EPS + 1 + c' + 1 ≤ _ by omega) rho _ hrel
    (pk r.ctx.myId).rp.rp (r.ctx.epid, r.ctx.myId) r.dec hd.dec.masks hd.decCount
  rw [decide_eq_true (fun x' hx' => dec_inRange hd.dec (signedI_abs hE r.x) hbound _ (List.of_mem_zip hx').1 _)] at hver
  -- the aff-g* proofs
  have hstar : ∀ id, ∃ psi : AffGStarProof G, id ∈ r.ctx.otherIds → starFor E r (signedI E.P r.x) id = .ok psi ∧
      ∀ (ε : Type) (capD capF : Cipher), Entry r.capDs r.ctx.myId id capD → Entry r.capFs r.ctx.myId id capF →
      (starVerify E (pk id).pk r.ctx.key.modulus psi (capK id) capD capF (r.x • E.C.g) (r.ctx.epid, r.ctx.myId) : Out ε _) = .ok true := by
    intro id
    by_cases hid : id ∈ r.ctx.otherIds
    · obtain ⟨psi, hpsi⟩ := own_star hE h.toSent hd hid
      exact ⟨psi, fun _ => hpsi⟩
    · exact ⟨⟨[], [], []⟩, fun h' => absurd h' hid⟩
  choose psi hpsi using hstar
  -- who has the same view, up to the points `S`, believes it
  have hrecv : ∀ (prf : DecProof G) (s : ZMod q) (ss : BMap I G), ss.get? r.ctx.myId = some (s • r.capG) →
      (prf.verify E.P E.decH E.C.g q (⟨(UK : Ct r.ctx.key.modulus), r.x • E.C.g, (UD : Ct r.ctx.key.modulus), s • r.capG, r.capG, r.ctx.allIds.card⟩ :
        DecPublic r.ctx.key.modulus G) (pk r.ctx.myId).rp.rp (r.ctx.epid, r.ctx.myId) : Out LocalErr _) = .ok true →
      ∀ r', SameView { r with capSs := ss } r' → recvErr E r' r.ctx.myId ⟨prf, BMap.tabulate r.ctx.otherIds psi⟩ = .ok () := by
    intro prf s ss hss hver r' hv
    unfold recvErr
    have hids : r.ctx.allIds.erase r.ctx.myId = r.ctx.otherIds := h.others.symm
    have hpub : r.ctx.pubAux.get? r.ctx.myId = some ⟨r.ctx.key.modulus, (pk r.ctx.myId).rp⟩ := by rw [h.pub _ h.me, ← h.pkMe]
    simp only [recvGet, hv.pubAux, hv.capKs, hv.capXs, hv.capSs, hv.capG, hv.epid, hv.capDs, hv.capFs, hv.allIds, hids, hpub, h.capKs _ h.me, h.capX, hss,
      Out.ofOption_some, Out.bind_ok, hD]
    rw [hUK, hUD]
    simp only [Cipher.under_self, Out.bind_ok]
    rw [Out.eq_ok_of_cast (DecProof.verify_cast ..) hver, Out.bind_ok]
    simp only [not_true_eq_false, if_false, BMap.keySet_tabulate, ne_eq]
    rw [traverse_tabulate_ok (w := fun _ => ()), Out.bind_ok]
    intro id hid
    split
    · rfl
    · have hid' : id ∈ r.ctx.allIds := by rw [h.others] at hid; exact Finset.mem_of_mem_erase hid
      obtain ⟨U, hU, hDe⟩ := h.sent id hid
      have hFe := h.sentF id hid
      simp only [h.pub id hid', h.capKs id hid', Out.ofOption_some, Out.bind_ok, hDe.get, hFe.get]
      rw [(hpsi id hid).2 _ _ _ hDe hFe, Out.bind_ok]
      simp
  refine ⟨⟨⟨psiStar, BMap.tabulate r.ctx.otherIds psi⟩, ?_, fun r' hv => hrecv _ _ _ h.capS hver r' hv⟩, fun s hcop => ?_⟩
  · unfold msgErr
    simp only [finGet, h.pub _ h.me, h.capKs _ h.me, h.capX, h.capS, Out.ofOption_some, Out.bind_ok, hD, signedOfSecret_ok hE, hkx, hfull, hrand, hdec, hc', hens]
    rw [hUK, hUD]
    simp only [Cipher.under_self, Out.bind_ok]
    rw [hprove, Out.bind_ok, buildMap_ok (v := psi) (fun id hid => (hpsi id hid).1), Out.bind_ok]
  · obtain ⟨prf, hprf⟩ := Props.C52_dec_proves_any_value (ε := LocalErr) hE.consistent hE.curve hE.order E.decH _ hd.decCount E.C.g hN hsize hcop c' (by omega)
      hfew.wide (signedI E.P r.x) ⟨E.P.LP + E.P.EPS + 1 + c' + 1, y⟩ (signedI_fits hE r.x) (signedI_bound hE r.x) rho _ hrel (pk r.ctx.myId).rp.rp
      (r.ctx.epid, r.ctx.myId) s
    exact ⟨_, fun ss hss => hrecv prf s ss hss hprf⟩

/-- An honest party can prove its innocence in an error round, and is believed by everyone who has the same view. -/
theorem own_ok {r : ErrRound q I Ep G} {pk : I → PubAux} {k : ZMod q} {capK cd : I → Cipher} {md : I → Int} {c : Nat} (h : Own E r pk k capK cd md)
    (hd : OwnDraws E r pk c) (hfew : FewParties E.P r.ctx.allIds.card c)
    (hprimes : FullSizePrimes E.P r.ctx.key.p r.ctx.key.q) (hkey : (SecretKey.new r.ctx.key.p r.ctx.key.q : Out Unit _) = .ok r.ctx.key.sk)
    (hmd : ∀ i ∈ r.ctx.otherIds, |md i| ≤ 2 ^ (E.P.LP + E.P.EPS) + 2 ^ (2 * E.P.L + E.P.EPS - 1)) :
    ∃ msg, msgErr E r = .ok msg ∧ ∀ r', SameView r r' → recvErr E r' r.ctx.myId msg = .ok () :=
  (own_claims hE h hd hfew hprimes hkey hmd).1

end

end Signing
end Synedrion
