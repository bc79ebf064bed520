import Verif.Model.ZkModulus
import Verif.Lemmas.ModSoundness
import Verif.Lemmas.Signed
import Verif.Props.Paillier

/-!
# Properties C32, C33: the proofs about ring-Pedersen parameters (prm) and the Paillier-Blum modulus (mod)
-/

set_option linter.unusedSectionVars false

namespace Synedrion.Props
open Spec

variable {ε : Type} {Aux : Type} {p q : Nat}

/-! ## C32 -/

/-- **C32 (complete).** For parameters generated with `s = t^λ` over a Paillier modulus, and any secret exponents below the totient, the honest
proof verifies and has one commitment and one answer for each challenge bit. -/
theorem C32_complete (h : PaillierPrimes p q) {P : Params} (hb : p * q < 2 ^ P.modBits) (H : PrmHash Aux → List Bool) (lambda draw : Nat)
    (hl : lambda < 2 ^ (P.modBits - 2)) (hd : IsInvertibleDraw (p * q) draw) (aux : Aux) (as : List Nat) (has : ∀ a ∈ as, a < (p - 1) * (q - 1))
    (hlen : ∀ t, (H t).length = as.length) :
    let setup := RPParams.withSecret (p * q) P.modBits lambda draw
    let prf := PrmProof.prove P H ((p - 1) * (q - 1)) lambda setup aux as
    prf.verify H setup aux = true ∧ prf.challenge.length = as.length ∧ prf.commitment.length = as.length ∧ prf.proof.length = as.length := by
  intro setup prf
  obtain ⟨hs, ⟨t, ht⟩, _, _⟩ := C24_generated_parameters (p * q) P.modBits lambda draw hl hd
  change setup.s = setup.t ^ lambda at hs
  change (t : ZMod (p * q)) = setup.t at ht
  have hne : NeZero (p * q) := ⟨h.pos.ne'⟩
  have htot : setup.t ^ ((p - 1) * (q - 1)) = 1 := by
    rw [← ht, ← h.totient, ← Units.val_pow_eq_pow_val, ZMod.pow_totient, Units.val_one]
  have hpow : ∀ n, setup.t ^ (n % ((p - 1) * (q - 1))) = setup.t ^ n := by
    intro n
    conv_rhs => rw [← Nat.div_add_mod n ((p - 1) * (q - 1)), pow_add, pow_mul, htot, one_pow, one_mul]
  set commitment := as.map fun a => (powUnsigned setup.t a P.modBits).val with hcom
  set challenge := H ⟨commitment, setup.toWire, aux⟩ with hch
  have hcl : challenge.length = as.length := hlen _
  have hprf : prf = ⟨commitment, challenge, (as.zip challenge).map fun x => if x.2 then (x.1 + lambda) % ((p - 1) * (q - 1)) else x.1⟩ := rfl
  rw [hprf]
  refine ⟨?_, hcl, by simp [hcom], by simp [hcl]⟩
  unfold PrmProof.verify
  simp only
  rw [← hch, if_neg (by simp), List.all_eq_true]
  intro x hx
  obtain ⟨⟨e, z⟩, a⟩ := x
  obtain ⟨i, hi⟩ := List.mem_iff_getElem?.1 hx
  rw [List.getElem?_zip_eq_some, List.getElem?_zip_eq_some, List.getElem?_map, List.getElem?_map] at hi
  obtain ⟨⟨h1, h2⟩, h3⟩ := hi
  rw [Option.map_eq_some_iff] at h2 h3
  obtain ⟨⟨a', e'⟩, h4, h5⟩ := h2
  obtain ⟨a'', h6, h7⟩ := h3
  rw [List.getElem?_zip_eq_some] at h4
  simp only at h1 h4 h5 h6 h7
  rw [h4.1] at h6; cases h6
  rw [h4.2] at h1; cases h1
  have ha : a' < 2 ^ P.modBits := by
    have h8 := has a' (List.mem_of_getElem? h4.1)
    have : (p - 1) * (q - 1) ≤ p * q := Nat.mul_le_mul (Nat.sub_le _ _) (Nat.sub_le _ _)
    omega
  have ha2 : ((a : Nat) : ZMod (p * q)) = setup.t ^ a' := by
    rw [← h7]; unfold powUnsigned; rw [powBounded_eq _ ha, ZMod.natCast_zmod_val]
  have hz : powBounded setup.t z (bitLen z) = setup.t ^ z := powBounded_eq _ (bitLen_le_iff.1 le_rfl)
  unfold prmCheck
  simp only
  rw [hz, ha2, ← h5, hs]
  cases e
  · simp
  · simp only [if_true, decide_eq_true_eq]
    rw [hpow, pow_add]

/-- The claim of C32 that an accepted proof answers every challenge bit. It is false of the code. -/
def PrmAnswersEveryBit (H : PrmHash Aux → List Bool) : Prop :=
  ∀ (N : Nat) (setup : RPParams N) (aux : Aux) (prf : PrmProof), prf.verify H setup aux = true → prf.proof.length = prf.challenge.length

/-- **C32 (finding).** The verifier never compares the lengths: whatever the challenge function and the parameters — also if `s` is no power of
`t` — a proof without any commitments and answers is accepted. -/
theorem C32_empty_proof_accepted (H : PrmHash Aux → List Bool) (N : Nat) (setup : RPParams N) (aux : Aux) :
    PrmProof.verify H ⟨[], H ⟨[], setup.toWire, aux⟩, []⟩ setup aux = true := by
  unfold PrmProof.verify; simp

/-- **C32 (the claim is false).** For every challenge function with at least one bit there is an accepted proof that answers none. -/
theorem C32_not_every_bit_answered [Nonempty Aux] (H : PrmHash Aux → List Bool) (hH : ∀ t, H t ≠ []) : ¬ PrmAnswersEveryBit H := by
  intro hall
  obtain ⟨aux⟩ := ‹Nonempty Aux›
  have := hall 77 ⟨16, 2⟩ aux _ (C32_empty_proof_accepted H 77 ⟨16, 2⟩ aux)
  exact hH _ (List.length_eq_zero_iff.1 this.symm)

/-- **C32 (finding).** The bases `s = t = 0` are accepted, with a proof of full length that works for every challenge. -/
theorem C32_zero_bases_accepted (H : PrmHash Aux → List Bool) (N n : Nat) (hH : ∀ t, (H t).length = n) (aux : Aux) :
    let prf : PrmProof := ⟨List.replicate n 0, H ⟨List.replicate n 0, (⟨0, 0⟩ : RPParams N).toWire, aux⟩, List.replicate n 1⟩
    prf.verify H (⟨0, 0⟩ : RPParams N) aux = true ∧ prf.proof.length = prf.challenge.length ∧ prf.commitment.length = prf.challenge.length := by
  intro prf
  refine ⟨?_, by simp [prf, hH], by simp [prf, hH]⟩
  unfold PrmProof.verify
  simp only [prf, ne_eq, not_true_eq_false, if_false, List.all_eq_true]
  rintro ⟨⟨e, z⟩, a⟩ hx
  have h1 := List.of_mem_zip hx
  have h2 := List.of_mem_zip h1.1
  have ha : a = 0 := List.eq_of_mem_replicate h1.2
  have hz : z = 1 := List.eq_of_mem_replicate h2.2
  subst ha hz
  unfold prmCheck powBounded
  have : bitLen 1 = 1 := by decide
  cases e <;> simp [this]

/-- **C32 (partial: full-length proofs).** A proof with as many commitments and answers as challenge bits is accepted exactly if the challenge is
the hash of the context and every bit is answered correctly: `t^z = A` or `t^z = A s`. Missing: the code does not enforce the lengths. -/
theorem C32_full_length_partial (H : PrmHash Aux → List Bool) (N : Nat) (setup : RPParams N) (aux : Aux) (prf : PrmProof)
    (h1 : prf.proof.length = prf.challenge.length) (h2 : prf.commitment.length = prf.challenge.length) :
    prf.verify H setup aux = true ↔ prf.challenge = H ⟨prf.commitment, setup.toWire, aux⟩ ∧
      ∀ (i : Nat) (hi : i < prf.challenge.length),
        setup.t ^ prf.proof[i] = (prf.commitment[i] : ZMod N) * if prf.challenge[i] then setup.s else 1 := by
  unfold PrmProof.verify
  simp only
  have hcheck : ∀ e z (a : Nat), prmCheck setup e z a = true ↔ setup.t ^ z = (a : ZMod N) * if e then setup.s else 1 := by
    intro e z a
    unfold prmCheck
    rw [powBounded_eq _ (bitLen_le_iff.1 le_rfl)]
    cases e <;> simp
  constructor
  · intro h
    split at h
    · cases h
    · rename_i hc
      push Not at hc
      refine ⟨hc.symm, ?_⟩
      intro i hi
      rw [List.all_eq_true] at h
      rw [hc] at h
      rw [← hcheck]
      refine h ((prf.challenge[i], prf.proof[i]), prf.commitment[i]) ?_
      rw [List.mem_iff_getElem?]
      exact ⟨i, by simp [List.getElem?_zip_eq_some]⟩
  · rintro ⟨hc, hall⟩
    rw [if_neg (by rw [← hc]; simp), List.all_eq_true]
    rintro ⟨⟨e, z⟩, a⟩ hx
    obtain ⟨i, hi⟩ := List.mem_iff_getElem?.1 hx
    rw [List.getElem?_zip_eq_some, List.getElem?_zip_eq_some] at hi
    obtain ⟨⟨h3, h4⟩, h5⟩ := hi
    simp only at h3 h4 h5
    rw [← hc] at h3
    obtain ⟨hi, h3⟩ := List.getElem?_eq_some_iff.1 h3
    obtain ⟨hi', h4⟩ := List.getElem?_eq_some_iff.1 h4
    obtain ⟨hi'', h5⟩ := List.getElem?_eq_some_iff.1 h5
    rw [hcheck, ← h3, ← h4, ← h5]
    exact hall i hi

/-- **C32 (partial: special soundness).** If `t` is invertible and two full-length proofs with the same commitments but different challenges are
accepted then `s` is a power of `t`. Missing: as above, and that `t` is invertible, which the code does not check either. -/
theorem C32_special_soundness_partial (H H' : PrmHash Aux → List Bool) (N : Nat) (setup : RPParams N) (t : (ZMod N)ˣ) (ht : (t : ZMod N) = setup.t)
    (aux aux' : Aux) (prf prf' : PrmProof)
    (h1 : prf.proof.length = prf.challenge.length) (h2 : prf.commitment.length = prf.challenge.length)
    (h1' : prf'.proof.length = prf'.challenge.length) (h2' : prf'.commitment.length = prf'.challenge.length)
    (hcom : prf.commitment = prf'.commitment) (hdiff : prf.challenge ≠ prf'.challenge)
    (h : prf.verify H setup aux = true) (h' : prf'.verify H' setup aux' = true) :
    ∃ k : Int, setup.s = ((t ^ k : (ZMod N)ˣ) : ZMod N) := by
  obtain ⟨_, hall⟩ := (C32_full_length_partial H N setup aux prf h1 h2).1 h
  obtain ⟨_, hall'⟩ := (C32_full_length_partial H' N setup aux' prf' h1' h2').1 h'
  have hlen : prf.challenge.length = prf'.challenge.length := by rw [← h2, ← h2', hcom]
  obtain ⟨i, hi, hne⟩ : ∃ i, ∃ hi : i < prf.challenge.length, prf.challenge[i] ≠ prf'.challenge[i] := by
    by_contra hcon
    push Not at hcon
    exact hdiff (List.ext_getElem hlen (fun i h3 _ => hcon i h3))
  have e1 := hall i hi
  have e2 := hall' i (hlen ▸ hi)
  simp only [← hcom] at e2
  have key : ∀ (z z' : Nat) (a : ZMod N), setup.t ^ z = a * setup.s → setup.t ^ z' = a → ∃ k : Int, setup.s = ((t ^ k : (ZMod N)ˣ) : ZMod N) := by
    intro z z' a k1 k2
    refine ⟨(z : Int) - z', ?_⟩
    rw [← k2, ← ht] at k1
    have : setup.s = ((t ^ z' : (ZMod N)ˣ)⁻¹ : (ZMod N)ˣ) * ((t : ZMod N) ^ z' * setup.s) := by
      rw [← mul_assoc, ← Units.val_pow_eq_pow_val, Units.inv_mul, one_mul]
    rw [this, ← k1, zpow_sub, zpow_natCast, zpow_natCast, Units.val_mul, Units.val_pow_eq_pow_val, mul_comm]
  cases hb : prf.challenge[i] <;> cases hb' : prf'.challenge[i]
  · exact absurd (hb.trans hb'.symm) hne
  · simp only [hb, hb', if_true, Bool.false_eq_true, if_false, mul_one] at e1 e2
    exact key _ _ _ e2 e1
  · simp only [hb, hb', if_true, Bool.false_eq_true, if_false, mul_one] at e1 e2
    exact key _ _ _ e1 e2
  · exact absurd (hb.trans hb'.symm) hne

/-! ## C33 -/

theorem isSquare_mul_iff {r : Nat} [Fact r.Prime] (x w : ZMod r) (hx : x ≠ 0) (hw : w ≠ 0) :
    IsSquare (x * w) ↔ (IsSquare x ↔ IsSquare w) := by
  rw [← quadraticChar_one_iff_isSquare hx, ← quadraticChar_one_iff_isSquare hw, ← quadraticChar_one_iff_isSquare (mul_ne_zero hx hw), map_mul]
  rcases quadraticChar_dichotomy hx with h | h <;> rcases quadraticChar_dichotomy hw with h' | h' <;> rw [h, h'] <;> decide

theorem isSquare_neg_iff {r : Nat} [Fact r.Prime] (hr : r % 4 = 3) (x : ZMod r) (hx : x ≠ 0) : IsSquare (-x) ↔ ¬ IsSquare x := by
  rw [← mul_neg_one, isSquare_mul_iff _ _ hx (neg_ne_zero.2 one_ne_zero), ZMod.exists_sq_eq_neg_one_iff]
  constructor
  · intro h hsq; exact h.1 hsq hr
  · intro h; exact iff_of_false h (fun h' => h' hr)

theorem ext_of_cast (h : PaillierPrimes p q) {a b : ZMod (p * q)} (h1 : ZMod.castHom (Dvd.intro q rfl) (ZMod p) a = ZMod.castHom (Dvd.intro q rfl) (ZMod p) b)
    (h2 : ZMod.castHom (Dvd.intro_left p rfl) (ZMod q) a = ZMod.castHom (Dvd.intro_left p rfl) (ZMod q) b) : a = b := by
  have hcop : Nat.Coprime p q := (Nat.coprime_primes h.prime_p h.prime_q).2 h.ne
  have : NeZero (p * q) := ⟨h.pos.ne'⟩
  rw [← sub_eq_zero]
  rw [← sub_eq_zero, ← map_sub] at h1 h2
  set c := a - b
  rw [← ZMod.natCast_zmod_val c] at h1 h2 ⊢
  rw [map_natCast, ZMod.natCast_eq_zero_iff] at h1 h2
  rw [ZMod.natCast_eq_zero_iff]
  exact hcop.mul_dvd_of_dvd_of_dvd h1 h2

private theorem search_spec (P : Params) (w y : Nat) (f : Bool × Bool → Option (ZMod p × ZMod q))
    (hf : ∀ found ab, modSearchStep P w y found ab = match f ab with | some root => some (root, ab.1, ab.2) | none => found)
    (hex : ∃ ab, (f ab).isSome) :
    ∃ root a b, [(false, false), (false, true), (true, false), (true, true)].foldl (modSearchStep P w y)
      (none : Option ((ZMod p × ZMod q) × Bool × Bool)) = some (root, a, b) ∧ f (a, b) = some root := by
  simp only [List.foldl, hf]
  cases h4 : f (true, true) with
  | some r => exact ⟨r, true, true, rfl, h4⟩
  | none =>
    cases h3 : f (true, false) with
    | some r => exact ⟨r, true, false, rfl, h3⟩
    | none =>
      cases h2 : f (false, true) with
      | some r => exact ⟨r, false, true, rfl, h2⟩
      | none =>
        cases h1 : f (false, false) with
        | some r => exact ⟨r, false, false, rfl, h1⟩
        | none =>
          obtain ⟨⟨a, b⟩, hab⟩ := hex
          cases a <;> cases b <;> simp_all

/-- **C33 (one challenge).** For a Blum modulus and a residue of Jacobi symbol −1 (a square modulo exactly one of the primes), the prover finds
an answer to every invertible challenge, and the verifier accepts it. The answer consists of reduced residues, and the fourth root is itself a square. -/
theorem C33_every_challenge_answerable (h : PaillierPrimes p q) (h3p : p % 4 = 3) (h3q : q % 4 = 3) {P : Params} (hp : p < 2 ^ P.primeBits)
    (hq : q < 2 ^ P.primeBits) (hb : p * q < 2 ^ P.modBits) (sk : SecretKey p q) (hsk : (SecretKey.new p q : Out ε _) = .ok sk)
    (w : Nat) (hw : Nat.Coprime w (p * q)) (hwsq : IsSquare (w : ZMod p) ↔ ¬ IsSquare (w : ZMod q)) (y : Nat) (hy : Nat.Coprime y (p * q)) :
    ∃ elem, (modAnswer P sk w y : Out ε _) = .ok elem ∧ modCheck P (p * q) w elem y = true ∧
      elem.x < p * q ∧ elem.z < p * q ∧ IsSquare (elem.x : ZMod p) ∧ IsSquare (elem.x : ZMod q) := by
  have hk := facts_of_new h hsk
  have : Fact p.Prime := ⟨h.prime_p⟩
  have : Fact q.Prime := ⟨h.prime_q⟩
  have hne : NeZero (p * q) := ⟨h.pos.ne'⟩
  have nz : ∀ z : Nat, Nat.Coprime z (p * q) → (z : ZMod p) ≠ 0 ∧ (z : ZMod q) ≠ 0 := by
    intro z hz
    constructor
    · intro h0
      rw [ZMod.natCast_eq_zero_iff] at h0
      exact (h.prime_p.coprime_iff_not_dvd.1 (hz.coprime_mul_right_right.symm)) h0
    · intro h0
      rw [ZMod.natCast_eq_zero_iff] at h0
      exact (h.prime_q.coprime_iff_not_dvd.1 (hz.coprime_mul_left_right.symm)) h0
  obtain ⟨hw1, hw2⟩ := nz w hw
  obtain ⟨hy1, hy2⟩ := nz y hy
  -- the candidate for each sign and factor
  let cand : Bool × Bool → ZMod p × ZMod q := fun ab =>
    let y1 := if ab.1 then (-(y : ZMod p), -(y : ZMod q)) else ((y : ZMod p), (y : ZMod q))
    if ab.2 then (y1.1 * (w : ZMod p), y1.2 * (w : ZMod q)) else y1
  have hstep : ∀ found ab, modSearchStep P w y found ab =
      match rnsSqrt P.primeBits (cand ab) with | some root => some (root, ab.1, ab.2) | none => found := by
    intro found ab
    unfold modSearchStep rnsSplit
    simp only [ZMod.natCast_mod]
    rfl
  have hex : ∃ ab, (rnsSqrt P.primeBits (cand ab)).isSome := by
    have hs := fun ab => (C22_square_roots h h3p h3q P.primeBits hp hq (cand ab)).1
    simp only [hs]
    by_cases sp : IsSquare (y : ZMod p) <;> by_cases sq : IsSquare (y : ZMod q)
    · exact ⟨(false, false), sp, sq⟩
    · by_cases wp : IsSquare (w : ZMod p)
      · refine ⟨(false, true), ?_, ?_⟩
        · exact (isSquare_mul_iff _ _ hy1 hw1).2 (iff_of_true sp wp)
        · exact (isSquare_mul_iff _ _ hy2 hw2).2 (iff_of_false sq (hwsq.1 wp))
      · have wq : IsSquare (w : ZMod q) := by by_contra hc; exact wp (hwsq.2 hc)
        refine ⟨(true, true), ?_, ?_⟩
        · exact (isSquare_mul_iff _ _ (neg_ne_zero.2 hy1) hw1).2 (iff_of_false (fun hh => (isSquare_neg_iff h3p _ hy1).1 hh sp) wp)
        · exact (isSquare_mul_iff _ _ (neg_ne_zero.2 hy2) hw2).2 (iff_of_true ((isSquare_neg_iff h3q _ hy2).2 sq) wq)
    · by_cases wp : IsSquare (w : ZMod p)
      · refine ⟨(true, true), ?_, ?_⟩
        · exact (isSquare_mul_iff _ _ (neg_ne_zero.2 hy1) hw1).2 (iff_of_true ((isSquare_neg_iff h3p _ hy1).2 sp) wp)
        · exact (isSquare_mul_iff _ _ (neg_ne_zero.2 hy2) hw2).2 (iff_of_false (fun hh => (isSquare_neg_iff h3q _ hy2).1 hh sq) (hwsq.1 wp))
      · have wq : IsSquare (w : ZMod q) := by by_contra hc; exact wp (hwsq.2 hc)
        refine ⟨(false, true), ?_, ?_⟩
        · exact (isSquare_mul_iff _ _ hy1 hw1).2 (iff_of_false sp wp)
        · exact (isSquare_mul_iff _ _ hy2 hw2).2 (iff_of_true sq wq)
    · exact ⟨(true, false), (isSquare_neg_iff h3p _ hy1).2 sp, (isSquare_neg_iff h3q _ hy2).2 sq⟩
  obtain ⟨root, a, b, hfold, hroot⟩ := search_spec P w y (fun ab => rnsSqrt P.primeBits (cand ab)) hstep hex
  obtain ⟨r1, r2, r3, r4⟩ := (C22_square_roots h h3p h3q P.primeBits hp hq (cand (a, b))).2 root hroot
  have hs4 := (C22_square_roots h h3p h3q P.primeBits hp hq root).1.2 ⟨r3, r4⟩
  obtain ⟨root4, hroot4⟩ := Option.isSome_iff_exists.1 hs4
  obtain ⟨s1, s2, s3, s4⟩ := (C22_square_roots h h3p h3q P.primeBits hp hq root).2 root4 hroot4
  obtain ⟨hjlt, hjoin⟩ := (C22_split_join h sk hsk).2 root4
  unfold rnsSplit at hjoin
  simp only [ZMod.natCast_mod] at hjoin
  have j1 := congrArg Prod.fst hjoin
  have j2 := congrArg Prod.snd hjoin
  simp only at j1 j2
  refine ⟨⟨rnsJoin sk root4, a, b, (powUnsigned (y : ZMod (p * q)) sk.invModulus P.modBits).val⟩, ?_, ?_, hjlt, ZMod.val_lt _, by rw [j1]; exact s3,
    by rw [j2]; exact s4⟩
  · unfold modAnswer
    rw [hfold]
    simp only
    rw [Out.ofOptionPanic_some, Out.bind_ok]
    simp only
    rw [hroot4, Out.ofOptionPanic_some, Out.bind_ok]
  · unfold modCheck
    simp only
    have hinv : isInvertible y (p * q) := by unfold isInvertible; simpa using hy
    have hlt : sk.invModulus < 2 ^ P.modBits := by
      refine lt_trans hk.invModulus_lt (lt_of_le_of_lt ?_ hb)
      rw [hk.totient]; exact Nat.mul_le_mul (Nat.sub_le _ _) (Nat.sub_le _ _)
    obtain ⟨u, hu⟩ := (ZMod.isUnit_iff_coprime y (p * q)).2 hy
    rw [if_neg (by simpa using hinv), if_neg]
    · rw [decide_eq_true_eq]
      apply ext_of_cast h
      · rw [map_mul, map_mul, map_natCast, j1, s1, r1]
        simp only [cand]
        cases a <;> cases b <;> simp
      · rw [map_mul, map_mul, map_natCast, j2, s2, r2]
        simp only [cand]
        cases a <;> cases b <;> simp
    · rw [not_not, powBounded_eq _ hb, ZMod.natCast_zmod_val]
      unfold powUnsigned
      rw [powBounded_eq _ hlt, ← hu, ← Units.val_pow_eq_pow_val, ← Units.val_pow_eq_pow_val, ← pow_mul, Nat.mul_comm sk.invModulus, unit_pow_inv hk]

/-- **C33 (complete).** For every Blum modulus, every non-square residue the code samples and every list of invertible challenges, the prover
does not panic, answers every challenge, and the verifier accepts (provided its primality test recognizes the modulus as composite). -/
theorem C33_complete (h : PaillierPrimes p q) (h3p : p % 4 = 3) (h3q : q % 4 = 3) {P : Params} (hp : p < 2 ^ P.primeBits)
    (hq : q < 2 ^ P.primeBits) (hb : p * q < 2 ^ P.modBits) (sk : SecretKey p q) (hsk : (SecretKey.new p q : Out ε _) = .ok sk)
    (H : ModHash Aux → List Nat) (hH : ∀ t, t.pk = p * q → ∀ y ∈ H t, Nat.Coprime y (p * q)) (isPrime : Nat → Bool) (hprime : isPrime (p * q) = false)
    (draw : Nat) (hd : IsInvertibleDraw (p * q) draw) (bit : Bool) (aux : Aux) :
    ∃ prf, (ModProof.prove P H sk aux (nonsquareResidue sk draw bit) : Out ε _) = .ok prf ∧
      prf.proof.length = prf.challenge.length ∧ prf.verify P H isPrime (p * q) aux = true := by
  obtain ⟨_, hw, hwsq, _⟩ := C23_nonsquare_jacobi h h3p h3q sk hsk draw hd bit
  set w := nonsquareResidue sk draw bit
  have hans : ∀ y, ∃ elem, Nat.Coprime y (p * q) → (modAnswer P sk w y : Out ε _) = .ok elem ∧ modCheck P (p * q) w elem y = true := by
    intro y
    by_cases hy : Nat.Coprime y (p * q)
    · obtain ⟨e, h1, h2, _⟩ := C33_every_challenge_answerable h h3p h3q hp hq hb sk hsk w hw hwsq y hy
      exact ⟨e, fun _ => ⟨h1, h2⟩⟩
    · exact ⟨⟨0, false, false, 0⟩, fun h' => absurd h' hy⟩
  choose ans hans using hans
  set challenge := H ⟨p * q, w, aux⟩ with hch
  have hc : ∀ y ∈ challenge, Nat.Coprime y (p * q) := hH _ rfl
  refine ⟨⟨w, challenge, challenge.map ans⟩, ?_, by simp, ?_⟩
  · unfold ModProof.prove
    simp only
    rw [← hch, Out.mapM'_ok_of_forall (g := ans) (fun y hy => (hans y (hc y hy)).1), Out.bind_ok]
  · unfold ModProof.verify
    simp only
    rw [← hch, if_neg (by simp), hprime, if_neg (by simp), if_neg (by rw [not_not]; exact hw.symm), List.all_eq_true]
    rintro ⟨e, y⟩ hx
    have : e = ans y ∧ y ∈ challenge := by
      obtain ⟨i, hi⟩ := List.mem_iff_getElem?.1 hx
      rw [List.getElem?_zip_eq_some, List.getElem?_map] at hi
      obtain ⟨h1, h2⟩ := hi
      simp only at h1 h2
      rw [h2] at h1
      simp only [Option.map_some, Option.some.injEq] at h1
      exact ⟨h1.symm, List.mem_of_getElem? h2⟩
    rw [this.1]
    exact (hans y (hc y this.2)).2

/-- The claim of C33 that an accepted proof answers every challenge. It is false of the code. -/
def ModAnswersEveryChallenge (P : Params) (H : ModHash Aux → List Nat) (isPrime : Nat → Bool) : Prop :=
  ∀ (N : Nat) (aux : Aux) (prf : ModProof), prf.verify P H isPrime N aux = true → prf.proof.length = prf.challenge.length

/-- **C33 (finding).** The verifier never compares the lengths: whatever the challenge function, for every modulus the primality test calls
composite — Blum or not — a proof without any answers is accepted. -/
theorem C33_empty_proof_accepted (P : Params) (H : ModHash Aux → List Nat) (isPrime : Nat → Bool) (N : Nat) (hN : isPrime N = false) (aux : Aux) :
    ModProof.verify P H isPrime ⟨1, H ⟨N, 1, aux⟩, []⟩ N aux = true := by
  unfold ModProof.verify; simp [hN]

/-- **C33 (the claim is false).** For every challenge function with at least one challenge, and every primality test that recognizes some
composite, there is an accepted proof without answers. -/
theorem C33_not_every_challenge_answered [Nonempty Aux] (P : Params) (H : ModHash Aux → List Nat) (hH : ∀ t, H t ≠ []) (isPrime : Nat → Bool) (N : Nat)
    (hN : isPrime N = false) : ¬ ModAnswersEveryChallenge P H isPrime := by
  intro hall
  obtain ⟨aux⟩ := ‹Nonempty Aux›
  have := hall N aux _ (C33_empty_proof_accepted P H isPrime N hN aux)
  exact hH _ (List.length_eq_zero_iff.1 this.symm)

/-- A residue for which a valid answer exists: an invertible `y` that is an `N`-th power, and that is a fourth power up to sign and the factor
`w`. -/
def Answerable (N w y : Nat) : Prop :=
  Nat.Coprime y N ∧ (∃ z : ZMod N, z ^ N = y) ∧ ∃ (a b : Bool) (x : ZMod N), (if a then -1 else 1) * (if b then (w : ZMod N) else 1) * (y : ZMod N) = x ^ 4

/-- **C33 (partial: full-length proofs).** If a proof with as many answers as challenges is accepted then the challenges are the hash of the
context, the primality test calls the modulus composite, the residue `w` is invertible, and every challenge is answerable. Missing: the code
does not enforce the length. -/
theorem C33_full_length_partial (P : Params) (H : ModHash Aux → List Nat) (isPrime : Nat → Bool) (N : Nat) (hb : N < 2 ^ P.modBits) (aux : Aux)
    (prf : ModProof) (hlen : prf.proof.length = prf.challenge.length) (h : prf.verify P H isPrime N aux = true) :
    prf.challenge = H ⟨N, prf.commitment, aux⟩ ∧ isPrime N = false ∧ Nat.Coprime N prf.commitment ∧
      ∀ y ∈ prf.challenge, Answerable N prf.commitment y := by
  unfold ModProof.verify at h
  simp only at h
  split at h
  · cases h
  rename_i h1
  split at h
  · cases h
  rename_i h2
  split at h
  · cases h
  rename_i h3
  push Not at h1 h3
  refine ⟨h1.symm, by simpa using h2, h3, ?_⟩
  intro y hy
  obtain ⟨i, hi, hiy⟩ := List.mem_iff_getElem.1 hy
  rw [List.all_eq_true] at h
  have hmem : (prf.proof[i], y) ∈ prf.proof.zip prf.challenge := by
    rw [List.mem_iff_getElem?]
    exact ⟨i, by rw [List.getElem?_zip_eq_some]; simp [hiy, hi]⟩
  have hc := h _ hmem
  unfold modCheck at hc
  simp only at hc
  split at hc
  · cases hc
  rename_i c1
  split at hc
  · cases hc
  rename_i c2
  push Not at c2
  rw [powBounded_eq _ hb] at c2
  have c3 := of_decide_eq_true hc
  refine ⟨by unfold isInvertible at c1; simpa using c1, ⟨_, c2⟩, (prf.proof[i]).a, (prf.proof[i]).b, ((prf.proof[i]).x : ZMod N), ?_⟩
  have hx4 : ((prf.proof[i]).x : ZMod N) ^ 4 = ((prf.proof[i]).x : ZMod N) * (prf.proof[i]).x * (((prf.proof[i]).x : ZMod N) * (prf.proof[i]).x) := by ring
  rw [hx4, ← c3]
  cases (prf.proof[i]).a <;> cases (prf.proof[i]).b <;> simp [mul_comm]

/-- **C33 (partial: non-Blum moduli).** Let `N` be odd and composite. Unless `N` is a product of two distinct primes that are 3 modulo 4 and is
coprime to its totient, at most half of the invertible residues are answerable, whatever `w`. So a full-length proof with `m` independent
challenges is accepted with probability at most `2^-m`. -/
theorem C33_non_blum_caught_partial (N : Nat) (hodd : N % 2 = 1) (h1 : 1 < N) (hnp : ¬ N.Prime) (w : Nat) (hw : Nat.Coprime N w)
    (hnot : ¬ (Nat.Coprime N (Nat.totient N) ∧ ∃ p q, p.Prime ∧ q.Prime ∧ p ≠ q ∧ p % 4 = 3 ∧ q % 4 = 3 ∧ N = p * q)) :
    2 * {y : (ZMod N)ˣ | Answerable N w (y : ZMod N).val}.ncard ≤ Nat.totient N := by
  have hne : NeZero N := ⟨by omega⟩
  have hcard : Nat.card (ZMod N)ˣ = Nat.totient N := by rw [Nat.card_eq_fintype_card, ZMod.card_units_eq_totient]
  by_cases hcop : Nat.Coprime N (Nat.totient N)
  · have h8 := eight_le_roots hodd h1 hnp hcop (fun hh => hnot ⟨hcop, hh⟩)
    obtain ⟨uw, huw⟩ := (ZMod.isUnit_iff_coprime w N).2 hw.symm
    let c : Bool × Bool → (ZMod N)ˣ := fun ab => (if ab.1 then -1 else 1) * (if ab.2 then uw else 1)
    have hC : (Set.range fun ab => (c ab)⁻¹).ncard ≤ 4 := by
      rw [← Set.image_univ]
      refine (Set.ncard_image_le (Set.toFinite _)).trans ?_
      rw [Set.ncard_univ]; simp
    have key := ncard_cosets_of_powers 4 8 h8 (Set.range fun ab => (c ab)⁻¹) {y : (ZMod N)ˣ | Answerable N w (y : ZMod N).val} (by
      rintro y ⟨_, _, a, b, x, hx⟩
      rw [ZMod.natCast_zmod_val] at hx
      have hcu : ((c (a, b) * y : (ZMod N)ˣ) : ZMod N) = x ^ 4 := by
        rw [← hx, Units.val_mul, Units.val_mul]
        congr 2
        · cases a <;> simp
        · cases b <;> simp [huw]
      have hxu : IsUnit x := by
        have : IsUnit (x ^ 4) := by rw [← hcu]; exact Units.isUnit _
        exact (isUnit_pow_iff (by norm_num)).1 this
      obtain ⟨ux, rfl⟩ := hxu
      refine ⟨(c (a, b))⁻¹, ⟨(a, b), rfl⟩, ux, ?_⟩
      have : c (a, b) * y = ux ^ 4 := by ext; rw [hcu]; rfl
      rw [← this, inv_mul_cancel_left])
    rw [hcard] at key
    have := Nat.mul_le_mul_right (Nat.totient N) hC
    omega
  · obtain ⟨r, hr, hr1, hr2⟩ := Nat.Prime.not_coprime_iff_dvd.1 hcop
    have h2 := two_le_roots_of_prime_dvd (U := (ZMod N)ˣ) hr hr1 (by rw [hcard]; exact hr2)
    have key := ncard_cosets_of_powers N 2 h2 {1} {y : (ZMod N)ˣ | Answerable N w (y : ZMod N).val} (by
      rintro y ⟨_, ⟨z, hz⟩, _⟩
      rw [ZMod.natCast_zmod_val] at hz
      have hzu : IsUnit z := by
        have : IsUnit (z ^ N) := by rw [hz]; exact Units.isUnit _
        exact (isUnit_pow_iff (by omega)).1 this
      obtain ⟨uz, rfl⟩ := hzu
      refine ⟨1, rfl, uz, ?_⟩
      rw [one_mul]; ext; rw [← hz]; rfl)
    rw [hcard, Set.ncard_singleton, one_mul] at key
    exact key

/-! ### Concrete cases -/

section Examples

/-- The hypotheses of the completeness theorems are satisfiable: `N = 77 = 7 · 11`. -/
example : ∃ sk, (SecretKey.new 7 11 : Out Unit _) = .ok sk ∧
    ∃ prf, (ModProof.prove Params.test (fun _ : ModHash Nat => [2, 3, 5, 76]) sk 8 (nonsquareResidue sk 2 true) : Out Unit _) = .ok prf ∧
      prf.proof.length = prf.challenge.length ∧ prf.verify Params.test (fun _ => [2, 3, 5, 76]) (fun _ => false) (7 * 11) 8 = true := by
  obtain ⟨sk, h1, _⟩ := SecretKey.new_ok (ε := Unit) toy_primes
  exact ⟨sk, h1, C33_complete toy_primes (by decide) (by decide) (by decide) (by decide) (by decide) sk h1 _ (by
    intro t _ y hy
    simp only [List.mem_cons, List.not_mem_nil, or_false] at hy
    rcases hy with rfl | rfl | rfl | rfl <;> decide) _ rfl 2 ⟨by decide, by decide⟩ true 8⟩

example : (PrmProof.prove Params.test (fun _ : PrmHash Nat => [true, false, true]) ((7 - 1) * (11 - 1)) 9 (RPParams.withSecret (7 * 11) 256 9 2) 8 [5, 59, 0]).verify
    (fun _ => [true, false, true]) (RPParams.withSecret (7 * 11) 256 9 2) 8 = true :=
  (C32_complete toy_primes (P := Params.test) (by decide) (fun _ : PrmHash Nat => [true, false, true]) 9 2 (by decide) ⟨by decide, by decide⟩ 8 [5, 59, 0]
    (by decide) (fun _ => rfl)).1

/-- `35 = 5 · 7` is coprime to its totient, but not a Blum modulus; at most half of its residues are answerable. -/
example : 2 * {y : (ZMod 35)ˣ | Answerable 35 2 (y : ZMod 35).val}.ncard ≤ 24 := by
  have h := C33_non_blum_caught_partial 35 (by decide) (by decide) (by decide) 2 (by decide) (by
    rintro ⟨_, p, q, hp, hq, _, h3, h4, h5⟩
    have hdvd : p ∣ 5 * 7 := ⟨q, h5⟩
    rcases (Nat.Prime.dvd_mul hp).1 hdvd with h | h
    · rw [(Nat.prime_dvd_prime_iff_eq hp (by norm_num)).1 h] at h3; simp at h3
    · rw [(Nat.prime_dvd_prime_iff_eq hp (by norm_num)).1 h] at h5
      have : q = 5 := by omega
      rw [this] at h4; simp at h4)
  exact h

end Examples

end Synedrion.Props
