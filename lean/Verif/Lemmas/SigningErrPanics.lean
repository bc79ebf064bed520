import Verif.Lemmas.SigningPanics
import Verif.Lemmas.SigningReach

/-!
# Lemmas about the panics of the error rounds of signing
-/

set_option linter.unusedSectionVars false

namespace Synedrion

open Spec

/-! ### Sums of ciphertexts -/

namespace Cipher

theorem add_ne_panic {ε : Type} {c d : Cipher} (h : d.pk = c.pk) : (c.add d : Out ε _) ≠ .panic := by
  unfold Cipher.add Cipher.under
  rw [dif_pos h]
  simp

theorem add_pk {ε : Type} {c d e : Cipher} (h : (c.add d : Out ε _) = .ok e) : e.pk = c.pk := by
  unfold Cipher.add at h
  obtain ⟨x, -, h⟩ := Out.bind_eq_ok.1 h
  cases h
  rfl

theorem sumLoop_keyed {ε : Type} {N : Nat} : ∀ (l : List (Out ε Cipher)) {acc : Cipher}, acc.pk = N → (∀ x ∈ l, x ≠ .panic ∧ ∀ c, x = .ok c → c.pk = N) →
    sumLoop acc l ≠ .panic ∧ ∀ c, sumLoop acc l = .ok c → c.pk = N := by
  intro l
  induction l with
  | nil => intro acc h _; exact ⟨by simp [sumLoop], fun c hc => by cases hc; exact h⟩
  | cons x l ih =>
    intro acc h hl
    have hx := hl x List.mem_cons_self
    have hrest := fun y hy => hl y (List.mem_cons_of_mem _ hy)
    unfold sumLoop
    refine ⟨Out.bind_ne_panic hx.1 fun c hc => Out.bind_ne_panic (add_ne_panic (by rw [hx.2 c hc, h])) fun a ha => (ih ((add_pk ha).trans h) hrest).1, fun e he => ?_⟩
    simp only [Out.bind_eq_ok] at he
    obtain ⟨c, hc, a, ha, he⟩ := he
    exact (ih ((add_pk ha).trans h) hrest).2 e he

theorem sumNonEmpty_keyed {ε : Type} {N : Nat} {e : ε} {l : List (Out ε Cipher)} (hl : ∀ x ∈ l, x ≠ .panic ∧ ∀ c, x = .ok c → c.pk = N) :
    sumNonEmpty e l ≠ .panic ∧ ∀ c, sumNonEmpty e l = .ok c → c.pk = N := by
  cases l with
  | nil => exact ⟨by simp [sumNonEmpty], fun c hc => by cases hc⟩
  | cons x l =>
    have hx := hl x List.mem_cons_self
    have hrest := fun y hy => hl y (List.mem_cons_of_mem _ hy)
    unfold sumNonEmpty
    refine ⟨Out.bind_ne_panic hx.1 fun c hc => (sumLoop_keyed l (hx.2 c hc) hrest).1, fun c hc => ?_⟩
    obtain ⟨a, ha, hc⟩ := Out.bind_eq_ok.1 hc
    exact (sumLoop_keyed l (hx.2 a ha) hrest).2 c hc

theorem under_ne_panic {ε : Type} {c : Cipher} {N : Nat} (h : c.pk = N) : (c.under N : Out ε _) ≠ .panic := by
  unfold under
  rw [dif_pos h]
  simp

end Cipher

section
variable {q : Nat} {G : Type} [AddCommGroup G] [Module (ZMod q) G] [DecidableEq G] {Aux ε : Type}

theorem allM_ne_panic {α : Type} {f : α → Out ε Bool} {l : List α} (h : ∀ a ∈ l, f a ≠ .panic) : Out.allM f l ≠ .panic := by
  induction l with
  | nil => simp [Out.allM]
  | cons a l ih =>
    unfold Out.allM
    refine Out.bind_ne_panic (h a List.mem_cons_self) fun b _ => ?_
    cases b
    · simp
    · exact ih fun x hx => h x (List.mem_cons_of_mem _ hx)

/-- The verifier of dec does not panic if `K` is invertible and there are at least two parties. -/
theorem dec_ne_panic {P : Params} (H : DecHash G Aux → List Bool) (g : G) {N0 Nh : Nat} (prf : DecProof G) (pub : DecPublic N0 G) (hK : IsUnit pub.capK)
    (hn : 2 ≤ pub.numParties) (setup : RPParams Nh) (aux : Aux) : (prf.verify P H g q pub setup aux : Out ε _) ≠ .panic := by
  simp only [DecProof.verify]
  refine Out.check_ne_panic (Out.check_ne_panic (allM_ne_panic fun x _ => ?_))
  unfold decCheck
  refine Out.bind_ne_panic (powPublic_ne_panic hK _) fun _ _ => Out.check_ne_panic (Out.check_ne_panic (Out.check_ne_panic (Out.check_ne_panic
    (Out.bind_ne_panic ?_ fun _ _ => Out.check_ne_panic (by simp)))))
  unfold ceilLog2Parties
  rw [if_neg (by omega)]
  simp

/-- The verifier of aff-g* does not panic if `C` and `Y` are invertible. -/
theorem affGStar_ne_panic {P : Params} (H : AffGStarHash G Aux → List Bool) (g : G) {N0 N1 : Nat} (prf : AffGStarProof G) (pub : AffGPublic N0 N1 G)
    (hC : IsUnit pub.capC) (hY : IsUnit pub.capY) (aux : Aux) : (prf.verify P H g q pub aux : Out ε _) ≠ .panic := by
  simp only [AffGStarProof.verify]
  refine Out.check_ne_panic (Out.check_ne_panic (allM_ne_panic fun x _ => ?_))
  unfold affGStarCheck
  refine Out.check_ne_panic (Out.check_ne_panic (Out.bind_ne_panic (powPublic_ne_panic hC _) fun _ _ => Out.check_ne_panic (Out.check_ne_panic
    (Out.bind_ne_panic ?_ fun _ _ => Out.check_ne_panic (by simp)))))
  split
  · unfold ctSub ctNeg
    refine Out.bind_ne_panic ?_ fun _ _ => by simp
    obtain ⟨u, hu⟩ := hY
    rw [← hu, invMod?_unit]
    simp [Out.ofOptionPanic]
  · simp

/-- The prover of dec does not panic if `K` is invertible, whatever the ciphertext `D` is, if the value is in the range of the proof. -/
theorem decProve_ne_panic {P : Params} (hP : P.SelfConsistent) (hnb : 0 < P.numBits) (H : DecHash G Aux → List Bool) (g : G) {N0 Nh : Nat} {c : Nat}
    (hwide : P.LP + P.EPS + 1 + c + P.EPS + 1 < P.wide) {x y : SInt} (hxr : x.inRange P.L) (hxb : x.bound ≤ P.L)
    (hyr : y.inRange (decYBound P c)) (hyb : y.bound ≤ P.LP + P.EPS + 1 + c + P.EPS) (rho : Nat) (pub : DecPublic N0 G) (hK : IsUnit pub.capK)
    (hc : (ceilLog2Parties pub.numParties : Out ε _) = .ok c) (setup : RPParams Nh) (aux : Aux) (ephs : List DecEphemeral)
    (hephs : ∀ eph ∈ ephs, Props.DecEphemeralValid P N0 c eph) : (DecProof.prove P H g q x y rho pub setup aux ephs : Out ε _) ≠ .panic := by
  obtain ⟨hc0, ⟨hm1, hm2, hm3, hm4, hm5, hm6⟩, hs1, hs2, hs3, hs4, hs5, hs6, hs7⟩ := hP
  have hL : 0 < P.L := hnb
  have hlp : P.LP = P.primeBits + P.L := rfl
  unfold DecProof.prove
  refine Out.bind_ne_panic (by unfold SInt.assertRange Out.assert; rw [hxr]; simp) fun _ _ => ?_
  rw [hc, Out.bind_ok]
  refine Out.bind_ne_panic (by unfold SInt.assertRange Out.assert; rw [hyr]; simp) fun _ _ => Out.bind_ne_panic (mapM'_ne_panic fun eph h => ?_) fun _ _ => 
    Out.bind_ne_panic (mapM'_ne_panic fun x' h => ?_) fun _ _ => by simp
  · obtain ⟨ha, hb, -⟩ := hephs eph h
    have fα := ha.fits (by omega)
    have fβ := hb.fits (by omega)
    unfold decCommit
    obtain ⟨u, hu⟩ := hK
    rw [← hu, ctMulSecret_unit _ (SInt.neg_fits fα), Out.bind_ok, enc_eq fβ, Out.bind_ok]
    simp
  · obtain ⟨ha, hb, -⟩ := hephs x'.1 (List.of_mem_zip (a := x'.1) (b := x'.2) h).1
    have bα : x'.1.alpha.bound = P.L + P.EPS := ha.1
    have bβ : x'.1.beta.bound = P.LP + P.EPS + 1 + c + P.EPS := hb.1
    unfold decRespond
    refine Out.bind_ne_panic ?_ fun _ _ => Out.bind_ne_panic ?_ fun _ _ => Out.bind_ne_panic ?_ fun _ _ => by simp
    · split
      · unfold SInt.add; rw [if_pos (by rw [bα]; omega)]; simp
      · simp
    · split
      · unfold SInt.add SInt.toWide; rw [if_pos (by rw [bβ]; omega)]; simp
      · simp
    · unfold toMasked powPublic
      refine Out.bind_ne_panic ?_ fun _ _ => by simp
      cases x'.2 <;> simp [bitExponent]

end

namespace Signing

variable {q : Nat} [Fact q.Prime] {I Ep G : Type} [LinearOrder I] [AddCommGroup G] [Module (ZMod q) G] [DecidableEq G]

/-- The ciphertexts that a party holds in an error round belong to the right keys, and those of round 1 and the `F` of round 2 are invertible. -/
structure Keyed (r : ErrRound q I Ep G) (pk : I → PubAux) : Prop where
  me : r.ctx.myId ∈ r.ctx.allIds
  others : r.ctx.otherIds = r.ctx.allIds.erase r.ctx.myId
  pub : ∀ i b, r.ctx.pubAux.get? i = some b ↔ i ∈ r.ctx.allIds ∧ b = pk i
  capKs : ∀ i c, r.capKs.get? i = some c → ∃ K : Ct (pk i).pk, c = ⟨(pk i).pk, K⟩ ∧ IsUnit K
  capDs : ∀ i j c, Entry r.capDs i j c → c.pk = (pk j).pk
  capFs : ∀ i j c, Entry r.capFs i j c → ∃ F : Ct (pk i).pk, c = ⟨(pk i).pk, F⟩ ∧ IsUnit F

theorem matrixGet_ne_panic {ε : Type} {missing : ε} {m : BMap I (BMap I Cipher)} {i j : I} : matrixGet missing m i j ≠ .panic :=
  Out.bind_ne_panic ofOption_ne_panic fun _ _ => ofOption_ne_panic

theorem matrixGet_entry {ε : Type} {missing : ε} {m : BMap I (BMap I Cipher)} {i j : I} {c : Cipher} (h : matrixGet missing m j i = .ok c) : Entry m i j c := by
  unfold matrixGet at h
  obtain ⟨row, h1, h2⟩ := Out.bind_eq_ok.1 h
  exact ⟨row, Out.ofOption_eq_ok.1 h1, Out.ofOption_eq_ok.1 h2⟩

theorem Keyed.aggregate {r : ErrRound q I Ep G} {pk : I → PubAux} (h : Keyed r pk) {ε : Type} (missing e : ε) (party : I) (ids : Finset I) :
    aggregate missing e r.capDs r.capFs party ids ≠ .panic ∧
      ∀ c, aggregate missing e r.capDs r.capFs party ids = .ok c → c.pk = (pk party).pk ∧ ids.Nonempty := by
  have h1 := Cipher.sumNonEmpty_keyed (e := e) (N := (pk party).pk) (l := (bsetIter ids).map fun id => matrixGet missing r.capDs party id) (by
    intro x hx
    obtain ⟨id, _, rfl⟩ := List.mem_map.1 hx
    exact ⟨matrixGet_ne_panic, fun c hc => h.capDs _ _ _ (matrixGet_entry hc)⟩)
  have h2 := Cipher.sumNonEmpty_keyed (e := e) (N := (pk party).pk) (l := (bsetIter ids).map fun id => matrixGet missing r.capFs id party) (by
    intro x hx
    obtain ⟨id, _, rfl⟩ := List.mem_map.1 hx
    refine ⟨matrixGet_ne_panic, fun c hc => ?_⟩
    obtain ⟨F, hF, -⟩ := h.capFs _ _ _ (matrixGet_entry hc)
    rw [hF])
  unfold Signing.aggregate
  refine ⟨Out.bind_ne_panic h1.1 fun d hd => Out.bind_ne_panic h2.1 fun f hf => Cipher.add_ne_panic (by rw [h1.2 d hd, h2.2 f hf]), fun c hc => ?_⟩
  simp only [Out.bind_eq_ok] at hc
  obtain ⟨d, hd, f, hf, hc⟩ := hc
  refine ⟨(Cipher.add_pk hc).trans (h1.2 d hd), ?_⟩
  by_contra hne
  rw [Finset.not_nonempty_iff_eq_empty] at hne
  subst hne
  simp [bsetIter_eq_sort, Cipher.sumNonEmpty] at hd

/-- **Receiving in an error round** -/
theorem recvErr_ne_panic {E : Env q I Ep G} {r : ErrRound q I Ep G} {pk : I → PubAux} (h : Keyed r pk) (sender : I) (m : MsgErr I G) :
    recvErr E r sender m ≠ .panic := by
  unfold recvErr
  refine Out.bind_ne_panic ofOption_ne_panic fun theirs ht => Out.bind_ne_panic (h.aggregate ..).1 fun capD hD => Out.bind_ne_panic ofOption_ne_panic fun capK hK =>
    Out.bind_ne_panic ofOption_ne_panic fun capX _ => Out.bind_ne_panic ofOption_ne_panic fun capS _ => ?_
  obtain ⟨hs, rfl⟩ := (h.pub _ _).1 (Out.ofOption_eq_ok.1 ht)
  obtain ⟨K, rfl, hu⟩ := h.capKs _ _ (Out.ofOption_eq_ok.1 hK)
  obtain ⟨hDk, hne⟩ := (h.aggregate ..).2 _ hD
  have hn : 2 ≤ r.ctx.allIds.card := by
    rw [← Finset.card_pos, Finset.card_erase_of_mem hs] at hne
    omega
  simp only [Cipher.under_self, Out.bind_ok]
  refine Out.bind_ne_panic (Cipher.under_ne_panic hDk) fun d _ => Out.bind_ne_panic (dec_ne_panic _ _ _ _ hu hn _ _) fun ok _ => ?_
  split
  · simp
  split
  · simp
  refine Out.bind_ne_panic (traverse_ne_panic fun id psi _ => ?_) fun _ _ => by simp
  split
  · simp
  refine Out.bind_ne_panic ofOption_ne_panic fun target ht => Out.bind_ne_panic ofOption_ne_panic fun capC hC =>
    Out.bind_ne_panic matrixGet_ne_panic fun capD hD => Out.bind_ne_panic matrixGet_ne_panic fun capY hY => Out.bind_ne_panic ?_ fun ok _ => by split <;> simp
  obtain ⟨hid, rfl⟩ := (h.pub _ _).1 (Out.ofOption_eq_ok.1 ht)
  obtain ⟨C, rfl, hCu⟩ := h.capKs _ _ (Out.ofOption_eq_ok.1 hC)
  obtain ⟨Y, rfl, hYu⟩ := h.capFs _ _ _ (matrixGet_entry hY)
  unfold starVerify
  simp only [Cipher.under_self, Out.bind_ok]
  exact Out.bind_ne_panic (Cipher.under_ne_panic (h.capDs _ _ _ (matrixGet_entry hD))) fun d _ => affGStar_ne_panic _ _ _ _ hCu hYu _

variable {E : Env q I Ep G} (hE : SigningSetting E)
include hE

/-- **Sending in an error round**: whatever the others have sent, the party does not panic when it makes its own message. -/
theorem msgErr_ne_panic {r : ErrRound q I Ep G} {pk : I → PubAux} (h : Keyed r pk) {capK : I → Cipher} {c : Nat} (hs : OwnSent E r pk capK)
    (hd : OwnDraws E r pk c) (hfew : FewParties E.P r.ctx.allIds.card c) (hkey : KeyFacts r.ctx.key.sk) (hsize : r.ctx.key.modulus < 2 ^ E.P.modBits) :
    msgErr E r ≠ .panic := by
  have : NeZero q := ⟨(Fact.out : q.Prime).ne_zero⟩
  have hw : E.P.modBits ≤ E.P.uint := hE.consistent.2.1.2.2.1
  have hdec : ∀ d : Cipher, d.pk = r.ctx.key.modulus → (r.ctx.key.decryptCipher E.P d : Out LocalErr _) ≠ .panic := fun d hd =>
    Out.bind_ne_panic (Cipher.under_ne_panic hd) fun c _ => decrypt_ne_panic hkey hsize hw c
  obtain ⟨c', hc', hlog⟩ := Props.C30_interval_width (ε := LocalErr) r.ctx.allIds.card hfew.parties
  have hcc : c' = c := le_antisymm (hlog.2 c hfew.log.1) (hfew.log.2 c' hlog.1)
  subst hcc
  unfold msgErr
  simp only [signedOfSecret_ok hE, Out.bind_ok]
  refine Out.bind_ne_panic ofOption_ne_panic fun mine _ => Out.bind_ne_panic (h.aggregate ..).1 fun capD hD => Out.bind_ne_panic ofOption_ne_panic fun k hk => ?_
  obtain ⟨K, rfl, hu⟩ := h.capKs _ _ (Out.ofOption_eq_ok.1 hk)
  obtain ⟨hDk, -⟩ := (h.aggregate ..).2 _ hD
  obtain ⟨U, rfl⟩ := hu
  rw [Cipher.mulSecret_unit U (signedI_fits hE r.x), Out.bind_ok]
  refine Out.bind_ne_panic (Cipher.add_ne_panic hDk) fun full hfull => ?_
  have hfk : full.pk = r.ctx.key.modulus := (Cipher.add_pk hfull).trans hs.pkMe
  refine Out.bind_ne_panic (Out.bind_ne_panic (Cipher.under_ne_panic hfk) fun _ _ => by simp) fun rho _ => Out.bind_ne_panic (hdec full hfk) fun y _ => ?_
  rw [hc', Out.bind_ok]
  refine Out.bind_ne_panic ofOption_ne_panic fun y' hy' => Out.bind_ne_panic ofOption_ne_panic fun capS _ => Out.bind_ne_panic ofOption_ne_panic fun capX _ => ?_
  have hyr : y'.inRange (decYBound E.P c') ∧ y'.bound = decYBound E.P c' + 1 := by
    have := Out.ofOption_eq_ok.1 hy'
    unfold SInt.ensureRange at this
    split at this
    · rename_i hr
      cases this
      exact ⟨hr.1, rfl⟩
    · cases this
  obtain ⟨hc0, ⟨hm1, hm2, hm3, hm4, hm5, hm6⟩, hs1, hs2, hs3, hs4, hs5, hs6, hs7⟩ := id hE.consistent
  have hL : 0 < E.P.L := hE.curve
  rw [← hs.pkMe]
  simp only [Cipher.under_self, Out.bind_ok]
  refine Out.bind_ne_panic (Cipher.under_ne_panic hDk) fun d _ => Out.bind_ne_panic ?_ fun psi _ => Out.bind_ne_panic (buildMap_ne_panic fun id hid => ?_) fun _ _ => by simp
  · refine decProve_ne_panic hE.consistent hE.curve _ _ hfew.wide (decide_eq_true (signedI_inPm hE r.x)) (signedI_bound hE r.x) hyr.1
      (by rw [hyr.2]; unfold decYBound; have := hfew.slack; omega) _ _ U.isUnit hc' _ _ _ ?_
    rw [hs.pkMe]
    exact hd.dec.masks
  · obtain ⟨psi, hpsi, -⟩ := own_star hE hs hd hid
    rw [hpsi]
    simp

omit hE in
/-- The rows of ciphertexts that a party keeps of a message of round 2 -/
theorem recv2_rows {r : Round2 q I Ep G} {sender : I} {m : Msg2 q I G} {p : Payload2 q I G} (h : recv2 E r sender m = .ok p) :
    ∃ theirs, r.ctx.pubAux.get? sender = some theirs ∧
      (∀ id c, p.capDs.get? id = some c ∨ p.hatCapDs.get? id = some c → ∃ target w, r.ctx.pubAux.get? id = some target ∧ c = Cipher.ofWire target.pk w) ∧
      ∀ id c, p.capFs.get? id = some c ∨ p.hatCapFs.get? id = some c → ∃ w, (m.echo.capFs.get? id = some w ∨ m.echo.hatCapFs.get? id = some w) ∧
        c = Cipher.ofWire theirs.pk w := by
  unfold recv2 at h
  simp only at h
  obtain ⟨theirs, ht, h⟩ := Out.bind_eq_ok.1 h
  split at h
  · cases h
  split at h
  · cases h
  split at h
  · cases h
  simp only [Out.bind_eq_ok] at h
  obtain ⟨p1, _, dfs, hdfs, hatDfs, hhat, h⟩ := h
  split at h
  · cases h
  simp only [Out.bind_eq_ok] at h
  obtain ⟨df, _, a, _, df', _, a', _, he⟩ := h
  cases he
  have h1 := (mtaVerify_state hdfs).2
  have h2 := (mtaVerify_state hhat).2
  have hmap : ∀ {m' : BMap I (Cipher × Cipher)} {f : Cipher × Cipher → Cipher} {id : I} {c : Cipher}, (m'.mapVals fun _ x => f x).get? id = some c →
      ∃ x, m'.get? id = some x ∧ f x = c := by
    intro m' f id c hc
    rw [BMap.get?_mapVals] at hc
    cases hx : m'.get? id with
    | none => rw [hx] at hc; cases hc
    | some x => rw [hx] at hc; exact ⟨x, rfl, Option.some.inj hc⟩
  refine ⟨theirs, Out.ofOption_eq_ok.1 ht, fun id c hc => ?_, fun id c hc => ?_⟩
  · rcases hc with hc | hc
    · obtain ⟨x, hx, rfl⟩ := hmap hc
      obtain ⟨t, d, f, ht, _, _, rfl⟩ := h1 _ _ hx
      exact ⟨t, d, ht, rfl⟩
    · obtain ⟨x, hx, rfl⟩ := hmap hc
      obtain ⟨t, d, f, ht, _, _, rfl⟩ := h2 _ _ hx
      exact ⟨t, d, ht, rfl⟩
  · rcases hc with hc | hc
    · obtain ⟨x, hx, rfl⟩ := hmap hc
      obtain ⟨t, d, f, ht, _, hf, rfl⟩ := h1 _ _ hx
      exact ⟨f, Or.inl hf, rfl⟩
    · obtain ⟨x, hx, rfl⟩ := hmap hc
      obtain ⟨t, d, f, ht, _, hf, rfl⟩ := h2 _ _ hx
      exact ⟨f, Or.inr hf, rfl⟩

omit hE in
/-- The state of an error round, put together from what was sent and received -/
theorem keyed_of_parts {S : Run q I Ep G} {sk : ZMod q} (good : S.Good sk) {me : I} (hme : me ∈ S.ids) {payloads1 : BMap I (Payload1 G)}
    (hK : ∀ j p, payloads1.get? j = some p → ∃ K : Ct (S.N j), p.capK = ⟨S.N j, K⟩ ∧ IsUnit K) (hall : ∀ j ∈ S.ids, ∃ p, payloads1.get? j = some p)
    {outs : BMap I (MtaOut q G)} {x : ZMod q} {mta : MtaDraws I} (hk : outs.keySet = S.ids.erase me)
    (hout : ∀ i o, outs.get? i = some o → ∃ p capX, payloads1.get? i = some p ∧
      mtaSend S.E (S.ctx me) ⟨S.N i, S.setup i⟩ p.capK (signedI S.E.P x) capX mta i = .ok o)
    {capDs capFs : BMap I (BMap I Cipher)} (hD : ∀ i row j c, capDs.get? i = some row → row.get? j = some c → c.pk = S.N j)
    (hF : ∀ i row j c, capFs.get? i = some row → row.get? j = some c → ∃ F : Ct (S.N i), c = ⟨S.N i, F⟩ ∧ IsUnit F)
    {capXs capSs : BMap I G} {capG : G} (hX : capXs.get? me = some (x • S.E.C.g)) (hbeta : ∀ i ∈ S.ids.erase me, (mta.beta i).IsDraw S.E.P.LP)
    (hr : ∀ i ∈ S.ids.erase me, Nat.Coprime (mta.r i) (S.N me)) {hat : Bool} {dec : List DecEphemeral} {star : I → List AffGStarEphemeral} :
    let r : ErrRound q I Ep G := ⟨hat, S.ctx me, payloads1.mapVals fun _ p => p.capK, capDs.insert me (outs.mapVals fun _ o => o.capD),
      capFs.insert me (outs.mapVals fun _ o => o.capF), capXs, capSs, capG, x, mta, dec, star⟩
    Keyed r (fun i => ⟨S.N i, S.setup i⟩) ∧ ∃ capK, OwnSent S.E r (fun i => ⟨S.N i, S.setup i⟩) capK := by
  intro r
  have hsent : ∀ i o, outs.get? i = some o → i ∈ S.ids.erase me ∧ ∃ p, ∃ U : (ZMod (S.N i ^ 2))ˣ, payloads1.get? i = some p ∧ p.capK = ⟨S.N i, (U : Ct (S.N i))⟩ ∧
      o.capD = ⟨S.N i, ((U ^ (signedI S.E.P x).val : (ZMod (S.N i ^ 2))ˣ) : Ct (S.N i)) *
        (oneAdd (S.N i) (-(mta.beta i).val) * ((mta.s i : Nat) : Ct (S.N i)) ^ S.N i)⟩ ∧
      o.capF = ⟨S.N me, oneAdd (S.N me) (mta.beta i).val * ((mta.r i : Nat) : Ct (S.N me)) ^ S.N me⟩ := by
    intro i o ho
    have hi : i ∈ S.ids.erase me := by rw [← hk, BMap.mem_keySet, BMap.mem_keys_iff]; exact ⟨o, ho⟩
    obtain ⟨p, capX, hp, hs⟩ := hout i o ho
    obtain ⟨K, hKe, U, rfl⟩ := hK i p hp
    obtain ⟨e1, e2⟩ := mtaSend_state good.setting (target := ⟨S.N i, S.setup i⟩) (SInt.IsDraw.fits (LP_pos good.setting) (hbeta i hi)) hKe hs
    exact ⟨hi, p, U, hp, hKe, e1, e2⟩
  have hmap : ∀ {f : MtaOut q G → Cipher} {i c}, (outs.mapVals fun _ o => f o).get? i = some c → ∃ o, outs.get? i = some o ∧ f o = c := by
    intro f i c hc
    rw [BMap.get?_mapVals] at hc
    cases hx : outs.get? i with
    | none => rw [hx] at hc; cases hc
    | some x => rw [hx] at hc; exact ⟨x, rfl, Option.some.inj hc⟩
  have hKs : ∀ i c, r.capKs.get? i = some c → ∃ p, payloads1.get? i = some p ∧ p.capK = c := by
    intro i c hc
    rw [BMap.get?_mapVals] at hc
    cases hx : payloads1.get? i with
    | none => rw [hx] at hc; cases hc
    | some x => rw [hx] at hc; exact ⟨x, rfl, Option.some.inj hc⟩
  have hpub : ∀ i b, r.ctx.pubAux.get? i = some b ↔ i ∈ r.ctx.allIds ∧ b = ⟨S.N i, S.setup i⟩ := by
    intro i b
    show (S.pubAux).get? i = some b ↔ i ∈ S.ids ∧ _
    unfold Run.pubAux
    rw [BMap.get?_tabulate]
    by_cases hi : i ∈ S.ids
    · simp [hi, eq_comm]
    · simp [hi]
  have hkk : ∀ i, ∃ c : Cipher, i ∈ S.ids → r.capKs.get? i = some c := by
    intro i
    by_cases hi : i ∈ S.ids
    · obtain ⟨p, hp⟩ := hall i hi
      exact ⟨p.capK, fun _ => by show (BMap.mapVals _ _).get? i = _; rw [BMap.get?_mapVals, hp]; rfl⟩
    · exact ⟨⟨0, 0⟩, fun h => absurd h hi⟩
  choose capK hcapK using hkk
  have hoGet : ∀ i ∈ S.ids.erase me, ∃ o, outs.get? i = some o := fun i hi => by rwa [← hk, BMap.mem_keySet, BMap.mem_keys_iff] at hi
  refine ⟨⟨hme, rfl, hpub, ?_, ?_, ?_⟩, capK, ⟨hme, rfl, fun i hi => (hpub i _).2 ⟨hi, rfl⟩, rfl, fun i hi => good.pos hi, hcapK, ?_, ?_, hX⟩⟩
  · intro i c hc
    obtain ⟨p, hp, rfl⟩ := hKs i c hc
    exact hK i p hp
  · rintro i j c ⟨row, h1, h2⟩
    change (BMap.insert ..).get? i = _ at h1
    rw [BMap.get?_insert] at h1
    split at h1
    · cases h1
      obtain ⟨o, ho, rfl⟩ := hmap h2
      obtain ⟨-, p, U, -, -, e, -⟩ := hsent j o ho
      rw [e]
    · exact hD i row j c h1 h2
  · rintro i j c ⟨row, h1, h2⟩
    change (BMap.insert ..).get? i = _ at h1
    rw [BMap.get?_insert] at h1
    split at h1
    · rename_i hi
      subst hi
      cases h1
      obtain ⟨o, ho, rfl⟩ := hmap h2
      obtain ⟨hj, p, U, -, -, -, e⟩ := hsent j o ho
      refine ⟨_, e, ?_⟩
      obtain ⟨u, hu⟩ := natCast_unit_sq (hr j hj)
      have hh : (Cipher.mk (S.N i) (oneAdd (S.N i) (mta.beta j).val * ((mta.r j : Nat) : Ct (S.N i)) ^ S.N i)).Holds (S.N i) (mta.beta j).val := ⟨u, by rw [hu]⟩
      obtain ⟨V, hV⟩ := hh.unit
      simp only [Cipher.mk.injEq, heq_eq_eq, true_and] at hV
      rw [hV]
      exact V.isUnit
    · exact hF i row j c h1 h2
  · intro i hi
    obtain ⟨o, ho⟩ := hoGet i hi
    obtain ⟨-, p, U, hp, hKe, e, -⟩ := hsent i o ho
    refine ⟨U, ?_, outs.mapVals fun _ o => o.capD, ?_, ?_⟩
    · have := hcapK i (Finset.mem_of_mem_erase hi)
      obtain ⟨p', hp', h⟩ := hKs i _ this
      rw [hp] at hp'
      cases hp'
      rw [← h]; exact hKe
    · show (BMap.insert ..).get? me = _
      rw [BMap.get?_insert, if_pos rfl]
    · rw [BMap.get?_mapVals, ho]
      exact congrArg some e
  · intro i hi
    obtain ⟨o, ho⟩ := hoGet i hi
    obtain ⟨-, p, U, hp, hKe, -, e⟩ := hsent i o ho
    refine ⟨outs.mapVals fun _ o => o.capF, ?_, ?_⟩
    · show (BMap.insert ..).get? me = _
      rw [BMap.get?_insert, if_pos rfl]
    · rw [BMap.get?_mapVals, ho]
      exact congrArg some e

omit hE in
/-- **The state of a party that enters an error round**, if all the ciphertexts `K` and `F` it got are invertible -/
theorem keyed_state {S : Run q I Ep G} {sk : ZMod q} (good : S.Good sk) {me : I} (hme : me ∈ S.ids) {in1 : List (I × Msg1 q G)} {in2 : List (I × Msg2 q I G)}
    {in3 : List (I × Msg3 q G)} (hno1 : ∀ a ∈ in1, Nat.Coprime a.2.echo.capK (S.N a.1))
    (hno2 : ∀ a ∈ in2, ∀ id w, a.2.echo.capFs.get? id = some w ∨ a.2.echo.hatCapFs.get? id = some w → Nat.Coprime w (S.N a.1))
    {r : ErrRound q I Ep G} (h : toRound4 S.E (S.r1 me) in1 in2 in3 = .ok (.error r)) :
    r.ctx = S.ctx me ∧ Keyed r (fun i => ⟨S.N i, S.setup i⟩) ∧ (∃ capK, OwnSent S.E r (fun i => ⟨S.N i, S.setup i⟩) capK) ∧
      ((r.mta = (S.d me).mta ∧ r.dec = (S.d me).dec ∧ r.star = (S.d me).star) ∨
        (r.mta = (S.d me).hatMta ∧ r.dec = (S.d me).hatDec ∧ r.star = (S.d me).hatStar)) := by
  unfold toRound4 toRound3 at h
  simp only [Out.bind_eq_ok, finalizeResult_eq_ok] at h
  obtain ⟨r3, ⟨r2, h2, p2, hp2, hf2⟩, p3, hp3, hf3⟩ := h
  obtain ⟨p1, hp1, hc2, hpay, hgam, hok, hout⟩ := toRound2_state good.setting h2
  unfold finalize2 at hf2
  simp only [Out.bind_eq_ok, finGet, Out.ofOption_eq_ok] at hf2
  obtain ⟨pm, hpm, he⟩ := hf2
  cases he
  have hpub : ∀ {j b}, (S.r1 me).ctx.pubAux.get? j = some b → j ∈ S.ids ∧ b = ⟨S.N j, S.setup j⟩ := by
    intro j b hb
    change (BMap.tabulate _ _).get? j = some b at hb
    rw [BMap.get?_tabulate] at hb
    split at hb
    · exact ⟨by assumption, (Option.some.inj hb).symm⟩
    · cases hb
  have hKo : ∀ j ∈ S.ids.erase me, ∃ p, p1.get? j = some p ∧ ∃ K : Ct (S.N j), p.capK = ⟨S.N j, K⟩ ∧ IsUnit K := by
    intro j hj
    obtain ⟨m, p, hm, hr, hg⟩ := collect_mem hp1 hj
    refine ⟨p, hg, ?_⟩
    unfold recv1 at hr
    simp only [Out.bind_eq_ok, recvGet, Out.ofOption_eq_ok] at hr
    obtain ⟨mine, _, theirs, ht, ok0, _, hr⟩ := hr
    obtain ⟨-, rfl⟩ := hpub ht
    split at hr
    · cases hr
    obtain ⟨ok1, _, hr⟩ := Out.bind_eq_ok.1 hr
    split at hr
    · cases hr
    cases hr
    exact ⟨_, rfl, isUnit_ctOfWire (hno1 _ hm)⟩
  have hk1 : p1.keySet = S.ids.erase me := (collect_eq_ok.1 hp1).2.2.1
  have hown : ∃ K : Ct (S.N me), ((S.r1 me).echo.payload (S.r1 me).ctx.key.modulus).capK = ⟨S.N me, K⟩ ∧ IsUnit K := by
    obtain ⟨U, hU⟩ := (good.capK_holds hme).unit
    exact ⟨_, (congrArg Payload1.capK (good.payload_eq hme)).trans hU, U.isUnit⟩
  have hK : ∀ j p, r2.payloads1.get? j = some p → ∃ K : Ct (S.N j), p.capK = ⟨S.N j, K⟩ ∧ IsUnit K := by
    intro j p hp
    rw [hpay, BMap.get?_insert] at hp
    by_cases hj : j = me
    · subst hj
      rw [if_pos (show j = (S.r1 j).ctx.myId from rfl)] at hp
      cases hp
      exact hown
    · rw [if_neg (show ¬ j = (S.r1 me).ctx.myId from hj)] at hp
      have hj' : j ∈ S.ids.erase me := by rw [← hk1, BMap.mem_keySet, BMap.mem_keys_iff]; exact ⟨p, hp⟩
      obtain ⟨p', hp', h⟩ := hKo j hj'
      rw [hp] at hp'
      cases hp'
      exact h
  have hall : ∀ j ∈ S.ids, ∃ p, r2.payloads1.get? j = some p := by
    intro j hj
    rw [hpay]
    by_cases hjm : j = me
    · exact ⟨_, by rw [BMap.get?_insert, if_pos (show j = (S.r1 me).ctx.myId from hjm)]⟩
    · obtain ⟨p, hp, -⟩ := hKo j (Finset.mem_erase.2 ⟨hjm, hj⟩)
      exact ⟨p, by rw [BMap.get?_insert, if_neg (show ¬ j = (S.r1 me).ctx.myId from hjm), hp]⟩
  have hk2 : p2.keySet = S.ids.erase me := by
    have := (collect_eq_ok.1 hp2).2.2.1
    rw [hc2] at this
    exact this
  have hrows : ∀ i p, p2.get? i = some p → (∀ j c, p.capDs.get? j = some c ∨ p.hatCapDs.get? j = some c → c.pk = S.N j) ∧
      ∀ j c, p.capFs.get? j = some c ∨ p.hatCapFs.get? j = some c → ∃ F : Ct (S.N i), c = ⟨S.N i, F⟩ ∧ IsUnit F := by
    intro i p hp
    have hi : i ∈ r2.ctx.otherIds := by
      rw [hc2]
      show i ∈ S.ids.erase me
      rw [← hk2, BMap.mem_keySet, BMap.mem_keys_iff]; exact ⟨p, hp⟩
    obtain ⟨m, p', hm, hr, hg⟩ := collect_mem hp2 hi
    rw [hp] at hg
    cases hg
    obtain ⟨theirs, ht, h1, h2⟩ := recv2_rows hr
    rw [hc2] at ht h1
    obtain ⟨-, rfl⟩ := hpub ht
    refine ⟨fun j c hc => ?_, fun j c hc => ?_⟩
    · obtain ⟨t, w, ht, rfl⟩ := h1 j c hc
      obtain ⟨-, rfl⟩ := hpub ht
      rfl
    · obtain ⟨w, hw, rfl⟩ := h2 j c hc
      exact ⟨_, rfl, isUnit_ctOfWire (hno2 _ hm j w hw)⟩
  have hmapP : ∀ {f : Payload2 q I G → BMap I Cipher} {i row}, (p2.mapVals fun _ p => f p).get? i = some row → ∃ p, p2.get? i = some p ∧ f p = row := by
    intro f i c hc
    rw [BMap.get?_mapVals] at hc
    cases hx : p2.get? i with
    | none => rw [hx] at hc; cases hc
    | some x => rw [hx] at hc; exact ⟨x, rfl, Option.some.inj hc⟩
  have hmapO : ∀ {f : MtaOut q G × MtaOut q G → MtaOut q G} {i o}, (r2.outs.mapVals fun _ x => f x).get? i = some o → ∃ x, r2.outs.get? i = some x ∧ f x = o := by
    intro f i c hc
    rw [BMap.get?_mapVals] at hc
    cases hx : r2.outs.get? i with
    | none => rw [hx] at hc; cases hc
    | some x => rw [hx] at hc; exact ⟨x, rfl, Option.some.inj hc⟩
  have hdr : ∀ i ∈ S.ids.erase me, MtaDrawsValid S.E.P (S.N i) (S.N me) (S.setup i).modulus (S.d me).mta i ∧
      MtaDrawsValid S.E.P (S.N i) (S.N me) (S.setup i).modulus (S.d me).hatMta i := fun i hi =>
    ⟨good.draws.mta me hme i (Finset.mem_of_mem_erase hi) (Ne.symm (Finset.ne_of_mem_erase hi)),
      good.draws.hatMta me hme i (Finset.mem_of_mem_erase hi) (Ne.symm (Finset.ne_of_mem_erase hi))⟩
  unfold finalize3 at hf3
  simp only [hc2] at hf3
  split at hf3
  · cases hf3
    obtain ⟨h1, h2⟩ := keyed_of_parts good hme hK hall (outs := r2.outs.mapVals fun _ o => o.1) (x := (S.d me).gamma) (mta := (S.d me).mta)
      (by rw [BMap.keySet_mapVals]; exact hok)
      (fun i o ho => by
        obtain ⟨x, hx, rfl⟩ := hmapO ho
        obtain ⟨t, p, capX, e1, e2, e3, e4, e5⟩ := hout i x hx
        obtain ⟨-, rfl⟩ := hpub e1
        exact ⟨p, _, e2, e4⟩)
      (capDs := p2.mapVals fun _ p => p.capDs) (capFs := p2.mapVals fun _ p => p.capFs)
      (fun i row j c h1 h2 => by obtain ⟨p, hp, rfl⟩ := hmapP h1; exact (hrows i p hp).1 j c (Or.inl h2))
      (fun i row j c h1 h2 => by obtain ⟨p, hp, rfl⟩ := hmapP h1; exact (hrows i p hp).2 j c (Or.inl h2))
      (capXs := (p2.mapVals fun _ p => p.capGamma).insert me r2.capGamma) (by rw [BMap.get?_insert, if_pos rfl, hgam]; rfl)
      (fun i hi => (hdr i hi).1.beta) (fun i hi => (hdr i hi).1.r)
    rw [mapVals_mapVals', mapVals_mapVals'] at h1 h2
    exact ⟨rfl, h1, h2, Or.inl ⟨rfl, rfl, rfl⟩⟩
  split at hf3
  · cases hf3
    obtain ⟨h1, h2⟩ := keyed_of_parts good hme hK hall (outs := r2.outs.mapVals fun _ o => o.2) (x := (S.shares me).secret) (mta := (S.d me).hatMta)
      (by rw [BMap.keySet_mapVals]; exact hok)
      (fun i o ho => by
        obtain ⟨x, hx, rfl⟩ := hmapO ho
        obtain ⟨t, p, capX, e1, e2, e3, e4, e5⟩ := hout i x hx
        obtain ⟨-, rfl⟩ := hpub e1
        exact ⟨p, _, e2, e5⟩)
      (capDs := p2.mapVals fun _ p => p.hatCapDs) (capFs := p2.mapVals fun _ p => p.hatCapFs)
      (fun i row j c h1 h2 => by obtain ⟨p, hp, rfl⟩ := hmapP h1; exact (hrows i p hp).1 j c (Or.inr h2))
      (fun i row j c h1 h2 => by obtain ⟨p, hp, rfl⟩ := hmapP h1; exact (hrows i p hp).2 j c (Or.inr h2))
      (capXs := (S.shares me).pub) (good.keys.public_matches me hme me hme)
      (fun i hi => (hdr i hi).2.beta) (fun i hi => (hdr i hi).2.r)
    rw [mapVals_mapVals', mapVals_mapVals'] at h1 h2
    exact ⟨rfl, h1, h2, Or.inr ⟨rfl, rfl, rfl⟩⟩
  split at hf3 <;> cases hf3

end Signing

end Synedrion
