import Verif.Lemmas.SigningBlame
import Verif.Lemmas.SigningErrPanics

/-!
# Lemmas about what signers accept from each other in the rounds that look for a culprit
-/

set_option linter.unusedSectionVars false

namespace Synedrion.Signing

open Spec

variable {q : Nat} [Fact q.Prime] {I Ep G : Type} [LinearOrder I] [AddCommGroup G] [Module (ZMod q) G] [DecidableEq G] {E : Env q I Ep G}

/-! ### What cannot be a complaint about another party -/

theorem recvGet_no_fault {Er V : Type} {m : BMap I V} {k : I} {e : Er} : (recvGet m k : Out (RecvErr Er) V) ≠ .err (.protocol e) := by
  unfold recvGet; cases m.get? k <;> simp

theorem matrixGet_no_fault {Er : Type} {m : BMap I (BMap I Cipher)} {i j : I} {l : LocalErr} {e : Er} :
    (matrixGet (.localErr l) m i j : Out (RecvErr Er) Cipher) ≠ .err (.protocol e) := by
  unfold matrixGet
  cases m.get? j with
  | none => simp
  | some r => rw [Out.ofOption_some, Out.bind_ok]; cases r.get? i <;> simp

theorem under_ne_err {ε : Type} {c : Cipher} {N : Nat} {e : ε} : (c.under N : Out ε _) ≠ .err e := by
  unfold Cipher.under; split <;> simp

theorem add_ne_err {ε : Type} {c d : Cipher} {e : ε} : (c.add d : Out ε _) ≠ .err e := by
  intro h
  unfold Cipher.add at h
  rcases Out.bind_eq_err.1 h with h | ⟨_, -, h⟩
  · exact under_ne_err h
  · cases h

theorem sumLoop_no_fault {Er : Type} {e : Er} : ∀ (l : List (Out (RecvErr Er) Cipher)) (acc : Cipher), (∀ o ∈ l, o ≠ .err (.protocol e)) →
    Cipher.sumLoop acc l ≠ .err (.protocol e) := by
  intro l
  induction l with
  | nil => intro acc _ h; cases h
  | cons o l ih =>
    intro acc hl h
    rw [Cipher.sumLoop] at h
    rcases Out.bind_eq_err.1 h with h | ⟨_, -, h⟩
    · exact hl o (by simp) h
    · rcases Out.bind_eq_err.1 h with h | ⟨_, -, h⟩
      · exact add_ne_err h
      · exact ih _ (fun o ho => hl o (by simp [ho])) h

theorem sumNonEmpty_no_fault {Er : Type} {e : Er} {l : List (Out (RecvErr Er) Cipher)} {l0 : LocalErr} (hl : ∀ o ∈ l, o ≠ .err (.protocol e)) :
    Cipher.sumNonEmpty (.localErr l0) l ≠ .err (.protocol e) := by
  intro h
  cases l with
  | nil => simp [Cipher.sumNonEmpty] at h
  | cons o l =>
    rw [Cipher.sumNonEmpty] at h
    rcases Out.bind_eq_err.1 h with h | ⟨_, -, h⟩
    · exact hl o (by simp) h
    · exact sumLoop_no_fault l _ (fun o ho => hl o (by simp [ho])) h

theorem dec_ne_err {ε Aux : Type} {P : Params} {H : DecHash G Aux → List Bool} {g : G} {N0 Nh : Nat} {prf : DecProof G} {pub : DecPublic N0 G} {setup : RPParams Nh}
    {aux : Aux} {e : ε} : (prf.verify P H g q pub setup aux : Out ε Bool) ≠ .err e := by
  intro h
  rcases Out.ok_or_panic_of_cast (DecProof.verify_cast (ε := Empty) (ε' := ε) (q := q) P H g prf pub setup aux) with hx | ⟨_, hx⟩ <;> rw [hx] at h <;> cases h

theorem star_ne_err {ε Aux : Type} {P : Params} {H : AffGStarHash G Aux → List Bool} {g : G} {N0 N1 : Nat} {prf : AffGStarProof G} {pub : AffGPublic N0 N1 G}
    {aux : Aux} {e : ε} : (prf.verify P H g q pub aux : Out ε Bool) ≠ .err e := by
  intro h
  rcases Out.ok_or_panic_of_cast (AffGStarProof.verify_cast (ε := Empty) (ε' := ε) (q := q) P H g prf pub aux) with hx | ⟨_, hx⟩ <;> rw [hx] at h <;> cases h

theorem aggregate_no_fault {Er : Type} {l1 l2 : LocalErr} {capDs capFs : BMap I (BMap I Cipher)} {party : I} {ids : Finset I} {e : Er} :
    (aggregate (.localErr l1) (.localErr l2) capDs capFs party ids : Out (RecvErr Er) Cipher) ≠ .err (.protocol e) := by
  intro h
  unfold aggregate at h
  rcases Out.bind_eq_err.1 h with h | ⟨_, -, h⟩
  · exact sumNonEmpty_no_fault (fun o ho => by obtain ⟨_, -, rfl⟩ := List.mem_map.1 ho; exact matrixGet_no_fault) h
  · rcases Out.bind_eq_err.1 h with h | ⟨_, -, h⟩
    · exact sumNonEmpty_no_fault (fun o ho => by obtain ⟨_, -, rfl⟩ := List.mem_map.1 ho; exact matrixGet_no_fault) h
    · exact add_ne_err h

/-! ### The states of the parties -/

/-- One of the two multiplications -/
def pick {α : Type} (hat : Bool) (a : α × α) : α := if hat then a.2 else a.1

/-- What is taken over from an accepted message of round 2 -/
theorem recv2_taken {r : Round2 q I Ep G} {sender : I} {m : Msg2 q I G} {p : Payload2 q I G} (h : recv2 E r sender m = .ok p) :
    p.capGamma = m.echo.capGamma ∧ ∃ theirs, r.ctx.pubAux.get? sender = some theirs ∧ ∀ hat id,
      (∀ c, (pick hat (p.capDs, p.hatCapDs)).get? id = some c → ∃ target w, r.ctx.pubAux.get? id = some target ∧
        (pick hat (m.capDs, m.hatCapDs)).get? id = some w ∧ c = Cipher.ofWire target.pk w) ∧
      (∀ c, (pick hat (p.capFs, p.hatCapFs)).get? id = some c → ∃ w, (pick hat (m.echo.capFs, m.echo.hatCapFs)).get? id = some w ∧ c = Cipher.ofWire theirs.pk w) := by
  unfold recv2 at h
  simp only at h
  obtain ⟨theirs, ht, h⟩ := Out.bind_eq_ok.1 h
  split at h
  · cases h
  split at h
  · cases h
  split at h
  · cases h
  simp only [Out.bind_eq_ok] at h
  obtain ⟨p1, _, dfs, hdfs, hatDfs, hhat, h⟩ := h
  split at h
  · cases h
  simp only [Out.bind_eq_ok] at h
  obtain ⟨df, _, a, _, df', _, a', _, he⟩ := h
  cases he
  have h1 := (mtaVerify_state hdfs).2
  have h2 := (mtaVerify_state hhat).2
  have hmap : ∀ {m' : BMap I (Cipher × Cipher)} {f : Cipher × Cipher → Cipher} {id : I} {c : Cipher}, (m'.mapVals fun _ x => f x).get? id = some c →
      ∃ x, m'.get? id = some x ∧ f x = c := by
    intro m' f id c hc
    rw [BMap.get?_mapVals] at hc
    cases hx : m'.get? id with
    | none => rw [hx] at hc; cases hc
    | some x => rw [hx] at hc; exact ⟨x, rfl, Option.some.inj hc⟩
  refine ⟨rfl, theirs, Out.ofOption_eq_ok.1 ht, fun hat id => ?_⟩
  cases hat
  · refine ⟨fun c hc => ?_, fun c hc => ?_⟩
    · obtain ⟨x, hx, rfl⟩ := hmap hc
      obtain ⟨t, d, f, ht, hd, hf, rfl⟩ := h1 _ _ hx
      exact ⟨t, d, ht, hd, rfl⟩
    · obtain ⟨x, hx, rfl⟩ := hmap hc
      obtain ⟨t, d, f, ht, hd, hf, rfl⟩ := h1 _ _ hx
      exact ⟨f, hf, rfl⟩
  · refine ⟨fun c hc => ?_, fun c hc => ?_⟩
    · obtain ⟨x, hx, rfl⟩ := hmap hc
      obtain ⟨t, d, f, ht, hd, hf, rfl⟩ := h2 _ _ hx
      exact ⟨t, d, ht, hd, rfl⟩
    · obtain ⟨x, hx, rfl⟩ := hmap hc
      obtain ⟨t, d, f, ht, hd, hf, rfl⟩ := h2 _ _ hx
      exact ⟨f, hf, rfl⟩

namespace Run
variable {S : Run q I Ep G} {sk : ZMod q}

/-- What a party holds in an error round: what it sent in round 2 and what it received -/
theorem Good.atErr (h : S.Good sk) {i : I} (hi : i ∈ S.ids) {in1 : List (I × Msg1 q G)} {in2 : List (I × Msg2 q I G)} {in3 : List (I × Msg3 q G)} {r : ErrRound q I Ep G}
    (hr : toRound4 S.E (S.r1 i) in1 in2 in3 = .ok (.error r)) :
    ∃ r2 : Round2 q I Ep G, toRound2 S.E (S.r1 i) in1 = .ok r2 ∧ r.ctx = S.ctx i ∧ r.capKs = r2.payloads1.mapVals (fun _ p => p.capK) ∧
      r.capDs.get? i = some (r2.outs.mapVals fun _ o => (pick r.hat o).capD) ∧ r.capFs.get? i = some (r2.outs.mapVals fun _ o => (pick r.hat o).capF) ∧
      r.x = pick r.hat ((S.d i).gamma, (S.shares i).secret) ∧ r.capXs.get? i = some (r.x • S.E.C.g) ∧ r.mta = pick r.hat ((S.d i).mta, (S.d i).hatMta) ∧
      r.dec = pick r.hat ((S.d i).dec, (S.d i).hatDec) ∧ r.star = pick r.hat ((S.d i).star, (S.d i).hatStar) ∧
      ∀ j ∈ S.ids.erase i, ∃ m p, (j, m) ∈ in2 ∧ Signing.recv2 S.E r2 j m = .ok p ∧ r.capDs.get? j = some (pick r.hat (p.capDs, p.hatCapDs)) ∧
        r.capFs.get? j = some (pick r.hat (p.capFs, p.hatCapFs)) ∧ r.capXs.get? j = some (pick r.hat (p.capGamma, (S.shares j).secret • S.E.C.g)) := by
  unfold toRound4 toRound3 at hr
  simp only [Out.bind_eq_ok, finalizeResult_eq_ok] at hr
  obtain ⟨r3, ⟨r2, h2, p2, hp2, hf2⟩, p3, hp3, hf3⟩ := hr
  obtain ⟨p1, hp1, hc2, hpay, hgam, hok, hout⟩ := toRound2_state h.setting h2
  unfold Signing.finalize2 at hf2
  simp only [Out.bind_eq_ok, finGet, Out.ofOption_eq_ok] at hf2
  obtain ⟨pm, hpm, he⟩ := hf2
  cases he
  have hget : ∀ j ∈ S.ids.erase i, ∃ m p, (j, m) ∈ in2 ∧ Signing.recv2 S.E r2 j m = .ok p ∧ p2.get? j = some p := by
    intro j hj
    obtain ⟨m, p, hm, hrv, hg⟩ := collect_mem hp2 (show j ∈ r2.ctx.otherIds by rw [hc2]; exact hj)
    exact ⟨m, p, hm, hrv, hg⟩
  have hins : ∀ {V : Type} (f : Payload2 q I G → V) (v : V) {j p}, j ∈ S.ids.erase i → p2.get? j = some p →
      ((p2.mapVals fun _ p => f p).insert r2.ctx.myId v).get? j = some (f p) := by
    intro V f v j p hj hp
    rw [BMap.get?_insert, if_neg (by rw [hc2]; exact (Finset.mem_erase.1 hj).1), BMap.get?_mapVals, hp]
    rfl
  have hown : ∀ {V : Type} (m : BMap I V) (v : V), (m.insert r2.ctx.myId v).get? i = some v := by
    intro V m v
    rw [BMap.get?_insert, if_pos (by rw [hc2]; rfl)]
  unfold Signing.finalize3 at hf3
  simp only at hf3
  split at hf3
  · cases hf3
    refine ⟨r2, h2, hc2, rfl, hown _ _, hown _ _, ?_, ?_, ?_, ?_, ?_, fun j hj => ?_⟩
    · simp only [hc2]; rfl
    · simp only [hc2, hgam]
      exact (by rw [BMap.get?_insert, if_pos rfl] : ((p2.mapVals fun _ p => p.capGamma).insert i ((S.d i).gamma • S.E.C.g)).get? i = _)
    · simp only [hc2]; rfl
    · simp only [hc2]; rfl
    · simp only [hc2]; rfl
    · obtain ⟨m, p, hm, hrv, hg⟩ := hget j hj
      exact ⟨m, p, hm, hrv, hins (fun p => p.capDs) _ hj hg, hins (fun p => p.capFs) _ hj hg, hins (fun p => p.capGamma) _ hj hg⟩
  split at hf3
  · cases hf3
    refine ⟨r2, h2, hc2, rfl, hown _ _, hown _ _, ?_, ?_, ?_, ?_, ?_, fun j hj => ?_⟩
    · simp only [hc2]; rfl
    · simp only [hc2]
      exact h.keys.public_matches i hi i hi
    · simp only [hc2]; rfl
    · simp only [hc2]; rfl
    · simp only [hc2]; rfl
    · obtain ⟨m, p, hm, hrv, hg⟩ := hget j hj
      refine ⟨m, p, hm, hrv, hins (fun p => p.hatCapDs) _ hj hg, hins (fun p => p.hatCapFs) _ hj hg, ?_⟩
      simp only [hc2]
      exact h.keys.public_matches i hi j (Finset.mem_of_mem_erase hj)
  split at hf3 <;> cases hf3

/-- The ciphertexts of round 1 that a party with a non-zero `gamma` has multiplied are invertible. -/
theorem Good.unit_of_multiplied (h : S.Good sk) {i : I} (hgamma : (S.d i).gamma ≠ 0) {in1 : List (I × Msg1 q G)} {r : Round2 q I Ep G} (hr : S.At2 i in1 r) {k : I}
    {o : MtaOut q G × MtaOut q G} (ho : r.outs.get? k = some o) : k ∈ S.ids.erase i ∧ ∃ (p : Payload1 G) (U : (ZMod (S.N k ^ 2))ˣ), r.payloads1.get? k = some p ∧
      p.capK = ⟨S.N k, (U : Ct (S.N k))⟩ := by
  obtain ⟨p, hp, h1, -⟩ := hr.out k o ho
  have hk : k ∈ S.ids.erase i := by
    rw [← hr.outs, BMap.mem_keySet, BMap.mem_keys_iff]; exact ⟨_, ho⟩
  obtain ⟨m, hm⟩ := exists_from hr.senders hk
  have hpk := hr.payload k m hm
  rw [hp] at hpk
  cases hpk
  unfold mtaSend at h1
  simp only [Out.bind_eq_ok] at h1
  obtain ⟨_, -, kx, hkx, -⟩ := h1
  obtain ⟨U, hU⟩ := mulSecret_isUnit (h.pos (Finset.mem_of_mem_erase hk)) (signedI_fits h.setting _) (centre_ne_zero hgamma) hkx
  exact ⟨hk, _, U, hp, by rw [hU]; rfl⟩

/-- A party in an error round can show how it made what it sent in round 2. -/
theorem Good.ownSent (h : S.Good sk) {i : I} (hi : i ∈ S.ids) (hgamma : (S.d i).gamma ≠ 0) {in1 : List (I × Msg1 q G)} {in2 : List (I × Msg2 q I G)}
    {in3 : List (I × Msg3 q G)} {r : ErrRound q I Ep G} (hr : toRound4 S.E (S.r1 i) in1 in2 in3 = .ok (.error r)) :
    ∃ capK, OwnSent S.E r (fun i => ⟨S.N i, S.setup i⟩) capK := by
  obtain ⟨r2, h2, hctx, hcapK, hD, hF, hx, hX, hmta, -, -, -⟩ := h.atErr hi hr
  have ha := h.at2 hi h2
  have hkk : ∀ k, ∃ c : Cipher, k ∈ S.ids → r.capKs.get? k = some c := by
    intro k
    by_cases hk : k ∈ S.ids
    · by_cases hki : k = i
      · subst hki
        exact ⟨_, fun _ => by rw [hcapK, BMap.get?_mapVals, ha.own]; rfl⟩
      · obtain ⟨m, hm⟩ := exists_from ha.senders (Finset.mem_erase.2 ⟨hki, hk⟩)
        exact ⟨_, fun _ => by rw [hcapK, BMap.get?_mapVals, ha.payload k m hm]; rfl⟩
    · exact ⟨⟨0, 0⟩, fun h => absurd h hk⟩
  choose capK hk using hkk
  have hsent : ∀ k ∈ S.ids.erase i, ∃ o, r2.outs.get? k = some o ∧ ∃ U : (ZMod (S.N k ^ 2))ˣ, capK k = ⟨S.N k, (U : Ct (S.N k))⟩ ∧
      (pick r.hat o).capD = ⟨S.N k, ((U ^ (signedI S.E.P r.x).val : (ZMod (S.N k ^ 2))ˣ) : Ct (S.N k)) *
        (oneAdd (S.N k) (-(r.mta.beta k).val) * ((r.mta.s k : Nat) : Ct (S.N k)) ^ S.N k)⟩ ∧
      (pick r.hat o).capF = ⟨S.N i, oneAdd (S.N i) (r.mta.beta k).val * ((r.mta.r k : Nat) : Ct (S.N i)) ^ S.N i⟩ := by
    intro k hkm
    obtain ⟨o, ho⟩ : ∃ o, r2.outs.get? k = some o := by rwa [← ha.outs, BMap.mem_keySet, BMap.mem_keys_iff] at hkm
    obtain ⟨hne, hki⟩ := Finset.mem_erase.1 hkm
    obtain ⟨-, p, U, hp, hU⟩ := h.unit_of_multiplied hgamma ha ho
    obtain ⟨p', hp', h1, h2⟩ := ha.out k o ho
    rw [hp] at hp'
    cases hp'
    have hcap : capK k = p.capK := by
      have := hk k hki
      rw [hcapK, BMap.get?_mapVals, hp] at this
      exact (Option.some.inj this).symm
    refine ⟨o, ho, U, hcap.trans hU, ?_⟩
    have hd := h.draws.mta i hi k hki (Ne.symm hne)
    have hd' := h.draws.hatMta i hi k hki (Ne.symm hne)
    rw [hx, hmta]
    cases r.hat
    · exact mtaSend_state h.setting (target := ⟨S.N k, S.setup k⟩) (SInt.IsDraw.fits (LP_pos h.setting) hd.beta) hU h1
    · exact mtaSend_state h.setting (target := ⟨S.N k, S.setup k⟩) (SInt.IsDraw.fits (LP_pos h.setting) hd'.beta) hU h2
  have ho : r.ctx.otherIds = S.ids.erase i := by rw [hctx]; rfl
  have hm : r.ctx.myId = i := by rw [hctx]; rfl
  have hal : r.ctx.allIds = S.ids := by rw [hctx]; rfl
  have hkey : r.ctx.key.modulus = S.N i := by rw [hctx]; rfl
  refine ⟨capK, ?_⟩
  constructor <;> simp only [ho, hm, hal, hkey]
  · exact hi
  · intro k hk
    rw [hctx]
    show (BMap.tabulate _ _).get? k = _
    rw [BMap.get?_tabulate, if_pos hk]
  · exact fun k hk => h.pos hk
  · exact hk
  · intro k hk
    obtain ⟨o, ho, U, hU, e, -⟩ := hsent k hk
    exact ⟨U, hU, _, hD, by rw [BMap.get?_mapVals, ho]; exact congrArg some e⟩
  · intro k hk
    obtain ⟨o, ho, U, hU, -, e⟩ := hsent k hk
    rw [hctx]
    exact ⟨_, hF, by rw [BMap.get?_mapVals, ho]; exact congrArg some e⟩
  · exact hX

/-- The draws a party uses in an error round -/
theorem Good.ownDraws (h : S.Good sk) {i : I} (hi : i ∈ S.ids) {c : Nat} (hdr : ErrorDrawsValid S.E (S.ids.erase i) (S.N i) S.N c (S.d i)) {in1 : List (I × Msg1 q G)}
    {in2 : List (I × Msg2 q I G)} {in3 : List (I × Msg3 q G)} {r : ErrRound q I Ep G} (hr : toRound4 S.E (S.r1 i) in1 in2 in3 = .ok (.error r)) :
    OwnDraws S.E r (fun i => ⟨S.N i, S.setup i⟩) c := by
  obtain ⟨r2, -, hctx, -, -, -, -, -, e1, e2, e3, -⟩ := h.atErr hi hr
  have ho : r.ctx.otherIds = S.ids.erase i := by rw [hctx]; rfl
  have hk : r.ctx.key.modulus = S.N i := by rw [hctx]; rfl
  constructor <;> simp only [ho, hk, e1, e2, e3] <;> cases r.hat
  · exact fun j hj => (hdr.beta j hj).1
  · exact fun j hj => (hdr.beta j hj).2
  · exact fun j hj => (hdr.r j hj).1
  · exact fun j hj => (hdr.r j hj).2
  · exact fun j hj => (hdr.s j hj).1
  · exact fun j hj => (hdr.s j hj).2
  · exact hdr.dec.1
  · exact hdr.dec.2
  · exact fun j hj => (hdr.star j hj).1
  · exact fun j hj => (hdr.star j hj).2
  · exact fun t => (hdr.decCount t).1
  · exact fun t => (hdr.decCount t).2
  · exact fun t j hj => (hdr.starCount t j hj).1
  · exact fun t j hj => (hdr.starCount t j hj).2

/-- **No complaint about the proofs of the multiplications.** A party in an error round that complains about what another one, which has the same payloads of round 1 and from which it got
the message of round 2, says in the same error round, complains about the proof of the decryption. -/
theorem Good.recvErr_decFailed (h : S.Good sk) {me peer : I} (hme : me ∈ S.ids) (hpeer : peer ∈ S.ids) (hne : me ≠ peer) (hgamma : (S.d peer).gamma ≠ 0) {c : Nat}
    (hdr : ErrorDrawsValid S.E (S.ids.erase peer) (S.N peer) S.N c (S.d peer)) {in1 in1P : List (I × Msg1 q G)} {in2 in2P : List (I × Msg2 q I G)}
    {in3 in3P : List (I × Msg3 q G)} {r rP : ErrRound q I Ep G} (hr : toRound4 S.E (S.r1 me) in1 in2 in3 = .ok (.error r))
    (hrP : toRound4 S.E (S.r1 peer) in1P in2P in3P = .ok (.error rP)) (hhat : rP.hat = r.hat)
    (hsame : ∀ {r2 r2P}, toRound2 S.E (S.r1 me) in1 = .ok r2 → toRound2 S.E (S.r1 peer) in1P = .ok r2P → ∀ k ∈ S.ids, r2.payloads1.get? k = r2P.payloads1.get? k)
    (h2 : ∀ m, (peer, m) ∈ in2 → ∃ r2P, toRound2 S.E (S.r1 peer) in1P = .ok r2P ∧ m = msg2 r2P) {m : MsgErr I G} (hm : msgErr S.E rP = .ok m) {e : Err I}
    (hrecv : recvErr S.E r peer m = .err (.protocol e)) : e = .decFailed r.hat := by
  obtain ⟨r2, hr2, hctx, hK, -, -, -, -, -, -, -, hfrom⟩ := h.atErr hme hr
  obtain ⟨r2P, hr2P, hctxP, hKP, hDP, hFP, hxP, hXP, -, -, -, -⟩ := h.atErr hpeer hrP
  obtain ⟨capK, hs⟩ := h.ownSent hpeer hgamma hrP
  have hd := h.ownDraws hpeer hdr hrP
  have haP := h.at2 hpeer hr2P
  obtain ⟨m2, p2, hm2, hrv, hD, hF, hX⟩ := hfrom peer (Finset.mem_erase.2 ⟨hne.symm, hpeer⟩)
  obtain ⟨r2P', hr2P', rfl⟩ := h2 m2 hm2
  obtain rfl : r2P = r2P' := Out.ok.inj (hr2P.symm.trans hr2P')
  obtain ⟨hcg, theirs, htheirs, htaken⟩ := recv2_taken hrv
  have hc2 : r2.ctx = S.ctx me := (h.at2 hme hr2).ctx
  have hpub : ∀ {j b}, (S.ctx me).pubAux.get? j = some b → j ∈ S.ids ∧ b = ⟨S.N j, S.setup j⟩ := by
    intro j b hb
    change (BMap.tabulate _ _).get? j = some b at hb
    rw [BMap.get?_tabulate] at hb
    split at hb
    · exact ⟨by assumption, (Option.some.inj hb).symm⟩
    · cases hb
  rw [hc2] at htheirs
  obtain ⟨-, rfl⟩ := hpub htheirs
  -- the public point of the peer
  have hXeq : pick r.hat (p2.capGamma, (S.shares peer).secret • S.E.C.g) = rP.x • S.E.C.g := by
    rw [hxP, hhat, hcg]
    cases r.hat
    · exact haP.capGamma
    · rfl
  rw [hXeq] at hX
  -- its message
  have hmsg : ∃ psiStar psis, m = ⟨psiStar, psis⟩ ∧ psis.keySet = S.ids.erase peer ∧ ∀ k psi, psis.get? k = some psi → starFor S.E rP (signedI S.E.P rP.x) k = .ok psi := by
    unfold msgErr at hm
    simp only [Out.bind_eq_ok, signedOfSecret_ok h.setting] at hm
    obtain ⟨_, -, _, -, _, -, x, hx, _, -, _, -, _, -, _, -, _, -, _, -, _, -, _, -, _, -, _, -, psiStar, -, psis, hb, he⟩ := hm
    obtain ⟨hks, hst⟩ := buildMap_eq_ok hb
    cases hx
    refine ⟨psiStar, psis, (Out.ok.inj he).symm, ?_, hst⟩
    rw [hks, hctxP]; rfl
  obtain ⟨psiStar, psis, rfl, hks, hst⟩ := hmsg
  -- the proofs of the multiplications are accepted
  have hstar : ∀ k psi, psis.get? k = some psi → k ≠ me → ∀ (missing : RecvErr (Err I)) capC capD capY, r.capKs.get? k = some capC →
      matrixGet missing r.capDs k peer = .ok capD → matrixGet missing r.capFs k peer = .ok capY →
      (starVerify S.E (S.N k) (S.N peer) psi capC capD capY (rP.x • S.E.C.g) (S.epid, peer) : Out (RecvErr (Err I)) Bool) = .ok true := by
    intro k psi hk hkm missing capC capD capY hC hcD hcY
    have hkp : k ∈ S.ids.erase peer := by rw [← hks, BMap.mem_keySet, BMap.mem_keys_iff]; exact ⟨_, hk⟩
    have hki := Finset.mem_of_mem_erase hkp
    have hkP : k ∈ rP.ctx.otherIds := by rw [hctxP]; exact hkp
    obtain ⟨psi', hpsi', hver⟩ := own_star h.setting hs hd hkP
    obtain rfl : psi' = psi := Out.ok.inj (hpsi'.symm.trans (hst k psi hk))
    have hcap : capC = capK k := by
      have h1 := hs.capKs k (by rw [hctxP]; exact hki)
      rw [hKP, BMap.get?_mapVals, ← hsame hr2 hr2P k hki] at h1
      rw [hK, BMap.get?_mapVals] at hC
      exact Option.some.inj (hC.symm.trans h1)
    obtain ⟨U, -, row, hrow, hDk⟩ := hs.sent k hkP
    obtain ⟨rowF, hrowF, hFk⟩ := hs.sentF k hkP
    have hmyP : rP.ctx.myId = peer := by rw [hctxP]; rfl
    have hkeyP : rP.ctx.key.modulus = S.N peer := by rw [hctxP]; rfl
    rw [hmyP] at hrow hrowF
    have hDk' := hDk
    have hFk' := hFk
    rw [← Option.some.inj (hDP.symm.trans hrow), BMap.get?_mapVals, Option.map_eq_some_iff] at hDk'
    rw [← Option.some.inj (hFP.symm.trans hrowF), BMap.get?_mapVals, Option.map_eq_some_iff] at hFk'
    obtain ⟨o, ho, hoD⟩ := hDk'
    obtain ⟨o', ho', hoF⟩ := hFk'
    obtain rfl : o = o' := Option.some.inj (ho.symm.trans ho')
    have hpkD : (pick rP.hat o).capD.pk = S.N k := by rw [hoD]
    have hpkF : (pick rP.hat o).capF.pk = S.N peer := by rw [hoF, hkeyP]
    have hcapD : capD = (pick rP.hat o).capD := by
      unfold matrixGet at hcD
      rw [hD, Out.ofOption_some, Out.bind_ok, Out.ofOption_eq_ok] at hcD
      obtain ⟨target, w, ht, hw, rfl⟩ := (htaken r.hat k).1 capD hcD
      rw [hc2] at ht
      obtain ⟨-, rfl⟩ := hpub ht
      rw [← ofWire_toWire' (h.pos hki) hpkD, hhat]
      congr 1
      revert hw
      cases r.hat <;> (intro hw; simp only [pick, msg2, Bool.false_eq_true, if_false, if_true, BMap.get?_mapVals, ho, Option.map_some, Option.some.injEq] at hw ⊢; exact hw.symm)
    have hcapF : capY = (pick rP.hat o).capF := by
      unfold matrixGet at hcY
      rw [hF, Out.ofOption_some, Out.bind_ok, Out.ofOption_eq_ok] at hcY
      obtain ⟨w, hw, rfl⟩ := (htaken r.hat k).2 capY hcY
      rw [← ofWire_toWire' (h.pos hpeer) hpkF, hhat]
      congr 1
      revert hw
      cases r.hat <;> (intro hw; simp only [pick, msg2, Bool.false_eq_true, if_false, if_true, BMap.get?_mapVals, ho, Option.map_some, Option.some.injEq] at hw ⊢; exact hw.symm)
    have := hver (RecvErr (Err I)) capD capY (by rw [hmyP, hcapD, hoD]; exact ⟨row, hrow, hDk⟩) (by rw [hmyP, hcapF, hoF]; exact ⟨rowF, hrowF, hFk⟩)
    rw [hctxP] at this
    rw [hcap]
    exact this
  -- what is left
  have hperm : recvErr S.E r peer ⟨psiStar, psis⟩ = .err (.protocol e) := hrecv
  unfold recvErr at hperm
  have hpp : (S.ctx me).pubAux.get? peer = some ⟨S.N peer, S.setup peer⟩ := htheirs
  have hcx : (recvGet r.capXs peer : Out (RecvErr (Err I)) _) = .ok (rP.x • S.E.C.g) := by unfold recvGet; rw [hX, Out.ofOption_some]
  have hpx : (recvGet (S.ctx me).pubAux peer : Out (RecvErr (Err I)) _) = .ok ⟨S.N peer, S.setup peer⟩ := by unfold recvGet; rw [hpp, Out.ofOption_some]
  simp only [hctx, hcx, hpx, Out.bind_ok] at hperm
  rcases Out.bind_eq_err.1 hperm with hx | ⟨capD, hcapD, hx⟩
  · exact absurd hx aggregate_no_fault
  rcases Out.bind_eq_err.1 hx with hx | ⟨_, -, hx⟩
  · exact absurd hx recvGet_no_fault
  rcases Out.bind_eq_err.1 hx with hx | ⟨_, -, hx⟩
  · exact absurd hx recvGet_no_fault
  rcases Out.bind_eq_err.1 hx with hx | ⟨_, -, hx⟩
  · exact absurd hx under_ne_err
  rcases Out.bind_eq_err.1 hx with hx | ⟨_, -, hx⟩
  · exact absurd hx under_ne_err
  rcases Out.bind_eq_err.1 hx with hx | ⟨_, -, hx⟩
  · exact absurd hx dec_ne_err
  split at hx
  · cases hx; rfl
  exfalso
  split at hx
  · rename_i hn; exact hn hks
  rcases Out.bind_eq_err.1 hx with hx | ⟨_, -, hx⟩
  · unfold BMap.traverse at hx
    rcases Out.bind_eq_err.1 hx with hx | ⟨_, -, hx⟩
    · obtain ⟨⟨k, psi⟩, hmem, hx⟩ := Out.mapM'_eq_err hx
      have hg : psis.get? k = some psi := BMap.get?_eq_some_iff.2 hmem
      rcases Out.bind_eq_err.1 hx with hx | ⟨_, -, hx⟩
      · simp only at hx
        split at hx
        · cases hx
        · rename_i hkm
          rcases Out.bind_eq_err.1 hx with hx | ⟨target, htg, hx⟩
          · exact absurd hx recvGet_no_fault
          rcases Out.bind_eq_err.1 hx with hx | ⟨capC, hC, hx⟩
          · exact absurd hx recvGet_no_fault
          rcases Out.bind_eq_err.1 hx with hx | ⟨cD, hcD, hx⟩
          · exact absurd hx matrixGet_no_fault
          rcases Out.bind_eq_err.1 hx with hx | ⟨cY, hcY, hx⟩
          · exact absurd hx matrixGet_no_fault
          obtain ⟨-, rfl⟩ := hpub (Out.ofOption_eq_ok.1 htg)
          have hv := hstar k psi hg hkm _ capC cD cY (Out.ofOption_eq_ok.1 hC) hcD hcY
          rw [show (starVerify S.E (S.N k) (S.N peer) psi capC cD cY (rP.x • S.E.C.g) ((S.ctx me).epid, peer) : Out (RecvErr (Err I)) Bool) = _ from hv, Out.bind_ok,
            if_neg (by simp)] at hx
          cases hx
      · cases hx
    · cases hx
  · cases hx

end Run

end Synedrion.Signing
