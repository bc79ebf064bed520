import Verif.Lemmas.SigningError

/-!
# What the states of a signing party look like, whatever the others send
-/

set_option linter.unusedSectionVars false

namespace Synedrion.Signing

open Spec

variable {q : Nat} [Fact q.Prime] {I Ep G : Type} [LinearOrder I] [AddCommGroup G] [Module (ZMod q) G] [DecidableEq G]

theorem mapVals_mapVals' {V W X : Type} (m : BMap I V) (f : I → V → W) (h : I → W → X) : (m.mapVals f).mapVals h = m.mapVals fun k v => h k (f k v) := by
  obtain ⟨l, hl⟩ := m
  simp [BMap.mapVals, Function.comp_def]

theorem values_mapVals' {V W : Type} (m : BMap I V) (f : V → W) : (m.mapVals fun _ v => f v).values = m.values.map f := by
  obtain ⟨l, hl⟩ := m
  simp [BMap.mapVals, BMap.values, Function.comp_def]

theorem precompute_ok {ε : Type} {a : PublicAux} {b : PubAux} (h : (precompute a : Out ε _) = .ok b) : b.pk = a.pk ∧ 0 < a.pk := by
  unfold precompute at h
  simp only [Out.bind_eq_ok] at h
  obtain ⟨pk, h1, rp, _, he⟩ := h
  cases he
  unfold publicModulusNew at h1
  split at h1
  · rename_i hodd
    cases h1
    exact ⟨rfl, by omega⟩
  · cases h1

section
variable {E : Env q I Ep G} (hE : SigningSetting E)
include hE

/-- The state with which a party starts -/
theorem start_state {epidOf : BMap I G → BMap I PublicAux → Ep} {message : ZMod q} {keyShare : KeyShare I (ZMod q) G}
    {auxInfo : AuxInfo I PaillierKey PublicAux} {id : I} {d : Draws q I} {r : Round1 q I Ep G} (hN : 0 < auxInfo.secret.modulus)
    (h : start E epidOf message keyShare auxInfo id d = .ok r) :
    (∀ j a, auxInfo.pub.get? j = some a → ∃ b, r.ctx.pubAux.get? j = some b ∧ b.pk = a.pk ∧ 0 < a.pk) ∧
    (r.echo.payload r.ctx.key.modulus).capK = ⟨auxInfo.secret.modulus, oneAdd auxInfo.secret.modulus (signedI E.P d.k).val *
      (d.rho : Ct auxInfo.secret.modulus) ^ auxInfo.secret.modulus⟩ := by
  unfold start at h
  split at h
  · cases h
  · simp only [Out.bind_eq_ok, signedOfSecret_ok hE, Out.ok.injEq] at h
    obtain ⟨pubAux, hp, _, rfl, capG, hG, _, rfl, capK, hK, he⟩ := h
    cases he
    refine ⟨fun j a ha => ?_, ?_⟩
    · obtain ⟨hk, hg⟩ := traverse_eq_ok hp
      have hj : j ∈ pubAux.keySet := by
        rw [hk, BMap.mem_keySet, BMap.mem_keys_iff]; exact ⟨a, ha⟩
      rw [BMap.mem_keySet, BMap.mem_keys_iff] at hj
      obtain ⟨b, hb⟩ := hj
      obtain ⟨a', ha', hpre⟩ := hg j b hb
      rw [ha] at ha'
      cases ha'
      exact ⟨b, hb, precompute_ok hpre⟩
    · rw [enc_eq (signedI_fits hE d.k)] at hK
      cases hK
      show Cipher.ofWire _ (ctToWire _) = _
      unfold Cipher.ofWire
      rw [ctWire hN]

/-- What a party sends for a multiplication, given that the other's ciphertext is invertible -/
theorem mtaSend_state {c : Context q I Ep G} {target : PubAux} {capK : Cipher} {x : ZMod q} {capX : G} {d : MtaDraws I} {id : I} {o : MtaOut q G}
    (hb : (d.beta id).Fits) {U : (ZMod (target.pk ^ 2))ˣ} (hK : capK = ⟨target.pk, (U : Ct target.pk)⟩)
    (h : mtaSend E c target capK (signedI E.P x) capX d id = .ok o) :
    o.capD = ⟨target.pk, ((U ^ (signedI E.P x).val : (ZMod (target.pk ^ 2))ˣ) : Ct target.pk) *
      (oneAdd target.pk (-(d.beta id).val) * ((d.s id : Nat) : Ct target.pk) ^ target.pk)⟩ ∧
    o.capF = ⟨c.key.modulus, oneAdd c.key.modulus (d.beta id).val * ((d.r id : Nat) : Ct c.key.modulus) ^ c.key.modulus⟩ := by
  have hnb : (d.beta id).neg.Fits := by
    show (-(d.beta id).val).natAbs < _
    rw [Int.natAbs_neg]; exact hb
  subst hK
  unfold mtaSend Cipher.encrypt at h
  rw [enc_eq hb, enc_eq hnb, Cipher.mulSecret_unit U (signedI_fits hE x)] at h
  simp only [Out.bind_ok] at h
  unfold Cipher.add at h
  simp only [Cipher.under_self, Out.bind_ok, Out.bind_eq_ok] at h
  obtain ⟨psi, _, he⟩ := h
  cases he
  exact ⟨rfl, rfl⟩

/-- The state of a party in round 2 -/
theorem toRound2_state {r : Round1 q I Ep G} {in1 : List (I × Msg1 q G)} {r2 : Round2 q I Ep G} (h : toRound2 E r in1 = .ok r2) :
    ∃ payloads, collect r.ctx.otherIds (recv1 E r.ctx) in1 = .ok payloads ∧ r2.ctx = r.ctx ∧
      r2.payloads1 = payloads.insert r.ctx.myId (r.echo.payload r.ctx.key.modulus) ∧ r2.capGamma = r.ctx.d.gamma • E.C.g ∧
      r2.outs.keySet = r.ctx.otherIds ∧ ∀ id o, r2.outs.get? id = some o → ∃ target p capX, r.ctx.pubAux.get? id = some target ∧
        r2.payloads1.get? id = some p ∧ r.ctx.keyShare.pub.get? r.ctx.myId = some capX ∧
        mtaSend E r.ctx target p.capK (signedI E.P r.ctx.d.gamma) (r.ctx.d.gamma • E.C.g) r.ctx.d.mta id = .ok o.1 ∧
        mtaSend E r.ctx target p.capK (signedI E.P r.ctx.keyShare.secret) capX r.ctx.d.hatMta id = .ok o.2 := by
  unfold toRound2 finalize1 at h
  simp only [Out.bind_eq_ok, finalizeResult_eq_ok, signedOfSecret_ok hE, Out.ok.injEq] at h
  obtain ⟨_, _, payloads, hc, _, rfl, _, rfl, capX, hX, outs, ho, he⟩ := h
  cases he
  obtain ⟨hk, hg⟩ := buildMap_eq_ok ho
  refine ⟨payloads, hc, rfl, rfl, rfl, hk, fun id o hid => ?_⟩
  have := hg id o hid
  simp only [Out.bind_eq_ok, finGet, Out.ofOption_eq_ok] at this hX
  obtain ⟨target, ht, p, hp, o1, h1, o2, h2, he⟩ := this
  cases he
  exact ⟨target, p, capX, ht, hp, hX, h1, h2⟩

omit hE in
/-- The loop over the proofs hands on the ciphertexts of the message. -/
theorem mtaVerify_state {c : Context q I Ep G} {payloads1 : BMap I (Payload1 G)} {sender : I} {senderPk : Nat} {capX : Out (RecvErr (Err I)) G}
    {failed : I → Err I} {psis : BMap I (AffGProof q G)} {capDs capFs : BMap I Nat} {dfs : BMap I (Cipher × Cipher)}
    (h : mtaVerify E c payloads1 sender senderPk capX failed psis capDs capFs = .ok dfs) :
    dfs.keySet = psis.keySet ∧ ∀ id df, dfs.get? id = some df → ∃ target d f, c.pubAux.get? id = some target ∧ capDs.get? id = some d ∧ capFs.get? id = some f ∧
      df = (Cipher.ofWire target.pk d, Cipher.ofWire senderPk f) := by
  unfold mtaVerify at h
  obtain ⟨h0, h⟩ := traverse_eq_ok h
  refine ⟨h0, fun id df hdf => ?_⟩
  obtain ⟨psi, _, hpsi⟩ := h id df hdf
  simp only [Out.bind_eq_ok, recvGet, Out.ofOption_eq_ok] at hpsi
  obtain ⟨target, ht, p, _, d, hd, f, hf, x, _, ok, _, he⟩ := hpsi
  refine ⟨target, d, f, ht, hd, hf, ?_⟩
  split at he
  · cases he
  · cases he; rfl

omit hE in
/-- What a party learns from an accepted message of round 2 -/
theorem recv2_state {r : Round2 q I Ep G} {sender : I} {m : Msg2 q I G} {p : Payload2 q I G} (h : recv2 E r sender m = .ok p) {mine : PubAux}
    (hmine : r.ctx.pubAux.get? r.ctx.myId = some mine) :
    ∃ w w' a a', m.capDs.get? r.ctx.myId = some w ∧ m.hatCapDs.get? r.ctx.myId = some w' ∧
      p.capDs.get? r.ctx.myId = some (Cipher.ofWire mine.pk w) ∧ p.hatCapDs.get? r.ctx.myId = some (Cipher.ofWire mine.pk w') ∧
      (r.ctx.key.decryptCipher E.P (Cipher.ofWire mine.pk w) : Out (RecvErr (Err I)) _) = .ok a ∧
      (r.ctx.key.decryptCipher E.P (Cipher.ofWire mine.pk w') : Out (RecvErr (Err I)) _) = .ok a' ∧
      p.alpha = scalarOfSigned q a ∧ p.hatAlpha = scalarOfSigned q a' := by
  unfold recv2 at h
  simp only at h
  obtain ⟨theirs, _, h⟩ := Out.bind_eq_ok.1 h
  split at h
  · cases h
  split at h
  · cases h
  split at h
  · cases h
  simp only [Out.bind_eq_ok] at h
  obtain ⟨p1, _, dfs, hdfs, hatDfs, hhat, h⟩ := h
  split at h
  · cases h
  simp only [Out.bind_eq_ok, recvGet, Out.ofOption_eq_ok] at h
  obtain ⟨df, hdf, a, ha, df', hdf', a', ha', he⟩ := h
  cases he
  obtain ⟨t, d, f, ht, hd, hf, e⟩ := (mtaVerify_state hdfs).2 _ _ hdf
  obtain ⟨t', d', f', ht', hd', hf', e'⟩ := (mtaVerify_state hhat).2 _ _ hdf'
  rw [hmine] at ht ht'
  cases ht
  cases ht'
  subst e
  subst e'
  refine ⟨d, d', a, a', hd, hd', ?_, ?_, ha, ha', rfl, rfl⟩
  · simp only [BMap.get?_mapVals, hdf, Option.map_some]
  · simp only [BMap.get?_mapVals, hdf', Option.map_some]

/-- A ciphertext in the range of a sound proof is decrypted exactly. -/
theorem inMtaRange_decrypt {key : PaillierKey} {n c w : Nat} (hfew : FewParties E.P n c) (hprimes : FullSizePrimes E.P key.p key.q)
    (hkey : (SecretKey.new key.p key.q : Out Unit _) = .ok key.sk) (h : InMtaRange E.P key.modulus w) :
    ∃ v : Int, (Cipher.ofWire key.modulus w).Holds key.modulus v ∧ |v| ≤ 2 ^ (E.P.LP + E.P.EPS) + 2 ^ (2 * E.P.L + E.P.EPS - 1) ∧
      ∀ (ε : Type) a, (key.decryptCipher E.P (Cipher.ofWire key.modulus w) : Out ε _) = .ok a → scalarOfSigned q a = ((v : Int) : ZMod q) := by
  have hm : E.P.modBits = 2 * E.P.primeBits := hE.consistent.2.1.1
  have hw : E.P.modBits ≤ E.P.uint := hE.consistent.2.1.2.2.1
  have hsize : key.modulus < 2 ^ E.P.modBits := FullSizePrimes.lt hprimes hm
  have hbig : 2 ^ (E.P.modBits - 2) ≤ key.modulus := by
    have hpb := FullSizePrimes.primeBits_pos hprimes
    rw [show E.P.modBits - 2 = (E.P.primeBits - 1) + (E.P.primeBits - 1) by omega, pow_add]
    exact Nat.mul_le_mul hprimes.lowP hprimes.lowQ
  obtain ⟨v, rho, hcop, henc, hv⟩ := h
  have hc : 1 ≤ c := by
    by_contra hc
    have h1 := hfew.log.1
    have h2 := hfew.parties
    have : c = 0 := by omega
    subst this
    omega
  have hb : |v| < 2 ^ (E.P.LP + E.P.EPS + c) := by
    refine lt_of_le_of_lt hv ?_
    have hL : 0 < E.P.L := hE.curve
    have hge : 2 * E.P.L + E.P.EPS ≤ E.P.LP := by
      obtain ⟨hc0, ⟨hm1, hm2, hm3, hm4, hm5, hm6⟩, hs1, hs2, hs3, hs4, hs5, hs6, hs7⟩ := hE.consistent
      omega
    have e1 : (2 : Int) ^ (2 * E.P.L + E.P.EPS - 1) < 2 ^ (E.P.LP + E.P.EPS) := pow_lt_pow_right₀ (by norm_num) (by omega)
    have e2 : (2 : Int) ^ (E.P.LP + E.P.EPS + 1) ≤ 2 ^ (E.P.LP + E.P.EPS + c) := pow_le_pow_right₀ (by norm_num) (by omega)
    rw [pow_succ] at e2
    omega
  have hnw := err_no_wrap hE hfew hbig hb
  obtain ⟨u, hu⟩ := natCast_unit_sq hcop
  have hh : (Cipher.ofWire key.modulus w).Holds key.modulus v := by
    refine ⟨u, ?_⟩
    unfold Cipher.ofWire
    rw [hu, henc]
    rfl
  refine ⟨v, hh, hv, fun ε a ha => ?_⟩
  have := hh.decrypt (Props.facts_of_new hprimes.primes hkey) hsize hw hnw ε
  rw [this] at ha
  cases ha
  rfl

/-- The part of the error round that is about one multiplication, put together from the messages of rounds 1 and 2 -/
theorem own_of_parts {c : Context q I Ep G} {payloads1 : BMap I (Payload1 G)} {outs : BMap I (MtaOut q G)} {capDs capFs : BMap I (BMap I Cipher)}
    {alpha : BMap I (ZMod q)} {pk : I → PubAux} {hat : Bool} {capXs capSs : BMap I G} {capG : G} {x : ZMod q} {mta : MtaDraws I} {dec : List DecEphemeral}
    {star : I → List AffGStarEphemeral} {n logn : Nat} (hfew : FewParties E.P n logn)
    (hprimes : FullSizePrimes E.P c.key.p c.key.q) (hkey : (SecretKey.new c.key.p c.key.q : Out Unit _) = .ok c.key.sk)
    (me : c.myId ∈ c.allIds) (others : c.otherIds = c.allIds.erase c.myId) (pub : ∀ i ∈ c.allIds, c.pubAux.get? i = some (pk i))
    (pkMe : (pk c.myId).pk = c.key.modulus) (pos : ∀ i ∈ c.allIds, 0 < (pk i).pk)
    (mine : ∃ p, payloads1.get? c.myId = some p ∧ p.capK.Holds c.key.modulus (signedI E.P c.d.k).val)
    (theirs : ∀ i ∈ c.otherIds, ∃ p U, payloads1.get? i = some p ∧ p.capK = ⟨(pk i).pk, ((U : (ZMod ((pk i).pk ^ 2))ˣ) : Ct (pk i).pk)⟩)
    (hbeta : ∀ i ∈ c.otherIds, (mta.beta i).IsDraw E.P.LP)
    (sent : ∀ i ∈ c.otherIds, ∃ o p capX, outs.get? i = some o ∧ payloads1.get? i = some p ∧ mtaSend E c (pk i) p.capK (signedI E.P x) capX mta i = .ok o)
    (received : ∀ i ∈ c.otherIds, ∃ row w a, capDs.get? i = some row ∧ row.get? c.myId = some (Cipher.ofWire c.key.modulus w) ∧ InMtaRange E.P c.key.modulus w ∧
      (c.key.decryptCipher E.P (Cipher.ofWire c.key.modulus w) : Out (RecvErr (Err I)) _) = .ok a ∧ alpha.get? i = some (scalarOfSigned q a))
    (halpha : alpha.keySet = c.otherIds) (hX : capXs.get? c.myId = some (x • E.C.g))
    (hS : capSs.get? c.myId = some ((x * c.d.k + alpha.values.sum + mta.betaSum q c.otherIds) • capG)) :
    ∃ capK cd md, Own E ⟨hat, c, payloads1.mapVals fun _ p => p.capK, capDs.insert c.myId (outs.mapVals fun _ o => o.capD),
      capFs.insert c.myId (outs.mapVals fun _ o => o.capF), capXs, capSs, capG, x, mta, dec, star⟩ pk c.d.k capK cd md ∧
      ∀ i ∈ c.otherIds, |md i| ≤ 2 ^ (E.P.LP + E.P.EPS) + 2 ^ (2 * E.P.L + E.P.EPS - 1) := by
  have hrec : ∀ i, ∃ (row : BMap I Cipher) (cd : Cipher) (md : Int), i ∈ c.otherIds → capDs.get? i = some row ∧ row.get? c.myId = some cd ∧ cd.Holds c.key.modulus md ∧
      |md| ≤ 2 ^ (E.P.LP + E.P.EPS) + 2 ^ (2 * E.P.L + E.P.EPS - 1) ∧ alpha.get? i = some ((md : Int) : ZMod q) := by
    intro i
    by_cases hi : i ∈ c.otherIds
    · obtain ⟨row, w, a, h1, h2, h3, h4, h5⟩ := received i hi
      obtain ⟨v, hv1, hv2, hv3⟩ := inMtaRange_decrypt hE hfew hprimes hkey h3
      exact ⟨row, _, v, fun _ => ⟨h1, h2, hv1, hv2, by rw [h5, hv3 _ _ h4]⟩⟩
    · exact ⟨BMap.empty, ⟨0, 0⟩, 0, fun h => absurd h hi⟩
  choose row cd md hrec using hrec
  have hp : ∀ i, ∃ capK : Cipher, i ∈ c.allIds → (payloads1.mapVals fun _ p => p.capK).get? i = some capK := by
    intro i
    by_cases hi : i ∈ c.allIds
    · by_cases hm : i = c.myId
      · obtain ⟨p, h1, _⟩ := mine
        exact ⟨p.capK, fun _ => by rw [BMap.get?_mapVals, hm, h1]; rfl⟩
      · obtain ⟨p, U, h1, _⟩ := theirs i (by rw [others]; exact Finset.mem_erase.2 ⟨hm, hi⟩)
        exact ⟨p.capK, fun _ => by rw [BMap.get?_mapVals, h1]; rfl⟩
    · exact ⟨⟨0, 0⟩, fun h => absurd h hi⟩
  choose capK hcapK using hp
  have hsub : ∀ i ∈ c.otherIds, i ∈ c.allIds ∧ i ≠ c.myId := fun i hi => by
    rw [others] at hi; exact ⟨Finset.mem_of_mem_erase hi, Finset.ne_of_mem_erase hi⟩
  refine ⟨capK, cd, md, ⟨me, others, pub, pkMe, pos, hcapK, ?_, ?_, fun i hi => (hrec i hi).2.2.1, ?_, ?_, hX, ?_⟩, fun i hi => (hrec i hi).2.2.2.1⟩
  · obtain ⟨p, h1, h2⟩ := mine
    have := hcapK _ me
    rw [BMap.get?_mapVals, h1] at this
    rw [← Option.some.inj this]
    exact h2
  · intro i hi
    refine ⟨row i, ?_, (hrec i hi).2.1⟩
    show BMap.get? (BMap.insert ..) i = _
    rw [BMap.get?_insert, if_neg (hsub i hi).2]
    exact (hrec i hi).1
  · intro i hi
    obtain ⟨p, U, h1, h2⟩ := theirs i hi
    obtain ⟨o, p', capX, h3, h4, h5⟩ := sent i hi
    rw [h1] at h4
    cases h4
    have hK := hcapK _ (hsub i hi).1
    rw [BMap.get?_mapVals, h1] at hK
    obtain ⟨e1, e2⟩ := mtaSend_state hE (SInt.IsDraw.fits (LP_pos hE) (hbeta i hi)) h2 h5
    refine ⟨U, (Option.some.inj hK).symm.trans h2, outs.mapVals fun _ o => o.capD, ?_, ?_⟩
    · show BMap.get? (BMap.insert ..) c.myId = _
      rw [BMap.get?_insert, if_pos rfl]
    · rw [BMap.get?_mapVals, h3]
      exact congrArg some e1
  · intro i hi
    obtain ⟨p, U, h1, h2⟩ := theirs i hi
    obtain ⟨o, p', capX, h3, h4, h5⟩ := sent i hi
    rw [h1] at h4
    cases h4
    obtain ⟨e1, e2⟩ := mtaSend_state hE (SInt.IsDraw.fits (LP_pos hE) (hbeta i hi)) h2 h5
    refine ⟨outs.mapVals fun _ o => o.capF, ?_, ?_⟩
    · show BMap.get? (BMap.insert ..) c.myId = _
      rw [BMap.get?_insert, if_pos rfl]
    · rw [BMap.get?_mapVals, h3]
      exact congrArg some e2
  · show capSs.get? c.myId = _
    rw [hS]
    have ha : alpha = BMap.tabulate c.otherIds fun i => ((md i : Int) : ZMod q) :=
      BMap.eq_tabulate_of halpha fun i hi => (hrec i hi).2.2.2.2
    rw [ha, BMap.sum_values_tabulate, MtaDraws.betaSum, sum_bsetIter, add_assoc]

/-- **The state of an honest party in an error round**, whatever the other parties have sent, provided that their ciphertexts are invertible and hold values in the
range that a sound proof guarantees -/
theorem error_round {epidOf : BMap I G → BMap I PublicAux → Ep} {message : ZMod q} {keyShare : KeyShare I (ZMod q) G}
    {auxInfo : AuxInfo I PaillierKey PublicAux} {id : I} {d : Draws q I} {r1 : Round1 q I Ep G} {n c : Nat} (hfew : FewParties E.P n c)
    (hmem : id ∈ keyShare.pub.keySet) (hshare : keyShare.pub.get? id = some (keyShare.secret • E.C.g))
    {pk : I → PublicAux} (hpk : ∀ j ∈ keyShare.pub.keySet, auxInfo.pub.get? j = some (pk j)) (hpkMe : (pk id).pk = auxInfo.secret.modulus)
    (hprimes : FullSizePrimes E.P auxInfo.secret.p auxInfo.secret.q) (hkey : (SecretKey.new auxInfo.secret.p auxInfo.secret.q : Out Unit _) = .ok auxInfo.secret.sk)
    (hd : ErrorDrawsValid E (keyShare.pub.keySet.erase id) auxInfo.secret.modulus (fun j => (pk j).pk) c d)
    (h0 : start E epidOf message keyShare auxInfo id d = .ok r1) {in1 : List (I × Msg1 q G)} {in2 : List (I × Msg2 q I G)} {in3 : List (I × Msg3 q G)}
    (hin1 : ∀ j m, (j, m) ∈ in1 → IsUnit (ctOfWire (pk j).pk m.echo.capK))
    (hin2 : ∀ j m, (j, m) ∈ in2 → ∀ w, (m.capDs.get? id = some w ∨ m.hatCapDs.get? id = some w) → InMtaRange E.P auxInfo.secret.modulus w)
    {r : ErrRound q I Ep G} (h : toRound4 E r1 in1 in2 in3 = .ok (.error r)) :
    r.ctx.myId = id ∧ r.ctx.allIds = keyShare.pub.keySet ∧ r.ctx.key = auxInfo.secret ∧
    ∃ pk' k capK cd md, Own E r pk' k capK cd md ∧ OwnDraws E r pk' c ∧
      ∀ i ∈ r.ctx.otherIds, |md i| ≤ 2 ^ (E.P.LP + E.P.EPS) + 2 ^ (2 * E.P.L + E.P.EPS - 1) := by
  have hN : 0 < auxInfo.secret.modulus := by
    have h1 : 0 < 2 ^ (E.P.primeBits - 1) := by positivity
    exact Nat.mul_pos (lt_of_lt_of_le h1 hprimes.lowP) (lt_of_lt_of_le h1 hprimes.lowQ)
  obtain ⟨hpubs, hcapK⟩ := start_state hE hN h0
  obtain ⟨hid, hctx⟩ : r1.ctx.myId = id ∧ (r1.ctx.allIds = keyShare.pub.keySet ∧ r1.ctx.otherIds = keyShare.pub.keySet.erase id ∧ r1.ctx.key = auxInfo.secret ∧
      r1.ctx.keyShare = keyShare ∧ r1.ctx.d = d) := by
    unfold start at h0
    split at h0
    · cases h0
    · simp only [Out.bind_eq_ok] at h0
      obtain ⟨pubAux, hp, _, _, capG, hG, _, _, capK, hK, he⟩ := h0
      cases he
      exact ⟨rfl, rfl, rfl, rfl, rfl, rfl⟩
  obtain ⟨hall, hoth, hkeyc, hks, hdc⟩ := hctx
  unfold toRound4 toRound3 at h
  simp only [Out.bind_eq_ok, finalizeResult_eq_ok] at h
  obtain ⟨r3, ⟨r2, h2, p2, hp2, hf2⟩, p3, hp3, hf3⟩ := h
  obtain ⟨p1, hp1, hc2, hpay, hgam, hok, hout⟩ := toRound2_state hE h2
  unfold finalize2 at hf2
  simp only [Out.bind_eq_ok, finGet, Out.ofOption_eq_ok] at hf2
  obtain ⟨pm, hpm, he⟩ := hf2
  cases he
  -- the public keys
  have hex : ∀ j, ∃ b : PubAux, j ∈ keyShare.pub.keySet → r1.ctx.pubAux.get? j = some b ∧ b.pk = (pk j).pk ∧ 0 < b.pk := by
    intro j
    by_cases hj : j ∈ keyShare.pub.keySet
    · obtain ⟨b, h1, h2, h3⟩ := hpubs j _ (hpk j hj)
      exact ⟨b, fun _ => ⟨h1, h2, by rw [h2]; exact h3⟩⟩
    · obtain ⟨b, h1, h2, h3⟩ := hpubs id _ (hpk id hmem)
      exact ⟨b, fun h => absurd h hj⟩
  choose pk' hpk' using hex
  have hsub : ∀ i ∈ r1.ctx.otherIds, i ∈ keyShare.pub.keySet ∧ i ≠ r1.ctx.myId := fun i hi => by
    rw [hoth] at hi; rw [hid]; exact ⟨Finset.mem_of_mem_erase hi, Finset.ne_of_mem_erase hi⟩
  have hme : r1.ctx.myId ∈ r1.ctx.allIds := by rw [hid, hall]; exact hmem
  have hothers : r1.ctx.otherIds = r1.ctx.allIds.erase r1.ctx.myId := by rw [hoth, hall, hid]
  have hpub : ∀ i ∈ r1.ctx.allIds, r1.ctx.pubAux.get? i = some (pk' i) := fun i hi => (hpk' i (hall ▸ hi)).1
  have hpkMe' : (pk' r1.ctx.myId).pk = r1.ctx.key.modulus := by rw [hid, (hpk' id hmem).2.1, hpkMe, hkeyc]
  have hpos : ∀ i ∈ r1.ctx.allIds, 0 < (pk' i).pk := fun i hi => (hpk' i (hall ▸ hi)).2.2
  have hprimes' : FullSizePrimes E.P r1.ctx.key.p r1.ctx.key.q := by rw [hkeyc]; exact hprimes
  have hkey' : (SecretKey.new r1.ctx.key.p r1.ctx.key.q : Out Unit _) = .ok r1.ctx.key.sk := by rw [hkeyc]; exact hkey
  -- the ciphertexts of round 1
  have hmine : ∃ p, r2.payloads1.get? r1.ctx.myId = some p ∧ p.capK.Holds r1.ctx.key.modulus (signedI E.P r1.ctx.d.k).val := by
    refine ⟨r1.echo.payload r1.ctx.key.modulus, by rw [hpay, BMap.get?_insert, if_pos rfl], ?_⟩
    rw [hcapK, hkeyc, hdc]
    obtain ⟨u, hu⟩ := natCast_unit_sq hd.rho
    exact ⟨u, by rw [hu]⟩
  have htheirs : ∀ i ∈ r1.ctx.otherIds, ∃ p U, r2.payloads1.get? i = some p ∧ p.capK = ⟨(pk' i).pk, ((U : (ZMod ((pk' i).pk ^ 2))ˣ) : Ct (pk' i).pk)⟩ := by
    intro i hi
    obtain ⟨x, p, hx, hrx, hgx⟩ := collect_mem hp1 hi
    unfold recv1 at hrx
    simp only [Out.bind_eq_ok, recvGet, Out.ofOption_eq_ok] at hrx
    obtain ⟨mine, _, theirs, ht, ok0, _, hrx⟩ := hrx
    rw [(hpk' i (hsub i hi).1).1] at ht
    cases ht
    split at hrx
    · cases hrx
    simp only [Out.bind_eq_ok] at hrx
    obtain ⟨ok1, _, hrx⟩ := hrx
    split at hrx
    · cases hrx
    cases hrx
    have hu := hin1 i x hx
    rw [← (hpk' i (hsub i hi).1).2.1] at hu
    obtain ⟨U, hU⟩ := hu
    exact ⟨_, U, by rw [hpay, BMap.get?_insert, if_neg (hsub i hi).2, hgx], congrArg (Cipher.mk _) hU.symm⟩
  have hsent : ∀ i ∈ r1.ctx.otherIds, ∃ o p capX, r2.outs.get? i = some o ∧ r2.payloads1.get? i = some p ∧ 
      mtaSend E r1.ctx (pk' i) p.capK (signedI E.P r1.ctx.d.gamma) (r1.ctx.d.gamma • E.C.g) r1.ctx.d.mta i = .ok o.1 ∧
      mtaSend E r1.ctx (pk' i) p.capK (signedI E.P r1.ctx.keyShare.secret) capX r1.ctx.d.hatMta i = .ok o.2 := by
    intro i hi
    have hi' := hi
    rw [← hok, BMap.mem_keySet, BMap.mem_keys_iff] at hi'
    obtain ⟨o, ho⟩ := hi'
    obtain ⟨target, p, capX, h1, h2, h3, h4, h5⟩ := hout i o ho
    rw [(hpk' i (hsub i hi).1).1] at h1
    cases h1
    exact ⟨o, p, capX, ho, h2, h4, h5⟩
  have hrecv : ∀ i ∈ r1.ctx.otherIds, ∃ p w w' a a', p2.get? i = some p ∧ InMtaRange E.P r1.ctx.key.modulus w ∧ InMtaRange E.P r1.ctx.key.modulus w' ∧
      p.capDs.get? r1.ctx.myId = some (Cipher.ofWire r1.ctx.key.modulus w) ∧ p.hatCapDs.get? r1.ctx.myId = some (Cipher.ofWire r1.ctx.key.modulus w') ∧
      (r1.ctx.key.decryptCipher E.P (Cipher.ofWire r1.ctx.key.modulus w) : Out (RecvErr (Err I)) _) = .ok a ∧
      (r1.ctx.key.decryptCipher E.P (Cipher.ofWire r1.ctx.key.modulus w') : Out (RecvErr (Err I)) _) = .ok a' ∧
      p.alpha = scalarOfSigned q a ∧ p.hatAlpha = scalarOfSigned q a' := by
    intro i hi
    obtain ⟨m, p, hm, hrm, hg⟩ := collect_mem hp2 (hc2 ▸ hi)
    obtain ⟨w, w', a, a', e1, e2, e3, e4, e5, e6, e7, e8⟩ := recv2_state hrm (mine := pk' r1.ctx.myId) (by rw [hc2]; exact hpub _ hme)
    rw [hpkMe'] at e3 e4 e5 e6
    rw [hc2] at e1 e2 e3 e4 e5 e6
    rw [hid] at e1 e2
    refine ⟨p, w, w', a, a', hg, ?_, ?_, e3, e4, e5, e6, e7, e8⟩
    · rw [hkeyc]; exact hin2 i m hm w (Or.inl e1)
    · rw [hkeyc]; exact hin2 i m hm w' (Or.inr e2)
  have hk2 : p2.keySet = r1.ctx.otherIds := by rw [← hc2]; exact (collect_eq_ok.1 hp2).2.2.1
  have hXme : r1.ctx.keyShare.pub.get? r1.ctx.myId = some (r1.ctx.keyShare.secret • E.C.g) := by rw [hks, hid]; exact hshare
  have hoth' : r1.ctx.otherIds = keyShare.pub.keySet.erase id := hoth
  have hpkO : ∀ j ∈ r1.ctx.otherIds, (pk' j).pk = (pk j).pk := fun j hj => (hpk' j (hsub j hj).1).2.1
  have hS1 : ∀ (f : Payload3 q G → G) (v : Payload3 q G), ((p3.insert r1.ctx.myId v).mapVals fun _ p => f p).get? r1.ctx.myId = some (f v) := fun f v => by
    rw [BMap.get?_mapVals, BMap.get?_insert, if_pos rfl]; rfl
  unfold finalize3 at hf3
  simp only [hc2] at hf3
  split at hf3
  · cases hf3
    refine ⟨hid, hall, hkeyc, pk', r1.ctx.d.k, ?_⟩
    obtain ⟨capK, cd, md, hown, hmd⟩ := own_of_parts hE (c := r1.ctx) (payloads1 := r2.payloads1) (outs := r2.outs.mapVals fun _ o => o.1)
      (capDs := p2.mapVals fun _ p => p.capDs) (capFs := p2.mapVals fun _ p => p.capFs) (alpha := p2.mapVals fun _ p => p.alpha) (pk := pk') (hat := false)
      (capXs := (p2.mapVals fun _ p => p.capGamma).insert r1.ctx.myId r2.capGamma) (capSs := (p3.insert r1.ctx.myId ⟨r1.ctx.d.gamma * r1.ctx.d.k + (p2.values.map fun p => p.alpha).sum + r1.ctx.d.mta.betaSum q r1.ctx.otherIds, _, _⟩).mapVals
        fun _ p => p.delta • E.C.g)
      (capG := E.C.g) (x := r1.ctx.d.gamma) (mta := r1.ctx.d.mta) (dec := r1.ctx.d.dec) (star := r1.ctx.d.star) hfew hprimes' hkey' hme hothers hpub hpkMe' hpos
      hmine htheirs (fun i hi => by rw [hdc]; exact (hd.beta i (hoth ▸ hi)).1)
      (fun i hi => by
        obtain ⟨o, p, capX, e1, e2, e3, e4⟩ := hsent i hi
        exact ⟨o.1, p, _, by rw [BMap.get?_mapVals, e1]; rfl, e2, e3⟩)
      (fun i hi => by
        obtain ⟨p, w, w', a, a', e1, e2, e3, e4, e5, e6, e7, e8, e9⟩ := hrecv i hi
        exact ⟨p.capDs, w, a, by rw [BMap.get?_mapVals, e1]; rfl, e4, e2, e6, by rw [BMap.get?_mapVals, e1, ← e8]; rfl⟩)
      (by rw [BMap.keySet_mapVals, hk2]) (by rw [BMap.get?_insert, if_pos rfl, hgam]) ((hS1 _ _).trans (by rw [values_mapVals']))
    refine ⟨capK, cd, md, by rw [mapVals_mapVals', mapVals_mapVals'] at hown; exact hown, ?_, hmd⟩
    refine ⟨fun j hj => ?_, fun j hj => ?_, fun j hj => ?_, ?_, fun j hj => ?_, fun t => ?_, fun t j hj => ?_⟩
    · show (r1.ctx.d.mta.beta j).IsDraw _
      rw [hdc]; exact (hd.beta j (hoth ▸ hj)).1
    · show Nat.Coprime (r1.ctx.d.mta.r j) r1.ctx.key.modulus
      rw [hdc, hkeyc]; exact (hd.r j (hoth ▸ hj)).1
    · show Nat.Coprime (r1.ctx.d.mta.s j) _
      rw [hdc, hpkO j hj]; exact (hd.s j (hoth ▸ hj)).1
    · show DecDrawsValid _ r1.ctx.key.modulus _ r1.ctx.d.dec
      rw [hdc, hkeyc]; exact hd.dec.1
    · show StarDrawsValid _ _ r1.ctx.key.modulus (r1.ctx.d.star j)
      rw [hdc, hkeyc, hpkO j hj]; exact (hd.star j (hoth ▸ hj)).1
    · show _ = r1.ctx.d.dec.length
      rw [hdc]; exact (hd.decCount t).1
    · show _ = (r1.ctx.d.star j).length
      rw [hdc]; exact (hd.starCount t j (hoth ▸ hj)).1
  split at hf3
  · cases hf3
    refine ⟨hid, hall, hkeyc, pk', r1.ctx.d.k, ?_⟩
    obtain ⟨capK, cd, md, hown, hmd⟩ := own_of_parts hE (c := r1.ctx) (payloads1 := r2.payloads1) (outs := r2.outs.mapVals fun _ o => o.2)
      (capDs := p2.mapVals fun _ p => p.hatCapDs) (capFs := p2.mapVals fun _ p => p.hatCapFs) (alpha := p2.mapVals fun _ p => p.hatAlpha) (pk := pk') (hat := true)
      (capXs := r1.ctx.keyShare.pub) (capSs := (p3.insert r1.ctx.myId ⟨_, _, (r1.ctx.keyShare.secret * r1.ctx.d.k + (p2.values.map fun p => p.hatAlpha).sum +
        r1.ctx.d.hatMta.betaSum q r1.ctx.otherIds) • ((p2.mapVals fun _ p => p.capGamma).insert r1.ctx.myId r2.capGamma).values.sum⟩).mapVals fun _ p => p.capS)
      (capG := _) (x := r1.ctx.keyShare.secret) (mta := r1.ctx.d.hatMta) (dec := r1.ctx.d.hatDec) (star := r1.ctx.d.hatStar)
      hfew hprimes' hkey' hme hothers hpub hpkMe' hpos
      hmine htheirs (fun i hi => by rw [hdc]; exact (hd.beta i (hoth ▸ hi)).2)
      (fun i hi => by
        obtain ⟨o, p, capX, e1, e2, e3, e4⟩ := hsent i hi
        exact ⟨o.2, p, _, by rw [BMap.get?_mapVals, e1]; rfl, e2, e4⟩)
      (fun i hi => by
        obtain ⟨p, w, w', a, a', e1, e2, e3, e4, e5, e6, e7, e8, e9⟩ := hrecv i hi
        exact ⟨p.hatCapDs, w', a', by rw [BMap.get?_mapVals, e1]; rfl, e5, e3, e7, by rw [BMap.get?_mapVals, e1, ← e9]; rfl⟩)
      (by rw [BMap.keySet_mapVals, hk2]) hXme ((hS1 _ _).trans (by rw [values_mapVals']))
    refine ⟨capK, cd, md, by rw [mapVals_mapVals', mapVals_mapVals'] at hown; exact hown, ?_, hmd⟩
    refine ⟨fun j hj => ?_, fun j hj => ?_, fun j hj => ?_, ?_, fun j hj => ?_, fun t => ?_, fun t j hj => ?_⟩
    · show (r1.ctx.d.hatMta.beta j).IsDraw _
      rw [hdc]; exact (hd.beta j (hoth ▸ hj)).2
    · show Nat.Coprime (r1.ctx.d.hatMta.r j) r1.ctx.key.modulus
      rw [hdc, hkeyc]; exact (hd.r j (hoth ▸ hj)).2
    · show Nat.Coprime (r1.ctx.d.hatMta.s j) _
      rw [hdc, hpkO j hj]; exact (hd.s j (hoth ▸ hj)).2
    · show DecDrawsValid _ r1.ctx.key.modulus _ r1.ctx.d.hatDec
      rw [hdc, hkeyc]; exact hd.dec.2
    · show StarDrawsValid _ _ r1.ctx.key.modulus (r1.ctx.d.hatStar j)
      rw [hdc, hkeyc, hpkO j hj]; exact (hd.star j (hoth ▸ hj)).2
    · show _ = r1.ctx.d.hatDec.length
      rw [hdc]; exact (hd.decCount t).2
    · show _ = (r1.ctx.d.hatStar j).length
      rw [hdc]; exact (hd.starCount t j (hoth ▸ hj)).2
  split at hf3
  · cases hf3
  · cases hf3

end

end Synedrion.Signing
