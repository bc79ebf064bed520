import Verif.Model.SigningEvidence
import Verif.Lemmas.SigningReach
import Verif.Lemmas.CastSigning
import Verif.Lemmas.Evidence

/-!
# Lemmas about the evidence of interactive signing
-/

set_option linter.unusedSectionVars false

namespace Synedrion

theorem Out.bind_eq_err {ε α β : Type} {x : Out ε α} {f : α → Out ε β} {e : ε} :
    x.bind f = .err e ↔ x = .err e ∨ ∃ a, x = .ok a ∧ f a = .err e := by
  cases x <;> simp [Out.bind]

theorem allM_ok_of_exists {ε α : Type} {f : α → Out ε Bool} {l : List α} (h : ∀ x ∈ l, ∃ b, f x = .ok b) : ∃ b, Out.allM f l = .ok b := by
  induction l with
  | nil => exact ⟨true, rfl⟩
  | cons a l ih =>
    obtain ⟨b, hb⟩ := h a (by simp)
    obtain ⟨b', hb'⟩ := ih fun x hx => h x (by simp [hx])
    refine ⟨b && b', ?_⟩
    rw [Out.allM, hb, Out.bind_ok, hb']
    cases b <;> rfl

theorem recvGet_ne_protocol {I V E : Type} [LinearOrder I] {m : BMap I V} {i : I} {e : E} : (recvGet m i : Out (RecvErr E) V) ≠ .err (.protocol e) := by
  unfold recvGet
  cases m.get? i <;> simp [Out.ofOption]

namespace Signing

open Spec

variable {q : Nat} [Fact q.Prime] {I Ep G : Type} [LinearOrder I] [AddCommGroup G] [Module (ZMod q) G] [DecidableEq G]

theorem publicModulusNew_cast {ε ε' : Type} (N : Nat) : Out.cast ε' (publicModulusNew N : Out ε _) = publicModulusNew N := by
  unfold publicModulusNew
  simp only [Out.cast_ite, Out.cast_ok, Out.cast_panic]

theorem precompute_cast {ε ε' : Type} (a : PublicAux) : Out.cast ε' (precompute a : Out ε _) = precompute a := by
  unfold precompute RPParamsWire.toPrecomputed
  simp only [Out.cast_bind, publicModulusNew_cast, Out.cast_ok]

theorem under_cast {ε ε' : Type} (N : Nat) (c : Cipher) : Out.cast ε' (c.under N : Out ε _) = c.under N := by
  unfold Cipher.under
  split <;> rfl

theorem affGVerify_cast {ε ε' : Type} (E : Env q I Ep G) (pk0 pk1 : Nat) (psi : AffGProof q G) (capC capD capY : Cipher) (capX : G) (rp : RPSetup) (aux : Ep × I) :
    Out.cast ε' (affGVerify E pk0 pk1 psi capC capD capY capX rp aux : Out ε _) = affGVerify E pk0 pk1 psi capC capD capY capX rp aux := by
  unfold affGVerify
  simp only [Out.cast_bind, under_cast, AffGProof.verify_cast]

/-- The precomputed auxiliary info of a started party -/
theorem start_pubAux {E : Env q I Ep G} {epidOf : BMap I G → BMap I PublicAux → Ep} {message : ZMod q} {keyShare : KeyShare I (ZMod q) G}
    {auxInfo : AuxInfo I PaillierKey PublicAux} {id : I} {d : Draws q I} {r : Round1 q I Ep G}
    (h : start E epidOf message keyShare auxInfo id d = .ok r) :
    r.ctx.pubAux.keySet = auxInfo.pub.keySet ∧
      ∀ j b, r.ctx.pubAux.get? j = some b → ∃ a, auxInfo.pub.get? j = some a ∧ (precompute a : Out Unit _) = .ok b := by
  unfold start at h
  split at h
  · cases h
  · simp only [Out.bind_eq_ok] at h
    obtain ⟨pubAux, hp, _, _, _, _, _, _, _, _, he⟩ := h
    cases he
    obtain ⟨hk, hg⟩ := traverse_eq_ok hp
    refine ⟨hk, fun j b hb => ?_⟩
    obtain ⟨a, ha, h⟩ := hg j b hb
    exact ⟨a, ha, Out.eq_ok_of_cast (precompute_cast a) h⟩

/-- Where the entries of `payloads1` of a party come from -/
theorem toRound2_payloads {E : Env q I Ep G} {r : Round1 q I Ep G} {in1 : List (I × Msg1 q G)} {r2 : Round2 q I Ep G} (h : toRound2 E r in1 = .ok r2) :
    r2.ctx = r.ctx ∧ (in1.map Prod.fst).Nodup ∧ (in1.map Prod.fst).toFinset = r.ctx.otherIds ∧
      r2.payloads1.get? r.ctx.myId = some (r.echo.payload r.ctx.key.modulus) ∧
      ∀ j ∈ r.ctx.otherIds, j ≠ r.ctx.myId → ∃ m b, (j, m) ∈ in1 ∧ r.ctx.pubAux.get? j = some b ∧ r2.payloads1.get? j = some (m.echo.payload b.pk) := by
  unfold toRound2 finalize1 at h
  simp only [Out.bind_eq_ok, finalizeResult_eq_ok] at h
  obtain ⟨_, _, payloads, hc, _, _, _, _, _, _, _, _, he⟩ := h
  cases he
  obtain ⟨nd, ex, -, -⟩ := collect_eq_ok.1 hc
  refine ⟨rfl, nd, ex, by simp [BMap.get?_insert], fun j hj hne => ?_⟩
  obtain ⟨m, p, hm, hp, hg⟩ := collect_mem hc hj
  unfold recv1 at hp
  simp only [Out.bind_eq_ok] at hp
  obtain ⟨mine, _, theirs, ht, ok0, _, hp⟩ := hp
  split at hp
  · cases hp
  obtain ⟨ok1, _, hp⟩ := Out.bind_eq_ok.1 hp
  split at hp
  · cases hp
  cases hp
  refine ⟨m, theirs, hm, ?_, ?_⟩
  · simpa [recvGet, Out.ofOption_eq_ok] using ht
  · simp [BMap.get?_insert, hne, hg]

/-- The first proof that makes a loop of round 2 fail -/
theorem mtaVerify_fails {E : Env q I Ep G} {c : Context q I Ep G} {payloads1 : BMap I (Payload1 G)} {sender : I} {senderPk : Nat}
    {capX : Out (RecvErr (Err I)) G} (hX : ∀ e, capX ≠ .err (.protocol e))
    {failed : I → Err I} {psis : BMap I (AffGProof q G)} {capDs capFs : BMap I Nat} {e : Err I}
    (h : mtaVerify E c payloads1 sender senderPk capX failed psis capDs capFs = .err (.protocol e)) :
    ∃ id psi target p d f x, e = failed id ∧ psis.get? id = some psi ∧ c.pubAux.get? id = some target ∧ payloads1.get? id = some p ∧ capDs.get? id = some d ∧
      capFs.get? id = some f ∧ capX = .ok x ∧
      (affGVerify E target.pk senderPk psi p.capK (.ofWire target.pk d) (.ofWire senderPk f) x target.rp (c.epid, sender) : Out (RecvErr (Err I)) _) = .ok false := by
  unfold mtaVerify BMap.traverse at h
  rcases Out.bind_eq_err.1 h with h | ⟨_, _, h⟩
  swap
  · cases h
  obtain ⟨⟨id, psi⟩, hmem, h⟩ := Out.mapM'_eq_err h
  rcases Out.bind_eq_err.1 h with h | ⟨_, _, h⟩
  swap
  · cases h
  rcases Out.bind_eq_err.1 h with h | ⟨target, ht, h⟩
  · exact absurd h recvGet_ne_protocol
  rcases Out.bind_eq_err.1 h with h | ⟨p, hp, h⟩
  · exact absurd h recvGet_ne_protocol
  rcases Out.bind_eq_err.1 h with h | ⟨d, hd, h⟩
  · exact absurd h recvGet_ne_protocol
  rcases Out.bind_eq_err.1 h with h | ⟨f, hf, h⟩
  · exact absurd h recvGet_ne_protocol
  rcases Out.bind_eq_err.1 h with h | ⟨x, hx, h⟩
  · exact absurd h (hX _)
  rcases Out.bind_eq_err.1 h with h | ⟨ok, hok, h⟩
  · have := congrArg (Out.cast Unit) h
    rw [affGVerify_cast] at this
    exact absurd (congrArg (Out.cast (RecvErr (Err I))) this) (by rw [affGVerify_cast, h]; simp [Out.cast])
  split at h
  · rename_i hb
    cases h
    simp only [recvGet, Out.ofOption_eq_ok] at ht hp hd hf
    refine ⟨id, psi, target, p, d, f, x, rfl, BMap.get?_eq_some_iff.2 hmem, ht, hp, hd, hf, hx, ?_⟩
    rw [hok]; simpa using hb
  · cases h

/-- All proofs of an accepted loop of round 2 -/
theorem mtaVerify_all {E : Env q I Ep G} {c : Context q I Ep G} {payloads1 : BMap I (Payload1 G)} {sender : I} {senderPk : Nat}
    {capX : Out (RecvErr (Err I)) G} {failed : I → Err I} {psis : BMap I (AffGProof q G)} {capDs capFs : BMap I Nat} {dfs : BMap I (Cipher × Cipher)}
    (h : mtaVerify E c payloads1 sender senderPk capX failed psis capDs capFs = .ok dfs) {id : I} {psi : AffGProof q G} (hpsi : psis.get? id = some psi) :
    ∃ target p d f x, c.pubAux.get? id = some target ∧ payloads1.get? id = some p ∧ capDs.get? id = some d ∧
      capFs.get? id = some f ∧ capX = .ok x ∧
      (affGVerify E target.pk senderPk psi p.capK (.ofWire target.pk d) (.ofWire senderPk f) x target.rp (c.epid, sender) : Out (RecvErr (Err I)) _) = .ok true := by
  unfold mtaVerify at h
  obtain ⟨hk, hg⟩ := traverse_eq_ok h
  have : id ∈ dfs.keySet := by rw [hk, BMap.mem_keySet, BMap.mem_keys_iff]; exact ⟨_, hpsi⟩
  rw [BMap.mem_keySet, BMap.mem_keys_iff] at this
  obtain ⟨df, hdf⟩ := this
  obtain ⟨psi', hpsi', h⟩ := hg id df hdf
  rw [hpsi] at hpsi'
  cases hpsi'
  simp only [Out.bind_eq_ok, recvGet, Out.ofOption_eq_ok] at h
  obtain ⟨target, ht, p, hp, d, hd, f, hf, x, hx, ok, hok, h⟩ := h
  refine ⟨target, p, d, f, x, ht, hp, hd, hf, hx, ?_⟩
  split at h
  · cases h
  · rename_i hb
    rw [hok]; simpa using hb

/-- The check of a proof by the evidence is the check by the receiver, if both use the same data. -/
theorem evidenceAffG_eq {E : Env q I Ep G} {a : AssocData q I Ep G} {guilty failedFor : I} {echos1 : BMap I (Echo1 G)} {x : G}
    {psis : BMap I (AffGProof q G)} {capDs capFs : BMap I Nat} {e : Echo1 G} {af ag : PublicAux} {bf bg : PubAux} {d f : Nat} {psi : AffGProof q G} {ok : Bool}
    (he : echos1.get? failedFor = some e) (haf : a.aux.get? failedFor = some af) (hag : a.aux.get? guilty = some ag)
    (hbf : (precompute af : Out Unit _) = .ok bf) (hbg : (precompute ag : Out Unit _) = .ok bg) (hd : capDs.get? failedFor = some d)
    (hf : capFs.get? failedFor = some f) (hpsi : psis.get? failedFor = some psi)
    (hv : (affGVerify E bf.pk bg.pk psi (.ofWire bf.pk e.capK) (.ofWire bf.pk d) (.ofWire bg.pk f) x bf.rp (a.epid, guilty) : Out Unit _) = .ok ok) :
    evidenceAffG E a guilty failedFor echos1 (.ok x) psis capDs capFs = .ok (!ok) := by
  unfold precompute at hbf hbg
  simp only [Out.bind_eq_ok] at hbf hbg
  obtain ⟨pkf, h1, rpf, h2, hef⟩ := hbf
  obtain ⟨pkg, h3, rpg, h4, heg⟩ := hbg
  cases hef
  cases heg
  unfold evidenceAffG AssocData.auxOf
  simp only [he, haf, hag, hd, hf, hpsi, h1, h2, h3, Out.ofOption_some, Out.bind_ok]
  refine (congrArg (fun x => Out.bind x _) hv).trans ?_
  rfl

theorem decryptCipher_ne_err {ε : Type} {P : Params} {key : PaillierKey} {c : Cipher} {e : ε} : (key.decryptCipher P c : Out ε _) ≠ .err e := by
  unfold PaillierKey.decryptCipher Cipher.under decrypt SInt.newModulo Out.assert
  intro h
  rcases Out.bind_eq_err.1 h with h | ⟨_, _, h⟩
  · split at h <;> cases h
  · split at h
    · rcases Out.bind_eq_err.1 h with h | ⟨_, _, h⟩
      · split at h <;> cases h
      · simp only [Out.ofOptionPanic] at h
        repeat' split at h
        all_goals cases h
    · cases h

/-- The sum over all parties, from the accused party's own message and the echoes of the others -/
theorem echos_sum {V M : Type} [AddCommMonoid M] {ids : Finset I} {me j : I} {own : V} {received : List (I × V)} {echos : BMap I V}
    (h : Spec.EchosAgainst ids me j own received echos) (nd : (received.map Prod.fst).Nodup)
    (ex : (received.map Prod.fst).toFinset = ids.erase me) {ej : V} (hj : (j, ej) ∈ received) (f : V → M) :
    f ej + (echos.values.map f).sum = f own + (received.map fun a => f a.2).sum := by
  have := ((h.perm nd ex hj).map fun a : I × V => f a.2).sum_eq
  simpa [BMap.values, Function.comp_def] using this

/-- The sum over the collected payloads -/
theorem collect_sum {Mg Pl Er M : Type} [AddCommMonoid M] {s : Finset I} {recv : I → Mg → Out (RecvErr Er) Pl} {arr : List (I × Mg)} {m : BMap I Pl}
    {f : Pl → M} {φ : Mg → M} (h : collect s recv arr = .ok m) (hf : ∀ a ∈ arr, ∀ p, recv a.1 a.2 = .ok p → f p = φ a.2) :
    (m.values.map f).sum = (arr.map fun a => φ a.2).sum := by
  obtain ⟨nd, ex, ks, al⟩ := collect_eq_ok.1 h
  have hp : (m.entries.map fun e => (e.1, f e.2)).Perm (arr.map fun a => (a.1, φ a.2)) := by
    have nk : (m.entries.map Prod.fst).Nodup := BMap.nodup_keys m
    rw [List.perm_ext_iff_of_nodup (List.Nodup.of_map Prod.fst (by simpa [Function.comp_def] using nk))
      (List.Nodup.of_map Prod.fst (by simpa [Function.comp_def] using nd))]
    rintro ⟨k, v⟩
    simp only [List.mem_map, Prod.mk.injEq]
    constructor
    · rintro ⟨⟨k', p⟩, hmem, rfl, rfl⟩
      have hg := BMap.get?_eq_some_iff.2 hmem
      have hk : k' ∈ s := by rw [← ks, BMap.mem_keySet, BMap.mem_keys_iff]; exact ⟨_, hg⟩
      obtain ⟨x, p', hx, hr, hg'⟩ := collect_mem h hk
      rw [hg] at hg'
      cases hg'
      exact ⟨(k', x), hx, rfl, (hf _ hx _ hr).symm⟩
    · rintro ⟨⟨k', x⟩, hmem, rfl, rfl⟩
      obtain ⟨p, hr, hg⟩ := al _ hmem
      exact ⟨(k', p), BMap.get?_eq_some_iff.1 hg, rfl, hf _ hmem _ hr⟩
  have := (hp.map Prod.snd).sum_eq
  simpa [BMap.values, Function.comp_def] using this

theorem recv2_capGamma {E : Env q I Ep G} {r : Round2 q I Ep G} {j : I} {m : Msg2 q I G} {p : Payload2 q I G} (h : recv2 E r j m = .ok p) :
    p.capGamma = m.echo.capGamma := by
  unfold recv2 at h
  obtain ⟨_, _, h⟩ := Out.bind_eq_ok.1 h
  simp only at h
  split at h
  · cases h
  split at h
  · cases h
  split at h
  · cases h
  obtain ⟨_, _, h⟩ := Out.bind_eq_ok.1 h
  obtain ⟨_, _, h⟩ := Out.bind_eq_ok.1 h
  obtain ⟨_, _, h⟩ := Out.bind_eq_ok.1 h
  split at h
  · cases h
  simp only [Out.bind_eq_ok] at h
  obtain ⟨_, _, _, _, _, _, _, _, h⟩ := h
  cases h
  rfl

/-- The joint `Γ` of a party -/
theorem toRound3_capGamma {E : Env q I Ep G} {r : Round1 q I Ep G} {in1 : List (I × Msg1 q G)} {in2 : List (I × Msg2 q I G)} {r2 : Round2 q I Ep G}
    {r3 : Round3 q I Ep G} (hme : r.ctx.myId ∉ r.ctx.otherIds) (h2 : toRound2 E r in1 = .ok r2) (h3 : toRound3 E r in1 in2 = .ok r3) :
    (in2.map Prod.fst).Nodup ∧ (in2.map Prod.fst).toFinset = r.ctx.otherIds ∧
      r3.capGammaCombined = r2.capGamma + (in2.map fun a => a.2.echo.capGamma).sum := by
  have hctx := toRound2_ok h2
  unfold toRound3 at h3
  rw [h2, Out.bind_ok] at h3
  obtain ⟨pl, hc, h3⟩ := Out.bind_eq_ok.1 h3
  rw [finalizeResult_eq_ok] at h3
  unfold finalize2 at h3
  simp only [Out.bind_eq_ok] at h3
  obtain ⟨_, _, he⟩ := h3
  cases he
  rw [hctx] at hc
  obtain ⟨nd, ex, ks, -⟩ := collect_eq_ok.1 hc
  refine ⟨nd, ex, ?_⟩
  simp only
  have hk : r2.ctx.myId ∉ (pl.mapVals fun _ p => p.capGamma).keySet := by rw [BMap.keySet_mapVals, ks, hctx]; exact hme
  haveI : Inhabited G := ⟨0⟩
  have := sum_values_insert (pl.mapVals fun _ p => p.capGamma) hk r2.capGamma id
  rw [List.map_id, List.map_id] at this
  rw [this, values_mapVals']
  exact congrArg (r2.capGamma + ·) (collect_sum (f := fun p : Payload2 q I G => p.capGamma) (φ := fun m : Msg2 q I G => m.echo.capGamma) hc fun a _ p hr => recv2_capGamma hr)

/-- An accepted enc-elg proof is rejected with parameters for which the challenge is another one. -/
theorem encElg_rejects {ε Aux : Type} {P : Params} {H : EncElgHash G Aux → ZMod q} {g : G} {N0 Nh Nh' : Nat} {prf : EncElgProof q G} {pub : EncElgPublic N0 G}
    {setup : RPParams Nh} {setup' : RPParams Nh'} {aux : Aux} (h : (prf.verify P H g pub setup aux : Out ε _) = .ok true)
    (hne : ∀ t : EncElgHash G Aux, H { t with setup := setup'.toWire } ≠ H { t with setup := setup.toWire }) (ε' : Type) :
    (prf.verify P H g pub setup' aux : Out ε' _) = .ok false := by
  unfold EncElgProof.verify at h ⊢
  simp only at h ⊢
  rw [Out.check_eq_true] at h
  obtain ⟨he, -⟩ := h
  have := hne (encElgHash prf.capS prf.capD prf.capY prf.capZ prf.capT pub setup aux)
  have h2 : ¬ H (encElgHash prf.capS prf.capD prf.capY prf.capZ prf.capT pub setup' aux) = prf.e := by
    rw [← of_decide_eq_true he]; exact this
  rw [decide_eq_false h2]
  rfl

/-- An aff-g proof that is accepted for one public point is rejected for another one, unless the challenge is zero. -/
theorem affG_rejects {ε Aux : Type} {P : Params} {H : AffGHash G Aux → ZMod q} {g : G} {N0 N1 Nh : Nat} {prf : AffGProof q G} {capC capD : Ct N0} {capY : Ct N1} {capX capX' : G}
    {setup : RPParams Nh} {aux : Aux} (h : (prf.verify P H g ⟨capC, capD, capY, capX⟩ setup aux : Out ε _) = .ok true) (he : prf.e ≠ 0) (hX : capX' ≠ capX) :
    (prf.verify P H g ⟨capC, capD, capY, capX'⟩ setup aux : Out ε _) = .ok false := by
  simp only [AffGProof.verify] at h ⊢
  rw [Out.check_eq_true] at h
  obtain ⟨h1, h⟩ := h
  by_cases hh : H (affGHash prf.capA prf.capBx prf.capBy prf.capE prf.capF prf.capS prf.capT ⟨capC, capD, capY, capX'⟩ setup aux) = prf.e
  swap
  · rw [decide_eq_false hh]; rfl
  rw [of_decide_eq_true h1] at h
  rw [hh, decide_eq_true rfl]
  rw [Out.check_eq_true] at h
  obtain ⟨h2, h⟩ := h
  rw [Out.check_eq_true] at h
  obtain ⟨h3, h⟩ := h
  obtain ⟨cz, h4, h⟩ := Out.bind_eq_ok.1 h
  obtain ⟨de, h5, h⟩ := Out.bind_eq_ok.1 h
  rw [Out.check_eq_true] at h
  obtain ⟨h6, h⟩ := h
  rw [Out.check_eq_true] at h
  obtain ⟨h7, h⟩ := h
  rw [h2, h3, h4, Out.bind_ok, h5, Out.bind_ok, h6]
  have h8 : ¬ scalarOfSigned q prf.z1 • g = prf.capBx + prf.e • capX' := by
    rw [of_decide_eq_true h7, add_right_inj]
    intro hc
    exact hX (smul_right_injective G he hc).symm
  rw [decide_eq_false h8]
  rfl

theorem affGVerify_rejects {ε : Type} {E : Env q I Ep G} {pk0 pk1 : Nat} {psi : AffGProof q G} {capC capD capY : Cipher} {capX capX' : G} {rp : RPSetup} {aux : Ep × I}
    (h : (affGVerify E pk0 pk1 psi capC capD capY capX rp aux : Out ε _) = .ok true) (he : psi.e ≠ 0) (hX : capX' ≠ capX) :
    (affGVerify E pk0 pk1 psi capC capD capY capX' rp aux : Out ε _) = .ok false := by
  unfold affGVerify at h ⊢
  obtain ⟨c, h1, h⟩ := Out.bind_eq_ok.1 h
  obtain ⟨d, h2, h⟩ := Out.bind_eq_ok.1 h
  obtain ⟨y, h3, h⟩ := Out.bind_eq_ok.1 h
  rw [h1, Out.bind_ok, h2, Out.bind_ok, h3, Out.bind_ok]
  exact affG_rejects h he hX

/-- The challenge of an accepted aff-g proof is the hash of data with the given context -/
theorem affGVerify_e {ε : Type} {E : Env q I Ep G} {pk0 pk1 : Nat} {psi : AffGProof q G} {capC capD capY : Cipher} {capX : G} {rp : RPSetup} {aux : Ep × I}
    (h : (affGVerify E pk0 pk1 psi capC capD capY capX rp aux : Out ε _) = .ok true) : ∃ t : AffGHash G (Ep × I), t.aux = aux ∧ psi.e = E.affH t := by
  unfold affGVerify at h
  obtain ⟨c, -, h⟩ := Out.bind_eq_ok.1 h
  obtain ⟨d, -, h⟩ := Out.bind_eq_ok.1 h
  obtain ⟨y, -, h⟩ := Out.bind_eq_ok.1 h
  simp only [AffGProof.verify] at h
  rw [Out.check_eq_true] at h
  exact ⟨_, rfl, (of_decide_eq_true h.1).symm⟩

/-- The same for the decryption proof of an accepted message of an error round -/
theorem recvErr_e {E : Env q I Ep G} {r : ErrRound q I Ep G} {sender : I} {m : MsgErr I G} (h : recvErr E r sender m = .ok ()) :
    ∃ t : DecHash G (Ep × I), t.aux = (r.ctx.epid, sender) ∧ m.psiStar.e = E.decH t := by
  unfold recvErr at h
  simp only [Out.bind_eq_ok] at h
  obtain ⟨theirs, -, capD, -, capK, -, capX, -, capS, -, k, -, d, -, ok, hv, h⟩ := h
  have hok : ok = true := by
    by_contra hne
    rw [if_pos hne] at h
    cases h
  subst hok
  simp only [DecProof.verify] at hv
  rw [Out.check_eq_true] at hv
  exact ⟨_, rfl, (of_decide_eq_true hv.1).symm⟩

/-- An elog proof that is accepted for one second base is rejected for another one, unless the response is zero. -/
theorem elog_rejects {F Aux : Type} [Field F] [DecidableEq F] [Module F G] {H : ElogHash G Aux → F} {g : G} {prf : ElogProof F G} {capL capM capX capY h h' : G} {aux : Aux}
    (hv : prf.verify H g ⟨capL, capM, capX, capY, h⟩ aux = true) (hu : prf.u ≠ 0) (hh : h' ≠ h) : prf.verify H g ⟨capL, capM, capX, capY, h'⟩ aux = false := by
  unfold ElogProof.verify at hv ⊢
  simp only at hv ⊢
  split at hv
  · cases hv
  split at hv
  · cases hv
  split at hv
  · cases hv
  split at hv
  · cases hv
  rename_i h1 h2 h3 h4
  push Not at h1 h2 h3 h4
  split
  · rfl
  rename_i k1
  push Not at k1
  split
  · rfl
  split
  · rfl
  rw [if_pos]
  rw [k1, ← h1, ← h4]
  intro hc
  exact hh (smul_right_injective G hu hc)

/-- A dec proof that is accepted for one value is rejected for another value (and any ciphertext), if some bit of the challenge is set. -/
theorem dec_rejects {ε Aux : Type} {P : Params} {H : DecHash G Aux → List Bool} {g : G} {N0 Nh : Nat} {prf : DecProof G} {capK capD capD' : Ct N0} {capX capS capS' capG : G}
    {n : Nat} {setup : RPParams Nh} {aux : Aux} (h : (prf.verify P H g q ⟨capK, capX, capD, capS, capG, n⟩ setup aux : Out ε _) = .ok true) (he : true ∈ prf.e)
    (hS : capS' ≠ capS) : (prf.verify P H g q ⟨capK, capX, capD', capS', capG, n⟩ setup aux : Out ε _) = .ok false := by
  simp only [DecProof.verify] at h ⊢
  rw [Out.check_eq_true] at h
  obtain ⟨h1, h⟩ := h
  by_cases hh : H (decHash prf.commitments ⟨capK, capX, capD', capS', capG, n⟩ setup aux) = prf.e
  swap
  · rw [decide_eq_false hh]; rfl
  rw [of_decide_eq_true h1] at h
  rw [hh, decide_eq_true rfl]
  rw [Out.check_eq_true] at h
  obtain ⟨h2, h⟩ := h
  rw [h2]
  have hlen := of_decide_eq_true h2
  push Not at hlen
  rw [Out.allM_eq_true] at h
  have hall : ∀ x ∈ (prf.e.zip prf.commitments).zip prf.elements, ∃ b,
      (decCheck P g q (⟨capK, capX, capD', capS', capG, n⟩ : DecPublic N0 G) x.1.1 x.1.2 x.2 : Out ε _) = .ok b ∧ (x.1.1 = true → b = false) := by
    intro x hx
    have hc := h x hx
    unfold decCheck at hc ⊢
    obtain ⟨kz, k1, hc⟩ := Out.bind_eq_ok.1 hc
    simp only at k1
    rw [k1, Out.bind_ok]
    rw [Out.check_eq_true] at hc
    obtain ⟨k2, hc⟩ := hc
    rw [Out.check_eq_true] at hc
    obtain ⟨k3, hc⟩ := hc
    rw [Out.check_eq_true] at hc
    obtain ⟨k4, hc⟩ := hc
    rw [Out.check_eq_true] at hc
    obtain ⟨k5, hc⟩ := hc
    obtain ⟨c, k6, hc⟩ := Out.bind_eq_ok.1 hc
    rw [Out.check_eq_true] at hc
    obtain ⟨k7, -⟩ := hc
    simp only at k3 k6
    by_cases hb : x.1.1 = true
    · refine ⟨false, ?_, fun _ => rfl⟩
      have k4' := of_decide_eq_true k4
      simp only [hb, if_true] at k4' k3 ⊢
      have : ¬ scalarOfSigned q x.2.w • capG = x.1.2.capB + capS' := by
        rw [k4', add_right_inj]; exact fun e => hS e.symm
      rw [decide_eq_false this, k3]
      by_cases hD : ctAdd (encPublic N0 x.2.w x.2.nu) kz = ctAdd (ctOfWire N0 x.1.2.capA) capD'
      · rw [decide_eq_true hD]; rfl
      · rw [decide_eq_false hD]; rfl
    · refine ⟨true, ?_, fun h => absurd h hb⟩
      have hb' : x.1.1 = false := by simpa using hb
      simp only [hb', Bool.false_eq_true, if_false] at k2 k3 k4 ⊢
      rw [k2, k3, k4, k5]
      show Out.check true (Out.check true (Out.check true (Out.check true _))) = _
      simp only [Out.check, if_true]
      rw [k6, Out.bind_ok, k7]
      rfl
  have hall' : ∀ x ∈ (prf.e.zip prf.commitments).zip prf.elements,
      ∃ b, (decCheck P g q (⟨capK, capX, capD', capS', capG, n⟩ : DecPublic N0 G) x.1.1 x.1.2 x.2 : Out ε _) = .ok b := fun x hx => by
    obtain ⟨b, hb, -⟩ := hall x hx; exact ⟨b, hb⟩
  obtain ⟨b, hb⟩ := allM_ok_of_exists hall'
  show Out.check true (Out.allM _ _) = _
  rw [show ∀ y : Out ε Bool, Out.check true y = y from fun y => rfl, hb]
  cases b with
  | false => rfl
  | true =>
    exfalso
    rw [Out.allM_eq_true] at hb
    obtain ⟨k, hk, hkt⟩ := List.mem_iff_getElem.1 he
    have hmem : ((prf.e[k], prf.commitments[k]), prf.elements[k]) ∈ (prf.e.zip prf.commitments).zip prf.elements := by
      rw [List.mem_iff_getElem]
      refine ⟨k, by simp [← hlen.1, ← hlen.2, hk], by simp⟩
    obtain ⟨b', hb', hf⟩ := hall _ hmem
    have h5 := hb _ hmem
    rw [hb'] at h5
    cases h5
    cases hf hkt

theorem sumLoop_pk {ε : Type} {N : Nat} {acc : Cipher} (ha : acc.pk = N) {l : List (Out ε Cipher)} (h : ∀ x ∈ l, ∃ c : Cipher, x = .ok c ∧ c.pk = N) :
    ∃ c, Cipher.sumLoop acc l = .ok c ∧ c.pk = N := by
  induction l generalizing acc with
  | nil => exact ⟨acc, rfl, ha⟩
  | cons x l ih =>
    obtain ⟨c, rfl, hc⟩ := h x (by simp)
    unfold Cipher.sumLoop Cipher.add Cipher.under
    rw [Out.bind_ok, dif_pos (by rw [hc, ha]), Out.bind_ok, Out.bind_ok]
    exact ih (by simpa using ha) fun x hx => h x (by simp [hx])

theorem sumNonEmpty_pk {ε : Type} {e : ε} {N : Nat} {l : List (Out ε Cipher)} (hl : l ≠ []) (h : ∀ x ∈ l, ∃ c : Cipher, x = .ok c ∧ c.pk = N) :
    ∃ c, Cipher.sumNonEmpty e l = .ok c ∧ c.pk = N := by
  cases l with
  | nil => exact absurd rfl hl
  | cons x l =>
    obtain ⟨c, rfl, hc⟩ := h x (by simp)
    exact sumLoop_pk hc fun x hx => h x (by simp [hx])

theorem evidenceAggregate_ok {pk : Nat} {ids : Finset I} (hne : ids.Nonempty) {capDs : BMap I Nat} {capFs : I → Out Unit Nat}
    (hd : ∀ i ∈ ids, ∃ w, capDs.get? i = some w) (hf : ∀ i ∈ ids, ∃ w, capFs i = .ok w) : ∃ c, evidenceAggregate pk ids capDs capFs = .ok c ∧ c.pk = pk := by
  have hn : bsetIter ids ≠ [] := by
    obtain ⟨i, hi⟩ := hne
    intro h
    have := mem_bsetIter.2 hi
    rw [h] at this
    cases this
  obtain ⟨d, hd, hdp⟩ := sumNonEmpty_pk (e := ()) (N := pk) (l := (bsetIter ids).map fun id => (Out.ofOption () (capDs.get? id)).bind fun d => .ok (Cipher.ofWire pk d))
    (by simpa using hn) (by
      intro x hx
      obtain ⟨i, hi, rfl⟩ := List.mem_map.1 hx
      obtain ⟨w, hw⟩ := hd i (mem_bsetIter.1 hi)
      rw [hw]
      exact ⟨_, rfl, rfl⟩)
  obtain ⟨f, hf, hfp⟩ := sumNonEmpty_pk (e := ()) (N := pk) (l := (bsetIter ids).map fun id => (capFs id).bind fun f => .ok (Cipher.ofWire pk f))
    (by simpa using hn) (by
      intro x hx
      obtain ⟨i, hi, rfl⟩ := List.mem_map.1 hx
      obtain ⟨w, hw⟩ := hf i (mem_bsetIter.1 hi)
      rw [hw]
      exact ⟨_, rfl, rfl⟩)
  unfold evidenceAggregate
  rw [hd, Out.bind_ok, hf, Out.bind_ok]
  unfold Cipher.add Cipher.under
  rw [dif_pos (by rw [hdp, hfp]), Out.bind_ok]
  exact ⟨_, rfl, hdp⟩

/-- The ids that an accepted message of round 2 must have -/
theorem recv2_ids {E : Env q I Ep G} {r : Round2 q I Ep G} {j : I} {m : Msg2 q I G} {p : Payload2 q I G} (h : recv2 E r j m = .ok p) :
    m.capDs.keySet = r.ctx.allIds.erase j ∧ m.echo.capFs.keySet = r.ctx.allIds.erase j := by
  unfold recv2 at h
  obtain ⟨_, _, h⟩ := Out.bind_eq_ok.1 h
  simp only at h
  split at h
  · cases h
  split at h
  · cases h
  rename_i h1 h2
  exact ⟨not_not.1 h1, not_not.1 h2⟩

/-- A party's own message of round 2 -/
theorem toRound2_own {E : Env q I Ep G} {r : Round1 q I Ep G} {in1 : List (I × Msg1 q G)} {r2 : Round2 q I Ep G} (h : toRound2 E r in1 = .ok r2) :
    r2.outs.keySet = r.ctx.otherIds ∧ r2.capGamma = r.ctx.d.gamma • E.C.g ∧
      r2.psiElog = ElogProof.prove E.elogH E.C.g r.ctx.d.gamma r.ctx.d.b ((r.echo.payload r.ctx.key.modulus).elogPub E.C.g r2.capGamma) (r.ctx.epid, r.ctx.myId)
        r.ctx.d.elogAlpha r.ctx.d.elogM := by
  unfold toRound2 finalize1 at h
  simp only [Out.bind_eq_ok, finalizeResult_eq_ok] at h
  obtain ⟨_, _, payloads, hc, _, _, _, _, _, _, outs, ho, he⟩ := h
  cases he
  exact ⟨(buildMap_eq_ok ho).1, rfl, rfl⟩

/-- A party's own message of round 3 -/
theorem toRound3_own {E : Env q I Ep G} {r : Round1 q I Ep G} {in1 : List (I × Msg1 q G)} {in2 : List (I × Msg2 q I G)} {r3 : Round3 q I Ep G}
    (h3 : toRound3 E r in1 in2 = .ok r3) :
    r3.payloads1.get? r.ctx.myId = some (r.echo.payload r.ctx.key.modulus) ∧
      r3.msg.psiPrime = ElogProof.prove E.elogH E.C.g r.ctx.d.k r.ctx.d.a ((r.echo.payload r.ctx.key.modulus).elogPub' (r.ctx.d.k • r3.capGammaCombined) r3.capGammaCombined)
        (r.ctx.epid, r.ctx.myId) r.ctx.d.elogAlpha' r.ctx.d.elogM' := by
  unfold toRound3 at h3
  obtain ⟨r2, h2, h3⟩ := Out.bind_eq_ok.1 h3
  obtain ⟨hctx, -, -, hown, -⟩ := toRound2_payloads h2
  obtain ⟨pl, hc, h3⟩ := Out.bind_eq_ok.1 h3
  rw [finalizeResult_eq_ok] at h3
  unfold finalize2 at h3
  simp only [Out.bind_eq_ok] at h3
  obtain ⟨p, hp, he⟩ := h3
  simp only [finGet, Out.ofOption_eq_ok, hctx, hown] at hp
  cases hp
  cases he
  refine ⟨hown, ?_⟩
  simp only [hctx]

/-- The payloads of round 1 are kept up to round 3. -/
theorem toRound3_payloads1 {E : Env q I Ep G} {r : Round1 q I Ep G} {in1 : List (I × Msg1 q G)} {in2 : List (I × Msg2 q I G)} {r2 : Round2 q I Ep G}
    {r3 : Round3 q I Ep G} (h2 : toRound2 E r in1 = .ok r2) (h3 : toRound3 E r in1 in2 = .ok r3) :
    r3.payloads1 = r2.payloads1 ∧ ∀ j m, (j, m) ∈ in2 → j ≠ r.ctx.myId → r3.capGammas.get? j = some m.echo.capGamma ∧
      m.capDs.keySet = r.ctx.allIds.erase j ∧ m.echo.capFs.keySet = r.ctx.allIds.erase j := by
  have hctx := toRound2_ok h2
  unfold toRound3 at h3
  rw [h2, Out.bind_ok] at h3
  obtain ⟨pl, hc, h3⟩ := Out.bind_eq_ok.1 h3
  rw [finalizeResult_eq_ok] at h3
  unfold finalize2 at h3
  simp only [Out.bind_eq_ok] at h3
  obtain ⟨_, _, he⟩ := h3
  cases he
  refine ⟨rfl, fun j m hm hne => ?_⟩
  obtain ⟨-, -, -, al⟩ := collect_eq_ok.1 hc
  obtain ⟨p, hp, hg⟩ := al _ hm
  have hids := recv2_ids hp
  rw [hctx] at hids
  refine ⟨?_, hids⟩
  simp only [BMap.get?_insert, hctx, if_neg hne, BMap.get?_mapVals, hg, Option.map_some]
  exact congrArg some (recv2_capGamma hp)

/-- What a party in round 5 knows about another one -/
theorem toRound4_error_view {E : Env q I Ep G} {r : Round1 q I Ep G} {in1 : List (I × Msg1 q G)} {in2 : List (I × Msg2 q I G)} {in3 : List (I × Msg3 q G)}
    {r3 : Round3 q I Ep G} {rErr : ErrRound q I Ep G} (hme : r.ctx.myId ∉ r.ctx.otherIds) (h3 : toRound3 E r in1 in2 = .ok r3)
    (h : toRound4 E r in1 in2 in3 = .ok (.error rErr)) (hhat : rErr.hat = false) {j : I} (m3 : Msg3 q G) (hj3 : (j, m3) ∈ in3) :
    rErr.ctx = r.ctx ∧ rErr.capKs = (r3.payloads1.mapVals fun _ p => p.capK) ∧ rErr.capXs = r3.capGammas ∧ rErr.capSs.get? j = some (m3.delta • E.C.g) ∧ rErr.capG = E.C.g := by
  obtain ⟨r3', pl, h3', hctx, hown, hc, hf⟩ := toRound4_ok h
  rw [h3] at h3'
  cases h3'
  obtain ⟨nd3, ex3, ks3, al⟩ := collect_eq_ok.1 hc
  obtain ⟨p, hp, hg⟩ := al _ hj3
  have hjme : j ≠ r3.ctx.myId := by
    rintro rfl
    apply hme
    rw [← hctx, hctx, ← ex3, List.mem_toFinset]
    rw [← hctx]
    exact List.mem_map.2 ⟨_, hj3, rfl⟩
  have hpp : p = m3.payload := by
    unfold recv3 at hp
    obtain ⟨_, _, hp⟩ := Out.bind_eq_ok.1 hp
    split at hp
    · cases hp
    · cases hp; rfl
  subst hpp
  unfold finalize3 at hf
  simp only at hf
  split at hf
  · cases hf
    refine ⟨hctx, rfl, rfl, ?_, rfl⟩
    simp only [BMap.get?_mapVals, BMap.get?_insert, if_neg hjme, hg, Option.map_some]
    rfl
  split at hf
  · cases hf; cases hhat
  split at hf
  · cases hf
  · cases hf

end Signing
end Synedrion
