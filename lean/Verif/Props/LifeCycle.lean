import Verif.Spec.LifeCycle
import Verif.Props.Entities
import Verif.Props.KeyInit
import Verif.Props.AuxGen
import Verif.Props.KeyRefresh
import Verif.Props.KeyResharing
import Verif.Props.SigningHonest
import Verif.Props.Signing

/-!
# C55: a key keeps signing over any history of operations
-/

set_option linter.unusedSectionVars false

namespace Synedrion.Props

open Spec

section Key

variable {I F G Sid V W CC : Type} [LinearOrder I] [Field F] [LinearOrder F] [AddCommGroup G] [Module F G] [DecidableEq G] [DecidableEq V] [DecidableEq W]

private theorem sharesKey_congr {g : G} {ids : Finset I} {shares shares' : I → KeyShare I F G} {sk : F} (h : SharesKey g ids shares sk)
    (he : ∀ i ∈ ids, shares i = shares' i) : SharesKey g ids shares' sk where
  owner i hi := by rw [← he i hi]; exact h.owner i hi
  holders i hi := by rw [← he i hi]; exact h.holders i hi
  same_public i hi j hj := by rw [← he i hi, ← he j hj]; exact h.same_public i hi j hj
  public_matches i hi j hj := by rw [← he i hi, ← he j hj]; exact h.public_matches i hi j hj
  sum := by rw [← h.sum]; exact Finset.sum_congr rfl fun i hi => by rw [he i hi]

private theorem thresholdSharing_congr {g : G} {ids : Finset I} {t : Nat} {shares shares' : I → ThresholdKeyShare I F G} {sk : F} (h : ThresholdSharing g ids t shares sk)
    (he : ∀ i ∈ ids, shares i = shares' i) : ThresholdSharing g ids t shares' sk := by
  obtain ⟨h0, sid, tail, h1, h2, h3⟩ := h
  refine ⟨h0, sid, tail, h1, h2, fun i hi => ?_⟩
  obtain ⟨a, b, c, d, e, f, g'⟩ := h3 i hi
  rw [← he i hi]
  exact ⟨a, b, c, d, e, f, fun j hj => by rw [← he j hj]; exact g' j hj⟩

private theorem thresholdSharing_nonempty {g : G} {ids : Finset I} {t : Nat} {shares : I → ThresholdKeyShare I F G} {sk : F} (h : ThresholdSharing g ids t shares sk) :
    ids.Nonempty := by
  obtain ⟨h0, sid, tail, h1, -⟩ := h
  exact Finset.card_pos.1 (by omega)

private theorem ok_inj {ε α : Type} {x : Out ε α} {a b : α} (h : x = .ok a) (h' : x = .ok b) : a = b := by
  rw [h] at h'; exact Out.ok.inj h'

variable {K : KeyEnv I F G Sid V W CC} {k : Nat}

private theorem fromOthers_congr_ne {M : Type} {ids : Finset I} {i : I} {msg msg' : I → M} {arr : List (I × M)} (h : FromOthers ids i msg arr)
    (he : ∀ j ∈ ids, j ≠ i → msg j = msg' j) : FromOthers ids i msg' arr := by
  refine ⟨h.1, fun a => (h.2 a).trans ?_⟩
  constructor
  · rintro ⟨h1, h2, h3⟩; exact ⟨h1, h2, h3.trans (he _ h1 h2)⟩
  · rintro ⟨h1, h2, h3⟩; exact ⟨h1, h2, h3.trans (he _ h1 h2).symm⟩

private theorem usableAux_congr {P : Params} {ids : Finset I} {infos infos' : I → AuxInfo I PaillierKey PublicAux} {setup : I → RPSetup}
    (h : UsableAux P ids infos setup) (he : ∀ i ∈ ids, infos i = infos' i) : UsableAux P ids infos' setup where
  consistent :=
    { owner i hi := by rw [← he i hi]; exact h.consistent.owner i hi
      holders i hi := by rw [← he i hi]; exact h.consistent.holders i hi
      public_agree i hi j hj := by rw [← he i hi, ← he j hj]; exact h.consistent.public_agree i hi j hj
      secret_matches _ _ := rfl }
  primes i hi := by rw [← he i hi]; exact h.primes i hi
  secretKey i hi := by rw [← he i hi]; exact h.secretKey i hi
  rpOdd := h.rpOdd
  rpSize := h.rpSize
  rpValid := h.rpValid

private theorem zeroSumChange_congr {g : G} {ids : Finset I} {ch ch' : I → KeyShareChange I F G} (h : ZeroSumChange g ids ch)
    (he : ∀ i ∈ ids, ch i = ch' i) : ZeroSumChange g ids ch' where
  owner i hi := by rw [← he i hi]; exact h.owner i hi
  holders i hi := by rw [← he i hi]; exact h.holders i hi
  public_matches i hi j hj := by rw [← he i hi, ← he j hj]; exact h.public_matches i hi j hj
  sum := by rw [← h.sum]; exact Finset.sum_congr rfl fun i hi => by rw [he i hi]

private theorem ranKeyRefresh (hE : HashesValid K.refresh.aux k) {ids : Finset I} {d : I → KeyRefresh.Draws I F} {changes : I → KeyShareChange I F G}
    {infos : I → AuxInfo I PaillierKey PublicAux} (hrun : RanKeyRefresh K k ids d changes infos) :
    ZeroSumChange K.refresh.g ids changes ∧
      UsableAux K.refresh.aux.P ids infos fun j => ⟨_, RPParams.withSecret ((d j).aux.rpP * (d j).aux.rpQ) K.refresh.aux.P.modBits (d j).aux.lambda (d j).aux.tDraw⟩ := by
  obtain ⟨sid, len, ctx, r3, m3, in1, in2, in3, hd, hfac, hlen, hst, h1, h2, hr3, hm3, h3, hrun⟩ := hrun
  obtain ⟨r3', m3', hr3', hm3', hres⟩ := C38_honest_refresh K.refresh k hE K.refreshHash ids sid d hd hfac len hlen ctx hst in1 in2 h1 h2
  obtain ⟨ch, inf, hrun', hz, -, -, hu⟩ := hres in3 fun i hi => fromOthers_congr_ne (h3 i hi) fun j hj hji => by
    have := hm3' j hj i hi hji
    rw [ok_inj (hr3' j hj) (hr3 j hj)] at this
    exact ok_inj (hm3 j hj i hi hji) this
  have he := fun i hi => ok_inj (hrun' i hi) (hrun i hi)
  exact ⟨zeroSumChange_congr hz fun i hi => congrArg Prod.fst (he i hi), usableAux_congr hu fun i hi => congrArg Prod.snd (he i hi)⟩

mutual

private theorem full_sharing [CharP F K.order] (hg : K.refresh.g ≠ 0) (hE : HashesValid K.refresh.aux k) {ids : Finset I} {shares : I → KeyShare I F G} {vk : G} :
    HoldsFull K k ids shares vk → ∃ sk : F, sk ≠ 0 ∧ vk = sk • K.refresh.g ∧ SharesKey K.refresh.g ids shares sk
  | .centralized _ sk draw m _ hne h0 hm hs => by
    obtain ⟨m', sh, hm', -, hget, hk, -⟩ := C12_centralized_shares_consistent (ε := Unit) K.refresh.g hg ids hne sk draw
    cases ok_inj hm hm'
    exact ⟨sk, h0, rfl, sharesKey_congr hk fun i hi => Option.some.inj ((hget i hi).symm.trans (hs i hi))⟩
  | .generated _ _ _ i hrun hi hvk => by
    obtain ⟨sid, d, len, ctx, r3, in1, in2, in3, hlen, hst, h1, h2, hr3, h3, hrun⟩ := hrun
    obtain ⟨r3', hr3', hres⟩ := C36_honest_keygen K.initHash K.initSch K.refresh.g hg ids sid d len hlen ctx hst in1 in2 h1 h2
    obtain ⟨hz, hnz⟩ := hres in3 fun i hi => fromOthers_congr (h3 i hi) fun j hj => by rw [ok_inj (hr3 j hj) (hr3' j hj)]
    by_cases h0 : ∑ i ∈ ids, (d i).x = 0
    · have := hz h0 i hi
      rw [hrun i hi] at this
      cases this
    · obtain ⟨sh, hsh, hk⟩ := hnz h0
      have hk' := sharesKey_congr hk fun i hi => ok_inj (hsh i hi) (hrun i hi)
      exact ⟨_, h0, ok_inj hvk (hk'.vk hg h0 hi), hk'⟩
  | .refreshed _ _ _ d changes infos _ hold hrun hupd => by
    obtain ⟨sk, h0, rfl, hk⟩ := full_sharing hg hE hold
    obtain ⟨hz, -⟩ := ranKeyRefresh hE hrun
    obtain ⟨final, hf, hfk, -⟩ := C15_refresh_history (ε := Unit) K.refresh.g hg ids _ sk hk [changes] (by simpa using hz)
    refine ⟨sk, h0, rfl, sharesKey_congr hfk fun i hi => ?_⟩
    have := hf i hi
    simp only [List.map_cons, List.map_nil, updateAll, hupd i hi, Out.bind_ok] at this
    exact (Out.ok.inj this).symm
  | .converted _ t tshares _ _ dbg _ hold hS ht hconv => by
    obtain ⟨sk, h0, rfl, hk⟩ := threshold_sharing hg hE hold
    obtain ⟨⟨full, hfull, hfk⟩, -⟩ := C13_threshold_to_full K.refresh.g hg _ t tshares sk hk h0 _ hS ht dbg (by
      intro hd
      obtain ⟨-, sid, tail, hlen, -, hall⟩ := hk
      obtain ⟨i, hi⟩ := Finset.card_pos.1 (by omega : 0 < ids.card)
      have := hconv i hi
      unfold ThresholdKeyShare.toKeyShare at this
      obtain ⟨_, h1, -⟩ := Out.bind_eq_ok.1 this
      have := Out.assert_eq_ok.1 h1
      rw [hd, (hall i (hS hi)).2.1] at this
      simpa using this)
    exact ⟨sk, h0, rfl, sharesKey_congr hfk fun i hi => ok_inj (hfull i hi) (hconv i hi)⟩

private theorem threshold_sharing [CharP F K.order] (hg : K.refresh.g ≠ 0) (hE : HashesValid K.refresh.aux k) {ids : Finset I} {t : Nat}
    {shares : I → ThresholdKeyShare I F G} {vk : G} :
    HoldsThreshold K k ids t shares vk → ∃ sk : F, sk ≠ 0 ∧ vk = sk • K.refresh.g ∧ ThresholdSharing K.refresh.g ids t shares sk
  | .centralized _ _ sk draw m _ hc ht h0 hm hs => by
    obtain ⟨hok, herr⟩ := C13_centralized_threshold_sharing K.refresh.g ids hc t sk draw
    have htc : t ≤ ids.card := by
      by_contra h
      rw [herr (by omega)] at hm
      cases hm
    obtain ⟨m', sh, hm', -, hget, hk⟩ := hok ht htc
    cases ok_inj hm hm'
    exact ⟨sk, h0, rfl, thresholdSharing_congr hk fun i hi => Option.some.inj ((hget i hi).symm.trans (hs i hi))⟩
  | .converted _ fshares _ _ hc hold hconv => by
    obtain ⟨sk, h0, rfl, hk⟩ := full_sharing hg hE hold
    have hne : ids.Nonempty := Finset.nonempty_iff_ne_empty.2 fun he => h0 (by rw [← hk.sum, he, Finset.sum_empty])
    obtain ⟨tks, htks, hth⟩ := C14_full_to_threshold (ε := Unit) K.refresh.g ids hne hc fshares sk hk
    exact ⟨sk, h0, rfl, thresholdSharing_congr hth fun i hi => ok_inj (htks i hi) (hconv i hi)⟩
  | .reshared ids t shares _ S N n _ hold hS ht hn hnN hN hrun => by
    obtain ⟨sk, h0, rfl, hk⟩ := threshold_sharing hg hE hold
    obtain ⟨ot, draw, r, m, inbox, hst, hm, hin, hrun⟩ := hrun
    obtain ⟨r', hst', m', hm', -, hres⟩ := C39_honest_resharing K.order K.refresh.g ids S _ t _ shares sk hk hS ht hn hnN hN ot draw
    obtain ⟨new, hnew, hk'⟩ := hres inbox fun i hi => fromOthers_congr (hin i hi) fun j hj => by
      have := (hm' j hj).2 i hi
      rw [ok_inj (hst' j (Finset.mem_union_left _ hj)) (hst j (Finset.mem_union_left _ hj))] at this
      exact Option.some.inj (ok_inj (hm j hj i hi) this)
    refine ⟨sk, h0, rfl, thresholdSharing_congr hk' fun i hi => ?_⟩
    have := hnew i hi
    rw [ok_inj (hst' i (Finset.mem_union_right _ hi)) (hst i (Finset.mem_union_right _ hi))] at this
    exact Option.some.inj (ok_inj this (hrun i hi))
  | .derived _ _ shares vk path _ _ hold hder hvk => by
    obtain ⟨sk, h0, rfl, hk⟩ := threshold_sharing hg hE hold
    obtain ⟨i₀, hi₀⟩ := thresholdSharing_nonempty hk
    obtain ⟨tweaks, child, -, hch, hth, hvk', -, hv⟩ := C17_bip32_commutes K.refresh.g hg K.chainCode K.deriveTweak path ids t shares sk hk h0 i₀ hi₀
      ⟨_, hder i₀ hi₀⟩
    refine ⟨_, ?_, ok_inj hvk hvk', thresholdSharing_congr hth fun i hi => ok_inj (hch i hi) (hder i hi)⟩
    intro hz
    have := hv i₀ hi₀
    unfold ThresholdKeyShare.verifyingKey at this
    obtain ⟨p, -, hp⟩ := Out.bind_eq_ok.1 this
    rw [hz, zero_smul] at hp
    have := Out.ofOption_eq_ok.1 hp
    unfold toVerifyingKey at this
    split at this
    · cases this
    · rename_i hne; exact hne (Option.some.inj this)

end

/-- **C55.** After any history of centralized or distributed generation, refreshes, conversions, resharings and derivations, parties holding full key shares for a
verifying key hold an additive sharing of one non-zero secret with that verifying key: each sees the same public shares, which match the secret shares, and
computes this verifying key. -/
theorem C55_full_shares [CharP F K.order] (hg : K.refresh.g ≠ 0) (hE : HashesValid K.refresh.aux k) (ids : Finset I) (shares : I → KeyShare I F G) (vk : G)
    (h : HoldsFull K k ids shares vk) :
    ∃ sk : F, sk ≠ 0 ∧ vk = sk • K.refresh.g ∧ SharesKey K.refresh.g ids shares sk ∧ ∀ i ∈ ids, ((shares i).verifyingKey : Out Unit G) = .ok vk := by
  obtain ⟨sk, h0, rfl, hk⟩ := full_sharing hg hE h
  exact ⟨sk, h0, rfl, hk, fun i hi => hk.vk hg h0 hi⟩

/-- **C55.** The same for threshold shares: any history leaves the holders with a threshold sharing of one non-zero secret with that verifying key. -/
theorem C55_threshold_shares [CharP F K.order] (hg : K.refresh.g ≠ 0) (hE : HashesValid K.refresh.aux k) (ids : Finset I) (t : Nat)
    (shares : I → ThresholdKeyShare I F G) (vk : G) (h : HoldsThreshold K k ids t shares vk) :
    ∃ sk : F, sk ≠ 0 ∧ vk = sk • K.refresh.g ∧ ThresholdSharing K.refresh.g ids t shares sk ∧ ∀ i ∈ ids, (shares i).verifyingKey = .ok vk := by
  obtain ⟨sk, h0, rfl, hk⟩ := threshold_sharing hg hE h
  exact ⟨sk, h0, rfl, hk, fun i hi => hk.vk hg h0 hi⟩

/-- **C55.** After any history of generation, refresh and restriction to subsets, the parties hold auxiliary info that is consistent and usable for signing. -/
theorem C55_aux_info (hE : HashesValid K.refresh.aux k) (ids : Finset I) (infos : I → AuxInfo I PaillierKey PublicAux) (setup : I → RPSetup)
    (h : HoldsAux K k ids infos setup) : UsableAux K.refresh.aux.P ids infos setup := by
  induction h with
  | generated ids d infos hrun =>
    obtain ⟨sid, len, ctx, r3, m3, in1, in2, in3, hd, hfac, hlen, hst, h1, h2, hr3, hm3, h3, hrun⟩ := hrun
    obtain ⟨r3', m3', hr3', hm3', hres⟩ := C54_honest_aux_gen K.refresh.aux k hE K.auxHash ids sid d hd hfac len hlen ctx hst in1 in2 h1 h2
    obtain ⟨inf, hrun', -, -, hu⟩ := hres in3 fun i hi => fromOthers_congr_ne (h3 i hi) fun j hj hji => by
      have := hm3' j hj i hi hji
      rw [ok_inj (hr3' j hj) (hr3 j hj)] at this
      exact ok_inj (hm3 j hj i hi hji) this
    exact usableAux_congr hu fun i hi => ok_inj (hrun' i hi) (hrun i hi)
  | refreshed ids d changes infos hrun => exact (ranKeyRefresh hE hrun).2
  | subset ids infos setup S infos' _ hS hsub ih =>
    have hs := fun i (hi : i ∈ S) => (C18_subset_exact (infos i) S).2.2 _ (hsub i hi)
    have hsec : ∀ i ∈ S, (infos' i).secret = (infos i).secret := fun i hi => (hs i hi).2.1
    refine ⟨⟨fun i hi => (hs i hi).1.trans (ih.consistent.owner i (hS hi)), fun i hi => (hs i hi).2.2.1, fun i hi j hj => ?_, fun _ _ => rfl⟩,
      fun i hi => by rw [hsec i hi]; exact ih.primes i (hS hi), fun i hi => by rw [hsec i hi]; exact ih.secretKey i (hS hi), fun i hi => ih.rpOdd i (hS hi),
      fun i hi => ih.rpSize i (hS hi), fun i hi => ih.rpValid i (hS hi)⟩
    rw [((hs i hi).2.2.2 j hj).1, hsec j hj]
    exact ih.consistent.public_agree i (hS hi) j (hS hj)

/-- The messages of the others, in the order of the senders -/
private def inOrder {M : Type} (ids : Finset I) (i : I) (f : I → M) : List (I × M) := (bsetIter (ids.erase i)).map fun j => (j, f j)

private theorem inOrder_fromOthers {M : Type} (ids : Finset I) (i : I) (f : I → M) : FromOthers ids i f (inOrder ids i f) := fromOthers_iff.2 (List.Perm.refl _)

/-- **C55 (generation is possible).** Whatever the parties draw, unless the joint secret is zero, honest key generation succeeds. -/
theorem C55_can_generate (hg : K.refresh.g ≠ 0) (ids : Finset I) (hne : ids.Nonempty) (sid : Sid) (d : I → KeyInit.Draws F)
    (len : Nat) (hlen : ∀ i ∈ ids, (d i).rho.length = len) (ctx : I → KeyInit.Context I F G Sid)
    (hst : ∀ i ∈ ids, KeyInit.start K.refresh.g ids sid i (d i) = .ok (ctx i)) (h0 : ∑ i ∈ ids, (d i).x ≠ 0) :
    ∃ shares : I → KeyShare I F G, RanKeyInit K ids shares ∧ HoldsFull K k ids shares ((∑ i ∈ ids, (d i).x) • K.refresh.g) := by
  have h1 := fun i (_ : i ∈ ids) => inOrder_fromOthers ids i (fun j => KeyInit.msg1 K.initHash (ctx j))
  have h2 := fun i (_ : i ∈ ids) => inOrder_fromOthers ids i (fun j => KeyInit.msg2 (ctx j))
  obtain ⟨r3, hr3, hres⟩ := C36_honest_keygen K.initHash K.initSch K.refresh.g hg ids sid d len hlen ctx hst _ _ h1 h2
  have h3 := fun i (_ : i ∈ ids) => inOrder_fromOthers ids i (fun j => KeyInit.msg3 K.initSch (r3 j))
  obtain ⟨shares, hrun, hk⟩ := (hres _ h3).2 h0
  have hran : RanKeyInit K ids shares := ⟨sid, d, len, ctx, r3, _, _, _, hlen, hst, h1, h2, hr3, h3, hrun⟩
  obtain ⟨i, hi⟩ := hne
  exact ⟨shares, hran, .generated _ _ _ i hran hi (hk.vk hg h0 hi)⟩

/-- **C55 (refresh is possible).** From every state reached by some history, honest parties with valid draws can refresh: the protocol ends at all of them, every
holder can apply its change, and they hold shares for the same verifying key and new auxiliary info. -/
theorem C55_can_refresh [CharP F K.order] (hg : K.refresh.g ≠ 0) (hE : HashesValid K.refresh.aux k) (ids : Finset I) (shares : I → KeyShare I F G) (vk : G)
    (h : HoldsFull K k ids shares vk) (sid : Sid) (d : I → KeyRefresh.Draws I F) (hd : ∀ i ∈ ids, DrawsValid K.refresh.aux k (d i).aux)
    (hfac : ∀ i ∈ ids, ∀ j ∈ ids, i ≠ j →
      FacDrawsValid K.refresh.aux.P ((d i).aux.p * (d i).aux.q) ((d j).aux.rpP * (d j).aux.rpQ) ((d i).aux.facMasks j))
    (len : Nat) (hlen : ∀ i ∈ ids, (d i).aux.rid.length = len) (ctx : I → KeyRefresh.Context I F G Sid)
    (hst : ∀ i ∈ ids, KeyRefresh.start K.refresh ids sid i (d i) = .ok (ctx i)) :
    ∃ (changes : I → KeyShareChange I F G) (infos : I → AuxInfo I PaillierKey PublicAux) (shares' : I → KeyShare I F G),
      RanKeyRefresh K k ids d changes infos ∧ (∀ i ∈ ids, (shares i).update (changes i) = .ok (shares' i)) ∧ HoldsFull K k ids shares' vk ∧
      (∀ i ∈ ids, (infos i).secret.p = (d i).aux.p ∧ (infos i).secret.q = (d i).aux.q) ∧
      HoldsAux K k ids infos fun j =>
        ⟨_, RPParams.withSecret ((d j).aux.rpP * (d j).aux.rpQ) K.refresh.aux.P.modBits (d j).aux.lambda (d j).aux.tDraw⟩ := by
  obtain ⟨sk, h0, hvk, hk⟩ := full_sharing hg hE h
  have h1 := fun i (_ : i ∈ ids) => inOrder_fromOthers ids i (fun j => KeyRefresh.msg1 K.refreshHash (ctx j))
  have h2 := fun i (_ : i ∈ ids) => inOrder_fromOthers ids i (fun j => KeyRefresh.msg2 (ctx j))
  obtain ⟨r3, m3, hr3, hm3, hres⟩ := C38_honest_refresh K.refresh k hE K.refreshHash ids sid d hd hfac len hlen ctx hst _ _ h1 h2
  have h3 := fun i (_ : i ∈ ids) => inOrder_fromOthers ids i (fun j => m3 j i)
  obtain ⟨changes, infos, hrun, hz, -, hpq, -⟩ := hres _ h3
  have hran : RanKeyRefresh K k ids d changes infos := ⟨sid, len, ctx, r3, m3, _, _, _, hd, hfac, hlen, hst, h1, h2, hr3, hm3, h3, hrun⟩
  obtain ⟨final, hf, -, -⟩ := C15_refresh_history (ε := Unit) K.refresh.g hg ids shares sk hk [changes] (by simpa using hz)
  have hupd : ∀ i ∈ ids, (shares i).update (changes i) = .ok (final i) := by
    intro i hi
    have := hf i hi
    simp only [List.map_cons, List.map_nil, updateAll] at this
    obtain ⟨_, h, h'⟩ := Out.bind_eq_ok.1 this
    cases h'
    exact h
  exact ⟨changes, infos, final, hran, hupd, .refreshed _ _ _ _ _ _ _ h hran hupd, hpq, .refreshed _ _ _ _ hran⟩

/-- **C55 (conversions are possible).** From every state reached by some history, the holders of full shares can convert them to threshold shares, and any
`t` holders of threshold shares can convert these to full shares (in a release build, also more than `t`). -/
theorem C55_can_convert [CharP F K.order] (hg : K.refresh.g ≠ 0) (hE : HashesValid K.refresh.aux k) (ids : Finset I) (vk : G) :
    (∀ shares : I → KeyShare I F G, HoldsFull K k ids shares vk → ids.card < K.order →
      ∃ tks : I → ThresholdKeyShare I F G, (∀ i ∈ ids, (ThresholdKeyShare.fromKeyShare (shares i) : Out Unit _) = .ok (tks i)) ∧
        HoldsThreshold K k ids ids.card tks vk) ∧
    (∀ (t : Nat) (tks : I → ThresholdKeyShare I F G), HoldsThreshold K k ids t tks vk → ∀ S ⊆ ids, t ≤ S.card →
      ∀ dbg : Bool, (dbg = true → S.card = t) →
        ∃ full : I → KeyShare I F G, (∀ i ∈ S, (tks i).toKeyShare dbg S = .ok (full i)) ∧ HoldsFull K k S full vk) := by
  constructor
  · intro shares h hc
    obtain ⟨sk, h0, hvk, hk⟩ := full_sharing hg hE h
    have hne : ids.Nonempty := Finset.nonempty_iff_ne_empty.2 fun he => h0 (by rw [← hk.sum, he, Finset.sum_empty])
    obtain ⟨tks, htks, -⟩ := C14_full_to_threshold (ε := Unit) K.refresh.g ids hne hc shares sk hk
    exact ⟨tks, htks, .converted _ _ _ _ hc h htks⟩
  · intro t tks h S hS ht dbg hdbg
    obtain ⟨sk, h0, hvk, hk⟩ := threshold_sharing hg hE h
    obtain ⟨⟨full, hfull, -⟩, -⟩ := C13_threshold_to_full K.refresh.g hg ids t tks sk hk h0 S hS ht dbg hdbg
    exact ⟨full, hfull, .converted _ _ _ _ _ _ _ h hS ht hfull⟩

/-- **C55 (resharing is possible).** From every state reached by some history, any `t` or more holders can hand the key over to any new set of holders with any
new threshold from 2 to their number, whatever they draw. -/
theorem C55_can_reshare [CharP F K.order] (hg : K.refresh.g ≠ 0) (hE : HashesValid K.refresh.aux k) (ids : Finset I) (t : Nat)
    (shares : I → ThresholdKeyShare I F G) (vk : G) (h : HoldsThreshold K k ids t shares vk) (S N : Finset I) (n : Nat) (hS : S ⊆ ids) (ht : t ≤ S.card)
    (hn : 2 ≤ n) (hnN : n ≤ N.card) (hN : N.card < K.order) (draw : I → Nat → F) :
    ∃ new : I → ThresholdKeyShare I F G, RanResharing K.refresh.g vk S N n shares new ∧ HoldsThreshold K k N n new vk := by
  obtain ⟨sk, h0, rfl, hk⟩ := threshold_sharing hg hE h
  obtain ⟨r, hst, m, hm, -, hres⟩ := C39_honest_resharing K.order K.refresh.g ids S N t n shares sk hk hS ht hn hnN hN t draw
  have h1 := fun i (_ : i ∈ N) => inOrder_fromOthers S i (fun j => m j i)
  obtain ⟨new, hrun, -⟩ := hres _ h1
  have hran : RanResharing K.refresh.g (sk • K.refresh.g) S N n shares new := ⟨t, draw, r, m, _, hst, fun j hj => (hm j hj).2, h1, hrun⟩
  exact ⟨new, hran, .reshared _ _ _ _ _ _ _ _ h hS ht hn hnN hN hran⟩

/-- **C55 (derivation is possible).** From every state reached by some history, if one holder can derive a child share for a path, then so can all of them, the
child verifying key can be derived from the verifying key, and the child shares belong to it. -/
theorem C55_can_derive [CharP F K.order] (hg : K.refresh.g ≠ 0) (hE : HashesValid K.refresh.aux k) (ids : Finset I) (t : Nat)
    (shares : I → ThresholdKeyShare I F G) (vk : G) (h : HoldsThreshold K k ids t shares vk) (path : List Nat) (i₀ : I) (hi₀ : i₀ ∈ ids)
    (hok : ∃ r, (shares i₀).deriveBip32 K.refresh.g K.chainCode K.deriveTweak path = .ok r) :
    ∃ (child : I → ThresholdKeyShare I F G) (vk' : G), (∀ i ∈ ids, (shares i).deriveBip32 K.refresh.g K.chainCode K.deriveTweak path = .ok (child i)) ∧
      deriveVerifyingKeyBip32 K.refresh.g K.chainCode K.deriveTweak vk path = .ok vk' ∧ HoldsThreshold K k ids t child vk' := by
  obtain ⟨sk, h0, rfl, hk⟩ := threshold_sharing hg hE h
  obtain ⟨tweaks, child, -, hch, -, hvk', -⟩ := C17_bip32_commutes K.refresh.g hg K.chainCode K.deriveTweak path ids t shares sk hk h0 i₀ hi₀ hok
  exact ⟨child, _, hch, hvk', .derived _ _ _ _ _ _ _ h hch hvk'⟩

end Key

section Sign

open Signing

variable {q : Nat} [Fact q.Prime] {I G Sid V W CC Ep : Type} [LinearOrder I] [LinearOrder (ZMod q)] [AddCommGroup G] [Module (ZMod q) G] [DecidableEq G]
  [DecidableEq V] [DecidableEq W]
variable {K : KeyEnv I (ZMod q) G Sid V W CC} {k : Nat} (E : Env q I Ep G) (hE : SigningSetting E) (hA : HashesValid K.refresh.aux k)
  (horder : K.order = q) (hgen : K.refresh.g = E.C.g) (hparams : K.refresh.aux.P = E.P)

include hE hA horder hgen hparams in
/-- **C55 (the key keeps signing).** After any history of operations that leaves the parties `ids` with full key shares for `vk`, and any history that leaves
them with auxiliary info, they can sign any message: with honest draws, and messages arriving in any order, all of them end with the same signature, which is a
normalized, valid ECDSA signature of the message under `vk`, and recovers `vk`. The exceptions are those of ECDSA itself. -/
theorem C55_sign (ids : Finset I) (shares : I → KeyShare I (ZMod q) G) (vk : G) (hshares : HoldsFull K k ids shares vk)
    (infos : I → AuxInfo I PaillierKey PublicAux) (setup : I → RPSetup) (haux : HoldsAux K k ids infos setup)
    (epidOf : BMap I G → BMap I PublicAux → Ep) (message : ZMod q) (d : I → Draws q I)
    (hd : SigningDrawsValid E.P ids (fun i => (infos i).secret.modulus) (fun i => (setup i).modulus) d)
    (hk : ∑ i ∈ ids, (d i).k ≠ 0) (hgamma : ∑ i ∈ ids, (d i).gamma ≠ 0) (hr : (E.C.x ((∑ i ∈ ids, (d i).gamma) • E.C.g) : ZMod q) ≠ 0)
    (hs : message • E.C.g + (E.C.x ((∑ i ∈ ids, (d i).gamma) • E.C.g) : ZMod q) • vk ≠ 0) :
    ∃ (r1 : I → Round1 q I Ep G) (sig : RecoverableSignature q) (m1 : I → I → Msg1 q G) (r2 : I → Round2 q I Ep G) (r3 : I → Round3 q I Ep G),
      (∀ i ∈ ids, new (shares i) (infos i) = .ok () ∧ start E epidOf message (shares i) (infos i) i (d i) = .ok (r1 i)) ∧
      EcdsaValid E.C vk message sig.r sig.s ∧ LowS sig.s ∧ recover E.C message sig.r sig.s sig.recoveryId = some vk ∧
      (∀ i ∈ ids, ∀ j ∈ ids, i ≠ j → msg1 E (r1 i) j = .ok (m1 i j)) ∧
      ∀ in1 : I → List (I × Msg1 q G), (∀ i ∈ ids, FromOthers ids i (fun j => m1 j i) (in1 i)) →
        (∀ i ∈ ids, toRound2 E (r1 i) (in1 i) = .ok (r2 i)) ∧
        ∀ in2 : I → List (I × Msg2 q I G), (∀ i ∈ ids, FromOthers ids i (fun j => msg2 (r2 j)) (in2 i)) →
          (∀ i ∈ ids, toRound3 E (r1 i) (in1 i) (in2 i) = .ok (r3 i)) ∧
          ∀ in3 : I → List (I × Msg3 q G), (∀ i ∈ ids, FromOthers ids i (fun j => (r3 j).msg) (in3 i)) →
            ∃ r4 : I → Round4 q I Ep G, (∀ i ∈ ids, toRound4 E (r1 i) (in1 i) (in2 i) (in3 i) = .ok (.round4 (r4 i))) ∧
              ∀ (in4 : I → List (I × ZMod q)) (inErr : I → List (I × MsgErr I G)), (∀ i ∈ ids, FromOthers ids i (fun j => (r4 j).sigma) (in4 i)) →
                ∀ i ∈ ids, run E (r1 i) (in1 i) (in2 i) (in3 i) (in4 i) (inErr i) = .ok sig := by
  have hg : K.refresh.g ≠ 0 := by
    rw [hgen]
    intro h
    rw [h, smul_zero, hE.laws.x_zero, Nat.cast_zero] at hr
    exact hr rfl
  have : CharP (ZMod q) K.order := by rw [horder]; infer_instance
  obtain ⟨sk, h0, rfl, hsh⟩ := full_sharing hg hA hshares
  have hu := C55_aux_info hA ids infos setup haux
  rw [hparams] at hu
  rw [hgen] at hsh hs hg ⊢
  have hst := C41_honest_start E hE epidOf message sk ids shares hsh infos setup hu d
  obtain ⟨i₀, hi₀⟩ : ids.Nonempty := Finset.nonempty_iff_ne_empty.2 fun he => hk (by rw [he, Finset.sum_empty])
  have hex : ∀ i, ∃ r : Round1 q I Ep G, i ∈ ids → new (shares i) (infos i) = .ok () ∧ start E epidOf message (shares i) (infos i) i (d i) = .ok r := by
    intro i
    by_cases hi : i ∈ ids
    · obtain ⟨r, h⟩ := hst i hi; exact ⟨r, fun _ => h⟩
    · obtain ⟨r, -⟩ := hst i₀ hi₀; exact ⟨r, fun h => absurd h hi⟩
  choose r1 hr1 using hex
  obtain ⟨sig, m1, r2, r3, hv, hl, hrec, -, hrest⟩ := C41_honest_signature E hE epidOf message sk ids shares hsh infos setup hu d hd r1
    (fun i hi => (hr1 i hi).2) hk hgamma hr (by
      intro h
      apply hs
      rw [smul_smul, ← add_smul, h, zero_smul]) (smul_ne_zero h0 hg)
  exact ⟨r1, sig, m1, r2, r3, hr1, hv, hl, hrec, hrest⟩

include hE hA horder in
/-- **C55 (whatever the others do).** After any history of operations that leaves the parties `ids` with full key shares for `vk`: if one of them ends a signing
session with a signature, then it is valid under `vk`, whatever the other parties sent. -/
theorem C55_sign_adversarial (hg : K.refresh.g ≠ 0) (ids : Finset I) (shares : I → KeyShare I (ZMod q) G) (vk : G) (hshares : HoldsFull K k ids shares vk) (i : I) (hi : i ∈ ids)
    (epidOf : BMap I G → BMap I PublicAux → Ep) (message : ZMod q) (auxInfo : AuxInfo I PaillierKey PublicAux) (d : Draws q I) (r : Round1 q I Ep G)
    (hst : start E epidOf message (shares i) auxInfo i d = .ok r)
    (in1 : List (I × Msg1 q G)) (in2 : List (I × Msg2 q I G)) (in3 : List (I × Msg3 q G)) (in4 : List (I × ZMod q)) (inErr : List (I × MsgErr I G))
    (sig : RecoverableSignature q) (h : run E r in1 in2 in3 in4 inErr = .ok sig) :
    EcdsaValid E.C vk message sig.r sig.s ∧ LowS sig.s ∧ recover E.C message sig.r sig.s sig.recoveryId = some vk := by
  have : CharP (ZMod q) K.order := by rw [horder]; infer_instance
  obtain ⟨sk, h0, rfl, hsh⟩ := full_sharing hg hA hshares
  have := C42_output_valid E hE.laws epidOf message (shares i) auxInfo i d r hst in1 in2 in3 in4 inErr sig h
  rwa [show (shares i).pub.values.sum = sk • K.refresh.g from hsh.vkPoint hi] at this

end Sign

/-! ### A concrete history

At the crate's test parameters, with 128-bit primes; the curve is the additive group of `ZMod 11`. -/

section Concrete

open Signing

attribute [local instance] Toy.fact11 Toy.order11

private def toyKeys : KeyEnv Nat (ZMod 11) (ZMod 11) Nat (Nat × Nat × KeyInit.PublicData (ZMod 11)) (Nat × Nat × KeyRefresh.Hashed Nat (ZMod 11)) Nat where
  order := 11
  refresh := ⟨Toy.auxEnv, 1, fun h => h.commitment + 2 * h.capX + 3, fun _ _ i p => p + i⟩
  initHash := fun s i h => (s, i, h)
  initSch := fun h => h.commitment + 3
  auxHash := fun s i _ => (s, i, ⟨0, 0, [], []⟩)
  refreshHash := fun s i h => (s, i, h)
  chainCode := fun _ => 0
  deriveTweak := fun p c i => .ok (p + 1, c + i)

private def toyRefreshDraws (i : Nat) : KeyRefresh.Draws Nat (ZMod 11) :=
  ⟨Toy.auxDraws i, fun n => (n + i : ℕ), fun j => (3 * i + j : ℕ), fun j => (i + 5 * j : ℕ)⟩

private instance : CharP (ZMod 11) toyKeys.order := inferInstanceAs (CharP (ZMod 11) 11)

/-- The key 6 is dealt to three parties, converted to a three-of-three key, reshared to a three-of-four key, converted to full shares for the first three
holders, and refreshed. The three parties then sign the message 5 with these shares and the auxiliary info of the refresh: they all end with the same signature,
and it is valid under the verifying key 6. -/
example : ∃ (shares : Nat → KeyShare Nat (ZMod 11) (ZMod 11)) (infos : Nat → AuxInfo Nat PaillierKey PublicAux) (setup : Nat → RPSetup)
    (r1 : Nat → Round1 11 Nat Nat (ZMod 11)) (sig : RecoverableSignature 11)
    (in1 : Nat → List (Nat × Msg1 11 (ZMod 11))) (in2 : Nat → List (Nat × Msg2 11 Nat (ZMod 11))) (in3 : Nat → List (Nat × Msg3 11 (ZMod 11)))
    (in4 : Nat → List (Nat × ZMod 11)),
    HoldsFull toyKeys 2 Toy.parties shares 6 ∧ HoldsAux toyKeys 2 Toy.parties infos setup ∧
    (∀ i ∈ Toy.parties, start Toy.signEnv (fun _ _ => 7) (5 : ZMod 11) (shares i) (infos i) i (Toy.signDraws i) = .ok (r1 i)) ∧
    (∀ i ∈ Toy.parties, run Toy.signEnv (r1 i) (in1 i) (in2 i) (in3 i) (in4 i) [] = .ok sig) ∧ EcdsaValid Props.toyCurve (6 : ZMod 11) (5 : ZMod 11) sig.r sig.s := by
  have hg : toyKeys.refresh.g ≠ 0 := by decide
  have hE : HashesValid toyKeys.refresh.aux 2 := Toy.auxEnv_valid
  -- dealt
  obtain ⟨m, sh, hm, -, hget, -, -⟩ := C12_centralized_shares_consistent (ε := Unit) toyKeys.refresh.g hg Toy.parties (by decide) (6 : ZMod 11) (fun n => (n : ZMod 11))
  have h1 : HoldsFull toyKeys 2 Toy.parties sh 6 := by
    have := HoldsFull.centralized (K := toyKeys) (k := 2) Toy.parties 6 _ m sh (by decide) (by decide) hm hget
    rwa [show ((6 : ZMod 11) • toyKeys.refresh.g : ZMod 11) = 6 by decide] at this
  -- converted
  obtain ⟨tks, -, h2⟩ := (C55_can_convert hg hE Toy.parties 6).1 sh h1 (by decide)
  -- reshared
  obtain ⟨new, -, h3⟩ := C55_can_reshare hg hE Toy.parties _ tks 6 h2 Toy.parties {1, 2, 3, 4} 3 (Finset.Subset.refl _) le_rfl (by decide) (by decide) (by decide)
    (fun i n => (i * 5 + n : ℕ))
  -- converted back
  obtain ⟨full, -, h4⟩ := (C55_can_convert hg hE ({1, 2, 3, 4} : Finset Nat) 6).2 3 new h3 Toy.parties (by decide) (by decide) true (fun _ => by decide)
  -- refreshed
  have hst : ∀ i, ∃ c, i ∈ Toy.parties → KeyRefresh.start toyKeys.refresh Toy.parties 7 i (toyRefreshDraws i) = .ok c := by
    have key : ∀ i ∈ Toy.parties, ∃ c, KeyRefresh.start toyKeys.refresh Toy.parties 7 i (toyRefreshDraws i) = .ok c := fun i hi =>
      (C38_start toyKeys.refresh 2 Toy.parties 7 i (toyRefreshDraws i) (Toy.auxDraws_valid i (by simp [Toy.parties] at hi; omega))).1 hi
    intro i
    by_cases hi : i ∈ Toy.parties
    · obtain ⟨c, h⟩ := key i hi; exact ⟨c, fun _ => h⟩
    · obtain ⟨c, -⟩ := key 1 (by decide); exact ⟨c, fun h => absurd h hi⟩
  choose ctx hctx using hst
  obtain ⟨changes, infos, shares, -, -, h5, hpq, h6⟩ := C55_can_refresh hg hE Toy.parties full 6 h4 7 toyRefreshDraws
    (fun i hi => Toy.auxDraws_valid i (by simp [Toy.parties] at hi; omega)) (fun i _ j _ _ => Toy.facDraws_valid i j) 3 (fun i _ => rfl) ctx hctx
  -- signing
  have hd : SigningDrawsValid Toy.signEnv.P Toy.parties (fun i => (infos i).secret.modulus) (fun i => (toyRefreshDraws i).aux.rpP * (toyRefreshDraws i).aux.rpQ)
      Toy.signDraws := by
    have hmod : ∀ i ∈ Toy.parties, (infos i).secret.modulus = Toy.primeP * Toy.primeQ := by
      intro i hi
      unfold PaillierKey.modulus
      rw [(hpq i hi).1, (hpq i hi).2]; rfl
    have := Toy.signDraws_valid
    refine ⟨fun i hi => ?_, fun i hi => ?_, fun i hi j hj hne => ?_, fun i hi j hj hne => ?_, fun i hi j hj hne => ?_, fun i hi j hj hne => ?_⟩ <;>
      simp only [hmod i hi]
    · exact this.nu i hi
    · exact this.rho i hi
    · exact this.enc0 i hi j hj hne
    · exact this.enc1 i hi j hj hne
    · rw [hmod j hj]; exact this.mta i hi j hj hne
    · rw [hmod j hj]; exact this.hatMta i hi j hj hne
  obtain ⟨r1, sig, m1, r2, r3, hr1, hv, -, -, -, hrest⟩ := C55_sign Toy.signEnv Toy.signEnv_setting hE rfl rfl rfl Toy.parties shares 6 h5 infos _ h6 (fun _ _ => 7) 5
    Toy.signDraws hd (by decide) (by decide) (by decide) (by decide)
  obtain ⟨-, h⟩ := hrest (fun i => inOrder Toy.parties i fun j => m1 j i) fun i _ => inOrder_fromOthers _ _ _
  obtain ⟨-, h⟩ := h (fun i => inOrder Toy.parties i fun j => msg2 (r2 j)) fun i _ => inOrder_fromOthers _ _ _
  obtain ⟨r4, -, h⟩ := h (fun i => inOrder Toy.parties i fun j => (r3 j).msg) fun i _ => inOrder_fromOthers _ _ _
  exact ⟨shares, infos, _, r1, sig, _, _, _, _, h5, h6, fun i hi => (hr1 i hi).2,
    h (fun i => inOrder Toy.parties i fun j => (r4 j).sigma) (fun _ => []) (fun i _ => inOrder_fromOthers _ _ _), hv⟩

end Concrete

end Synedrion.Props
