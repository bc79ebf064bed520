import Verif.Spec.AuxWire
import Verif.Lemmas.LifeWire

/-!
# Lemmas: the auxiliary info that comes out of sessions over serialized messages
-/

set_option linter.unusedSectionVars false

namespace Synedrion

open Spec Props

variable {I G Sid V CC : Type} {q : Nat} [Fact q.Prime] [LinearOrder (ZMod q)] [LinearOrder I] [AddCommGroup G] [Module (ZMod q) G] [DecidableEq G] [DecidableEq V]
variable {W : WireFormat G V} {K : KeyEnv I (ZMod q) G Sid V V CC}

theorem AuxGen.run_secret {E : AuxEnv I Sid} {hashV : Sid → I → Hashed → V} {c : Context I Sid} (hme : c.myId ∉ c.otherIds) {in1 : List (I × V)} {in2 : List (I × Msg2)} {in3 : List (I × Msg3)}
    {info : AuxInfo I PaillierKey PublicAux} (h : run E hashV c in1 in2 in3 = .ok info) : info.secret = c.key := by
  unfold run at h
  simp only [Out.bind_eq_ok] at h
  obtain ⟨r3, ht, _, _, _, _, hfin⟩ := h
  cases hfin
  rw [← (toRound3_ok hme ht).1]
  rfl

theorem KeyRefresh.run_secret {E : KeyRefresh.Env I Sid (ZMod q) G} {hashV : Sid → I → KeyRefresh.Hashed I G → V} {c : KeyRefresh.Context I (ZMod q) G Sid} {ids : Finset I} {sid : Sid} {me : I}
    {d : KeyRefresh.Draws I (ZMod q)} (hc : KeyRefresh.start E ids sid me d = .ok c) {in1 : List (I × V)} {in2 : List (I × KeyRefresh.Msg2 I G)} {in3 : List (I × KeyRefresh.Msg3 I (ZMod q))}
    {res : KeyShareChange I (ZMod q) G × AuxInfo I PaillierKey PublicAux} (h : KeyRefresh.run E hashV c in1 in2 in3 = .ok res) : res.2.secret = c.key := by
  obtain ⟨hme, _, sk, x, hsk, hx0, rfl⟩ := KeyRefresh.start_ok hc
  unfold KeyRefresh.run at h
  simp only [Out.bind_eq_ok, finalizeResult_eq_ok] at h
  obtain ⟨r3, ht, _, hs, xs, h3, hfin⟩ := h
  obtain ⟨rid, psiP, pl, rfl, -⟩ := KeyRefresh.toRound3_ok hme ht
  obtain ⟨_, _, hfin⟩ := Out.bind_eq_ok.1 hfin
  obtain ⟨_, _, hfin⟩ := Out.bind_eq_ok.1 hfin
  cases Out.ok.inj hfin
  rfl

private theorem odd_lt {n k : Nat} (ho : n % 2 = 1) (hk : k ≠ 0) (h : n ≤ 2 ^ k) : n < 2 ^ k := by
  refine lt_of_le_of_ne h fun e => ?_
  have : 2 ∣ 2 ^ k := dvd_pow_self 2 hk
  omega

private theorem new_odd {ε : Type} {p q : Nat} {sk : SecretKey p q} (h : (SecretKey.new p q : Out ε _) = .ok sk) : p * q % 2 = 1 := by
  unfold SecretKey.new at h
  split at h
  · cases h
  · obtain ⟨_, h3, _⟩ := Out.bind_eq_ok.1 h
    by_contra hn
    unfold publicModulusNew at h3
    rw [if_neg hn] at h3
    cases h3

private theorem sound_own {P : Params} (hu : P.uint ≠ 0) {d : AuxDraws I} (hd : AuxDrawsFit P d) (hodd : d.p * d.q % 2 = 1) (hrp : d.rpP * d.rpQ % 2 = 1) (r : RPParams (d.rpP * d.rpQ)) :
    AuxSound P ⟨d.p * d.q, r.toWire⟩ := by
  have : NeZero (d.rpP * d.rpQ) := ⟨by intro h0; rw [h0] at hrp; cases hrp⟩
  exact ⟨hodd, odd_lt hodd hu hd.key, hrp, odd_lt hrp hu hd.rp, ZMod.val_lt _, ZMod.val_lt _⟩

private theorem sound_other {P : Params} {pk N : Nat} (h1 : pk % 2 = 1) (h2 : pk < 2 ^ P.uint) (h3 : N % 2 = 1) (h4 : N < 2 ^ P.uint) (r : RPParams N) : AuxSound P ⟨pk, r.toWire⟩ := by
  have : NeZero N := ⟨by intro h0; rw [h0] at h3; cases h3⟩
  exact ⟨h1, h2, h3, h4, ZMod.val_lt _, ZMod.val_lt _⟩

theorem Spec.AuxGeneratedOver.view (hF : LifeFormat K W) (hu : W.P.uint ≠ 0) (hinj : ∀ s i h h', K.auxHash s i h = K.auxHash s i h' → h = h') {kept : Set I} {ids : Finset I}
    {infos : I → AuxInfo I PaillierKey PublicAux} (h : AuxGeneratedOver W K kept ids infos) : AuxView W.P kept ids infos := by
  obtain ⟨honest, sid, d, c, panics, n, hsub, hd, hc, hr, he, hf⟩ := h
  rw [hF.params] at hu ⊢
  have hd' : ∀ i ∈ honest, AuxDrawsFit K.refresh.aux.P (d i) := fun i hi => (hd i hi).1
  obtain ⟨n', hn', hs⟩ := C91_aux_gen hF.format K.refresh.aux hF.params hF.hashes K.auxHash panics honest ids sid d hd' c hc n hr
  have hh := AuxGen.history hn'.reachable
  have key := fun i (hi : i ∈ kept) => C54_finishing_party K.refresh.aux K.auxHash ids sid i (d i) _ (hc i (hsub hi)) _ _ _ (infos i) (hh.finished i (hsub hi) _ (SameCourse.finished hs (hf i hi)))
  have hsec : ∀ i ∈ kept, ∃ sk, (SecretKey.new (d i).p (d i).q : Out Unit _) = .ok sk ∧ (infos i).secret = ⟨(d i).p, (d i).q, sk⟩ ∧ (d i).rpP * (d i).rpQ % 2 = 1 ∧ i ∈ ids := by
    intro i hi
    have hrun := hh.finished i (hsub hi) _ (SameCourse.finished hs (hf i hi))
    obtain ⟨hmem, hodd, sk, hsk, hci⟩ := AuxGen.start_ok (hc i (hsub hi))
    have := AuxGen.run_secret (by rw [hci]; simp) hrun
    rw [hci] at this
    exact ⟨sk, Out.eq_ok_of_cast (SecretKey.new_cast _ _) hsk, this, hodd, hmem⟩
  refine ⟨fun i hi => (hsec i hi).choose_spec.2.2.2, fun i hi => (key i hi).1, fun i hi => (key i hi).2.2.2.1, fun i hi j hj => ?_, fun i hi j x hx => ?_, fun i hi => ?_, fun i hi => ?_, fun i hi => ?_⟩
  · by_cases hij : i = j
    · rw [hij]
    · exact (C91_aux_gen_agreement hF.format K.refresh.aux hF.params hF.hashes K.auxHash hinj panics honest ids sid d hd' c hc n hr he i j (hsub hi) (hsub hj) hij _ _ (hf i hi) (hf j hj)).1
  · obtain ⟨-, -, -, hk, hown, rid, -, hoth⟩ := key i hi
    obtain ⟨sk, hsk, -, hodd, -⟩ := hsec i hi
    by_cases hij : j = i
    · rw [hij, hown] at hx
      rw [← Option.some.inj hx]
      exact sound_own hu (hd' i (hsub hi)) (new_odd hsk) hodd _
    · have hj : j ∈ ids := by rw [← hk, BMap.mem_keySet, BMap.mem_keys_iff]; exact ⟨_, hx⟩
      obtain ⟨v, m, m3, rpj, -, hm, -, -, -, -, hp, h1, -, h3, -⟩ := hoth j hj hij
      rw [hp] at hx
      rw [← Option.some.inj hx]
      obtain ⟨s, got, hpast, -, hgot⟩ := hh.past2 i (hsub hi) _ hm
      have hfit := (hn'.seen i).1 _ hpast _ hgot
      exact sound_other h1 (hfit 2 .normal _ rfl).1 h3 (hfit 2 .echo _ rfl).1.1 rpj
  · obtain ⟨-, hp, hq, -, hown, -⟩ := key i hi
    exact ⟨_, hown, by rw [hp, hq]⟩
  · obtain ⟨sk, hsk, e, -⟩ := hsec i hi
    rw [e]
    exact hsk
  · obtain ⟨-, hp, hq, -⟩ := key i hi
    rw [hp, hq]
    exact (hd i (hsub hi)).2

theorem Spec.AuxRefreshedOver.view (hF : LifeFormat K W) (hu : W.P.uint ≠ 0) (hinj : ∀ s i h h', K.refreshHash s i h = K.refreshHash s i h' → h = h') {kept : Set I} {ids : Finset I}
    {infos : I → AuxInfo I PaillierKey PublicAux} (h : AuxRefreshedOver W K kept ids infos) : AuxView W.P kept ids infos := by
  obtain ⟨honest, sid, d, c, changes, panics, n, hsub, hd, hc, hr, he, hf⟩ := h
  rw [hF.params] at hu ⊢
  have hd' : ∀ i ∈ honest, AuxDrawsFit K.refresh.aux.P (d i).aux := fun i hi => (hd i hi).1
  obtain ⟨n', hn', hs⟩ := C91_key_refresh hF.format K.refresh hF.params hF.hashes K.refreshHash panics honest ids sid d hd' c hc n hr
  have hh := KeyRefresh.history hn'.reachable
  have key := fun i (hi : i ∈ kept) => C38_finishing_party K.refresh K.refreshHash ids sid i (d i) _ (hc i (hsub hi)) _ _ _ (changes i) (infos i)
    (hh.finished i (hsub hi) _ (SameCourse.finished hs (hf i hi)))
  have hsec : ∀ i ∈ kept, ∃ sk, (SecretKey.new (d i).aux.p (d i).aux.q : Out Unit _) = .ok sk ∧ (infos i).secret = ⟨(d i).aux.p, (d i).aux.q, sk⟩ ∧ (d i).aux.rpP * (d i).aux.rpQ % 2 = 1 ∧ i ∈ ids := by
    intro i hi
    have hrun := hh.finished i (hsub hi) _ (SameCourse.finished hs (hf i hi))
    obtain ⟨hmem, hodd, sk, x, hsk, -, hci⟩ := KeyRefresh.start_ok (hc i (hsub hi))
    have := KeyRefresh.run_secret (hc i (hsub hi)) hrun
    rw [hci] at this
    exact ⟨sk, Out.eq_ok_of_cast (SecretKey.new_cast _ _) hsk, this, hodd, hmem⟩
  refine ⟨fun i hi => (hsec i hi).choose_spec.2.2.2, fun i hi => (key i hi).2.2.2.2.1, fun i hi => (key i hi).2.2.2.2.2.2.2.1, fun i hi j hj => ?_, fun i hi j x hx => ?_, fun i hi => ?_, fun i hi => ?_, fun i hi => ?_⟩
  · by_cases hij : i = j
    · rw [hij]
    · exact (C91_key_refresh_agreement hF.format K.refresh hF.params hF.hashes K.refreshHash hinj panics honest ids sid d hd' c hc n hr he i j (hsub hi) (hsub hj) hij _ _ _ _ (hf i hi) (hf j hj)).2.1
  · obtain ⟨-, -, -, -, -, -, -, hk, hown, rid, capX, -, -, -, hoth⟩ := key i hi
    obtain ⟨sk, hsk, -, hodd, -⟩ := hsec i hi
    by_cases hij : j = i
    · rw [hij, hown] at hx
      rw [← Option.some.inj hx]
      exact sound_own hu (hd' i (hsub hi)) (new_odd hsk) hodd _
    · have hj : j ∈ ids := by rw [← hk, BMap.mem_keySet, BMap.mem_keys_iff]; exact ⟨_, hx⟩
      obtain ⟨m, m3, rpj, hm, -, -, -, -, -, -, hp, h1, -, h3, -⟩ := hoth j hj hij
      rw [hp] at hx
      rw [← Option.some.inj hx]
      obtain ⟨s, got, hpast, -, hgot⟩ := hh.past2 i (hsub hi) _ hm
      have hfit := (hn'.seen i).1 _ hpast _ hgot
      exact sound_other h1 (hfit 2 .normal _ rfl).1 h3 (hfit 2 .echo _ rfl).1.1 rpj
  · obtain ⟨-, -, -, -, -, hp, hq, -, hown, -⟩ := key i hi
    exact ⟨_, hown, by rw [hp, hq]⟩
  · obtain ⟨sk, hsk, e, -⟩ := hsec i hi
    rw [e]
    exact hsk
  · obtain ⟨-, -, -, -, -, hp, hq, -⟩ := key i hi
    rw [hp, hq]
    exact (hd i (hsub hi)).2

/-- What is read back is what was stored. -/
theorem Spec.AuxView.restored {P : Params} {h n : Nat} (hh : P.half ≤ 8 * h) (hn : P.uint ≤ 8 * n) {honest : Set I} {ids : Finset I} {infos : I → AuxInfo I PaillierKey PublicAux}
    (hv : AuxView P honest ids infos) {i : I} (hi : i ∈ honest) : ∃ b, ((infos i).store h n).load h n = some b ∧ (b.expand : Out Unit _) = .ok (infos i) := by
  have e : ∀ m : Nat, 256 ^ m = 2 ^ (8 * m) := fun m => by rw [show 256 = 2 ^ 8 by norm_num, ← Nat.pow_mul]
  have hle : 2 ^ P.uint ≤ 256 ^ n := by rw [e]; exact Nat.pow_le_pow_right (by norm_num) hn
  have hle' : 2 ^ P.half ≤ 256 ^ h := by rw [e]; exact Nat.pow_le_pow_right (by norm_num) hh
  refine C77_stored_aux_info h n _ ⟨(hv.primes i hi).1.trans_le hle', (hv.primes i hi).2.trans_le hle', fun j x hx => ?_⟩ (hv.secret i hi)
  have hx := hv.sound i hi j x hx
  exact ⟨hx.pkHigh.trans_le hle, hx.rpHigh.trans_le hle, (hx.randomizer.trans hx.rpHigh).trans_le hle, (hx.value.trans hx.rpHigh).trans_le hle⟩

theorem Spec.AuxView.mono {P : Params} {honest honest' : Set I} {ids : Finset I} {infos : I → AuxInfo I PaillierKey PublicAux} (hv : AuxView P honest ids infos) (hsub : honest' ⊆ honest) :
    AuxView P honest' ids infos where
  member i hi := hv.member i (hsub hi)
  owner i hi := hv.owner i (hsub hi)
  holders i hi := hv.holders i (hsub hi)
  same_public i hi j hj := hv.same_public i (hsub hi) j (hsub hj)
  sound i hi := hv.sound i (hsub hi)
  own i hi := hv.own i (hsub hi)
  secret i hi := hv.secret i (hsub hi)
  primes i hi := hv.primes i (hsub hi)

theorem Spec.AuxView.congr {P : Params} {honest : Set I} {ids : Finset I} {infos infos' : I → AuxInfo I PaillierKey PublicAux} (hv : AuxView P honest ids infos)
    (h : ∀ i ∈ honest, infos' i = infos i) : AuxView P honest ids infos' where
  member := hv.member
  owner i hi := by rw [h i hi]; exact hv.owner i hi
  holders i hi := by rw [h i hi]; exact hv.holders i hi
  same_public i hi j hj := by rw [h i hi, h j hj]; exact hv.same_public i hi j hj
  sound i hi := by rw [h i hi]; exact hv.sound i hi
  own i hi := by rw [h i hi]; exact hv.own i hi
  secret i hi := by rw [h i hi]; exact hv.secret i hi
  primes i hi := by rw [h i hi]; exact hv.primes i hi

theorem Spec.HoldsAuxOver.view (hF : LifeFormat K W) (hu : W.P.uint ≠ 0) (hA : ∀ s i h h', K.auxHash s i h = K.auxHash s i h' → h = h')
    (hR : ∀ s i h h', K.refreshHash s i h = K.refreshHash s i h' → h = h') {h n : Nat} (hh : W.P.half ≤ 8 * h) (hn : W.P.uint ≤ 8 * n) {honest : Set I} {ids : Finset I}
    {infos : I → AuxInfo I PaillierKey PublicAux} (hold : HoldsAuxOver W K h n honest ids infos) : AuxView W.P honest ids infos := by
  induction hold with
  | generated _ _ _ h => exact h.view hF hu hA
  | refreshed _ _ _ h => exact h.view hF hu hR
  | stored honest honest' ids infos infos' _ hsub hst ih =>
    refine (ih.mono hsub).congr fun i hi => ?_
    rcases hst i hi with e | ⟨b, hb, hx⟩
    · exact e
    · obtain ⟨b', hb', hx'⟩ := ih.restored hh hn (hsub hi)
      rw [hb] at hb'
      cases Option.some.inj hb'
      rw [hx] at hx'
      exact Out.ok.inj hx'
  | subset honest honest' ids ids' infos infos' _ hsub hst ih =>
    have hx := fun i (hi : i ∈ honest') => (C18_subset_exact (infos i) ids').1.1 ⟨_, hst i hi⟩
    have hr := fun i (hi : i ∈ honest') => (C18_subset_exact (infos i) ids').2.2 _ (hst i hi)
    have hmem : ∀ i ∈ honest', i ∈ ids' := fun i hi => by rw [← ih.owner i (hsub hi)]; exact (hx i hi).1
    have hget : ∀ i ∈ honest', ∀ j x, (infos' i).pub.get? j = some x → (infos i).pub.get? j = some x := fun i hi j x hx => by
      have hj : j ∈ ids' := by rw [← (hr i hi).2.2.1, BMap.mem_keySet, BMap.mem_keys_iff]; exact ⟨_, hx⟩
      rw [← ((hr i hi).2.2.2 j hj).1, hx]
    refine ⟨hmem, fun i hi => (hr i hi).1.trans (ih.owner i (hsub hi)), fun i hi => (hr i hi).2.2.1, fun i hi j hj => BMap.ext fun k => ?_, fun i hi j x hx => ih.sound i (hsub hi) j x (hget i hi j x hx),
      fun i hi => ?_, fun i hi => ?_, fun i hi => ?_⟩
    · by_cases hk : k ∈ ids'
      · rw [((hr i hi).2.2.2 k hk).1, ((hr j hj).2.2.2 k hk).1, ih.same_public i (hsub hi) j (hsub hj)]
      · have hnone : ∀ l ∈ honest', (infos' l).pub.get? k = none := fun l hl => by
          cases he : (infos' l).pub.get? k with
          | none => rfl
          | some x => exact absurd (by rw [← (hr l hl).2.2.1, BMap.mem_keySet, BMap.mem_keys_iff]; exact ⟨_, he⟩) hk
        rw [hnone i hi, hnone j hj]
    · obtain ⟨x, h1, h2⟩ := ih.own i (hsub hi)
      exact ⟨x, by rw [((hr i hi).2.2.2 i (hmem i hi)).1, h1], by rw [(hr i hi).2.1]; exact h2⟩
    · rw [(hr i hi).2.1]; exact ih.secret i (hsub hi)
    · rw [(hr i hi).2.1]; exact ih.primes i (hsub hi)

end Synedrion
