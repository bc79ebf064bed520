import Verif.Spec.LifeWire
import Verif.Lemmas.LifeNetwork
import Verif.Props.WireNet
import Verif.Props.Stored

/-!
# Lemmas: sessions over serialized messages are sessions over messages, and what is stored is read back
-/

set_option linter.unusedSectionVars false

namespace Synedrion

open Spec Props

variable {I G Sid V CC : Type} {q : Nat} [Fact q.Prime] [LinearOrder (ZMod q)] [LinearOrder I] [AddCommGroup G] [Module (ZMod q) G] [DecidableEq G] [DecidableEq V]
variable {W : WireFormat G V} {K : KeyEnv I (ZMod q) G Sid V V CC}

theorem WireFormat.resharing_echo {d d' : Packet I} {m m' : KeyResharing.Msg (ZMod q) G} (h : W.resharingTransport.unpack 1 d = some m) (h' : W.resharingTransport.unpack 1 d' = some m')
    (he : d.echo = d'.echo) : (m.publicPolynomial, m.oldShareId) = (m'.publicPolynomial, m'.oldShareId) := by
  obtain ⟨_ | e, _ | n, _ | x⟩ := d <;> first | (cases h; done) | skip
  obtain ⟨_ | e', _ | n', _ | x'⟩ := d' <;> first | (cases h'; done) | skip
  cases he
  obtain ⟨a, ha, h⟩ := Option.bind_eq_some_iff.1 h
  obtain ⟨b, hb, rfl⟩ := Option.map_eq_some_iff.1 h
  obtain ⟨a', ha', h'⟩ := Option.bind_eq_some_iff.1 h'
  obtain ⟨b', hb', rfl⟩ := Option.map_eq_some_iff.1 h'
  cases Option.some.inj (ha.symm.trans ha')
  rfl

theorem Spec.GeneratedOver.among (hF : LifeFormat K W) {kept : Set I} {ids : Finset I} {shares : I → KeyShare I (ZMod q) G} (h : GeneratedOver W K kept ids shares) :
    GeneratedAmong K kept ids shares := by
  obtain ⟨honest, sid, d, c, panics, n, hsub, hd, hc, hr, he, hf⟩ := h
  obtain ⟨n', hn', hs⟩ := C91_key_init hF.format K.initHash K.initSch K.refresh.g panics honest ids sid d hd c hc n hr
  exact ⟨honest, sid, d, c, n', hsub, hc, hn'.reachable, SameCourse.echoAgree hs (fun _ _ _ _ => WireFormat.keyInit_echo₁) he, fun i hi => SameCourse.finished hs (hf i hi)⟩

theorem Spec.RefreshedOver.among (hF : LifeFormat K W) {kept : Set I} {ids : Finset I} {changes : I → KeyShareChange I (ZMod q) G} (h : RefreshedOver W K kept ids changes) :
    RefreshedAmong K kept ids changes := by
  obtain ⟨honest, sid, d, c, infos, panics, n, hsub, hd, hc, hr, he, hf⟩ := h
  obtain ⟨n', hn', hs⟩ := C91_key_refresh hF.format K.refresh hF.params hF.hashes K.refreshHash panics honest ids sid d hd c hc n hr
  exact ⟨honest, sid, d, c, infos, n', hsub, hc, hn'.reachable, SameCourse.echoAgree hs (fun _ _ _ _ => WireFormat.keyRefresh_echo₁) he, fun i hi => SameCourse.finished hs (hf i hi)⟩

theorem Spec.ResharedOverIf.among (hW : FormatValid W q) {fits : I → List (I × KeyResharing.Msg (ZMod q) G) → Prop} {g vk : G} {kept : Set I} {S N : Finset I} {t : Nat}
    {old new : I → ThresholdKeyShare I (ZMod q) G} (h : ResharedOverIf W fits g vk kept S N t old new) : ResharedIf fits g vk kept S N t old new := by
  obtain ⟨honest, ot, draw, r, init, panics, n, hsub, hN, hst, hb, hr, he, hf, hfit⟩ := h
  obtain ⟨n', hn', hs⟩ := C91_resharing hW g panics honest init n hr
  refine ⟨honest, ot, draw, r, init, n', hsub, hN, hst, hb, hn', SameCourse.echoAgree hs (fun _ _ _ _ => WireFormat.resharing_echo) he, fun i hi => SameCourse.finished hs (hf i hi), ?_⟩
  intro i hi x hx
  obtain ⟨_, h1, -⟩ := hs.past i
  obtain ⟨y, hy, -, hread⟩ := mem_of_forall₂ h1 hx
  exact hfit i hi y (List.mem_of_mem_take hy) _ hread

private theorem no_identity {n : Nat} {S : Sec1 G} (hS : Sec1Laws S) :
    (∀ (ks : KeyShare I (ZMod q) G) b, (ks.store n S : Out Unit _) = .ok b → ∀ i X, ks.pub.get? i = some X → X ≠ 0) ∧
    (∀ (c : KeyShareChange I (ZMod q) G) b, (c.store n S : Out Unit _) = .ok b → ∀ i X, c.publicShareChanges.get? i = some X → X ≠ 0) ∧
    (∀ (ks : ThresholdKeyShare I (ZMod q) G) b, (ks.store n S : Out Unit _) = .ok b → ∀ i X, ks.publicShares.get? i = some X → X ≠ 0) := by
  refine ⟨fun ks b h i X hX h0 => ?_, fun c b h i X hX h0 => ?_, fun ks b h i X hX h0 => ?_⟩ <;> subst h0
  · rw [(C77_identity_share_panics (ε := Unit) (n := n) hS ks ⟨ks.owner, 0, BMap.ofList []⟩ ⟨ks.owner, 0, 0, BMap.ofList [], BMap.ofList []⟩).1.2 ⟨i, hX⟩] at h
    cases h
  · rw [(C77_identity_share_panics (ε := Unit) (n := n) hS ⟨c.owner, 0, BMap.ofList []⟩ c ⟨c.owner, 0, 0, BMap.ofList [], BMap.ofList []⟩).2.1.2 ⟨i, hX⟩] at h
    cases h
  · rw [(C77_identity_share_panics (ε := Unit) (n := n) hS ⟨ks.owner, 0, BMap.ofList []⟩ ⟨ks.owner, 0, BMap.ofList []⟩ ks).2.2.2 ⟨i, hX⟩] at h
    cases h

theorem Spec.SameOrStored.same (hW : FormatValid W q) {ks ks' : KeyShare I (ZMod q) G} (h : SameOrStored W ks ks') : ks' = ks := by
  rcases h with h | ⟨b, hs, hl⟩
  · exact h
  · obtain ⟨b', hs', hl'⟩ := (C77_stored_shares_partial (ε := Unit) hW.points hW.order hW.scalar).1 ks ((no_identity hW.points).1 ks b hs)
    cases Out.ok.inj (hs.symm.trans hs')
    exact Option.some.inj (hl.symm.trans hl')

theorem Spec.SameOrStoredChange.same (hW : FormatValid W q) {c c' : KeyShareChange I (ZMod q) G} (h : SameOrStoredChange W c c') : c' = c := by
  rcases h with h | ⟨b, hs, hl⟩
  · exact h
  · obtain ⟨b', hs', hl'⟩ := (C77_stored_shares_partial (ε := Unit) hW.points hW.order hW.scalar).2.1 c ((no_identity hW.points).2.1 c b hs)
    cases Out.ok.inj (hs.symm.trans hs')
    exact Option.some.inj (hl.symm.trans hl')

theorem Spec.SameOrStoredThreshold.same (hW : FormatValid W q) {ks ks' : ThresholdKeyShare I (ZMod q) G} (h : SameOrStoredThreshold W ks ks') : ks' = ks := by
  rcases h with h | ⟨b, hs, hl⟩
  · exact h
  · obtain ⟨b', hs', hl'⟩ := (C77_stored_shares_partial (ε := Unit) hW.points hW.order hW.scalar).2.2 ks ((no_identity hW.points).2.2 ks b hs)
    cases Out.ok.inj (hs.symm.trans hs')
    exact Option.some.inj (hl.symm.trans hl')

theorem Spec.FullView.congr {g vk : G} {honest : Set I} {ids : Finset I} {shares shares' : I → KeyShare I (ZMod q) G} (h : FullView g honest ids shares vk)
    (he : ∀ i ∈ honest, shares' i = shares i) : FullView g honest ids shares' vk where
  member := h.member
  owner i hi := by rw [he i hi]; exact h.owner i hi
  holders i hi := by rw [he i hi]; exact h.holders i hi
  same_public i hi j hj := by rw [he i hi, he j hj]; exact h.same_public i hi j hj
  own i hi := by rw [he i hi]; exact h.own i hi
  key i hi := by rw [he i hi]; exact h.key i hi

theorem Spec.ThresholdView.congr {g vk : G} {honest : Set I} {ids : Finset I} {t : Nat} {shares shares' : I → ThresholdKeyShare I (ZMod q) G} {sid : I → ZMod q} {tail : List G}
    (h : ThresholdView g honest ids t shares vk sid tail) (he : ∀ i ∈ honest, shares' i = shares i) : ThresholdView g honest ids t shares' vk sid tail where
  member := h.member
  owner i hi := by rw [he i hi]; exact h.owner i hi
  threshold i hi := by rw [he i hi]; exact h.threshold i hi
  size := h.size
  distinct := h.distinct
  degree := h.degree
  ids_agree i hi := by rw [he i hi]; exact h.ids_agree i hi
  public_agree i hi := by rw [he i hi]; exact h.public_agree i hi
  own i hi := by rw [he i hi]; exact h.own i hi

end Synedrion
