import Verif.Lemmas.WireEvidence

/-!
# Lemmas: the parts of the serialized messages of the protocols
-/

set_option linter.unusedSectionVars false

namespace Synedrion

open Spec

variable {I G V Sid : Type} [LinearOrder I] {q : Nat}

theorem pack_echo2 {β : Type} {x : Out Unit (Data I)} {y : Out Unit β} {f : β → Option (Data I)} {g : β → Option (Data I)} {d : Packet I}
    (h : (x.bind fun e => y.bind fun n => .ok ⟨some e, f n, g n⟩) = .ok d) : ∃ e, x = .ok e ∧ d.echo = some e := by
  obtain ⟨e, he, h⟩ := Out.bind_eq_ok.1 h
  obtain ⟨n, -, h⟩ := Out.bind_eq_ok.1 h
  exact ⟨e, he, by rw [← Out.ok.inj h]⟩

theorem pack_echo3 {β γ : Type} {x : Out Unit (Data I)} {y : Out Unit β} {z : Out Unit γ} {f : β → γ → Option (Data I)} {g : β → γ → Option (Data I)} {d : Packet I}
    (h : (x.bind fun e => y.bind fun n => z.bind fun k => .ok ⟨some e, f n k, g n k⟩) = .ok d) : ∃ e, x = .ok e ∧ d.echo = some e := by
  obtain ⟨e, he, h⟩ := Out.bind_eq_ok.1 h
  obtain ⟨n, -, h⟩ := Out.bind_eq_ok.1 h
  obtain ⟨k, -, h⟩ := Out.bind_eq_ok.1 h
  exact ⟨e, he, by rw [← Out.ok.inj h]⟩

theorem keyInit_splits (W : WireFormat G V) : Splits (I := I) (W.keyInitTransport (q := q)) KeyInit.Message.part (fun p r => (W.keyInit (ε := Unit) p r).dec) where
  parts := by
    rintro r ⟨e, nb, dm⟩ m h p
    rcases r with _ | _ | _ | _ | r <;> rcases e with _ | e <;> rcases nb with _ | nb <;> rcases dm with _ | dm <;> first | (cases h; done) | skip
    · obtain ⟨v, hv, rfl⟩ := Option.map_eq_some_iff.1 h
      cases p <;> first | rfl | exact hv
    · obtain ⟨n, hn, h⟩ := Option.bind_eq_some_iff.1 h
      obtain ⟨v, hv, rfl⟩ := Option.map_eq_some_iff.1 h
      cases p <;> first | rfl | exact hv | exact hn
    · obtain ⟨v, hv, rfl⟩ := Option.map_eq_some_iff.1 h
      cases p <;> first | rfl | exact hv
  echo := by
    rintro r ⟨e, nb, dm⟩ m h he
    rcases r with _ | _ | _ | _ | r <;> rcases e with _ | e <;> rcases nb with _ | nb <;> rcases dm with _ | dm <;> first | (cases h; done) | (cases he; done) | skip
    · obtain ⟨v, hv, rfl⟩ := Option.map_eq_some_iff.1 h
      rfl
    · obtain ⟨n, hn, h⟩ := Option.bind_eq_some_iff.1 h
      obtain ⟨v, hv, rfl⟩ := Option.map_eq_some_iff.1 h
      rfl
  same := by
    rintro r ⟨e, nb, dm⟩ m ⟨e', nb', dm'⟩ m' h h' he
    rcases e' with _ | e'
    · rcases r with _ | _ | _ | _ | r <;> rcases nb' with _ | nb' <;> rcases dm' with _ | dm' <;> first | (cases h'; done) | skip
      rcases e with _ | e <;> rcases nb with _ | nb <;> rcases dm with _ | dm <;> first | (cases he; done) | (cases h; done)
    · rfl
  pack := by
    intro r m m' d d' x h h' hx hx'
    cases m <;> cases m' <;> rcases r with _ | _ | _ | _ | r <;> first | (cases hx; done) | (cases hx'; done) | skip
    · cases hx
      cases hx'
      exact congrArg Packet.echo (Out.ok.inj (h.symm.trans h'))
    · rename_i a b
      obtain ⟨e, he, hd⟩ := pack_echo2 (x := (W.keyInit (ε := Unit) (I := I) (q := q) .echo 2).enc a.rho) h
      obtain ⟨e', he', hd'⟩ := pack_echo2 (x := (W.keyInit (ε := Unit) (I := I) (q := q) .echo 2).enc b.rho) h'
      have hab : a.rho = b.rho := Option.some.inj (hx.trans hx'.symm)
      rw [hab, he'] at he
      rw [hd, hd', Out.ok.inj he]

theorem auxGen_splits (W : WireFormat G V) : Splits (I := I) W.auxGenTransport AuxGen.Message.part (fun p r => (W.auxGen (ε := Unit) p r).dec) where
  parts := by
    rintro r ⟨e, nb, dm⟩ m h p
    rcases r with _ | _ | _ | _ | r <;> rcases e with _ | e <;> rcases nb with _ | nb <;> rcases dm with _ | dm <;> first | (cases h; done) | skip
    · obtain ⟨v, hv, rfl⟩ := Option.map_eq_some_iff.1 h
      cases p <;> first | rfl | exact hv
    · obtain ⟨n, hn, h⟩ := Option.bind_eq_some_iff.1 h
      obtain ⟨v, hv, rfl⟩ := Option.map_eq_some_iff.1 h
      cases p <;> first | rfl | exact hv | exact hn
    · obtain ⟨n, hn, h⟩ := Option.bind_eq_some_iff.1 h
      obtain ⟨v, hv, rfl⟩ := Option.map_eq_some_iff.1 h
      cases p <;> first | rfl | exact hv | exact hn
  echo := by
    rintro r ⟨e, nb, dm⟩ m h he
    rcases r with _ | _ | _ | _ | r <;> rcases e with _ | e <;> rcases nb with _ | nb <;> rcases dm with _ | dm <;> first | (cases h; done) | (cases he; done) | skip
    · obtain ⟨v, hv, rfl⟩ := Option.map_eq_some_iff.1 h
      rfl
    · obtain ⟨n, hn, h⟩ := Option.bind_eq_some_iff.1 h
      obtain ⟨v, hv, rfl⟩ := Option.map_eq_some_iff.1 h
      rfl
  same := by
    rintro r ⟨e, nb, dm⟩ m ⟨e', nb', dm'⟩ m' h h' he
    rcases e' with _ | e'
    · rcases r with _ | _ | _ | _ | r <;> rcases nb' with _ | nb' <;> rcases dm' with _ | dm' <;> first | (cases h'; done) | skip
      rcases e with _ | e <;> rcases nb with _ | nb <;> rcases dm with _ | dm <;> first | (cases he; done) | (cases h; done)
    · rfl
  pack := by
    intro r m m' d d' x h h' hx hx'
    cases m <;> cases m' <;> rcases r with _ | _ | _ | _ | r <;> first | (cases hx; done) | (cases hx'; done) | skip
    · cases hx
      cases hx'
      exact congrArg Packet.echo (Out.ok.inj (h.symm.trans h'))
    · rename_i a b
      obtain ⟨e, he, hd⟩ := pack_echo2 (x := (W.auxGen (ε := Unit) (I := I) .echo 2).enc a.echo) h
      obtain ⟨e', he', hd'⟩ := pack_echo2 (x := (W.auxGen (ε := Unit) (I := I) .echo 2).enc b.echo) h'
      have hab : a.echo = b.echo := Option.some.inj (hx.trans hx'.symm)
      rw [hab, he'] at he
      rw [hd, hd', Out.ok.inj he]

theorem keyRefresh_splits (W : WireFormat G V) : Splits (I := I) (W.keyRefreshTransport (q := q)) KeyRefresh.Message.part (fun p r => (W.keyRefresh (ε := Unit) p r).dec) where
  parts := by
    rintro r ⟨e, nb, dm⟩ m h p
    rcases r with _ | _ | _ | _ | r <;> rcases e with _ | e <;> rcases nb with _ | nb <;> rcases dm with _ | dm <;> first | (cases h; done) | skip
    · obtain ⟨v, hv, rfl⟩ := Option.map_eq_some_iff.1 h
      cases p <;> first | rfl | exact hv
    · obtain ⟨n, hn, h⟩ := Option.bind_eq_some_iff.1 h
      obtain ⟨v, hv, rfl⟩ := Option.map_eq_some_iff.1 h
      cases p <;> first | rfl | exact hv | exact hn
    · obtain ⟨n, hn, h⟩ := Option.bind_eq_some_iff.1 h
      obtain ⟨k, hk, h⟩ := Option.bind_eq_some_iff.1 h
      obtain ⟨v, hv, rfl⟩ := Option.map_eq_some_iff.1 h
      cases p <;> first | rfl | exact hv | exact hn | exact hk
  echo := by
    rintro r ⟨e, nb, dm⟩ m h he
    rcases r with _ | _ | _ | _ | r <;> rcases e with _ | e <;> rcases nb with _ | nb <;> rcases dm with _ | dm <;> first | (cases h; done) | (cases he; done) | skip
    · obtain ⟨v, hv, rfl⟩ := Option.map_eq_some_iff.1 h
      rfl
    · obtain ⟨n, hn, h⟩ := Option.bind_eq_some_iff.1 h
      obtain ⟨v, hv, rfl⟩ := Option.map_eq_some_iff.1 h
      rfl
    · obtain ⟨n, hn, h⟩ := Option.bind_eq_some_iff.1 h
      obtain ⟨k, hk, h⟩ := Option.bind_eq_some_iff.1 h
      obtain ⟨v, hv, rfl⟩ := Option.map_eq_some_iff.1 h
      rfl
  same := by
    rintro r ⟨e, nb, dm⟩ m ⟨e', nb', dm'⟩ m' h h' he
    rcases e' with _ | e'
    · rcases r with _ | _ | _ | _ | r <;> rcases nb' with _ | nb' <;> rcases dm' with _ | dm' <;> first | (cases h'; done) | skip
    · rfl
  pack := by
    intro r m m' d d' x h h' hx hx'
    cases m <;> cases m' <;> rcases r with _ | _ | _ | _ | r <;> first | (cases hx; done) | (cases hx'; done) | skip
    · cases hx
      cases hx'
      exact congrArg Packet.echo (Out.ok.inj (h.symm.trans h'))
    · rename_i a b
      obtain ⟨e, he, hd⟩ := pack_echo2 (x := (W.keyRefresh (ε := Unit) (I := I) (q := q) .echo 2).enc a.echo) h
      obtain ⟨e', he', hd'⟩ := pack_echo2 (x := (W.keyRefresh (ε := Unit) (I := I) (q := q) .echo 2).enc b.echo) h'
      have hab : a.echo = b.echo := Option.some.inj (hx.trans hx'.symm)
      rw [hab, he'] at he
      rw [hd, hd', Out.ok.inj he]
    · rename_i a b
      obtain ⟨e, he, hd⟩ := pack_echo3 (x := (W.keyRefresh (ε := Unit) (I := I) (q := q) .echo 3).enc a.hatPsis) h
      obtain ⟨e', he', hd'⟩ := pack_echo3 (x := (W.keyRefresh (ε := Unit) (I := I) (q := q) .echo 3).enc b.hatPsis) h'
      have hab : a.hatPsis = b.hatPsis := Option.some.inj (hx.trans hx'.symm)
      rw [hab, he'] at he
      rw [hd, hd', Out.ok.inj he]

/-! ### What the receivers knew -/

section Past

variable [AddCommGroup G] [Fact q.Prime] [Module (ZMod q) G] [DecidableEq G] [DecidableEq V] [LinearOrder (ZMod q)]

theorem KeyInit.past_expected {hashV : Sid → I → KeyInit.PublicData G → V} {H : SchHash G (KeyInit.SchAux I Sid) → ZMod q} {g : G} {honest : Set I} {c : I → KeyInit.Context I (ZMod q) G Sid}
    {n : Net I (KeyInit.Message (ZMod q) G V) (KeyInit.State I (ZMod q) G Sid V) KeyInit.Err (KeyShare I (ZMod q) G)}
    (h : (KeyInit.machine hashV H g).Reachable honest (fun i => .one (c i)) n) {i : I} (hi : i ∈ honest) (x : _) (hx : x ∈ n.past i) : (KeyInit.machine hashV H g).expected x.1 = (c i).otherIds := by
  obtain ⟨pre, post, hdec⟩ := List.append_of_mem hx
  have hf := (KeyInit.fol (hashV := hashV) (H := H) (g := g) (c := c) i hi _ _ (h.past_replay i pre x.1 x.2 post hdec)).1
  generalize x.1 = s' at hf
  generalize pre.map Prod.snd = l at hf
  cases hf with
  | one => rfl
  | two => rfl
  | three in1 in2 r3 h3 => exact congrArg KeyInit.Context.otherIds (KeyInit.toRound3_ctx h3)

theorem AuxGen.past_expected {E : AuxEnv I Sid} {hashV : Sid → I → AuxGen.Hashed → V} {honest : Set I} {c : I → AuxGen.Context I Sid}
    {n : Net I (AuxGen.Message V) (AuxGen.State I Sid V) (AuxGen.Err I) (AuxInfo I PaillierKey PublicAux)}
    (h : (AuxGen.machine E hashV).Reachable honest (fun i => .one (c i)) n) {i : I} (hi : i ∈ honest) (x : _) (hx : x ∈ n.past i) : (AuxGen.machine E hashV).expected x.1 = (c i).otherIds := by
  obtain ⟨pre, post, hdec⟩ := List.append_of_mem hx
  have hf := (AuxGen.fol (E := E) (hashV := hashV) (c := c) i hi _ _ (h.past_replay i pre x.1 x.2 post hdec)).1
  generalize x.1 = s' at hf
  generalize pre.map Prod.snd = l at hf
  cases hf with
  | one => rfl
  | two => rfl
  | three in1 in2 r3 out h3 hout => exact congrArg AuxGen.Context.otherIds (AuxGen.toRound3_ctx h3)

theorem KeyRefresh.past_expected {E : KeyRefresh.Env I Sid (ZMod q) G} {hashV : Sid → I → KeyRefresh.Hashed I G → V} {honest : Set I} {c : I → KeyRefresh.Context I (ZMod q) G Sid}
    {n : Net I (KeyRefresh.Message I (ZMod q) G V) (KeyRefresh.State I (ZMod q) G Sid V) (KeyRefresh.Err I (ZMod q)) (KeyShareChange I (ZMod q) G × AuxInfo I PaillierKey PublicAux)}
    (h : (KeyRefresh.machine E hashV).Reachable honest (fun i => .one (c i)) n) {i : I} (hi : i ∈ honest) (x : _) (hx : x ∈ n.past i) : (KeyRefresh.machine E hashV).expected x.1 = (c i).otherIds := by
  obtain ⟨pre, post, hdec⟩ := List.append_of_mem hx
  have hf := (KeyRefresh.fol (E := E) (hashV := hashV) (c := c) i hi _ _ (h.past_replay i pre x.1 x.2 post hdec)).1
  generalize x.1 = s' at hf
  generalize pre.map Prod.snd = l at hf
  cases hf with
  | one => rfl
  | two => rfl
  | three in1 in2 r3 out h3 hout => exact congrArg KeyRefresh.Context.otherIds (KeyRefresh.toRound3_ctx h3)

end Past

/-! ### Checks need a part of the refused message -/

section Current

variable [AddCommGroup G] [Fact q.Prime] [Module (ZMod q) G] [DecidableEq G] [DecidableEq V] [LinearOrder (ZMod q)]

theorem KeyInit.verify_current {hashV : Sid → I → KeyInit.PublicData G → V} {H : SchHash G (KeyInit.SchAux I Sid) → ZMod q} {g : G} {sid : Sid} {j : I} {e : KeyInit.Err}
    {ev : Package I (KeyInit.Parts (ZMod q) G V) e.round} {b : Bool} (h : KeyInit.verifyMessages hashV H g sid j e ev = .ok b) : ∃ p x, ev.current p = some x := by
  cases e with
  | r2HashMismatch =>
    obtain ⟨_, _, h⟩ := Out.bind_eq_ok.1 h
    obtain ⟨x, hx, -⟩ := Out.bind_eq_ok.1 h
    exact ⟨_, x, Out.ofOption_eq_ok.1 hx⟩
  | r3InvalidSchProof =>
    iterate 3 (obtain ⟨_, _, h⟩ := Out.bind_eq_ok.1 h)
    obtain ⟨x, hx, -⟩ := Out.bind_eq_ok.1 h
    exact ⟨_, x, Out.ofOption_eq_ok.1 hx⟩

theorem AuxGen.verify_current {E : AuxEnv I Sid} {hashV : Sid → I → AuxGen.Hashed → V} {sid : Sid} {j : I} {e : AuxGen.Err I} {ev : Package I (AuxGen.Parts V) e.round} {b : Bool}
    (h : AuxGen.verifyMessages E hashV sid j e ev = .ok b) : ∃ p x, ev.current p = some x := by
  cases e with
  | r2HashMismatch =>
    obtain ⟨_, _, h⟩ := Out.bind_eq_ok.1 h
    obtain ⟨x, hx, -⟩ := Out.bind_eq_ok.1 h
    exact ⟨_, x, Out.ofOption_eq_ok.1 hx⟩
  | r2PaillierModulusTooSmall | r2RPModulusTooSmall | r2PrmFailed =>
    obtain ⟨x, hx, -⟩ := Out.bind_eq_ok.1 h
    exact ⟨_, x, Out.ofOption_eq_ok.1 hx⟩
  | r3ModFailed =>
    iterate 2 (obtain ⟨_, _, h⟩ := Out.bind_eq_ok.1 h)
    obtain ⟨x, hx, -⟩ := Out.bind_eq_ok.1 h
    exact ⟨_, x, Out.ofOption_eq_ok.1 hx⟩
  | r3FacFailed =>
    iterate 4 (obtain ⟨_, _, h⟩ := Out.bind_eq_ok.1 h)
    obtain ⟨x, hx, -⟩ := Out.bind_eq_ok.1 h
    exact ⟨_, x, Out.ofOption_eq_ok.1 hx⟩

theorem KeyRefresh.verify_current {E : KeyRefresh.Env I Sid (ZMod q) G} {hashV : Sid → I → KeyRefresh.Hashed I G → V} {sid : Sid} {ids : Finset I} {j : I} {e : KeyRefresh.Err I (ZMod q)}
    {ev : Package I (KeyRefresh.Parts I (ZMod q) G V) e.round} {b : Bool} (h : KeyRefresh.verifyMessages E hashV sid ids j e ev = .ok b) : ∃ p x, ev.current p = some x := by
  cases e with
  | r2HashMismatch =>
    obtain ⟨_, _, h⟩ := Out.bind_eq_ok.1 h
    obtain ⟨x, hx, -⟩ := Out.bind_eq_ok.1 h
    exact ⟨_, x, Out.ofOption_eq_ok.1 hx⟩
  | r2WrongIdsX | r2WrongIdsY | r2WrongIdsA | r2PaillierModulusTooSmall | r2RPModulusTooSmall | r2NonZeroSumOfChanges | r2PrmFailed | r3WrongIdsHatPsi =>
    obtain ⟨x, hx, -⟩ := Out.bind_eq_ok.1 h
    exact ⟨_, x, Out.ofOption_eq_ok.1 hx⟩
  | r3ShareChangeMismatch i y =>
    iterate 3 (obtain ⟨_, _, h⟩ := Out.bind_eq_ok.1 h)
    dsimp only at h
    split at h
    · cases h
    iterate 4 (obtain ⟨_, _, h⟩ := Out.bind_eq_ok.1 h)
    obtain ⟨x, hx, -⟩ := Out.bind_eq_ok.1 h
    exact ⟨_, x, Out.ofOption_eq_ok.1 hx⟩
  | r3ModFailed | r3SchFailed =>
    iterate 2 (obtain ⟨_, _, h⟩ := Out.bind_eq_ok.1 h)
    obtain ⟨x, hx, -⟩ := Out.bind_eq_ok.1 h
    exact ⟨_, x, Out.ofOption_eq_ok.1 hx⟩
  | r3FacFailed =>
    iterate 4 (obtain ⟨_, _, h⟩ := Out.bind_eq_ok.1 h)
    obtain ⟨x, hx, -⟩ := Out.bind_eq_ok.1 h
    exact ⟨_, x, Out.ofOption_eq_ok.1 hx⟩

/-- Combined echos of later rounds are not looked at. -/
theorem KeyInit.verify_upTo {hashV : Sid → I → KeyInit.PublicData G → V} {H : SchHash G (KeyInit.SchAux I Sid) → ZMod q} {g : G} {sid : Sid} {j : I} {e : KeyInit.Err}
    {ev : Package I (KeyInit.Parts (ZMod q) G V) e.round} : KeyInit.verifyMessages hashV H g sid j e ev.upTo = KeyInit.verifyMessages hashV H g sid j e ev := by
  cases e <;> rfl

theorem AuxGen.verify_upTo {E : AuxEnv I Sid} {hashV : Sid → I → AuxGen.Hashed → V} {sid : Sid} {j : I} {e : AuxGen.Err I} {ev : Package I (AuxGen.Parts V) e.round} :
    AuxGen.verifyMessages E hashV sid j e ev.upTo = AuxGen.verifyMessages E hashV sid j e ev := by
  cases e <;> rfl

theorem KeyRefresh.verify_upTo {E : KeyRefresh.Env I Sid (ZMod q) G} {hashV : Sid → I → KeyRefresh.Hashed I G → V} {sid : Sid} {ids : Finset I} {j : I} {e : KeyRefresh.Err I (ZMod q)}
    {ev : Package I (KeyRefresh.Parts I (ZMod q) G V) e.round} : KeyRefresh.verifyMessages E hashV sid ids j e ev.upTo = KeyRefresh.verifyMessages E hashV sid ids j e ev := by
  cases e <;> rfl

end Current

end Synedrion
