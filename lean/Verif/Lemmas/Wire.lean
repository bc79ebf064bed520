import Verif.Spec.Wire
import Verif.Props.CurveBytes
import Verif.Props.Encoding
import Verif.Lemmas.BMap

/-!
# Lemmas: encoding and decoding messages
-/

set_option linter.unusedSectionVars false

namespace Synedrion

open Spec

variable {ε I G α β : Type} [AddCommGroup G]

/-- What an encoding does: values that fit and contain no identity come back, values with an identity panic, and what is decoded fits. -/
structure WireCodec.Lawful (c : WireCodec ε I α) (fits : α → Prop) (pts : α → List G) : Prop where
  ok : ∀ x, fits x → 0 ∉ pts x → ∃ d, c.enc x = .ok d ∧ c.dec d = some x
  panic : ∀ x, fits x → 0 ∈ pts x → c.enc x = .panic
  sound : ∀ d x, c.dec d = some x → fits x

/-- The same for fields -/
structure Fields.Lawful (f : Fields ε I α) (fits : α → Prop) (pts : α → List G) : Prop where
  ok : ∀ x, fits x → 0 ∉ pts x → ∃ l, f.enc x = .ok l ∧ f.dec l = some x
  panic : ∀ x, fits x → 0 ∈ pts x → f.enc x = .panic
  sound : ∀ l x, f.dec l = some x → fits x

theorem WireCodec.Lawful.congr {c : WireCodec ε I α} {fits fits' : α → Prop} {pts pts' : α → List G} (h : c.Lawful fits pts) (hf : ∀ x, fits' x ↔ fits x)
    (hp : ∀ x, 0 ∈ pts' x ↔ 0 ∈ pts x) : c.Lawful fits' pts' where
  ok x h1 h2 := h.ok x ((hf x).1 h1) (fun h3 => h2 ((hp x).2 h3))
  panic x h1 h2 := h.panic x ((hf x).1 h1) ((hp x).1 h2)
  sound d x h1 := (hf x).2 (h.sound d x h1)

theorem Fields.nil_lawful : (Fields.nil : Fields ε I Unit).Lawful (fun _ => True) (fun _ => ([] : List G)) where
  ok x _ _ := ⟨[], rfl, rfl⟩
  panic x _ h := absurd h List.not_mem_nil
  sound _ _ _ := trivial

theorem Fields.cons_lawful {c : WireCodec ε I α} {f : Fields ε I β} {fits : α → Prop} {pts : α → List G} {fits' : β → Prop} {pts' : β → List G}
    (hc : c.Lawful fits pts) (hf : f.Lawful fits' pts') : (Fields.cons c f).Lawful (fun x => fits x.1 ∧ fits' x.2) (fun x => pts x.1 ++ pts' x.2) where
  ok x h1 h2 := by
    rw [List.mem_append, not_or] at h2
    obtain ⟨d, hd, hd'⟩ := hc.ok x.1 h1.1 h2.1
    obtain ⟨l, hl, hl'⟩ := hf.ok x.2 h1.2 h2.2
    exact ⟨d :: l, by simp [Fields.cons, hd, hl], by simp [Fields.cons, hd', hl']⟩
  panic x h1 h2 := by
    by_cases h : 0 ∈ pts x.1
    · simp [Fields.cons, hc.panic x.1 h1.1 h]
    · obtain ⟨d, hd, _⟩ := hc.ok x.1 h1.1 h
      have h3 : 0 ∈ pts' x.2 := (List.mem_append.1 h2).resolve_left h
      simp [Fields.cons, hd, hf.panic x.2 h1.2 h3]
  sound l x h := by
    rcases l with _ | ⟨d, l⟩
    · simp [Fields.cons] at h
    · simp only [Fields.cons, Option.bind_eq_some_iff, Option.map_eq_some_iff] at h
      obtain ⟨a, ha, b, hb, rfl⟩ := h
      exact ⟨hc.sound d a ha, hf.sound l b hb⟩

theorem WireCodec.struct_lawful {f : Fields ε I β} {fits : β → Prop} {pts : β → List G} (hf : f.Lawful fits pts) {get : α → β} {mk : β → α} (h1 : ∀ x, mk (get x) = x)
    (h2 : ∀ y, get (mk y) = y) : (WireCodec.struct f get mk).Lawful (fun x => fits (get x)) (fun x => pts (get x)) where
  ok x hx hp := by
    obtain ⟨l, hl, hl'⟩ := hf.ok _ hx hp
    exact ⟨.seq l, by simp [WireCodec.struct, hl], by simp [WireCodec.struct, hl', h1]⟩
  panic x hx hp := by simp [WireCodec.struct, hf.panic _ hx hp]
  sound d x h := by
    rcases d with i | n | b | b | l <;> simp only [WireCodec.struct, reduceCtorEq, Option.map_eq_some_iff] at h
    obtain ⟨b, hb, rfl⟩ := h
    rw [h2]
    exact hf.sound l b hb

theorem WireCodec.list_lawful {c : WireCodec ε I α} {fits : α → Prop} {pts : α → List G} (hc : c.Lawful fits pts) :
    c.list.Lawful (fun l => ∀ x ∈ l, fits x) (fun l => l.flatMap pts) where
  ok l h1 h2 := by
    have : ∃ ds, Out.mapM' c.enc l = .ok ds ∧ WireCodec.decList c.dec ds = some l := by
      induction l with
      | nil => exact ⟨[], rfl, rfl⟩
      | cons x l ih =>
        rw [List.flatMap_cons, List.mem_append, not_or] at h2
        obtain ⟨d, hd, hd'⟩ := hc.ok x (h1 x (List.mem_cons_self ..)) h2.1
        obtain ⟨ds, hds, hds'⟩ := ih (fun y hy => h1 y (List.mem_cons_of_mem _ hy)) h2.2
        exact ⟨d :: ds, by simp [Out.mapM', hd, hds], by simp [WireCodec.decList, hd', hds']⟩
    obtain ⟨ds, h3, h4⟩ := this
    exact ⟨.seq ds, by simp [WireCodec.list, h3], h4⟩
  panic l h1 h2 := by
    have : Out.mapM' c.enc l = .panic := by
      induction l with
      | nil => simp at h2
      | cons x l ih =>
        by_cases h : 0 ∈ pts x
        · simp [Out.mapM', hc.panic x (h1 x (List.mem_cons_self ..)) h]
        · obtain ⟨d, hd, _⟩ := hc.ok x (h1 x (List.mem_cons_self ..)) h
          rw [List.flatMap_cons, List.mem_append] at h2
          simp [Out.mapM', hd, ih (fun y hy => h1 y (List.mem_cons_of_mem _ hy)) (h2.resolve_left h)]
    simp [WireCodec.list, this]
  sound d l h := by
    rcases d with i | n | b | b | ds <;> simp only [WireCodec.list, reduceCtorEq] at h
    induction ds generalizing l with
    | nil => simp only [WireCodec.decList, Option.some.injEq] at h; subst h; simp
    | cons d ds ih =>
      simp only [WireCodec.decList, Option.bind_eq_some_iff, Option.map_eq_some_iff] at h
      obtain ⟨a, ha, l', hl', rfl⟩ := h
      intro x hx
      rcases List.mem_cons.1 hx with rfl | hx
      · exact hc.sound d _ ha
      · exact ih _ hl' x hx

theorem WireCodec.entry_lawful {c : WireCodec ε I α} {fits : α → Prop} {pts : α → List G} (hc : c.Lawful fits pts) : c.entry.Lawful (fun x => fits x.2) (fun x => pts x.2) where
  ok x h1 h2 := by
    obtain ⟨d, hd, hd'⟩ := hc.ok x.2 h1 h2
    exact ⟨_, by simp only [WireCodec.entry, hd, Out.bind_ok]; rfl, by simp [WireCodec.entry, hd']⟩
  panic x h1 h2 := by simp [WireCodec.entry, hc.panic x.2 h1 h2]
  sound d x h := by
    unfold WireCodec.entry at h
    dsimp only at h
    split at h
    · rw [Option.map_eq_some_iff] at h
      obtain ⟨v, hv, rfl⟩ := h
      exact hc.sound _ v hv
    · cases h

theorem BMap.mem_values_ofList [LinearOrder I] {l : List (I × α)} {v : α} (h : v ∈ (BMap.ofList l).values) : ∃ i, (i, v) ∈ l := by
  have key : ∀ (l : List (I × α)) (m : BMap I α), ∀ p ∈ (l.foldl (fun m p => m.insert p.1 p.2) m).entries, p ∈ m.entries ∨ p ∈ l := by
    intro l
    induction l with
    | nil => intro m p hp; exact .inl hp
    | cons x l ih =>
      intro m p hp
      rcases ih (m.insert x.1 x.2) p hp with h | h
      · have h := BMap.get?_eq_some_iff.2 (show (p.1, p.2) ∈ _ from h)
        rw [BMap.get?_insert] at h
        split at h
        · rename_i e
          refine .inr ?_
          simp only [Option.some.injEq] at h
          have : p = x := Prod.ext e h.symm
          rw [this]; exact List.mem_cons_self ..
        · exact .inl (BMap.get?_eq_some_iff.1 h)
      · exact .inr (List.mem_cons_of_mem _ h)
  obtain ⟨p, hp, rfl⟩ := List.mem_map.1 h
  rcases key l .empty p hp with h | h
  · cases h
  · exact ⟨p.1, h⟩

theorem WireCodec.map_lawful [LinearOrder I] {c : WireCodec ε I α} {fits : α → Prop} {pts : α → List G} (hc : c.Lawful fits pts) :
    c.map.Lawful (AllValues fits) (fun m => m.values.flatMap pts) := by
  have h := WireCodec.list_lawful (WireCodec.entry_lawful hc)
  have e1 : ∀ m : BMap I α, AllValues fits m → ∀ x ∈ m.entries, fits x.2 := fun m hm x hx => hm x.2 (List.mem_map.2 ⟨x, hx, rfl⟩)
  have e2 : ∀ m : BMap I α, (m.entries.flatMap fun x => pts x.2) = m.values.flatMap pts := fun m => by rw [BMap.values, List.flatMap_map]
  refine ⟨fun m h1 h2 => ?_, fun m h1 h2 => ?_, fun d m hm => ?_⟩
  · obtain ⟨d, hd, hd'⟩ := h.ok m.entries (e1 m h1) (by rw [e2]; exact h2)
    exact ⟨d, hd, by simp [WireCodec.map, hd', BMap.ofList_entries]⟩
  · exact h.panic m.entries (e1 m h1) (by rw [e2]; exact h2)
  · simp only [WireCodec.map, Option.map_eq_some_iff] at hm
    obtain ⟨l, hl, rfl⟩ := hm
    intro v hv
    obtain ⟨i, hi⟩ := BMap.mem_values_ofList hv
    exact h.sound d l hl (i, v) hi

/-- An encoding without points that never panics -/
theorem WireCodec.lawful_of {c : WireCodec ε I α} {fits : α → Prop} (h1 : ∀ x, fits x → ∃ d, c.enc x = .ok d ∧ c.dec d = some x) (h2 : ∀ d x, c.dec d = some x → fits x) :
    c.Lawful fits (fun _ => ([] : List G)) :=
  ⟨fun x hx _ => h1 x hx, fun _ _ h => absurd h List.not_mem_nil, h2⟩

theorem WireCodec.bool_lawful : (WireCodec.bool : WireCodec ε I Bool).Lawful (fun _ => True) (fun _ => ([] : List G)) :=
  WireCodec.lawful_of (fun x _ => ⟨_, rfl, rfl⟩) fun _ _ _ => trivial

theorem WireCodec.u32_lawful : (WireCodec.u32 : WireCodec ε I Nat).Lawful (· < 2 ^ 32) (fun _ => ([] : List G)) := by
  refine WireCodec.lawful_of (fun x hx => ⟨_, rfl, if_pos hx⟩) fun d x h => ?_
  rcases d with i | n | b | b | l <;> simp only [WireCodec.u32, reduceCtorEq, Option.ite_none_right_eq_some] at h
  exact (Option.some.inj h.2) ▸ h.1

theorem WireCodec.bytes_lawful : (WireCodec.bytes : WireCodec ε I (List Byte)).Lawful (fun _ => True) (fun _ => ([] : List G)) :=
  WireCodec.lawful_of (fun x _ => ⟨_, rfl, rfl⟩) fun _ _ _ => trivial

private theorem pow256' (m : Nat) : 256 ^ m = 2 ^ (8 * m) := by rw [show 256 = 2 ^ 8 by norm_num, ← Nat.pow_mul]

theorem WireCodec.uint_lawful {w : Nat} (hw : 8 ∣ w) : (WireCodec.uint w : WireCodec ε I Nat).Lawful (· < 2 ^ w) (fun _ => ([] : List G)) := by
  obtain ⟨k, rfl⟩ := hw
  have hk : 8 * k / 8 = k := by omega
  refine WireCodec.lawful_of (fun x hx => ⟨_, rfl, ?_⟩) fun d x h => ?_
  · simp only [WireCodec.uint, natTryFromBytes, beBytes_length, ne_eq, not_true_eq_false, if_false, fromBe_beBytes, hk]
    rw [pow256', Nat.mod_eq_of_lt hx]
  · rcases d with i | n | b | b | l <;> simp only [WireCodec.uint, reduceCtorEq, natTryFromBytes, Option.ite_none_left_eq_some, hk, not_not] at h
    rw [← Option.some.inj h.2, ← pow256', ← h.1]
    exact fromBe_lt b

theorem WireCodec.packedSigned_lawful : (WireCodec.packedSigned : WireCodec ε I PackedSigned).Lawful (fun p => p.bound < 2 ^ 32) (fun _ => ([] : List G)) :=
  (WireCodec.struct_lawful (Fields.cons_lawful WireCodec.u32_lawful (Fields.cons_lawful WireCodec.bool_lawful (Fields.cons_lawful WireCodec.bytes_lawful Fields.nil_lawful)))
    (fun _ => rfl) (fun _ => rfl)).congr (fun x => by simp) (fun x => by simp)

theorem WireCodec.packedBits_lawful : (WireCodec.packedBits : WireCodec ε I PackedBitVec).Lawful (fun p => p.bits < 2 ^ 32) (fun _ => ([] : List G)) :=
  (WireCodec.struct_lawful (Fields.cons_lawful WireCodec.u32_lawful (Fields.cons_lawful WireCodec.bytes_lawful Fields.nil_lawful))
    (fun _ => rfl) (fun _ => rfl)).congr (fun x => by simp) (fun x => by simp)

theorem SInt.WF.toInt_ofInt {w : Nat} {a : SInt} (h : a.WF w) : (BitVec.ofInt w a.val).toInt = a.val := by
  have h1 : 2 ^ a.bound ≤ 2 ^ (w - 1) := Nat.pow_le_pow_right (by norm_num) (by have := h.1; omega)
  have h2 := h.2
  have h3 : (a.val.natAbs : Int) < 2 ^ (w - 1) := by exact_mod_cast lt_of_lt_of_le h2 h1
  exact BitVec.toInt_ofInt_eq_self (by have := h.1; omega) (by omega) (by omega)

theorem WireCodec.signed_lawful {w : Nat} (hw : 8 ∣ w) (hw' : w < 2 ^ 32) : (WireCodec.signed w : WireCodec ε I SInt).Lawful (SInt.WF w) (fun _ => ([] : List G)) := by
  refine WireCodec.lawful_of (fun a ha => ?_) fun d x h => ?_
  · have h1 := ha.toInt_ofInt
    obtain ⟨p, hp, hp'⟩ := Props.C05_signed_round_trip (ε := ε) hw (⟨a.bound, BitVec.ofInt w a.val⟩ : PublicSigned w) ⟨ha.1, by rw [h1]; exact ha.2⟩
    have hb := (Props.C05_signed_decode_sound hw p _ hp').2.1
    obtain ⟨d, hd, hd'⟩ := (WireCodec.packedSigned_lawful (ε := ε) (I := I) (G := G)).ok p (by rw [← hb]; exact ha.1.trans hw') List.not_mem_nil
    refine ⟨d, by simp [WireCodec.signed, hp, hd], ?_⟩
    simp only [WireCodec.signed, hd', Option.bind_some, hp', Option.map_some, PublicSigned.toSInt, h1]
  · simp only [WireCodec.signed, Option.bind_eq_some_iff, Option.map_eq_some_iff] at h
    obtain ⟨p, _, s, hs, rfl⟩ := h
    exact (Props.C05_signed_decode_sound hw p s hs).1

theorem WireCodec.bits_lawful : (WireCodec.bits : WireCodec ε I (List Bool)).Lawful BitsFit (fun _ => ([] : List G)) := by
  refine WireCodec.lawful_of (fun a ha => ?_) fun d x h => ?_
  · obtain ⟨d, hd, hd'⟩ := (WireCodec.packedBits_lawful (ε := ε) (I := I) (G := G)).ok (packBits a) (Nat.mod_lt _ (by norm_num)) List.not_mem_nil
    refine ⟨d, hd, ?_⟩
    simp only [WireCodec.bits, hd', Option.bind_some, Props.C06_bitvec_round_trip a ha]
  · simp only [WireCodec.bits, Option.bind_eq_some_iff] at h
    obtain ⟨p, hp, h⟩ := h
    have hb := (WireCodec.packedBits_lawful (ε := ε) (I := I) (G := G)).sound d p hp
    rcases Props.C06_bitvec_decode_total p with ⟨e, _⟩ | ⟨b, e, hl, _⟩
    · rw [e] at h; cases h
    · rw [e] at h
      simp only [Option.some.injEq] at h
      rw [← h, BitsFit, hl]; exact hb

@[inherit_doc] local infixr:67 " ;; " => Fields.cons_lawful

section
variable {V : Type} [LinearOrder I] {q : Nat} {W : WireFormat G V} (hW : FormatValid W q)
include hW

namespace Spec.FormatValid

theorem scalar_lawful : (W.scalar : WireCodec ε I (ZMod q)).Lawful (fun _ => True) (fun _ => ([] : List G)) :=
  WireCodec.lawful_of (fun x _ => ⟨_, rfl, (Props.C58_scalar_round_trip hW.order hW.scalar x).2⟩) fun _ _ _ => trivial

theorem point_lawful : (W.point : WireCodec ε I G).Lawful (fun _ => True) (fun x => [x]) where
  ok x _ h := by
    have hx : x ≠ 0 := fun e => h (by simp [e])
    have e := hW.points.compressed x hx
    exact ⟨.bytes (W.S.encode x), by simp [WireFormat.point, pointToBytes, e], hW.points.decode x⟩
  panic x _ h := by
    have hx : x = 0 := (List.mem_singleton.1 h).symm
    have e := (Props.C58_identity_not_encodable (ε := ε) hW.points).2
    simp [WireFormat.point, hx, e]
  sound _ _ _ := trivial

theorem digest_lawful : (W.digest : WireCodec ε I V).Lawful (fun _ => True) (fun _ => ([] : List G)) :=
  WireCodec.lawful_of (fun x _ => ⟨_, rfl, congrArg some (hW.digest x)⟩) fun _ _ _ => trivial

theorem residue_lawful : (W.residue : WireCodec ε I Nat).Lawful (· < 2 ^ W.P.uint) (fun _ => ([] : List G)) := WireCodec.uint_lawful hW.uint.1

theorem ciphertext_lawful : (W.ciphertext : WireCodec ε I Nat).Lawful (· < 2 ^ W.P.wide) (fun _ => ([] : List G)) :=
  (WireCodec.struct_lawful (Fields.cons_lawful (WireCodec.uint_lawful hW.wide.1) Fields.nil_lawful) (fun _ => rfl) (fun _ => rfl)).congr (fun x => by simp) (fun x => by simp)

theorem publicKey_lawful : (W.publicKey : WireCodec ε I Nat).Lawful (· < 2 ^ W.P.uint) (fun _ => ([] : List G)) :=
  (WireCodec.struct_lawful (Fields.cons_lawful hW.residue_lawful Fields.nil_lawful) (fun _ => rfl) (fun _ => rfl)).congr (fun x => by simp) (fun x => by simp)

theorem ringPedersen_lawful : (W.ringPedersen : WireCodec ε I RPParamsWire).Lawful (RPFits W.P) (fun _ => ([] : List G)) :=
  (WireCodec.struct_lawful (hW.residue_lawful ;; hW.residue_lawful ;; hW.residue_lawful ;; Fields.nil_lawful) (fun _ => rfl) (fun _ => rfl)).congr
    (fun x => by simp [RPFits]) (fun x => by simp)

theorem sch_lawful : (W.sch : WireCodec ε I (SchProof (ZMod q))).Lawful (fun _ => True) (fun _ => ([] : List G)) :=
  (WireCodec.struct_lawful (hW.scalar_lawful ;; hW.scalar_lawful ;; Fields.nil_lawful) (fun _ => rfl) (fun _ => rfl)).congr
    (fun x => by simp) (fun x => by simp)

theorem elog_lawful : (W.elog : WireCodec ε I (ElogProof (ZMod q) G)).Lawful (fun _ => True) elogPoints :=
  (WireCodec.struct_lawful (hW.scalar_lawful ;; hW.point_lawful ;; hW.point_lawful ;; hW.point_lawful ;; hW.scalar_lawful ;; hW.scalar_lawful ;; Fields.nil_lawful) (fun _ => rfl) (fun _ => rfl)).congr
    (fun x => by simp) (fun x => by simp [elogPoints])

theorem encElg_lawful : (W.encElg : WireCodec ε I (EncElgProof q G)).Lawful (EncElgFits W.P) (fun p => [p.capY, p.capZ]) :=
  (WireCodec.struct_lawful (hW.scalar_lawful ;; hW.residue_lawful ;; hW.ciphertext_lawful ;; hW.point_lawful ;; hW.point_lawful ;; hW.residue_lawful ;; WireCodec.signed_lawful hW.uint.1 hW.uint.2 ;; hW.scalar_lawful ;; hW.residue_lawful ;; WireCodec.signed_lawful hW.wide.1 hW.wide.2 ;; Fields.nil_lawful) (fun _ => rfl) (fun _ => rfl)).congr
    (fun x => by exact ⟨fun ⟨h1, h2, h3, h4, h5, h6⟩ => ⟨trivial, h1, h2, trivial, trivial, h3, h4, trivial, h5, h6, trivial⟩, fun ⟨_, h1, h2, _, _, h3, h4, _, h5, h6, _⟩ => ⟨h1, h2, h3, h4, h5, h6⟩⟩) (fun x => by simp)

theorem affG_lawful : (W.affG : WireCodec ε I (AffGProof q G)).Lawful (AffGFits W.P) (fun p => [p.capBx]) :=
  (WireCodec.struct_lawful (hW.scalar_lawful ;; hW.ciphertext_lawful ;; hW.point_lawful ;; hW.ciphertext_lawful ;; hW.residue_lawful ;; hW.residue_lawful ;; hW.residue_lawful ;; hW.residue_lawful ;; WireCodec.signed_lawful hW.uint.1 hW.uint.2 ;; WireCodec.signed_lawful hW.uint.1 hW.uint.2 ;; WireCodec.signed_lawful hW.wide.1 hW.wide.2 ;; WireCodec.signed_lawful hW.wide.1 hW.wide.2 ;; hW.residue_lawful ;; hW.residue_lawful ;; Fields.nil_lawful) (fun _ => rfl) (fun _ => rfl)).congr
    (fun x => by exact ⟨fun ⟨h1, h2, h3, h4, h5, h6, h7, h8, h9, h10, h11, h12⟩ => ⟨trivial, h1, trivial, h2, h3, h4, h5, h6, h7, h8, h9, h10, h11, h12, trivial⟩, fun ⟨_, h1, _, h2, h3, h4, h5, h6, h7, h8, h9, h10, h11, h12, _⟩ => ⟨h1, h2, h3, h4, h5, h6, h7, h8, h9, h10, h11, h12⟩⟩) (fun x => by simp)

theorem affGStarCommitment_lawful : (W.affGStarCommitment : WireCodec ε I (AffGStarCommitment G)).Lawful (fun c => c.capA < 2 ^ W.P.wide ∧ c.capB < 2 ^ W.P.wide) (fun c => [c.capR]) :=
  (WireCodec.struct_lawful (hW.ciphertext_lawful ;; hW.point_lawful ;; hW.ciphertext_lawful ;; Fields.nil_lawful) (fun _ => rfl) (fun _ => rfl)).congr
    (fun x => by simp) (fun x => by simp)

theorem affGStarElement_lawful : (W.affGStarElement : WireCodec ε I AffGStarElement).Lawful (fun x => x.z.WF W.P.uint ∧ x.zPrime.WF W.P.uint ∧ x.w < 2 ^ W.P.uint ∧ x.lambda < 2 ^ W.P.uint) (fun _ => ([] : List G)) :=
  (WireCodec.struct_lawful (WireCodec.signed_lawful hW.uint.1 hW.uint.2 ;; WireCodec.signed_lawful hW.uint.1 hW.uint.2 ;; hW.residue_lawful ;; hW.residue_lawful ;; Fields.nil_lawful) (fun _ => rfl) (fun _ => rfl)).congr
    (fun x => by simp) (fun x => by simp)

theorem affGStar_lawful : (W.affGStar : WireCodec ε I (AffGStarProof G)).Lawful (AffGStarFits W.P) (fun p => p.commitments.map AffGStarCommitment.capR) :=
  (WireCodec.struct_lawful (WireCodec.bits_lawful ;; WireCodec.list_lawful hW.affGStarCommitment_lawful ;; WireCodec.list_lawful hW.affGStarElement_lawful ;; Fields.nil_lawful) (fun _ => rfl) (fun _ => rfl)).congr
    (fun x => by exact ⟨fun ⟨h1, h2, h3⟩ => ⟨h1, h2, h3, trivial⟩, fun ⟨h1, h2, h3, _⟩ => ⟨h1, h2, h3⟩⟩) (fun x => by simp [eq_comm])

theorem decCommitment_lawful : (W.decCommitment : WireCodec ε I (DecCommitment G)).Lawful (fun c => c.capA < 2 ^ W.P.wide) (fun c => [c.capB, c.capC]) :=
  (WireCodec.struct_lawful (hW.ciphertext_lawful ;; hW.point_lawful ;; hW.point_lawful ;; Fields.nil_lawful) (fun _ => rfl) (fun _ => rfl)).congr
    (fun x => by simp) (fun x => by simp)

theorem decElement_lawful : (W.decElement : WireCodec ε I DecElement).Lawful (fun x => x.z.WF W.P.uint ∧ x.w.WF W.P.wide ∧ x.nu < 2 ^ W.P.uint) (fun _ => ([] : List G)) :=
  (WireCodec.struct_lawful (WireCodec.signed_lawful hW.uint.1 hW.uint.2 ;; WireCodec.signed_lawful hW.wide.1 hW.wide.2 ;; hW.residue_lawful ;; Fields.nil_lawful) (fun _ => rfl) (fun _ => rfl)).congr
    (fun x => by simp) (fun x => by simp)

theorem decProof_lawful : (W.decProof : WireCodec ε I (DecProof G)).Lawful (DecFits W.P) decPoints :=
  (WireCodec.struct_lawful (WireCodec.bits_lawful ;; WireCodec.list_lawful hW.decCommitment_lawful ;; WireCodec.list_lawful hW.decElement_lawful ;; Fields.nil_lawful) (fun _ => rfl) (fun _ => rfl)).congr
    (fun x => by exact ⟨fun ⟨h1, h2, h3⟩ => ⟨h1, h2, h3, trivial⟩, fun ⟨h1, h2, h3, _⟩ => ⟨h1, h2, h3⟩⟩) (fun x => by simp [decPoints])

theorem fac_lawful : (W.fac : WireCodec ε I FacProof).Lawful (FacFits W.P) (fun _ => ([] : List G)) :=
  (WireCodec.struct_lawful (WireCodec.signed_lawful hW.uint.1 hW.uint.2 ;; hW.residue_lawful ;; hW.residue_lawful ;; hW.residue_lawful ;; hW.residue_lawful ;; hW.residue_lawful ;; WireCodec.signed_lawful hW.wide.1 hW.wide.2 ;; WireCodec.signed_lawful hW.wide.1 hW.wide.2 ;; WireCodec.signed_lawful hW.wide.1 hW.wide.2 ;; WireCodec.signed_lawful hW.wide.1 hW.wide.2 ;; WireCodec.signed_lawful hW.extra.1 hW.extra.2 ;; Fields.nil_lawful) (fun _ => rfl) (fun _ => rfl)).congr
    (fun x => by exact ⟨fun ⟨h1, h2, h3, h4, h5, h6, h7, h8, h9, h10, h11⟩ => ⟨h1, h2, h3, h4, h5, h6, h7, h8, h9, h10, h11, trivial⟩, fun ⟨h1, h2, h3, h4, h5, h6, h7, h8, h9, h10, h11, _⟩ => ⟨h1, h2, h3, h4, h5, h6, h7, h8, h9, h10, h11⟩⟩) (fun x => by simp)

theorem prm_lawful : (W.prm : WireCodec ε I PrmProof).Lawful (PrmFits W.P) (fun _ => ([] : List G)) :=
  (WireCodec.struct_lawful (WireCodec.list_lawful hW.residue_lawful ;; WireCodec.bits_lawful ;; WireCodec.list_lawful hW.residue_lawful ;; Fields.nil_lawful) (fun _ => rfl) (fun _ => rfl)).congr
    (fun x => by exact ⟨fun ⟨h1, h2, h3⟩ => ⟨h1, h2, h3, trivial⟩, fun ⟨h1, h2, h3, _⟩ => ⟨h1, h2, h3⟩⟩) (fun x => by simp)

theorem modElem_lawful : (W.modElem : WireCodec ε I ModElem).Lawful (fun x => x.x < 2 ^ W.P.uint ∧ x.z < 2 ^ W.P.uint) (fun _ => ([] : List G)) :=
  (WireCodec.struct_lawful (hW.residue_lawful ;; WireCodec.bool_lawful ;; WireCodec.bool_lawful ;; hW.residue_lawful ;; Fields.nil_lawful) (fun _ => rfl) (fun _ => rfl)).congr
    (fun x => by simp) (fun x => by simp)

theorem modProof_lawful : (W.modProof : WireCodec ε I ModProof).Lawful (ModFits W.P) (fun _ => ([] : List G)) :=
  (WireCodec.struct_lawful (hW.residue_lawful ;; WireCodec.list_lawful hW.residue_lawful ;; WireCodec.list_lawful hW.modElem_lawful ;; Fields.nil_lawful) (fun _ => rfl) (fun _ => rfl)).congr
    (fun x => by exact ⟨fun ⟨h1, h2, h3⟩ => ⟨h1, h2, h3, trivial⟩, fun ⟨h1, h2, h3, _⟩ => ⟨h1, h2, h3⟩⟩) (fun x => by simp)

theorem resharingBroadcast_lawful : (W.resharingBroadcast : WireCodec ε I (List G × ZMod q)).Lawful (fun _ => True) (fun m => m.1) :=
  (WireCodec.struct_lawful (WireCodec.list_lawful hW.point_lawful ;; hW.scalar_lawful ;; Fields.nil_lawful) (fun _ => rfl) (fun _ => rfl)).congr
    (fun x => by simp) (fun x => by simp)

theorem resharingDirect_lawful : (W.resharingDirect : WireCodec ε I (ZMod q)).Lawful (fun _ => True) (fun _ => ([] : List G)) :=
  (WireCodec.struct_lawful (hW.scalar_lawful ;; Fields.nil_lawful) (fun _ => rfl) (fun _ => rfl)).congr
    (fun x => by simp) (fun x => by simp)

theorem signingErr_lawful : (W.signingErr : WireCodec ε I (Signing.MsgErr I G)).Lawful (errFits W.P) errPoints :=
  (WireCodec.struct_lawful (hW.decProof_lawful ;; WireCodec.map_lawful hW.affGStar_lawful ;; Fields.nil_lawful) (fun _ => rfl) (fun _ => rfl)).congr
    (fun x => by simp [errFits]) (fun x => by simp [errPoints])

theorem nothing_lawful : (WireFormat.nothing : WireCodec ε I Unit).Lawful (fun _ => True) (fun _ => ([] : List G)) :=
  WireCodec.struct_lawful Fields.nil_lawful (fun _ => rfl) (fun _ => rfl)

theorem one_lawful {α : Type} {c : WireCodec ε I α} {fits : α → Prop} {pts : α → List G} (hc : c.Lawful fits pts) :
    (WireCodec.struct (Fields.cons c .nil) (fun v => (v, ())) Prod.fst).Lawful fits pts :=
  (WireCodec.struct_lawful (hc ;; Fields.nil_lawful) (fun _ => rfl) (fun _ => rfl)).congr (fun x => by simp) (fun x => by simp)

theorem keyInit_lawful (p : Part) (r : Nat) : (W.keyInit p r : WireCodec ε I (KeyInit.Parts (ZMod q) G V p r)).Lawful (keyInitFits p r) (keyInitPoints p r) := by
  rcases p with _ | _ | _
  · rcases r with _ | _ | _ | r
    · exact hW.nothing_lawful
    · exact hW.one_lawful hW.digest_lawful
    · exact hW.one_lawful WireCodec.bits_lawful
    · exact hW.nothing_lawful
  · rcases r with _ | _ | _ | _ | r
    · exact hW.nothing_lawful
    · exact hW.nothing_lawful
    · exact (WireCodec.struct_lawful (hW.point_lawful ;; hW.point_lawful ;; WireCodec.bits_lawful ;; Fields.nil_lawful) (fun _ => rfl) (fun _ => rfl)).congr
        (fun x => by simp [keyInitFits]) (fun x => by simp [keyInitPoints])
    · exact hW.one_lawful hW.sch_lawful
    · exact hW.nothing_lawful
  · exact hW.nothing_lawful

theorem auxGen_lawful (p : Part) (r : Nat) : (W.auxGen p r : WireCodec ε I (AuxGen.Parts V p r)).Lawful (auxGenFits W.P p r) (fun _ => ([] : List G)) := by
  rcases p with _ | _ | _
  · rcases r with _ | _ | _ | r
    · exact hW.nothing_lawful
    · exact hW.one_lawful hW.digest_lawful
    · exact (WireCodec.struct_lawful (hW.ringPedersen_lawful ;; WireCodec.bits_lawful ;; Fields.nil_lawful) (fun _ => rfl) (fun _ => rfl)).congr
        (fun x => by simp [auxGenFits]) (fun x => by simp)
    · exact hW.nothing_lawful
  · rcases r with _ | _ | _ | _ | r
    · exact hW.nothing_lawful
    · exact hW.nothing_lawful
    · exact (WireCodec.struct_lawful (hW.publicKey_lawful ;; hW.prm_lawful ;; WireCodec.bits_lawful ;; Fields.nil_lawful) (fun _ => rfl) (fun _ => rfl)).congr
        (fun x => by simp [auxGenFits]) (fun x => by simp)
    · exact hW.one_lawful hW.modProof_lawful
    · exact hW.nothing_lawful
  · rcases r with _ | _ | _ | _ | r
    · exact hW.nothing_lawful
    · exact hW.nothing_lawful
    · exact hW.nothing_lawful
    · exact hW.one_lawful hW.fac_lawful
    · exact hW.nothing_lawful

theorem keyRefresh_lawful (p : Part) (r : Nat) :
    (W.keyRefresh p r : WireCodec ε I (KeyRefresh.Parts I (ZMod q) G V p r)).Lawful (keyRefreshFits W.P p r) (keyRefreshPoints p r) := by
  rcases p with _ | _ | _
  · rcases r with _ | _ | _ | _ | r
    · exact hW.nothing_lawful
    · exact hW.one_lawful hW.digest_lawful
    · exact (WireCodec.struct_lawful (hW.ringPedersen_lawful ;; WireCodec.map_lawful hW.point_lawful ;; WireCodec.bits_lawful ;; Fields.nil_lawful) (fun _ => rfl) (fun _ => rfl)).congr
        (fun x => by simp [keyRefreshFits, AllValues]) (fun x => by simp [keyRefreshPoints])
    · exact (hW.one_lawful (WireCodec.map_lawful hW.sch_lawful)).congr (fun x => by simp [keyRefreshFits, AllValues]) (fun x => by simp [keyRefreshPoints])
    · exact hW.nothing_lawful
  · rcases r with _ | _ | _ | _ | r
    · exact hW.nothing_lawful
    · exact hW.nothing_lawful
    · exact (WireCodec.struct_lawful (WireCodec.map_lawful hW.point_lawful ;; WireCodec.map_lawful hW.point_lawful ;; hW.publicKey_lawful ;; hW.prm_lawful ;; WireCodec.bits_lawful ;;
          Fields.nil_lawful) (fun _ => rfl) (fun _ => rfl)).congr (fun x => by simp [keyRefreshFits, AllValues]) (fun x => by simp [keyRefreshPoints])
    · exact hW.one_lawful hW.modProof_lawful
    · exact hW.nothing_lawful
  · rcases r with _ | _ | _ | _ | r
    · exact hW.nothing_lawful
    · exact hW.nothing_lawful
    · exact hW.nothing_lawful
    · exact (WireCodec.struct_lawful (hW.fac_lawful ;; hW.scalar_lawful ;; Fields.nil_lawful) (fun _ => rfl) (fun _ => rfl)).congr
        (fun x => by simp [keyRefreshFits]) (fun x => by simp [keyRefreshPoints])
    · exact hW.nothing_lawful

theorem signing_lawful (p : Part) (r : Nat) : (W.signing p r : WireCodec ε I (Signing.Parts q I G p r)).Lawful (signingFits W.P p r) (signingPoints p r) := by
  rcases p with _ | _ | _
  · rcases r with _ | _ | _ | _ | _ | _ | _ | r
    · exact hW.nothing_lawful
    · exact (WireCodec.struct_lawful (hW.ciphertext_lawful ;; hW.ciphertext_lawful ;; hW.point_lawful ;; hW.point_lawful ;; hW.point_lawful ;; hW.point_lawful ;; hW.point_lawful ;;
          Fields.nil_lawful) (fun _ => rfl) (fun _ => rfl)).congr (fun x => by simp [signingFits]) (fun x => by simp [signingPoints])
    · exact (WireCodec.struct_lawful (hW.point_lawful ;; WireCodec.map_lawful hW.ciphertext_lawful ;; WireCodec.map_lawful hW.ciphertext_lawful ;; Fields.nil_lawful) (fun _ => rfl)
          (fun _ => rfl)).congr (fun x => by simp [signingFits]) (fun x => by simp [signingPoints])
    · exact hW.one_lawful hW.scalar_lawful
    · exact hW.nothing_lawful
    · exact hW.signingErr_lawful
    · exact hW.signingErr_lawful
    · exact hW.nothing_lawful
  · rcases r with _ | _ | _ | _ | _ | _ | _ | r
    · exact hW.nothing_lawful
    · exact hW.nothing_lawful
    · exact (WireCodec.struct_lawful (WireCodec.map_lawful hW.ciphertext_lawful ;; WireCodec.map_lawful hW.ciphertext_lawful ;; hW.elog_lawful ;; WireCodec.map_lawful hW.affG_lawful ;;
          WireCodec.map_lawful hW.affG_lawful ;; Fields.nil_lawful) (fun _ => rfl) (fun _ => rfl)).congr (fun x => by simp [signingFits])
          (fun x => by simp [signingPoints, eq_comm])
    · exact (WireCodec.struct_lawful (hW.point_lawful ;; hW.elog_lawful ;; hW.point_lawful ;; Fields.nil_lawful) (fun _ => rfl) (fun _ => rfl)).congr
        (fun x => by simp [signingFits]) (fun x => by simp [signingPoints])
    · exact hW.one_lawful hW.scalar_lawful
    · exact hW.signingErr_lawful
    · exact hW.signingErr_lawful
    · exact hW.nothing_lawful
  · rcases r with _ | _ | r
    · exact hW.nothing_lawful
    · exact (WireCodec.struct_lawful (hW.encElg_lawful ;; hW.encElg_lawful ;; Fields.nil_lawful) (fun _ => rfl) (fun _ => rfl)).congr
        (fun x => by simp [signingFits]) (fun x => by simp [signingPoints])
    · exact hW.nothing_lawful

end Spec.FormatValid
end
end Synedrion
