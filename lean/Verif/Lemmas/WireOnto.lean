import Verif.Lemmas.Wire

/-!
# Lemmas: everything can be written by hand

Whoever does not use the encoders of the code can also send identity points: the decoders accept them.
-/

set_option linter.unusedSectionVars false

namespace Synedrion

open Spec

section
variable {ε I G α β : Type} [AddCommGroup G]

/-- Every value that fits can be decoded from something. -/
def WireCodec.Onto (c : WireCodec ε I α) (fits : α → Prop) : Prop := ∀ x, fits x → ∃ d, c.dec d = some x

/-- The same for fields -/
def Fields.Onto (f : Fields ε I α) (fits : α → Prop) : Prop := ∀ x, fits x → ∃ l, f.dec l = some x

theorem WireCodec.Onto.congr {c : WireCodec ε I α} {fits fits' : α → Prop} (h : c.Onto fits) (hf : ∀ x, fits' x → fits x) : c.Onto fits' := fun x hx => h x (hf x hx)

/-- What has no points -/
theorem WireCodec.Lawful.onto {c : WireCodec ε I α} {fits : α → Prop} (h : c.Lawful fits (fun _ => ([] : List G))) : c.Onto fits := fun x hx => by
  obtain ⟨d, -, hd⟩ := h.ok x hx List.not_mem_nil
  exact ⟨d, hd⟩

theorem Fields.nil_onto : (Fields.nil : Fields ε I Unit).Onto (fun _ => True) := fun _ _ => ⟨[], rfl⟩

theorem Fields.cons_onto {c : WireCodec ε I α} {f : Fields ε I β} {fits : α → Prop} {fits' : β → Prop} (hc : c.Onto fits) (hf : f.Onto fits') :
    (Fields.cons c f).Onto (fun x => fits x.1 ∧ fits' x.2) := fun x h => by
  obtain ⟨d, hd⟩ := hc x.1 h.1
  obtain ⟨l, hl⟩ := hf x.2 h.2
  exact ⟨d :: l, by simp [Fields.cons, hd, hl]⟩

theorem WireCodec.struct_onto {f : Fields ε I β} {fits : β → Prop} (hf : f.Onto fits) {get : α → β} {mk : β → α} (h1 : ∀ x, mk (get x) = x) :
    (WireCodec.struct f get mk).Onto (fun x => fits (get x)) := fun x hx => by
  obtain ⟨l, hl⟩ := hf _ hx
  exact ⟨.seq l, by simp [WireCodec.struct, hl, h1]⟩

theorem WireCodec.list_onto {c : WireCodec ε I α} {fits : α → Prop} (hc : c.Onto fits) : c.list.Onto (fun l => ∀ x ∈ l, fits x) := fun l h => by
  have : ∃ ds, WireCodec.decList c.dec ds = some l := by
    induction l with
    | nil => exact ⟨[], rfl⟩
    | cons x l ih =>
      obtain ⟨d, hd⟩ := hc x (h x List.mem_cons_self)
      obtain ⟨ds, hds⟩ := ih fun y hy => h y (List.mem_cons_of_mem _ hy)
      exact ⟨d :: ds, by simp [WireCodec.decList, hd, hds]⟩
  obtain ⟨ds, hds⟩ := this
  exact ⟨.seq ds, hds⟩

theorem WireCodec.entry_onto {c : WireCodec ε I α} {fits : α → Prop} (hc : c.Onto fits) : c.entry.Onto (fun x => fits x.2) := fun x h => by
  obtain ⟨d, hd⟩ := hc x.2 h
  exact ⟨.seq [.id x.1, d], by simp [WireCodec.entry, hd]⟩

theorem WireCodec.map_onto [LinearOrder I] {c : WireCodec ε I α} {fits : α → Prop} (hc : c.Onto fits) : c.map.Onto (AllValues fits) := fun m h => by
  obtain ⟨d, hd⟩ := WireCodec.list_onto (WireCodec.entry_onto hc) m.entries fun x hx => h x.2 (List.mem_map.2 ⟨x, hx, rfl⟩)
  exact ⟨d, by simp [WireCodec.map, hd, BMap.ofList_entries]⟩

end

@[inherit_doc] local infixr:67 " ;; " => Fields.cons_onto

section
variable {ε I G V : Type} [LinearOrder I] [AddCommGroup G] {q : Nat} [Fact q.Prime] {W : WireFormat G V}

namespace Spec.FormatValid
variable (hW : FormatValid W q)
include hW

theorem point_onto : (W.point : WireCodec ε I G).Onto (fun _ => True) := fun x _ => ⟨.bytes (W.S.encode x), hW.points.decode x⟩

theorem elog_onto : (W.elog : WireCodec ε I (ElogProof (ZMod q) G)).Onto (fun _ => True) :=
  (WireCodec.struct_onto (hW.scalar_lawful.onto ;; hW.point_onto ;; hW.point_onto ;; hW.point_onto ;; hW.scalar_lawful.onto ;; hW.scalar_lawful.onto ;; Fields.nil_onto) (fun _ => rfl)).congr
    (fun x => by simp)

theorem encElg_onto : (W.encElg : WireCodec ε I (EncElgProof q G)).Onto (EncElgFits W.P) :=
  (WireCodec.struct_onto (hW.scalar_lawful.onto ;; hW.residue_lawful.onto ;; hW.ciphertext_lawful.onto ;; hW.point_onto ;; hW.point_onto ;; hW.residue_lawful.onto ;; WireCodec.Lawful.onto (G := G) (WireCodec.signed_lawful hW.uint.1 hW.uint.2) ;; hW.scalar_lawful.onto ;; hW.residue_lawful.onto ;; WireCodec.Lawful.onto (G := G) (WireCodec.signed_lawful hW.wide.1 hW.wide.2) ;; Fields.nil_onto) (fun _ => rfl)).congr
    (fun x => by exact fun ⟨h1, h2, h3, h4, h5, h6⟩ => ⟨trivial, h1, h2, trivial, trivial, h3, h4, trivial, h5, h6, trivial⟩)

theorem affG_onto : (W.affG : WireCodec ε I (AffGProof q G)).Onto (AffGFits W.P) :=
  (WireCodec.struct_onto (hW.scalar_lawful.onto ;; hW.ciphertext_lawful.onto ;; hW.point_onto ;; hW.ciphertext_lawful.onto ;; hW.residue_lawful.onto ;; hW.residue_lawful.onto ;; hW.residue_lawful.onto ;; hW.residue_lawful.onto ;; WireCodec.Lawful.onto (G := G) (WireCodec.signed_lawful hW.uint.1 hW.uint.2) ;; WireCodec.Lawful.onto (G := G) (WireCodec.signed_lawful hW.uint.1 hW.uint.2) ;; WireCodec.Lawful.onto (G := G) (WireCodec.signed_lawful hW.wide.1 hW.wide.2) ;; WireCodec.Lawful.onto (G := G) (WireCodec.signed_lawful hW.wide.1 hW.wide.2) ;; hW.residue_lawful.onto ;; hW.residue_lawful.onto ;; Fields.nil_onto) (fun _ => rfl)).congr
    (fun x => by exact fun ⟨h1, h2, h3, h4, h5, h6, h7, h8, h9, h10, h11, h12⟩ => ⟨trivial, h1, trivial, h2, h3, h4, h5, h6, h7, h8, h9, h10, h11, h12, trivial⟩)

theorem affGStarCommitment_onto : (W.affGStarCommitment : WireCodec ε I (AffGStarCommitment G)).Onto (fun c => c.capA < 2 ^ W.P.wide ∧ c.capB < 2 ^ W.P.wide) :=
  (WireCodec.struct_onto (hW.ciphertext_lawful.onto ;; hW.point_onto ;; hW.ciphertext_lawful.onto ;; Fields.nil_onto) (fun _ => rfl)).congr
    (fun x => by simp)

theorem affGStar_onto : (W.affGStar : WireCodec ε I (AffGStarProof G)).Onto (AffGStarFits W.P) :=
  (WireCodec.struct_onto (WireCodec.Lawful.onto (G := G) WireCodec.bits_lawful ;; WireCodec.list_onto hW.affGStarCommitment_onto ;; WireCodec.list_onto hW.affGStarElement_lawful.onto ;; Fields.nil_onto) (fun _ => rfl)).congr
    (fun x => by exact fun ⟨h1, h2, h3⟩ => ⟨h1, h2, h3, trivial⟩)

theorem decCommitment_onto : (W.decCommitment : WireCodec ε I (DecCommitment G)).Onto (fun c => c.capA < 2 ^ W.P.wide) :=
  (WireCodec.struct_onto (hW.ciphertext_lawful.onto ;; hW.point_onto ;; hW.point_onto ;; Fields.nil_onto) (fun _ => rfl)).congr
    (fun x => by simp)

theorem decProof_onto : (W.decProof : WireCodec ε I (DecProof G)).Onto (DecFits W.P) :=
  (WireCodec.struct_onto (WireCodec.Lawful.onto (G := G) WireCodec.bits_lawful ;; WireCodec.list_onto hW.decCommitment_onto ;; WireCodec.list_onto hW.decElement_lawful.onto ;; Fields.nil_onto) (fun _ => rfl)).congr
    (fun x => by exact fun ⟨h1, h2, h3⟩ => ⟨h1, h2, h3, trivial⟩)

theorem resharingBroadcast_onto : (W.resharingBroadcast : WireCodec ε I (List G × ZMod q)).Onto (fun _ => True) :=
  (WireCodec.struct_onto (WireCodec.list_onto hW.point_onto ;; hW.scalar_lawful.onto ;; Fields.nil_onto) (fun _ => rfl)).congr
    (fun x => by simp)

theorem signingErr_onto : (W.signingErr : WireCodec ε I (Signing.MsgErr I G)).Onto (errFits W.P) :=
  (WireCodec.struct_onto (hW.decProof_onto ;; WireCodec.map_onto hW.affGStar_onto ;; Fields.nil_onto) (fun _ => rfl)).congr
    (fun x => by simp [errFits])

theorem one_onto {α : Type} {c : WireCodec ε I α} {fits : α → Prop} (hc : c.Onto fits) :
    (WireCodec.struct (Fields.cons c .nil) (fun v => (v, ())) Prod.fst).Onto fits :=
  (WireCodec.struct_onto (hc ;; Fields.nil_onto) (fun _ => rfl)).congr (fun x => by simp)

theorem keyInit_onto (p : Part) (r : Nat) : (W.keyInit p r : WireCodec ε I (KeyInit.Parts (ZMod q) G V p r)).Onto (keyInitFits p r) := by
  rcases p with _ | _ | _
  · rcases r with _ | _ | _ | r
    · exact hW.nothing_lawful.onto
    · exact hW.one_onto hW.digest_lawful.onto
    · exact hW.one_onto (WireCodec.Lawful.onto (G := G) WireCodec.bits_lawful)
    · exact hW.nothing_lawful.onto
  · rcases r with _ | _ | _ | _ | r
    · exact hW.nothing_lawful.onto
    · exact hW.nothing_lawful.onto
    · exact (WireCodec.struct_onto (hW.point_onto ;; hW.point_onto ;; WireCodec.Lawful.onto (G := G) WireCodec.bits_lawful ;; Fields.nil_onto) (fun _ => rfl)).congr
        (fun x => by simp [keyInitFits])
    · exact hW.one_onto hW.sch_lawful.onto
    · exact hW.nothing_lawful.onto
  · exact hW.nothing_lawful.onto

theorem keyRefresh_onto (p : Part) (r : Nat) :
    (W.keyRefresh p r : WireCodec ε I (KeyRefresh.Parts I (ZMod q) G V p r)).Onto (keyRefreshFits W.P p r) := by
  rcases p with _ | _ | _
  · rcases r with _ | _ | _ | _ | r
    · exact hW.nothing_lawful.onto
    · exact hW.one_onto hW.digest_lawful.onto
    · exact (WireCodec.struct_onto (hW.ringPedersen_lawful.onto ;; WireCodec.map_onto hW.point_onto ;; WireCodec.Lawful.onto (G := G) WireCodec.bits_lawful ;; Fields.nil_onto) (fun _ => rfl)).congr
        (fun x => by simp [keyRefreshFits, AllValues])
    · exact (hW.one_onto (WireCodec.map_onto hW.sch_lawful.onto)).congr (fun x => by simp [keyRefreshFits, AllValues])
    · exact hW.nothing_lawful.onto
  · rcases r with _ | _ | _ | _ | r
    · exact hW.nothing_lawful.onto
    · exact hW.nothing_lawful.onto
    · exact (WireCodec.struct_onto (WireCodec.map_onto hW.point_onto ;; WireCodec.map_onto hW.point_onto ;; hW.publicKey_lawful.onto ;; hW.prm_lawful.onto ;; WireCodec.Lawful.onto (G := G) WireCodec.bits_lawful ;;
          Fields.nil_onto) (fun _ => rfl)).congr (fun x => by simp [keyRefreshFits, AllValues])
    · exact hW.one_onto hW.modProof_lawful.onto
    · exact hW.nothing_lawful.onto
  · rcases r with _ | _ | _ | _ | r
    · exact hW.nothing_lawful.onto
    · exact hW.nothing_lawful.onto
    · exact hW.nothing_lawful.onto
    · exact (WireCodec.struct_onto (hW.fac_lawful.onto ;; hW.scalar_lawful.onto ;; Fields.nil_onto) (fun _ => rfl)).congr
        (fun x => by simp [keyRefreshFits])
    · exact hW.nothing_lawful.onto

theorem signing_onto (p : Part) (r : Nat) : (W.signing p r : WireCodec ε I (Signing.Parts q I G p r)).Onto (signingFits W.P p r) := by
  rcases p with _ | _ | _
  · rcases r with _ | _ | _ | _ | _ | _ | _ | r
    · exact hW.nothing_lawful.onto
    · exact (WireCodec.struct_onto (hW.ciphertext_lawful.onto ;; hW.ciphertext_lawful.onto ;; hW.point_onto ;; hW.point_onto ;; hW.point_onto ;; hW.point_onto ;; hW.point_onto ;;
          Fields.nil_onto) (fun _ => rfl)).congr (fun x => by simp [signingFits])
    · exact (WireCodec.struct_onto (hW.point_onto ;; WireCodec.map_onto hW.ciphertext_lawful.onto ;; WireCodec.map_onto hW.ciphertext_lawful.onto ;; Fields.nil_onto) (fun _ => rfl)).congr (fun x => by simp [signingFits])
    · exact hW.one_onto hW.scalar_lawful.onto
    · exact hW.nothing_lawful.onto
    · exact hW.signingErr_onto
    · exact hW.signingErr_onto
    · exact hW.nothing_lawful.onto
  · rcases r with _ | _ | _ | _ | _ | _ | _ | r
    · exact hW.nothing_lawful.onto
    · exact hW.nothing_lawful.onto
    · exact (WireCodec.struct_onto (WireCodec.map_onto hW.ciphertext_lawful.onto ;; WireCodec.map_onto hW.ciphertext_lawful.onto ;; hW.elog_onto ;; WireCodec.map_onto hW.affG_onto ;;
          WireCodec.map_onto hW.affG_onto ;; Fields.nil_onto) (fun _ => rfl)).congr (fun x => by simp [signingFits])
    · exact (WireCodec.struct_onto (hW.point_onto ;; hW.elog_onto ;; hW.point_onto ;; Fields.nil_onto) (fun _ => rfl)).congr
        (fun x => by simp [signingFits])
    · exact hW.one_onto hW.scalar_lawful.onto
    · exact hW.signingErr_onto
    · exact hW.signingErr_onto
    · exact hW.nothing_lawful.onto
  · rcases r with _ | _ | r
    · exact hW.nothing_lawful.onto
    · exact (WireCodec.struct_onto (hW.encElg_onto ;; hW.encElg_onto ;; Fields.nil_onto) (fun _ => rfl)).congr
        (fun x => by simp [signingFits])
    · exact hW.nothing_lawful.onto

end Spec.FormatValid
end
end Synedrion
