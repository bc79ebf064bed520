import Verif.Lemmas.WireEvidenceSigning
import Verif.Lemmas.WireFinish

/-!
# From evidence over messages to serialized evidence
-/

set_option linter.unusedSectionVars false

namespace Synedrion

open Spec

section Generic

variable {I M S E R : Type} [LinearOrder I] {P : Machine I M S E R} {T : Transport I M} {panics : Panics I M S} {honest : Set I} {init : I → S} {ok : M → Prop} {inv : S → Prop}
  {Mp : Part → Nat → Type} {part : M → (r : Nat) → (p : Part) → Option (Mp p r)} {dec : (p : Part) → (r : Nat) → Data I → Option (Mp p r)}
  {n : Net I (Packet I) S (WireErr E) R} {n' : Net I M S E R}

/-- Whoever has finished has completed every round it began. -/
theorem begun_past_of_finished {M : Type} {P : Machine I M S E R} {n : Net I M S E R} (h : P.Reachable honest init n) {i : I} {r : R} (hf : n.status i = .finished r) {s : S} (hs : s ∈ n.begun i) :
    ∃ got, (s, got) ∈ n.past i := by
  obtain ⟨l, hl, hrep⟩ := (h.inv i).begun s hs
  have hfin := h.finished hf
  have hlt : l.length < (n.past i).length := by
    have hle := hl.length_le
    rw [List.length_map] at hle
    refine lt_of_le_of_ne hle fun he => ?_
    have := hl.eq_of_length (by rw [List.length_map]; exact he)
    rw [← this, hrep] at hfin
    cases hfin
  have hdec : n.past i = (n.past i).take l.length ++ ((n.past i)[l.length].1, (n.past i)[l.length].2) :: (n.past i).drop (l.length + 1) := by
    conv_lhs => rw [← List.take_append_drop l.length (n.past i), List.drop_eq_getElem_cons hlt]
  have hr := h.past_replay i _ _ _ _ hdec
  rw [List.map_take, ← List.prefix_iff_eq_take.1 hl, hrep] at hr
  have hr : s = (n.past i)[l.length].1 := Sum.inl.inj (Out.ok.inj hr)
  exact ⟨(n.past i)[l.length].2, by rw [hr]; exact List.getElem_mem hlt⟩

/-- Whoever has finished did not panic. -/
theorem quiet_of_finished (h : (overWire P T panics).Reachable honest init n) {i : I} {r : R} (hf : n.status i = .finished r) {s : S} (hs : s ∈ n.begun i) : ∃ got', panics.next s got' = false := by
  obtain ⟨l, ⟨l', hl⟩, hrep⟩ := (h.inv i).begun s hs
  have hst := h.finished hf
  rw [← hl] at hst
  obtain ⟨got, x, hy⟩ := replay_goes_on hrep hst
  unfold overWire at hy
  dsimp only at hy
  split at hy
  swap
  · cases hy
  split at hy
  · cases hy
  · next got' hu =>
    split at hy
    · cases hy
    · rename_i hq
      exact ⟨got', by simpa using hq⟩

/-- What a party that has finished has signed can be presented in serialized form. -/
theorem signedBy_write (hT : Splits T part dec) (hF : Faithful P T ok inv) (hinit : ∀ i ∈ honest, inv (init i)) (h : (overWire P T panics).Reachable honest init n)
    (hs : SameCourse T P.round honest n n') {j reporter : I} (hj : j ∈ honest) {res : R} (hf : n.status j = .finished res) {k : Nat} {ev' : Package I Mp k}
    (hev : SignedBy P part n' j reporter ev') : ∃ ev : Exhibit I k, SignedBy (overWire P T panics) packetPart n j reporter ev ∧ ev.decode dec = ev' := by
  have hsent : ∀ i r m p x, P.Sent n' j i r m → part m r p = some x → ∃ dd b, (overWire P T panics).Sent n j i r dd ∧ dd.part p = some b ∧ dec p r b = some x := by
    rintro i r m p x ⟨s, hb, rfl, hmem⟩ hp
    rw [hs.begun] at hb
    obtain ⟨dd, hdd⟩ := packs_of_packable (packable_of_finished h hf hb) hmem
    have hu := hF.trip s (begun_inv hF hinit h hj hb) (i, m) hmem dd hdd
    have hpart := hT.parts _ _ _ hu p
    rw [hp] at hpart
    obtain ⟨b, hb1, hb2⟩ := Option.bind_eq_some_iff.1 hpart
    exact ⟨dd, b, ⟨s, hb, rfl, mem_packAll.2 ⟨m, hmem, hdd⟩⟩, hb1, hb2⟩
  have hcur : ∀ p, ∃ o : Option (Data I), (∀ b, o = some b → ∃ i dd, (overWire P T panics).Sent n j i k dd ∧ (p = .direct → i = reporter) ∧ dd.part p = some b) ∧ o.bind (dec p k) = ev'.current p := by
    intro p
    cases hc : ev'.current p with
    | none => exact ⟨none, (fun b hb => by cases hb), rfl⟩
    | some x =>
      obtain ⟨i, m, h1, h2, h3⟩ := hev.current p x hc
      obtain ⟨dd, b, h4, h5, h6⟩ := hsent i k m p x h1 h3
      exact ⟨some b, (fun b' hb => by cases hb; exact ⟨i, dd, h4, h2, h5⟩), h6⟩
  have hprev : ∀ r, ∃ o : Option (Part → Option (Data I)), (∀ msg p b, o = some msg → msg p = some b → ∃ i dd, (overWire P T panics).Sent n j i r dd ∧ (p = .direct → i = reporter) ∧ dd.part p = some b) ∧
      (o.map fun m p => (m p).bind (dec p r)) = ev'.previous r := by
    intro r
    cases hc : ev'.previous r with
    | none => exact ⟨none, (fun _ _ b hb => by cases hb), rfl⟩
    | some msg' =>
      have : ∀ p, ∃ o : Option (Data I), (∀ b, o = some b → ∃ i dd, (overWire P T panics).Sent n j i r dd ∧ (p = .direct → i = reporter) ∧ dd.part p = some b) ∧ o.bind (dec p r) = msg' p := by
        intro p
        cases hc' : msg' p with
        | none => exact ⟨none, (fun b hb => by cases hb), rfl⟩
        | some x =>
          obtain ⟨i, m, h1, h2, h3⟩ := hev.previous r msg' p x hc hc'
          obtain ⟨dd, b, h4, h5, h6⟩ := hsent i r m p x h1 h3
          exact ⟨some b, (fun b' hb => by cases hb; exact ⟨i, dd, h4, h2, h5⟩), h6⟩
      choose f hf1 hf2 using this
      exact ⟨some f, (fun msg p b hm hb => by cases hm; exact hf1 p b hb), by simp only [Option.map_some, hf2]⟩
  have hcomb : ∀ r, ∃ o : Option (BMap I (Data I)), (∀ echos, o = some echos → ∃ x ∈ n.past j, P.round x.1 = r ∧ echos.entries.Perm (echosOf packetPart r x.2)) ∧
      o.bind (BMap.decodeAll (dec .echo r)) = ev'.combined r := by
    intro r
    cases hc : ev'.combined r with
    | none => exact ⟨none, (fun _ hb => by cases hb), rfl⟩
    | some echos' =>
      obtain ⟨y, hy, rfl, hperm⟩ := hev.combined r echos' hc
      obtain ⟨x, hx, hxy, hreads⟩ := mem_of_forall₂ (past_of_running hs (by rw [hf]; simp)) hy
      have hnd : (x.2.map Prod.fst).Nodup := ((h.inv j).past x hx).2.1.1
      rw [hxy] at hreads
      have hsub : ∀ l : List (I × Packet I), ((echosOf packetPart (P.round y.1) l).map Prod.fst).Sublist (l.map Prod.fst) := by
        intro l
        induction l with
        | nil => exact .slnil
        | cons a l ih =>
          unfold echosOf at ih ⊢
          rw [List.filterMap_cons]
          cases ha : packetPart a.2 (P.round y.1) .echo with
          | none => exact ih.cons _
          | some v => exact ih.cons_cons _
      obtain ⟨echos, he⟩ := BMap.exists_entries (l := echosOf packetPart (P.round y.1) x.2) (hnd.sublist (hsub _))
      have hall : ∀ e ∈ echos.entries, (dec .echo (P.round y.1) e.2).isSome := by
        intro e hee
        obtain ⟨a, ha, hae⟩ := List.mem_filterMap.1 (he.subset hee)
        obtain ⟨v, hv, rfl⟩ := Option.map_eq_some_iff.1 hae
        obtain ⟨b, -, -, hu⟩ := exists_of_forall₂ hreads ha
        have h1 := hT.parts _ _ _ hu .echo
        have h2 := hT.echo _ _ _ hu (by rw [show a.2.echo = some v from hv]; rfl)
        rw [← h1, show a.2.part .echo = some v from hv] at h2
        exact h2
      obtain ⟨l', hl'⟩ := decodeEntries_isSome hall
      have hd : echos.decodeAll (dec .echo (P.round y.1)) = some (BMap.ofList l') := by unfold BMap.decodeAll; rw [hl']; rfl
      refine ⟨some echos, (fun e hh => by cases hh; exact ⟨x, hx, by rw [hxy], he⟩), ?_⟩
      show echos.decodeAll (dec .echo (P.round y.1)) = some echos'
      rw [hd]
      refine congrArg some (BMap.ext fun k => ?_)
      have hent := (BMap.decodeAll_some hd).1
      have hp : (BMap.ofList l').entries.Perm echos'.entries := by
        rw [hent]
        refine (he.filterMap _).trans ?_
        rw [← echosOf_reads hT hreads]
        exact hperm.symm
      refine Option.ext fun v => ?_
      rw [BMap.get?_eq_some_iff, BMap.get?_eq_some_iff]
      exact hp.mem_iff
  choose cur hc1 hc2 using hcur
  choose prev hp1 hp2 using hprev
  choose comb hb1 hb2 using hcomb
  refine ⟨⟨cur, prev, comb⟩, ⟨?_, ?_, ?_⟩, ?_⟩
  · exact fun p b hb => hc1 p b hb
  · exact fun r msg p b hm hb => hp1 r msg p b hm hb
  · exact fun r e he => hb1 r e he
  · unfold Package.decode
    dsimp only
    cases ev'
    simp only [Package.mk.injEq]
    exact ⟨funext hc2, funext hp2, funext hb2⟩

/-- What is received over the wire can be read, does not make the receiver panic, and is accepted. -/
theorem wire_recv_ok {s : S} {j : I} {d : Packet I}
    (h : (overWire P T panics).recv s j d = .ok ()) : T.packable (P.send s) = true ∧ ∃ m, T.unpack (P.round s) d = some m ∧ panics.recv s j m = false ∧ P.recv s j m = .ok () := by
  simp only [overWire] at h
  split at h
  swap
  · cases h
  refine ⟨‹_›, ?_⟩
  cases hu : T.unpack (P.round s) d with
  | none => rw [hu] at h; cases h
  | some m =>
    rw [hu] at h
    dsimp only at h
    split at h
    · cases h
    · rename_i hp
      refine ⟨m, rfl, by simpa using hp, ?_⟩
      cases hr : P.recv s j m with
      | ok a => rfl
      | panic => rw [hr] at h; cases h
      | err a => rw [hr] at h; cases a <;> cases h

end Generic

namespace Signing

variable {I G Ep : Type} [LinearOrder I] {q : Nat} [AddCommGroup G] [Fact q.Prime] [Module (ZMod q) G] [DecidableEq G] {E : Env q I Ep G} {honest : Set I} {r : I → Round1 q I Ep G}
  {init : I → State q I Ep G} {n : Net I (Message q I G) (State q I Ep G) (Err I) (RecoverableSignature q)}

/-- Whoever has finished has completed four rounds. -/
theorem finished_length (hinit : ∀ i ∈ honest, begin E (r i) = .ok (init i)) (h : (machine E).Reachable honest init n) {i : I} (hi : i ∈ honest) {sig : RecoverableSignature q}
    (hf : n.status i = .finished sig) : (n.past i).length = 4 := by
  have h0 := hinit i hi
  unfold begin at h0
  obtain ⟨out, ho, he⟩ := Out.bind_eq_ok.1 h0
  have hfin := h.finished hf
  rw [← Out.ok.inj he] at hfin
  rcases replay_inv ho hfin with ⟨s, hs, -⟩ | ⟨-, -, in1, in2, in3, in4, -, hl⟩
  · cases hs
  · have := congrArg List.length hl
    simpa using this

end Signing

end Synedrion
