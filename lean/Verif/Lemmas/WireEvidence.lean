import Verif.Model.WireEvidence
import Verif.Lemmas.NetworkEvidence
import Verif.Lemmas.WireFinish
import Verif.Lemmas.WireTransport

/-!
# Lemmas: evidence in its serialized form
-/

set_option linter.unusedSectionVars false

namespace Synedrion

open Spec

/-! ### Deserializing all values of a map -/

section Decode

variable {K α β : Type} [LinearOrder K] {f : α → Option β}

theorem decodeEntries_some {l : List (K × α)} {l' : List (K × β)} (h : decodeEntries f l = some l') :
    l'.map Prod.fst = l.map Prod.fst ∧ l' = l.filterMap fun e => (f e.2).map fun x => (e.1, x) := by
  induction l generalizing l' with
  | nil => cases h; exact ⟨rfl, rfl⟩
  | cons e l ih =>
    obtain ⟨x, hx, h⟩ := Option.bind_eq_some_iff.1 h
    obtain ⟨l₂, hl, rfl⟩ := Option.map_eq_some_iff.1 h
    obtain ⟨h1, h2⟩ := ih hl
    refine ⟨by simp [h1], ?_⟩
    rw [List.filterMap_cons_some (b := (e.1, x)) (by simp [hx]), ← h2]

theorem decodeEntries_isSome {l : List (K × α)} (h : ∀ e ∈ l, (f e.2).isSome) : ∃ l', decodeEntries f l = some l' := by
  induction l with
  | nil => exact ⟨[], rfl⟩
  | cons e l ih =>
    obtain ⟨l', hl⟩ := ih fun e he => h e (List.mem_cons_of_mem _ he)
    obtain ⟨x, hx⟩ := Option.isSome_iff_exists.1 (h e List.mem_cons_self)
    exact ⟨(e.1, x) :: l', by simp [decodeEntries, hx, hl]⟩

theorem BMap.decodeAll_some {m : BMap K α} {m' : BMap K β} (h : m.decodeAll f = some m') :
    m'.entries = m.entries.filterMap (fun e => (f e.2).map fun x => (e.1, x)) ∧ m'.keySet = m.keySet := by
  obtain ⟨l, hl, rfl⟩ := Option.map_eq_some_iff.1 h
  obtain ⟨h1, h2⟩ := decodeEntries_some hl
  rw [BMap.ofList_of_sorted (by rw [h1]; exact m.sorted)]
  exact ⟨h2, congrArg List.toFinset h1⟩

theorem BMap.decodeAll_get? {m : BMap K α} {m' : BMap K β} (h : m.decodeAll f = some m') {k : K} {a : α} (ha : m.get? k = some a) {b : β} (hb : f a = some b) : m'.get? k = some b := by
  rw [BMap.get?_eq_some_iff] at ha ⊢
  rw [(BMap.decodeAll_some h).1, List.mem_filterMap]
  exact ⟨_, ha, by simp [hb]⟩

end Decode

/-! ### Packages -/

section Packages

variable {I : Type} [LinearOrder I] {Mp : Part → Nat → Type} (dec : (p : Part) → (r : Nat) → Data I → Option (Mp p r))

/-- A transcript of serialized messages, read -/
def Transcript.read (t : Transcript I fun _ _ => Data I) : Transcript I Mp where
  msg r p := (t.msg r p).bind (dec p r)
  combined r := ((t.combined r).decodeAll (dec .echo r)).getD .empty

theorem supply_decode (t : Transcript I fun _ _ => Data I) (k : Nat) (req : Required) (h : ∀ r ∈ req.echos, ((t.combined r).decodeAll (dec .echo r)).isSome) :
    (supply t k req).decode dec = supply (t.read dec) k req := by
  unfold Package.decode supply Transcript.read
  congr 1
  · funext p
    dsimp only
    split <;> rfl
  · funext r
    dsimp only
    cases req.previous.lookup r with
    | none => rfl
    | some ps =>
      simp only [Option.map_some, Option.some.injEq]
      funext p
      split <;> rfl
  · funext r
    dsimp only
    split
    · next hr =>
      obtain ⟨m, hm⟩ := Option.isSome_iff_exists.1 (h r hr)
      simp [hm]
    · rfl

end Packages

/-! ### Executions -/

theorem exists_of_forall₂ {α β : Type} {p : α → β → Prop} {l : List α} {l' : List β} (h : List.Forall₂ p l l') {a : α} (ha : a ∈ l) : ∃ b ∈ l', p a b := by
  induction h with
  | nil => cases ha
  | cons h _ ih =>
    rcases List.mem_cons.1 ha with rfl | ha
    · exact ⟨_, List.mem_cons_self, h⟩
    · obtain ⟨b, hb, hp⟩ := ih ha
      exact ⟨b, List.mem_cons_of_mem _ hb, hp⟩

/-- How messages are divided into parts, and how these are deserialized -/
structure Splits {I M : Type} {Mp : Part → Nat → Type} (T : Transport I M) (part : M → (r : Nat) → (p : Part) → Option (Mp p r)) (dec : (p : Part) → (r : Nat) → Data I → Option (Mp p r)) : Prop where
  parts : ∀ r d m, T.unpack r d = some m → ∀ p, (d.part p).bind (dec p r) = part m r p
  echo : ∀ r d m, T.unpack r d = some m → d.echo.isSome → (part m r .echo).isSome
  same : ∀ r d m d' m', T.unpack r d = some m → T.unpack r d' = some m' → d.echo.isSome → d'.echo.isSome
  pack : ∀ r m m' d d' x, T.pack m = .ok d → T.pack m' = .ok d' → part m r .echo = some x → part m' r .echo = some x → d.echo = d'.echo

section Executions

variable {I M S E R : Type} [LinearOrder I] {P : Machine I M S E R} {T : Transport I M} {panics : Panics I M S} {honest : Set I} {init : I → S} {ok : M → Prop} {inv : S → Prop}
  {Mp : Part → Nat → Type} {part : M → (r : Nat) → (p : Part) → Option (Mp p r)} {dec : (p : Part) → (r : Nat) → Data I → Option (Mp p r)}
  {n : Net I (Packet I) S (WireErr E) R} {n' : Net I M S E R}

/-- States of honest parties are as they should be. -/
theorem begun_inv (hF : Faithful P T ok inv) (hinit : ∀ i ∈ honest, inv (init i)) (h : (overWire P T panics).Reachable honest init n) {i : I} (hi : i ∈ honest) {s : S} (hs : s ∈ n.begun i) : inv s := by
  obtain ⟨l, -, hrep⟩ := (h.inv i).begun s hs
  exact overWire_inv hF (hinit i hi) hrep

/-- A party that has completed a round could serialize what it had to send. -/
theorem past_packable (h : (overWire P T panics).Reachable honest init n) {i : I} {s : S} {got : List (I × Packet I)} (hst : n.status i = .running s got) {x : S × List (I × Packet I)} (hx : x ∈ n.past i) :
    T.packable (P.send x.1) = true := by
  obtain ⟨pre, post, hdec⟩ := List.append_of_mem hx
  have h1 := h.past_replay i pre x.1 x.2 post hdec
  have h2 := h.running hst
  rw [hdec, List.map_append, List.map_cons] at h2
  generalize pre.map Prod.snd = l at h1 h2
  generalize init i = s0 at h1 h2
  induction l generalizing s0 with
  | nil =>
    cases Out.ok.inj h1
    obtain ⟨y, hy, -⟩ := Out.bind_eq_ok.1 h2
    exact (overWire_next_eq_ok hy).1
  | cons g l ih =>
    obtain ⟨y, hy, h1⟩ := Out.bind_eq_ok.1 h1
    obtain ⟨z, hz, h2⟩ := Out.bind_eq_ok.1 h2
    rw [hy] at hz
    cases Out.ok.inj hz
    cases y with
    | inl s' => exact ih _ h1 h2
    | inr r => cases l <;> cases h1

theorem packs_of_packable {l : List (I × M)} (h : T.packable l = true) {a : I × M} (ha : a ∈ l) : ∃ d, T.pack a.2 = .ok d := isOk_iff.1 (List.all_eq_true.1 h a ha)

theorem echosOf_reads (hT : Splits T part dec) {r : Nat} {got : List (I × Packet I)} {got' : List (I × M)} (h : Reads T r got got') :
    echosOf part r got' = (echosOf packetPart r got).filterMap fun e => (dec .echo r e.2).map fun x => (e.1, x) := by
  unfold echosOf
  induction h with
  | nil => rfl
  | @cons a b l l' h _ ih =>
    have hp := hT.parts r a.2 b.2 h.2 .echo
    cases ha : a.2.part .echo with
    | none =>
      rw [ha] at hp
      rw [List.filterMap_cons_none (by rw [← hp]; rfl), ih, List.filterMap_cons_none (by simp [packetPart, ha])]
    | some x =>
      rw [ha] at hp
      rw [List.filterMap_cons_some (l := l) (b := (a.1, x)) (by simp [packetPart, ha])]
      cases hx : dec .echo r x with
      | none => rw [List.filterMap_cons_none (by rw [← hp]; simp [hx]), ih, List.filterMap_cons_none (by simp [hx])]
      | some y => rw [List.filterMap_cons_some (b := (b.1, y)) (by rw [← hp]; simp [hx]), ih, List.filterMap_cons_some (b := (a.1, y)) (by simp [hx]), h.1]

/-- Everything a party presents in serialized form can be read, and what is read is what it could present of the messages. -/
theorem presents_read (hT : Splits T part dec) (hF : Faithful P T ok inv) (hinit : ∀ i ∈ honest, inv (init i)) (h : (overWire P T panics).Reachable honest init n) (hs : SameCourse T P.round honest n n')
    {i j : I} (hi : i ∈ honest) {ids : Finset I} {s : S} {got : List (I × Packet I)} (hst : n.status i = .running s got) (hexp : ∀ x ∈ n.past i, P.expected x.1 = ids.erase i)
    {d : Packet I} {m : M} (hm : T.unpack (P.round s) d = some m) {t : Transcript I fun _ _ => Data I} (ht : Presents (overWire P T panics) packetPart ids n i s j d t) :
    Presents P part ids n' i s j m (t.read dec) ∧
      ∀ x ∈ n.past i, (∃ a ∈ P.send x.1, (part a.2 (P.round x.1) .echo).isSome) → ((t.combined (P.round x.1)).decodeAll (dec .echo (P.round x.1))).isSome := by
  have hne : n.status i ≠ .panicked := by rw [hst]; simp
  have hpast := past_of_running hs hne
  -- what it sent in serialized form
  have hown : ∀ x ∈ n.past i, ∀ a ∈ P.send x.1, ∀ own, part a.2 (P.round x.1) .echo = some own →
      ∃ dd b, (a.1, dd) ∈ (overWire P T panics).send x.1 ∧ T.unpack (P.round x.1) dd = some a.2 ∧ dd.echo = some b ∧ dec .echo (P.round x.1) b = some own := by
    intro x hx a ha own hown
    obtain ⟨dd, hdd⟩ := packs_of_packable (past_packable h hst hx) ha
    have hu := hF.trip x.1 (begun_inv hF hinit h hi ((h.inv i).past x hx).1) a ha dd hdd
    have hp := hT.parts _ _ _ hu .echo
    rw [hown] at hp
    obtain ⟨b, hb, hb'⟩ := Option.bind_eq_some_iff.1 hp
    exact ⟨dd, b, mem_packAll.2 ⟨a.2, ha, hdd⟩, hu, hb, hb'⟩
  have hdec : ∀ x ∈ n.past i, ∀ a ∈ P.send x.1, ∀ own, part a.2 (P.round x.1) .echo = some own →
      ∃ e', (t.combined (P.round x.1)).decodeAll (dec .echo (P.round x.1)) = some e' ∧ e'.get? i = some own := by
    intro x hx a ha own hp
    obtain ⟨dd, b, hdd, hu, hb, hb'⟩ := hown x hx a ha own hp
    have hag : EchosAgainst ids i j b (echosOf packetPart (P.round x.1) x.2) (t.combined (P.round x.1)) := ht.echos x hx (a.1, dd) hdd b hb
    have hall : ∀ e ∈ (t.combined (P.round x.1)).entries, (dec .echo (P.round x.1) e.2).isSome := by
      rintro ⟨k, v⟩ he
      have hg := BMap.get?_eq_some_iff.2 he
      by_cases hki : k = i
      · subst hki
        rw [hag.2.1] at hg
        cases hg
        exact Option.isSome_iff_exists.2 ⟨_, hb'⟩
      · have hk : k ∈ ids.erase j := by
          rw [← hag.1, BMap.mem_keySet, BMap.mem_keys_iff]
          exact ⟨v, hg⟩
        have hk' : k ∈ (x.2.map Prod.fst).toFinset := by
          rw [((h.inv i).past x hx).2.1.2.1]
          show k ∈ P.expected x.1
          rw [hexp x hx]
          exact Finset.mem_erase.2 ⟨hki, Finset.mem_of_mem_erase hk⟩
        obtain ⟨⟨k', dk⟩, hdk, rfl⟩ := List.mem_map.1 (List.mem_toFinset.1 hk')
        obtain ⟨y, -, -, hr⟩ := exists_of_forall₂ hpast hx
        obtain ⟨⟨_, m'⟩, -, -, hum⟩ := exists_of_forall₂ hr hdk
        have hes := hT.same _ _ _ _ _ hu hum (by rw [hb]; rfl)
        obtain ⟨v', hv'⟩ := Option.isSome_iff_exists.1 hes
        have hgv : (t.combined (P.round x.1)).get? k' = some v' := hag.2.2 (k', v') (List.mem_filterMap.2 ⟨_, hdk, by show (dk.echo).map _ = _; rw [hv']; rfl⟩) (Finset.ne_of_mem_erase hk)
        obtain rfl : v' = v := Option.some.inj (hgv.symm.trans hg)
        have h1 := hT.parts _ _ _ hum .echo
        have h2 := hT.echo _ _ _ hum hes
        rw [← h1] at h2
        rw [show dk.part .echo = some v' from hv'] at h2
        exact h2
    obtain ⟨l', hl'⟩ := decodeEntries_isSome hall
    refine ⟨_, by unfold BMap.decodeAll; rw [hl']; rfl, ?_⟩
    exact BMap.decodeAll_get? (by unfold BMap.decodeAll; rw [hl']; rfl) hag.2.1 hb'
  refine ⟨⟨?_, ?_, ?_⟩, ?_⟩
  · intro p
    show (t.msg (P.round s) p).bind _ = _
    rw [show t.msg (P.round s) p = d.part p from ht.refused p]
    exact hT.parts _ _ _ hm p
  · intro y hy m' hm' p
    obtain ⟨x, hx, hxy, hr⟩ := mem_of_forall₂ hpast hy
    obtain ⟨a, ha, haj, hu⟩ := hr.of_mem hm'
    show (t.msg (P.round y.1) p).bind _ = _
    obtain ⟨aj, ad⟩ := a
    cases haj
    rw [← hxy]
    rw [show t.msg (P.round x.1) p = ad.part p from ht.earlier x hx ad ha p]
    exact hT.parts _ _ _ hu p
  · intro y hy a ha own hp
    obtain ⟨x, hx, hxy, hr⟩ := mem_of_forall₂ hpast hy
    obtain ⟨y1, y2⟩ := y
    obtain rfl : x.1 = y1 := hxy
    obtain ⟨dd, b, hdd, hu, hb, hb'⟩ := hown x hx a ha own hp
    have hag : EchosAgainst ids i j b (echosOf packetPart (P.round x.1) x.2) (t.combined (P.round x.1)) := ht.echos x hx (a.1, dd) hdd b hb
    obtain ⟨e', he', hmine⟩ := hdec x hx a ha own hp
    have hc : (t.read dec).combined (P.round x.1) = e' := by
      show (BMap.decodeAll _ _).getD _ = _
      rw [he']
      rfl
    rw [hc]
    refine ⟨?_, hmine, ?_⟩
    · rw [(BMap.decodeAll_some he').2]
      exact hag.1
    · intro b' hb' hbj
      rw [echosOf_reads hT hr] at hb'
      obtain ⟨e, he, hee⟩ := List.mem_filterMap.1 hb'
      obtain ⟨v, hv, rfl⟩ := Option.map_eq_some_iff.1 hee
      exact BMap.decodeAll_get? he' (hag.2.2 e he hbj) hv
  · rintro x hx ⟨a, ha, hp⟩
    obtain ⟨own, hp⟩ := Option.isSome_iff_exists.1 hp
    obtain ⟨e', he', -⟩ := hdec x hx a ha own hp
    rw [he']
    rfl

/-- A round before one that the party has begun was completed in both executions. The first `K` rounds follow each other. -/
theorem completed_reads' {K : Nat} (h : (overWire P T panics).Reachable honest init n) (hn' : P.Reachable honest init n') (hs : SameCourse T P.round honest n n') {j : I}
    (hr : ∀ l s, P.replay (init j) l = .ok (.inl s) → min (P.round s) (K + 1) = min (l.length + 1) (K + 1)) {x : S × List (I × Packet I)} (hx : x ∈ n.past j) {s : S} (hb : s ∈ n.begun j)
    (hlt : P.round x.1 < P.round s) (hK : P.round x.1 ≤ K) : ∃ y ∈ n'.past j, x.1 = y.1 ∧ Reads T (P.round x.1) x.2 y.2 := by
  obtain ⟨rest, hpast, -⟩ := hs.past j
  rw [← hs.begun] at hb
  obtain ⟨l, hl, hrep⟩ := (hn'.inv j).begun s hb
  have h1 := hr l s hrep
  have h2 : l.length ≤ (n'.past j).length := by
    have := hl.length_le
    rwa [List.length_map] at this
  obtain ⟨pre, post, hdec⟩ := List.append_of_mem hx
  obtain ⟨l', hl', hrep'⟩ := overWire_replay (h.past_replay j pre x.1 x.2 post hdec)
  have h3 := hr l' x.1 hrep'
  rw [hl', List.length_map] at h3
  have h4 : pre.length < ((n.past j).take ((n.past j).length - rest)).length := by rw [hpast.length_eq]; omega
  refine exists_of_forall₂ hpast ?_
  have h5 : ((n.past j).take ((n.past j).length - rest))[pre.length] = x := by
    rw [List.getElem_take]
    simp [hdec]
  rw [← h5]
  exact List.getElem_mem h4

/-- A round before one that the party has begun was completed in both executions. -/
theorem completed_reads (h : (overWire P T panics).Reachable honest init n) (hn' : P.Reachable honest init n') (hs : SameCourse T P.round honest n n') {j : I}
    (hr : ∀ l s, P.replay (init j) l = .ok (.inl s) → P.round s = l.length + 1) {x : S × List (I × Packet I)} (hx : x ∈ n.past j) {s : S} (hb : s ∈ n.begun j) (hlt : P.round x.1 < P.round s) :
    ∃ y ∈ n'.past j, x.1 = y.1 ∧ Reads T (P.round x.1) x.2 y.2 :=
  completed_reads' (K := P.round x.1) h hn' hs (fun l s h => by rw [hr l s h]) hx hb hlt le_rfl

/-- The evidence without combined echos of rounds from `b` on -/
def Package.below {k : Nat} (b : Nat) (ev : Package I Mp k) : Package I Mp k := { ev with combined := fun r => if r < b then ev.combined r else none }

/-- The evidence without combined echos of rounds that were not completed before -/
def Package.upTo {k : Nat} (ev : Package I Mp k) : Package I Mp k := { ev with combined := fun r => if r < k then ev.combined r else none }

/-- What an honest party has signed in serialized form is, when it is read, what it has signed. -/
theorem signedBy_read' {K b : Nat} (hT : Splits T part dec) (hF : Faithful P T ok inv) (hinit : ∀ i ∈ honest, inv (init i)) (h : (overWire P T panics).Reachable honest init n) (hn' : P.Reachable honest init n')
    (hs : SameCourse T P.round honest n n') {j reporter : I} (hj : j ∈ honest) (hr : ∀ l s, P.replay (init j) l = .ok (.inl s) → min (P.round s) (K + 1) = min (l.length + 1) (K + 1)) {k : Nat} {ev : Exhibit I k} (hbk : b ≤ k) (hbK : b ≤ K + 1)
    (hev : SignedBy (overWire P T panics) packetPart n j reporter ev) (hcur : ∃ p x, (ev.decode dec).current p = some x) : SignedBy P part n' j reporter ((ev.decode dec).below b) := by
  have hsent : ∀ i r dd p b x, (overWire P T panics).Sent n j i r dd → dd.part p = some b → dec p r b = some x → ∃ m, P.Sent n' j i r m ∧ part m r p = some x := by
    rintro i r dd p b x ⟨s, hb, rfl, hmem⟩ hp hx
    obtain ⟨m, hm, hpack⟩ := mem_packAll.1 hmem
    have hu := hF.trip s (begun_inv hF hinit h hj hb) (i, m) hm dd hpack
    refine ⟨m, ⟨s, by rw [hs.begun]; exact hb, rfl, hm⟩, ?_⟩
    rw [show part m ((overWire P T panics).round s) p = (dd.part p).bind (dec p (P.round s)) from (hT.parts _ _ _ hu p).symm, hp]
    exact hx
  refine ⟨?_, ?_, ?_⟩
  · intro p x hx
    obtain ⟨b, hb, hx⟩ := Option.bind_eq_some_iff.1 hx
    obtain ⟨i, dd, h1, h2, h3⟩ := hev.current p b hb
    obtain ⟨m, h4, h5⟩ := hsent i k dd p b x h1 h3 hx
    exact ⟨i, m, h4, h2, h5⟩
  · intro r msg p x hmsg hx
    obtain ⟨msg', hmsg', rfl⟩ := Option.map_eq_some_iff.1 hmsg
    obtain ⟨b, hb, hx⟩ := Option.bind_eq_some_iff.1 hx
    obtain ⟨i, dd, h1, h2, h3⟩ := hev.previous r msg' p b hmsg' hb
    obtain ⟨m, h4, h5⟩ := hsent i r dd p b x h1 h3 hx
    exact ⟨i, m, h4, h2, h5⟩
  · intro r echos he
    have he : (if r < b then (ev.decode dec).combined r else none) = some echos := he
    split at he
    swap
    · cases he
    rename_i hrk
    obtain ⟨eb, heb, he⟩ := Option.bind_eq_some_iff.1 he
    obtain ⟨x, hx, rfl, hperm⟩ := hev.combined r eb heb
    obtain ⟨p, v, hv⟩ := hcur
    obtain ⟨w, hw, -⟩ := Option.bind_eq_some_iff.1 hv
    obtain ⟨_, _, ⟨s, hsb, hsk, -⟩, -⟩ := hev.current p w hw
    obtain ⟨y, hy, hxy, hreads⟩ := completed_reads' h hn' hs hr hx hsb (by rw [show P.round s = k from hsk]; exact lt_of_lt_of_le hrk hbk) (by have : P.round x.1 < b := hrk; omega)
    refine ⟨y, hy, by rw [← hxy]; rfl, ?_⟩
    rw [(BMap.decodeAll_some he).1]
    exact (hperm.filterMap _).trans (.of_eq (echosOf_reads hT hreads).symm)

/-- What an honest party has signed in serialized form is, when it is read, what it has signed. -/
theorem signedBy_read (hT : Splits T part dec) (hF : Faithful P T ok inv) (hinit : ∀ i ∈ honest, inv (init i)) (h : (overWire P T panics).Reachable honest init n) (hn' : P.Reachable honest init n')
    (hs : SameCourse T P.round honest n n') {j reporter : I} (hj : j ∈ honest) (hr : ∀ l s, P.replay (init j) l = .ok (.inl s) → P.round s = l.length + 1) {k : Nat} {ev : Exhibit I k}
    (hev : SignedBy (overWire P T panics) packetPart n j reporter ev) (hcur : ∃ p x, (ev.decode dec).current p = some x) : SignedBy P part n' j reporter ((ev.decode dec).upTo) :=
  signedBy_read' (K := k) (b := k) hT hF hinit h hn' hs hj (fun l s h => by rw [hr l s h]) le_rfl (Nat.le_succ k) hev hcur

/-- A party can present what it has received in serialized form. -/
theorem presentable_wire' (hT : Splits T part dec) (hF : Faithful P T ok inv) (hinit : ∀ i ∈ honest, inv (init i)) (h : (overWire P T panics).Reachable honest init n) (hs : SameCourse T P.round honest n n')
    {i j : I} (hi : i ∈ honest) (hr : ∀ l s, l <+: (n.past i).map Prod.snd → (overWire P T panics).replay (init i) l = .ok (.inl s) → P.round s = l.length + 1) {ids : Finset I} (hme : i ∈ ids) (hij : j ≠ i) {s : S} {got : List (I × Packet I)}
    (hst : n.status i = .running s got) (hexp : ∀ x ∈ n.past i, P.expected x.1 = ids.erase i) (d : Packet I) {m : M} {t' : Transcript I Mp} (ht' : Presents P part ids n' i s j m t') :
    ∃ t, Presents (overWire P T panics) packetPart ids n i s j d t := by
  have hne : n.status i ≠ .panicked := by rw [hst]; simp
  have hpast := past_of_running hs hne
  refine exists_presents' packetPart h hst hr hme hij hexp ?_ d
  · intro x hx a ha own hown
    obtain ⟨⟨y1, y2⟩, hy, hxy, hreads⟩ := exists_of_forall₂ hpast hx
    obtain rfl : x.1 = y1 := hxy
    have htrip : ∀ a ∈ (overWire P T panics).send x.1, ∃ m, (a.1, m) ∈ P.send x.1 ∧ T.pack m = .ok a.2 ∧ T.unpack (P.round x.1) a.2 = some m := by
      intro a ha
      obtain ⟨m, hm, hpack⟩ := mem_packAll.1 ha
      exact ⟨m, hm, hpack, hF.trip x.1 (begun_inv hF hinit h hi ((h.inv i).past x hx).1) (a.1, m) hm a.2 hpack⟩
    obtain ⟨ma, hma, hpa, hua⟩ := htrip a ha
    have hown : a.2.echo = some own := hown
    refine ⟨?_, ?_⟩
    · intro b hb
      obtain ⟨b', -, -, hub⟩ := exists_of_forall₂ hreads hb
      exact hT.same _ _ _ _ _ hua hub (by rw [hown]; rfl)
    · intro a' ha'
      obtain ⟨ma', hma', hpa', hua'⟩ := htrip a' ha'
      have hs' := hT.same _ _ _ _ _ hua hua' (by rw [hown]; rfl)
      obtain ⟨v, hv⟩ := Option.isSome_iff_exists.1 (hT.echo _ _ _ hua (by rw [hown]; rfl))
      obtain ⟨v', hv'⟩ := Option.isSome_iff_exists.1 (hT.echo _ _ _ hua' hs')
      have e1 := (ht'.echos _ hy (a.1, ma) hma v hv).2.1
      have e2 := (ht'.echos _ hy (a'.1, ma') hma' v' hv').2.1
      obtain rfl : v = v' := Option.some.inj (e1.symm.trans e2)
      show a'.2.echo = some own
      rw [← hown]
      exact (hT.pack _ _ _ _ _ _ hpa hpa' hv hv').symm

theorem presentable_wire (hT : Splits T part dec) (hF : Faithful P T ok inv) (hinit : ∀ i ∈ honest, inv (init i)) (h : (overWire P T panics).Reachable honest init n) (hs : SameCourse T P.round honest n n')
    {i j : I} (hi : i ∈ honest) (hr : ∀ l s, P.replay (init i) l = .ok (.inl s) → P.round s = l.length + 1) {ids : Finset I} (hme : i ∈ ids) (hij : j ≠ i) {s : S} {got : List (I × Packet I)}
    (hst : n.status i = .running s got) (hexp : ∀ x ∈ n.past i, P.expected x.1 = ids.erase i) (d : Packet I) {m : M} {t' : Transcript I Mp} (ht' : Presents P part ids n' i s j m t') :
    ∃ t, Presents (overWire P T panics) packetPart ids n i s j d t :=
  presentable_wire' hT hF hinit h hs hi (fun l s _ hrep => by
    obtain ⟨l', hl', hrep'⟩ := overWire_replay hrep
    rw [← hl']
    exact hr l' s hrep') hme hij hst hexp d ht'

/-- A party that has completed a round did not panic. -/
theorem past_quiet (h : (overWire P T panics).Reachable honest init n) {i : I} {s : S} {got : List (I × Packet I)} (hst : n.status i = .running s got) {x : S × List (I × Packet I)} (hx : x ∈ n.past i) :
    ∃ got', panics.next x.1 got' = false := by
  obtain ⟨pre, post, hdec⟩ := List.append_of_mem hx
  have h1 := h.past_replay i pre x.1 x.2 post hdec
  have h2 := h.running hst
  rw [hdec, List.map_append, List.map_cons] at h2
  generalize pre.map Prod.snd = l at h1 h2
  generalize init i = s0 at h1 h2
  induction l generalizing s0 with
  | nil =>
    cases Out.ok.inj h1
    obtain ⟨y, hy, -⟩ := Out.bind_eq_ok.1 h2
    unfold overWire at hy
    dsimp only at hy
    split at hy
    swap
    · cases hy
    split at hy
    · cases hy
    · next got' hu =>
      split at hy
      · cases hy
      · rename_i hq
        exact ⟨got', by simpa using hq⟩
  | cons g l ih =>
    obtain ⟨y, hy, h1⟩ := Out.bind_eq_ok.1 h1
    obtain ⟨z, hz, h2⟩ := Out.bind_eq_ok.1 h2
    rw [hy] at hz
    cases Out.ok.inj hz
    cases y with
    | inl s' => exact ih _ h1 h2
    | inr r => cases l <;> cases h1

end Executions

end Synedrion
