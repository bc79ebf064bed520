import Verif.Lemmas.NetworkBlame
import Verif.Lemmas.Required
import Verif.Model.MessageParts
import Verif.Spec.NetworkEvidence

/-!
# What the parties of a concurrent execution can present as evidence
-/

set_option linter.unusedSectionVars false

namespace Synedrion

namespace Spec.Machine

variable {I M S E R : Type} [DecidableEq I] {P : Machine I M S E R} {honest : Set I} {init : I → S} {n : Net I M S E R}

theorem Reachable.running (h : P.Reachable honest init n) {i : I} {s : S} {got : List (I × M)} (hst : n.status i = .running s got) :
    P.replay (init i) ((n.past i).map Prod.snd) = .ok (.inl s) := by
  have := (h.inv i).status
  rw [hst] at this
  exact this.1

/-- The rounds a party has completed, if they are numbered one after the other -/
theorem Reachable.past_round' (h : P.Reachable honest init n) {i : I} (hr : ∀ l s, l <+: (n.past i).map Prod.snd → P.replay (init i) l = .ok (.inl s) → P.round s = l.length + 1) {k : Nat} {g : List (I × M)}
    (hk : ((n.past i).map Prod.snd)[k]? = some g) : ∃ x ∈ n.past i, x.2 = g ∧ P.round x.1 = k + 1 ∧ P.replay (init i) (((n.past i).map Prod.snd).take k) = .ok (.inl x.1) := by
  rw [List.getElem?_map] at hk
  cases hx : (n.past i)[k]? with
  | none => rw [hx] at hk; simp at hk
  | some x =>
    rw [hx] at hk
    obtain ⟨hlt, hx'⟩ := List.getElem?_eq_some_iff.1 hx
    have hdec : n.past i = (n.past i).take k ++ (x.1, x.2) :: (n.past i).drop (k + 1) := by
      rw [← hx']
      conv_lhs => rw [← List.take_append_drop k (n.past i), List.drop_eq_getElem_cons hlt]
    have hrep := h.past_replay i _ _ _ _ hdec
    refine ⟨x, by rw [← hx']; exact List.getElem_mem hlt, Option.some.inj hk, ?_, by rw [← List.map_take]; exact hrep⟩
    rw [hr _ _ ((List.take_prefix _ _).map _) hrep, List.length_map, List.length_take]
    omega

/-- Each completed round is one of them. -/
theorem Reachable.past_index' (h : P.Reachable honest init n) {i : I} (hr : ∀ l s, l <+: (n.past i).map Prod.snd → P.replay (init i) l = .ok (.inl s) → P.round s = l.length + 1) {x : S × List (I × M)}
    (hx : x ∈ n.past i) : ∃ k, P.round x.1 = k + 1 ∧ ((n.past i).map Prod.snd)[k]? = some x.2 := by
  obtain ⟨pre, post, hdec⟩ := List.append_of_mem hx
  have hrep := h.past_replay i pre x.1 x.2 post hdec
  refine ⟨pre.length, by rw [hr _ _ (by rw [hdec]; exact (List.prefix_append _ _).map _) hrep, List.length_map], ?_⟩
  rw [hdec, List.map_append, List.getElem?_append_right (by simp)]
  simp

theorem Reachable.past_round (h : P.Reachable honest init n) {i : I} (hr : ∀ l s, P.replay (init i) l = .ok (.inl s) → P.round s = l.length + 1) {k : Nat} {g : List (I × M)}
    (hk : ((n.past i).map Prod.snd)[k]? = some g) : ∃ x ∈ n.past i, x.2 = g ∧ P.round x.1 = k + 1 ∧ P.replay (init i) (((n.past i).map Prod.snd).take k) = .ok (.inl x.1) :=
  h.past_round' (fun l s _ => hr l s) hk

theorem Reachable.past_index (h : P.Reachable honest init n) {i : I} (hr : ∀ l s, P.replay (init i) l = .ok (.inl s) → P.round s = l.length + 1) {x : S × List (I × M)}
    (hx : x ∈ n.past i) : ∃ k, P.round x.1 = k + 1 ∧ ((n.past i).map Prod.snd)[k]? = some x.2 := h.past_index' (fun l s _ => hr l s) hx

end Spec.Machine

section Mono

variable {ε α β : Type}

/-- A computation that succeeds whenever another does, with the same result -/
def Out.Le (o o' : Out ε α) : Prop := ∀ x, o = .ok x → o' = .ok x

theorem Out.Le.refl (o : Out ε α) : Out.Le o o := fun _ h => h

theorem Out.Le.bind {o o' : Out ε α} {f f' : α → Out ε β} (h : Out.Le o o') (hf : ∀ x, Out.Le (f x) (f' x)) : Out.Le (o.bind f) (o'.bind f') := by
  intro y hy
  obtain ⟨x, hx, hy⟩ := Out.bind_eq_ok.1 hy
  rw [h x hx, Out.bind_ok]
  exact hf x y hy

theorem Out.Le.ite {c : Prop} [Decidable c] {o o' u u' : Out ε α} (h : Out.Le o o') (h' : Out.Le u u') : Out.Le (if c then o else u) (if c then o' else u') := by
  split
  · exact h
  · exact h'

end Mono

section Package

variable {I : Type} [LinearOrder I] {Mp : Part → Nat → Type} {k : Nat}

/-- The parts of the package that the checks read are parts of the transcript. -/
structure Within (need : List Part) (ev : Package I Mp k) (t : Transcript I Mp) : Prop where
  current : ∀ p ∈ need, ∀ x, ev.current p = some x → t.msg k p = some x
  previous : ∀ r, r < k → ∀ msg p x, ev.previous r = some msg → msg p = some x → t.msg r p = some x
  combined : ∀ r, r < k → ∀ echos, ev.combined r = some echos → t.combined r = echos

variable {need : List Part} {ev : Package I Mp k} {t : Transcript I Mp}

theorem Within.cur (h : Within need ev t) {p : Part} (hp : p ∈ need) : Out.Le (ev.cur p) ((everything t k).cur p) := by
  intro x hx
  exact Out.ofOption_eq_ok.2 (h.current p hp x (Out.ofOption_eq_ok.1 hx))

theorem Within.prev (h : Within need ev t) {r : Nat} (hr : r < k) (p : Part) : Out.Le (ev.prev r p) ((everything t k).prev r p) := by
  intro x hx
  obtain ⟨msg, hm, hx⟩ := Out.bind_eq_ok.1 hx
  exact Out.ofOption_eq_ok.2 (h.previous r hr msg p x (Out.ofOption_eq_ok.1 hm) (Out.ofOption_eq_ok.1 hx))

theorem Within.echos (h : Within need ev t) {r : Nat} (hr : r < k) : Out.Le (ev.echos r) ((everything t k).echos r) := by
  intro x hx
  rw [← h.combined r hr x (Out.ofOption_eq_ok.1 hx)]
  rfl

/-- The evidence depends on nothing but the declared parts. -/
theorem supply_congr {t t' : Transcript I Mp} {req : Required} (h1 : ∀ p ∈ req.current, t.msg k p = t'.msg k p)
    (h2 : ∀ x ∈ req.previous, ∀ p ∈ x.2, t.msg x.1 p = t'.msg x.1 p) (h3 : ∀ r ∈ req.echos, t.combined r = t'.combined r) : supply t k req = supply t' k req := by
  unfold supply
  congr 1
  · funext p
    split
    · rename_i hp; exact h1 p hp
    · rfl
  · funext r
    cases hl : req.previous.lookup r with
    | none => rfl
    | some ps =>
      simp only [Option.map_some, Option.some.injEq]
      funext p
      split
      · rename_i hp
        have hmem : (r, ps) ∈ req.previous := by
          obtain ⟨l1, l2, he, -⟩ := List.lookup_eq_some_iff.1 hl
          rw [he]; simp
        exact h2 _ hmem p hp
      · rfl
  · funext r
    split
    · rename_i hr; rw [h3 r hr]
    · rfl

end Package

theorem collect_sender {I M E Pl : Type} [LinearOrder I] {expected : Finset I} {recv : I → M → Out (RecvErr E) Pl} {arr : List (I × M)} {x : BMap I Pl}
    (h : collect expected recv arr = .ok x) {j : I} (hj : j ∈ expected) : ∃ m, (j, m) ∈ arr := by
  obtain ⟨-, ex, -, -⟩ := collect_eq_ok.1 h
  rw [← ex, List.mem_toFinset] at hj
  obtain ⟨⟨_, m⟩, hm, rfl⟩ := List.mem_map.1 hj
  exact ⟨m, hm⟩

theorem BMap.exists_entries {K W : Type} [LinearOrder K] {l : List (K × W)} (hn : (l.map Prod.fst).Nodup) : ∃ m : BMap K W, m.entries.Perm l := by
  refine ⟨.ofList l, (List.perm_ext_iff_of_nodup ?_ (List.Nodup.of_map _ hn)).2 fun x => ?_⟩
  · exact List.Nodup.of_map _ (BMap.ofList l).nodup_keys
  · rw [← BMap.get?_eq_some_iff, BMap.get?_ofList_eq_some hn]

section Present

open Spec

variable {I M S E R : Type} [LinearOrder I] {P : Machine I M S E R} {honest : Set I} {init : I → S} {n : Net I M S E R} {Mp : Part → Nat → Type}

/-- A party can always present what it has received. -/
theorem exists_presents' (part : M → (r : Nat) → (p : Part) → Option (Mp p r)) (h : P.Reachable honest init n) {i j : I} {s : S} {got : List (I × M)}
    (hst : n.status i = .running s got) (hr : ∀ l s, l <+: (n.past i).map Prod.snd → P.replay (init i) l = .ok (.inl s) → P.round s = l.length + 1) {ids : Finset I} (hi : i ∈ ids) (hij : j ≠ i)
    (hexp : ∀ x ∈ n.past i, P.expected x.1 = ids.erase i)
    (hecho : ∀ x ∈ n.past i, ∀ a ∈ P.send x.1, ∀ own, part a.2 (P.round x.1) .echo = some own →
      (∀ b ∈ x.2, (part b.2 (P.round x.1) .echo).isSome) ∧ ∀ a' ∈ P.send x.1, part a'.2 (P.round x.1) .echo = some own) (m : M) :
    ∃ t, Presents P part ids n i s j m t := by
  have hcur : ∀ x ∈ n.past i, P.round x.1 ≠ P.round s := by
    intro x hx e
    obtain ⟨k, hk, hg⟩ := h.past_index' hr hx
    obtain ⟨hlt, -⟩ := List.getElem?_eq_some_iff.1 hg
    rw [hr _ _ (List.prefix_refl _) (h.running hst)] at e
    omega
  have hinj : ∀ x ∈ n.past i, ∀ y ∈ n.past i, P.round x.1 = P.round y.1 → x = y := by
    intro x hx y hy e
    have idx : ∀ z ∈ n.past i, (n.past i)[P.round z.1 - 1]? = some z := by
      intro z hz
      obtain ⟨pre, post, hdec⟩ := List.append_of_mem hz
      have := hr _ _ (by rw [hdec]; exact (List.prefix_append _ _).map _) (h.past_replay i pre z.1 z.2 post hdec)
      rw [this, List.length_map, hdec]
      simp
    have := idx x hx
    rw [e, idx y hy] at this
    exact (Option.some.inj this).symm
  have hcomp : ∀ x ∈ n.past i, (x.2.map Prod.fst).Nodup ∧ (x.2.map Prod.fst).toFinset = P.expected x.1 := fun x hx => ⟨((h.inv i).past x hx).2.1.1, ((h.inv i).past x hx).2.1.2.1⟩
  -- the messages and the echos of each round
  have hmsg : ∀ r, ∃ f : (p : Part) → Option (Mp p r), (r = P.round s → ∀ p, f p = part m r p) ∧
      ∀ x ∈ n.past i, P.round x.1 = r → ∀ m', (j, m') ∈ x.2 → ∀ p, f p = part m' r p := by
    intro r
    by_cases hrs : r = P.round s
    · exact ⟨fun p => part m r p, fun _ _ => rfl, fun x hx hxr => absurd (hxr.trans hrs) (hcur x hx)⟩
    · by_cases hex : ∃ x ∈ n.past i, P.round x.1 = r ∧ ∃ m', (j, m') ∈ x.2
      · obtain ⟨x, hx, hxr, m', hm'⟩ := hex
        refine ⟨fun p => part m' r p, fun e => absurd e hrs, fun y hy hyr m'' hm'' p => ?_⟩
        obtain rfl := hinj x hx y hy (hxr.trans hyr.symm)
        have e : m' = m'' := congrArg Prod.snd (List.inj_on_of_nodup_map (hcomp x hx).1 hm' hm'' rfl)
        rw [e]
      · exact ⟨fun _ => none, fun e => absurd e hrs, fun x hx hxr m' hm' => absurd ⟨x, hx, hxr, m', hm'⟩ hex⟩
  have hcmb : ∀ r, ∃ e : BMap I (Mp .echo r), ∀ x ∈ n.past i, P.round x.1 = r → ∀ a ∈ P.send x.1, ∀ own, part a.2 r .echo = some own →
      EchosAgainst ids i j own (echosOf part r x.2) e := by
    intro r
    by_cases hex : ∃ x ∈ n.past i, P.round x.1 = r ∧ ∃ a ∈ P.send x.1, ∃ own, part a.2 r .echo = some own
    · obtain ⟨x, hx, rfl, a, ha, own, hown⟩ := hex
      obtain ⟨hall, hsame⟩ := hecho x hx a ha own hown
      have hmap : (echosOf part (P.round x.1) x.2).map Prod.fst = x.2.map Prod.fst := by
        unfold echosOf
        generalize x.2 = l at hall
        induction l with
        | nil => rfl
        | cons b l ih =>
          obtain ⟨e, he⟩ := Option.isSome_iff_exists.1 (hall b (by simp))
          rw [List.filterMap_cons_some (b := (b.1, e)) (by simp [he]), List.map_cons, List.map_cons, ih fun b' hb' => hall b' (by simp [hb'])]
      obtain ⟨nd, ex⟩ := hcomp x hx
      rw [hexp x hx] at ex
      have hni : i ∉ x.2.map Prod.fst := fun hm => by
        rw [← List.mem_toFinset, ex] at hm
        simp at hm
      have nd' : (((i, own) :: (echosOf part (P.round x.1) x.2).filter (fun b => b.1 ≠ j)).map Prod.fst).Nodup := by
        rw [List.map_cons, List.nodup_cons]
        have hsub : (((echosOf part (P.round x.1) x.2).filter (fun b => b.1 ≠ j)).map Prod.fst).Sublist (x.2.map Prod.fst) := by
          rw [← hmap]; exact List.filter_sublist.map _
        exact ⟨fun hm => hni (hsub.subset hm), nd.sublist hsub⟩
      refine ⟨.ofList ((i, own) :: (echosOf part (P.round x.1) x.2).filter (fun b => b.1 ≠ j)), fun y hy hyr a' ha' own' hown' => ?_⟩
      obtain rfl := (hinj y hy x hx hyr).symm
      obtain rfl : own' = own := Option.some.inj (hown'.symm.trans (hsame a' ha'))
      refine ⟨?_, ?_, ?_⟩
      · ext k
        rw [BMap.mem_keySet, BMap.mem_keys_iff, Finset.mem_erase]
        constructor
        · rintro ⟨v, hv⟩
          rw [BMap.get?_ofList_eq_some nd'] at hv
          rcases List.mem_cons.1 hv with hv | hv
          · cases hv; exact ⟨hij.symm, hi⟩
          · obtain ⟨hv, hk⟩ := List.mem_filter.1 hv
            have : k ∈ x.2.map Prod.fst := by rw [← hmap]; exact List.mem_map.2 ⟨_, hv, rfl⟩
            rw [← List.mem_toFinset, ex] at this
            exact ⟨by simpa using hk, Finset.mem_of_mem_erase this⟩
        · rintro ⟨hkj, hk⟩
          by_cases hki : k = i
          · subst hki
            exact ⟨own', (BMap.get?_ofList_eq_some nd').2 (by simp)⟩
          · have : k ∈ (echosOf part (P.round x.1) x.2).map Prod.fst := by
              rw [hmap, ← List.mem_toFinset, ex]; exact Finset.mem_erase.2 ⟨hki, hk⟩
            obtain ⟨⟨k', v⟩, hv, rfl⟩ := List.mem_map.1 this
            exact ⟨v, (BMap.get?_ofList_eq_some nd').2 (List.mem_cons_of_mem _ (List.mem_filter.2 ⟨hv, by simpa using hkj⟩))⟩
      · exact (BMap.get?_ofList_eq_some nd').2 (by simp)
      · intro b hb hbj
        exact (BMap.get?_ofList_eq_some nd').2 (List.mem_cons_of_mem _ (List.mem_filter.2 ⟨hb, by simpa using hbj⟩))
    · exact ⟨.empty, fun x hx hxr a ha own hown => absurd ⟨x, hx, hxr, a, ha, own, hown⟩ hex⟩
  choose f hf1 hf2 using hmsg
  choose e he using hcmb
  exact ⟨⟨f, e⟩, hf1 _ rfl, fun x hx m' hm' p => hf2 _ x hx rfl m' hm' p, fun x hx a ha own hown => he _ x hx rfl a ha own hown⟩

theorem exists_presents (part : M → (r : Nat) → (p : Part) → Option (Mp p r)) (h : P.Reachable honest init n) {i j : I} {s : S} {got : List (I × M)}
    (hst : n.status i = .running s got) (hr : ∀ l s, P.replay (init i) l = .ok (.inl s) → P.round s = l.length + 1) {ids : Finset I} (hi : i ∈ ids) (hij : j ≠ i)
    (hexp : ∀ x ∈ n.past i, P.expected x.1 = ids.erase i)
    (hecho : ∀ x ∈ n.past i, ∀ a ∈ P.send x.1, ∀ own, part a.2 (P.round x.1) .echo = some own →
      (∀ b ∈ x.2, (part b.2 (P.round x.1) .echo).isSome) ∧ ∀ a' ∈ P.send x.1, part a'.2 (P.round x.1) .echo = some own) (m : M) :
    ∃ t, Presents P part ids n i s j m t :=
  exists_presents' part h hst (fun l s _ => hr l s) hi hij hexp hecho m

end Present

/-! ### Key generation -/

namespace KeyInit

variable {I F G Sid V : Type} [LinearOrder I] [Field F] [LinearOrder F] [AddCommGroup G] [Module F G] [DecidableEq G] [DecidableEq V]
  {hashV : Sid → I → PublicData G → V} {H : SchHash G (SchAux I Sid) → F} {g : G}

theorem verify_mono {sid : Sid} {guilty : I} (e : Err) {ev : Package I (Parts F G V) e.round} {t : Transcript I (Parts F G V)} (h : Within e.required.current ev t) :
    Out.Le (verifyMessages hashV H g sid guilty e ev) (verifyMessages hashV H g sid guilty e (everything t e.round)) := by
  cases e with
  | r2HashMismatch =>
    exact .bind (h.prev (by decide) _) fun _ => .bind (h.cur (by simp [Err.required])) fun _ => .bind (h.cur (by simp [Err.required])) fun _ => .refl _
  | r3InvalidSchProof =>
    exact .bind (h.echos (by decide)) fun _ => .bind (h.prev (by decide) _) fun _ => .bind (h.prev (by decide) _) fun _ => .bind (h.cur (by simp [Err.required])) fun _ => .refl _

theorem echosOf_two (in2 : List (I × Msg2 G)) :
    Spec.echosOf (Message.part (F := F) (V := V)) 2 (in2.map fun a => (a.1, .two a.2)) = in2.map fun a => (a.1, a.2.rho) := by
  unfold Spec.echosOf
  rw [List.filterMap_map]
  induction in2 with
  | nil => rfl
  | cons a l ih => rw [List.map_cons, ← ih]; rfl

/-- What a party that refuses a message knows -/
inductive Refusal (hashV : Sid → I → PublicData G → V) (H : SchHash G (SchAux I Sid) → F) (g : G) (c : Context I F G Sid)
    (n : Spec.Net I (Message F G V) (State I F G Sid V) Err (KeyShare I F G)) (i j : I) (e : Err) : State I F G Sid V → Message F G V → Prop where
  | two (in1 : List (I × V)) (capVs : BMap I V) (v : V) (m : Msg2 G) (x1 : State I F G Sid V × List (I × Message F G V)) :
      collect (E := Err) c.otherIds recv1 in1 = .ok capVs → (j, v) ∈ in1 → x1 ∈ n.past i → x1.2 = (in1.map fun a => (a.1, .one a.2)) → (machine hashV H g).round x1.1 = 1 →
      recv2 hashV ⟨c, capVs⟩ j m = .err (.protocol e) → Refusal hashV H g c n i j e (.two ⟨c, capVs⟩) (.two m)
  | three (in1 : List (I × V)) (in2 : List (I × Msg2 G)) (capVs : BMap I V) (r3 : Round3 I F G Sid) (v : V) (m2 : Msg2 G) (psi : SchProof F)
      (x1 x2 : State I F G Sid V × List (I × Message F G V)) :
      collect (E := Err) c.otherIds recv1 in1 = .ok capVs → (j, v) ∈ in1 → (j, m2) ∈ in2 → x1 ∈ n.past i → x1.2 = (in1.map fun a => (a.1, .one a.2)) → (machine hashV H g).round x1.1 = 1 →
      x2 ∈ n.past i → x2.2 = (in2.map fun a => (a.1, .two a.2)) → (machine hashV H g).round x2.1 = 2 → (∃ capVs', x2.1 = .two ⟨c, capVs'⟩) →
      toRound3 hashV c in1 in2 = .ok r3 → recv3 H g r3 j psi = .err (.protocol e) → Refusal hashV H g c n i j e (.three r3) (.three psi)

theorem refusal {honest : Set I} {c : I → Context I F G Sid} {n : Spec.Net I (Message F G V) (State I F G Sid V) Err (KeyShare I F G)}
    (h : (machine hashV H g).Reachable honest (fun i => .one (c i)) n) {i j j' : I} (hi : i ∈ honest) {s : State I F G Sid V} {got : List (I × Message F G V)}
    (hst : n.status i = .running s got) (hj : j ∈ (machine hashV H g).expected s) {m : Message F G V} {e : Err} (hrecv : (machine hashV H g).recv s j m = .err (.fault j' e)) :
    j' = j ∧ Refusal hashV H g (c i) n i j e s m := by
  have hrun := h.running hst
  have hfol := fun l s hr => (fol (hashV := hashV) (H := H) (g := g) (c := c) i hi l s hr).2
  have hf := (fol i hi _ s hrun).1
  generalize hl : (n.past i).map Prod.snd = l at hf
  cases hf with
  | one =>
    obtain ⟨-, v, -, hr⟩ := acceptPart_fault hrecv
    cases hr
  | two in1 capVs h1 =>
    obtain ⟨ej, m2, hm, hr⟩ := acceptPart_fault hrecv
    cases two_inj _ _ hm
    obtain ⟨x1, hx1, e1, r1, -⟩ := h.past_round hfol (k := 0) (by rw [hl]; rfl)
    obtain ⟨v, hv⟩ := collect_sender h1 hj
    exact ⟨ej, .two in1 capVs v m2 x1 h1 hv hx1 e1 r1 hr⟩
  | three in1 in2 r3 h3 =>
    obtain ⟨ej, psi, hm, hr⟩ := acceptPart_fault hrecv
    cases three_inj _ _ hm
    obtain ⟨x1, hx1, e1, r1, -⟩ := h.past_round hfol (k := 0) (by rw [hl]; rfl)
    obtain ⟨x2, hx2, e2, r2, p2⟩ := h.past_round hfol (k := 1) (by rw [hl]; rfl)
    obtain ⟨capVs, h1, h3'⟩ := Out.bind_eq_ok.1 h3
    obtain ⟨pl, h2, -⟩ := Out.bind_eq_ok.1 h3'
    have hj' : j ∈ (c i).otherIds := by rw [← toRound3_ctx h3]; exact hj
    obtain ⟨v, hv⟩ := collect_sender h1 hj'
    obtain ⟨m2, hm2⟩ := collect_sender h2 hj'
    refine ⟨ej, .three in1 in2 capVs r3 v m2 psi x1 x2 h1 hv hm2 hx1 e1 r1 hx2 e2 r2 ?_ h3 hr⟩
    have hf2 := (fol i hi _ _ p2).1
    generalize x2.1 = s2 at hf2 r2
    generalize ((n.past i).map Prod.snd).take 1 = l2 at hf2
    cases hf2 with
    | one => cases r2
    | two _ capVs' _ => exact ⟨capVs', rfl⟩
    | three => cases r2

/-- The messages of an honest party -/
theorem sent {honest : Set I} {c : I → Context I F G Sid} {n : Spec.Net I (Message F G V) (State I F G Sid V) Err (KeyShare I F G)}
    (h : (machine hashV H g).Reachable honest (fun i => .one (c i)) n) {i j : I} (hj : j ∈ honest) {k : Nat} {m : Message F G V} (hs : (machine hashV H g).Sent n j i k m) :
    (k = 1 ∧ m = .one (msg1 hashV (c j))) ∨ (k = 2 ∧ m = .two (msg2 (c j))) ∨
      ∃ in1 in2 r3, k = 3 ∧ toRound3 hashV (c j) in1 in2 = .ok r3 ∧ m = .three (msg3 H r3) ∧ ((n.past j).map Prod.snd)[1]? = some (in2.map fun a => (a.1, .two a.2)) := by
  obtain ⟨s, l, hl, hr, hk, hm⟩ := h.of_sent hs
  have hf := (fol j hj l s hr).1
  cases hf with
  | one => exact .inl ⟨hk.symm, (mem_toAll.1 hm).2⟩
  | two in1 capVs h1 => exact .inr (.inl ⟨hk.symm, (mem_toAll.1 hm).2⟩)
  | three in1 in2 r3 h3 =>
    refine .inr (.inr ⟨in1, in2, r3, hk.symm, h3, (mem_toAll.1 hm).2, ?_⟩)
    obtain ⟨l', hl'⟩ := hl
    rw [← hl']
    rfl

/-- A party can present what it has received. -/
theorem presentable {honest : Set I} {c : I → Context I F G Sid} {n : Spec.Net I (Message F G V) (State I F G Sid V) Err (KeyShare I F G)}
    (h : (machine hashV H g).Reachable honest (fun i => .one (c i)) n) {i j : I} (hi : i ∈ honest) {ids : Finset I} (hme : i ∈ ids) (hoth : (c i).otherIds = ids.erase i)
    {s : State I F G Sid V} {got : List (I × Message F G V)} (hst : n.status i = .running s got) (hj : j ∈ (machine hashV H g).expected s) (m : Message F G V) :
    ∃ t, Spec.Presents (machine hashV H g) Message.part ids n i s j m t := by
  have hfol := fun l s hr => fol (hashV := hashV) (H := H) (g := g) (c := c) i hi l s hr
  have hpast : ∀ x ∈ n.past i, ∃ l, Follows hashV (c i) l x.1 := by
    intro x hx
    obtain ⟨pre, post, hdec⟩ := List.append_of_mem hx
    exact ⟨_, (hfol _ _ (h.past_replay i pre x.1 x.2 post hdec)).1⟩
  have hij : j ≠ i := by
    have hf := (hfol _ _ (h.running hst)).1
    rintro rfl
    have hno : j ∉ (c j).otherIds := by rw [hoth]; simp
    generalize (n.past j).map Prod.snd = l at hf
    cases hf with
    | one => exact hno hj
    | two => exact hno hj
    | three in1 in2 r3 h3 => exact hno (by rw [← toRound3_ctx h3]; exact hj)
  have hrecv : ∀ x ∈ n.past i, ∀ b ∈ x.2, (machine hashV H g).recv x.1 b.1 b.2 = .ok () := fun x hx => ((h.inv i).past x hx).2.1.2.2
  refine exists_presents Message.part h hst (fun l s hr => (hfol l s hr).2) hme hij ?_ ?_ m
  · intro x hx
    rw [← hoth]
    obtain ⟨l, hf⟩ := hpast x hx
    generalize x.1 = s' at hf
    cases hf with
    | one => rfl
    | two => rfl
    | three in1 in2 r3 h3 => exact congrArg Context.otherIds (toRound3_ctx h3)
  · intro x hx
    obtain ⟨l, hf⟩ := hpast x hx
    have hx2 := hrecv x hx
    generalize x.1 = s' at hf hx2
    cases hf with
    | one =>
      intro a ha own hown
      obtain ⟨-, ha⟩ := mem_toAll.1 ha
      refine ⟨fun b hb => ?_, fun a' ha' => ?_⟩
      · obtain ⟨v, -, hv, -⟩ := acceptPart_eq_ok.1 (hx2 b hb)
        rw [one_inj _ _ hv]; rfl
      · obtain ⟨-, ha'⟩ := mem_toAll.1 ha'
        rw [ha', ← ha]; exact hown
    | two =>
      intro a ha own hown
      obtain ⟨-, ha⟩ := mem_toAll.1 ha
      refine ⟨fun b hb => ?_, fun a' ha' => ?_⟩
      · obtain ⟨v, -, hv, -⟩ := acceptPart_eq_ok.1 (hx2 b hb)
        rw [two_inj _ _ hv]; rfl
      · obtain ⟨-, ha'⟩ := mem_toAll.1 ha'
        rw [ha', ← ha]; exact hown
    | three in1 in2 r3 h3 =>
      intro a ha own hown
      obtain ⟨-, ha⟩ := mem_toAll.1 ha
      rw [ha] at hown
      cases hown

end KeyInit

section Fac

variable {ε : Type}

theorem isUnit_of_powSecret {n : Nat} [NeZero n] {a b : ZMod n} {e : SInt} (h : (powSecret a e : Out ε _) = .ok b) (he : e.val ≠ 0) : IsUnit a := by
  unfold powSecret at h
  split at h
  · rename_i hlt
    simp only at h
    cases hi : invMod? (powBounded a e.val.natAbs e.bound) with
    | none => rw [hi] at h; cases h
    | some c =>
      have hu : IsUnit (powBounded a e.val.natAbs e.bound) := invMod?_isSome.1 (by rw [hi]; rfl)
      unfold powBounded at hu
      rw [Nat.mod_eq_of_lt hlt] at hu
      exact (isUnit_pow_iff (by omega)).1 hu
  · cases h

/-- A party that has made a factoring proof for some ring-Pedersen parameters has found that their bases are invertible. -/
theorem facProve_valid {Aux : Type} {P : Params} {H : FacHash Aux → SInt} {Nh : Nat} [NeZero Nh] {p q' : Nat} {setup : RPParams Nh} {aux : Aux} {mask : FacMasks} {prf : FacProof}
    (h : (FacProof.prove P H p q' setup aux mask : Out ε _) = .ok prf) (hp : p ≠ 0) (hmu : mask.mu.val ≠ 0) : setup.Valid := by
  unfold FacProof.prove at h
  obtain ⟨pS, hpS, h⟩ := Out.bind_eq_ok.1 h
  obtain ⟨qS, -, h⟩ := Out.bind_eq_ok.1 h
  obtain ⟨capP, hP, -⟩ := Out.bind_eq_ok.1 h
  obtain ⟨a, ha, hP⟩ := Out.bind_eq_ok.1 hP
  obtain ⟨b, hb, -⟩ := Out.bind_eq_ok.1 hP
  have hpv : pS.val = (p : Int) := by
    unfold primeSigned at hpS
    split at hpS
    · rw [← Out.ok.inj hpS]
    · cases hpS
  exact ⟨isUnit_of_powSecret ha (by rw [hpv]; exact_mod_cast hp), isUnit_of_powSecret hb hmu⟩

end Fac

/-! ### Auxiliary info -/

namespace AuxGen

variable {I Sid V : Type} [LinearOrder I] [DecidableEq V] {E : AuxEnv I Sid} {hashV : Sid → I → Hashed → V}

theorem ridFrom_mono {k : Nat} {need : List Part} {ev : Package I (Parts V) k} {t : Transcript I (Parts V)} (h : Within need ev t) (hk : 2 < k) :
    Out.Le (ridFrom ev) (ridFrom (everything t k)) :=
  .bind (h.echos hk) fun _ => .bind (h.prev hk _) fun _ => .refl _

theorem verify_mono {sid : Sid} {guilty : I} (e : Err I) {ev : Package I (Parts V) e.round} {t : Transcript I (Parts V)} (h : Within e.required.current ev t) :
    Out.Le (verifyMessages E hashV sid guilty e ev) (verifyMessages E hashV sid guilty e (everything t e.round)) := by
  cases e with
  | r2HashMismatch =>
    exact .bind (h.prev (by simp [Err.round]) _) fun _ => .bind (h.cur (by simp [Err.required])) fun _ => .bind (h.cur (by simp [Err.required])) fun _ => .refl _
  | r2PaillierModulusTooSmall => exact .bind (h.cur (by simp [Err.required])) fun _ => .refl _
  | r2RPModulusTooSmall => exact .bind (h.cur (by simp [Err.required])) fun _ => .refl _
  | r2PrmFailed => exact .bind (h.cur (by simp [Err.required])) fun _ => .bind (h.cur (by simp [Err.required])) fun _ => .refl _
  | r3ModFailed =>
    exact .bind (ridFrom_mono h (by simp [Err.round])) fun _ => .bind (h.prev (by simp [Err.round]) _) fun _ => .bind (h.cur (by simp [Err.required])) fun _ => .refl _
  | r3FacFailed k =>
    exact .bind (ridFrom_mono h (by simp [Err.round])) fun _ => .bind (h.echos (by simp [Err.round])) fun _ => .bind (.refl _) fun _ =>
      .bind (h.prev (by simp [Err.round]) _) fun _ => .bind (h.cur (by simp [Err.required])) fun _ => .refl _

theorem echosOf_two (in2 : List (I × Msg2)) : Spec.echosOf (Message.part (V := V)) 2 (in2.map fun a => (a.1, .two a.2)) = in2.map fun a => (a.1, a.2.echo) := by
  unfold Spec.echosOf
  rw [List.filterMap_map]
  induction in2 with
  | nil => rfl
  | cons a l ih => rw [List.map_cons, ← ih]; rfl

/-- What a party that refuses a message knows -/
inductive Refusal (E : AuxEnv I Sid) (hashV : Sid → I → Hashed → V) (c : Context I Sid)
    (n : Spec.Net I (Message V) (State I Sid V) (Err I) (AuxInfo I PaillierKey PublicAux)) (i j : I) (e : Err I) : State I Sid V → Message V → Prop where
  | two (in1 : List (I × V)) (capVs : BMap I V) (v : V) (m : Msg2) (x1 : State I Sid V × List (I × Message V)) :
      collect (E := Err I) c.otherIds recv1 in1 = .ok capVs → (j, v) ∈ in1 → x1 ∈ n.past i → x1.2 = (in1.map fun a => (a.1, .one a.2)) → (machine E hashV).round x1.1 = 1 →
      recv2 E hashV c.sid capVs j m = .err (.protocol e) → Refusal E hashV c n i j e (.two c capVs) (.two m)
  | three (in1 : List (I × V)) (in2 : List (I × Msg2)) (capVs : BMap I V) (r3 : Round3 I Sid) (out : List (I × Msg3)) (v : V) (m2 : Msg2) (m3 : Msg3)
      (x1 x2 : State I Sid V × List (I × Message V)) :
      collect (E := Err I) c.otherIds recv1 in1 = .ok capVs → (j, v) ∈ in1 → (j, m2) ∈ in2 → x1 ∈ n.past i → x1.2 = (in1.map fun a => (a.1, .one a.2)) → (machine E hashV).round x1.1 = 1 →
      x2 ∈ n.past i → x2.2 = (in2.map fun a => (a.1, .two a.2)) → (machine E hashV).round x2.1 = 2 → (∃ capVs', x2.1 = .two c capVs') →
      toRound3 E hashV c in1 in2 = .ok r3 → recv3 E r3 j m3 = .err (.protocol e) → Refusal E hashV c n i j e (.three r3 out) (.three m3)

theorem refusal {honest : Set I} {c : I → Context I Sid} {n : Spec.Net I (Message V) (State I Sid V) (Err I) (AuxInfo I PaillierKey PublicAux)}
    (h : (machine E hashV).Reachable honest (fun i => .one (c i)) n) {i j j' : I} (hi : i ∈ honest) {s : State I Sid V} {got : List (I × Message V)}
    (hst : n.status i = .running s got) (hj : j ∈ (machine E hashV).expected s) {m : Message V} {e : Err I} (hrecv : (machine E hashV).recv s j m = .err (.fault j' e)) :
    j' = j ∧ Refusal E hashV (c i) n i j e s m := by
  have hrun := h.running hst
  have hfol := fun l s hr => (fol (E := E) (hashV := hashV) (c := c) i hi l s hr).2
  have hf := (fol i hi _ s hrun).1
  generalize hl : (n.past i).map Prod.snd = l at hf
  cases hf with
  | one =>
    obtain ⟨-, v, -, hr⟩ := acceptPart_fault hrecv
    cases hr
  | two in1 capVs h1 =>
    obtain ⟨ej, m2, hm, hr⟩ := acceptPart_fault hrecv
    cases two_inj _ _ hm
    obtain ⟨x1, hx1, e1, r1, -⟩ := h.past_round hfol (k := 0) (by rw [hl]; rfl)
    obtain ⟨v, hv⟩ := collect_sender h1 hj
    exact ⟨ej, .two in1 capVs v m2 x1 h1 hv hx1 e1 r1 hr⟩
  | three in1 in2 r3 out h3 hout =>
    obtain ⟨ej, m3, hm, hr⟩ := acceptPart_fault hrecv
    cases three_inj _ _ hm
    obtain ⟨x1, hx1, e1, r1, -⟩ := h.past_round hfol (k := 0) (by rw [hl]; rfl)
    obtain ⟨x2, hx2, e2, r2, p2⟩ := h.past_round hfol (k := 1) (by rw [hl]; rfl)
    obtain ⟨capVs, h1, h3'⟩ := Out.bind_eq_ok.1 h3
    obtain ⟨pl, h2, -⟩ := Out.bind_eq_ok.1 h3'
    have hj' : j ∈ (c i).otherIds := by rw [← toRound3_ctx h3]; exact hj
    obtain ⟨v, hv⟩ := collect_sender h1 hj'
    obtain ⟨m2, hm2⟩ := collect_sender h2 hj'
    refine ⟨ej, .three in1 in2 capVs r3 out v m2 m3 x1 x2 h1 hv hm2 hx1 e1 r1 hx2 e2 r2 ?_ h3 hr⟩
    have hf2 := (fol i hi _ _ p2).1
    generalize x2.1 = s2 at hf2 r2
    generalize ((n.past i).map Prod.snd).take 1 = l2 at hf2
    cases hf2 with
    | one => cases r2
    | two _ capVs' _ => exact ⟨capVs', rfl⟩
    | three => cases r2

theorem send3_dest {r3 : Round3 I Sid} {out : List (I × Msg3)} (h : send3 E r3 = .ok out) {a : I × Msg3} (ha : a ∈ out) : a.1 ∈ r3.ctx.otherIds := by
  have hf := Out.mapM'_eq_ok_iff.1 h
  obtain ⟨k, hk, rfl⟩ := List.mem_iff_getElem.1 ha
  have hk' : k < (bsetIter r3.ctx.otherIds).length := by rw [hf.length_eq]; exact hk
  have := hf.get hk' hk
  simp only [Out.bind_eq_ok, finalizeResult_eq_ok, List.get_eq_getElem] at this
  obtain ⟨m, hm, he⟩ := this
  rw [← Out.ok.inj he]
  exact mem_bsetIter.1 (List.getElem_mem hk')

/-- A party that has made a message of round 3 has found that the ring-Pedersen bases of its addressee are invertible. -/
theorem msg3_valid {ids : Finset I} {sid : Sid} {me : I} {d : AuxDraws I} {c : Context I Sid} (hc : start E ids sid me d = .ok c) {in1 : List (I × V)} {in2 : List (I × Msg2)}
    {r3 : Round3 I Sid} (h3 : toRound3 E hashV c in1 in2 = .ok r3) {i : I} {m : Msg2} (hm : (i, m) ∈ in2) {m3 : Msg3} (hm3 : msg3 E r3 i = .ok m3) (hp : d.p ≠ 0)
    (hmu : (d.facMasks i).mu.val ≠ 0) : Nat.Coprime m.echo.rp.baseValue m.echo.rp.modulus ∧ Nat.Coprime m.echo.rp.baseRandomizer m.echo.rp.modulus := by
  obtain ⟨hme, -, sk, hsk, rfl⟩ := start_ok hc
  obtain ⟨hctx, -, -, -, -, -, hget, -⟩ := toRound3_ok (by simp) h3
  obtain ⟨hg, -, o2, -⟩ := hget i m hm
  obtain ⟨pl, hpl, hm3⟩ := Out.bind_eq_ok.1 hm3
  obtain ⟨psi, hpsi, -⟩ := Out.bind_eq_ok.1 hm3
  obtain rfl : pl = _ := Option.some.inj ((Out.ofOption_eq_ok.1 hpl).symm.trans hg)
  rw [hctx] at hpsi
  have : NeZero (rpOf m).modulus := ⟨by show m.echo.rp.modulus ≠ 0; omega⟩
  have hv := facProve_valid (ε := LocalErr) (setup := (rpOf m).rp) hpsi hp hmu
  exact ⟨(ZMod.isUnit_iff_coprime _ _).1 hv.1, (ZMod.isUnit_iff_coprime _ _).1 hv.2⟩

/-- The messages of an honest party -/
theorem sent {honest : Set I} {c : I → Context I Sid} {n : Spec.Net I (Message V) (State I Sid V) (Err I) (AuxInfo I PaillierKey PublicAux)}
    (h : (machine E hashV).Reachable honest (fun i => .one (c i)) n) {i j : I} (hj : j ∈ honest) {k : Nat} {m : Message V} (hs : (machine E hashV).Sent n j i k m) :
    (k = 1 ∧ m = .one (msg1 hashV (c j))) ∨ (k = 2 ∧ m = .two (msg2 (c j))) ∨
      ∃ in1 in2 r3 m3, k = 3 ∧ toRound3 E hashV (c j) in1 in2 = .ok r3 ∧ msg3 E r3 i = .ok m3 ∧ m = .three m3 ∧ i ∈ (c j).otherIds ∧ ((n.past j).map Prod.snd)[1]? = some (in2.map fun a => (a.1, .two a.2)) := by
  obtain ⟨s, l, hl, hr, hk, hm⟩ := h.of_sent hs
  have hf := (fol j hj l s hr).1
  cases hf with
  | one => exact .inl ⟨hk.symm, (mem_toAll.1 hm).2⟩
  | two in1 capVs h1 => exact .inr (.inl ⟨hk.symm, (mem_toAll.1 hm).2⟩)
  | three in1 in2 r3 out h3 hout =>
    obtain ⟨a, ha, hae⟩ := List.mem_map.1 hm
    cases hae
    refine .inr (.inr ⟨in1, in2, r3, a.2, hk.symm, h3, send3_mem hout ha, rfl, (by rw [← toRound3_ctx h3]; exact send3_dest hout ha), ?_⟩)
    obtain ⟨l', hl'⟩ := hl
    rw [← hl']
    rfl

/-- Whatever the errors of round 2 read is what the party sent. -/
theorem within2 {honest : Set I} {c : I → Context I Sid} {n : Spec.Net I (Message V) (State I Sid V) (Err I) (AuxInfo I PaillierKey PublicAux)}
    (h : (machine E hashV).Reachable honest (fun i => .one (c i)) n) {j reporter : I} (hj : j ∈ honest) {need : List Part} {ev : Package I (Parts V) 2}
    (hev : Spec.SignedBy (machine E hashV) Message.part n j reporter ev) (m3 : Msg3) :
    Within need ev (AuxGen.transcript (msg1 hashV (c j)) (msg2 (c j)) m3 ((ev.combined 1).getD .empty) .empty) := by
  have hfol := fun l s hr => (fol (E := E) (hashV := hashV) (c := c) j hj l s hr).2
  refine ⟨?_, ?_, ?_⟩
  · intro p _ x hx
    obtain ⟨i, m, hs, -, hp⟩ := hev.current p x hx
    rcases sent h hj hs with ⟨hk, -⟩ | ⟨-, rfl⟩ | ⟨_, _, _, _, hk, -⟩
    · cases hk
    · cases p <;> exact hp
    · cases hk
  · intro r hr msg p x hmsg hx
    obtain ⟨i, m, hs, -, hp⟩ := hev.previous r msg p x hmsg hx
    rcases sent h hj hs with ⟨rfl, rfl⟩ | ⟨rfl, rfl⟩ | ⟨_, _, _, _, rfl, -⟩
    · cases p <;> exact hp
    · omega
    · omega
  · intro r hr echos he
    match r, hr with
    | 0, _ =>
      obtain ⟨x, hx, hr, -⟩ := hev.combined 0 echos he
      obtain ⟨k, hk, -⟩ := h.past_index hfol hx
      omega
    | 1, _ => show (ev.combined 1).getD .empty = echos; rw [he]; rfl

/-- Whatever the errors of round 3 read of the rounds before is what the party sent. -/
theorem within3 {honest : Set I} {c : I → Context I Sid} {n : Spec.Net I (Message V) (State I Sid V) (Err I) (AuxInfo I PaillierKey PublicAux)}
    (h : (machine E hashV).Reachable honest (fun i => .one (c i)) n) {j reporter : I} (hj : j ∈ honest) {need : List Part} {ev : Package I (Parts V) 3}
    (hev : Spec.SignedBy (machine E hashV) Message.part n j reporter ev) (m3 : Msg3) (hcur : ∀ p ∈ need, ∀ x, ev.current p = some x → Message.part (.three m3) 3 p = some x) :
    Within need ev (AuxGen.transcript (msg1 hashV (c j)) (msg2 (c j)) m3 ((ev.combined 1).getD .empty) ((ev.combined 2).getD .empty)) := by
  have hfol := fun l s hr => (fol (E := E) (hashV := hashV) (c := c) j hj l s hr).2
  refine ⟨?_, ?_, ?_⟩
  · intro p hp x hx
    have := hcur p hp x hx
    cases p <;> exact this
  · intro r hr msg p x hmsg hx
    obtain ⟨i, m, hs, -, hp⟩ := hev.previous r msg p x hmsg hx
    rcases sent h hj hs with ⟨rfl, rfl⟩ | ⟨rfl, rfl⟩ | ⟨_, _, _, _, rfl, -⟩
    · cases p <;> exact hp
    · cases p <;> exact hp
    · omega
  · intro r hr echos he
    match r, hr with
    | 0, _ =>
      obtain ⟨x, hx, hr, -⟩ := hev.combined 0 echos he
      obtain ⟨k, hk, -⟩ := h.past_index hfol hx
      omega
    | 1, _ => show (ev.combined 1).getD .empty = echos; rw [he]; rfl
    | 2, _ => show (ev.combined 2).getD .empty = echos; rw [he]; rfl

/-- A message of round 3 shows what the party received in round 2, and the echos are those it received. -/
theorem third {honest : Set I} {c : I → Context I Sid} {n : Spec.Net I (Message V) (State I Sid V) (Err I) (AuxInfo I PaillierKey PublicAux)}
    (h : (machine E hashV).Reachable honest (fun i => .one (c i)) n) {j reporter : I} (hj : j ∈ honest) {ev : Package I (Parts V) 3}
    (hev : Spec.SignedBy (machine E hashV) Message.part n j reporter ev) {p : Part} {x : Parts V p 3} (hx : ev.current p = some x) :
    ∃ i in1 in2 r3 m3, toRound3 E hashV (c j) in1 in2 = .ok r3 ∧ msg3 E r3 i = .ok m3 ∧ (p = .direct → i = reporter) ∧ Message.part (.three m3) 3 p = some x ∧
      (∀ echos, ev.combined 2 = some echos → echos.entries.Perm (in2.map fun a => (a.1, a.2.echo))) ∧ ∃ m2 y, (i, m2) ∈ in2 ∧ y ∈ n.past j ∧ (i, .two m2) ∈ y.2 := by
  have hfol := fun l s hr => (fol (E := E) (hashV := hashV) (c := c) j hj l s hr).2
  obtain ⟨i, m, hs, hrep, hp⟩ := hev.current p x hx
  rcases sent h hj hs with ⟨hk, -⟩ | ⟨hk, -⟩ | ⟨in1, in2, r3, m3, -, h3, hm3, rfl, hi, hin2⟩
  · cases hk
  · cases hk
  refine ⟨i, in1, in2, r3, m3, h3, hm3, hrep, hp, ?_, ?_⟩
  · intro echos he
    obtain ⟨x, hx, hr, hperm⟩ := hev.combined 2 echos he
    obtain ⟨k, hk, hxk⟩ := h.past_index hfol hx
    obtain rfl : k = 1 := by omega
    rw [hin2] at hxk
    rw [← Option.some.inj hxk, echosOf_two] at hperm
    exact hperm
  · obtain ⟨y, hy, hy2, -⟩ := h.past_round hfol hin2
    obtain ⟨_, -, h3'⟩ := Out.bind_eq_ok.1 h3
    obtain ⟨_, h2, -⟩ := Out.bind_eq_ok.1 h3'
    obtain ⟨m2, hm2⟩ := collect_sender h2 hi
    exact ⟨m2, y, hm2, hy, by rw [hy2]; exact List.mem_map.2 ⟨_, hm2, rfl⟩⟩

/-- A party can present what it has received. -/
theorem presentable {honest : Set I} {c : I → Context I Sid} {n : Spec.Net I (Message V) (State I Sid V) (Err I) (AuxInfo I PaillierKey PublicAux)}
    (h : (machine E hashV).Reachable honest (fun i => .one (c i)) n) {i j : I} (hi : i ∈ honest) {ids : Finset I} (hme : i ∈ ids) (hoth : (c i).otherIds = ids.erase i)
    {s : State I Sid V} {got : List (I × Message V)} (hst : n.status i = .running s got) (hj : j ∈ (machine E hashV).expected s) (m : Message V) :
    ∃ t, Spec.Presents (machine E hashV) Message.part ids n i s j m t := by
  have hfol := fun l s hr => fol (E := E) (hashV := hashV) (c := c) i hi l s hr
  have hpast : ∀ x ∈ n.past i, ∃ l, Follows E hashV (c i) l x.1 := by
    intro x hx
    obtain ⟨pre, post, hdec⟩ := List.append_of_mem hx
    exact ⟨_, (hfol _ _ (h.past_replay i pre x.1 x.2 post hdec)).1⟩
  have hij : j ≠ i := by
    have hf := (hfol _ _ (h.running hst)).1
    rintro rfl
    have hno : j ∉ (c j).otherIds := by rw [hoth]; simp
    generalize (n.past j).map Prod.snd = l at hf
    cases hf with
    | one => exact hno hj
    | two => exact hno hj
    | three in1 in2 r3 out h3 hout => exact hno (by rw [← toRound3_ctx h3]; exact hj)
  have hrecv : ∀ x ∈ n.past i, ∀ b ∈ x.2, (machine E hashV).recv x.1 b.1 b.2 = .ok () := fun x hx => ((h.inv i).past x hx).2.1.2.2
  refine exists_presents Message.part h hst (fun l s hr => (hfol l s hr).2) hme hij ?_ ?_ m
  · intro x hx
    rw [← hoth]
    obtain ⟨l, hf⟩ := hpast x hx
    generalize x.1 = s' at hf
    cases hf with
    | one => rfl
    | two => rfl
    | three in1 in2 r3 out h3 hout => exact congrArg Context.otherIds (toRound3_ctx h3)
  · intro x hx
    obtain ⟨l, hf⟩ := hpast x hx
    have hx2 := hrecv x hx
    generalize x.1 = s' at hf hx2
    cases hf with
    | one =>
      intro a ha own hown
      obtain ⟨-, ha⟩ := mem_toAll.1 ha
      refine ⟨fun b hb => ?_, fun a' ha' => ?_⟩
      · obtain ⟨v, -, hv, -⟩ := acceptPart_eq_ok.1 (hx2 b hb)
        rw [one_inj _ _ hv]; rfl
      · obtain ⟨-, ha'⟩ := mem_toAll.1 ha'
        rw [ha', ← ha]; exact hown
    | two =>
      intro a ha own hown
      obtain ⟨-, ha⟩ := mem_toAll.1 ha
      refine ⟨fun b hb => ?_, fun a' ha' => ?_⟩
      · obtain ⟨v, -, hv, -⟩ := acceptPart_eq_ok.1 (hx2 b hb)
        rw [two_inj _ _ hv]; rfl
      · obtain ⟨-, ha'⟩ := mem_toAll.1 ha'
        rw [ha', ← ha]; exact hown
    | three in1 in2 r3 out h3 hout =>
      intro a ha own hown
      obtain ⟨_, -, rfl⟩ := List.mem_map.1 ha
      cases hown

end AuxGen

/-! ### Key refresh -/

namespace KeyRefresh

variable {I F G Sid V : Type} [LinearOrder I] [Field F] [LinearOrder F] [AddCommGroup G] [Module F G] [DecidableEq G] [DecidableEq V]
  {E : Env I Sid F G} {hashV : Sid → I → Hashed I G → V}

theorem ridFrom_mono {k : Nat} {need : List Part} {ev : Package I (Parts I F G V) k} {t : Transcript I (Parts I F G V)} (h : Within need ev t) (hk : 2 < k) :
    Out.Le (ridFrom ev) (ridFrom (everything t k)) :=
  .bind (h.echos hk) fun _ => .bind (h.prev hk _) fun _ => .refl _

theorem verify_mono {sid : Sid} {ids : Finset I} {guilty : I} (e : Err I F) {ev : Package I (Parts I F G V) e.round} {t : Transcript I (Parts I F G V)} (h : Within e.required.current ev t) :
    Out.Le (verifyMessages E hashV sid ids guilty e ev) (verifyMessages E hashV sid ids guilty e (everything t e.round)) := by
  cases e with
  | r2HashMismatch => exact .bind (h.prev (by simp [Err.round]) _) fun _ => .bind (h.cur (by simp [Err.required])) fun _ => .bind (h.cur (by simp [Err.required])) fun _ => .refl _
  | r2WrongIdsX | r2WrongIdsY | r2WrongIdsA | r2PaillierModulusTooSmall | r2RPModulusTooSmall | r2NonZeroSumOfChanges | r3WrongIdsHatPsi => exact .bind (h.cur (by simp [Err.required])) fun _ => .refl _
  | r2PrmFailed => exact .bind (h.cur (by simp [Err.required])) fun _ => .bind (h.cur (by simp [Err.required])) fun _ => .refl _
  | r3ShareChangeMismatch k y =>
    exact .bind (h.echos (by simp [Err.round])) fun _ => .bind (.refl _) fun _ => .bind (.refl _) fun _ => .ite (.refl _) (.bind (ridFrom_mono h (by simp [Err.round])) fun _ => .bind (h.prev (by simp [Err.round]) _) fun _ => .bind (.refl _) fun _ => .bind (h.prev (by simp [Err.round]) _) fun _ => .bind (h.cur (by simp [Err.required])) fun _ => .refl _)
  | r3ModFailed => exact .bind (ridFrom_mono h (by simp [Err.round])) fun _ => .bind (h.prev (by simp [Err.round]) _) fun _ => .bind (h.cur (by simp [Err.required])) fun _ => .refl _
  | r3FacFailed k => exact .bind (ridFrom_mono h (by simp [Err.round])) fun _ => .bind (h.echos (by simp [Err.round])) fun _ => .bind (.refl _) fun _ => .bind (h.prev (by simp [Err.round]) _) fun _ => .bind (h.cur (by simp [Err.required])) fun _ => .refl _
  | r3SchFailed k => exact .bind (ridFrom_mono h (by simp [Err.round])) fun _ => .bind (h.prev (by simp [Err.round]) _) fun _ => .bind (h.cur (by simp [Err.required])) fun _ => .refl _

theorem echosOf_two (in2 : List (I × Msg2 I G)) : Spec.echosOf (Message.part (F := F) (V := V)) 2 (in2.map fun a => (a.1, .two a.2)) = in2.map fun a => (a.1, a.2.echo) := by
  unfold Spec.echosOf
  rw [List.filterMap_map]
  induction in2 with
  | nil => rfl
  | cons a l ih => rw [List.map_cons, ← ih]; rfl

/-- What a party that refuses a message knows -/
inductive Refusal (E : Env I Sid F G) (hashV : Sid → I → Hashed I G → V) (c : Context I F G Sid)
    (n : Spec.Net I (Message I F G V) (State I F G Sid V) (Err I F) (KeyShareChange I F G × AuxInfo I PaillierKey PublicAux)) (i j : I) (e : Err I F) : State I F G Sid V → Message I F G V → Prop where
  | two (in1 : List (I × V)) (capVs : BMap I V) (v : V) (m : Msg2 I G) (x1 : State I F G Sid V × List (I × Message I F G V)) :
      collect (E := Err I F) c.otherIds recv1 in1 = .ok capVs → (j, v) ∈ in1 → x1 ∈ n.past i → x1.2 = (in1.map fun a => (a.1, .one a.2)) → (machine E hashV).round x1.1 = 1 →
      recv2 E hashV c.sid c.allIds capVs j m = .err (.protocol e) → Refusal E hashV c n i j e (.two c capVs) (.two m)
  | three (in1 : List (I × V)) (in2 : List (I × Msg2 I G)) (capVs : BMap I V) (r3 : Round3 I F G Sid) (out : List (I × Msg3 I F)) (v : V) (m2 : Msg2 I G) (m3 : Msg3 I F)
      (x1 x2 : State I F G Sid V × List (I × Message I F G V)) :
      collect (E := Err I F) c.otherIds recv1 in1 = .ok capVs → (j, v) ∈ in1 → (j, m2) ∈ in2 → x1 ∈ n.past i → x1.2 = (in1.map fun a => (a.1, .one a.2)) → (machine E hashV).round x1.1 = 1 →
      x2 ∈ n.past i → x2.2 = (in2.map fun a => (a.1, .two a.2)) → (machine E hashV).round x2.1 = 2 → (∃ capVs', x2.1 = .two c capVs') →
      toRound3 E hashV c in1 in2 = .ok r3 → recv3 E r3 j m3 = .err (.protocol e) → Refusal E hashV c n i j e (.three r3 out) (.three m3)

theorem refusal {honest : Set I} {c : I → Context I F G Sid} {n : Spec.Net I (Message I F G V) (State I F G Sid V) (Err I F) (KeyShareChange I F G × AuxInfo I PaillierKey PublicAux)}
    (h : (machine E hashV).Reachable honest (fun i => .one (c i)) n) {i j j' : I} (hi : i ∈ honest) {s : State I F G Sid V} {got : List (I × Message I F G V)}
    (hst : n.status i = .running s got) (hj : j ∈ (machine E hashV).expected s) {m : Message I F G V} {e : Err I F} (hrecv : (machine E hashV).recv s j m = .err (.fault j' e)) :
    j' = j ∧ Refusal E hashV (c i) n i j e s m := by
  have hrun := h.running hst
  have hfol := fun l s hr => (fol (E := E) (hashV := hashV) (c := c) i hi l s hr).2
  have hf := (fol i hi _ s hrun).1
  generalize hl : (n.past i).map Prod.snd = l at hf
  cases hf with
  | one =>
    obtain ⟨-, v, -, hr⟩ := acceptPart_fault hrecv
    cases hr
  | two in1 capVs h1 =>
    obtain ⟨ej, m2, hm, hr⟩ := acceptPart_fault hrecv
    cases two_inj _ _ hm
    obtain ⟨x1, hx1, e1, r1, -⟩ := h.past_round hfol (k := 0) (by rw [hl]; rfl)
    obtain ⟨v, hv⟩ := collect_sender h1 hj
    exact ⟨ej, .two in1 capVs v m2 x1 h1 hv hx1 e1 r1 hr⟩
  | three in1 in2 r3 out h3 hout =>
    obtain ⟨ej, m3, hm, hr⟩ := acceptPart_fault hrecv
    cases three_inj _ _ hm
    obtain ⟨x1, hx1, e1, r1, -⟩ := h.past_round hfol (k := 0) (by rw [hl]; rfl)
    obtain ⟨x2, hx2, e2, r2, p2⟩ := h.past_round hfol (k := 1) (by rw [hl]; rfl)
    obtain ⟨capVs, h1, h3'⟩ := Out.bind_eq_ok.1 h3
    obtain ⟨pl, h2, -⟩ := Out.bind_eq_ok.1 h3'
    have hj' : j ∈ (c i).otherIds := by rw [← toRound3_ctx h3]; exact hj
    obtain ⟨v, hv⟩ := collect_sender h1 hj'
    obtain ⟨m2, hm2⟩ := collect_sender h2 hj'
    refine ⟨ej, .three in1 in2 capVs r3 out v m2 m3 x1 x2 h1 hv hm2 hx1 e1 r1 hx2 e2 r2 ?_ h3 hr⟩
    have hf2 := (fol i hi _ _ p2).1
    generalize x2.1 = s2 at hf2 r2
    generalize ((n.past i).map Prod.snd).take 1 = l2 at hf2
    cases hf2 with
    | one => cases r2
    | two _ capVs' _ => exact ⟨capVs', rfl⟩
    | three => cases r2

theorem send3_dest {r3 : Round3 I F G Sid} {out : List (I × Msg3 I F)} (h : send3 E r3 = .ok out) {a : I × Msg3 I F} (ha : a ∈ out) : a.1 ∈ r3.ctx.otherIds := by
  have hf := Out.mapM'_eq_ok_iff.1 h
  obtain ⟨k, hk, rfl⟩ := List.mem_iff_getElem.1 ha
  have hk' : k < (bsetIter r3.ctx.otherIds).length := by rw [hf.length_eq]; exact hk
  have := hf.get hk' hk
  simp only [Out.bind_eq_ok, finalizeResult_eq_ok, List.get_eq_getElem] at this
  obtain ⟨m, hm, he⟩ := this
  rw [← Out.ok.inj he]
  exact mem_bsetIter.1 (List.getElem_mem hk')

/-- A party that has made a message of round 3 has found that the ring-Pedersen bases of its addressee are invertible. -/
theorem msg3_valid {ids : Finset I} {sid : Sid} {me : I} {d : Draws I F} {c : Context I F G Sid} (hc : start E ids sid me d = .ok c) {in1 : List (I × V)} {in2 : List (I × Msg2 I G)}
    {r3 : Round3 I F G Sid} (h3 : toRound3 E hashV c in1 in2 = .ok r3) {i : I} {m : Msg2 I G} (hm : (i, m) ∈ in2) {m3 : Msg3 I F} (hm3 : msg3 E r3 i = .ok m3) (hp : d.aux.p ≠ 0)
    (hmu : (d.aux.facMasks i).mu.val ≠ 0) : Nat.Coprime m.echo.rp.baseValue m.echo.rp.modulus ∧ Nat.Coprime m.echo.rp.baseRandomizer m.echo.rp.modulus := by
  obtain ⟨hme, -, sk, x, hsk, -, rfl⟩ := start_ok hc
  obtain ⟨rid, psiP, pl, rfl, -, ex, -, hget, -⟩ := toRound3_ok hme h3
  obtain ⟨hpl, -, -, -, -, o2, -⟩ := hget i m hm
  obtain ⟨pl', hpl', hm3⟩ := Out.bind_eq_ok.1 hm3
  obtain ⟨psi, hpsi, -⟩ := Out.bind_eq_ok.1 hm3
  have hi : i ∈ ids := Finset.mem_of_mem_erase (a := me) (by rw [← ex, List.mem_toFinset]; exact List.mem_map.2 ⟨_, hm, rfl⟩)
  have hg := Out.ofOption_eq_ok.1 hpl'
  simp only [BMap.get?_tabulate, hi, if_true, hpl] at hg
  obtain rfl : pl' = _ := (Option.some.inj hg).symm
  have : NeZero (AuxGen.rpOf m.base).modulus := ⟨by show m.echo.rp.modulus ≠ 0; omega⟩
  have hv := facProve_valid (ε := LocalErr) (setup := (AuxGen.rpOf m.base).rp) hpsi hp hmu
  exact ⟨(ZMod.isUnit_iff_coprime _ _).1 hv.1, (ZMod.isUnit_iff_coprime _ _).1 hv.2⟩

/-- The messages of an honest party -/
theorem sent {honest : Set I} {c : I → Context I F G Sid} {n : Spec.Net I (Message I F G V) (State I F G Sid V) (Err I F) (KeyShareChange I F G × AuxInfo I PaillierKey PublicAux)}
    (h : (machine E hashV).Reachable honest (fun i => .one (c i)) n) {i j : I} (hj : j ∈ honest) {k : Nat} {m : Message I F G V} (hs : (machine E hashV).Sent n j i k m) :
    (k = 1 ∧ m = .one (msg1 hashV (c j))) ∨ (k = 2 ∧ m = .two (msg2 (c j))) ∨
      ∃ in1 in2 r3 m3, k = 3 ∧ toRound3 E hashV (c j) in1 in2 = .ok r3 ∧ msg3 E r3 i = .ok m3 ∧ m = .three m3 ∧ i ∈ (c j).otherIds ∧ ((n.past j).map Prod.snd)[1]? = some (in2.map fun a => (a.1, .two a.2)) := by
  obtain ⟨s, l, hl, hr, hk, hm⟩ := h.of_sent hs
  have hf := (fol j hj l s hr).1
  cases hf with
  | one => exact .inl ⟨hk.symm, (mem_toAll.1 hm).2⟩
  | two in1 capVs h1 => exact .inr (.inl ⟨hk.symm, (mem_toAll.1 hm).2⟩)
  | three in1 in2 r3 out h3 hout =>
    obtain ⟨a, ha, hae⟩ := List.mem_map.1 hm
    cases hae
    refine .inr (.inr ⟨in1, in2, r3, a.2, hk.symm, h3, send3_mem hout ha, rfl, (by rw [← toRound3_ctx h3]; exact send3_dest hout ha), ?_⟩)
    obtain ⟨l', hl'⟩ := hl
    rw [← hl']
    rfl

/-- Whatever the errors of round 2 read is what the party sent. -/
theorem within2 {honest : Set I} {c : I → Context I F G Sid} {n : Spec.Net I (Message I F G V) (State I F G Sid V) (Err I F) (KeyShareChange I F G × AuxInfo I PaillierKey PublicAux)}
    (h : (machine E hashV).Reachable honest (fun i => .one (c i)) n) {j reporter : I} (hj : j ∈ honest) {need : List Part} {ev : Package I (Parts I F G V) 2}
    (hev : Spec.SignedBy (machine E hashV) Message.part n j reporter ev) (m3 : Msg3 I F) :
    Within need ev (KeyRefresh.transcript (msg1 hashV (c j)) (msg2 (c j)) m3 ((ev.combined 1).getD .empty) .empty .empty) := by
  have hfol := fun l s hr => (fol (E := E) (hashV := hashV) (c := c) j hj l s hr).2
  refine ⟨?_, ?_, ?_⟩
  · intro p _ x hx
    obtain ⟨i, m, hs, -, hp⟩ := hev.current p x hx
    rcases sent h hj hs with ⟨hk, -⟩ | ⟨-, rfl⟩ | ⟨_, _, _, _, hk, -⟩
    · cases hk
    · cases p <;> exact hp
    · cases hk
  · intro r hr msg p x hmsg hx
    obtain ⟨i, m, hs, -, hp⟩ := hev.previous r msg p x hmsg hx
    rcases sent h hj hs with ⟨rfl, rfl⟩ | ⟨rfl, rfl⟩ | ⟨_, _, _, _, rfl, -⟩
    · cases p <;> exact hp
    · omega
    · omega
  · intro r hr echos he
    match r, hr with
    | 0, _ =>
      obtain ⟨x, hx, hr, -⟩ := hev.combined 0 echos he
      obtain ⟨k, hk, -⟩ := h.past_index hfol hx
      omega
    | 1, _ => show (ev.combined 1).getD .empty = echos; rw [he]; rfl

/-- Whatever the errors of round 3 read of the rounds before is what the party sent. -/
theorem within3 {honest : Set I} {c : I → Context I F G Sid} {n : Spec.Net I (Message I F G V) (State I F G Sid V) (Err I F) (KeyShareChange I F G × AuxInfo I PaillierKey PublicAux)}
    (h : (machine E hashV).Reachable honest (fun i => .one (c i)) n) {j reporter : I} (hj : j ∈ honest) {need : List Part} {ev : Package I (Parts I F G V) 3}
    (hev : Spec.SignedBy (machine E hashV) Message.part n j reporter ev) (m3 : Msg3 I F) (hcur : ∀ p ∈ need, ∀ x, ev.current p = some x → Message.part (.three m3) 3 p = some x) :
    Within need ev (KeyRefresh.transcript (msg1 hashV (c j)) (msg2 (c j)) m3 ((ev.combined 1).getD .empty) ((ev.combined 2).getD .empty) .empty) := by
  have hfol := fun l s hr => (fol (E := E) (hashV := hashV) (c := c) j hj l s hr).2
  refine ⟨?_, ?_, ?_⟩
  · intro p hp x hx
    have := hcur p hp x hx
    cases p <;> exact this
  · intro r hr msg p x hmsg hx
    obtain ⟨i, m, hs, -, hp⟩ := hev.previous r msg p x hmsg hx
    rcases sent h hj hs with ⟨rfl, rfl⟩ | ⟨rfl, rfl⟩ | ⟨_, _, _, _, rfl, -⟩
    · cases p <;> exact hp
    · cases p <;> exact hp
    · omega
  · intro r hr echos he
    match r, hr with
    | 0, _ =>
      obtain ⟨x, hx, hr, -⟩ := hev.combined 0 echos he
      obtain ⟨k, hk, -⟩ := h.past_index hfol hx
      omega
    | 1, _ => show (ev.combined 1).getD .empty = echos; rw [he]; rfl
    | 2, _ => show (ev.combined 2).getD .empty = echos; rw [he]; rfl

/-- A message of round 3 shows what the party received in round 2, and the echos are those it received. -/
theorem third {honest : Set I} {c : I → Context I F G Sid} {n : Spec.Net I (Message I F G V) (State I F G Sid V) (Err I F) (KeyShareChange I F G × AuxInfo I PaillierKey PublicAux)}
    (h : (machine E hashV).Reachable honest (fun i => .one (c i)) n) {j reporter : I} (hj : j ∈ honest) {ev : Package I (Parts I F G V) 3}
    (hev : Spec.SignedBy (machine E hashV) Message.part n j reporter ev) {p : Part} {x : Parts I F G V p 3} (hx : ev.current p = some x) :
    ∃ i in1 in2 r3 m3, toRound3 E hashV (c j) in1 in2 = .ok r3 ∧ msg3 E r3 i = .ok m3 ∧ (p = .direct → i = reporter) ∧ Message.part (.three m3) 3 p = some x ∧
      (∀ echos, ev.combined 2 = some echos → echos.entries.Perm (in2.map fun a => (a.1, a.2.echo))) ∧ ∃ m2 y, (i, m2) ∈ in2 ∧ y ∈ n.past j ∧ (i, .two m2) ∈ y.2 := by
  have hfol := fun l s hr => (fol (E := E) (hashV := hashV) (c := c) j hj l s hr).2
  obtain ⟨i, m, hs, hrep, hp⟩ := hev.current p x hx
  rcases sent h hj hs with ⟨hk, -⟩ | ⟨hk, -⟩ | ⟨in1, in2, r3, m3, -, h3, hm3, rfl, hi, hin2⟩
  · cases hk
  · cases hk
  refine ⟨i, in1, in2, r3, m3, h3, hm3, hrep, hp, ?_, ?_⟩
  · intro echos he
    obtain ⟨x, hx, hr, hperm⟩ := hev.combined 2 echos he
    obtain ⟨k, hk, hxk⟩ := h.past_index hfol hx
    obtain rfl : k = 1 := by omega
    rw [hin2] at hxk
    rw [← Option.some.inj hxk, echosOf_two] at hperm
    exact hperm
  · obtain ⟨y, hy, hy2, -⟩ := h.past_round hfol hin2
    obtain ⟨_, -, h3'⟩ := Out.bind_eq_ok.1 h3
    obtain ⟨_, h2, -⟩ := Out.bind_eq_ok.1 h3'
    obtain ⟨m2, hm2⟩ := collect_sender h2 hi
    exact ⟨m2, y, hm2, hy, by rw [hy2]; exact List.mem_map.2 ⟨_, hm2, rfl⟩⟩

/-- A party can present what it has received. -/
theorem presentable {honest : Set I} {c : I → Context I F G Sid} {n : Spec.Net I (Message I F G V) (State I F G Sid V) (Err I F) (KeyShareChange I F G × AuxInfo I PaillierKey PublicAux)}
    (h : (machine E hashV).Reachable honest (fun i => .one (c i)) n) {i j : I} (hi : i ∈ honest) {ids : Finset I} (hme : i ∈ ids) (hoth : (c i).otherIds = ids.erase i)
    {s : State I F G Sid V} {got : List (I × Message I F G V)} (hst : n.status i = .running s got) (hj : j ∈ (machine E hashV).expected s) (m : Message I F G V) :
    ∃ t, Spec.Presents (machine E hashV) Message.part ids n i s j m t := by
  have hfol := fun l s hr => fol (E := E) (hashV := hashV) (c := c) i hi l s hr
  have hpast : ∀ x ∈ n.past i, ∃ l, Follows E hashV (c i) l x.1 := by
    intro x hx
    obtain ⟨pre, post, hdec⟩ := List.append_of_mem hx
    exact ⟨_, (hfol _ _ (h.past_replay i pre x.1 x.2 post hdec)).1⟩
  have hij : j ≠ i := by
    have hf := (hfol _ _ (h.running hst)).1
    rintro rfl
    have hno : j ∉ (c j).otherIds := by rw [hoth]; simp
    generalize (n.past j).map Prod.snd = l at hf
    cases hf with
    | one => exact hno hj
    | two => exact hno hj
    | three in1 in2 r3 out h3 hout => exact hno (by rw [← toRound3_ctx h3]; exact hj)
  have hrecv : ∀ x ∈ n.past i, ∀ b ∈ x.2, (machine E hashV).recv x.1 b.1 b.2 = .ok () := fun x hx => ((h.inv i).past x hx).2.1.2.2
  refine exists_presents Message.part h hst (fun l s hr => (hfol l s hr).2) hme hij ?_ ?_ m
  · intro x hx
    rw [← hoth]
    obtain ⟨l, hf⟩ := hpast x hx
    generalize x.1 = s' at hf
    cases hf with
    | one => rfl
    | two => rfl
    | three in1 in2 r3 out h3 hout => exact congrArg Context.otherIds (toRound3_ctx h3)
  · intro x hx
    obtain ⟨l, hf⟩ := hpast x hx
    have hx2 := hrecv x hx
    generalize x.1 = s' at hf hx2
    cases hf with
    | one =>
      intro a ha own hown
      obtain ⟨-, ha⟩ := mem_toAll.1 ha
      refine ⟨fun b hb => ?_, fun a' ha' => ?_⟩
      · obtain ⟨v, -, hv, -⟩ := acceptPart_eq_ok.1 (hx2 b hb)
        rw [one_inj _ _ hv]; rfl
      · obtain ⟨-, ha'⟩ := mem_toAll.1 ha'
        rw [ha', ← ha]; exact hown
    | two =>
      intro a ha own hown
      obtain ⟨-, ha⟩ := mem_toAll.1 ha
      refine ⟨fun b hb => ?_, fun a' ha' => ?_⟩
      · obtain ⟨v, -, hv, -⟩ := acceptPart_eq_ok.1 (hx2 b hb)
        rw [two_inj _ _ hv]; rfl
      · obtain ⟨-, ha'⟩ := mem_toAll.1 ha'
        rw [ha', ← ha]; exact hown
    | three in1 in2 r3 out h3 hout =>
      intro a ha own hown
      have hsame : ∀ b ∈ out, b.2.hatPsis = r3.hatPsis := by
        intro b hb
        have := send3_mem hout hb
        unfold msg3 at this
        obtain ⟨_, -, this⟩ := Out.bind_eq_ok.1 this
        obtain ⟨_, -, this⟩ := Out.bind_eq_ok.1 this
        obtain ⟨_, -, this⟩ := Out.bind_eq_ok.1 this
        obtain ⟨_, -, this⟩ := Out.bind_eq_ok.1 this
        obtain ⟨_, -, this⟩ := Out.bind_eq_ok.1 this
        rw [← Out.ok.inj this]
      obtain ⟨a0, ha0, rfl⟩ := List.mem_map.1 ha
      refine ⟨fun b hb => ?_, fun a' ha' => ?_⟩
      · obtain ⟨v, -, hv, -⟩ := acceptPart_eq_ok.1 (hx2 b hb)
        rw [three_inj _ _ hv]; rfl
      · obtain ⟨a1, ha1, rfl⟩ := List.mem_map.1 ha'
        refine Eq.trans ?_ hown
        show some a1.2.hatPsis = some a0.2.hatPsis
        rw [hsame a1 ha1, hsame a0 ha0]

end KeyRefresh

end Synedrion
