import Verif.Spec.SecretSharing
import Mathlib.Tactic.Ring
import Verif.Lemmas.SecretKeys

/-!
# Helper lemmas about splitting and joining secrets in memory
-/

namespace Synedrion.SecretSharing

open Spec Spec.KeyMemory SecretBox SecretBounded SecretKeys Function

variable {l l₁ : List (Nat × Nat)} {α β : Type} {q : Nat}

theorem At.perm {base vals : Plain Nat} (h : At base l vals) (hp : l.Perm l₁) : At base l₁ vals := by
  have hn : (l₁.map Prod.fst).Nodup := (hp.map Prod.fst).nodup_iff.1 h.1
  refine ⟨hn, fun x hx => h.2.1 x (hp.mem_iff.2 hx), fun b => ?_⟩
  rw [h.2.2 b]
  cases hf : l₁.find? fun x => x.1 == b with
  | none =>
    have : l.find? (fun x => x.1 == b) = none := List.find?_eq_none.2 fun x hx => List.find?_eq_none.1 hf x (hp.mem_iff.1 hx)
    rw [this]
  | some y =>
    have h1 := List.find?_some hf
    have h2 := List.mem_of_find?_eq_some hf
    cases hg : l.find? fun x => x.1 == b with
    | none => exact absurd h1 (List.find?_eq_none.1 hg y (hp.mem_iff.2 h2))
    | some z =>
      have h3 := List.find?_some hg
      have h4 := List.mem_of_find?_eq_some hg
      have e : z.1 = y.1 := by
        have h5 : z.1 = b := by simpa using h3
        have h6 : y.1 = b := by simpa using h1
        rw [h5, h6]
      rw [List.inj_on_of_nodup_map h.1 h4 (hp.mem_iff.2 h2) e]

theorem St.perm {m₀ m : Mem Nat} {base : Plain Nat} {g : List Nat} (h : St m₀ base l g m) (hp : l.Perm l₁) : St m₀ base l₁ g m := by
  obtain ⟨vals, h1, h2, h3⟩ := h
  exact ⟨vals, h1, At.perm h2 hp, h3⟩

/-- A computation ends, the memory holds `L` then, and nothing was given up without being wiped. -/
def Clean (p : M Nat α) (l : List (Nat × Nat)) (φ : α → Prop) (L : α → List (Nat × Nat)) : Prop :=
  ∀ m₀ base g, Ex m₀ base p l g fun r l' g' => (φ r ∧ l'.Perm (L r)) ∧ g' = g

variable {φ : α → Prop} {L : α → List (Nat × Nat)} {φ' : β → Prop} {L' : β → List (Nat × Nat)}

theorem Clean.perm {p : M Nat α} (hp : l.Perm l₁) (h : Clean p l₁ φ L) : Clean p l φ L := fun m₀ base g m hm => h m₀ base g m (St.perm hm hp)

theorem Clean.bind {p : M Nat α} {f : α → M Nat β} (h : Clean p l φ L) (hf : ∀ r, φ r → Clean (f r) (L r) φ' L') : Clean (p >>= f) l φ' L' := fun m₀ base g =>
  (h m₀ base g).bind fun r l' g' hr => by
    obtain ⟨⟨h1, h2⟩, rfl⟩ := hr
    exact Clean.perm h2 (hf r h1) m₀ base _

theorem Clean.pure {r : α} (h : φ r) (hl : l.Perm (L r)) : Clean (pure r : M Nat α) l φ L := fun _ _ _ => .pure ⟨⟨h, hl⟩, rfl⟩

theorem clean_expose {a v : Nat} (h : (a, v) ∈ l) : Clean (expose a) l (· = v) fun _ => l := by
  intro m₀ base g
  obtain ⟨i, hi⟩ := List.mem_iff_getElem?.1 h
  refine (ex_expose i hi).mono fun r l' g' hr => ?_
  obtain ⟨⟨rfl, rfl⟩, rfl⟩ := hr
  exact ⟨⟨rfl, .refl _⟩, rfl⟩

theorem clean_clone {a v : Nat} (h : (a, v) ∈ l) : Clean (clone a) l (fun _ => True) fun r => (r, v) :: l := by
  intro m₀ base g
  obtain ⟨i, hi⟩ := List.mem_iff_getElem?.1 h
  refine (ex_copy i hi).mono fun r l' g' hr => ?_
  obtain ⟨rfl, rfl⟩ := hr
  exact ⟨⟨trivial, .refl _⟩, rfl⟩

theorem clean_box (v : Nat) : Clean (initWith (Pure.pure v)) l (fun _ => True) fun r => (r, v) :: l := by
  intro m₀ base g
  refine (ex_initWith (.pure ⟨⟨rfl, rfl⟩, rfl⟩)).mono fun r l' g' hr => ?_
  obtain ⟨rfl, rfl⟩ := hr
  exact ⟨⟨trivial, .refl _⟩, rfl⟩

theorem clean_assign {a v : Nat} (u : Nat) : Clean (assign a u) ((a, v) :: l) (fun _ => True) fun _ => (a, u) :: l := by
  intro m₀ base g
  refine (ex_assign 0 rfl).mono fun r l' g' hr => ?_
  obtain ⟨rfl, rfl⟩ := hr
  exact ⟨⟨trivial, .refl _⟩, rfl⟩

theorem clean_wipe {a v : Nat} : Clean (wipe a) ((a, v) :: l) (fun _ => True) fun _ => l := by
  intro m₀ base g
  refine (ex_wipe 0 rfl).mono fun r l' g' hr => ?_
  obtain ⟨rfl, rfl⟩ := hr
  exact ⟨⟨trivial, .refl _⟩, rfl⟩

theorem clean_addTo [NeZero q] {a v : Nat} {s : ZMod q} : Clean (addTo q a v) ((a, s.val) :: l) (fun _ => True) fun _ => (a, (s + (v : ZMod q)).val) :: l := by
  refine (clean_expose (List.mem_cons_self ..)).bind fun _ h => ?_
  rw [h, ZMod.natCast_zmod_val]
  exact clean_assign _

theorem clean_boxes (draws : List (ZMod q)) : Clean (boxes draws) l (fun r => r.length = draws.length) fun r => r.zip (draws.map ZMod.val) ++ l := by
  induction draws generalizing l with
  | nil => exact .pure rfl (.refl _)
  | cons d ds ih =>
    refine (clean_box d.val).bind fun a _ => ih.bind fun r hr => ?_
    refine .pure (by simp [hr]) ?_
    exact List.perm_middle

theorem clean_reduceClones [NeZero q] (bs : List (Nat × ZMod q)) {acc : Nat} {s : ZMod q} (hb : ∀ x ∈ bs, (x.1, x.2.val) ∈ l) :
    Clean (reduceClones q acc (bs.map Prod.fst)) ((acc, s.val) :: l) (fun _ => True) fun r => (r, (s + (bs.map Prod.snd).sum).val) :: l := by
  induction bs generalizing s with
  | nil => exact .pure trivial (by simp)
  | cons b bs ih =>
    refine (clean_clone (v := b.2.val) (List.mem_cons_of_mem _ (hb b (List.mem_cons_self ..)))).bind fun c _ => ?_
    refine (clean_expose (List.mem_cons_self ..)).bind fun _ h => ?_
    rw [h]
    refine Clean.perm (List.Perm.swap ..) (clean_addTo.bind fun _ _ => Clean.perm (List.Perm.swap ..) (clean_wipe.bind fun _ _ => ?_))
    rw [ZMod.natCast_zmod_val, List.map_cons, List.sum_cons, ← add_assoc]
    exact ih fun x hx => hb x (List.mem_cons_of_mem _ hx)

theorem clean_sumClones [NeZero q] (bs : List (Nat × ZMod q)) (hb : ∀ x ∈ bs, (x.1, x.2.val) ∈ l) :
    Clean (sumClones q (bs.map Prod.fst)) l (fun _ => True) fun r => (r, ((bs.map Prod.snd).sum).val) :: l := by
  cases bs with
  | nil =>
    have := clean_box (l := l) 0
    simpa [sumClones] using this
  | cons b bs =>
    refine (clean_clone (v := b.2.val) (hb b (List.mem_cons_self ..))).bind fun acc _ => ?_
    refine (clean_reduceClones bs fun x hx => hb x (List.mem_cons_of_mem _ hx)).bind fun r _ => ?_
    refine (clean_box 0).bind fun d _ => clean_wipe.bind fun _ _ => ?_
    exact .pure trivial (by simp)

theorem zip_cells {r : List Nat} {draws : List (ZMod q)} : r.zip (draws.map ZMod.val) = (r.zip draws).map fun x => (x.1, x.2.val) := by
  rw [List.zip_map_right]
  rfl

theorem clean_secretSplit [NeZero q] {a : Nat} {s : ZMod q} (draws : List (ZMod q)) :
    Clean (secretSplit a draws) ((a, s.val) :: l) (fun r => r.length = draws.length + 1) fun r => r.zip ((partsOf s draws).map ZMod.val) ++ l := by
  cases draws with
  | nil => exact .pure rfl (by simp [partsOf])
  | cons d ds =>
    refine (clean_boxes (d :: ds)).bind fun parts hparts => ?_
    rw [zip_cells]
    have hsum := clean_sumClones (q := q) (l := (parts.zip (d :: ds)).map (fun x => (x.1, x.2.val)) ++ (a, s.val) :: l) (parts.zip (d :: ds))
      fun x hx => List.mem_append_left _ (List.mem_map.2 ⟨x, hx, rfl⟩)
    rw [List.map_fst_zip hparts.le, List.map_snd_zip hparts.ge] at hsum
    refine hsum.bind fun t _ => ?_
    refine (clean_expose (List.mem_cons_self ..)).bind fun _ h => ?_
    rw [h]
    refine (clean_expose (v := s.val) (by simp)).bind fun _ h => ?_
    rw [h, ZMod.natCast_zmod_val, ZMod.natCast_zmod_val]
    refine Clean.perm (l₁ := (a, s.val) :: (t, (d :: ds).sum.val) :: ((parts.zip (d :: ds)).map (fun x => (x.1, x.2.val)) ++ l)) ?_ ((clean_assign _).bind fun _ _ =>
      Clean.perm (List.Perm.swap ..) (clean_wipe.bind fun _ _ => ?_))
    · exact (List.Perm.cons _ List.perm_middle).trans (List.Perm.swap ..)
    · refine .pure (by simp [hparts]) ?_
      rw [partsOf, List.map_append, List.zip_append (by simp [hparts]), zip_cells, List.append_assoc]
      exact List.perm_middle.symm

theorem clean_hornerLoop [NeZero q] (x : ZMod q) (cs : List (Nat × ZMod q)) {acc : Nat} {s : ZMod q} (hb : ∀ c ∈ cs, (c.1, c.2.val) ∈ l) :
    Clean (hornerLoop x acc (cs.map Prod.fst)) ((acc, s.val) :: l) (fun _ => True) fun r => (r, ((cs.map Prod.snd).foldl (fun s c => s * x + c) s).val) :: l := by
  induction cs generalizing s with
  | nil => exact .pure trivial (by simp)
  | cons c cs ih =>
    refine (clean_expose (List.mem_cons_self ..)).bind fun _ h => ?_
    rw [h, ZMod.natCast_zmod_val]
    refine (clean_assign _).bind fun _ _ => ?_
    refine (clean_expose (v := c.2.val) (List.mem_cons_of_mem _ (hb c (List.mem_cons_self ..)))).bind fun _ h => ?_
    rw [h]
    refine clean_addTo.bind fun _ _ => ?_
    rw [ZMod.natCast_zmod_val]
    exact ih fun y hy => hb y (List.mem_cons_of_mem _ hy)

theorem foldl_poly (x : ZMod q) (cs : List (ZMod q)) (s : ZMod q) : cs.foldl (fun s c => s * x + c) s = polyValue (cs.reverse ++ [s]) x := by
  induction cs generalizing s with
  | nil => simp [polyValue]
  | cons c cs ih =>
    rw [List.foldl_cons, ih]
    simp only [polyValue, List.reverse_cons, List.append_assoc, List.foldr_append, List.foldr_cons, List.foldr_nil]
    congr 1
    ring

theorem clean_evaluate [NeZero q] (x : ZMod q) (cs : List (Nat × ZMod q)) (hne : cs ≠ []) (hb : ∀ c ∈ cs, (c.1, c.2.val) ∈ l) :
    Clean (evaluate (cs.map Prod.fst) x) l (fun r => r.isSome) fun r => (r.getD 0, (polyValue (cs.map Prod.snd) x).val) :: l := by
  unfold evaluate
  rw [← List.map_reverse]
  cases hr : cs.reverse with
  | nil => exact absurd (List.reverse_eq_nil_iff.1 hr) hne
  | cons c rest =>
    have hmem (y : Nat × ZMod q) (hy : y ∈ c :: rest) : (y.1, y.2.val) ∈ l := hb y (List.mem_reverse.1 (hr ▸ hy))
    refine (clean_clone (v := c.2.val) (hmem c (List.mem_cons_self ..))).bind fun acc _ => ?_
    refine (clean_hornerLoop x rest fun y hy => hmem y (List.mem_cons_of_mem _ hy)).bind fun r _ => ?_
    refine .pure rfl ?_
    have e : cs = rest.reverse ++ [c] := by rw [← List.reverse_reverse cs, hr, List.reverse_cons]
    rw [foldl_poly, e, List.map_append, List.map_reverse]
    exact .refl _

theorem clean_evaluateAll [NeZero q] (cs : List (Nat × ZMod q)) (hne : cs ≠ []) (ids : List (ZMod q)) (hb : ∀ c ∈ cs, (c.1, c.2.val) ∈ l) :
    Clean (evaluateAll (cs.map Prod.fst) ids) l (fun r => ∃ s, r = some s ∧ s.length = ids.length)
      fun r => (r.getD []).zip (ids.map fun x => (polyValue (cs.map Prod.snd) x).val) ++ l := by
  induction ids generalizing l with
  | nil => exact .pure ⟨[], rfl, rfl⟩ (.refl _)
  | cons x ids ih =>
    refine (clean_evaluate x cs hne hb).bind fun r hr => ?_
    obtain ⟨a, rfl⟩ := Option.isSome_iff_exists.1 hr
    refine (ih fun c hc => List.mem_cons_of_mem _ (hb c hc)).bind fun r hr => ?_
    obtain ⟨s, rfl, hs⟩ := hr
    refine .pure ⟨a :: s, rfl, by simp [hs]⟩ ?_
    exact List.perm_middle

theorem clean_wipeAll (cs : List (Nat × Nat)) : Clean (wipeAll (cs.map Prod.fst)) (cs ++ l) (fun _ => True) fun _ => l := by
  induction cs with
  | nil => exact .pure trivial (.refl _)
  | cons c cs ih => exact clean_wipe.bind fun _ _ => ih

theorem clean_shamirSplit [NeZero q] {a : Nat} {s : ZMod q} (draws ids : List (ZMod q)) :
    Clean (shamirSplit a draws ids) ((a, s.val) :: l) (fun r => ∃ c, r = some c ∧ c.length = ids.length)
      fun r => (r.getD []).zip (ids.map fun x => (polyValue (s :: draws) x).val) ++ l := by
  refine (clean_boxes draws).bind fun cs hcs => ?_
  rw [zip_cells]
  have he := clean_evaluateAll (q := q) (l := (cs.zip draws).map (fun x => (x.1, x.2.val)) ++ (a, s.val) :: l) ((a, s) :: cs.zip draws) (by simp) ids (by
    intro c hc
    rcases List.mem_cons.1 hc with rfl | hc
    · simp
    · exact List.mem_append_left _ (List.mem_map.2 ⟨c, hc, rfl⟩))
  rw [List.map_cons, List.map_cons, List.map_fst_zip hcs.le, List.map_snd_zip hcs.ge] at he
  refine he.bind fun r hr => ?_
  have hw := clean_wipeAll (l := (r.getD []).zip (ids.map fun x => (polyValue (s :: draws) x).val) ++ l) ((a, s.val) :: (cs.zip draws).map (fun x => (x.1, x.2.val)))
  have e : ((a, s.val) :: (cs.zip draws).map (fun x => (x.1, x.2.val))).map Prod.fst = a :: cs := by
    rw [List.map_cons, List.map_map]
    exact congrArg _ (List.map_fst_zip hcs.le)
  rw [e] at hw
  refine Clean.perm ?_ (hw.bind fun _ _ => .pure hr (.refl _))
  generalize (r.getD []).zip (ids.map fun x => (polyValue (s :: draws) x).val) = A
  generalize (cs.zip draws).map (fun x => (x.1, x.2.val)) = B
  refine (List.perm_append_comm_assoc A B _).trans ?_
  refine (List.Perm.append_left B List.perm_middle).trans ?_
  exact List.perm_middle

theorem clean_joinLoop [NeZero q] (cs : List (Nat × ZMod q × ZMod q)) {sum : Nat} {s : ZMod q} (hb : ∀ c ∈ cs, (c.1, c.2.1.val) ∈ l) :
    Clean (joinLoop sum (cs.map fun c => (c.1, c.2.2))) ((sum, s.val) :: l) (fun _ => True) fun _ => (sum, (s + (weightedSum (cs.map Prod.snd))).val) :: l := by
  induction cs generalizing s with
  | nil => exact .pure trivial (by simp [weightedSum])
  | cons c cs ih =>
    refine (clean_clone (v := c.2.1.val) (List.mem_cons_of_mem _ (hb c (List.mem_cons_self ..)))).bind fun p _ => ?_
    refine (clean_expose (List.mem_cons_self ..)).bind fun _ h => ?_
    rw [h, ZMod.natCast_zmod_val]
    refine (clean_assign _).bind fun _ _ => ?_
    refine (clean_expose (List.mem_cons_self ..)).bind fun _ h => ?_
    rw [h]
    refine Clean.perm (List.Perm.swap ..) (clean_addTo.bind fun _ _ => Clean.perm (List.Perm.swap ..) (clean_wipe.bind fun _ _ => ?_))
    have e : weightedSum ((c :: cs).map Prod.snd) = c.2.1 * c.2.2 + weightedSum (cs.map Prod.snd) := by simp [weightedSum]
    rw [ZMod.natCast_zmod_val, e, ← add_assoc]
    exact ih fun x hx => hb x (List.mem_cons_of_mem _ hx)

theorem clean_shamirJoin [NeZero q] (cs : List (Nat × ZMod q × ZMod q)) :
    Clean (shamirJoin (cs.map fun c => (c.1, c.2.2))) (cs.map (fun c => (c.1, c.2.1.val)) ++ l) (fun _ => True) fun r => (r, (weightedSum (cs.map Prod.snd)).val) :: l := by
  refine (clean_box 0).bind fun sum _ => ?_
  have hj := clean_joinLoop (q := q) (l := cs.map (fun c => (c.1, c.2.1.val)) ++ l) (sum := sum) (s := 0) cs fun c hc => List.mem_append_left _ (List.mem_map.2 ⟨c, hc, rfl⟩)
  rw [ZMod.val_zero, zero_add] at hj
  refine hj.bind fun _ _ => ?_
  have hw := clean_wipeAll (l := (sum, (weightedSum (cs.map Prod.snd)).val) :: l) (cs.map fun c => (c.1, c.2.1.val))
  rw [List.map_map] at hw
  rw [List.map_map]
  exact Clean.perm List.perm_middle.symm (hw.bind fun _ _ => .pure trivial (.refl _))

theorem clean_dealShares [NeZero q] (s : ZMod q) (draws : List (ZMod q)) :
    Clean (dealShares s draws) l (fun r => r.length = draws.length + 1) fun r => r.zip ((partsOf s draws).map ZMod.val) ++ l :=
  (clean_box s.val).bind fun _ _ => clean_secretSplit draws

theorem clean_cloneAll (cs : List (Nat × Nat)) (hb : ∀ c ∈ cs, c ∈ l) :
    Clean (cloneAll (cs.map Prod.fst)) l (fun r => r.length = cs.length) fun r => r.zip (cs.map Prod.snd) ++ l := by
  induction cs generalizing l with
  | nil => exact .pure rfl (.refl _)
  | cons c cs ih =>
    refine (clean_clone (v := c.2) (hb c (List.mem_cons_self ..))).bind fun a _ => ?_
    refine (ih fun x hx => List.mem_cons_of_mem _ (hb x (List.mem_cons_of_mem _ hx))).bind fun r hr => ?_
    exact .pure (by simp [hr]) List.perm_middle

theorem clean_dealThreshold [NeZero q] (s : ZMod q) (draws ids : List (ZMod q)) :
    Clean (dealThreshold s draws ids) l (fun r => ∃ c, r = some c ∧ c.length = ids.length)
      fun r => (r.getD []).zip (ids.map fun x => (polyValue (s :: draws) x).val) ++ l := by
  refine (clean_box s.val).bind fun a _ => (clean_shamirSplit draws ids).bind fun r hr => ?_
  obtain ⟨c, rfl, hc⟩ := hr
  rw [Option.getD_some]
  have hl : c.length = (ids.map fun x => (polyValue (s :: draws) x).val).length := by rw [List.length_map, hc]
  generalize (ids.map fun x => (polyValue (s :: draws) x).val) = vs at hl ⊢
  have h1 := clean_cloneAll (l := c.zip vs ++ l) (c.zip vs) fun x hx => List.mem_append_left _ hx
  rw [List.map_fst_zip hl.le, List.map_snd_zip hl.ge] at h1
  refine h1.bind fun out ho => ?_
  have hw := clean_wipeAll (l := out.zip vs ++ l) (c.zip vs)
  rw [List.map_fst_zip hl.le] at hw
  refine Clean.perm (List.perm_append_comm_assoc ..) (hw.bind fun _ _ => .pure ⟨out, rfl, ?_⟩ (.refl _))
  rw [ho, List.length_zip, ← hl, min_self, hc]

theorem clean_updateShare [NeZero q] {a b : Nat} {s t : ZMod q} :
    Clean (updateShare q a b) ((a, s.val) :: (b, t.val) :: l) (· = a) fun _ => (a, (s + t).val) :: l := by
  refine (clean_expose (v := t.val) (by simp)).bind fun _ h => ?_
  rw [h]
  refine clean_addTo.bind fun _ _ => Clean.perm (List.Perm.swap ..) (clean_wipe.bind fun _ _ => ?_)
  rw [ZMod.natCast_zmod_val]
  exact .pure rfl (.refl _)

theorem clean_convertShare [NeZero q] {a : Nat} {s : ZMod q} (k : ZMod q) (h : (a, s.val) ∈ l) : Clean (convertShare a k) l (fun _ => True) fun r => (r, (s * k).val) :: l := by
  refine (clean_clone h).bind fun c _ => (clean_expose (List.mem_cons_self ..)).bind fun _ h => ?_
  rw [h, ZMod.natCast_zmod_val]
  exact (clean_assign _).bind fun _ _ => .pure trivial (.refl _)

theorem clean_reshareJoin [NeZero q] (cs : List (Nat × ZMod q × ZMod q)) (hb : ∀ c ∈ cs, (c.1, c.2.1.val) ∈ l) :
    Clean (reshareJoin (cs.map Prod.fst) (cs.map fun c => c.2.2)) l (fun _ => True) fun r => (r, (weightedSum (cs.map Prod.snd)).val) :: l := by
  have h1 := clean_cloneAll (l := l) (cs.map fun c => (c.1, c.2.1.val)) (by
    intro x hx
    obtain ⟨c, hc, rfl⟩ := List.mem_map.1 hx
    exact hb c hc)
  rw [List.map_map, List.map_map] at h1
  refine h1.bind fun r hr => ?_
  rw [List.length_map] at hr
  have h2 := clean_shamirJoin (q := q) (l := l) (r.zip (cs.map Prod.snd))
  rw [List.map_snd_zip (by simp [hr])] at h2
  have e1 : (r.zip (cs.map Prod.snd)).map (fun c => (c.1, c.2.2)) = r.zip (cs.map fun c => c.2.2) := by
    refine List.ext_getElem (by simp) fun i _ _ => ?_
    simp
  have e2 : (r.zip (cs.map Prod.snd)).map (fun c => (c.1, c.2.1.val)) = r.zip (cs.map (Prod.snd ∘ fun c => (c.1, c.2.1.val))) := by
    refine List.ext_getElem (by simp) fun i _ _ => ?_
    simp
  rw [e1, e2] at h2
  exact h2

theorem clean_reduceOwned [NeZero q] (bs : List (Nat × ZMod q)) {acc : Nat} {s : ZMod q} :
    Clean (reduceOwned q acc (bs.map Prod.fst)) ((acc, s.val) :: (bs.map (fun x => (x.1, x.2.val)) ++ l)) (fun _ => True) fun r => (r, (s + (bs.map Prod.snd).sum).val) :: l := by
  induction bs generalizing s with
  | nil => exact .pure trivial (by simp)
  | cons b bs ih =>
    refine (clean_expose (v := b.2.val) (by simp)).bind fun _ h => ?_
    rw [h]
    refine clean_addTo.bind fun _ _ => Clean.perm (List.Perm.swap ..) (clean_wipe.bind fun _ _ => ?_)
    rw [ZMod.natCast_zmod_val, List.map_cons, List.sum_cons, ← add_assoc]
    exact ih

theorem clean_refreshSum [NeZero q] (xs : List (Nat × ZMod q)) {a : Nat} {s : ZMod q} (h : (a, s.val) ∈ l) :
    Clean (refreshSum q (xs.map Prod.fst) a) (xs.map (fun x => (x.1, x.2.val)) ++ l) (fun _ => True) fun r => (r, ((xs.map Prod.snd).sum + s).val) :: l := by
  have fin (r : Nat) (t : ZMod q) : Clean (do addTo q r (← expose a); return r) ((r, t.val) :: l) (fun _ => True) fun r => (r, (t + s).val) :: l := by
    refine (clean_expose (List.mem_cons_of_mem _ h)).bind fun _ h => ?_
    rw [h]
    refine clean_addTo.bind fun _ _ => ?_
    rw [ZMod.natCast_zmod_val]
    exact .pure trivial (.refl _)
  cases xs with
  | nil =>
    refine (clean_box 0).bind fun r _ => ?_
    have := fin r 0
    rwa [ZMod.val_zero] at this
  | cons x xs =>
    have h1 : Clean (sumOwned q (x.1 :: xs.map Prod.fst)) ((x.1, x.2.val) :: (xs.map (fun x => (x.1, x.2.val)) ++ l))
        (fun _ => True) fun r => (r, (x.2 + (xs.map Prod.snd).sum).val) :: l :=
      (clean_reduceOwned xs).bind fun r _ => (clean_box 0).bind fun d _ => clean_wipe.bind fun _ _ => .pure trivial (.refl _)
    rw [List.map_cons, List.map_cons, List.map_cons, List.sum_cons]
    exact h1.bind fun r _ => fin r _

end Synedrion.SecretSharing
