import Verif.Spec.SecretBox
import Mathlib.Logic.Function.Basic
import Mathlib.Tactic.SplitIfs
import Mathlib.Data.List.Basic

/-!
# Helper lemmas about boxes for secrets
-/

set_option linter.unusedSectionVars false

namespace Synedrion.SecretBox

open Spec Function

variable {T : Type} [Zero T]

/-- The memory contains these values. -/
def Rep (m : Mem T) (vals : Plain T) : Prop := ∀ a v, vals a = some v ↔ m[a]? = some ⟨v, false⟩

/-- Memory that was given up is wiped, or holds one of the values `w`. -/
def Wiped (w : T → Prop) (m : Mem T) : Prop := ∀ c ∈ m, c.freed = true → c.value = 0 ∨ w c.value

/-- A computation that starts from the values `vals` ends, and `post` holds then; all that it gives up is wiped, other than values in `w`. -/
def Does {α : Type} (w : T → Prop) (p : M T α) (vals : Plain T) (post : α → Plain T → Prop) : Prop :=
  ∀ m, Rep m vals → Wiped w m → ∃ r m' vals', p m = some (r, m') ∧ Rep m' vals' ∧ Wiped w m' ∧ post r vals'

variable {w : T → Prop} {α β : Type} {vals : Plain T}

theorem Does.bind {p : M T α} {f : α → M T β} {mid : α → Plain T → Prop} {post : β → Plain T → Prop} (hp : Does w p vals mid) (hf : ∀ r vals', mid r vals' → Does w (f r) vals' post) :
    Does w (p >>= f) vals post := by
  intro m hm hw
  obtain ⟨r, m', vals', h1, h2, h3, h4⟩ := hp m hm hw
  obtain ⟨r', m'', vals'', k1, k2, k3, k4⟩ := hf r vals' h4 m' h2 h3
  refine ⟨r', m'', vals'', ?_, k2, k3, k4⟩
  show (p m).bind (fun x => f x.1 x.2) = _
  rw [h1]
  exact k1

theorem Does.pure {r : α} {post : α → Plain T → Prop} (h : post r vals) : Does w (pure r : M T α) vals post :=
  fun m hm hw => ⟨r, m, vals, rfl, hm, hw, h⟩

theorem Does.mono {p : M T α} {post post' : α → Plain T → Prop} (h : Does w p vals post) (hpp : ∀ r vals', post r vals' → post' r vals') : Does w p vals post' :=
  fun m hm hw => by
    obtain ⟨r, m', vals', h1, h2, h3, h4⟩ := h m hm hw
    exact ⟨r, m', vals', h1, h2, h3, hpp _ _ h4⟩

theorem Does.map {p : M T α} {f : α → β} {post : β → Plain T → Prop} (h : Does w p vals fun r v => post (f r) v) : Does w (f <$> p) vals post := by
  rw [map_eq_pure_bind]
  exact h.bind fun r v hr => .pure hr

theorem does_alloc (v : T) : Does w (alloc v) vals fun a vals' => vals a = none ∧ vals' = update vals a (some v) := by
  intro m hm hw
  have hnone : vals m.length = none := by
    cases h : vals m.length with
    | none => rfl
    | some u => have := (hm _ _).1 h; simp at this
  refine ⟨m.length, m ++ [⟨v, false⟩], _, rfl, ?_, ?_, hnone, rfl⟩
  · intro b u
    by_cases hb : b = m.length
    · subst hb
      simp
    · rw [update_of_ne hb, hm b u]
      by_cases hlt : b < m.length
      · rw [List.getElem?_append_left hlt]
      · have h1 : m[b]? = none := by simp; omega
        have h2 : (m ++ [(⟨v, false⟩ : Cell T)])[b]? = none := by simp; omega
        rw [h1, h2]
  · intro c hc hf
    rcases List.mem_append.1 hc with hc | hc
    · exact hw c hc hf
    · cases List.mem_singleton.1 hc; cases hf

theorem does_expose {a : Nat} {v : T} (ha : vals a = some v) : Does w (expose a) vals fun r vals' => r = v ∧ vals' = vals := by
  intro m hm hw
  refine ⟨v, m, vals, ?_, hm, hw, rfl, rfl⟩
  unfold expose
  rw [(hm a v).1 ha]

/-- Replacing a cell that is in use -/
private theorem rep_set {m : Mem T} (hm : Rep m vals) {a : Nat} {v : T} (ha : vals a = some v) (c : Cell T) :
    Rep (m.set a c) (update vals a (if c.freed then none else some c.value)) := by
  have hlt : a < m.length := by
    have := (hm a v).1 ha
    exact (List.getElem?_eq_some_iff.1 this).1
  intro b u
  by_cases hb : b = a
  · subst hb
    rw [update_self, List.getElem?_set_self hlt]
    obtain ⟨x, f⟩ := c
    cases f <;> simp
  · rw [update_of_ne hb, List.getElem?_set_ne (Ne.symm hb), hm b u]

private theorem wiped_set {m : Mem T} (hm : Wiped w m) {a : Nat} {c : Cell T} (hc : c.freed = true → c.value = 0 ∨ w c.value) : Wiped w (m.set a c) := by
  intro d hd hf
  rcases List.mem_or_eq_of_mem_set hd with hd | rfl
  · exact hm d hd hf
  · exact hc hf

theorem does_assign {a : Nat} {v u : T} (ha : vals a = some v) : Does w (assign a u) vals fun _ vals' => vals' = update vals a (some u) := by
  intro m hm hw
  refine ⟨(), m.set a ⟨u, false⟩, _, ?_, rep_set hm ha _, wiped_set hw (by simp), rfl⟩
  unfold assign
  rw [(hm a v).1 ha]

theorem does_wipe {a : Nat} {v : T} (ha : vals a = some v) : Does w (wipe a) vals fun _ vals' => vals' = update vals a none := by
  intro m hm hw
  refine ⟨(), m.set a ⟨0, true⟩, _, ?_, rep_set hm ha _, wiped_set hw (by simp), rfl⟩
  unfold wipe
  rw [(hm a v).1 ha]

/-- What is in `w` may be given up without being wiped. -/
theorem does_forget {a : Nat} {v : T} (hin : w v) (ha : vals a = some v) : Does w (forget a) vals fun _ vals' => vals' = update vals a none := by
  intro m hm hw
  refine ⟨(), m.set a ⟨v, true⟩, _, ?_, rep_set hm ha _, wiped_set hw fun _ => .inr hin, rfl⟩
  unfold forget
  rw [(hm a v).1 ha]

/-- A new box with the value `v` -/
def New (vals : Plain T) (v : T) (a : Nat) (vals' : Plain T) : Prop := vals a = none ∧ vals' = update vals a (some v)

theorem does_newBox (v : T) : Does w (newBox v) vals (New vals v) := by
  unfold newBox
  refine (does_alloc v).bind fun d v1 ⟨h0, h1⟩ => ?_
  subst h1
  refine (does_expose (by simp : update vals d (some v) d = some v)).bind fun c v2 ⟨h2, h3⟩ => ?_
  subst h2 h3
  refine (does_alloc c).bind fun b v3 ⟨h4, h5⟩ => ?_
  subst h5
  have hbd : b ≠ d := by rintro rfl; simp at h4
  refine (does_wipe (v := c) (by rw [update_of_ne hbd.symm]; simp)).bind fun _ v4 h6 => ?_
  subst h6
  refine .pure ⟨by rwa [update_of_ne hbd] at h4, ?_⟩
  funext x
  by_cases hx : x = d
  · subst hx; rw [update_self, update_of_ne hbd.symm, h0]
  · rw [update_of_ne hx]
    by_cases hxb : x = b
    · subst hxb; simp
    · rw [update_of_ne hxb, update_of_ne hxb, update_of_ne hx]

theorem does_initWith {ctr : M T T} {v : T} (hc : Does w ctr vals fun r vals' => r = v ∧ vals' = vals) : Does w (initWith ctr) vals (New vals v) := by
  unfold initWith
  refine hc.bind fun r v1 ⟨h1, h2⟩ => ?_
  subst h1 h2
  exact does_newBox r

/-- A new box with the value `v`, or nothing -/
def MaybeNew (vals : Plain T) (v : Option T) (r : Option Nat) (vals' : Plain T) : Prop :=
  match v with
  | some v => ∃ a, r = some a ∧ New vals v a vals'
  | none => r = none ∧ vals' = vals

theorem does_tryInitWith {ctr : M T (Option T)} {v : Option T} (hc : Does w ctr vals fun r vals' => r = v ∧ vals' = vals) : Does w (tryInitWith ctr) vals (MaybeNew vals v) := by
  unfold tryInitWith
  refine hc.bind fun r v1 ⟨h1, h2⟩ => ?_
  subst h1 h2
  cases r with
  | none => exact .pure ⟨rfl, rfl⟩
  | some v => exact (does_newBox v).bind fun a v2 h => .pure ⟨a, rfl, h⟩

theorem does_clone {a : Nat} {x : T} (ha : vals a = some x) : Does w (clone a) vals (New vals x) := does_initWith (does_expose ha)

/-- A function of one secret, in a new box -/
theorem does_map {a : Nat} {x : T} {f : T → T} (ha : vals a = some x) : Does w (initWith do return f (← expose a)) vals (New vals (f x)) :=
  does_initWith ((does_expose ha).bind fun _ _ h => .pure ⟨by rw [h.1], h.2⟩)

/-- A function of two secrets, in a new box -/
theorem does_map₂ {a b : Nat} {x y : T} {f : T → T → T} (ha : vals a = some x) (hb : vals b = some y) :
    Does w (initWith do return f (← expose a) (← expose b)) vals (New vals (f x y)) :=
  does_initWith ((does_expose ha).bind fun _ _ h => by
    obtain ⟨rfl, rfl⟩ := h
    exact (does_expose hb).bind fun _ _ h => .pure ⟨by rw [h.1], h.2⟩)

/-- A function of a secret that is cloned and handed over by value -/
theorem does_handed {a : Nat} {x : T} {f : T → T} (hin : w x) (ha : vals a = some x) :
    Does w (initWith do
      let copy ← alloc (← expose a)
      let v ← expose copy
      forget copy
      return f v) vals (New vals (f x)) := by
  refine does_initWith ((does_expose ha).bind fun _ _ h => ?_)
  obtain ⟨rfl, rfl⟩ := h
  refine (does_alloc _).bind fun c v1 h1 => ?_
  obtain ⟨h0, rfl⟩ := h1
  refine (does_expose (update_self ..)).bind fun _ _ h2 => ?_
  obtain ⟨rfl, rfl⟩ := h2
  refine (does_forget hin (update_self ..)).bind fun _ _ h3 => .pure ⟨rfl, ?_⟩
  rw [h3, update_idem, ← h0, update_eq_self]

/-- A function of a secret, written in its box -/
theorem does_inPlace {a : Nat} {x : T} {f : T → T} (ha : vals a = some x) : Does w (do assign a (f (← expose a))) vals fun _ vals' => vals' = update vals a (some (f x)) :=
  (does_expose ha).bind fun _ _ h => by
    obtain ⟨rfl, rfl⟩ := h
    exact does_assign ha

variable (A : Arith T)

/-- An operation that gives back its first secret with another value -/
def Kept (vals : Plain T) (a : Nat) (v : T) (r : Nat) (vals' : Plain T) : Prop := r = a ∧ vals' = update vals a (some v)

theorem does_addVal {a : Nat} {x y : T} (ha : vals a = some x) : Does w (addVal A a y) vals (Kept vals a (A.add x y)) :=
  (does_inPlace (f := fun v => A.add v y) ha).bind fun _ _ h => .pure ⟨rfl, h⟩

theorem does_subVal {a : Nat} {x y : T} (ha : vals a = some x) : Does w (subVal A a y) vals (Kept vals a (A.sub x y)) :=
  (does_expose ha).bind fun _ _ h => by
    obtain ⟨rfl, rfl⟩ := h
    exact (does_assign ha).bind fun _ _ h => .pure ⟨rfl, h⟩

theorem does_mulVal {a : Nat} {x y : T} (ha : vals a = some x) : Does w (mulVal A a y) vals (Kept vals a (A.mul x y)) :=
  (does_inPlace (f := fun v => A.mul v y) ha).bind fun _ _ h => .pure ⟨rfl, h⟩

theorem does_div {a : Nat} {x y : T} (ha : vals a = some x) : Does w (div A a y) vals (Kept vals a (A.div x y)) :=
  (does_inPlace (f := fun v => A.div v y) ha).bind fun _ _ h => .pure ⟨rfl, h⟩

/-- Changing a clone -/
theorem does_cloned {a : Nat} {x : T} {f : T → T} {p : Nat → M T Nat} (hp : ∀ (vals : Plain T) b x, vals b = some x → Does w (p b) vals (Kept vals b (f x))) (ha : vals a = some x) :
    Does w (do p (← clone a)) vals (New vals (f x)) :=
  (does_clone ha).bind fun b _ h => by
    obtain ⟨h0, rfl⟩ := h
    refine (hp _ b x (update_self ..)).mono fun r v' h' => ?_
    obtain ⟨rfl, rfl⟩ := h'
    exact ⟨h0, update_idem ..⟩

theorem does_refAddVal {a : Nat} {x y : T} (ha : vals a = some x) : Does w (refAddVal A a y) vals (New vals (A.add x y)) :=
  does_cloned (f := fun v => A.add v y) (fun _ _ _ h => does_addVal A h) ha

theorem does_refMulVal {a : Nat} {x y : T} (ha : vals a = some x) : Does w (refMulVal A a y) vals (New vals (A.mul x y)) :=
  does_cloned (f := fun v => A.mul v y) (fun _ _ _ h => does_mulVal A h) ha

theorem does_rem {a : Nat} {x y : T} (ha : vals a = some x) : Does w (rem A a y) vals (New vals (A.rem x y)) :=
  does_cloned (f := fun v => A.rem v y) (p := fun r => do remAssign A r y; return r)
    (fun _ _ _ h => (does_inPlace (f := fun v => A.rem v y) h).bind fun _ _ h => .pure ⟨rfl, h⟩) ha

/-- The second operand is a reference to a secret. -/
theorem does_withRef {b : Nat} {y : T} {p : T → M T α} {post : α → Plain T → Prop} (hb : vals b = some y) (hp : Does w (p y) vals post) : Does w (do p (← expose b)) vals post :=
  (does_expose hb).bind fun _ _ h => by
    obtain ⟨rfl, rfl⟩ := h
    exact hp

/-- The second operand is a secret, and is dropped. -/
theorem does_withOwned {b : Nat} {y : T} {p : T → M T α} {post : α → Plain T → Prop} (hb : vals b = some y)
    (hp : Does w (p y) vals fun r vals' => vals' b = some y ∧ post r (update vals' b none)) : Does w (do
      let r ← p (← expose b)
      wipe b
      return r) vals post :=
  (does_expose hb).bind fun _ _ h => by
    obtain ⟨rfl, rfl⟩ := h
    refine hp.bind fun r v' h => (does_wipe h.1).bind fun _ _ h' => .pure ?_
    rw [h']
    exact h.2

/-- The first secret is given back with another value, the second one is dropped. -/
def KeptOne (vals : Plain T) (a b : Nat) (v : T) (r : Nat) (vals' : Plain T) : Prop := r = a ∧ vals' = update (update vals a (some v)) b none

theorem does_keptOne {a b : Nat} {y v : T} {p : T → M T Nat} (hb : vals b = some y) (hab : a ≠ b) (hp : Does w (p y) vals (Kept vals a v)) : Does w (do
      let r ← p (← expose b)
      wipe b
      return r) vals (KeptOne vals a b v) :=
  does_withOwned hb (hp.mono fun r v' h => ⟨by rw [h.2, update_of_ne hab.symm, hb], h.1, by rw [h.2]⟩)

theorem does_addOwned {a b : Nat} {x y : T} (ha : vals a = some x) (hb : vals b = some y) (hab : a ≠ b) : Does w (addOwned A a b) vals (KeptOne vals a b (A.add x y)) :=
  does_keptOne hb hab (does_addVal A ha)

/-- The secrets of `l` are dropped. -/
def dropAll (vals : Plain T) (l : List Nat) : Plain T := fun b => if b ∈ l then none else vals b

theorem does_reduceOwned (x : Nat → T) : ∀ (l : List Nat) (acc : Nat) (s : T) (vals : Plain T), (acc :: l).Nodup → vals acc = some s → (∀ b ∈ l, vals b = some (x b)) →
    Does w (reduceOwned A acc l) vals fun r vals' => r = acc ∧ vals' = dropAll (update vals acc (some (l.foldl (fun s b => A.add s (x b)) s))) l := by
  intro l
  induction l with
  | nil =>
    intro acc s vals _ hs _
    refine .pure ⟨rfl, ?_⟩
    funext b
    simp [dropAll, ← hs]
  | cons b l ih =>
    intro acc s vals hnd hs hl
    simp only [List.nodup_cons, List.mem_cons, not_or] at hnd
    refine (does_addOwned A hs (hl b (by simp)) hnd.1.1).bind fun r v1 h => ?_
    obtain ⟨rfl, rfl⟩ := h
    refine (ih r (A.add s (x b)) _ (by simp [hnd]) (by rw [update_of_ne hnd.1.1, update_self]) ?_).mono ?_
    · intro c hc
      have h1 : c ≠ b := by rintro rfl; exact hnd.2.1 hc
      have h2 : c ≠ r := by rintro rfl; exact hnd.1.2 hc
      rw [update_of_ne h1, update_of_ne h2, hl c (by simp [hc])]
    · rintro r' v' ⟨rfl, rfl⟩
      refine ⟨rfl, ?_⟩
      funext c
      simp only [dropAll, List.mem_cons, List.foldl_cons]
      by_cases hc : c ∈ l
      · simp [hc]
      · by_cases hcb : c = b
        · subst hcb
          simp [hc, Ne.symm hnd.1.1]
        · simp only [hc, hcb, or_self, if_false]
          by_cases hcr : c = r'
          · subst hcr; simp
          · simp [hcr, hcb]

theorem does_foldRefs (x : Nat → T) : ∀ (l : List Nat) (acc : Nat) (s : T) (vals : Plain T), acc ∉ l → vals acc = some s → (∀ b ∈ l, vals b = some (x b)) →
    Does w (foldRefs A acc l) vals (Kept vals acc (l.foldl (fun s b => A.add s (x b)) s)) := by
  intro l
  induction l with
  | nil =>
    intro acc s vals _ hs _
    refine .pure ⟨rfl, ?_⟩
    simp [← hs]
  | cons b l ih =>
    intro acc s vals hnot hs hl
    simp only [List.mem_cons, not_or] at hnot
    refine (does_withRef (hl b (by simp)) (does_addVal A hs)).bind fun r v1 h => ?_
    obtain ⟨rfl, rfl⟩ := h
    refine (ih r _ _ hnot.2 (update_self ..) ?_).mono ?_
    · intro c hc
      have h2 : c ≠ r := by rintro rfl; exact hnot.2 hc
      rw [update_of_ne h2, hl c (by simp [hc])]
    · rintro r' v' ⟨rfl, rfl⟩
      exact ⟨rfl, by rw [update_idem]; rfl⟩

theorem does_sumRefs (x : Nat → T) {l : List Nat} (hl : ∀ b ∈ l, vals b = some (x b)) : Does w (sumRefs A l) vals (New vals (l.foldl (fun s b => A.add s (x b)) 0)) := by
  refine (does_initWith (.pure ⟨rfl, rfl⟩)).bind fun a v1 h => ?_
  obtain ⟨h0, rfl⟩ := h
  have hnot : a ∉ l := fun h => by rw [hl a h] at h0; cases h0
  refine (does_foldRefs A x l a 0 _ hnot (update_self ..) fun b hb => ?_).mono ?_
  · rw [update_of_ne (by rintro rfl; exact hnot hb), hl b hb]
  · rintro r v' ⟨rfl, rfl⟩
    exact ⟨h0, by rw [update_idem]⟩

theorem does_sumOwned_cons (x : Nat → T) {a : Nat} {l : List Nat} (hnd : (a :: l).Nodup) (hl : ∀ b ∈ a :: l, vals b = some (x b)) :
    Does w (sumOwned A (a :: l)) vals fun r vals' => r = a ∧ vals' = dropAll (update vals a (some (l.foldl (fun s b => A.add s (x b)) (x a)))) l := by
  refine (Does.map (f := some) (post := fun r vals' => r = some a ∧ vals' = dropAll (update vals a (some (l.foldl (fun s b => A.add s (x b)) (x a)))) l)
    ((does_reduceOwned A x l a (x a) vals hnd (hl a (by simp)) fun b hb => hl b (by simp [hb])).mono fun r v h => ⟨by rw [h.1], h.2⟩)).bind fun r v1 h => ?_
  obtain ⟨rfl, h1⟩ := h
  refine (does_initWith (.pure ⟨rfl, rfl⟩)).bind fun d v2 h => ?_
  obtain ⟨h0, h2⟩ := h
  refine (does_wipe (v := 0) (by rw [h2, update_self])).bind fun _ v3 h3 => .pure ⟨rfl, ?_⟩
  rw [h3, h2, update_idem, ← h0, update_eq_self, h1]

theorem does_serialize {a : Nat} {x : T} (ha : vals a = some x) : Does w (serialize A a) vals fun r vals' => r = A.encode x ∧ vals' = vals := by
  refine (does_expose ha).bind fun _ _ h => ?_
  obtain ⟨rfl, rfl⟩ := h
  refine (does_alloc _).bind fun c v1 h1 => ?_
  obtain ⟨h0, rfl⟩ := h1
  refine (does_expose (update_self ..)).bind fun _ _ h2 => ?_
  obtain ⟨rfl, rfl⟩ := h2
  refine (does_wipe (update_self ..)).bind fun _ _ h3 => .pure ⟨rfl, ?_⟩
  rw [h3, update_idem, ← h0, update_eq_self]

/-- Forgetting about a box that exists only for a while -/
theorem MaybeNew.local {c : Nat} {u : T} {v : Option T} {r : Option Nat} {vals' : Plain T} (h0 : vals c = none) (h : MaybeNew (update vals c (some u)) v r vals') :
    vals' c = some u ∧ MaybeNew vals v r (update vals' c none) := by
  unfold MaybeNew at h ⊢
  cases v with
  | none =>
    obtain ⟨h1, rfl⟩ := h
    exact ⟨update_self .., h1, by rw [update_idem, ← h0, update_eq_self]⟩
  | some v =>
    obtain ⟨a, h1, h2, rfl⟩ := h
    have hac : a ≠ c := by rintro rfl; simp at h2
    refine ⟨by rw [update_of_ne hac.symm, update_self], a, h1, by rwa [update_of_ne hac] at h2, ?_⟩
    funext b
    by_cases hb : b = c
    · subst hb; rw [update_self, update_of_ne hac.symm, h0]
    · rw [update_of_ne hb]
      by_cases hba : b = a
      · subst hba; simp
      · simp [hba, hb]

theorem does_deserialize {bytes : T} : Does w (deserialize A bytes) vals (MaybeNew vals (A.decode bytes)) := by
  refine (does_alloc _).bind fun c v1 h1 => ?_
  obtain ⟨h0, rfl⟩ := h1
  refine (does_tryInitWith (v := A.decode bytes) ((does_expose (update_self ..)).bind fun _ _ h => .pure ⟨by rw [h.1], h.2⟩)).bind fun r v2 h2 => ?_
  obtain ⟨h3, h4⟩ := h2.local h0
  exact (does_wipe h3).bind fun _ _ h5 => .pure (by rw [h5]; exact h4)

theorem does_scalarFromWideUint {a : Nat} {x : T} (ha : vals a = some x) :
    Does w (scalarFromWideUint A a) vals (MaybeNew vals (A.decode (A.lastBytes (A.encode (A.rem x A.order))))) := by
  refine (does_rem A ha).bind fun r v1 h1 => ?_
  obtain ⟨h0, rfl⟩ := h1
  refine (does_expose (update_self ..)).bind fun _ _ h => ?_
  obtain ⟨rfl, rfl⟩ := h
  refine (does_alloc _).bind fun c v1 h1 => ?_
  obtain ⟨h0', rfl⟩ := h1
  refine (does_tryInitWith (v := A.decode (A.lastBytes (A.encode (A.rem x A.order)))) ((does_expose (update_self ..)).bind fun _ _ h => .pure ⟨by rw [h.1], h.2⟩)).bind fun res v2 h2 => ?_
  obtain ⟨h3, h4⟩ := h2.local h0'
  refine (does_wipe h3).bind fun _ _ h5 => ?_
  rw [← h5] at h4
  obtain ⟨h6, h7⟩ := h4.local h0
  exact (does_wipe h6).bind fun _ _ h8 => .pure (by rw [h8]; exact h7)

theorem does_uintFromScalar {a : Nat} {x : T} (ha : vals a = some x) :
    Does w (uintFromScalar A a) vals (MaybeNew vals (A.decode (A.putLastBytes (A.encode 0) (A.encode x)))) := by
  refine (does_expose ha).bind fun _ _ h => ?_
  obtain ⟨rfl, rfl⟩ := h
  rename_i x' vals'
  refine (does_alloc _).bind fun s v1 h1 => ?_
  obtain ⟨h0, rfl⟩ := h1
  refine (does_alloc _).bind fun r v1 h1 => ?_
  obtain ⟨h0', rfl⟩ := h1
  have hrs : r ≠ s := by rintro rfl; simp at h0'
  refine (does_expose (update_self ..)).bind fun _ _ h => ?_
  obtain ⟨rfl, rfl⟩ := h
  refine (does_expose (v := A.encode x') (by rw [update_of_ne hrs.symm, update_self])).bind fun _ _ h => ?_
  obtain ⟨rfl, rfl⟩ := h
  refine (does_assign (update_self ..)).bind fun _ _ h => ?_
  subst h
  rw [update_idem]
  refine (does_tryInitWith (v := A.decode (A.putLastBytes (A.encode 0) (A.encode x'))) ((does_expose (update_self ..)).bind fun _ _ h => .pure ⟨by rw [h.1], h.2⟩)).bind fun res v2 h2 => ?_
  obtain ⟨h3, h4⟩ := h2.local h0'
  refine (does_wipe h3).bind fun _ _ h5 => ?_
  rw [← h5] at h4
  obtain ⟨h6, h7⟩ := h4.local h0
  exact (does_wipe h6).bind fun _ _ h8 => .pure (by rw [h8]; exact h7)

open SecretOp

/-- What an operation should do -/
def Post (op : Op T) (vals : Plain T) (r : Option Nat × Option T) (vals' : Plain T) : Prop :=
  r.1.isSome = (result A (fun a => (vals a).getD 0) op).isSome ∧ r.2 = shown A (fun a => (vals a).getD 0) op ∧ vals' = after A op vals r.1 ∧ ∀ a, r.1 = some a → vals a = none ∨ a ∈ moved op

variable {A} {op : Op T}

theorem giving_new {p : M T Nat} {v : T} (h : Does w p vals (New vals v)) (hm : moved op = []) (hc : changed op = none) (hr : result A (fun a => (vals a).getD 0) op = some v)
    (hs : shown A (fun a => (vals a).getD 0) op = none) : Does w (giving p) vals (Post A op vals) := by
  refine h.bind fun r v1 h1 => .pure ⟨by simp [hr], hs.symm, ?_, ?_⟩
  · rw [h1.2]
    funext b
    simp only [after, hm, hc, hr]
    by_cases hb : b = r
    · subst hb; simp
    · simp [hb, Ne.symm hb]
  · intro a ha
    cases ha
    exact .inl h1.1

theorem giving_maybe {p : M T (Option Nat)} {v : Option T} (h : Does w p vals (MaybeNew vals v)) (hm : moved op = []) (hc : changed op = none)
    (hr : result A (fun a => (vals a).getD 0) op = v) (hs : shown A (fun a => (vals a).getD 0) op = none) : Does w (givingMaybe p) vals (Post A op vals) := by
  refine h.bind fun r v1 h1 => .pure ?_
  unfold MaybeNew at h1
  cases v with
  | none =>
    obtain ⟨rfl, rfl⟩ := h1
    refine ⟨by simp [hr], hs.symm, ?_, by simp⟩
    funext b
    simp [after, hm, hc]
  | some v =>
    obtain ⟨r, rfl, h0, rfl⟩ := h1
    refine ⟨by simp [hr], hs.symm, ?_, ?_⟩
    · funext b
      simp only [after, hm, hc, hr]
      by_cases hb : b = r
      · subst hb; simp
      · simp [hb, Ne.symm hb]
    · intro a ha
      cases ha
      exact .inl h0

theorem giving_kept {p : M T Nat} {v : T} {a : Nat} (h : Does w p vals (Kept vals a v)) (hm : moved op = [a]) (hc : changed op = none)
    (hr : result A (fun a => (vals a).getD 0) op = some v) (hs : shown A (fun a => (vals a).getD 0) op = none) : Does w (giving p) vals (Post A op vals) := by
  refine h.bind fun r v1 h1 => .pure ⟨by simp [hr], hs.symm, ?_, ?_⟩
  · obtain ⟨rfl, rfl⟩ := h1
    funext b
    simp only [after, hm, hc, hr]
    by_cases hb : b = r
    · subst hb; simp
    · simp [hb, Ne.symm hb]
  · intro a' ha
    cases ha
    exact .inr (by rw [hm, h1.1]; simp)

theorem giving_keptOne {p : M T Nat} {v : T} {a b : Nat} (hab : a ≠ b) (h : Does w p vals (KeptOne vals a b v)) (hm : moved op = [a, b]) (hc : changed op = none)
    (hr : result A (fun a => (vals a).getD 0) op = some v) (hs : shown A (fun a => (vals a).getD 0) op = none) : Does w (giving p) vals (Post A op vals) := by
  refine h.bind fun r v1 h1 => .pure ⟨by simp [hr], hs.symm, ?_, ?_⟩
  · obtain ⟨rfl, rfl⟩ := h1
    funext c
    simp only [after, hm, hc, hr]
    by_cases hb : c = r
    · subst hb; simp [update_of_ne hab]
    · by_cases hcb : c = b
      · subst hcb; simp [hb, Ne.symm hb]
      · simp [hb, Ne.symm hb, hcb]
  · intro a' ha
    cases ha
    exact .inr (by rw [hm, h1.1]; simp)

theorem showing_same {p : M T T} {v : T} (h : Does w p vals fun r vals' => r = v ∧ vals' = vals) (hm : moved op = []) (hc : changed op = none)
    (hr : result A (fun a => (vals a).getD 0) op = none) (hs : shown A (fun a => (vals a).getD 0) op = some v) : Does w (showing p) vals (Post A op vals) := by
  refine h.bind fun r v1 h1 => .pure ⟨by simp [hr], by rw [hs, h1.1], ?_, by simp⟩
  rw [h1.2]
  funext b
  simp [after, hm, hc]

theorem changing_inPlace {p : M T Unit} {v : T} {a : Nat} (h : Does w p vals fun _ vals' => vals' = update vals a (some v)) (hm : moved op = []) (hc : changed op = some a)
    (hr : result A (fun a => (vals a).getD 0) op = none) (hs : shown A (fun a => (vals a).getD 0) op = none) (hw : written A (fun a => (vals a).getD 0) op = v) :
    Does w (changing p) vals (Post A op vals) := by
  refine h.bind fun r v1 h1 => .pure ⟨by simp [hr], hs.symm, ?_, by simp⟩
  rw [h1]
  funext b
  simp only [after, hm, hc, hw]
  by_cases hb : b = a
  · subst hb; simp
  · simp [hb, Ne.symm hb]

private theorem getD_of {a : Nat} {x : T} (h : vals a = some x) : (vals a).getD 0 = x := by rw [h]; rfl

/-- Every operation that may be called ends, and does what it should; if it is careful, all that it gives up is wiped. -/
theorem does_run (hf : Fits op vals) (hc : (∃ v, ¬ w v) → Careful op) : Does w (op.run A) vals (Post A op vals) := by
  obtain ⟨hnd, hmv, hch, hlive⟩ := hf
  have live : ∀ a, a ∈ moved op ∨ a ∈ borrowed op ∨ changed op = some a → vals a = some ((vals a).getD 0) := by
    intro a ha
    obtain ⟨x, hx⟩ := Option.isSome_iff_exists.1 (hlive a ha)
    rw [hx]; rfl
  cases op with
  | init v => exact giving_new (does_initWith (.pure ⟨rfl, rfl⟩)) rfl rfl rfl rfl
  | tryInit v => exact giving_maybe (does_tryInitWith (.pure ⟨rfl, rfl⟩)) rfl rfl rfl rfl
  | clone a => exact giving_new (does_clone (live a (by simp [borrowed]))) rfl rfl rfl rfl
  | drop a =>
    refine (does_wipe (live a (by simp [moved]))).bind fun _ v1 h1 => .pure ⟨rfl, rfl, ?_, by simp⟩
    rw [h1]
    funext b
    by_cases hb : b = a
    · subst hb; simp [after, moved]
    · simp [after, moved, changed, hb]
  | serialize a => exact showing_same (does_serialize A (live a (by simp [borrowed]))) rfl rfl rfl rfl
  | deserialize bytes => exact giving_maybe (does_deserialize A) rfl rfl rfl rfl
  | neg a => exact giving_new (does_handed (f := A.neg) (not_exists_not.1 hc _) (live a (by simp [borrowed]))) rfl rfl rfl rfl
  | wrappingNeg a => exact giving_new (does_map (f := A.wrappingNeg) (live a (by simp [borrowed]))) rfl rfl rfl rfl
  | wrappingAdd a b => exact giving_new (does_map₂ (f := A.wrappingAdd) (live a (by simp [borrowed])) (live b (by simp [borrowed]))) rfl rfl rfl rfl
  | wrappingSub a b => exact giving_new (does_map₂ (f := A.wrappingSub) (live a (by simp [borrowed])) (live b (by simp [borrowed]))) rfl rfl rfl rfl
  | wrappingMul a b => exact giving_new (does_map₂ (f := A.wrappingMul) (live a (by simp [borrowed])) (live b (by simp [borrowed]))) rfl rfl rfl rfl
  | toWide a => exact giving_new (does_map (f := A.toWide) (live a (by simp [borrowed]))) rfl rfl rfl rfl
  | addAssign a x => exact changing_inPlace (does_inPlace (f := fun v => A.add v x) (live a (by simp [changed]))) rfl rfl rfl rfl rfl
  | addAssignOwned a b =>
    have hab : a ≠ b := by
      rintro rfl
      exact (hmv a (by simp [moved])).2 rfl
    have ha := live a (by simp [changed])
    have hb := live b (by simp [moved])
    have key : Does w (addAssignOwned A a b) vals fun _ vals' => vals' = update (update vals a (some (A.add ((vals a).getD 0) ((vals b).getD 0)))) b none :=
      (does_expose hb).bind fun _ _ h => by
        obtain ⟨rfl, rfl⟩ := h
        exact (does_inPlace (f := fun v => A.add v _) ha).bind fun _ v' h => by
          subst h
          exact does_wipe (by rw [update_of_ne hab.symm]; exact hb)
    refine key.bind fun _ v1 h1 => .pure ⟨rfl, rfl, ?_, by simp⟩
    rw [h1]
    funext c
    by_cases hb : c = b
    · subst hb; simp [after, moved]
    · by_cases hca : c = a
      · subst hca; simp [after, moved, changed, written, hb]
      · simp [after, moved, changed, hb, hca, Ne.symm hca]
  | addVal a x => exact giving_kept (does_addVal A (live a (by simp [moved]))) rfl rfl rfl rfl
  | refAddVal a x => exact giving_new (does_refAddVal A (live a (by simp [borrowed]))) rfl rfl rfl rfl
  | addOwned a b =>
    have hab : a ≠ b := by simpa [moved] using hnd
    exact giving_keptOne hab (does_addOwned A (live a (by simp [moved])) (live b (by simp [moved])) hab) rfl rfl rfl rfl
  | addRef a b => exact giving_kept (does_withRef (live b (by simp [borrowed])) (does_addVal A (live a (by simp [moved])))) rfl rfl rfl rfl
  | refAddOwned a b =>
    have hab : a ≠ b := by
      rintro rfl
      exact (hmv a (by simp [moved])).1 (by simp [borrowed])
    refine (does_withOwned (p := fun y => refAddVal A a y) (post := fun r vals' => (vals r = none) ∧ vals' = update (update vals r (some (A.add ((vals a).getD 0) ((vals b).getD 0)))) b none)
      (live b (by simp [moved])) ((does_refAddVal A (live a (by simp [borrowed]))).mono fun r v' h => ?_)).bind fun r v1 h1 => .pure ⟨rfl, rfl, ?_, ?_⟩
    · have hbr : b ≠ r := by
        rintro rfl
        have := live b (by simp [moved])
        rw [h.1] at this; cases this
      exact ⟨by rw [h.2, update_of_ne hbr]; exact live b (by simp [moved]), h.1, by rw [h.2]⟩
    · rw [h1.2]
      have hbr : b ≠ r := by
        rintro rfl
        have := live b (by simp [moved])
        rw [h1.1] at this; cases this
      funext c
      by_cases hb : c = b
      · subst hb; simp [after, moved, Ne.symm hbr]
      · by_cases hca : c = r
        · subst hca; simp [after, result, hb]
        · simp [after, moved, changed, hb, hca, Ne.symm hca]
    · intro a' ha
      cases ha
      exact .inl h1.1
  | refAddRef a b => exact giving_new (does_withRef (live b (by simp [borrowed])) (does_refAddVal A (live a (by simp [borrowed])))) rfl rfl rfl rfl
  | subVal a x => exact giving_kept (does_subVal A (live a (by simp [moved]))) rfl rfl rfl rfl
  | subOwned a b =>
    have hab : a ≠ b := by simpa [moved] using hnd
    exact giving_keptOne hab (does_keptOne (live b (by simp [moved])) hab (does_subVal A (live a (by simp [moved])))) rfl rfl rfl rfl
  | mulAssign a x => exact changing_inPlace (does_inPlace (f := fun v => A.mul v x) (live a (by simp [changed]))) rfl rfl rfl rfl rfl
  | mulVal a x => exact giving_kept (does_mulVal A (live a (by simp [moved]))) rfl rfl rfl rfl
  | refMulVal a x => exact giving_new (does_refMulVal A (live a (by simp [borrowed]))) rfl rfl rfl rfl
  | mulOwned a b =>
    have hab : a ≠ b := by simpa [moved] using hnd
    exact giving_keptOne hab (does_keptOne (live b (by simp [moved])) hab (does_mulVal A (live a (by simp [moved])))) rfl rfl rfl rfl
  | mulRef a b => exact giving_kept (does_withRef (live b (by simp [borrowed])) (does_mulVal A (live a (by simp [moved])))) rfl rfl rfl rfl
  | refMulRef a b => exact giving_new (does_withRef (live b (by simp [borrowed])) (does_refMulVal A (live a (by simp [borrowed])))) rfl rfl rfl rfl
  | divAssign a x => exact changing_inPlace (does_inPlace (f := fun v => A.div v x) (live a (by simp [changed]))) rfl rfl rfl rfl rfl
  | div a x => exact giving_kept (does_div A (live a (by simp [moved]))) rfl rfl rfl rfl
  | remAssign a x => exact changing_inPlace (does_inPlace (f := fun v => A.rem v x) (live a (by simp [changed]))) rfl rfl rfl rfl rfl
  | rem a x => exact giving_new (does_rem A (live a (by simp [borrowed]))) rfl rfl rfl rfl
  | retrieve a => exact giving_new (does_map (f := A.retrieve) (live a (by simp [borrowed]))) rfl rfl rfl rfl
  | pow a e => exact giving_new (does_map (f := fun v => A.pow v e) (live a (by simp [borrowed]))) rfl rfl rfl rfl
  | toMontgomery a p => exact giving_new (does_handed (f := fun v => A.toMontgomery v p) (not_exists_not.1 hc _) (live a (by simp [borrowed]))) rfl rfl rfl rfl
  | conditionalSelect a b choice =>
    exact giving_new (does_map₂ (f := fun x y => if choice then y else x) (live a (by simp [borrowed])) (live b (by simp [borrowed]))) rfl rfl rfl rfl
  | conditionalNegate a choice =>
    exact changing_inPlace (does_inPlace (f := fun v => if choice then A.neg v else v) (live a (by simp [changed]))) rfl rfl rfl rfl rfl
  | sumOwned l =>
    cases l with
    | nil =>
      refine giving_new (v := 0) ?_ rfl rfl rfl rfl
      exact (Does.pure (w := w) (r := none) (post := fun r v => r = none ∧ v = vals) ⟨rfl, rfl⟩).bind fun r v1 h => by
        obtain ⟨rfl, rfl⟩ := h
        exact (does_initWith (.pure ⟨rfl, rfl⟩)).bind fun d v2 h => .pure h
    | cons a l =>
      refine (does_sumOwned_cons A (fun a => (vals a).getD 0) hnd fun b hb => live b (.inl hb)).bind fun r v1 h1 => .pure ⟨rfl, rfl, ?_, ?_⟩
      · obtain ⟨rfl, rfl⟩ := h1
        have hr : r ∉ l := (List.nodup_cons.1 hnd).1
        funext c
        by_cases hc : c = r
        · subst hc; simp [after, result, dropAll, hr]
        · by_cases hcl : c ∈ l
          · simp [after, moved, dropAll, hcl, Ne.symm hc]
          · simp [after, moved, changed, dropAll, hcl, hc, Ne.symm hc]
      · intro a' ha
        cases ha
        exact .inr (by rw [h1.1]; simp [moved])
  | sumRefs l => exact giving_new (does_sumRefs A (fun a => (vals a).getD 0) fun b hb => live b (.inr (.inl hb))) rfl rfl rfl rfl
  | mulByGenerator a => exact showing_same ((does_expose (live a (by simp [borrowed]))).bind fun _ _ h => .pure ⟨by rw [h.1], h.2⟩) rfl rfl rfl rfl
  | pointMulOwned p a =>
    have ha := live a (by simp [moved])
    refine (Does.bind (mid := fun r vals' => r = A.smul ((vals a).getD 0) p ∧ vals' = update vals a none) ((does_expose ha).bind fun v v1 h => ?_) fun r v1 h1 => .pure ⟨rfl, ?_, ?_, by simp⟩)
    · obtain ⟨rfl, rfl⟩ := h
      exact (does_wipe ha).bind fun _ _ h => .pure ⟨rfl, h⟩
    · rw [h1.1]; rfl
    · rw [h1.2]
      funext b
      by_cases hb : b = a
      · subst hb; simp [after, moved]
      · simp [after, moved, changed, hb]
  | pointMulRef p a => exact showing_same ((does_expose (live a (by simp [borrowed]))).bind fun _ _ h => .pure ⟨by rw [h.1], h.2⟩) rfl rfl rfl rfl
  | scalarFromWideUint a => exact giving_maybe (does_scalarFromWideUint A (live a (by simp [borrowed]))) rfl rfl rfl rfl
  | uintFromScalar a => exact giving_maybe (does_uintFromScalar A (live a (by simp [borrowed]))) rfl rfl rfl rfl

/-- What holds after any sequence of operations -/
theorem reached_inv {kind : Op T → Prop} {m : Mem T} (hk : (∃ v, ¬ w v) → ∀ op, kind op → Careful op) (h : Reached A kind m vals) : Rep m vals ∧ Wiped w m := by
  induction h with
  | start => exact ⟨fun a v => by simp, fun c hc => by simp at hc⟩
  | step m vals op new out m' _ hkind hfits hrun ih =>
    obtain ⟨r, m'', vals', h1, h2, h3, h4⟩ := does_run (A := A) (w := w) hfits (fun h => hk h op hkind) m ih.1 ih.2
    rw [hrun] at h1
    cases h1
    rw [← h4.2.2.1]
    exact ⟨h2, h3⟩

end Synedrion.SecretBox
