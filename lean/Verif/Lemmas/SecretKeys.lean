import Verif.Spec.SecretKeys
import Verif.Lemmas.SecretBounded

/-!
# Helper lemmas about Paillier secret keys in memory
-/

namespace Synedrion.SecretKeys

open Spec Spec.KeyMemory SecretBox SecretBounded Function

/-- The values are those in the list, next to others in `base`. -/
def At (base : Plain Nat) (l : List (Nat × Nat)) (vals : Plain Nat) : Prop :=
  (l.map Prod.fst).Nodup ∧ (∀ x ∈ l, base x.1 = none) ∧ ∀ b, vals b = (l.find? fun x => x.1 == b).elim (base b) fun x => some x.2

/-- The memory holds these values and what was given up earlier, in `m₀`; the values `g`, and no others, were given up since then. -/
def St (m₀ : Mem Nat) (base : Plain Nat) (l : List (Nat × Nat)) (g : List Nat) (m : Mem Nat) : Prop :=
  ∃ vals, Rep m vals ∧ At base l vals ∧ ∀ u, u ≠ 0 → (Left u m ↔ Left u m₀ ∨ u ∈ g)

/-- A computation ends, and `post` says what the memory holds and what was given up. -/
def Ex {α : Type} (m₀ : Mem Nat) (base : Plain Nat) (p : M Nat α) (l : List (Nat × Nat)) (g : List Nat) (post : α → List (Nat × Nat) → List Nat → Prop) : Prop :=
  ∀ m, St m₀ base l g m → ∃ r m' l' g', p m = some (r, m') ∧ St m₀ base l' g' m' ∧ post r l' g'

variable {m₀ : Mem Nat} {base : Plain Nat} {l : List (Nat × Nat)} {g : List Nat} {α β : Type}

theorem At.get {vals : Plain Nat} (h : At base l vals) {i a v : Nat} (hi : l[i]? = some (a, v)) : vals a = some v := by
  have hmem : (a, v) ∈ l := List.mem_of_getElem? hi
  rw [h.2.2 a]
  cases hf : l.find? fun x => x.1 == a with
  | none =>
    have := List.find?_eq_none.1 hf _ hmem
    simp at this
  | some y =>
    have h1 := List.find?_some hf
    have h2 := List.mem_of_find?_eq_some hf
    have h3 : y.1 = a := by simpa using h1
    have : y = (a, v) := List.inj_on_of_nodup_map h.1 h2 hmem h3
    rw [this]; rfl

theorem At.new {vals vals' : Plain Nat} (h : At base l vals) {a v : Nat} (hn : New vals v a vals') : At base ((a, v) :: l) vals' := by
  obtain ⟨h0, rfl⟩ := hn
  have hnot : ∀ x ∈ l, x.1 ≠ a := by
    intro x hx e
    obtain ⟨i, hi⟩ := List.mem_iff_getElem?.1 hx
    have := h.get (a := x.1) (v := x.2) hi
    rw [e, h0] at this
    cases this
  refine ⟨?_, ?_, fun b => ?_⟩
  · rw [List.map_cons, List.nodup_cons]
    refine ⟨fun hm => ?_, h.1⟩
    obtain ⟨x, hx, e⟩ := List.mem_map.1 hm
    exact hnot x hx e
  · intro x hx
    rcases List.mem_cons.1 hx with rfl | hx
    · have := h.2.2 a
      rw [List.find?_eq_none.2 fun x hx => by simpa using hnot x hx, h0] at this
      exact this.symm
    · exact h.2.1 x hx
  · by_cases hb : b = a
    · subst hb; simp
    · rw [update_of_ne hb, List.find?_cons_of_neg (by simpa using Ne.symm hb), h.2.2 b]

private theorem find?_split {l₁ l₂ : List (Nat × Nat)} {a b v : Nat} (hb : b ≠ a) : ((l₁ ++ (a, v) :: l₂).find? fun x => x.1 == b) = (l₁ ++ l₂).find? fun x => x.1 == b := by
  rw [List.find?_append, List.find?_append, List.find?_cons_of_neg (by simpa using Ne.symm hb)]

theorem At.drop {vals : Plain Nat} (h : At base l vals) {i a v : Nat} (hi : l[i]? = some (a, v)) : At base (l.eraseIdx i) (update vals a none) := by
  obtain ⟨hlt, hi'⟩ := List.getElem?_eq_some_iff.1 hi
  have hl : l = l.take i ++ (a, v) :: l.drop (i + 1) := by rw [← hi', ← List.drop_eq_getElem_cons hlt, List.take_append_drop]
  have he : l.eraseIdx i = l.take i ++ l.drop (i + 1) := List.eraseIdx_eq_take_drop_succ ..
  have hbase := h.2.1 _ (List.mem_of_getElem? hi)
  rw [he]
  obtain ⟨h1, h2, h3⟩ := h
  generalize l.take i = l₁ at *
  generalize l.drop (i + 1) = l₂ at *
  subst hl
  have hn : a ∉ (l₁ ++ l₂).map Prod.fst ∧ ((l₁ ++ l₂).map Prod.fst).Nodup := by
    rw [List.map_append, List.map_cons, List.nodup_middle, List.nodup_cons] at h1
    rwa [List.map_append]
  refine ⟨hn.2, fun x hx => h2 x ?_, fun b => ?_⟩
  · rcases List.mem_append.1 hx with hx | hx <;> simp [hx]
  · by_cases hb : b = a
    · subst hb
      rw [update_self, List.find?_eq_none.2]
      · exact hbase.symm
      · intro x hx e
        exact hn.1 (List.mem_map.2 ⟨x, hx, by simpa using e⟩)
    · rw [update_of_ne hb, h3 b, find?_split hb]

theorem At.put {vals : Plain Nat} (h : At base l vals) {i a v u : Nat} (hi : l[i]? = some (a, v)) : At base ((a, u) :: l.eraseIdx i) (update vals a (some u)) := by
  have := (h.drop hi).new (a := a) (v := u) ⟨update_self .., rfl⟩
  rwa [update_idem] at this

theorem Ex.bind {p : M Nat α} {f : α → M Nat β} {mid : α → List (Nat × Nat) → List Nat → Prop} {post : β → List (Nat × Nat) → List Nat → Prop} (hp : Ex m₀ base p l g mid)
    (hf : ∀ r l' g', mid r l' g' → Ex m₀ base (f r) l' g' post) : Ex m₀ base (p >>= f) l g post := by
  intro m hm
  obtain ⟨r, m', l', g', h1, h2, h3⟩ := hp m hm
  obtain ⟨r', m'', l'', g'', k1, k2, k3⟩ := hf r l' g' h3 m' h2
  refine ⟨r', m'', l'', g'', ?_, k2, k3⟩
  show (p m).bind (fun x => f x.1 x.2) = _
  rw [h1]
  exact k1

theorem Ex.pure {r : α} {post : α → List (Nat × Nat) → List Nat → Prop} (h : post r l g) : Ex m₀ base (pure r : M Nat α) l g post := fun m hm => ⟨r, m, l, g, rfl, hm, h⟩

theorem Ex.mono {p : M Nat α} {post post' : α → List (Nat × Nat) → List Nat → Prop} (hp : Ex m₀ base p l g post) (h : ∀ r l' g', post r l' g' → post' r l' g') : Ex m₀ base p l g post' := by
  intro m hm
  obtain ⟨r, m', l', g', h1, h2, h3⟩ := hp m hm
  exact ⟨r, m', l', g', h1, h2, h _ _ _ h3⟩

/-- A computation of which it is known what it may and what it does leave -/
theorem Ex.of {p : M Nat α} {more : List Nat} {post : α → List (Nat × Nat) → Prop}
    (hd : ∀ (w : Nat → Prop) vals, (∀ u ∈ more, w u) → At base l vals → Does w p vals fun r vals' => ∃ l', At base l' vals' ∧ post r l') (hk : Keeps p)
    (hl : ∀ vals, At base l vals → ∀ u ∈ more, Leaves u p vals) : Ex m₀ base p l g fun r l' g' => post r l' ∧ g' = more ++ g := by
  intro m hm
  obtain ⟨vals, h1, h2, h3⟩ := hm
  obtain ⟨r, m', vals', k1, k2, k3, l', k4, k5⟩ := hd (fun u => Left u m ∨ u ∈ more) vals (fun _ h => .inr h) h2 m h1 fun c hc hf => .inr (.inl ⟨c, hc, hf, rfl⟩)
  refine ⟨r, m', l', more ++ g, k1, ⟨vals', k2, k4, fun u hu => ?_⟩, k5, rfl⟩
  constructor
  · rintro ⟨c, hc, hf, rfl⟩
    rcases k3 c hc hf with h | h | h
    · exact absurd h hu
    · exact ((h3 _ hu).1 h).imp_right fun h => by simp [h]
    · exact .inr (by simp [h])
  · intro h
    rw [List.mem_append] at h
    rcases h with h | h | h
    · exact hk _ _ _ k1 _ ((h3 _ hu).2 (.inl h))
    · exact hl vals h2 u h m r m' h1 k1
    · exact hk _ _ _ k1 _ ((h3 _ hu).2 (.inr h))

/-- A computation that leaves nothing -/
theorem Ex.careful {p : M Nat α} {post : α → List (Nat × Nat) → Prop}
    (hd : ∀ (w : Nat → Prop) vals, At base l vals → Does w p vals fun r vals' => ∃ l', At base l' vals' ∧ post r l') (hk : Keeps p) : Ex m₀ base p l g fun r l' g' => post r l' ∧ g' = g := by
  have := Ex.of (m₀ := m₀) (g := g) (more := []) (fun w vals _ h => hd w vals h) hk (fun _ _ u hu => by cases hu)
  exact this.mono fun _ _ _ h => h

theorem ex_alloc (v : Nat) : Ex m₀ base (alloc v) l g fun a l' g' => l' = (a, v) :: l ∧ g' = g :=
  .careful (fun _ _ h => (does_alloc v).mono fun a _ h' => ⟨_, h.new h', rfl⟩) (keeps_alloc v)

theorem ex_expose (i : Nat) {a v : Nat} (hi : l[i]? = some (a, v)) : Ex m₀ base (expose a) l g fun r l' g' => (r = v ∧ l' = l) ∧ g' = g :=
  .careful (fun _ _ h => (does_expose (h.get hi)).mono fun a _ h' => ⟨l, h'.2 ▸ h, h'.1, rfl⟩) (keeps_expose a)

theorem keeps_assign (a u : Nat) : Keeps (assign a u) := by
  intro m r m' h x hx
  unfold assign at h
  split at h
  · rename_i v ha
    cases h
    obtain ⟨c, hc, h1, h2⟩ := hx
    obtain ⟨i, hi⟩ := List.mem_iff_getElem?.1 hc
    have hne : a ≠ i := by rintro rfl; rw [ha] at hi; cases hi; cases h1
    exact ⟨c, List.mem_of_getElem? (by rw [List.getElem?_set_ne hne, hi]), h1, h2⟩
  · cases h

theorem ex_assign (i : Nat) {a v u : Nat} (hi : l[i]? = some (a, v)) : Ex m₀ base (assign a u) l g fun _ l' g' => l' = (a, u) :: l.eraseIdx i ∧ g' = g :=
  .careful (fun _ _ h => (does_assign (h.get hi)).mono fun _ _ h' => ⟨_, h' ▸ h.put hi, rfl⟩) (keeps_assign a u)

theorem ex_wipe (i : Nat) {a v : Nat} (hi : l[i]? = some (a, v)) : Ex m₀ base (wipe a) l g fun _ l' g' => l' = l.eraseIdx i ∧ g' = g :=
  .careful (fun _ _ h => (does_wipe (h.get hi)).mono fun _ _ h' => ⟨_, h' ▸ h.drop hi, rfl⟩) (keeps_wipe a)

theorem keeps_forget (a : Nat) : Keeps (forget a) := by
  intro m r m' h x hx
  unfold forget at h
  split at h
  · rename_i v ha
    cases h
    obtain ⟨c, hc, h1, h2⟩ := hx
    obtain ⟨i, hi⟩ := List.mem_iff_getElem?.1 hc
    have hne : a ≠ i := by rintro rfl; rw [ha] at hi; cases hi; cases h1
    exact ⟨c, List.mem_of_getElem? (by rw [List.getElem?_set_ne hne, hi]), h1, h2⟩
  · cases h

theorem ex_forget (i : Nat) {a v : Nat} (hi : l[i]? = some (a, v)) : Ex m₀ base (forget a) l g fun _ l' g' => l' = l.eraseIdx i ∧ g' = v :: g :=
  .of (more := [v]) (fun _ _ hw h => (does_forget (hw v (by simp)) (h.get hi)).mono fun _ _ h' => ⟨_, h' ▸ h.drop hi, rfl⟩) (keeps_forget a)
    fun _ h u hu => by cases List.mem_singleton.1 hu; exact leaves_forget (h.get hi)

theorem ex_newBox (v : Nat) : Ex m₀ base (newBox v) l g fun a l' g' => l' = (a, v) :: l ∧ g' = g :=
  .careful (fun _ _ h => (does_newBox v).mono fun a _ h' => ⟨_, h.new h', rfl⟩) (keeps_newBox v)

/-- A value that is computed, in a new box -/
theorem ex_initWith {ctr : M Nat Nat} {v : Nat} {g₁ : List Nat} (hc : Ex m₀ base ctr l g fun r l' g' => (r = v ∧ l' = l) ∧ g' = g₁) :
    Ex m₀ base (initWith ctr) l g fun a l' g' => l' = (a, v) :: l ∧ g' = g₁ :=
  hc.bind fun r l' g' h => by
    obtain ⟨⟨rfl, rfl⟩, rfl⟩ := h
    exact ex_newBox r

theorem ex_tryInitWith {ctr : M Nat (Option Nat)} {v : Nat} {g₁ : List Nat} (hc : Ex m₀ base ctr l g fun r l' g' => (r = some v ∧ l' = l) ∧ g' = g₁) :
    Ex m₀ base (tryInitWith ctr) l g fun r l' g' => ∃ a, r = some a ∧ l' = (a, v) :: l ∧ g' = g₁ :=
  hc.bind fun r l' g' h => by
    obtain ⟨⟨rfl, rfl⟩, rfl⟩ := h
    exact (ex_newBox v).bind fun a _ _ h => .pure ⟨a, rfl, h⟩

/-- A copy of a box -/
theorem ex_copy (i : Nat) {a v : Nat} (hi : l[i]? = some (a, v)) : Ex m₀ base (initWith (expose a)) l g fun r l' g' => l' = (r, v) :: l ∧ g' = g := ex_initWith (ex_expose i hi)

/-- A function of two secrets, in a new box -/
theorem ex_box₂ (i j : Nat) {a b x y : Nat} {f : Nat → Nat → Nat} (hi : l[i]? = some (a, x)) (hj : l[j]? = some (b, y)) :
    Ex m₀ base (initWith do return f (← expose a) (← expose b)) l g fun r l' g' => l' = (r, f x y) :: l ∧ g' = g :=
  ex_initWith ((ex_expose i hi).bind fun _ _ _ h => by
    obtain ⟨⟨rfl, rfl⟩, rfl⟩ := h
    exact (ex_expose j hj).bind fun _ _ _ h => .pure (by obtain ⟨⟨rfl, rfl⟩, rfl⟩ := h; exact ⟨⟨rfl, rfl⟩, rfl⟩))

/-! ### The functions -/

theorem ex_primesNew (i j : Nat) {p q pv qv : Nat} (hi : l[i]? = some (p, pv)) (hj : l[j]? = some (q, qv)) (hp : pv ≠ 0) (hq : qv ≠ 0) :
    Ex m₀ base (primesNew p q) l g fun r l' g' => ∃ t, r = .ok t ∧ l' = (t, (pv - 1) * (qv - 1)) :: l ∧ g' = (pv - 1) :: (qv - 1) :: g := by
  refine (ex_expose i hi).bind fun _ _ _ h => ?_
  obtain ⟨⟨rfl, rfl⟩, rfl⟩ := h
  rw [if_neg hp]
  refine (ex_alloc _).bind fun pm _ _ h => ?_
  obtain ⟨rfl, rfl⟩ := h
  refine (ex_expose (j + 1) hj).bind fun _ _ _ h => ?_
  obtain ⟨⟨rfl, rfl⟩, rfl⟩ := h
  rw [if_neg hq]
  refine (ex_alloc _).bind fun qm _ _ h => ?_
  obtain ⟨rfl, rfl⟩ := h
  refine (ex_box₂ (f := (· * ·)) 1 0 rfl rfl).bind fun t _ _ h => ?_
  obtain ⟨rfl, rfl⟩ := h
  refine (ex_forget 1 rfl).bind fun _ _ _ h => ?_
  obtain ⟨rfl, rfl⟩ := h
  refine (ex_forget 1 rfl).bind fun _ _ _ h => ?_
  obtain ⟨rfl, rfl⟩ := h
  exact .pure ⟨t, rfl, rfl, rfl⟩

theorem ex_paramsOf (i : Nat) {p pv : Nat} (hi : l[i]? = some (p, pv)) : Ex m₀ base (paramsOf p) l g fun r l' g' => l' = (r, pv) :: l ∧ g' = g := by
  refine (ex_copy i hi).bind fun o _ _ h => ?_
  obtain ⟨rfl, rfl⟩ := h
  refine (ex_expose 0 rfl).bind fun _ _ _ h => ?_
  obtain ⟨⟨rfl, rfl⟩, rfl⟩ := h
  refine (ex_alloc _).bind fun r _ _ h => ?_
  obtain ⟨rfl, rfl⟩ := h
  refine (ex_wipe 1 rfl).bind fun _ _ _ h => ?_
  obtain ⟨rfl, rfl⟩ := h
  exact .pure ⟨rfl, rfl⟩

theorem ex_invTotientOf (i : Nat) {N t tv : Nat} {x : ZMod N} (hi : l[i]? = some (t, tv)) (hx : invMod? (tv : ZMod N) = some x) :
    Ex m₀ base (invTotientOf N t) l g fun r l' g' => ∃ a, r = some a ∧ l' = (a, x.val) :: l ∧ g' = (tv % N) :: tv :: g := by
  refine ex_tryInitWith ((ex_expose i hi).bind fun _ _ _ h => ?_)
  obtain ⟨⟨rfl, rfl⟩, rfl⟩ := h
  refine (ex_alloc _).bind fun c _ _ h => ?_
  obtain ⟨rfl, rfl⟩ := h
  refine (ex_expose 0 rfl).bind fun _ _ _ h => ?_
  obtain ⟨⟨rfl, rfl⟩, rfl⟩ := h
  refine (ex_alloc _).bind fun d _ _ h => ?_
  obtain ⟨rfl, rfl⟩ := h
  refine (ex_forget 1 rfl).bind fun _ _ _ h => ?_
  obtain ⟨rfl, rfl⟩ := h
  refine (ex_expose 0 rfl).bind fun _ _ _ h => ?_
  obtain ⟨⟨rfl, rfl⟩, rfl⟩ := h
  refine (ex_forget 0 rfl).bind fun _ _ _ h => ?_
  obtain ⟨rfl, rfl⟩ := h
  exact .pure ⟨⟨by rw [ZMod.natCast_mod, hx]; rfl, rfl⟩, rfl⟩

theorem ex_invModulusOf (i : Nat) {N t tv : Nat} {x : ZMod tv} (hi : l[i]? = some (t, tv)) (hx : invMod? (N : ZMod tv) = some x) :
    Ex m₀ base (invModulusOf N t) l g fun r l' g' => ∃ a, r = some a ∧ l' = (a, x.val) :: l ∧ g' = g := by
  refine ex_tryInitWith ((ex_expose i hi).bind fun _ _ _ h => ?_)
  obtain ⟨⟨rfl, rfl⟩, rfl⟩ := h
  exact .pure ⟨⟨by rw [hx]; rfl, rfl⟩, rfl⟩

theorem ex_toMontgomery (i : Nat) {a v n : Nat} (hi : l[i]? = some (a, v)) : Ex m₀ base (toMontgomery a n) l g fun r l' g' => l' = (r, v % n) :: l ∧ g' = v :: g := by
  refine ex_initWith ((ex_expose i hi).bind fun _ _ _ h => ?_)
  obtain ⟨⟨rfl, rfl⟩, rfl⟩ := h
  refine (ex_alloc _).bind fun c _ _ h => ?_
  obtain ⟨rfl, rfl⟩ := h
  refine (ex_expose 0 rfl).bind fun _ _ _ h => ?_
  obtain ⟨⟨rfl, rfl⟩, rfl⟩ := h
  refine (ex_forget 0 rfl).bind fun _ _ _ h => ?_
  obtain ⟨rfl, rfl⟩ := h
  exact .pure ⟨⟨rfl, rfl⟩, rfl⟩

theorem ex_invPOf (i : Nat) {a v q : Nat} {x : ZMod q} (hi : l[i]? = some (a, v)) (hx : invMod? (v : ZMod q) = some x) :
    Ex m₀ base (invPOf a q) l g fun r l' g' => ∃ a, r = some a ∧ l' = (a, x.val) :: l ∧ g' = g := by
  refine ex_tryInitWith ((ex_expose i hi).bind fun _ _ _ h => ?_)
  obtain ⟨⟨rfl, rfl⟩, rfl⟩ := h
  exact .pure ⟨⟨by rw [hx]; rfl, rfl⟩, rfl⟩

theorem ex_garner (i : Nat) {a q : Nat} {x : ZMod q} (hq : q ≠ 0) (hi : l[i]? = some (a, x.val)) :
    Ex m₀ base (garner a q) l g fun r l' g' => l' = (r, (x + x - 1).val) :: l ∧ g' = g := by
  have : NeZero q := ⟨hq⟩
  refine (ex_initWith (.pure ⟨⟨rfl, rfl⟩, rfl⟩)).bind fun one _ _ h => ?_
  obtain ⟨rfl, rfl⟩ := h
  refine (ex_copy (i + 1) hi).bind fun s _ _ h => ?_
  obtain ⟨rfl, rfl⟩ := h
  refine (ex_expose (i + 2) hi).bind fun _ _ _ h => ?_
  obtain ⟨⟨rfl, rfl⟩, rfl⟩ := h
  refine (ex_expose 0 rfl).bind fun _ _ _ h => ?_
  obtain ⟨⟨rfl, rfl⟩, rfl⟩ := h
  refine (ex_assign 0 rfl).bind fun _ _ _ h => ?_
  obtain ⟨rfl, rfl⟩ := h
  refine (ex_expose 1 rfl).bind fun _ _ _ h => ?_
  obtain ⟨⟨rfl, rfl⟩, rfl⟩ := h
  refine (ex_expose 0 rfl).bind fun _ _ _ h => ?_
  obtain ⟨⟨rfl, rfl⟩, rfl⟩ := h
  refine (ex_assign 0 rfl).bind fun _ _ _ h => ?_
  obtain ⟨rfl, rfl⟩ := h
  refine (ex_wipe 1 rfl).bind fun _ _ _ h => ?_
  obtain ⟨rfl, rfl⟩ := h
  refine (ex_copy 0 rfl).bind fun t _ _ h => ?_
  obtain ⟨rfl, rfl⟩ := h
  refine (ex_wipe 1 rfl).bind fun _ _ _ h => ?_
  obtain ⟨rfl, rfl⟩ := h
  refine .pure ⟨?_, rfl⟩
  simp only [ZMod.natCast_zmod_val, ZMod.natCast_mod, Nat.cast_one]
  rfl

theorem ex_constantOf (i j : Nat) {N p t pv tv : Nat} (hi : l[i]? = some (p, pv)) (hj : l[j]? = some (t, tv)) (hp : pv ≠ 0) :
    Ex m₀ base (constantOf N p t) l g fun r l' g' => ∃ a, r = some a ∧ l' = (a, (tv * pv + pv - 1) % N) :: l ∧ g' = (tv * pv + pv - 1) :: g := by
  refine (ex_box₂ (f := (· * ·)) j i hj hi).bind fun u _ _ h => ?_
  obtain ⟨rfl, rfl⟩ := h
  refine (ex_copy (i + 1) hi).bind fun wide _ _ h => ?_
  obtain ⟨rfl, rfl⟩ := h
  refine (ex_box₂ (f := (· + ·)) 1 0 rfl rfl).bind fun u' _ _ h => ?_
  obtain ⟨rfl, rfl⟩ := h
  refine (ex_wipe 1 rfl).bind fun _ _ _ h => ?_
  obtain ⟨rfl, rfl⟩ := h
  refine (ex_expose 0 rfl).bind fun _ _ _ h => ?_
  obtain ⟨⟨rfl, rfl⟩, rfl⟩ := h
  rw [if_neg (by omega)]
  refine (ex_initWith (.pure ⟨⟨rfl, rfl⟩, rfl⟩)).bind fun u'' _ _ h => ?_
  obtain ⟨rfl, rfl⟩ := h
  refine (ex_toMontgomery (n := N) 0 rfl).bind fun r _ _ h => ?_
  obtain ⟨rfl, rfl⟩ := h
  refine (ex_wipe 1 rfl).bind fun _ _ _ h => ?_
  obtain ⟨rfl, rfl⟩ := h
  refine (ex_wipe 1 rfl).bind fun _ _ _ h => ?_
  obtain ⟨rfl, rfl⟩ := h
  refine (ex_wipe 1 rfl).bind fun _ _ _ h => ?_
  obtain ⟨rfl, rfl⟩ := h
  exact .pure ⟨r, rfl, rfl, rfl⟩

theorem ex_keyNew {a b p q : Nat} {sk : SecretKey p q} (hk : (SecretKey.new p q : Out Unit _) = .ok sk) :
    Ex m₀ base (keyNew a b) [(a, p), (b, q)] g fun r l' g' =>
      ∃ k, r = .ok k ∧ k.p = a ∧ k.q = b ∧ l' = keyCells k sk ∧ g' = leftByNew p q (sk.invPModQ + sk.invPModQ - 1).val ++ g := by
  unfold SecretKey.new at hk
  by_cases h0 : p = 0 ∨ q = 0
  · rw [if_pos h0] at hk; cases hk
  rw [if_neg h0] at hk
  rw [not_or] at h0
  obtain ⟨hp, hq⟩ := h0
  unfold publicModulusNew at hk
  by_cases hodd : p * q % 2 = 1
  rotate_left
  · rw [if_neg hodd] at hk; cases hk
  rw [if_pos hodd] at hk
  dsimp only [Out.bind] at hk
  cases h1 : invMod? (((p - 1) * (q - 1) : Nat) : ZMod (p * q)) with
  | none => rw [h1] at hk; cases hk
  | some x1 =>
  cases h2 : invMod? ((p * q : Nat) : ZMod ((p - 1) * (q - 1))) with
  | none => rw [h1, h2] at hk; cases hk
  | some x2 =>
  cases h3 : invMod? ((p : Nat) : ZMod q) with
  | none => rw [h1, h2, h3] at hk; cases hk
  | some x3 =>
  rw [h1, h2, h3] at hk
  dsimp only [Out.bind, Out.ofOptionPanic] at hk
  rw [show decide (1 ≤ (x3 + x3 - 1).val * p + p) = true from decide_eq_true (by omega)] at hk
  cases hk
  dsimp only
  have : NeZero (p * q) := ⟨Nat.mul_ne_zero hp hq⟩
  refine (ex_primesNew 0 1 rfl rfl hp hq).bind fun _ _ _ h => ?_
  obtain ⟨t, rfl, rfl, rfl⟩ := h
  dsimp only
  refine (ex_expose 1 rfl).bind fun _ _ _ h => ?_
  obtain ⟨⟨rfl, rfl⟩, rfl⟩ := h
  refine (ex_expose 2 rfl).bind fun _ _ _ h => ?_
  obtain ⟨⟨rfl, rfl⟩, rfl⟩ := h
  rw [if_pos hodd]
  refine (ex_paramsOf 1 rfl).bind fun pp _ _ h => ?_
  obtain ⟨rfl, rfl⟩ := h
  refine (ex_paramsOf 3 rfl).bind fun pq _ _ h => ?_
  obtain ⟨rfl, rfl⟩ := h
  refine (ex_invTotientOf 2 rfl h1).bind fun _ _ _ h => ?_
  obtain ⟨it, rfl, rfl, rfl⟩ := h
  dsimp only
  refine (ex_invModulusOf 3 rfl h2).bind fun _ _ _ h => ?_
  obtain ⟨im, rfl, rfl, rfl⟩ := h
  dsimp only
  refine (ex_expose 2 rfl).bind fun _ _ _ h => ?_
  obtain ⟨⟨rfl, rfl⟩, rfl⟩ := h
  refine (ex_toMontgomery 5 rfl).bind fun pm _ _ h => ?_
  obtain ⟨rfl, rfl⟩ := h
  refine (ex_invPOf (x := x3) 0 rfl (by rw [ZMod.natCast_mod, h3])).bind fun _ _ _ h => ?_
  obtain ⟨ip, rfl, rfl, rfl⟩ := h
  dsimp only
  refine (ex_garner 0 hq rfl).bind fun tt _ _ h => ?_
  obtain ⟨rfl, rfl⟩ := h
  refine (ex_constantOf 8 0 rfl rfl hp).bind fun _ _ _ h => ?_
  obtain ⟨c, rfl, rfl, rfl⟩ := h
  dsimp only
  refine (ex_wipe 1 rfl).bind fun _ _ _ h => ?_
  obtain ⟨rfl, rfl⟩ := h
  refine (ex_wipe 2 rfl).bind fun _ _ _ h => ?_
  obtain ⟨rfl, rfl⟩ := h
  refine .pure ⟨_, rfl, rfl, rfl, ?_, rfl⟩
  simp only [keyCells, ZMod.val_natCast]
  rfl

theorem ex_keyDrop {p q : Nat} {k : Key} {sk : SecretKey p q} : Ex m₀ base (keyDrop k) (keyCells k sk) g fun _ l' g' => l' = [] ∧ g' = q :: p :: g := by
  refine (ex_wipe 7 rfl).bind fun _ _ _ h => ?_
  obtain ⟨rfl, rfl⟩ := h
  refine (ex_wipe 7 rfl).bind fun _ _ _ h => ?_
  obtain ⟨rfl, rfl⟩ := h
  refine (ex_wipe 6 rfl).bind fun _ _ _ h => ?_
  obtain ⟨rfl, rfl⟩ := h
  refine (ex_wipe 3 rfl).bind fun _ _ _ h => ?_
  obtain ⟨rfl, rfl⟩ := h
  refine (ex_wipe 2 rfl).bind fun _ _ _ h => ?_
  obtain ⟨rfl, rfl⟩ := h
  refine (ex_wipe 1 rfl).bind fun _ _ _ h => ?_
  obtain ⟨rfl, rfl⟩ := h
  refine (ex_wipe 0 rfl).bind fun _ _ _ h => ?_
  obtain ⟨rfl, rfl⟩ := h
  refine (ex_forget 1 rfl).bind fun _ _ _ h => ?_
  obtain ⟨rfl, rfl⟩ := h
  exact (ex_forget 0 rfl).mono fun _ _ _ h => h

/-! ### Encryption -/

/-- A function of a secret, in a new box -/
theorem ex_box₁ (i : Nat) {a x : Nat} {f : Nat → Nat} (hi : l[i]? = some (a, x)) : Ex m₀ base (initWith do return f (← expose a)) l g fun r l' g' => l' = (r, f x) :: l ∧ g' = g :=
  ex_initWith ((ex_expose i hi).bind fun _ _ _ h => .pure (by obtain ⟨⟨rfl, rfl⟩, rfl⟩ := h; exact ⟨⟨rfl, rfl⟩, rfl⟩))

/-- A function of a secret, written in its box -/
theorem ex_change (i : Nat) {a x : Nat} {f : Nat → Nat} (hi : l[i]? = some (a, x)) : Ex m₀ base (do assign a (f (← expose a))) l g fun _ l' g' => l' = (a, f x) :: l.eraseIdx i ∧ g' = g :=
  (ex_expose i hi).bind fun _ _ _ h => by
    obtain ⟨⟨rfl, rfl⟩, rfl⟩ := h
    exact ex_assign i hi

theorem ex_encrypt (i j : Nat) {N a rho x r : Nat} {neg : Bool} (hN : N ≠ 0) (hi : l[i]? = some (a, x)) (hj : l[j]? = some (rho, r)) :
    Ex m₀ base (encrypt N a rho neg) l g fun c l' g' => (c = encInner N x r neg ∧ l' = l) ∧ g' = r :: x :: g := by
  have : NeZero (N ^ 2) := ⟨pow_ne_zero 2 hN⟩
  refine (ex_toMontgomery i hi).bind fun f1 _ _ h => ?_
  obtain ⟨rfl, rfl⟩ := h
  refine (ex_expose 0 rfl).bind fun _ _ _ h => ?_
  obtain ⟨⟨rfl, rfl⟩, rfl⟩ := h
  refine (ex_assign 0 rfl).bind fun _ _ _ h => ?_
  obtain ⟨rfl, rfl⟩ := h
  refine (ex_expose 0 rfl).bind fun _ _ _ h => ?_
  obtain ⟨⟨rfl, rfl⟩, rfl⟩ := h
  refine (ex_assign 0 rfl).bind fun _ _ _ h => ?_
  obtain ⟨rfl, rfl⟩ := h
  refine (ex_expose 0 rfl).bind fun _ _ _ h => ?_
  obtain ⟨⟨rfl, rfl⟩, rfl⟩ := h
  refine (ex_assign 0 rfl).bind fun _ _ _ h => ?_
  obtain ⟨rfl, rfl⟩ := h
  refine (ex_copy (j + 1) hj).bind fun rr _ _ h => ?_
  obtain ⟨rfl, rfl⟩ := h
  refine (ex_toMontgomery 0 rfl).bind fun red _ _ h => ?_
  obtain ⟨rfl, rfl⟩ := h
  refine (ex_box₁ (f := fun v => (((v : Nat) : Ct N) ^ N).val) 0 rfl).bind fun f2 _ _ h => ?_
  obtain ⟨rfl, rfl⟩ := h
  refine (ex_wipe 1 rfl).bind fun _ _ _ h => ?_
  obtain ⟨rfl, rfl⟩ := h
  refine (ex_expose 0 rfl).bind fun _ _ _ h => ?_
  obtain ⟨⟨rfl, rfl⟩, rfl⟩ := h
  refine (ex_expose 2 rfl).bind fun _ _ _ h => ?_
  obtain ⟨⟨rfl, rfl⟩, rfl⟩ := h
  refine (ex_assign 2 rfl).bind fun _ _ _ h => ?_
  obtain ⟨rfl, rfl⟩ := h
  refine (ex_wipe 1 rfl).bind fun _ _ _ h => ?_
  obtain ⟨rfl, rfl⟩ := h
  refine (ex_expose 0 rfl).bind fun _ _ _ h => ?_
  obtain ⟨⟨rfl, rfl⟩, rfl⟩ := h
  refine (ex_wipe 0 rfl).bind fun _ _ _ h => ?_
  obtain ⟨rfl, rfl⟩ := h
  refine (ex_wipe 0 rfl).bind fun _ _ _ h => ?_
  obtain ⟨rfl, rfl⟩ := h
  refine .pure ⟨⟨?_, rfl⟩, rfl⟩
  simp only [encInner, ZMod.natCast_zmod_val, ZMod.natCast_mod]

theorem keeps_newModulo (n a : Nat) (modulus : BitVec n) (bits : Nat) : Keeps (newModulo n a modulus bits) := by
  refine (keeps_value _ _).bind fun v => ?_
  split_ifs
  · exact (keeps_wipe _).bind fun _ => .pure _
  · refine (keeps_boxed ((keeps_value _ _).bind fun _ => (keeps_alloc _).bind fun _ => (keeps_value _ _).bind fun _ => (keeps_forget _).bind fun _ => .pure _)).bind fun _ =>
      (keeps_conditionalSelect _ _ _).bind fun _ => (keeps_wipe _).bind fun _ => (keeps_wipe _).bind fun _ => (keeps_wipe _).bind fun _ => .pure _
  · refine (keeps_boxed ((keeps_value _ _).bind fun _ => (keeps_alloc _).bind fun _ => (keeps_value _ _).bind fun _ => (keeps_forget _).bind fun _ => .pure _)).bind fun _ =>
      (keeps_conditionalSelect _ _ _).bind fun _ => (keeps_newFromUnsigned _ _ _).bind fun _ => (keeps_wipe _).bind fun _ => (keeps_wipe _).bind fun _ => .pure _

theorem leaves_newModulo' {vals : Plain Nat} {n a bits : Nat} {v modulus : BitVec n} (ha : vals a = some v.toNat) (hle : v.toNat ≤ modulus.toNat) :
    Leaves (modulus - v).toNat (newModulo n a modulus bits) vals := by
  refine .bind_right (does_value ha) fun _ _ h => ?_
  obtain ⟨rfl, rfl⟩ := h
  dsimp only
  rw [if_neg (Nat.not_lt.2 hle)]
  refine .bind_left (.bind_left (.bind_left (.bind_right (does_value ha) fun _ _ h => ?_) fun _ => .pure _) fun _ => keeps_newBox _) fun _ => ?_
  · obtain ⟨rfl, rfl⟩ := h
    exact leaves_copy (fun _ => .pure _) ⟨_, rfl⟩
  · refine (keeps_conditionalSelect _ _ _).bind fun _ => ?_
    split_ifs
    · exact (keeps_wipe _).bind fun _ => (keeps_wipe _).bind fun _ => (keeps_wipe _).bind fun _ => .pure _
    · exact (keeps_newFromUnsigned _ _ _).bind fun _ => (keeps_wipe _).bind fun _ => (keeps_wipe _).bind fun _ => .pure _

theorem ex_newModulo (i : Nat) {n a bits : Nat} {v modulus : BitVec n} {s : SecretSigned n} (hi : l[i]? = some (a, v.toNat)) (hle : v.toNat ≤ modulus.toNat)
    (hs : (SecretSigned.newModulo v modulus bits : Out Unit _) = .ok (some s)) :
    Ex m₀ base (newModulo n a modulus bits) l g fun r l' g' => (∃ b, r = .ok ⟨s.bound, b⟩ ∧ l' = (b, s.value.toNat) :: l.eraseIdx i) ∧ g' = (modulus - v).toNat :: g := by
  refine .of (more := [(modulus - v).toNat]) (fun w vals hw h => (does_newModulo (fun _ => hw _ (by simp)) (h.get hi)).mono fun r vals' h' => ?_) (keeps_newModulo _ _ _ _)
    fun vals h u hu => by cases List.mem_singleton.1 hu; exact leaves_newModulo' (h.get hi) hle
  rw [hs] at h'
  obtain ⟨b, rfl, h1, rfl⟩ := h'
  refine ⟨_, (h.drop hi).new (a := b) (v := s.value.toNat) ⟨?_, ?_⟩, b, rfl, rfl⟩
  · by_cases hb : b = a
    · subst hb; simp
    · rw [update_of_ne hb]
      exact h1.resolve_right (by simpa using hb)
  · rw [dropAll_cons, dropAll_nil]
    rfl

theorem ex_decrypt (i j : Nat) {w bits N totient invTotient tv : Nat} {inv : ZMod N} {c : Ct N} {s : SecretSigned w} (hN : N ≠ 0) (hw : N < 2 ^ w) (hi : l[i]? = some (totient, tv))
    (hj : l[j]? = some (invTotient, inv.val)) (hs : (SecretSigned.newModulo (BitVec.ofNat w (residue bits tv inv c)) (BitVec.ofNat w N) bits : Out Unit _) = .ok (some s)) :
    Ex m₀ base (decrypt w bits N totient invTotient c) l g fun r l' g' =>
      ∃ b, r = .ok ⟨s.bound, b⟩ ∧ l' = (b, s.value.toNat) :: l ∧ g' = (N - residue bits tv inv c) :: (powUnsigned c tv bits - 1).val / N :: g := by
  have : NeZero N := ⟨hN⟩
  have : NeZero (N ^ 2) := ⟨pow_ne_zero 2 hN⟩
  refine (ex_copy i hi).bind fun uns _ _ h => ?_
  obtain ⟨rfl, rfl⟩ := h
  refine (ex_copy 0 rfl).bind fun wide _ _ h => ?_
  obtain ⟨rfl, rfl⟩ := h
  refine (ex_wipe 1 rfl).bind fun _ _ _ h => ?_
  obtain ⟨rfl, rfl⟩ := h
  refine (ex_box₁ (f := fun v => (powUnsigned c v bits).val) 0 rfl).bind fun t _ _ h => ?_
  obtain ⟨rfl, rfl⟩ := h
  refine (ex_expose 0 rfl).bind fun _ _ _ h => ?_
  obtain ⟨⟨rfl, rfl⟩, rfl⟩ := h
  refine (ex_assign 0 rfl).bind fun _ _ _ h => ?_
  obtain ⟨rfl, rfl⟩ := h
  refine (ex_copy 0 rfl).bind fun x _ _ h => ?_
  obtain ⟨rfl, rfl⟩ := h
  refine (ex_wipe 1 rfl).bind fun _ _ _ h => ?_
  obtain ⟨rfl, rfl⟩ := h
  refine (ex_expose 0 rfl).bind fun _ _ _ h => ?_
  obtain ⟨⟨rfl, rfl⟩, rfl⟩ := h
  refine (ex_assign 0 rfl).bind fun _ _ _ h => ?_
  obtain ⟨rfl, rfl⟩ := h
  refine (ex_copy 0 rfl).bind fun x' _ _ h => ?_
  obtain ⟨rfl, rfl⟩ := h
  refine (ex_toMontgomery 0 rfl).bind fun xm _ _ h => ?_
  obtain ⟨rfl, rfl⟩ := h
  refine (ex_expose (j + 4) hj).bind fun _ _ _ h => ?_
  obtain ⟨⟨rfl, rfl⟩, rfl⟩ := h
  refine (ex_expose 0 rfl).bind fun _ _ _ h => ?_
  obtain ⟨⟨rfl, rfl⟩, rfl⟩ := h
  refine (ex_assign 0 rfl).bind fun _ _ _ h => ?_
  obtain ⟨rfl, rfl⟩ := h
  refine (ex_copy 0 rfl).bind fun pos _ _ h => ?_
  obtain ⟨rfl, rfl⟩ := h
  refine (ex_wipe 1 rfl).bind fun _ _ _ h => ?_
  obtain ⟨rfl, rfl⟩ := h
  simp only [ZMod.natCast_zmod_val, ZMod.natCast_mod]
  have hlt : residue bits tv inv c < N := ZMod.val_lt _
  have hr : (BitVec.ofNat w (residue bits tv inv c)).toNat = residue bits tv inv c := by rw [BitVec.toNat_ofNat, Nat.mod_eq_of_lt (by omega)]
  have hNw : (BitVec.ofNat w N).toNat = N := by rw [BitVec.toNat_ofNat, Nat.mod_eq_of_lt hw]
  refine (ex_newModulo 0 (v := BitVec.ofNat w (residue bits tv inv c)) (by rw [hr]; rfl) (by omega) hs).bind fun _ _ _ h => ?_
  obtain ⟨⟨b, rfl, rfl⟩, rfl⟩ := h
  rw [BitVec.toNat_sub_of_le (by rw [BitVec.le_def]; omega), hr, hNw]
  refine (ex_wipe 1 rfl).bind fun _ _ _ h => ?_
  obtain ⟨rfl, rfl⟩ := h
  refine (ex_wipe 1 rfl).bind fun _ _ _ h => ?_
  obtain ⟨rfl, rfl⟩ := h
  refine (ex_wipe 1 rfl).bind fun _ _ _ h => ?_
  obtain ⟨rfl, rfl⟩ := h
  exact .pure ⟨b, rfl, rfl, rfl⟩

theorem ex_deriveRandomizer (i : Nat) {bits N a v : Nat} {c : Ct N} (hi : l[i]? = some (a, v)) :
    Ex m₀ base (deriveRandomizer bits N a c) l g fun r l' g' =>
      l' = (r.1, (powUnsigned ((c.val % N : Nat) : ZMod N) v bits).val) :: (r.2, (powUnsigned ((c.val % N : Nat) : ZMod N) v bits).val) :: l ∧ g' = g := by
  refine (ex_box₁ (f := fun v => (powUnsigned ((c.val % N : Nat) : ZMod N) v bits).val) i hi).bind fun red _ _ h => ?_
  obtain ⟨rfl, rfl⟩ := h
  refine (ex_copy 0 rfl).bind fun rr _ _ h => ?_
  obtain ⟨rfl, rfl⟩ := h
  exact .pure ⟨rfl, rfl⟩

/-! ### From the logic to memory -/

theorem st_start (m : Mem Nat) {base : Plain Nat} {l : List (Nat × Nat)} (hl : (l.map Prod.fst).Nodup) (hm : ∀ x ∈ l, m[x.1]? = some ⟨x.2, false⟩)
    (hb : ∀ b v, base b = some v ↔ m[b]? = some ⟨v, false⟩ ∧ b ∉ l.map Prod.fst) : St m base l [] m := by
  refine ⟨fun b => (l.find? fun x => x.1 == b).elim (base b) fun x => some x.2, fun b v => ?_, ⟨hl, fun x hx => ?_, fun _ => rfl⟩, by simp⟩
  · dsimp only
    cases hf : l.find? fun x => x.1 == b with
    | none =>
      rw [Option.elim_none, hb b v, and_iff_left]
      intro hmem
      obtain ⟨x, hx, e⟩ := List.mem_map.1 hmem
      exact List.find?_eq_none.1 hf x hx (by simpa using e)
    | some y =>
      have h1 : y.1 = b := by simpa using List.find?_some hf
      have h2 := hm y (List.mem_of_find?_eq_some hf)
      rw [h1] at h2
      rw [Option.elim_some, h2]
      simp
  · cases he : base x.1 with
    | none => rfl
    | some v => exact absurd (List.mem_map.2 ⟨x, hx, rfl⟩) ((hb _ _).1 he).2

/-- The rest of the memory in use -/
def rest (m : Mem Nat) (l : List Nat) : Plain Nat := fun b =>
  if b ∈ l then none
  else match m[b]? with
    | some ⟨v, false⟩ => some v
    | _ => none

theorem rest_iff {m : Mem Nat} {l : List Nat} {b v : Nat} : rest m l b = some v ↔ m[b]? = some ⟨v, false⟩ ∧ b ∉ l := by
  unfold rest
  by_cases hb : b ∈ l
  · simp [hb]
  · rw [if_neg hb]
    cases h : m[b]? with
    | none => simp
    | some c => obtain ⟨u, f⟩ := c; cases f <;> simp [hb]

/-- What is in use -/
theorem St.live {m : Mem Nat} {g : List Nat} (h : St m₀ base l g m) (b v : Nat) : m[b]? = some ⟨v, false⟩ ↔ (b, v) ∈ l ∨ base b = some v := by
  obtain ⟨vals, h1, h2, -⟩ := h
  rw [← h1 b v, h2.2.2 b]
  cases hf : l.find? fun x => x.1 == b with
  | none =>
    rw [Option.elim_none, or_iff_right]
    intro hm
    have := List.find?_eq_none.1 hf _ hm
    simp at this
  | some y =>
    have h3 : y.1 = b := by simpa using List.find?_some hf
    have h4 := List.mem_of_find?_eq_some hf
    rw [Option.elim_some]
    constructor
    · intro e
      left
      rw [← h3, ← Option.some.inj e]
      exact h4
    · rintro (hm | hm)
      · rw [List.inj_on_of_nodup_map h2.1 h4 hm h3]
      · have := h2.2.1 y h4
        rw [h3, hm] at this
        cases this

theorem St.left {m : Mem Nat} {g : List Nat} (h : St m₀ base l g m) (u : Nat) (hu : u ≠ 0) : (∃ c ∈ m, c.freed = true ∧ c.value = u) ↔ (∃ c ∈ m₀, c.freed = true ∧ c.value = u) ∨ u ∈ g := by
  obtain ⟨vals, -, -, h3⟩ := h
  exact h3 u hu

theorem St.nodup {m : Mem Nat} {g : List Nat} (h : St m₀ base l g m) : (l.map Prod.fst).Nodup := by
  obtain ⟨vals, -, h2, -⟩ := h
  exact h2.1

theorem St.fresh {m : Mem Nat} {g : List Nat} (h : St m₀ base l g m) {x : Nat × Nat} (hx : x ∈ l) : base x.1 = none := by
  obtain ⟨vals, -, h2, -⟩ := h
  exact h2.2.1 x hx

end Synedrion.SecretKeys
