import Verif.Lemmas.SecretSharing
import Verif.Lemmas.Shamir
import Verif.Lemmas.Toy
import Mathlib.Algebra.Field.ZMod

/-!
# C107: splitting and joining secrets leaves nothing in memory
-/

namespace Synedrion.Props

open Spec.KeyMemory SecretBox SecretKeys SecretSharing

section

variable {m : Mem Nat} {q : Nat}

/-- **C107 (additive splitting).** Whatever else is in memory, a secret is split into what was drawn and what is missing, each in a piece of memory of its own. The secret itself is not in use any more unless as one of the
parts, nothing else in use changes, and nothing at all is left in memory that is not in use any more. -/
theorem C107_secret_split (hq : q ≠ 0) {a : Nat} {s : ZMod q} (ha : Holds m a s.val) (draws : List (ZMod q)) :
    ∃ parts m', secretSplit a draws m = some (parts, m') ∧ parts.length = draws.length + 1 ∧ parts.Nodup ∧ (∀ i ∈ parts, ∀ v, Holds m i v → i = a) ∧
      (∀ i v, Holds m' i v ↔ (i, v) ∈ parts.zip ((partsOf s draws).map ZMod.val) ∨ Holds m i v ∧ i ≠ a) ∧ ∀ u, u ≠ 0 → (Trace m' u ↔ Trace m u) := by
  have : NeZero q := ⟨hq⟩
  have hst : St m (rest m [a]) [(a, s.val)] [] m := st_start m (by simp) (by intro y hy; cases List.mem_singleton.1 hy; exact ha) fun _ _ => rest_iff
  obtain ⟨r, m', l', g', h1, h2, ⟨h3, h4⟩, rfl⟩ := clean_secretSplit (l := []) draws m _ [] m hst
  have h5 := SecretSharing.St.perm h2 h4
  beta_reduce at h5
  rw [List.append_nil] at h5
  refine ⟨r, m', h1, h3, ?_, fun i hi v hv => ?_, fun i v => (h5.live i v).trans (or_congr_right (rest_iff.trans (by simp [Holds]))), fun u hu => (h5.left u hu).trans (by simp [Trace])⟩
  · have := h5.nodup
    rwa [List.map_fst_zip (by simp [partsOf, h3])] at this
  · by_contra hr
    have hi' : i ∈ (r.zip ((partsOf s draws).map ZMod.val)).map Prod.fst := by
      rw [List.map_fst_zip (by simp [partsOf, h3])]
      exact hi
    obtain ⟨x, hx, rfl⟩ := List.mem_map.1 hi'
    have := h5.fresh hx
    rw [rest_iff.2 ⟨hv, by simpa using hr⟩] at this
    cases this

/-- **C107 (Shamir splitting).** The shares are the values of the polynomial with the secret and what was drawn as its coefficients, each in a piece of memory of its own. The secret and the coefficients are not in use any
more, nothing else in use changes, and nothing at all is left. -/
theorem C107_shamir_split (hq : q ≠ 0) {a : Nat} {s : ZMod q} (ha : Holds m a s.val) (draws ids : List (ZMod q)) :
    ∃ shares m', shamirSplit a draws ids m = some (some shares, m') ∧ shares.length = ids.length ∧ shares.Nodup ∧ (∀ i ∈ shares, ∀ v, Holds m i v → i = a) ∧
      (∀ i v, Holds m' i v ↔ (i, v) ∈ shares.zip (ids.map fun x => (polyValue (s :: draws) x).val) ∨ Holds m i v ∧ i ≠ a) ∧ ∀ u, u ≠ 0 → (Trace m' u ↔ Trace m u) := by
  have : NeZero q := ⟨hq⟩
  have hst : St m (rest m [a]) [(a, s.val)] [] m := st_start m (by simp) (by intro y hy; cases List.mem_singleton.1 hy; exact ha) fun _ _ => rest_iff
  obtain ⟨r, m', l', g', h1, h2, ⟨⟨c, rfl, h3⟩, h4⟩, rfl⟩ := clean_shamirSplit (l := []) draws ids m _ [] m hst
  have h5 := SecretSharing.St.perm h2 h4
  beta_reduce at h5
  rw [List.append_nil, Option.getD_some] at h5
  refine ⟨c, m', h1, h3, ?_, fun i hi v hv => ?_, fun i v => (h5.live i v).trans (or_congr_right (rest_iff.trans (by simp [Holds]))), fun u hu => (h5.left u hu).trans (by simp [Trace])⟩
  · have := h5.nodup
    rwa [List.map_fst_zip (by simp [h3])] at this
  · by_contra hr
    have hi' : i ∈ (c.zip (ids.map fun x => (polyValue (s :: draws) x).val)).map Prod.fst := by
      rw [List.map_fst_zip (by simp [h3])]
      exact hi
    obtain ⟨x, hx, rfl⟩ := List.mem_map.1 hi'
    have := h5.fresh hx
    rw [rest_iff.2 ⟨hv, by simpa using hr⟩] at this
    cases this

/-- **C107 (joining).** Joining shares, each in a piece of memory of its own, gives a new secret, their sum with the coefficients. The shares are not in use any more, nothing else in use changes, and nothing at all is left.
`shares` says where a share is, its value, and its coefficient. -/
theorem C107_shamir_join (hq : q ≠ 0) (shares : List (Nat × ZMod q × ZMod q)) (hn : (shares.map Prod.fst).Nodup) (hs : ∀ c ∈ shares, Holds m c.1 c.2.1.val) :
    ∃ r m', shamirJoin (shares.map fun c => (c.1, c.2.2)) m = some (r, m') ∧ (∀ v, Holds m r v → r ∈ shares.map Prod.fst) ∧
      (∀ i v, Holds m' i v ↔ i = r ∧ v = (weightedSum (shares.map Prod.snd)).val ∨ Holds m i v ∧ i ∉ shares.map Prod.fst) ∧ ∀ u, u ≠ 0 → (Trace m' u ↔ Trace m u) := by
  have : NeZero q := ⟨hq⟩
  have e : (shares.map fun c => (c.1, c.2.1.val)).map Prod.fst = shares.map Prod.fst := by rw [List.map_map]; rfl
  have hst : St m (rest m (shares.map Prod.fst)) (shares.map fun c => (c.1, c.2.1.val)) [] m := st_start m (e ▸ hn) (by
    intro x hx
    obtain ⟨c, hc, rfl⟩ := List.mem_map.1 hx
    exact hs c hc) fun _ _ => by rw [e]; exact rest_iff
  have hj := clean_shamirJoin (l := []) shares
  rw [List.append_nil] at hj
  obtain ⟨r, m', l', g', h1, h2, ⟨-, h4⟩, rfl⟩ := hj m _ [] m hst
  have h5 := SecretSharing.St.perm h2 h4
  refine ⟨r, m', h1, fun v hv => ?_, fun i v => (h5.live i v).trans ?_, fun u hu => (h5.left u hu).trans (by simp [Trace])⟩
  · by_contra hr
    have := h5.fresh (x := (r, _)) (List.mem_cons_self ..)
    rw [rest_iff.2 ⟨hv, hr⟩] at this
    cases this
  · rw [List.mem_singleton, Prod.mk.injEq]
    exact or_congr_right rest_iff

/-- The step of `C107_split_and_join` that does not depend on what the coefficients are -/
private theorem split_join (hq : q ≠ 0) {a : Nat} {s : ZMod q} (ha : Holds m a s.val) (draws ids coeffs : List (ZMod q)) (hl : coeffs.length = ids.length)
    (hc : weightedSum ((ids.map (polyValue (s :: draws))).zip coeffs) = s) :
    ∃ shares m' r m'', shamirSplit a draws ids m = some (some shares, m') ∧ shamirJoin (shares.zip coeffs) m' = some (r, m'') ∧
      (∀ i v, Holds m'' i v ↔ i = r ∧ v = s.val ∨ Holds m i v ∧ i ≠ a) ∧ ∀ u, u ≠ 0 → (Trace m'' u ↔ Trace m u) := by
  obtain ⟨shares, m', h1, h2, h3, h6, h4, h5⟩ := C107_shamir_split hq ha draws ids
  let vs := ids.map (polyValue (s :: draws))
  have hv : (ids.map fun x => (polyValue (s :: draws) x).val) = vs.map ZMod.val := by rw [List.map_map]; rfl
  have hvl : vs.length = ids.length := List.length_map ..
  have hzl : (vs.zip coeffs).length = ids.length := by rw [List.length_zip, hvl, hl, min_self]
  have hf : (shares.zip (vs.zip coeffs)).map Prod.fst = shares := List.map_fst_zip (by omega)
  have hsn : (shares.zip (vs.zip coeffs)).map Prod.snd = vs.zip coeffs := List.map_snd_zip (by omega)
  have hin (c : Nat × ZMod q × ZMod q) (hc : c ∈ shares.zip (vs.zip coeffs)) : (c.1, c.2.1.val) ∈ shares.zip (vs.map ZMod.val) := by
    obtain ⟨i, hi, rfl⟩ := List.mem_iff_getElem.1 hc
    rw [List.length_zip] at hi
    refine List.mem_iff_getElem.2 ⟨i, by rw [List.length_zip, List.length_map]; omega, ?_⟩
    simp
  obtain ⟨r, m'', k1, k2, k3, k4⟩ := C107_shamir_join (m := m') hq (shares.zip (vs.zip coeffs)) (by rw [hf]; exact h3) fun c hc => (h4 _ _).2 (.inl (hv ▸ hin c hc))
  have he : (shares.zip (vs.zip coeffs)).map (fun c => (c.1, c.2.2)) = shares.zip coeffs := by
    refine List.ext_getElem (by simp [hl, hvl, h2]) fun i _ _ => ?_
    simp
  rw [he] at k1
  rw [hf, hsn, hc] at k3
  refine ⟨shares, m', r, m'', h1, k1, fun i v => (k3 i v).trans (or_congr_right ?_), fun u hu => (k4 u hu).trans (h5 u hu)⟩
  rw [h4 i v]
  constructor
  · rintro ⟨h | h, hi⟩
    · exact absurd (List.of_mem_zip h).1 hi
    · exact h
  · intro h
    exact ⟨.inr h, fun hi => h.2 (h6 i hi v h.1)⟩

/-- The two specifications of the value of a polynomial agree. -/
private theorem polyValue_same [Fact q.Prime] [LinearOrder (ZMod q)] (cs : List (ZMod q)) (x : ZMod q) : polyValue cs x = Spec.polyValue cs x := by
  induction cs with
  | nil => simp [polyValue, Spec.polyValue]
  | cons c cs ih => rw [Shamir.polyValue_cons, ← ih]; rfl

/-- Joining the values of a polynomial with the coefficients the code computes gives its constant coefficient. -/
private theorem joined {F : Type} [Field F] [LinearOrder F] (s : F) (draws ids coeffs : List F) (hn : ids.Nodup) (hd : draws.length < ids.length)
    (hc : ids.map (fun x => (Shamir.interpolationCoeff ids x : Out Unit F)) = coeffs.map .ok) :
    coeffs.length = ids.length ∧ (((ids.map (Spec.polyValue (s :: draws))).zip coeffs).map fun c => c.1 * c.2).sum = s := by
  have hc' : coeffs = ids.map (Shamir.lagrange0 ids.toFinset) := by
    have hinj : Function.Injective (Out.ok : F → Out Unit F) := fun _ _ h => by injection h
    refine (List.map_injective_iff.2 hinj) ?_
    rw [← hc, List.map_map]
    exact List.map_congr_left fun x _ => Shamir.interpolationCoeff_eq hn x
  refine ⟨by rw [hc', List.length_map], ?_⟩
  have hw := Shamir.lagrange0_interpolates ids.toFinset s draws (by rwa [List.toFinset_card_of_nodup hn])
  rw [List.sum_toFinset _ hn] at hw
  rw [hc', List.zip_map', List.map_map]
  refine Eq.trans ?_ hw
  refine congrArg List.sum (List.map_congr_left fun x _ => ?_)
  simp [mul_comm]

/-- **C107 (all together).** A secret that is split among parties and joined again from the shares, with the coefficients the code computes from the share IDs (`Shamir.interpolationCoeff`), is in use again in the end. Besides
it, exactly what was in use before is in use, and nothing is left. The IDs are distinct, and there are at least as many as the threshold. -/
theorem C107_split_and_join [Fact q.Prime] [LinearOrder (ZMod q)] {a : Nat} {s : ZMod q} (ha : Holds m a s.val) (draws ids coeffs : List (ZMod q)) (hn : ids.Nodup) (hd : draws.length < ids.length)
    (hc : ids.map (fun x => (Shamir.interpolationCoeff ids x : Out Unit (ZMod q))) = coeffs.map .ok) :
    ∃ shares m' r m'', shamirSplit a draws ids m = some (some shares, m') ∧ shamirJoin (shares.zip coeffs) m' = some (r, m'') ∧
      (∀ i v, Holds m'' i v ↔ i = r ∧ v = s.val ∨ Holds m i v ∧ i ≠ a) ∧ ∀ u, u ≠ 0 → (Trace m'' u ↔ Trace m u) := by
  obtain ⟨h1, h2⟩ := joined s draws ids coeffs hn hd hc
  refine split_join (Fact.out : q.Prime).ne_zero ha draws ids coeffs h1 ?_
  rw [List.map_congr_left fun x _ => polyValue_same (s :: draws) x]
  exact h2

/-- **C107 (the same values).** What the memory-free model of the same functions, about which C01 and the others speak, computes are the values above. -/
theorem C107_same_values [Fact q.Prime] [LinearOrder (ZMod q)] (s : ZMod q) (draws : List (ZMod q)) (x : ZMod q) :
    (Shamir.secretSplit s (draws.length + 1) (fun i => draws.getD i 0) : Out Unit (List (ZMod q))) = .ok (partsOf s draws) ∧
    (Shamir.evaluate (Shamir.randomPolynomial s (draws.length + 1) fun i => draws.getD i 0) x : Out Unit (ZMod q)) = .ok (polyValue (s :: draws) x) := by
  have hd : ((List.range draws.length).map fun i => draws.getD i 0) = draws := by
    refine List.ext_getElem (by simp) fun i h1 h2 => ?_
    simp [h2]
  constructor
  · unfold Shamir.secretSplit partsOf
    cases draws with
    | nil => simp
    | cons d l =>
      rw [if_neg (by simp), if_neg (by simp), Nat.add_sub_cancel, hd]
  · unfold Shamir.evaluate Shamir.randomPolynomial
    rw [Nat.add_sub_cancel, hd, Shamir.horner_eq (by simp), polyValue_same]

private theorem start_empty (m : Mem Nat) : St m (rest m []) [] [] m := st_start m (by simp) (by simp) fun _ _ => rest_iff

/-- **C107 (dealing shares).** When a key is dealt to parties, the shares are in use in the end, each in a new piece of memory of its own, and nothing else is besides what was in use before. Nothing is left, not even the key. -/
theorem C107_dealt_shares (m : Mem Nat) (hq : q ≠ 0) (s : ZMod q) (draws : List (ZMod q)) :
    ∃ parts m', dealShares s draws m = some (parts, m') ∧ parts.length = draws.length + 1 ∧ parts.Nodup ∧
      (∀ i v, Holds m' i v ↔ (i, v) ∈ parts.zip ((partsOf s draws).map ZMod.val) ∨ Holds m i v) ∧ ∀ u, u ≠ 0 → (Trace m' u ↔ Trace m u) := by
  have : NeZero q := ⟨hq⟩
  obtain ⟨r, m', l', g', h1, h2, ⟨h3, h4⟩, rfl⟩ := clean_dealShares (l := []) s draws m _ [] m (start_empty m)
  have h5 := SecretSharing.St.perm h2 h4
  beta_reduce at h5
  rw [List.append_nil] at h5
  refine ⟨r, m', h1, h3, ?_, fun i v => (h5.live i v).trans (or_congr_right (rest_iff.trans (by simp [Holds]))), fun u hu => (h5.left u hu).trans (by simp [Trace])⟩
  have := h5.nodup
  rwa [List.map_fst_zip (by simp [partsOf, h3])] at this

/-- **C107 (dealing threshold shares).** The same for threshold shares, which are the values of the polynomial at the share IDs. -/
theorem C107_dealt_threshold_shares (m : Mem Nat) (hq : q ≠ 0) (s : ZMod q) (draws ids : List (ZMod q)) :
    ∃ shares m', dealThreshold s draws ids m = some (some shares, m') ∧ shares.length = ids.length ∧ shares.Nodup ∧
      (∀ i v, Holds m' i v ↔ (i, v) ∈ shares.zip (ids.map fun x => (polyValue (s :: draws) x).val) ∨ Holds m i v) ∧ ∀ u, u ≠ 0 → (Trace m' u ↔ Trace m u) := by
  have : NeZero q := ⟨hq⟩
  obtain ⟨r, m', l', g', h1, h2, ⟨⟨c, rfl, h3⟩, h4⟩, rfl⟩ := clean_dealThreshold (l := []) s draws ids m _ [] m (start_empty m)
  have h5 := SecretSharing.St.perm h2 h4
  beta_reduce at h5
  rw [List.append_nil, Option.getD_some] at h5
  refine ⟨c, m', h1, h3, ?_, fun i v => (h5.live i v).trans (or_congr_right (rest_iff.trans (by simp [Holds]))), fun u hu => (h5.left u hu).trans (by simp [Trace])⟩
  have := h5.nodup
  rwa [List.map_fst_zip (by simp [h3])] at this

/-- **C107 (updating a share).** After an update the new share is where the old one was. Neither the old share nor the change is in use any more, nothing else in use changes, and nothing is left. -/
theorem C107_updated_share (hq : q ≠ 0) {a b : Nat} {s t : ZMod q} (hab : a ≠ b) (ha : Holds m a s.val) (hb : Holds m b t.val) :
    ∃ m', updateShare q a b m = some (a, m') ∧ (∀ i v, Holds m' i v ↔ i = a ∧ v = (s + t).val ∨ Holds m i v ∧ i ≠ a ∧ i ≠ b) ∧ ∀ u, u ≠ 0 → (Trace m' u ↔ Trace m u) := by
  have : NeZero q := ⟨hq⟩
  have hst : St m (rest m [a, b]) [(a, s.val), (b, t.val)] [] m := st_start m (by simpa using hab) (by
    intro y hy
    rcases List.mem_cons.1 hy with rfl | hy
    · exact ha
    · cases List.mem_singleton.1 hy; exact hb) fun _ _ => rest_iff
  obtain ⟨r, m', l', g', h1, h2, ⟨rfl, h4⟩, rfl⟩ := clean_updateShare (l := []) m _ [] m hst
  have h5 := SecretSharing.St.perm h2 h4
  refine ⟨m', h1, fun i v => (h5.live i v).trans ?_, fun u hu => (h5.left u hu).trans (by simp [Trace])⟩
  rw [List.mem_singleton, Prod.mk.injEq]
  exact or_congr_right (rest_iff.trans (by simp [Holds]))

private theorem live_cons {l : List (Nat × Nat)} {base : Spec.Plain Nat} {m' : Mem Nat} {r u i v : Nat} {g : List Nat} (h : St m base l g m) (h' : St m base ((r, u) :: l) g m') :
    Holds m' i v ↔ i = r ∧ v = u ∨ Holds m i v := by
  refine (h'.live i v).trans ?_
  rw [List.mem_cons, Prod.mk.injEq, or_assoc]
  exact or_congr_right (h.live i v).symm

private theorem new_cell {l : List (Nat × Nat)} {base : Spec.Plain Nat} {m' : Mem Nat} {r u : Nat} {g : List Nat} (h : St m base l g m) (h' : St m base ((r, u) :: l) g m') (v : Nat) : ¬ Holds m r v := by
  intro hv
  rcases (h.live r v).1 hv with hl | hb
  · have := h'.nodup
    rw [List.map_cons, List.nodup_cons] at this
    exact this.1 (List.mem_map.2 ⟨_, hl, rfl⟩)
  · have := h'.fresh (x := (r, u)) (List.mem_cons_self ..)
    rw [hb] at this
    cases this

/-- **C107 (converting a share).** Converting a share between the two kinds makes a new share in new memory. Everything in use stays so, and nothing is left. -/
theorem C107_converted_share (hq : q ≠ 0) {a : Nat} {s : ZMod q} (ha : Holds m a s.val) (k : ZMod q) :
    ∃ r m', convertShare a k m = some (r, m') ∧ (∀ v, ¬ Holds m r v) ∧ (∀ i v, Holds m' i v ↔ i = r ∧ v = (s * k).val ∨ Holds m i v) ∧ ∀ u, u ≠ 0 → (Trace m' u ↔ Trace m u) := by
  have : NeZero q := ⟨hq⟩
  have hst : St m (rest m [a]) [(a, s.val)] [] m := st_start m (by simp) (by intro y hy; cases List.mem_singleton.1 hy; exact ha) fun _ _ => rest_iff
  obtain ⟨r, m', l', g', h1, h2, ⟨-, h4⟩, rfl⟩ := clean_convertShare k (List.mem_singleton.2 rfl) m _ [] m hst
  have h5 := SecretSharing.St.perm h2 h4
  exact ⟨r, m', h1, new_cell hst h5, fun i v => (live_cons hst h5).trans Iff.rfl, fun u hu => (h5.left u hu).trans (by simp [Trace])⟩

/-- **C107 (resharing).** The new share is joined from copies of the subshares, which stay in use; nothing is left of the copies. `subshares` says where a subshare is, its value, and its coefficient. -/
theorem C107_reshared_share (hq : q ≠ 0) (subshares : List (Nat × ZMod q × ZMod q)) (hn : (subshares.map Prod.fst).Nodup) (hs : ∀ c ∈ subshares, Holds m c.1 c.2.1.val) :
    ∃ r m', reshareJoin (subshares.map Prod.fst) (subshares.map fun c => c.2.2) m = some (r, m') ∧ (∀ v, ¬ Holds m r v) ∧
      (∀ i v, Holds m' i v ↔ i = r ∧ v = (weightedSum (subshares.map Prod.snd)).val ∨ Holds m i v) ∧ ∀ u, u ≠ 0 → (Trace m' u ↔ Trace m u) := by
  have : NeZero q := ⟨hq⟩
  have e : (subshares.map fun c => (c.1, c.2.1.val)).map Prod.fst = subshares.map Prod.fst := by rw [List.map_map]; rfl
  have hst : St m (rest m (subshares.map Prod.fst)) (subshares.map fun c => (c.1, c.2.1.val)) [] m := st_start m (e ▸ hn) (by
    intro x hx
    obtain ⟨c, hc, rfl⟩ := List.mem_map.1 hx
    exact hs c hc) fun _ _ => by rw [e]; exact rest_iff
  obtain ⟨r, m', l', g', h1, h2, ⟨-, h4⟩, rfl⟩ := clean_reshareJoin subshares (fun c hc => List.mem_map.2 ⟨c, hc, rfl⟩) m _ [] m hst
  have h5 := SecretSharing.St.perm h2 h4
  exact ⟨r, m', h1, new_cell hst h5, fun i v => (live_cons hst h5).trans Iff.rfl, fun u hu => (h5.left u hu).trans (by simp [Trace])⟩

/-- **C107 (refreshing).** The changes a party received are summed up with its own, which stays in use. The received ones are not in use any more, unless as the place of the sum, nothing else in use changes, and nothing is left. -/
theorem C107_refreshed_share (hq : q ≠ 0) (xs : List (Nat × ZMod q)) {a : Nat} {s : ZMod q} (hn : (a :: xs.map Prod.fst).Nodup) (hs : ∀ x ∈ xs, Holds m x.1 x.2.val) (ha : Holds m a s.val) :
    ∃ r m', refreshSum q (xs.map Prod.fst) a m = some (r, m') ∧ (∀ v, Holds m r v → r ∈ xs.map Prod.fst) ∧
      (∀ i v, Holds m' i v ↔ i = r ∧ v = ((xs.map Prod.snd).sum + s).val ∨ Holds m i v ∧ i ∉ xs.map Prod.fst) ∧ ∀ u, u ≠ 0 → (Trace m' u ↔ Trace m u) := by
  have : NeZero q := ⟨hq⟩
  have e : (xs.map fun x => (x.1, x.2.val)).map Prod.fst = xs.map Prod.fst := by rw [List.map_map]; rfl
  have e' : (xs.map (fun x => (x.1, x.2.val)) ++ [(a, s.val)]).map Prod.fst = xs.map Prod.fst ++ [a] := by rw [List.map_append, e]; rfl
  have hst : St m (rest m (xs.map Prod.fst ++ [a])) (xs.map (fun x => (x.1, x.2.val)) ++ [(a, s.val)]) [] m := st_start m
    (by rw [e']; exact (List.perm_append_singleton a _).nodup_iff.2 hn) (by
      intro y hy
      rcases List.mem_append.1 hy with hy | hy
      · obtain ⟨c, hc, rfl⟩ := List.mem_map.1 hy
        exact hs c hc
      · cases List.mem_singleton.1 hy; exact ha) fun _ _ => by rw [e']; exact rest_iff
  obtain ⟨r, m', l', g', h1, h2, ⟨-, h4⟩, rfl⟩ := clean_refreshSum xs (List.mem_singleton.2 rfl) m _ [] m hst
  have h5 := SecretSharing.St.perm h2 h4
  have hra : r ≠ a := by
    have := h5.nodup
    simp at this
    exact this
  have hax : a ∉ xs.map Prod.fst := (List.nodup_cons.1 hn).1
  refine ⟨r, m', h1, fun v hv => ?_, fun i v => (h5.live i v).trans ?_, fun u hu => (h5.left u hu).trans (by simp [Trace])⟩
  · by_contra hr
    have := h5.fresh (x := (r, _)) (List.mem_cons_self ..)
    rw [rest_iff.2 ⟨hv, by simp only [List.mem_append, List.mem_singleton]; exact fun h => h.elim hr hra⟩] at this
    cases this
  · rw [List.mem_cons, List.mem_singleton, Prod.mk.injEq, Prod.mk.injEq, rest_iff]
    simp only [List.mem_append, List.mem_singleton, not_or]
    constructor
    · rintro ((h | ⟨rfl, rfl⟩) | ⟨h, h', -⟩)
      · exact .inl h
      · exact .inr ⟨ha, hax⟩
      · exact .inr ⟨h, h'⟩
    · rintro (h | ⟨h, h'⟩)
      · exact .inl (.inl h)
      · by_cases hi : i = a
        · subst hi
          have : v = s.val := by
            have := (show m[i]? = some ⟨v, false⟩ from h).symm.trans (show m[i]? = some ⟨s.val, false⟩ from ha)
            simpa using this
          exact .inl (.inr ⟨rfl, this⟩)
        · exact .inr ⟨h, h', hi⟩

end

/-- Non-vacuity and a comparison with the model without memory: splitting 9 modulo 13, additively with draws 4 and 7 and by the polynomial 9 + 4 x at 1, 2, 3; joining the first two shares with the coefficients 2 and -1. -/
example : ((SecretSharing.secretSplit (q := 13) 0 [4, 7] [⟨9, false⟩]).map fun x => (x.1, ((x.2.filter (! ·.freed)).map Cell.value), ((x.2.filter (·.freed)).map Cell.value).filter (· ≠ 0))) = some ([2, 4, 0], [11, 4, 7], []) ∧
    ((SecretSharing.shamirSplit (q := 13) 0 [4] [1, 2, 3] [⟨9, false⟩]).map fun x => (x.1, ((x.2.filter (! ·.freed)).map Cell.value), ((x.2.filter (·.freed)).map Cell.value).filter (· ≠ 0))) = some (some [4, 6, 8], [0, 4, 8], []) ∧
    ((SecretSharing.shamirJoin (q := 13) [(0, 2), (1, -1)] [⟨0, false⟩, ⟨4, false⟩]).map fun x => (x.1, ((x.2.filter (! ·.freed)).map Cell.value), ((x.2.filter (·.freed)).map Cell.value).filter (· ≠ 0))) = some (3, [9], []) ∧
    weightedSum (([1, 2].map (polyValue (9 :: [4]))).zip [2, (-1 : ZMod 13)]) = 9 := by
  decide +kernel

/-- Non-vacuity of `C107_split_and_join`: modulo 11, the code's coefficients for the IDs 1 and 2 are 2 and -1. -/
example : letI := Toy.order11
    letI := Toy.fact11
    [1, 2].map (fun x => (Shamir.interpolationCoeff [1, 2] x : Out Unit (ZMod 11))) = [2, -1].map .ok ∧ ([1, 2] : List (ZMod 11)).Nodup ∧ Holds [⟨9, false⟩] 0 (9 : ZMod 11).val := by
  letI := Toy.order11
  letI := Toy.fact11
  have ok (x y : ZMod 11) (h : (match (Shamir.interpolationCoeff [1, 2] x : Out Unit (ZMod 11)) with | .ok v => decide (v = y) | _ => false) = true) : (Shamir.interpolationCoeff [1, 2] x : Out Unit (ZMod 11)) = .ok y := by
    split at h
    · next v e => rw [e, of_decide_eq_true h]
    · cases h
  refine ⟨?_, by decide, rfl⟩
  simp only [List.map_cons, List.map_nil]
  rw [ok 1 2 (by decide +kernel), ok 2 (-1) (by decide +kernel)]

/-- Dealing 9 modulo 13 among three parties, with threshold 2; and updating the share 9 by 7 -/
example : ((SecretSharing.dealThreshold (q := 13) 9 [4] [1, 2, 3] []).map fun x => (((x.2.filter (! ·.freed)).map Cell.value), ((x.2.filter (·.freed)).map Cell.value).filter (· ≠ 0))) = some ([0, 4, 8], []) ∧
    ((SecretSharing.dealShares (q := 13) 9 [4, 7] []).map fun x => (((x.2.filter (! ·.freed)).map Cell.value), ((x.2.filter (·.freed)).map Cell.value).filter (· ≠ 0))) = some ([11, 4, 7], []) ∧
    ((SecretSharing.updateShare 13 0 1 [⟨9, false⟩, ⟨7, false⟩]).map fun x => (x.1, ((x.2.filter (! ·.freed)).map Cell.value), ((x.2.filter (·.freed)).map Cell.value).filter (· ≠ 0))) = some (0, [3], []) := by
  decide +kernel

/-- Converting the share 9 modulo 13 by the coefficient 2, joining the subshares 9 and 7 with the coefficients 2 and -1, and summing up the changes 9 and 7 with the own change 5 -/
example : ((SecretSharing.convertShare (q := 13) 0 2 [⟨9, false⟩]).map fun x => (((x.2.filter (! ·.freed)).map Cell.value), ((x.2.filter (·.freed)).map Cell.value).filter (· ≠ 0))) = some ([9, 5], []) ∧
    ((SecretSharing.reshareJoin (q := 13) [0, 1] [2, -1] [⟨9, false⟩, ⟨7, false⟩]).map fun x => (((x.2.filter (! ·.freed)).map Cell.value), ((x.2.filter (·.freed)).map Cell.value).filter (· ≠ 0))) = some ([9, 7, 11], []) ∧
    ((SecretSharing.refreshSum 13 [0, 1] 2 [⟨9, false⟩, ⟨7, false⟩, ⟨5, false⟩]).map fun x => (x.1, ((x.2.filter (! ·.freed)).map Cell.value), ((x.2.filter (·.freed)).map Cell.value).filter (· ≠ 0))) = some (0, [8, 5], []) := by
  decide +kernel

end Synedrion.Props
