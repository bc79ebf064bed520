/-!
# Outcome of a Rust function: a value, a returned error, or a panic

`Result::Err e` is `err e`; a failed `expect`/`unwrap`/`assert!`, an out-of-range index or an
arithmetic underflow is `panic`.  A function that cannot return an error but can panic is polymorphic in `ε`.
-/

namespace Synedrion

inductive Out (ε : Type) (α : Type) where
  | ok (a : α)
  | err (e : ε)
  | panic
  deriving DecidableEq, Repr

namespace Out

variable {ε α β γ : Type}

/-- Sequencing: the Rust `?` operator (errors and panics propagate). -/
def bind (x : Out ε α) (f : α → Out ε β) : Out ε β :=
  match x with
  | ok a => f a
  | err e => err e
  | panic => panic

instance : Monad (Out ε) where
  pure := ok
  bind := bind

/-- `Option::expect`: panic on `None`. -/
def ofOptionPanic (o : Option α) : Out ε α :=
  match o with
  | some a => ok a
  | none => panic

/-- `Option::ok_or`: return an error on `None`. -/
def ofOption (e : ε) (o : Option α) : Out ε α :=
  match o with
  | some a => ok a
  | none => err e

/-- `assert!(b)`. -/
def assert (b : Bool) : Out ε Unit := if b then ok () else panic

/-- `if !b { return Err(e) }`. -/
def ensure (b : Bool) (e : ε) : Out ε Unit := if b then ok () else err e

def isOk : Out ε α → Bool
  | ok _ => true
  | _ => false

/-- Collects a list of outcomes, stopping at the first failure. -/
def mapM' (f : α → Out ε β) : List α → Out ε (List β)
  | [] => ok []
  | a :: as => bind (f a) fun b => bind (mapM' f as) fun bs => ok (b :: bs)

/-- `if !b { return false }` in a verification function. -/
def check (b : Bool) (rest : Out ε Bool) : Out ε Bool := if b then rest else ok false

/-- A loop over a list that returns `false` at the first element failing the check. -/
def allM (f : α → Out ε Bool) : List α → Out ε Bool
  | [] => ok true
  | a :: as => bind (f a) fun b => check b (allM f as)

@[simp] theorem bind_ok (a : α) (f : α → Out ε β) : (ok a : Out ε α).bind f = f a := rfl
@[simp] theorem bind_err (e : ε) (f : α → Out ε β) : (err e : Out ε α).bind f = err e := rfl
@[simp] theorem bind_panic (f : α → Out ε β) : (panic : Out ε α).bind f = panic := rfl
@[simp] theorem monad_bind (x : Out ε α) (f : α → Out ε β) : (x >>= f) = x.bind f := rfl
@[simp] theorem monad_pure (a : α) : (pure a : Out ε α) = ok a := rfl
@[simp] theorem ofOptionPanic_some (a : α) : (ofOptionPanic (some a) : Out ε α) = ok a := rfl
@[simp] theorem ofOptionPanic_none : (ofOptionPanic (none : Option α) : Out ε α) = panic := rfl
@[simp] theorem ofOption_some (e : ε) (a : α) : ofOption e (some a) = ok a := rfl
@[simp] theorem ofOption_none (e : ε) : ofOption e (none : Option α) = err e := rfl
@[simp] theorem assert_true : (assert true : Out ε Unit) = ok () := rfl
@[simp] theorem assert_false : (assert false : Out ε Unit) = panic := rfl
@[simp] theorem ensure_true (e : ε) : ensure true e = ok () := rfl
@[simp] theorem ensure_false (e : ε) : ensure false e = err e := rfl
@[simp] theorem map_eq (f : α → β) (x : Out ε α) : f <$> x = x.bind (fun a => ok (f a)) := by
  cases x <;> rfl

theorem bind_assoc (x : Out ε α) (f : α → Out ε β) (h : β → Out ε γ) :
    (x.bind f).bind h = x.bind fun a => (f a).bind h := by cases x <;> rfl

theorem bind_eq_ok {x : Out ε α} {f : α → Out ε β} {b : β} :
    x.bind f = ok b ↔ ∃ a, x = ok a ∧ f a = ok b := by
  cases x <;> simp

theorem assert_eq_ok {b : Bool} {u : Unit} : (assert b : Out ε Unit) = ok u ↔ b = true := by
  cases b <;> simp

theorem ensure_eq_ok {b : Bool} {e : ε} {u : Unit} : ensure b e = ok u ↔ b = true := by
  cases b <;> simp

theorem ofOptionPanic_eq_ok {o : Option α} {a : α} :
    (ofOptionPanic o : Out ε α) = ok a ↔ o = some a := by
  cases o <;> simp

theorem ofOption_eq_ok {e : ε} {o : Option α} {a : α} : ofOption e o = ok a ↔ o = some a := by
  cases o <;> simp

@[simp] theorem mapM'_nil (f : α → Out ε β) : mapM' f [] = ok [] := rfl

theorem mapM'_eq_ok_length {f : α → Out ε β} {l : List α} {r : List β} (h : mapM' f l = ok r) :
    r.length = l.length := by
  induction l generalizing r with
  | nil => simp [mapM'] at h; simp [← h]
  | cons a l ih =>
    simp only [mapM', bind_eq_ok] at h
    obtain ⟨b, _, bs, h2, h3⟩ := h
    cases h3
    simp [ih h2]

theorem mapM'_ok_of_forall {f : α → Out ε β} {g : α → β} {l : List α}
    (h : ∀ a ∈ l, f a = ok (g a)) : mapM' f l = ok (l.map g) := by
  induction l with
  | nil => rfl
  | cons a l ih =>
    rw [mapM', h a (by simp), ih (fun x hx => h x (by simp [hx]))]
    rfl

@[simp] theorem check_true (rest : Out ε Bool) : check true rest = rest := rfl
@[simp] theorem check_false (rest : Out ε Bool) : check false rest = ok false := rfl

theorem check_eq_true {b : Bool} {rest : Out ε Bool} : check b rest = ok true ↔ b = true ∧ rest = ok true := by
  cases b <;> simp

theorem allM_eq_true {f : α → Out ε Bool} {l : List α} : allM f l = ok true ↔ ∀ a ∈ l, f a = ok true := by
  induction l with
  | nil => simp [allM]
  | cons a l ih =>
    rw [allM, bind_eq_ok]
    constructor
    · rintro ⟨b, hb, hc⟩
      obtain ⟨rfl, h2⟩ := check_eq_true.1 hc
      intro x hx
      rcases List.mem_cons.1 hx with rfl | hx
      · exact hb
      · exact ih.1 h2 x hx
    · intro h
      exact ⟨true, h a (by simp), check_eq_true.2 ⟨rfl, ih.2 fun x hx => h x (by simp [hx])⟩⟩

theorem allM_map {γ : Type} (f : α → Out ε Bool) (h : γ → α) (l : List γ) : allM f (l.map h) = allM (fun x => f (h x)) l := by
  induction l with
  | nil => rfl
  | cons a l ih => simp only [List.map_cons, allM, ih]

theorem allM_ok_of_forall {f : α → Out ε Bool} {g : α → Bool} {l : List α} (h : ∀ a ∈ l, f a = ok (g a)) :
    allM f l = ok (l.all g) := by
  induction l with
  | nil => rfl
  | cons a l ih =>
    rw [allM, h a (by simp), bind_ok, ih (fun x hx => h x (by simp [hx])), List.all_cons]
    cases g a <;> rfl

theorem allM_ok_decide {p : α → Prop} [DecidablePred p] {f : α → Out ε Bool} {l : List α} (h : ∀ a ∈ l, f a = ok (decide (p a))) :
    allM f l = ok (decide (∀ a ∈ l, p a)) := by
  rw [allM_ok_of_forall (g := fun a => decide (p a)) h]
  refine congrArg ok ?_
  rw [Bool.eq_iff_iff]; simp

theorem mapM'_eq_ok_get {f : α → Out ε β} {l : List α} {r : List β} (h : mapM' f l = ok r) (i : Nat) (hi : i < l.length)
    (hi' : i < r.length) : f l[i] = ok r[i] := by
  induction l generalizing r i with
  | nil => simp at hi
  | cons a l ih =>
    simp only [mapM', bind_eq_ok] at h
    obtain ⟨b, h1, bs, h2, h3⟩ := h
    cases h3
    cases i with
    | zero => simpa using h1
    | succ i => simpa using ih h2 i (by simpa using hi) (by simpa using hi')

end Out
end Synedrion
