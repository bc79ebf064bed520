import Verif.Model.Session
import Mathlib.Data.Set.Defs
import Mathlib.Logic.Relation

/-!
# Executions of a protocol over an asynchronous network

A protocol is given by what one party does (`Machine`); any number of parties run it at the same time. Each of them receives the messages of its current
round one by one and goes on to the next round when it has one from everybody it expects one from. Which party does the next step, and in
which order and after how much time messages arrive, is arbitrary (`Step`); messages of a later round wait. A party may stop at any time. Parties that are not honest may send
anything at any time, different things to different receivers, and may know everything that was sent before; they cannot send in the name of an honest party.
This is what the session layer (`manul`, outside the repository) provides.
-/

namespace Synedrion.Spec

/-- What one party does. `S` are the states at the beginning of a round, `M` the messages of all rounds. -/
structure Machine (I M S E R : Type) where
  /-- the number of the round -/
  round : S → Nat
  /-- the parties from which messages are expected -/
  expected : S → Finset I
  /-- the messages sent at the beginning of the round, with their receivers -/
  send : S → List (I × M)
  /-- `receive_message` -/
  recv : S → I → M → Out (Abort I E) Unit
  /-- `finalize`: the next round or the result -/
  next : S → List (I × M) → Out (Abort I E) (S ⊕ R)

variable {I M S E R : Type} [DecidableEq I]

/-- Where a party is. `got` are the messages of the current round received so far, in this order. -/
inductive Status (I M S E R : Type) where
  | running (s : S) (got : List (I × M))
  | finished (r : R)
  | stopped (a : Abort I E)
  | panicked
  | crashed

/-- The state of an execution: where the parties are, the rounds each of them has begun, and those it has completed with the messages it received in them. -/
structure Net (I M S E R : Type) where
  status : I → Status I M S E R
  begun : I → List S
  past : I → List (S × List (I × M))

namespace Machine

/-- Everybody has begun the first round. -/
def start (_ : Machine I M S E R) (init : I → S) : Net I M S E R := ⟨fun i => .running (init i) [], fun i => [init i], fun _ => []⟩

/-- Party `j`, if it is honest, has sent the message `m` of a round to `i`. -/
def Sent (P : Machine I M S E R) (n : Net I M S E R) (j i : I) (round : Nat) (m : M) : Prop :=
  ∃ s ∈ n.begun j, P.round s = round ∧ (i, m) ∈ P.send s

/-- The outcome of receiving a message. -/
def received (P : Machine I M S E R) (s : S) (got : List (I × M)) (j : I) (m : M) : Status I M S E R :=
  match P.recv s j m with
  | .ok () => .running s (got ++ [(j, m)])
  | .err a => .stopped a
  | .panic => .panicked

/-- The outcome of finishing a round. -/
def advanced (P : Machine I M S E R) (s : S) (got : List (I × M)) : Status I M S E R :=
  match P.next s got with
  | .ok (.inl s') => .running s' []
  | .ok (.inr r) => .finished r
  | .err a => .stopped a
  | .panic => .panicked

/-- The round begun by a party that has just arrived at a status. -/
def fresh : Status I M S E R → List S
  | .running s _ => [s]
  | _ => []

/-- One step of an execution. -/
inductive Step (P : Machine I M S E R) (honest : Set I) : Net I M S E R → Net I M S E R → Prop where
  /-- An honest party receives a message of its current round from somebody it has not heard of in this round. If the sender is honest, it has sent it. -/
  | receive (n : Net I M S E R) (i : I) (s : S) (got : List (I × M)) (j : I) (m : M) : i ∈ honest → n.status i = .running s got → j ∈ P.expected s →
      j ∉ got.map Prod.fst → (j ∈ honest → P.Sent n j i (P.round s) m) →
      Step P honest n { n with status := Function.update n.status i (P.received s got j m) }
  /-- An honest party that has heard of everybody finishes the round. -/
  | advance (n : Net I M S E R) (i : I) (s : S) (got : List (I × M)) : i ∈ honest → n.status i = .running s got →
      (got.map Prod.fst).toFinset = P.expected s →
      Step P honest n ⟨Function.update n.status i (P.advanced s got), Function.update n.begun i (n.begun i ++ fresh (P.advanced s got)),
        Function.update n.past i (n.past i ++ [(s, got)])⟩
  /-- An honest party stops for reasons of its own. -/
  | crash (n : Net I M S E R) (i : I) (s : S) (got : List (I × M)) : i ∈ honest → n.status i = .running s got →
      Step P honest n { n with status := Function.update n.status i .crashed }

/-- The states an execution can get to. -/
def Reachable (P : Machine I M S E R) (honest : Set I) (init : I → S) (n : Net I M S E R) : Prop :=
  Relation.ReflTransGen (P.Step honest) (P.start init) n

/-- An execution of a given number of steps. -/
inductive Execution (P : Machine I M S E R) (honest : Set I) : Nat → Net I M S E R → Net I M S E R → Prop where
  | refl (n : Net I M S E R) : Execution P honest 0 n n
  | step {k : Nat} {n n' n'' : Net I M S E R} : Execution P honest k n n' → P.Step honest n' n'' → Execution P honest (k + 1) n n''

/-- What a party does on its own when given the messages of each round, in order. -/
def replay (P : Machine I M S E R) : S → List (List (I × M)) → Out (Abort I E) (S ⊕ R)
  | s, [] => .ok (.inl s)
  | s, got :: rest => (P.next s got).bind fun
    | .inl s' => replay P s' rest
    | .inr r => match rest with
      | [] => .ok (.inr r)
      | _ :: _ => .err .incomplete

/-- The messages of a round are complete: one of everybody expected, each accepted. -/
def Complete (P : Machine I M S E R) (s : S) (got : List (I × M)) : Prop :=
  (got.map Prod.fst).Nodup ∧ (got.map Prod.fst).toFinset = P.expected s ∧ ∀ a ∈ got, P.recv s a.1 a.2 = .ok ()

/-- The protocol works as intended if all of `parties` follow it: in round `k` of `K` party `i` is in the state `ideal k i`; whatever order the messages
for it arrive in, it accepts them and goes on to the intended next state, and in the end it has the result `res i`. -/
structure Ideal (P : Machine I M S E R) (parties : Finset I) (init : I → S) (K : Nat) (ideal : Nat → I → S) (res : I → R) : Prop where
  rounds : 1 ≤ K
  first : ∀ i ∈ parties, ideal 1 i = init i
  round : ∀ k i, 1 ≤ k → k ≤ K → i ∈ parties → P.round (ideal k i) = k
  expected : ∀ k i, 1 ≤ k → k ≤ K → i ∈ parties → P.expected (ideal k i) ⊆ parties
  sends : ∀ k i, 1 ≤ k → k ≤ K → i ∈ parties → ∀ j ∈ P.expected (ideal k i), ∃ m, (i, m) ∈ P.send (ideal k j)
  accepts : ∀ k i, 1 ≤ k → k ≤ K → i ∈ parties → ∀ j ∈ P.expected (ideal k i), ∀ m, (i, m) ∈ P.send (ideal k j) → P.recv (ideal k i) j m = .ok ()
  advances : ∀ k i, 1 ≤ k → k < K → i ∈ parties → ∀ got, P.Complete (ideal k i) got → (∀ a ∈ got, (i, a.2) ∈ P.send (ideal k a.1)) →
    P.next (ideal k i) got = .ok (.inl (ideal (k + 1) i))
  finishes : ∀ i ∈ parties, ∀ got, P.Complete (ideal K i) got → (∀ a ∈ got, (i, a.2) ∈ P.send (ideal K a.1)) →
    P.next (ideal K i) got = .ok (.inr (res i))

/-- However the network behaves, the parties all finish with the results `res` if they follow the protocol. -/
structure AlwaysFinishes (P : Machine I M S E R) (parties : Finset I) (init : I → S) (bound : Nat) (res : I → R) : Prop where
  /-- At any time a party is on its way, has its result, or has stopped for reasons of its own. No message of another party stops it. -/
  safe : ∀ n, P.Reachable (parties : Set I) init n → ∀ i ∈ parties,
    (∃ s got, n.status i = .running s got) ∨ n.status i = .finished (res i) ∨ n.status i = .crashed
  /-- As long as nobody has stopped, and not all have finished, some party can do a step. -/
  live : ∀ n, P.Reachable (parties : Set I) init n → (∀ i ∈ parties, n.status i ≠ .crashed) →
    (∀ i ∈ parties, n.status i = .finished (res i)) ∨ ∃ n', P.Step (parties : Set I) n n' ∧ ∀ i, n'.status i = .crashed → n.status i = .crashed
  /-- There are no endless executions. -/
  bounded : ∀ k n, P.Execution (parties : Set I) k (P.start init) n → k ≤ bound

/-- What the echo round of the session layer makes sure of for round `k`: honest parties that have completed the round have received the same broadcast
from any party they both have heard of in it. `echo` is the part of a message that is broadcast with an echo. -/
def EchoAgree {T : Type} (P : Machine I M S E R) (honest : Set I) (k : Nat) (echo : M → T) (n : Net I M S E R) : Prop :=
  ∀ i ∈ honest, ∀ i' ∈ honest, ∀ x ∈ n.past i, ∀ x' ∈ n.past i', P.round x.1 = k → P.round x'.1 = k →
    ∀ j m m', (j, m) ∈ x.2 → (j, m') ∈ x'.2 → echo m = echo m'

end Machine

end Synedrion.Spec
