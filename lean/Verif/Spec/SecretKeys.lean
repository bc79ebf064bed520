import Verif.Model.SecretKeys

/-!
# What Paillier keys, encryption and decryption do with memory
-/

namespace Synedrion.Spec.KeyMemory

open SecretBox SecretKeys

/-- This piece of memory is in use, and has this value. -/
def Holds (m : Mem Nat) (a v : Nat) : Prop := m[a]? = some ⟨v, false⟩

/-- The value can be found in memory that is not in use any more. -/
def Trace (m : Mem Nat) (u : Nat) : Prop := ∃ c ∈ m, c.freed = true ∧ c.value = u

/-- Where the parts of a key are, with the values they should have -/
def keyCells {p q : Nat} (k : Key) (sk : SecretKey p q) : List (Nat × Nat) :=
  [(k.nonsquareConstant, sk.nonsquareConstant.val), (k.invPModQ, sk.invPModQ.val), (k.invModulus, sk.invModulus), (k.invTotient, sk.invTotient.val), (k.paramsQ, q), (k.paramsP, p), (k.totient, sk.totient),
    (k.p, p), (k.q, q)]

/-- What making a key leaves in memory, where $t = 2 p^{-1} - 1 \mod q$ -/
def leftByNew (p q t : Nat) : List Nat := [t * p + p - 1, p, (p - 1) * (q - 1) % (p * q), (p - 1) * (q - 1), p - 1, q - 1]

/-- The plaintext modulo `N`, as it is decrypted -/
def residue {N : Nat} (bits totient : Nat) (invTotient : ZMod N) (c : Ct N) : Nat := ((((powUnsigned c totient bits - 1).val / N : Nat) : ZMod N) * invTotient).val

end Synedrion.Spec.KeyMemory
