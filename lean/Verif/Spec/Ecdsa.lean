import Verif.Model.Ecdsa

/-!
# Specification: ECDSA
-/

namespace Synedrion.Spec

/-- What is assumed of the curve: a point other than the identity is determined by its x coordinate and the parity of its y coordinate, and is found from
them; opposite points have the same x coordinate; coordinates fit into the integer type; the field is smaller than twice the order (Hasse's bound). -/
structure CurveLaws {G : Type} [AddCommGroup G] (C : Curve G) (q : Nat) : Prop where
  x_zero : C.x 0 = 0
  x_neg : ∀ p, C.x (-p) = C.x p
  decompress_iff : ∀ a b p, C.decompress a b = some p ↔ p ≠ 0 ∧ C.x p = a ∧ C.yOdd p = b
  x_lt : ∀ p, C.x p < 2 * q
  x_fits : ∀ p, C.x p < 2 ^ C.uintBits

/-- `(r, s)` is a valid ECDSA signature of a message with hash `m` under the key `X`: both are non-zero, and the x coordinate of `(m / s) g + (r / s) X`, which
is not the identity, is `r` modulo the order. -/
structure EcdsaValid {G : Type} [AddCommGroup G] (C : Curve G) {q : Nat} [Module (ZMod q) G] (capX : G) (m r s : ZMod q) : Prop where
  r_ne : r ≠ 0
  s_ne : s ≠ 0
  nonce_ne : (m * s⁻¹) • C.g + (r * s⁻¹) • capX ≠ 0
  nonce : (C.x ((m * s⁻¹) • C.g + (r * s⁻¹) • capX) : ZMod q) = r

/-- `s` is in the lower half. -/
def LowS {q : Nat} (s : ZMod q) : Prop := 2 * s.val ≤ q

end Synedrion.Spec
