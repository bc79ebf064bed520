import Verif.Model.CurveBytes

/-!
# What the `sec1` encoding of points provides

The single byte zero is the point at infinity; every other point has a compressed encoding of the fixed size and an uncompressed one. Decoding accepts all three.
-/

namespace Synedrion.Spec

/-- The laws of SEC 1, sections 2.3.3 and 2.3.4, as implemented by the `sec1` crate -/
structure Sec1Laws {G : Type} [Zero G] (S : Sec1 G) : Prop where
  size : 1 < S.size
  identity : S.encode 0 = [0#8]
  compressed : ∀ p, p ≠ 0 → (S.encode p).length = S.size
  decode : ∀ p, S.decode (S.encode p) = some p
  uncompressed : ∀ p, p ≠ 0 → ∃ b, b.length = 2 * S.size - 1 ∧ S.decode b = some p

end Synedrion.Spec
