import Verif.Spec.Signing
import Verif.Props.ZkDec

/-!
# What is needed of the error rounds of signing
-/

namespace Synedrion.Spec

variable {q : Nat} [Fact q.Prime] {I Ep G : Type} [LinearOrder I] [AddCommGroup G] [Module (ZMod q) G] [DecidableEq G]

/-- The ciphertext with the given wire form encrypts, modulo `N`, a value in the interval that a (sound) aff-g proof allows for the product with an honest `k`:
`x k - beta` with `x` in `±2^(L+ε)` and `beta` in `±2^(L'+ε)`, with a bit of slack for the extraction. -/
def InMtaRange (P : Params) (N : Nat) (wire : Nat) : Prop :=
  ∃ (v : Int) (rho : Nat), Nat.Coprime rho N ∧ Encrypts N v rho (ctOfWire N wire) ∧ |v| ≤ 2 ^ (P.LP + P.EPS) + 2 ^ (2 * P.L + P.EPS - 1)

/-- The number of parties has a logarithm `c` that is small against the parameters, see `C51_bounds`. -/
structure FewParties (P : Params) (n c : Nat) : Prop where
  parties : 2 ≤ n
  log : Props.IsCeilLog2 n c
  noWrap : c + 3 ≤ P.L
  slack : c ≤ P.EPS
  wide : P.LP + P.EPS + 1 + c + P.EPS + 1 < P.wide

/-- Draws for the dec proof of an error round that keep away from the ends of their intervals -/
structure DecDrawsValid (P : Params) (N c : Nat) (l : List DecEphemeral) : Prop where
  masks : ∀ eph ∈ l, Props.DecEphemeralValid P N c eph
  innerAlpha : ∀ eph ∈ l, eph.alpha.val.natAbs + 2 ^ (P.L - 1) < 2 ^ (P.L + P.EPS - 1)
  innerBeta : ∀ eph ∈ l, eph.beta.val.natAbs + 2 ^ (P.LP + P.EPS + c) < 2 ^ (P.LP + P.EPS + c + P.EPS)

/-- Draws for an aff-g* proof of an error round that keep away from the ends of their intervals -/
structure StarDrawsValid (P : Params) (N0 N1 : Nat) (l : List AffGStarEphemeral) : Prop where
  masks : ∀ eph ∈ l, Props.AffGStarEphemeralValid P N0 N1 eph
  innerAlpha : ∀ eph ∈ l, eph.alpha.val.natAbs + 2 ^ (P.L - 1) < 2 ^ (P.L + P.EPS - 1)
  innerBeta : ∀ eph ∈ l, eph.beta.val.natAbs + 2 ^ (P.LP - 1) < 2 ^ (P.LP + P.EPS - 1)

/-- The draws of one party that matter in the error rounds: `N` is its Paillier modulus, `pk j` those of the `others`, `c` the logarithm of the number of
parties. -/
structure ErrorDrawsValid (E : Signing.Env q I Ep G) (others : Finset I) (N : Nat) (pk : I → Nat) (c : Nat) (d : Signing.Draws q I) : Prop where
  rho : Nat.Coprime d.rho N
  beta : ∀ j ∈ others, (d.mta.beta j).IsDraw E.P.LP ∧ (d.hatMta.beta j).IsDraw E.P.LP
  r : ∀ j ∈ others, Nat.Coprime (d.mta.r j) N ∧ Nat.Coprime (d.hatMta.r j) N
  s : ∀ j ∈ others, Nat.Coprime (d.mta.s j) (pk j) ∧ Nat.Coprime (d.hatMta.s j) (pk j)
  dec : DecDrawsValid E.P N c d.dec ∧ DecDrawsValid E.P N c d.hatDec
  star : ∀ j ∈ others, StarDrawsValid E.P (pk j) N (d.star j) ∧ StarDrawsValid E.P (pk j) N (d.hatStar j)
  decCount : ∀ t, (E.decH t).length = d.dec.length ∧ (E.decH t).length = d.hatDec.length
  starCount : ∀ t, ∀ j ∈ others, (E.starH t).length = (d.star j).length ∧ (E.starH t).length = (d.hatStar j).length

/-- Another party's state in the error round has the same public data. -/
structure SameView (r r' : Signing.ErrRound q I Ep G) : Prop where
  hat : r'.hat = r.hat
  epid : r'.ctx.epid = r.ctx.epid
  allIds : r'.ctx.allIds = r.ctx.allIds
  pubAux : r'.ctx.pubAux = r.ctx.pubAux
  capKs : r'.capKs = r.capKs
  capDs : r'.capDs = r.capDs
  capFs : r'.capFs = r.capFs
  capXs : r'.capXs = r.capXs
  capSs : r'.capSs = r.capSs
  capG : r'.capG = r.capG

/-- Every party could truthfully prove what it has to prove in rounds 1, 2 and the error round `r`: `N` are the Paillier moduli, `c` is the logarithm of the number
of parties and `k` are the values encrypted in round 1.
* Its ciphertext `K` of round 1 encrypts `k j`, which is in the range of enc-elg proofs.
* The ciphertexts that `i` made for `j` are the result of the multiplication, with the value in the point `X` of `i`.
* The point `S` of `j` belongs to the value that its aggregated ciphertext decrypts to. -/
structure AllTruthful (E : Signing.Env q I Ep G) (r : Signing.ErrRound q I Ep G) (N : I → Nat) (c : Nat) (k : I → Int) : Prop where
  nonce : ∀ j ∈ r.ctx.allIds, ∃ capK rho, r.capKs.get? j = some ⟨N j, capK⟩ ∧ Nat.Coprime rho (N j) ∧ Encrypts (N j) (k j) rho capK
  nonceRange : ∀ j ∈ r.ctx.allIds, |k j| ≤ 2 ^ (E.P.L + E.P.EPS)
  multiply : ∀ i ∈ r.ctx.allIds, ∀ j ∈ r.ctx.allIds, i ≠ j → ∃ capK capD capF capX x y rho rhoY, r.capKs.get? j = some ⟨N j, capK⟩ ∧
    (Signing.matrixGet () r.capDs j i = .ok ⟨N j, capD⟩) ∧ (Signing.matrixGet () r.capFs j i = .ok ⟨N i, capF⟩) ∧ r.capXs.get? i = some capX ∧
    Props.AffGRelation E.P (N j) (N i) E.C.g q ⟨capK, capD, capF, capX⟩ x y rho rhoY
  decrypt : ∀ j ∈ r.ctx.allIds, ∃ capK capX capD capS x y rho, r.capKs.get? j = some ⟨N j, capK⟩ ∧ r.capXs.get? j = some capX ∧ r.capSs.get? j = some capS ∧
    (Signing.aggregate () () r.capDs r.capFs j (r.ctx.allIds.erase j) = .ok ⟨N j, capD⟩) ∧
    Props.DecRelation E.P (N j) E.C.g q ⟨capK, capX, capD, capS, r.capG, r.ctx.allIds.card⟩ c x y rho

end Synedrion.Spec
