import Verif.Model.ZkCurve
import Verif.Model.ZkPaillier
import Verif.Model.ZkModulus
import Mathlib.Data.Rat.Defs
import Mathlib.Algebra.Order.Ring.Abs
import Mathlib.Algebra.Order.Ring.Rat
import Mathlib.Data.Int.Interval
import Mathlib.Data.ZMod.Basic
import Mathlib.Data.Finset.Prod
import Mathlib.Data.Fintype.Pi

/-!
# Specification: proofs that reveal nothing

A proof reveals nothing beyond its statement if what the prover sends is distributed almost as the output of a simulator, a program that knows the statement and
the challenge, but not the secret. The simulators below choose the responses first and solve the verification equations for the commitments.
-/

namespace Synedrion.Spec

/-! ### Distributions -/

/-- The probability of the event `ev` for the value `f a`, with `a` uniform in `S`. -/
def prob {A T : Type} (S : Finset A) (f : A → T) (ev : T → Prop) [DecidablePred ev] : ℚ := ((S.filter fun a => ev (f a)).card : ℚ) / S.card

/-- The statistical distance is at most `δ`: no event distinguishes `f a` (`a` uniform in `S`) from `f' b` (`b` uniform in `S'`) better than by `δ`. -/
def StatClose {A B T : Type} (δ : ℚ) (S : Finset A) (f : A → T) (S' : Finset B) (f' : B → T) : Prop :=
  ∀ (ev : T → Prop) [DecidablePred ev], |prob S f ev - prob S' f' ev| ≤ δ

/-- The interval `±2^exp` as a set. -/
def pm (exp : Nat) : Finset Int := Finset.Icc (-(2 : Int) ^ (exp - 1) + 1) (2 ^ (exp - 1))

/-- The interval `±scale·2^exp` as a set. -/
def pmScaled (exp scale : Nat) : Finset Int := Finset.Icc (-((scale : Int) * 2 ^ (exp - 1)) + 1) ((scale : Int) * 2 ^ (exp - 1))

/-- The invertible residues modulo `N`. -/
def residues (N : Nat) : Finset Nat := (Finset.range N).filter fun r => Nat.Coprime r N

/-- `k` independent choices from `S`. -/
def repeated {A : Type} (k : Nat) (S : Finset A) : Finset (Fin k → A) := Fintype.piFinset fun _ => S

/-- Integer powers modulo `n`. -/
def zpowMod {n : Nat} (a : ZMod n) (k : Int) : ZMod n := if 0 ≤ k then a ^ k.natAbs else a⁻¹ ^ k.natAbs

/-- The Paillier ciphertext of `m` with the randomizer `rho`. -/
def encryption (N : Nat) (m : Int) (rho : Nat) : ZMod (N ^ 2) := (1 + (m : ZMod (N ^ 2)) * (N : ZMod (N ^ 2))) * (rho : ZMod (N ^ 2)) ^ N

/-- The ring-Pedersen commitment to `m` with the randomizer `rho`. -/
def commitment {Nh : Nat} (setup : RPParams Nh) (m rho : Int) : ZMod Nh := zpowMod setup.s m * zpowMod setup.t rho

/-! ### Simulators -/

section
variable {F G : Type} [Field F] [AddCommGroup G] [Module F G]

/-- sch: the commitment and the proof, from the challenge `e` and a response `z`. -/
def schSim (g capX : G) (e z : F) : G × SchProof F := (z • g - e • capX, ⟨e, z⟩)

/-- elog -/
def elogSim (g : G) (pub : ElogPublic G) (e : F) (c : F × F) : ElogProof F G :=
  ⟨e, c.1 • g - e • pub.capL, c.2 • g + c.1 • pub.capX - e • pub.capM, c.2 • pub.h - e • pub.capY, c.1, c.2⟩
end

section
variable {q : Nat} {G : Type} [AddCommGroup G] [Module (ZMod q) G]

/-- The choices of the enc-elg prover, and of its simulator: the interval of `alpha` (`z1`), of `mu`, of `gamma` (`z3`), the residues for `r` (`z2`) and
the scalars for `beta` (`w`). -/
def encElgChoices (P : Params) (q N0 Nh : Nat) [NeZero q] : Finset (Int × Int × Int × Nat × ZMod q) :=
  pm (P.L + P.EPS) ×ˢ pmScaled P.L Nh ×ˢ pmScaled (P.L + P.EPS) Nh ×ˢ residues N0 ×ˢ Finset.univ

/-- The masks of the prover made from its choices. -/
def encElgMasks (P : Params) (Nh : Nat) (c : Int × Int × Int × Nat × ZMod q) : EncElgMasks q :=
  ⟨⟨P.L + P.EPS, c.1⟩, ⟨P.L + bitLen Nh, c.2.1⟩, c.2.2.2.1, c.2.2.2.2, ⟨P.L + P.EPS + bitLen Nh, c.2.2.1⟩⟩

/-- enc-elg, with the responses `z1`, `z3`, `z2`, `w`, and `mu` for the commitment `S`. -/
def encElgSim (P : Params) (g : G) {N0 Nh : Nat} (pub : EncElgPublic N0 G) (setup : RPParams Nh) (e : ZMod q) (c : Int × Int × Int × Nat × ZMod q) :
    EncElgProof q G :=
  let (z1, mu, z3, z2, w) := c
  { e := e
    capS := (commitment setup 0 mu).val
    capD := (encryption N0 z1 z2 * zpowMod pub.capC (-(e.val : Int))).val
    capY := w • pub.capA + (z1 : ZMod q) • g - e • pub.capX
    capZ := w • g - e • pub.capB
    capT := (commitment setup z1 z3 * zpowMod (commitment setup 0 mu) (-(e.val : Int))).val
    z1 := ⟨max (P.L + P.EPS) (P.L + P.L) + 1, z1⟩
    w := w
    z2 := z2
    z3 := ⟨max (P.L + P.EPS + bitLen Nh) (P.L + bitLen Nh + P.L) + 1, z3⟩ }

/-- The choices of the aff-g prover, and of its simulator: the intervals of `alpha` (`z1`), `beta` (`z2`), `m`, `gamma` (`z3`), `mu`, `delta` (`z4`), and the
residues for `r` (`w`) and `r_y` (`w_y`). -/
def affGChoices (P : Params) (N0 N1 Nh : Nat) : Finset (Int × Int × Int × Int × Int × Int × Nat × Nat) :=
  pm (P.L + P.EPS) ×ˢ pm (P.LP + P.EPS) ×ˢ pmScaled P.L Nh ×ˢ pmScaled (P.L + P.EPS) Nh ×ˢ pmScaled P.L Nh ×ˢ pmScaled (P.L + P.EPS) Nh ×ˢ
    residues N0 ×ˢ residues N1

/-- The masks of the prover made from its choices. -/
def affGMasks (P : Params) (Nh : Nat) : Int × Int × Int × Int × Int × Int × Nat × Nat → AffGMasks
  | (alpha, beta, m, gamma, mu, delta, r, rY) =>
    { alpha := ⟨P.L + P.EPS, alpha⟩, beta := ⟨P.LP + P.EPS, beta⟩, r := r, rY := rY, gamma := ⟨P.L + P.EPS + bitLen Nh, gamma⟩,
      m := ⟨P.L + bitLen Nh, m⟩, delta := ⟨P.L + P.EPS + bitLen Nh, delta⟩, mu := ⟨P.L + bitLen Nh, mu⟩ }

/-- aff-g, with the responses `z1`, `z2`, `z3`, `z4`, `w`, `w_y`, and `m`, `mu` for the commitments `S` and `T`. -/
def affGSim (P : Params) (g : G) {N0 N1 Nh : Nat} (pub : AffGPublic N0 N1 G) (setup : RPParams Nh) (e : ZMod q) :
    Int × Int × Int × Int × Int × Int × Nat × Nat → AffGProof q G
  | (z1, z2, m, z3, mu, z4, w, wY) =>
    { e := e
      capA := (zpowMod pub.capC z1 * encryption N0 z2 w * zpowMod pub.capD (-(e.val : Int))).val
      capBx := (z1 : ZMod q) • g - e • pub.capX
      capBy := (encryption N1 z2 wY * zpowMod pub.capY (e.val : Int)).val
      capE := (commitment setup z1 z3 * zpowMod (commitment setup 0 m) (-(e.val : Int))).val
      capS := (commitment setup 0 m).val
      capF := (commitment setup z2 z4 * zpowMod (commitment setup 0 mu) (-(e.val : Int))).val
      capT := (commitment setup 0 mu).val
      z1 := ⟨max (P.L + P.EPS) (P.L + P.L) + 1, z1⟩
      z2 := ⟨max (P.LP + P.EPS) (P.LP + P.L) + 1, z2⟩
      z3 := ⟨max (P.L + P.EPS + bitLen Nh) (P.L + bitLen Nh + P.L) + 1, z3⟩
      z4 := ⟨max (P.L + P.EPS + bitLen Nh) (P.L + bitLen Nh + P.L) + 1, z4⟩
      w := w
      wY := wY }

/-- The choices of the aff-g* prover for one repetition, and of its simulator: the intervals of `alpha` (`z`) and `beta` (`z'`), and the residues for `r` (`w`)
and `s` (`lambda`). -/
def affGStarChoices (P : Params) (N0 N1 : Nat) : Finset (Int × Int × Nat × Nat) := pm (P.L + P.EPS) ×ˢ pm (P.LP + P.EPS) ×ˢ residues N0 ×ˢ residues N1

/-- The masks of the prover made from its choices. -/
def affGStarEphemeral (P : Params) : Int × Int × Nat × Nat → AffGStarEphemeral
  | (alpha, beta, r, s) => ⟨⟨P.L + P.EPS, alpha⟩, ⟨P.LP + P.EPS, beta⟩, r, s⟩

/-- aff-g*, with the challenge bits `e` and the responses `z`, `z'`, `w`, `lambda` of every repetition. -/
def affGStarSim (P : Params) (g : G) (q : Nat) [Module (ZMod q) G] {N0 N1 k : Nat} (pub : AffGPublic N0 N1 G) (e : Fin k → Bool)
    (c : Fin k → Int × Int × Nat × Nat) : AffGStarProof G where
  e := List.ofFn e
  commitments := List.ofFn fun i =>
    let (z, z', w, lambda) := c i
    { capA := (zpowMod pub.capC z * encryption N0 z' w * if e i then zpowMod pub.capD (-1) else 1).val
      capR := (z : ZMod q) • g - if e i then pub.capX else 0
      capB := (encryption N1 z' lambda * if e i then pub.capY else 1).val }
  elements := List.ofFn fun i =>
    let (z, z', w, lambda) := c i
    { z := ⟨if e i then max (P.L + P.EPS) P.L + 1 else P.L + P.EPS, z⟩
      zPrime := ⟨if e i then max (P.LP + P.EPS) P.LP + 1 else P.LP + P.EPS, z'⟩
      w := w
      lambda := lambda }

/-- The choices of the dec prover for one repetition, and of its simulator: the intervals of `alpha` (`z`) and `beta` (`w`), and the residues for `r` (`nu`);
`b` is the bound on the decrypted value. -/
def decChoices (P : Params) (b N0 : Nat) : Finset (Int × Int × Nat) := pm (P.L + P.EPS) ×ˢ pm (b + P.EPS) ×ˢ residues N0

/-- The masks of the prover made from its choices. -/
def decEphemeral (P : Params) (b : Nat) : Int × Int × Nat → DecEphemeral
  | (alpha, beta, r) => ⟨⟨P.L + P.EPS, alpha⟩, ⟨b + P.EPS, beta⟩, r⟩

/-- dec, with the challenge bits `e` and the responses `z`, `w`, `nu` of every repetition; `yBound` is the declared bound of the decrypted value. -/
def decSim (P : Params) (b yBound : Nat) (g : G) (q : Nat) [Module (ZMod q) G] {N0 k : Nat} (pub : DecPublic N0 G) (e : Fin k → Bool)
    (c : Fin k → Int × Int × Nat) : DecProof G where
  e := List.ofFn e
  commitments := List.ofFn fun i =>
    let (z, w, nu) := c i
    { capA := (zpowMod pub.capK (-z) * encryption N0 w nu * if e i then zpowMod pub.capD (-1) else 1).val
      capB := (w : ZMod q) • pub.capG - if e i then pub.capS else 0
      capC := (z : ZMod q) • g - if e i then pub.capX else 0 }
  elements := List.ofFn fun i =>
    let (z, w, nu) := c i
    { z := ⟨if e i then max (P.L + P.EPS) P.L + 1 else P.L + P.EPS, z⟩
      w := ⟨if e i then max (b + P.EPS) yBound + 1 else b + P.EPS, w⟩
      nu := nu }

end

/-- prm, with the challenge bits `e` and the responses `z`. -/
def prmSim {N k : Nat} (setup : RPParams N) (e : Fin k → Bool) (z : Fin k → Nat) : PrmProof where
  commitment := List.ofFn fun i => (setup.t ^ z i * if e i then zpowMod setup.s (-1) else 1).val
  challenge := List.ofFn e
  proof := List.ofFn z

/-- The choices of the fac prover, and of its simulator: the intervals of `alpha` (`z1`), `beta` (`z2`), `mu`, `x` (`w1`), `nu`, `y` (`w2`) and `r` (`v`). -/
def facChoices (P : Params) (N0 Nh : Nat) : Finset (Int × Int × Int × Int × Int × Int × Int) :=
  pmScaled (P.L + P.EPS) (facSqrtN P) ×ˢ pmScaled (P.L + P.EPS) (facSqrtN P) ×ˢ pmScaled P.L Nh ×ˢ pmScaled (P.L + P.EPS) Nh ×ˢ pmScaled P.L Nh ×ˢ
    pmScaled (P.L + P.EPS) Nh ×ˢ pmScaled (P.L + P.EPS) (N0 * Nh)

/-- The masks of the prover made from its choices. -/
def facMasks (P : Params) (N0 Nh : Nat) : Int × Int × Int × Int × Int × Int × Int → FacMasks
  | (alpha, beta, mu, x, nu, y, r) =>
    { alpha := ⟨P.L + P.EPS + bitLen (facSqrtN P), alpha⟩, beta := ⟨P.L + P.EPS + bitLen (facSqrtN P), beta⟩, mu := ⟨P.L + bitLen Nh, mu⟩,
      nu := ⟨P.L + bitLen Nh, nu⟩, r := ⟨P.L + P.EPS + bitLen (N0 * Nh), r⟩, x := ⟨P.L + P.EPS + bitLen Nh, x⟩, y := ⟨P.L + P.EPS + bitLen Nh, y⟩ }

/-- fac, with the responses `z1`, `z2`, `w1`, `w2`, `v`, and `mu`, `nu` for the commitments `P` and `Q`. The simulator is given the modulus, not its factors. -/
def facSim (P : Params) {Nh : Nat} (N0 : Nat) (setup : RPParams Nh) (e : SInt) : Int × Int × Int × Int × Int × Int × Int → FacProof
  | (z1, z2, mu, w1, nu, w2, v) =>
    { e := e
      capP := (commitment setup 0 mu).val
      capQ := (commitment setup 0 nu).val
      capA := (commitment setup z1 w1 * zpowMod (commitment setup 0 mu) (-e.val)).val
      capB := (commitment setup z2 w2 * zpowMod (commitment setup 0 nu) (-e.val)).val
      capT := (zpowMod (commitment setup 0 nu) z1 * commitment setup (-(N0 * e.val)) v).val
      z1 := ⟨max (P.L + P.EPS + bitLen (facSqrtN P)) (P.primeBits + P.L) + 1, z1⟩
      z2 := ⟨max (P.L + P.EPS + bitLen (facSqrtN P)) (P.primeBits + P.L) + 1, z2⟩
      w1 := ⟨max (P.L + P.EPS + bitLen Nh) (P.L + bitLen Nh + P.L) + 1, w1⟩
      w2 := ⟨max (P.L + P.EPS + bitLen Nh) (P.L + bitLen Nh + P.L) + 1, w2⟩
      v := ⟨max (P.L + P.EPS + bitLen (N0 * Nh)) (P.primeBits + P.L + (P.L + bitLen Nh)) + 1, v⟩ }

end Synedrion.Spec
