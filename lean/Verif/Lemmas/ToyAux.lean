import Verif.Lemmas.ToyPrimes
import Verif.Spec.AuxInfo

/-!
# Concrete draws for auxiliary info, at the crate's test parameters
-/

namespace Synedrion.Toy

open Spec

/-- Simple hashes at the test parameters. The factoring challenge depends on the hashed data. -/
def auxEnv : AuxEnv Nat Nat where
  P := Params.test
  prmH := fun t => [t.aux.2 % 2 = 0, true]
  modH := fun _ => [1]
  isPrime := fun _ => false
  facH := fun t => ⟨32, (t.aux.2.1 : Int) % 1000 - 500⟩

/-- Masks for the factoring proofs. -/
def facMasks : FacMasks := ⟨⟨96 + 127, 12345⟩, ⟨96 + 127, -5⟩, ⟨32 + bitLen (primeQ * primeP), 5⟩, ⟨32 + bitLen (primeQ * primeP), 77⟩,
  ⟨96 + bitLen (primeP * primeQ * (primeQ * primeP)), -1000⟩, ⟨96 + bitLen (primeQ * primeP), 1000⟩, ⟨96 + bitLen (primeQ * primeP), -9⟩⟩

/-- Draws of party `i`. -/
def auxDraws (i : Nat) : AuxDraws Nat where
  p := primeP
  q := primeQ
  rpP := primeQ
  rpQ := primeP
  lambda := 12345 + i
  tDraw := 2
  prmMasks := [5, 77 + i % 10]
  rid := [i % 2 = 0, true, i % 3 = 0]
  u := [true]
  modDraw := 3
  modBit := true
  facMasks := fun _ => facMasks

theorem auxEnv_valid : HashesValid auxEnv 2 where
  consistent := by decide
  curve := by decide
  extra := by decide
  prm := fun _ => rfl
  mod := by intro t y hy; simp [auxEnv] at hy; subst hy; simp
  fac := by
    intro t
    refine ⟨rfl, ?_⟩
    show InPm 32 ((t.aux.2.1 : Int) % 1000 - 500)
    have h1 := Int.emod_nonneg (t.aux.2.1 : Int) (b := 1000) (by norm_num)
    have h2 := Int.emod_lt_of_pos (t.aux.2.1 : Int) (b := 1000) (by norm_num)
    unfold InPm
    norm_num
    omega

theorem fullSize : FullSizePrimes Params.test primeP primeQ := ⟨primes, by decide, by decide, by decide, by decide⟩

theorem fullSize' : FullSizePrimes Params.test primeQ primeP :=
  ⟨⟨primes.prime_q, primes.prime_p, primes.ne.symm, primes.odd_q, primes.odd_p, by
    have := primes.coprime
    rw [Nat.mul_comm, Nat.mul_comm (primeQ - 1)]; exact this⟩, by decide, by decide, by decide, by decide⟩

theorem auxDraws_valid (i : Nat) (hi : i < 1000) : DrawsValid auxEnv 2 (auxDraws i) where
  key := fullSize
  blumP := by show primeP % 4 = 3; decide
  blumQ := by show primeQ % 4 = 3; decide
  composite := rfl
  rpKey := fullSize'
  lambda := by
    show 12345 + i < 2 ^ (256 - 2)
    have : (2 : Nat) ^ (256 - 2) > 100000 := by decide
    omega
  tDraw := by show IsInvertibleDraw (primeQ * primeP) 2; constructor <;> decide +kernel
  prmLen := rfl
  prmMasks := by
    intro a ha
    have h : a < 100 := by
      simp [auxDraws] at ha
      omega
    have : (100 : Nat) < (primeQ - 1) * (primeP - 1) := by decide
    exact lt_trans h this
  modDraw := by show IsInvertibleDraw (primeP * primeQ) 3; constructor <;> decide +kernel

theorem facMasks_valid : FacDrawsValid Params.test (primeP * primeQ) (primeQ * primeP) facMasks where
  masks := ⟨⟨by decide +kernel, by unfold InPmScaled; decide +kernel⟩, ⟨by decide +kernel, by unfold InPmScaled; decide +kernel⟩, ⟨by decide +kernel, by unfold InPmScaled; decide +kernel⟩,
    ⟨by decide +kernel, by unfold InPmScaled; decide +kernel⟩, ⟨by decide +kernel, by unfold InPmScaled; decide +kernel⟩, ⟨by decide +kernel, by unfold InPmScaled; decide +kernel⟩,
    ⟨by decide +kernel, by unfold InPmScaled; decide +kernel⟩⟩
  innerAlpha := by decide +kernel
  innerBeta := by decide +kernel

theorem facDraws_valid (i j : Nat) : FacDrawsValid auxEnv.P ((auxDraws i).p * (auxDraws i).q) ((auxDraws j).rpP * (auxDraws j).rpQ)
    ((auxDraws i).facMasks j) := facMasks_valid

end Synedrion.Toy
