import Verif.Lemmas.Toy
import Verif.Lemmas.ToyAux
import Verif.Lemmas.Paillier
import Verif.Lemmas.BMap
import Verif.Spec.Signing
import Verif.Spec.SigningError
import Verif.Props.Ecdsa

/-!
# Three parties that sign, at the crate's test parameters

The curve is the toy curve of order 11, the Paillier keys have 256 bits.
-/

namespace Synedrion.Toy

open Spec Signing

attribute [local instance] fact11

/-- Challenges that depend on the hashed data -/
def signEnv : Env 11 Nat Nat (ZMod 11) where
  P := Params.test
  C := Props.toyCurve
  encH := fun t => (t.aux.2 : ZMod 11) + (t.setup.baseValue : ZMod 11)
  affH := fun t => (t.aux.2 : ZMod 11) + 2
  elogH := fun t => (t.aux.2 : ZMod 11) + 3
  decH := fun t => [t.aux.2 % 2 = 0, true]
  starH := fun t => [t.aux.2 % 2 = 1]

theorem signEnv_setting : SigningSetting signEnv where
  consistent := by show Params.test.SelfConsistent; decide
  curve := by decide
  order := by decide
  odd := by decide
  laws := Props.toyCurve_laws

def parties : Finset Nat := {1, 2, 3}

/-- The shares 1, 2, 3 of the key 6 -/
def signShares (i : Nat) : KeyShare Nat (ZMod 11) (ZMod 11) := ⟨i, (i : ZMod 11), BMap.tabulate parties fun j => (j : ZMod 11) • signEnv.C.g⟩

theorem signShares_valid : SharesKey signEnv.C.g parties signShares 6 where
  owner _ _ := rfl
  holders _ _ := by unfold signShares; rw [BMap.keySet_tabulate]
  same_public _ _ _ _ := rfl
  public_matches i _ j hj := by unfold signShares; rw [BMap.get?_tabulate, if_pos hj]
  sum := by decide

def ringPedersen (i : Nat) : RPSetup := ⟨primeQ * primeP, ⟨4, 4 ^ (i + 1)⟩⟩

theorem four_unit : IsUnit (4 : ZMod (primeQ * primeP)) := by
  have : ((4 : Nat) : ZMod (primeQ * primeP)) = 4 := by norm_num
  rw [← this, ZMod.isUnit_iff_coprime]
  decide +kernel

theorem exists_signInfos : ∃ infos : Nat → AuxInfo Nat PaillierKey PublicAux, UsableAux signEnv.P parties infos ringPedersen ∧
    ∀ i, (infos i).secret.modulus = primeP * primeQ := by
  obtain ⟨sk, hsk, -⟩ := SecretKey.new_ok (ε := Unit) primes
  refine ⟨fun i => ⟨i, ⟨primeP, primeQ, sk⟩, BMap.tabulate parties fun j => ⟨primeP * primeQ, (ringPedersen j).rp.toWire⟩⟩, ⟨⟨?_, ?_, ?_, ?_⟩, ?_, ?_, ?_, ?_, ?_⟩, ?_⟩
  · intros; rfl
  · intros; rw [BMap.keySet_tabulate]
  · intro i _ j hj; rw [BMap.get?_tabulate, if_pos hj]
  · intros; rfl
  · intros; exact fullSize
  · intros; exact hsk
  · intros; show primeQ * primeP % 2 = 1; decide
  · intros; show primeQ * primeP < 2 ^ 256; decide
  · intro i _; exact ⟨four_unit.pow _, four_unit⟩
  · intros; rfl

def encMasks (i j : Nat) : EncElgMasks 11 := ⟨⟨96, 12345⟩, ⟨32 + bitLen (primeQ * primeP), 77⟩, 2, (i + 5 * j : Nat), ⟨96 + bitLen (primeQ * primeP), -9⟩⟩

def affMasks : AffGMasks := ⟨⟨96, -700⟩, ⟨224, 9999⟩, 2, 4, ⟨96 + bitLen (primeQ * primeP), 1000⟩, ⟨32 + bitLen (primeQ * primeP), -77⟩,
  ⟨96 + bitLen (primeQ * primeP), -9⟩, ⟨32 + bitLen (primeQ * primeP), 5⟩⟩

def mtaDraws (i : Nat) : MtaDraws Nat := ⟨fun j => ⟨160, (i % 100 : Nat) - (j % 100 : Nat)⟩, fun _ => 2, fun _ => 4, fun _ => affMasks⟩

/-- The joint nonce is `2 + 3 + 4 = 9` -/
def signDraws (i : Nat) : Draws 11 Nat where
  k := i
  gamma := i + 1
  y := i + 4
  a := 3
  b := 5
  nu := 2
  rho := 4
  enc0 := encMasks i
  enc1 := encMasks (i + 1)
  elogAlpha := 6
  elogM := 7
  mta := mtaDraws i
  hatMta := mtaDraws (i + 7)
  elogAlpha' := 8
  elogM' := 9
  dec := [⟨⟨96, 5⟩, ⟨291, -4⟩, 2⟩, ⟨⟨96, 6⟩, ⟨291, 4⟩, 4⟩]
  star := fun _ => [⟨⟨96, 5⟩, ⟨224, 4⟩, 2, 4⟩]
  hatDec := [⟨⟨96, 3⟩, ⟨291, -1⟩, 2⟩, ⟨⟨96, 7⟩, ⟨291, 0⟩, 4⟩]
  hatStar := fun _ => [⟨⟨96, 1⟩, ⟨224, 2⟩, 2, 4⟩]

theorem two_coprime : Nat.Coprime 2 (primeP * primeQ) := by decide +kernel
theorem four_coprime : Nat.Coprime 4 (primeP * primeQ) := by decide +kernel

theorem encMasks_valid (i j : Nat) : EncElgDrawsValid Params.test (primeP * primeQ) (primeQ * primeP) (encMasks i j) where
  masks := ⟨⟨rfl, by show InPm 96 12345; unfold InPm; decide +kernel⟩, ⟨rfl, by show InPmScaled _ _ 77; unfold InPmScaled; decide +kernel⟩,
    ⟨rfl, by show InPmScaled _ _ (-9); unfold InPmScaled; decide +kernel⟩, two_coprime⟩
  inner := by show (12345 : Int).natAbs + 2 ^ (2 * 32 - 1) ≤ 2 ^ (32 + 64 - 1); decide +kernel

theorem mtaDraws_valid (i j : Nat) : MtaDrawsValid Params.test (primeP * primeQ) (primeP * primeQ) (primeQ * primeP) (mtaDraws i) j where
  beta := ⟨rfl, by
    show InPm 160 ((i % 100 : Nat) - (j % 100 : Nat))
    unfold InPm
    have h1 := Nat.mod_lt i (show 0 < 100 by norm_num)
    have h2 := Nat.mod_lt j (show 0 < 100 by norm_num)
    norm_num
    omega⟩
  r := two_coprime
  s := four_coprime
  masks := ⟨⟨rfl, by show InPm 96 (-700); unfold InPm; decide +kernel⟩, ⟨rfl, by show InPm 224 9999; unfold InPm; decide +kernel⟩, two_coprime, four_coprime,
    ⟨rfl, by show InPmScaled _ _ 1000; unfold InPmScaled; decide +kernel⟩, ⟨rfl, by show InPmScaled _ _ (-77); unfold InPmScaled; decide +kernel⟩,
    ⟨rfl, by show InPmScaled _ _ (-9); unfold InPmScaled; decide +kernel⟩, ⟨rfl, by show InPmScaled _ _ 5; unfold InPmScaled; decide +kernel⟩⟩
  innerAlpha := by show affMasks.alpha.val.natAbs + _ ≤ _; decide +kernel
  innerBeta := by show affMasks.beta.val.natAbs + _ ≤ _; decide +kernel

theorem signDraws_valid : SigningDrawsValid Params.test parties (fun _ => primeP * primeQ) (fun i => (ringPedersen i).modulus) signDraws where
  nu _ _ := two_coprime
  rho _ _ := four_coprime
  enc0 i _ j _ _ := encMasks_valid i j
  enc1 i _ j _ _ := encMasks_valid (i + 1) j
  mta i _ j _ _ := mtaDraws_valid i j
  hatMta i _ j _ _ := mtaDraws_valid (i + 7) j

theorem fewParties : FewParties signEnv.P parties.card 2 := by
  refine ⟨by decide, ?_, by decide, by decide, by decide⟩
  constructor
  · decide
  · intro c hc
    by_contra h
    have : c = 0 ∨ c = 1 := by omega
    rcases this with rfl | rfl <;> revert hc <;> decide

private theorem decValid (a b a' b' : Int) (r r' : Nat) (hr : Nat.Coprime r (primeP * primeQ)) (hr' : Nat.Coprime r' (primeP * primeQ))
    (h : a.natAbs < 100 ∧ b.natAbs < 100 ∧ a'.natAbs < 100 ∧ b'.natAbs < 100) :
    DecDrawsValid Params.test (primeP * primeQ) 2 [⟨⟨96, a⟩, ⟨291, b⟩, r⟩, ⟨⟨96, a'⟩, ⟨291, b'⟩, r'⟩] := by
  refine ⟨?_, ?_, ?_⟩
  · intro eph heph
    simp only [List.mem_cons, List.not_mem_nil, or_false] at heph
    rcases heph with rfl | rfl
    all_goals
      refine ⟨⟨rfl, ?_⟩, ⟨rfl, ?_⟩, by assumption⟩
      all_goals
        simp only [Params.test, Params.L, Params.kappa, Params.LP, Params.EPS, InPm]
        norm_num
        omega
  all_goals
    intro eph heph
    simp only [List.mem_cons, List.not_mem_nil, or_false] at heph
    rcases heph with rfl | rfl <;> simp only [Params.test, Params.L, Params.kappa, Params.LP, Params.EPS] <;> norm_num <;> omega

private theorem starValid (a b : Int) (h : a.natAbs < 100 ∧ b.natAbs < 100) :
    StarDrawsValid Params.test (primeP * primeQ) (primeP * primeQ) [⟨⟨96, a⟩, ⟨224, b⟩, 2, 4⟩] := by
  refine ⟨?_, ?_, ?_⟩
  · intro eph heph
    simp only [List.mem_cons, List.not_mem_nil, or_false] at heph
    subst heph
    refine ⟨⟨rfl, ?_⟩, ⟨rfl, ?_⟩, two_coprime, four_coprime⟩
    all_goals
      simp only [Params.test, Params.L, Params.kappa, Params.LP, Params.EPS, InPm]
      norm_num
      omega
  all_goals
    intro eph heph
    simp only [List.mem_cons, List.not_mem_nil, or_false] at heph
    subst heph
    simp only [Params.test, Params.L, Params.kappa, Params.LP, Params.EPS]
    norm_num
    omega

theorem errorDraws_valid (i : Nat) : ErrorDrawsValid signEnv (parties.erase i) (primeP * primeQ) (fun _ => primeP * primeQ) 2 (signDraws i) where
  rho := four_coprime
  beta j _ := ⟨(mtaDraws_valid i j).beta, (mtaDraws_valid (i + 7) j).beta⟩
  r _ _ := ⟨two_coprime, two_coprime⟩
  s _ _ := ⟨four_coprime, four_coprime⟩
  dec := ⟨decValid _ _ _ _ _ _ two_coprime four_coprime (by decide), decValid _ _ _ _ _ _ two_coprime four_coprime (by decide)⟩
  star _ _ := ⟨starValid _ _ (by decide), starValid _ _ (by decide)⟩
  decCount _ := ⟨rfl, rfl⟩
  starCount _ _ _ := ⟨rfl, rfl⟩

end Synedrion.Toy
