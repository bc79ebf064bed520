import Verif.Lemmas.Cast

/-!
# The proofs used in signing do not depend on the error type
-/

namespace Synedrion

variable {ε ε' : Type} {q : Nat} {G Aux : Type} [AddCommGroup G] [Module (ZMod q) G] [DecidableEq G]

theorem SInt.assertRange_cast (a : SInt) (k : Nat) : Out.cast ε' (a.assertRange k : Out ε _) = a.assertRange k := by
  unfold SInt.assertRange; simp only [Out.cast_assert]

theorem enc_cast (N : Nat) (m : SInt) (rho : Nat) : Out.cast ε' (enc N m rho : Out ε _) = enc N m rho := by
  unfold enc; simp only [Out.cast_bind, Out.cast_ite, Out.cast_ok, Out.cast_panic]

theorem ctMulSecret_cast {N : Nat} (c : Ct N) (e : SInt) : Out.cast ε' (ctMulSecret c e : Out ε _) = ctMulSecret c e := powSecret_cast c e

theorem ctMulPublic_cast {N : Nat} (c : Ct N) (e : SInt) : Out.cast ε' (ctMulPublic c e : Out ε _) = ctMulPublic c e := powPublic_cast c e

theorem toMasked_cast (N rho r : Nat) (e : SInt) : Out.cast ε' (toMasked N rho r e : Out ε _) = toMasked N rho r e := by
  unfold toMasked; simp only [Out.cast_bind, powPublic_cast, Out.cast_ok]

theorem EncElgProof.prove_cast (P : Params) (H : EncElgHash G Aux → ZMod q) (g : G) {N0 Nh : Nat} (x : SInt) (rho : Nat) (b : ZMod q)
    (pub : EncElgPublic N0 G) (setup : RPParams Nh) (aux : Aux) (mask : EncElgMasks q) :
    Out.cast ε' (EncElgProof.prove P H g x rho b pub setup aux mask : Out ε _) = EncElgProof.prove P H g x rho b pub setup aux mask := by
  simp only [EncElgProof.prove, Out.cast_bind, SInt.assertRange_cast, commitSecret_cast, enc_cast, SInt.mul_cast, SInt.add_cast, toMasked_cast, Out.cast_ok]

theorem EncElgProof.verify_cast (P : Params) (H : EncElgHash G Aux → ZMod q) (g : G) {N0 Nh : Nat} (self : EncElgProof q G)
    (pub : EncElgPublic N0 G) (setup : RPParams Nh) (aux : Aux) :
    Out.cast ε' (self.verify P H g pub setup aux : Out ε _) = self.verify P H g pub setup aux := by
  simp only [EncElgProof.verify, Out.cast_bind, Out.cast_check, ctMulPublic_cast, commitPublic_cast, powPublic_cast, Out.cast_ok]

theorem AffGProof.prove_cast (P : Params) (H : AffGHash G Aux → ZMod q) (g : G) {N0 N1 Nh : Nat} (x y : SInt) (rho rhoY : Nat)
    (pub : AffGPublic N0 N1 G) (setup : RPParams Nh) (aux : Aux) (mask : AffGMasks) :
    Out.cast ε' (AffGProof.prove P H g x y rho rhoY pub setup aux mask : Out ε _) = AffGProof.prove P H g x y rho rhoY pub setup aux mask := by
  simp only [AffGProof.prove, Out.cast_bind, SInt.assertRange_cast, commitSecret_cast, enc_cast, SInt.mul_cast, SInt.add_cast, toMasked_cast, Out.cast_ok,
    ctMulSecret_cast]

theorem AffGProof.verify_cast (P : Params) (H : AffGHash G Aux → ZMod q) (g : G) {N0 N1 Nh : Nat} (self : AffGProof q G)
    (pub : AffGPublic N0 N1 G) (setup : RPParams Nh) (aux : Aux) :
    Out.cast ε' (self.verify P H g pub setup aux : Out ε _) = self.verify P H g pub setup aux := by
  simp only [AffGProof.verify, Out.cast_bind, Out.cast_check, ctMulPublic_cast, commitPublic_cast, powPublic_cast, Out.cast_ok]

theorem newModulo_cast (w pos N bits : Nat) : Out.cast ε' (SInt.newModulo w pos N bits : Out ε _) = SInt.newModulo w pos N bits := by
  simp only [SInt.newModulo, Out.cast_ite, Out.cast_ok, Out.cast_panic]

theorem Out.cast_allM {γ : Type} (f : γ → Out ε Bool) (l : List γ) : Out.cast ε' (Out.allM f l) = Out.allM (fun a => Out.cast ε' (f a)) l := by
  induction l with
  | nil => rfl
  | cons a l ih =>
    simp only [Out.allM, Out.cast_bind]
    congr 1
    funext b
    cases b <;> simp [ih]

theorem affGStarRespond_cast (P : Params) (N0 N1 : Nat) (x y : SInt) (rho mu : Nat) (eph : AffGStarEphemeral) (b : Bool) :
    Out.cast ε' (affGStarRespond P N0 N1 x y rho mu eph b : Out ε _) = affGStarRespond P N0 N1 x y rho mu eph b := by
  cases b <;> simp only [affGStarRespond, Out.cast_bind, SInt.add_cast, SInt.sub_cast, toMasked_cast, Out.cast_ok, if_true, if_false, Bool.false_eq_true]

theorem decRespond_cast (P : Params) (N0 : Nat) (x y : SInt) (rho : Nat) (eph : DecEphemeral) (b : Bool) :
    Out.cast ε' (decRespond P N0 x y rho eph b : Out ε _) = decRespond P N0 x y rho eph b := by
  cases b <;> simp only [decRespond, Out.cast_bind, SInt.add_cast, SInt.sub_cast, toMasked_cast, Out.cast_ok, if_true, if_false, Bool.false_eq_true]

theorem AffGStarProof.prove_cast (P : Params) (H : AffGStarHash G Aux → List Bool) (g : G) {N0 N1 : Nat} (x y : SInt) (rho mu : Nat)
    (pub : AffGPublic N0 N1 G) (aux : Aux) (ephs : List AffGStarEphemeral) :
    Out.cast ε' (AffGStarProof.prove P H g q x y rho mu pub aux ephs : Out ε _) = AffGStarProof.prove P H g q x y rho mu pub aux ephs := by
  simp only [AffGStarProof.prove, Out.cast_bind, SInt.assertRange_cast, Out.cast_mapM', affGStarCommit, affGStarRespond_cast, enc_cast,
    ctMulSecret_cast, SInt.add_cast, SInt.mul_cast, SInt.sub_cast, toMasked_cast, Out.cast_ok]
  rfl

theorem AffGStarProof.verify_cast (P : Params) (H : AffGStarHash G Aux → List Bool) (g : G) {N0 N1 : Nat} (self : AffGStarProof G)
    (pub : AffGPublic N0 N1 G) (aux : Aux) :
    Out.cast ε' (self.verify P H g q pub aux : Out ε _) = self.verify P H g q pub aux := by
  simp only [AffGStarProof.verify, Out.cast_bind, Out.cast_check, Out.cast_allM, affGStarCheck, ctMulPublic_cast, Out.cast_ite, Out.cast_ok, ctSub, ctNeg,
    Out.cast_ofOptionPanic]

theorem DecProof.prove_cast (P : Params) (H : DecHash G Aux → List Bool) (g : G) {N0 Nh : Nat} (x y : SInt) (rho : Nat)
    (pub : DecPublic N0 G) (setup : RPParams Nh) (aux : Aux) (ephs : List DecEphemeral) :
    Out.cast ε' (DecProof.prove P H g q x y rho pub setup aux ephs : Out ε _) = DecProof.prove P H g q x y rho pub setup aux ephs := by
  simp only [DecProof.prove, Out.cast_bind, SInt.assertRange_cast, Out.cast_mapM', decCommit, decRespond_cast, Out.cast_ite, enc_cast,
    ctMulSecret_cast, SInt.add_cast, SInt.mul_cast, SInt.sub_cast, toMasked_cast, Out.cast_ok, ceilLog2Parties, Out.cast_panic]
  rfl

theorem DecProof.verify_cast (P : Params) (H : DecHash G Aux → List Bool) (g : G) {N0 Nh : Nat} (self : DecProof G)
    (pub : DecPublic N0 G) (setup : RPParams Nh) (aux : Aux) :
    Out.cast ε' (self.verify P H g q pub setup aux : Out ε _) = self.verify P H g q pub setup aux := by
  simp only [DecProof.verify, Out.cast_bind, Out.cast_check, Out.cast_allM, decCheck, ctMulPublic_cast, Out.cast_ite, Out.cast_ok, ceilLog2Parties,
    Out.cast_panic]

end Synedrion
