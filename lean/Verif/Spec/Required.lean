import Verif.Model.Required

/-!
# What a verifier of evidence is given
-/

namespace Synedrion.Spec

variable {I : Type} [LinearOrder I] {M : Part → Nat → Type} {n : Nat}

/-- Everything in the package was signed by the accused party. -/
def Genuine (p : Package I M n) (t : Transcript I M) : Prop :=
  (∀ part m, p.current part = some m → t.msg n part = some m) ∧
  (∀ r msg part m, p.previous r = some msg → msg part = some m → t.msg r part = some m) ∧
  ∀ r echos, p.combined r = some echos → t.combined r = echos

/-- The package contains all that was declared as required, as far as the accused party sent it. -/
def Contains (p : Package I M n) (t : Transcript I M) (req : Required) : Prop :=
  (∀ part ∈ req.current, p.current part = t.msg n part) ∧
  (∀ x ∈ req.previous, ∃ msg, p.previous x.1 = some msg ∧ ∀ part ∈ x.2, msg part = t.msg x.1 part) ∧
  ∀ r ∈ req.echos, p.combined r = some (t.combined r)

/-- The verdict on the declared messages is the verdict on all messages: whatever else is known, the declared messages decide. -/
def SelfContained (t : Transcript I M) (req : Required) (verdict : Package I M n → Evidence) : Prop :=
  ∀ p : Package I M n, Genuine p t → Contains p t req → verdict p = verdict (everything t n)

end Synedrion.Spec
