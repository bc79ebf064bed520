import Verif.Model.HashStreams

/-!
# Specification of the hash inputs
-/

namespace Synedrion.Spec

/-- What was written can be told apart from everything else that could have been written, whatever follows. -/
def SelfDelimiting {α : Type} (c : Codec α) : Prop := ∀ a b x y, c.ok a → c.ok b → c.write a ++ x = c.write b ++ y → a = b ∧ x = y

/-- The writers of single values are self-delimiting. -/
structure Readable {I G Aux Sid : Type} (W : Writers I G Aux Sid) : Prop where
  byte : SelfDelimiting W.byte
  len : SelfDelimiting W.len
  point : SelfDelimiting W.point
  uint : SelfDelimiting W.uint
  wide : SelfDelimiting W.wide
  bits : SelfDelimiting W.bits
  id : SelfDelimiting W.id
  sid : SelfDelimiting W.sid
  aux : SelfDelimiting W.aux

/-- What a hash input is used for -/
inductive Purpose where
  | sid | epid | commitment | mask | sch | elog | encElg | affG | affGStar | dec | fac | mod | modRng | prm
  deriving DecidableEq

/-- The purpose of a hash input; the commitments of the three protocols have the same one. -/
def purpose {I G Aux Sid : Type} [LinearOrder I] : HashInput I G Aux Sid → Purpose
  | .sid .. => .sid
  | .epid .. => .epid
  | .keyInit .. => .commitment
  | .auxGen .. => .commitment
  | .keyRefresh .. => .commitment
  | .mask .. => .mask
  | .sch _ => .sch
  | .elog _ => .elog
  | .encElg _ => .encElg
  | .affG _ => .affG
  | .affGStar _ => .affGStar
  | .dec _ => .dec
  | .fac _ => .fac
  | .mod _ => .mod
  | .modRng .. => .modRng
  | .prm _ => .prm

/-- The protocol a commitment belongs to -/
def committer {I G Aux Sid : Type} [LinearOrder I] : HashInput I G Aux Sid → Option Nat
  | .keyInit .. => some 0
  | .auxGen .. => some 1
  | .keyRefresh .. => some 2
  | _ => none

end Synedrion.Spec
