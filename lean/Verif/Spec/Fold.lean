import Verif.Spec.Code
/-!
# Expressions with constants

What `C55` needs to say which expressions it is about.
-/
namespace Nk.Cc

/-! ## Which expressions -/

/-- The kind of number a constant expression is: `some false` for integers, `some true` for floats.  Constant expressions are
literals, joined by `+`, `-`, `*` and `/`. -/
def constKind : Ex → Option Bool
  | .int _ => some false
  | .float _ => some true
  | .un .neg _ e => constKind e
  | .bin o _ l r => if o = .add ∨ o = .sub ∨ o = .mul ∨ o = .div then (if constKind r = none then none else constKind l) else none
  | _ => none

mutual
/-- No operation with an integer constant on one side and a float constant on the other. -/
def Unmixed : Ex → Prop
  | .un _ _ e => Unmixed e
  | .bin _ _ l r => Unmixed l ∧ Unmixed r ∧ (constKind l = none ∨ constKind r = none ∨ constKind l = constKind r)
  | .setVar _ _ e => Unmixed e
  | .setField _ _ o k e => Unmixed o ∧ Unmixed k ∧ Unmixed e
  | .call _ f as => Unmixed f ∧ UnmixedArgs as
  | .method _ _ o k as => Unmixed o ∧ Unmixed k ∧ UnmixedArgs as
  | .builtin _ _ _ as => UnmixedArgs as
  | _ => True
/-- The same for arguments. -/
def UnmixedArgs : Exs → Prop
  | .nil => True
  | .cons a as => Unmixed a ∧ UnmixedArgs as
end

mutual
/-- There is no float literal in the expression. -/
def NoFloat : Ex → Prop
  | .float _ => False
  | .un _ _ e => NoFloat e
  | .bin _ _ l r => NoFloat l ∧ NoFloat r
  | .setVar _ _ e => NoFloat e
  | .setField _ _ o k e => NoFloat o ∧ NoFloat k ∧ NoFloat e
  | .call _ f as => NoFloat f ∧ NoFloatArgs as
  | .method _ _ o k as => NoFloat o ∧ NoFloat k ∧ NoFloatArgs as
  | .builtin _ _ _ as => NoFloatArgs as
  | _ => True
/-- The same for arguments. -/
def NoFloatArgs : Exs → Prop
  | .nil => True
  | .cons a as => NoFloat a ∧ NoFloatArgs as
end

/-- Either no float literals or a host on which printing a float and reading it again gives the same float. -/
def Exact (F : FloatOps) (e : Ex) : Prop := NoFloat e ∨ ∀ v, F.atof (F.print v) = v
/-- The same for arguments. -/
def ExactArgs (F : FloatOps) (e : Exs) : Prop := NoFloatArgs e ∨ ∀ v, F.atof (F.print v) = v


end Nk.Cc
