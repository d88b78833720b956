import Verif.Model.ArgCheck
/-!
# Errors of native functions
-/
namespace Nk

/-- The VM after one more error with this text, and nothing else. -/
def VM.reported (vm : VM) (text : Bytes) : VM := { vm with errors := vm.errors ++ [latin text] }

/-- What the error texts call a function without a name. -/
def callee : Option Bytes → Bytes
  | some s => s
  | none => cs "<null>"

/-- What the error texts call the type of an object: the name under which its external type was registered; a type that was not
registered has no name. -/
def objectKind (vm : VM) (o : Obj) : Bytes :=
  if o.extType = UINT_MAX then cs "object" else ((vm.extTypes[o.extType]?).map (·.name)).getD []

end Nk
