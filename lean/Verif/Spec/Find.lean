import Verif.Model.Find
import Verif.Spec.Script
/-!
# Global variables and their names
-/
namespace Nk

/-- The place of the global variable `x`. -/
def Cc.Env.place (E : Cc.Env) (x : Bytes) : Option Nat :=
  match E.Γ x with
  | some (.glob i) => some i
  | _ => none

/-- Native functions leave the table of the names of global variables, and how large the space for them is, as they are. -/
def KeepsNames (H : Host) : Prop :=
  ∀ cb args vm a vm', H.call cb args vm = .ok (a, vm') → vm'.globals = vm.globals ∧ vm'.staticMask = vm.staticMask

end Nk
