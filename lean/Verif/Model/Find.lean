import Verif.Model.Compile
/-!
# Finding global variables by name: `nkxVmFindGlobalVariable`

The functions return a pointer to a value, or NULL; here the index of the value in the space of the global variables.
-/
namespace Nk

/-- The loop of `nkiVmFindGlobalVariable`, `src/nkvm.c:446-450`. -/
def findIn (mask : Nat) (name : Bytes) : List (Bytes × Nat) → Option Nat
  | [] => none
  | (n, p) :: gs => if strcmp n name = 0 then some (mask &&& p) else findIn mask name gs

/-- `nkiVmFindGlobalVariable`, `src/nkvm.c:442-452`; `nkxVmFindGlobalVariable` without a compiler, `src/nkx.c:198-200`. -/
def findGlobal (name : Bytes) (vm : VM) : Option Nat := findIn vm.staticMask name vm.globals

/-- `nkxVmFindGlobalVariable` with a compiler, `src/nkx.c:187-197`. -/
def Cc.findWith (name : Bytes) : Cc.CM (Option Nat) := do
  match ← lookupVar name with
  | some v =>
    let s ← cget
    return some (v.position &&& s.vm.staticMask)
  | none => return none

end Nk
