import Verif.Model.Fault
import Verif.Spec.Heap
/-!
# What is left of the objects when memory has run out
-/
namespace Nk

/-- The state the VM is in after an operation, whether it was done or memory ran out during it. -/
def Att.state {σ α : Type} : Att σ α → Option σ
  | .done _ _ s => some s
  | .failed s => some s
  | .ub _ => none

/-- An operation in which memory can run out does what `r` says if memory does not run out. -/
def Att.Agrees {σ α : Type} (r : Res (α × σ)) : Att σ α → Prop
  | .done _ a s => r = .ok (a, s)
  | .failed _ => True
  | .ub u => r = .ub u

/-- From `vm` to `vm'` objects have been deleted, `l` being the cleanup calls made meanwhile, latest first.  The table can be walked
within its bounds.  An object that is still there is as it was, and its cleanup has not been called.  For an object that is gone, cleanup
has been called exactly once, with its data, if its type has a cleanup function.  There are no other objects and no other calls. -/
structure Swept (vm vm' : VM) (l : List (Nat × Nat × Option Nat)) : Prop where
  len : vm'.objects.slots.length = vm'.objects.cap
  types : vm'.extTypes = vm.extTypes
  log : vm'.cleanupLog = l ++ vm.cleanupLog
  kept : ∀ id o, vm'.objects.entry id = some o → vm.objects.entry id = some o ∧ ∀ e ∈ l, e.1 ≠ id
  gone : ∀ id o, vm.objects.entry id = some o → vm'.objects.entry id = none →
    (HasCleanup vm o → l.filter (fun e => e.1 = id) = [(id, o.extType, o.extData)]) ∧
    (¬ HasCleanup vm o → l.filter (fun e => e.1 = id) = [])
  calls : ∀ e ∈ l, ∃ o, vm.objects.entry e.1 = some o

end Nk
