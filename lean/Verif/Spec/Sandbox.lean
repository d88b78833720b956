import Verif.Spec.Heap
import Verif.Model.Opcode
/-!
# What must hold of a VM for execution to be safe, and what is asked of the host

`Inv` says nothing about the contents of the program, the stacks, the global variables or the fields of
objects, nothing about instruction pointers, and nothing about what was compiled: it only says that the
data structures are in order.
-/
namespace Nk

/-- The text of the error recorded when a field is refused. -/
def refusal : String := "Reached object field count limit."

/-- Number of elements linked into an object. -/
def Obj.total (o : Obj) : Nat := (o.buckets.map List.length).sum

/-- Every object counts its fields right. -/
def SizesOK (vm : VM) : Prop := ∀ id o, vm.objects.entry id = some o → o.size = o.total ∧ o.size < 4294967296

/-- The data structures of the VM are in order. -/
structure Inv (vm : VM) : Prop where
  heap : HeapWF vm
  /-- the instruction array has as many words as its mask says -/
  instrs : vm.instrs.length = vm.instrMask + 1
  /-- objects have 16 buckets -/
  buckets : ∀ id o, vm.objects.entry id = some o → o.buckets.length = 16
  /-- native functions with a fixed number of arguments have that many argument types -/
  natives : ∀ f ∈ vm.extFuncs, f.argc ≠ UINT_MAX → f.argTypes.length = f.argc ∧ f.argExtTypes.length = f.argc
  /-- fields are counted right unless an assignment was refused (property C13) -/
  sizes : refusal ∈ vm.errors ∨ SizesOK vm

/-- The contract of native functions: called in a state that is in order they leave one that is in order, or
end in one of the ways `K` (for instance a catastrophic failure).  They may do whatever the API allows,
including collections, as long as the pass number does not reach its maximum. -/
def HostOK (H : Host) (K : UB → Prop) : Prop :=
  ∀ cb args vm, Inv vm → vm.gc.lastGCPass + 1 < 4294967296 →
    match H.call cb args vm with
    | .ok (_, vm') => Inv vm'
    | .ub k => K k

/-- The ways in which one instruction may end other than by producing a state: signed overflow, conversion of
a float that is out of range, something in `K` done by a native function, or, after an assignment was
refused, the failing of the assertion that the field count is not zero. -/
def Allowed (K : UB → Prop) (vm : VM) (k : UB) : Prop :=
  k = .overflow ∨ k = .cast ∨ K k ∨ (k = .assert ∧ refusal ∈ vm.errors)

end Nk
