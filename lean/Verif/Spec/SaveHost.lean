import Verif.Model.SaveHost
import Verif.Spec.Save
/-!
# What serialization callbacks of the host are given back

The specification of C79: callbacks that take as much as they wrote, and the calls they get when an image is loaded.
-/
namespace Nk.Save

/-- The subsystem of `v` with a given name. -/
def namesake (v : VM) (name : Bytes) : Option Subsystem := (v.subsystems[subBucket name]?).bind (findSub name)

/-- Subsystems: in the loading VM the subsystem of the same name has a serialization callback if and only if it had one when
saving, and the callback takes, whatever follows, as many bytes as were written. -/
def SubsReadBack (K : Callbacks) (vm v : VM) : Prop :=
  ∀ s ∈ vm.subsystems.flatten, ∀ t, namesake v s.name = some t → s.hasSerialize = t.hasSerialize ∧
    (s.hasSerialize = true → ∀ rest, K.subRead t.data (K.subWrite s.data ++ rest) = (K.subWrite s.data).length)

/-- Has an object an external type of the host (no coroutine) with a serialization callback? -/
def hasCallback (vm : VM) (o : Obj) : Bool :=
  o.extType ≠ UINT_MAX && o.extType ≠ vm.coType &&
    (match vm.extTypes[o.extType]? with
    | some t => t.hasSerialize
    | none => false)

/-- External objects: the callback takes, whatever follows, as many bytes as were written for the object. -/
def ObjsReadBack (K : Callbacks) (vm : VM) : Prop :=
  ∀ id o, vm.objects.entry id = some o → hasCallback vm o = true →
    ∀ rest, K.objRead o.extType id (K.objWrite o.extType id o.extData ++ rest) = (K.objWrite o.extType id o.extData).length

/-- What the namesake of a saved subsystem must be called with. -/
def subCall (K : Callbacks) (v : VM) (s : Subsystem) : List Call :=
  match namesake v s.name with
  | some t => if t.hasSerialize then [.sub t.data (K.subWrite s.data)] else []
  | none => []

/-- The calls for all subsystems of `vm`, in the order of the table. -/
def subCalls (K : Callbacks) (vm v : VM) : List Call := vm.subsystems.flatten.flatMap (subCall K v)

/-- What the callback must be called with for a saved object. -/
def objCall (K : Callbacks) (vm : VM) (e : Nat × Obj) : List Call :=
  if hasCallback vm e.2 then [.obj e.2.extType e.1 (K.objWrite e.2.extType e.1 e.2.extData)] else []

/-- The calls for all objects of `vm`, by id. -/
def objCalls (K : Callbacks) (vm : VM) : List Call := (entriesFrom 0 vm.objects.slots).flatMap (objCall K vm)

end Nk.Save
