import Verif.Spec.Objects
import Verif.Spec.Heap
/-!
# The same heap under other ids

What it means that one state of a VM is another one with its objects and strings renamed.
-/
namespace Nk

/-- New ids for objects and strings. -/
structure Ren where
  obj : Nat → Nat
  str : Nat → Nat

/-- A value with its reference renamed. -/
def Ren.val (r : Ren) : Value → Value
  | .obj i => .obj (r.obj i)
  | .str i => .str (r.str i)
  | v => v

/-- An object with the references in its fields renamed, and otherwise the same. -/
def Ren.ob (r : Ren) (o : Obj) : Obj := { o with buckets := o.buckets.map fun es => es.map fun e => (r.val e.1, r.val e.2) }

/-- The host, or the VM itself, relies on the object's id: the host holds it, or it is a coroutine. -/
def Obj.Pinned (vm : VM) (o : Obj) : Prop := o.handleCount ≠ 0 ∨ o.extType = vm.coType

/-- `vm'` is `vm` with other ids: different objects and strings have different new ids; every object is there under its new id, with its
fields renamed, and no other object; every string is there with its text, and no other; every global variable and every slot of every
stack refers to the new ids.  Ids the host or the code relies on are the same, and nothing else in the VM has changed. -/
structure Renamed (r : Ren) (vm vm' : VM) : Prop where
  objInj : ∀ i j, Live vm i → Live vm j → r.obj i = r.obj j → i = j
  strInj : ∀ i j e e', vm.strings.entry i = some e → vm.strings.entry j = some e' → r.str i = r.str j → i = j
  objs : ∀ i o, vm.objects.entry i = some o → vm'.objects.entry (r.obj i) = some (r.ob o)
  noMoreObjs : ∀ j o', vm'.objects.entry j = some o' → ∃ i o, vm.objects.entry i = some o ∧ r.obj i = j
  strs : ∀ i e, vm.strings.entry i = some e → vm'.strings.entry (r.str i) = some e
  noMoreStrs : ∀ j e', vm'.strings.entry j = some e' → ∃ i e, vm.strings.entry i = some e ∧ r.str i = j
  statics : vm'.statics = vm.statics.map r.val
  stacks : ∀ (i : Nat) (c : Ctx), vm.ctxs[i]? = some (some c) → ∃ s : Stack, vm'.ctxs[i]? = some (some { c with stack := s }) ∧ s.WF ∧
    s.used = c.stack.used.map r.val ∧ r.val c.coObj = c.coObj
  noMoreStacks : ∀ (i : Nat) (c : Ctx), vm'.ctxs[i]? = some (some c) → ∃ c, vm.ctxs[i]? = some (some c)
  held : ∀ i o, vm.objects.entry i = some o → o.Pinned vm → r.obj i = i
  constants : ∀ i e, vm.strings.entry i = some e → e.dontGC = true → r.str i = i
  rest : vm' = { vm with objects := vm'.objects, strings := vm'.strings, sbuckets := vm'.sbuckets, statics := vm'.statics, ctxs := vm'.ctxs }

/-- A value that refers to nothing, or to something that exists. -/
def Refers (vm : VM) : Value → Prop
  | .obj i => ∃ o, vm.objects.entry i = some o
  | .str i => ∃ e, vm.strings.entry i = some e
  | .bad _ _ => False
  | _ => True

/-- The values a program can get at. -/
inductive Held (vm : VM) : Value → Prop
  | static {v : Value} (h : v ∈ vm.statics) : Held vm v
  | stack {i : Nat} {c : Ctx} {v : Value} (hc : vm.ctxs[i]? = some (some c)) (h : v ∈ c.stack.used) : Held vm v
  | key {i : Nat} {o : Obj} {es : List (Value × Value)} {e : Value × Value} (ho : vm.objects.entry i = some o) (h1 : es ∈ o.buckets) (h2 : e ∈ es) : Held vm e.1
  | field {i : Nat} {o : Obj} {es : List (Value × Value)} {e : Value × Value} (ho : vm.objects.entry i = some o) (h1 : es ∈ o.buckets) (h2 : e ∈ es) : Held vm e.2

/-- There are no dangling references. -/
def NoDangling (vm : VM) : Prop := ∀ v, Held vm v → Refers vm v

/-- A value compaction does not rename: anything but an object and a string, an object the host holds, a coroutine, a constant of the
program. -/
def PinnedRef (vm : VM) : Value → Prop
  | .obj i => ∃ o, vm.objects.entry i = some o ∧ o.Pinned vm
  | .str i => ∃ e, vm.strings.entry i = some e ∧ e.dontGC = true
  | _ => True

/-- All coroutines but the running one, and the main program if it is not the running one, have only such values on their stacks. -/
def OthersPinned (vm : VM) : Prop := ∀ (i : Nat) (c : Ctx), i ≠ vm.cur → vm.ctxs[i]? = some (some c) → ∀ v ∈ c.stack.used, PinnedRef vm v

/-- The objects on the list of held objects are the ones with a count. -/
def HandlesCounted (vm : VM) : Prop := ∀ id ∈ vm.handles, ∃ o, vm.objects.entry id = some o ∧ o.handleCount ≠ 0

end Nk
