import Verif.Spec.Machine
/-!
# Reachability, as a user of the VM understands it
-/
namespace Nk
variable (H : Host)

/-- The running coroutine (or main program) and everything waiting for it: the coroutine that resumed it,
the one that resumed that, and so on. -/
inductive Active (vm : VM) : Nat → Prop
  | cur : Active vm vm.cur
  | resumer {i p : Nat} {c : Ctx} : Active vm i → vm.ctxs[i]? = some (some c) → c.parent = some p →
      Active vm p

/-- Where reachability starts: the stacks of active coroutines and those coroutines themselves, global
variables, objects held by the host. -/
inductive Root (vm : VM) : Value → Prop
  | stack {i : Nat} {c : Ctx} {v : Value} : Active vm i → vm.ctxs[i]? = some (some c) →
      v ∈ c.stack.used → Root vm v
  | coroutine {i : Nat} {c : Ctx} : Active vm i → vm.ctxs[i]? = some (some c) → Root vm c.coObj
  | static {v : Value} : v ∈ vm.statics → Root vm v
  | handle {id : Nat} : id ∈ vm.handles → Root vm (.obj id)

/-- What an object refers to: its keys, its field values; for a coroutine the values on its stack and the
coroutine that resumed it; for other external data what the host's mark callback reports. -/
inductive Points (vm : VM) : Nat → Value → Prop
  | key {id : Nat} {o : Obj} {es : List (Value × Value)} {e : Value × Value} :
      vm.objects.entry id = some o → es ∈ o.buckets → e ∈ es → Points vm id e.1
  | field {id : Nat} {o : Obj} {es : List (Value × Value)} {e : Value × Value} :
      vm.objects.entry id = some o → es ∈ o.buckets → e ∈ es → Points vm id e.2
  | stack {id i : Nat} {o : Obj} {c : Ctx} {v : Value} :
      vm.objects.entry id = some o → o.extType = vm.coType → o.extData = some i →
      vm.ctxs[i]? = some (some c) → v ∈ c.stack.used → Points vm id v
  | resumer {id i p : Nat} {o : Obj} {c pc : Ctx} :
      vm.objects.entry id = some o → o.extType = vm.coType → o.extData = some i →
      vm.ctxs[i]? = some (some c) → c.parent = some p → vm.ctxs[p]? = some (some pc) →
      Points vm id pc.coObj
  | host {id : Nat} {o : Obj} {t : ExtType} {v : Value} :
      vm.objects.entry id = some o → o.extType ≠ vm.coType → vm.extTypes[o.extType]? = some t →
      t.hasMark = true → v ∈ H.mark o.extType o.extData → Points vm id v

/-- Reachable values. -/
inductive Reach (vm : VM) : Value → Prop
  | root {v : Value} : Root vm v → Reach vm v
  | step {id : Nat} {v : Value} : Reach vm (.obj id) → Points H vm id v → Reach vm v

/-- The coroutine structure is in order: the main program's context exists, every coroutine object owns
one context and every other context is owned by one coroutine object, stacks are well formed, resumers
exist, and the chain of resumers from the running context is finite, without repetition, ends at the main
program and contains every context that has a resumer. -/
structure CoWF (vm : VM) : Prop where
  root : ∃ c, vm.ctxs[0]? = some (some c) ∧ c.parent = none ∧ c.coObj = .nil
  stack : ∀ (i : Nat) (c : Ctx), vm.ctxs[i]? = some (some c) → c.stack.WF
  own : ∀ (id : Nat) (o : Obj), vm.objects.entry id = some o → o.extType = vm.coType →
    ∃ (i : Nat) (c : Ctx), o.extData = some i ∧ i ≠ 0 ∧ vm.ctxs[i]? = some (some c) ∧ c.coObj = .obj id
  owned : ∀ (i : Nat) (c : Ctx), i ≠ 0 → vm.ctxs[i]? = some (some c) →
    ∃ (id : Nat) (o : Obj), c.coObj = .obj id ∧ vm.objects.entry id = some o ∧ o.extType = vm.coType ∧
      o.extData = some i
  chain : ∃ l : List Nat, l.Nodup ∧ l.head? = some vm.cur ∧ l.getLast? = some 0 ∧
    (∀ (n i j : Nat), l[n]? = some i → l[n + 1]? = some j →
      ∃ c, vm.ctxs[i]? = some (some c) ∧ c.parent = some j) ∧
    (∀ (i : Nat) (c : Ctx), vm.ctxs[i]? = some (some c) → c.parent ≠ none → i ∈ l)
  type : ∃ t, vm.extTypes[vm.coType]? = some t ∧ t.hasMark = true ∧ t.hasCleanup = true ∧
    vm.coType ≠ UINT_MAX

/-- The object's external type has a cleanup callback. -/
def HasCleanup (vm : VM) (o : Obj) : Prop :=
  o.extType ≠ UINT_MAX ∧ ∃ t, vm.extTypes[o.extType]? = some t ∧ t.hasCleanup = true

/-- What a collection relies on. -/
structure HeapWF (vm : VM) : Prop where
  str : StrWF vm
  tab : vm.objects.WF
  co : CoWF vm
  statics : vm.statics.length = vm.staticMask + 1
  handles : ∀ id ∈ vm.handles, ∃ o, vm.objects.entry id = some o
  /-- no object or string was marked by a pass later than the last one -/
  passO : ∀ id o, vm.objects.entry id = some o → o.lastGCPass ≤ vm.gc.lastGCPass
  passS : ∀ id e, vm.strings.entry id = some e → e.lastGCPass ≤ vm.gc.lastGCPass

end Nk
