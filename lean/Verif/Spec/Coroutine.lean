import Verif.Spec.Exec
import Verif.Spec.Heap
/-!
# Coroutines that have finished, and coroutines that are not running

Contexts are numbered in the order in which they are created and their numbers are not used again, so the number of a
context identifies a coroutine.
-/
namespace Nk

/-- Context `k` has finished (or was given up) as `c` and is not running or waiting for a coroutine it resumed; or it has been freed,
after its object was collected. -/
structure Gone (k : Nat) (c : Ctx) (vm : VM) : Prop where
  notCur : vm.cur ≠ k
  notWaiting : ∀ (i : Nat) (d : Ctx), vm.ctxs[i]? = some (some d) → d.parent ≠ some k
  ctx : vm.ctxs[k]? = some (some c) ∨ vm.ctxs[k]? = some none

/-- Native functions do not touch finished coroutines (there is nothing in the API to do that with). -/
def KeepsFinished (H : Host) : Prop :=
  ∀ k c cb args vm a vm', c.state = .finished → Gone k c vm → H.call cb args vm = .ok (a, vm') → Gone k c vm'

/-- Nor do they touch coroutines that were given up when errors were cleared. -/
def KeepsInvalid (H : Host) : Prop :=
  ∀ k c cb args vm a vm', c.state = .invalid → Gone k c vm → H.call cb args vm = .ok (a, vm') → Gone k c vm'

/-- The object `id` is a coroutine, with context `k`. -/
def IsCoroutine (vm : VM) (id k : Nat) : Prop :=
  ∃ o, vm.objects.entry id = some o ∧ o.extType = vm.coType ∧ o.extData = some k

/-- Native functions return in the context in which they were called and leave the other contexts alone, except that
collections may free them. -/
def KeepsOthers (H : Host) : Prop :=
  ∀ cb args vm a vm', H.call cb args vm = .ok (a, vm') → vm'.cur = vm.cur ∧ vm.ctxs.length ≤ vm'.ctxs.length ∧
    ∀ i, i < vm.ctxs.length → i ≠ vm.cur → vm'.ctxs[i]? = vm.ctxs[i]? ∨ vm'.ctxs[i]? = some none

end Nk
