import Verif.Model.Repl
import Verif.Spec.Heap
/-!
# What clearing the errors of an interactive session should do
-/
namespace Nk

/-- `vm'` is `vm` after its errors were cleared and everything that was being executed was given up: the main program is the running one
again, with an empty stack, and will go on at `ip`; the coroutines that were running or waiting for one another are invalid; every other coroutine
and everything else in the VM is as before, except that the instruction at `ip` is END. -/
structure Cleared (ip : Nat) (vm vm' : VM) : Prop where
  errors : vm'.errors = []
  cur : vm'.cur = 0
  main : ∃ c, vm'.ctxs[0]? = some (some c) ∧ c.ip = ip ∧ c.stack.used = [] ∧ c.stack.WF ∧ c.parent = none ∧ c.coObj = .nil
  given_up : ∀ i, i ≠ 0 → Active vm i → ∃ c, vm'.ctxs[i]? = some (some c) ∧ c.state = .invalid ∧ c.stack.used = [] ∧ c.stack.WF ∧ c.parent = none
  others : ∀ i, ¬ Active vm i → vm'.ctxs[i]? = vm.ctxs[i]?
  code : vm'.instrs = vm.instrs.set ip 20#32
  rest : vm' = { vm with errors := vm'.errors, cur := vm'.cur, ctxs := vm'.ctxs, instrs := vm'.instrs }

end Nk
