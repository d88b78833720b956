import Verif.Spec.Func
import Verif.Spec.Exec
/-!
# Scripts and the machine between them

What is asked of native functions and of the state between two scripts in C68, and what an execution leaves.
-/
namespace Nk

/-- The VM with other instruction counters: the countdown of `nkiVmIterate` and the instructions left. -/
def VM.clock (vm : VM) (c l : Nat) : VM := { vm with gc := { vm.gc with countdown := c }, instrLeft := l }

/-- A result with other counters. -/
def Res.clock {α : Type} (r : Res (α × VM)) (c l : Nat) : Res (α × VM) :=
  match r with
  | .ok (a, vm) => .ok (a, vm.clock c l)
  | .ub k => .ub k

/-- `m` does not look at the counters. -/
structure Clk {α : Type} (m : M α) : Prop where
  run : ∀ c l vm, m (vm.clock c l) = (m vm).clock c l
  mono : ∀ vm a vm', m vm = .ok (a, vm') → vm'.gc.newObjCountdown ≤ vm.gc.newObjCountdown

/-- What is asked of native functions here: they do not depend on the instruction counters and leave them alone, do not raise
the number of objects that may be created before the next collection, and do not take errors back. -/
structure Plain (H : Host) : Prop where
  clk : ∀ cb args, Clk (H.call cb args)
  errs : KeepsErrors H

namespace Props
open Nk.Cc

/-- Between two scripts: no error has been recorded, every scope but the outermost is closed, there is space for the global
variables, and the machine stands at the end of the program, with as many values on the stack as the compiler thinks there
are.  No limit on the number of instructions is set. -/
structure AtRest (s : CS) : Prop where
  pre : Pre s
  root : ∃ c, s.ctx = [c] ∧ c.fnId = UINT_MAX
  top : Top (envOf s)
  slen : s.vm.statics.length = s.vm.staticMask + 1
  spow : ∃ k, k ≤ 31 ∧ s.vm.staticMask + 1 = 2 ^ k
  small : s.vm.staticMask + 1 < UINT_MAX / 8
  count : s.staticCount ≤ s.vm.staticMask + 1
  here : ∃ l, Mach s.vm s.write l s.vm ∧ l.length = offOf s.ctx
  left : s.vm.instrLeft = UINT_MAX

/-- `vm` is the machine `W` at the instruction `p` with the values `l` on the stack, apart from how many instructions are left
until the counters are checked again. -/
def Ends (W : VM) (p : Nat) (l : List Value) (vm : VM) : Prop := ∃ v m, Mach W p l v ∧ vm = v.clock m UINT_MAX

/-- However far the program runs, it has not created so many objects that a collection is due. -/
def Few (F : FloatOps) (H : Host) (vm : VM) : Prop := ∀ v, Runs F H vm v → v.gc.newObjCountdown ≠ 0

end Props
end Nk
