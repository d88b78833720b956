import Verif.Model.Exec
/-!
# Executions

What it means to execute `k` instructions, for a program to have ended, and what is asked of native functions.
-/
namespace Nk

variable (F : FloatOps) (H : Host)

/-- `vm'` is reached from `vm` by executing exactly `k` instructions, none of them with an error recorded. -/
inductive Exec (vm : VM) : Nat → VM → Prop
  | refl : Exec vm 0 vm
  | step {k : Nat} {v v' : VM} : Exec vm k v → v.errors = [] → iterate F H v = .ok ((), v') → Exec vm (k + 1) v'

/-- The next instruction is the end of the program. -/
def Ended (vm : VM) : Prop :=
  ∃ c : Ctx, vm.ctxs[vm.cur]? = some (some c) ∧ c.ip < 4294967296 ∧ vm.instrs[c.ip &&& vm.instrMask]? = some 20

/-- The instruction pointer is a 32-bit number. -/
def IpOK (vm : VM) : Prop := ∀ c : Ctx, vm.ctxs[vm.cur]? = some (some c) → c.ip < 4294967296

/-- Native functions do not remove or reorder errors. -/
def KeepsErrors (H : Host) : Prop :=
  ∀ cb args vm a vm', H.call cb args vm = .ok (a, vm') → vm.errors <+: vm'.errors

/-- A limit is set, the countdown to the next check is running, and at most `b` more instructions are allowed. -/
def Within (g b : Nat) (vm : VM) : Prop :=
  vm.gc.interval = g ∧ vm.instrLeft < UINT_MAX ∧ 1 ≤ vm.gc.countdown ∧ vm.gc.countdown < 4294967296 ∧
    vm.gc.countdown + vm.instrLeft ≤ b

/-- Native functions do not lift the instruction limit or change the collection interval; executing more
instructions (by calling back into the VM) uses up the same limit. -/
def KeepsLimit (H : Host) : Prop :=
  ∀ g b cb args vm a vm', 1 ≤ g → g < 4294967296 → vm.errors ≠ [] ∨ Within g b vm → H.call cb args vm = .ok (a, vm') →
    vm'.errors ≠ [] ∨ Within g b vm'

end Nk
