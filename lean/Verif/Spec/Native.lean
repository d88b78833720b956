import Verif.Spec.Script
import Verif.Spec.Calls
/-!
# Native functions in scripts
-/
namespace Nk.Cc

/-- The function `id` of `W` is the native function `x` with the callback `cb`. -/
structure IsNative (W : VM) (id cb : Nat) (f : Func) (x : ExtFunc) : Prop where
  fn : W.functions[id]? = some f
  ext : f.extId ≠ UINT_MAX
  nat : W.extFuncs[f.extId]? = some x
  cb : x.callback = some cb
  /-- If arguments are declared, there is a type for each. -/
  decl : x.argc ≠ UINT_MAX → x.argTypes.length = x.argc ∧ x.argExtTypes.length = x.argc

/-- The native function takes these arguments. -/
def Takes (W : VM) (f : Func) (x : ExtFunc) (args : List Value) : Prop :=
  (f.argc = UINT_MAX ∨ f.argc = args.length) ∧ ArgsFit W x args

/-- Called with `args` on a machine like `W`, the callback `cb` of the host returns `r`, and has turned `W` into `W'`; it leaves
the stack and the instruction pointer as they are. -/
def Gives (H : Host) (cb : Nat) (args : List Value) (W : VM) (r : Value) (W' : VM) : Prop :=
  ∀ p l vm, Mach W p l vm → ∃ vm', H.call cb args vm = .ok (r, vm') ∧ Mach W' p l vm'

/-- After the host has declared the variable `x`.  (The compiler allocates a place for the variable twice, and the second one is
used, `src/nkcompil.c:999-1004`.) -/
def Env.declare (E : Env) (x : Bytes) : Env :=
  match E.g with
  | some n => { Γ := fun y => if x = y then some (.glob (n + 1)) else E.Γ y, g := some (n + 2), h := E.h }
  | none => E

end Nk.Cc
