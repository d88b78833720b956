import Verif.Spec.Layout
import Verif.Spec.Machine
import Verif.Model.Repl
/-!
# What a host can have done with a compiler

The states of a compiler between two calls of the host: made on a VM without code, then any sequence of compiled scripts
(successful or not), declared variables and native functions, partial finishings and clearings of the errors, and in between anything that happens
to the VM itself, such as running the program so far.
-/
namespace Nk.Cc

/-- A VM that has no code yet: as `nkxVmCreate` leaves it, but for what the host registered or allocated. -/
structure Blank (vm : VM) : Prop where
  instrs : vm.instrs = VM.create.instrs
  mask : vm.instrMask = VM.create.instrMask
  fns : ∀ f ∈ vm.functions, f.first = 0
  strings : StrWF vm

/-- What the host and the running program can do to the VM between two calls of the compiler: anything but writing code or
the entries of script functions. -/
structure LeavesCode (vm vm' : VM) : Prop where
  instrs : vm'.instrs = vm.instrs
  mask : vm'.instrMask = vm.instrMask
  fns : ∀ f ∈ vm'.functions, f ∈ vm.functions ∨ f.first = 0
  strings : StrWF vm'
  kept : vm.functions <+: vm'.functions

/-- A token as the tokenizer makes them: the two types that the parser makes up do not occur. -/
def FromSource (t : Token) : Prop := t.type ≠ .postIncrement ∧ t.type ≠ .postDecrement

/-- One thing a host can do with a compiler, or with its VM in between. -/
inductive Turn (F : FloatOps) (s : CS) : CS → Prop
  | tokens {s' : CS} {toks : List Token} {b : Bool} (ht : ∀ t ∈ toks, FromSource t) (r : compileTokens F toks s = .ok (b, s')) : Turn F s s'
  | script {s' : CS} {hdr : Nat} {junk : Nat → UInt8} {source file : Bytes} {b : Bool}
      (r : compileScript F hdr junk source file s = .ok (b, s')) : Turn F s s'
  | global {s' : CS} {name : Bytes} {o : Option Nat} (r : createGlobal name s = .ok (o, s')) : Turn F s s'
  | native {s' : CS} {name : Bytes} {cb : Option Nat} (r : createCFunction name cb s = .ok ((), s')) : Turn F s s'
  | finish {s' : CS} (r : partiallyFinalize s = .ok ((), s')) : Turn F s s'
  | run {vm : VM} (c : LeavesCode s.vm vm) : Turn F s { s with vm := vm }

/-- What a host can have made of the compiler in state `s` by any number of these. -/
inductive After (F : FloatOps) (s : CS) : CS → Prop
  | refl : After F s s
  | step {t u : CS} (h : After F s t) (r : Turn F t u) : After F s u

/-- The states of a compiler between two calls of the host.  The errors can be cleared as an interactive session does it, going back to
where the program ended before, if no script function was added since then (`C75_violated` shows what happens if one was). -/
inductive Session (F : FloatOps) : CS → Prop
  | start {vm : VM} (h : Blank vm) : Session F (createCompiler vm)
  | tokens {s s' : CS} {toks : List Token} {b : Bool} (h : Session F s) (ht : ∀ t ∈ toks, FromSource t)
      (r : compileTokens F toks s = .ok (b, s')) : Session F s'
  | script {s s' : CS} {hdr : Nat} {junk : Nat → UInt8} {source file : Bytes} {b : Bool} (h : Session F s)
      (r : compileScript F hdr junk source file s = .ok (b, s')) : Session F s'
  | global {s s' : CS} {name : Bytes} {o : Option Nat} (h : Session F s) (r : createGlobal name s = .ok (o, s')) : Session F s'
  | native {s s' : CS} {name : Bytes} {cb : Option Nat} (h : Session F s) (r : createCFunction name cb s = .ok ((), s')) : Session F s'
  | finish {s s' : CS} (h : Session F s) (r : partiallyFinalize s = .ok ((), s')) : Session F s'
  | run {s : CS} {vm : VM} (h : Session F s) (c : LeavesCode s.vm vm) : Session F { s with vm := vm }
  | clear {s s' t : CS} (h : Session F s) (a : After F s s') (hf : ∀ f ∈ s'.vm.functions, f ∈ s.vm.functions ∨ f.first = 0)
      (r : clearRepl s.write s' = .ok ((), t)) : Session F t

end Nk.Cc
