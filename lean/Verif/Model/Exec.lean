import Verif.Model.Opcode
/-!
# Running programs: `src/nkx.c`, `src/nkvm.c`, `src/nkfunc.c`, `src/nkcompil.c`

`F` and `H` are the float operations and the host.  Loops without a bound in the code take an iteration bound
(`fuel`) here and return `none` when it is used up.
-/
namespace Nk

/-- `nkxVmProgramHasEnded`, `src/nkx.c:1113-1118`, and the same test in `nkxVmIterate` (`src/nkx.c:143-145`) and
`nkiVmExecuteProgram` (`src/nkvm.c:428-430`): the whole word is compared, without the opcode mask. -/
def atEnd : M Bool := do
  let c ← curCtx
  let vm ← get
  let w ← liftR (instrAt vm c.ip)
  return decide (w.toNat = 20)

/-- `nkiVmHasErrors`, `src/nkerror.c:71-74`.  The failure flag is not part of `VM`: execution leaves through
`longjmp` when it is set (`Model.Fail`). -/
def hasErrors (vm : VM) : Bool := !vm.errors.isEmpty

/-- `nkxSetRemainingInstructionLimit`, `src/nkx.c:676-679`. -/
def setInstructionLimit (n : Nat) (vm : VM) : VM := { vm with instrLeft := n }

/-- `nkxSetGarbageCollectionInterval`, `src/nkx.c:716-722`. -/
def setGCInterval (n : Nat) (vm : VM) : VM :=
  { vm with gc := { vm.gc with interval := n, countdown := if vm.gc.countdown > n then n else vm.gc.countdown } }

/-- The loop of `nkiCompilerClearReplErrorState`, `src/nkcompil.c:1674-1692`: reset every context from the current
one up to the root.  `fuel` bounds the iterations. -/
def clearChain : Nat → M Unit
  | 0 => liftR (.ub .fuel)
  | fuel + 1 => do
    let vm ← get
    let c ← curCtx
    match c.parent with
    | none => setCtx vm.cur Ctx.init
    | some p => do
      setCtx vm.cur { Ctx.init with state := .invalid }
      modify fun vm => { vm with cur := p }
      clearChain fuel

/-- `nkiCompilerClearReplErrorState`, `src/nkcompil.c:1660-1698`, on the VM: `ip` is the write index of the
compiler. -/
def clearReplErrors (ip : Nat) : M Unit := do
  fun vm => if ip < vm.instrs.length then .ok ((), { vm with instrs := vm.instrs.set ip 20 }) else .ub .oob
  modify fun vm => { vm with errors := [] }
  let vm ← get
  clearChain (vm.ctxs.length + 1)
  modCur fun c => { c with ip := ip }

section
variable (F : FloatOps) (H : Host)

/-- `nkxVmIterate`, `src/nkx.c:134-160`. -/
def vmIterate : Nat → M Unit
  | 0 => return ()
  | n + 1 => do
    let e ← atEnd
    if e then iterate F H
    else do
      let vm ← get
      if hasErrors vm then return ()
      else do
        iterate F H
        vmIterate n

/-- `nkiVmExecuteProgram`, `src/nkvm.c:426-440` (`nkxVmExecuteProgram`, `src/nkx.c:109-117`). -/
def executeProgram : Nat → M (Option Bool)
  | 0 => return none
  | n + 1 => do
    let e ← atEnd
    if e then return some true
    else do
      iterate F H
      let vm ← get
      if hasErrors vm then return some false else executeProgram n

/-- The loop of `nkiVmCallFunction`, `src/nkfunc.c:130-134`: whether it stopped. -/
def callLoop : Nat → M Bool
  | 0 => do
    let c ← curCtx
    let vm ← get
    return decide (c.ip = UINT_MAX ∨ hasErrors vm)
  | n + 1 => do
    let c ← curCtx
    let vm ← get
    if c.ip = UINT_MAX ∨ hasErrors vm then return true
    else do
      iterate F H
      callLoop n

/-- `nkiVmCallFunction` up to the loop, `src/nkfunc.c:81-120`: returns whether to go on. -/
def callEnter (fv : Value) (args : List Value) : M Bool := do
  push fv
  pushAll args
  pushInt (BitVec.ofNat 32 args.length)
  modCur fun c => { c with ip := UINT_MAX - 1 }
  opCall F H
  let vm ← get
  if hasErrors vm then return false
  else do
    modCur fun c => { c with ip := u32 (c.ip + 1) }
    return true

/-- How `nkiVmCallFunction` ends. -/
inductive CallResult where
  /-- returned early with an error, without a result -/
  | failed
  /-- the loop has not stopped yet -/
  | running
  | returned (v : Value)
deriving Repr, DecidableEq

/-- `nkiVmCallFunction`, `src/nkfunc.c:67-146` (`nkxVmCallFunction`). -/
def callFunction (fuel : Nat) (fv : Value) (args : List Value) : M CallResult := do
  match fv with
  | .fn _ => do
    let c ← curCtx
    let go ← callEnter F H fv args
    if go then do
      let stopped ← callLoop F H fuel
      if stopped then do
        let v ← pop
        modCur fun d => { d with ip := c.ip }
        return .returned v
      else return .running
    else return .failed
  | _ => do
    addError "Tried to call a non-function with nkiVmCallFunction."
    return .failed

end
end Nk
