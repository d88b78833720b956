import Verif.Model.Exec
import Verif.Model.Compile
/-!
# Clearing the errors of an interactive session, on the compiler

The part that concerns the VM is `clearReplErrors` in `Model/Exec`.
-/
namespace Nk.Cc

/-- `nkxCompilerClearReplErrorState`, `src/nkx.c:320-332`, and `nkiCompilerClearReplErrorState`, `src/nkcompil.c:1660-1698`: `ip` is the
argument `instructionPointerReset`.  Nothing else of the compiler is reset, in particular not the variables of the root scope and
not `recursionCount`. -/
def clearRepl (ip : Nat) : CM Unit := do
  cmod fun s => { s with write := ip }
  onVM (clearReplErrors ip)

/-- One round of the interactive interpreter, `src/interp/main.c:363-410`, without reading the text and printing: whether there were
errors, and which.  `n` bounds the number of instructions, `hdr` and `junk` are as for the tokenizer. -/
def replLine (F : FloatOps) (H : Host) (hdr : Nat) (junk : Nat → UInt8) (n : Nat) (text : Bytes) : CM (List String) := do
  let old ← cget
  let _ ← compileScript F hdr junk text (cs "<stdin>")
  let s ← cget
  if s.vm.errors = [] then do
    partiallyFinalize
    onVM (vmIterate F H n)
  else pure ()
  let s ← cget
  if s.vm.errors ≠ [] then do
    clearRepl old.write
    return s.vm.errors
  else return []

end Nk.Cc
