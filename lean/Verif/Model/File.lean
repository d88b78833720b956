import Verif.Model.Compile
/-!
# Compiling a file

The file system and the C library are not part of the code; a file is what they say about it.
-/
namespace Nk.Cc

/-- An open file: what `ftell` returns at its end (a `long`, -1 if it fails) and what can be read from it. -/
structure File where
  size : Int
  data : Bytes

/-- The part of `nkxCompilerCompileScriptFile` that reads the file, `src/nkx.c:273-286`, after `malloc` succeeded: the contents of the
buffer.  `old` is what was in that memory before, `fread` stores as much as there is but not more than asked for. -/
def readFile (old : Nat → UInt8) (f : File) : Res Bytes :=
  let len := (f.size % 4294967296).toNat
  let cap := u32 (len + 1)
  let got := f.data.take len
  if got.length ≤ cap then
    let buf := got ++ (List.range (cap - got.length)).map fun i => old (got.length + i)
    if len < cap then .ok (buf.set len 0) else .ub .oob
  else .ub .oob

/-- `nkxCompilerCompileScriptFile`, `src/nkx.c:255-292`: `f` is what `fopen` returned, `mem` whether `malloc` did return memory;
`none` means that the failure flag was set. -/
def compileFile (F : FloatOps) (hdr : Nat) (junk old : Nat → UInt8) (f : Option File) (mem : Bool) (name : Bytes) : CM (Option Bool) :=
  match f with
  | none => do
    err "Cannot open script file."
    return some false
  | some f =>
    if mem then
      match readFile old f with
      | .ok buf => do
        let ok ← compileScript F hdr junk buf name
        return some ok
      | .ub k => cub k
    else return none

end Nk.Cc
