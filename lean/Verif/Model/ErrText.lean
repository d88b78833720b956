import Verif.Model.CStr
import Verif.Model.Registry
/-!
# The texts of errors: `src/nkerror.c`

`VM.errors` has the constant parts of the messages only, and is what instructions and the compiler add to.  Here the texts are
the memory they live in, as in `Model/CStr`.
-/
namespace Nk.ErrText
open Nk.CStr

/-- `struct NKErrorState`, `src/nkerror.h`: the texts of the errors, first to last (none: NULL), and `allocationFailure`. -/
structure State where
  texts : List (Option Bytes)
  failed : Bool
deriving Repr, DecidableEq

/-- `nkiErrorStateInit`, `src/nkerror.c:51-56`. -/
def State.init : State := { texts := [], failed := false }

/-- The string a pointer points at, as `%s` of `sprintf` reads it. -/
def cstr : Bytes → Res Bytes
  | [] => .ub .oob
  | c :: b => if c = 0 then .ok [] else do
    let s ← cstr b
    .ok (c :: s)

/-- What `sprintf` writes at `dst + i`, a byte at a time and a terminator. -/
def put (dst : Bytes) (i : Nat) : Bytes → Res Bytes
  | [] => wr dst i 0
  | c :: s => do
    let dst ← wr dst i c
    put dst (i + 1) s

/-- The position an error gets, `src/nkerror.c:93-105` with `nkiVmFindCurrentSourceMarker`, `src/nkvm.c:639-645`; `idx` is the
masked instruction pointer. -/
def position (ms : List Marker) (idx line file : Nat) : Nat × Nat :=
  if line = UINT_MAX ∨ file = UINT_MAX then
    match findSourceMarker ms idx with
    | some m => (if line = UINT_MAX then m.line else line, if file = UINT_MAX then m.file else file)
    | none => (line, file)
  else (line, file)

/-- `"<unknown>"`, `src/nkerror.c:131`. -/
def unknown : Bytes := cs "<unknown>" ++ [0]

/-- `src/nkerror.c:143`. -/
def exhausted : Bytes := cs "Unknown error. Address space exhaustion in error reporting. Cannot report error." ++ [0]

/-- `src/nkerror.c:125-132`. -/
def fileName (files : List Bytes) (file : Nat) : Bytes :=
  match files[file]? with
  | some f => f ++ [0]
  | none => unknown

/-- `src/nkerror.c:134-164`: the text of a new error. `NK_PRINTF_UINTCHARSNEED` is 11, `src/nktypes.h:159`; `%u` of `sprintf` is
the number in decimal. -/
def errorText (hdr : Nat) (junk : Nat → UInt8) (fname str : Bytes) (line : Nat) : Res Bytes := do
  let fixed := 11 + 16 + 1
  let errorSpace ← strlen str
  let fnameSpace ← strlen fname
  let over1 : Bool := fixed > UINT_MAX - errorSpace
  let space := u32 (fixed + errorSpace)
  let over2 : Bool := space > UINT_MAX - fnameSpace
  let space := u32 (space + fnameSpace)
  let (fname, str, space) ← (if over1 || over2 then do
      let f ← strlen unknown
      let e ← strlen exhausted
      .ok (unknown, exhausted, u32 (fixed + f + e))
    else .ok (fname, str, space) : Res (Bytes × Bytes × Nat))
  let buf ← malloc hdr junk space
  let buf ← wr buf 0 0
  let f ← cstr fname
  let s ← cstr str
  put buf 0 (f ++ cs ":" ++ natDec (if line ≠ UINT_MAX then line else 0) ++ cs ": " ++ s)

/-- `nkiAddErrorEx`, `src/nkerror.c:82-165`.  An allocation that fails ends the call, see `CStr.malloc`; the list then has an error
without a text, and `allocationFailure` is set (`NK_CATASTROPHE`). -/
def addErrorEx (hdr : Nat) (junk : Nat → UInt8) (files : List Bytes) (ms : List Marker) (idx line file : Nat) (str : Bytes) (e : State) :
    Res State := do
  let p := position ms idx line file
  let t ← errorText hdr junk (fileName files p.2) str p.1
  .ok { e with texts := e.texts ++ [some t] }

/-- `nkiAddError`, `src/nkerror.c:75-80`. -/
def addError (hdr : Nat) (junk : Nat → UInt8) (files : List Bytes) (ms : List Marker) (idx : Nat) (str : Bytes) (e : State) : Res State :=
  addErrorEx hdr junk files ms idx UINT_MAX UINT_MAX str e

/-- `nkiGetErrorCount`, `src/nkerror.c:167-182`. -/
def count (e : State) : Nat := u32 (e.texts.length + if e.failed then 1 else 0)

/-- `nkiAllocationFailureStr`, `src/nkerror.c:184`. -/
def failureText : Bytes := cs "Allocation failure." ++ [0]

/-- The loop of `nkiGetErrorLength`, `src/nkerror.c:200-206`. -/
def lengthLoop (length : Nat) : List (Option Bytes) → Res Nat
  | [] => .ok length
  | none :: _ => .ub .null
  | some t :: ts => do
    let l ← strlen t
    lengthLoop (u32 (length + u32 (l + 1))) ts

/-- `nkiGetErrorLength`, `src/nkerror.c:186-211`. -/
def length (e : State) : Res Nat :=
  if e.failed then do
    let l ← strlen failureText
    .ok (u32 (1 + u32 (l + 1)))
  else lengthLoop 1 e.texts

/-- The loop of `nkiGetErrorText`, `src/nkerror.c:226-232`. -/
def textLoop (buffer : Bytes) : List (Option Bytes) → Res Bytes
  | [] => .ok buffer
  | none :: _ => .ub .null
  | some t :: ts => do
    let buffer ← strcat buffer t
    let buffer ← strcat buffer (cs "\n" ++ [0])
    textLoop buffer ts

/-- `nkiGetErrorText`, `src/nkerror.c:213-235`: the host's buffer afterwards. -/
def text (e : State) (buffer : Bytes) : Res Bytes := do
  let buffer ← wr buffer 0 0
  if e.failed then do
    let buffer ← strcat buffer failureText
    strcat buffer (cs "\n" ++ [0])
  else textLoop buffer e.texts

end Nk.ErrText
