import Verif.Model.ErrText
import Verif.Model.VM
import Verif.Model.Registry
/-!
# The state dump: `src/nkdbg.c:74-349` and `:455-710`, `nkiVmGetOpcodeName`, `src/nkvm.c:155-158`

`nkxDbgDumpState` writes a description of the whole VM to a stream.  The result here is the text written.  The buffers the
lines are put together in are memory blocks, every access to them is checked.

Simplified: the stream accepts everything; the memory for the hole and bucket trackers is available (the VM is then unchanged
by the dump, so it is only read here); the texts of errors are those of `VM.errors`, without position (`Model.ErrText` has
the positions); the array masks are less than `UINT_MAX`, so that the loops up to them end; memory usage is not part of `VM` and is given as `usage`.
-/
namespace Nk.Dbg

open CStr

/-- `nkiOpcodeNameTable`, filled in by `nkiVmInitOpcodeTable`, `src/nkvm.c:53-147`, in the order of `enum NKOpcode`,
`src/nkenums.h:60-131`; the other entries of its 64 are never set. -/
def opNames : List Bytes :=
  ["NOP", "ADD", "SUBTRACT", "MULTIPLY", "DIVIDE", "NEGATE", "MODULO", "PUSHLITERAL_INT", "PUSHLITERAL_FLOAT",
   "PUSHLITERAL_STRING", "PUSHLITERAL_FUNCTIONID", "POP", "POPN", "STACKPEEK", "STACKPOKE", "STATICPOKE", "STATICPEEK",
   "JUMP_RELATIVE", "CALL", "RETURN", "END", "JUMP_IF_ZERO", "GREATERTHAN", "LESSTHAN", "GREATERTHANOREQUAL",
   "LESSTHANOREQUAL", "EQUAL", "NOTEQUAL", "EQUALWITHSAMETYPE", "NOT", "AND", "OR", "CREATEOBJECT", "OBJECTFIELDGET",
   "OBJECTFIELDSET", "OBJECTFIELDGET_NOPOP", "PREPARESELFCALL", "PUSHNIL", "COROUTINE_CREATE", "COROUTINE_YIELD",
   "COROUTINE_RESUME", "COROUTINE_ISFINISHED", "LEN"].map cs

/-- `nkiVmGetOpcodeName`, `src/nkvm.c:155-158`; `none` is NULL. -/
def opName (op : BitVec 32) : Option Bytes := opNames[op.toNat % 64]?

/-- What a string function reads from a buffer with `%s`. -/
def text (b : Bytes) : Res Bytes := do
  let n ← strlen b
  .ok (b.take n)

/-- The loop of `nkiDbgAppendEscaped`, `src/nkdbg.c:77-98`. -/
def escapeAt (size : Nat) : Bytes → Nat → Bytes → Res Bytes
  | dst, i, [] => wr dst i 0
  | dst, i, c :: src =>
    if i + 2 < size ∧ c ≠ 0 then
      if c = 10 then do
        let dst ← wr dst i 92
        let dst ← wr dst (i + 1) 110
        escapeAt size dst (i + 2) src
      else if c = 9 then do
        let dst ← wr dst i 92
        let dst ← wr dst (i + 1) 116
        escapeAt size dst (i + 2) src
      else if c = 34 then do
        let dst ← wr dst i 92
        let dst ← wr dst (i + 1) 34
        escapeAt size dst (i + 2) src
      else do
        let dst ← wr dst i c
        escapeAt size dst (i + 1) src
    else wr dst i 0

/-- `nkiDbgAppendEscaped`, `src/nkdbg.c:74-99`. -/
def appendEscaped (size : Nat) (dst src : Bytes) : Res Bytes := do
  let i ← strlen dst
  escapeAt size dst i src

/-- The end of `nkiDbgAppendLine`, `src/nkdbg.c:584-591`. -/
def dots (size : Nat) (dst : Bytes) (i : Nat) : Res Bytes :=
  if i + 4 = size then do
    let dst ← wr dst i 46
    let dst ← wr dst (i + 1) 46
    let dst ← wr dst (i + 2) 46
    wr dst (i + 3) 0
  else wr dst i 0

/-- The loop of `nkiDbgAppendLine`, `src/nkdbg.c:575-582`. -/
def lineAt (size : Nat) : Bytes → Nat → Bytes → Res Bytes
  | dst, i, [] => if i + 4 < size then wr dst i 0 else dots size dst i
  | dst, i, c :: src =>
    if i + 4 < size then
      if c = 0 ∨ c = 10 then wr dst i 0
      else do
        let dst ← wr dst i c
        lineAt size dst (i + 1) src
    else dots size dst i

/-- `nkiDbgAppendLine`, `src/nkdbg.c:572-592`; the input is `none` for NULL, which is looked at only if there is room. -/
def appendLine (size : Nat) (dst : Bytes) (input : Option Bytes) : Res Bytes := do
  let i ← strlen dst
  match input with
  | some src => lineAt size dst i src
  | none => if i + 4 < size then .ub .null else dots size dst i

/-- The loop of `nkiDbgPadLine`, `src/nkdbg.c:597-600`, `n` times. -/
def padAt (value : UInt8) : Nat → Bytes → Nat → Res Bytes
  | 0, dst, i => wr dst i 0
  | n + 1, dst, i => do
    let dst ← wr dst i value
    padAt value n dst (i + 1)

/-- `nkiDbgPadLine`, `src/nkdbg.c:594-601`. -/
def padLine (padding : Nat) (dst : Bytes) (value : UInt8) : Res Bytes := do
  let i ← strlen dst
  padAt value (padding - 1 - i) dst i

/-- `nkiDbgGetNextLine`, `src/nkdbg.c:561-570`. -/
def nextLine : Bytes → Option Bytes
  | [] => none
  | c :: r => if c = 0 then none else if c = 10 then some r else nextLine r

/-- `nkiDbgCountLines`, `src/nkdbg.c:603-613`. -/
def countLines (s : Bytes) : Nat := u32 ((s.takeWhile (· ≠ 0)).filter (· = 10)).length

/-- The 80 bytes of `lineBuf`, `paramBuf` and `escapedBuf` before anything is written to them. -/
def buf (junk : Nat → UInt8) : Bytes := fresh junk 80

/-- `"> "` or `"  "` and the address, `src/nkdbg.c:641-644`. -/
def address (here : Bool) (i : Nat) : Bytes := (if here then cs ">" else cs " ") ++ [32] ++ natDec i

/-- The string of a table entry, or a text in place of it, `str ? str : "<bad string>"`. -/
def strOr (e : Option Str) (other : Bytes) : Bytes :=
  match e with
  | some s => s.str
  | none => other

/-- The parameters of an instruction, `src/nkdbg.c:649-667`: `paramBuf` afterwards and the number of words that were taken. -/
def params (F : FloatOps) (vm : VM) (op param : BitVec 32) (b : Bytes) : Res (Bytes × Nat) :=
  if op = 7 then do
    let b ← ErrText.put b 0 (32 :: itoa param)
    .ok (b, 1)
  else if op = 8 then do
    let b ← ErrText.put b 0 (32 :: F.print param)
    .ok (b, 1)
  else if op = 10 then do
    let b ← ErrText.put b 0 (32 :: natDec param.toNat)
    .ok (b, 1)
  else if op = 9 then do
    let e ← vm.strings.get param.toNat
    let b ← ErrText.put b 0 (32 :: itoa param ++ [58, 34])
    let b ← appendEscaped 80 b (strOr e (cs "<bad string>"))
    let b ← appendLine 80 b (some [34])
    .ok (b, 1)
  else do
    let b ← wr b 0 0
    .ok (b, 0)

/-- Where the listing is in the script: `lastLine` and `linePtr`. -/
structure Source where
  last : Nat
  ptr : Option Bytes

/-- The loop that shows source lines, `src/nkdbg.c:683-698`, while `last < upto`: the lines printed, the position, `lineBuf`. -/
def sourceLines : Nat → Source → Bytes → Res (List Bytes × Source × Bytes)
  | 0, s, b => .ok ([], s, b)
  | n + 1, s, b => do
    let b ← padLine 40 b 32
    let b ← appendLine 80 b (some (cs " ; "))
    let b ← appendLine 80 b s.ptr
    let l ← text b
    match s.ptr with
    | none => .ub .null
    | some p => do
      let b ← wr b 0 0
      let (ls, s, b) ← sourceLines n ⟨u32 (s.last + 1), nextLine p⟩ b
      .ok (l :: ls, s, b)

/-- The end of an instruction in the listing, `src/nkdbg.c:670-710`: its line with the source lines up to it beside and below. -/
def finishLine (vm : VM) (lineCount i : Nat) (s : Source) (b : Bytes) : Res (List Bytes × Source × Bytes) :=
  match s.ptr, findSourceMarker vm.markers i with
  | some _, some m =>
    if s.last < m.actualLine ∧ s.last < lineCount then
      sourceLines (min m.actualLine lineCount - s.last) s b
    else do
      let l ← text b
      .ok ([l], s, b)
  | _, _ => do
    let l ← text b
    .ok ([l], s, b)

/-- One instruction, `src/nkdbg.c:629-712`: the lines, the last word used, the position in the script and the two buffers. -/
def oneInstr (F : FloatOps) (vm : VM) (lineCount i : Nat) (op param : BitVec 32) (s : Source) (line par : Bytes) :
    Res (List Bytes × Nat × Source × Bytes × Bytes) := do
  let c ← ctxAt vm vm.cur
  let line ← ErrText.put line 0 (address (i == c.ip) i)
  let line ← padLine 7 line 32
  let line ← appendLine 80 line (some (cs ": "))
  let line ← appendLine 80 line (opName op)
  let (par, k) ← params F vm op param par
  let t ← text par
  let line ← appendLine 40 line (some t)
  let (ls, s, line) ← finishLine vm lineCount (i + k) s line
  .ok (ls, i + k, s, line, par)

/-- The loop of `nkiDbgDumpListing`, `src/nkdbg.c:629-712`. -/
def listLoop (F : FloatOps) (vm : VM) (lineCount : Nat) : Nat → Nat → Source → Bytes → Bytes → Res (List Bytes)
  | 0, _, _, _, _ => .ub .fuel
  | n + 1, i, s, line, par =>
    if i ≤ vm.instrMask then
      match vm.instrs[i]?, vm.instrs[(i + 1) &&& vm.instrMask]? with
      | some op, some param =>
        if op = 20 then .ok []
        else do
          let (ls, i, s, line, par) ← oneInstr F vm lineCount i op param s line par
          let rest ← listLoop F vm lineCount n (i + 1) s line par
          .ok (ls ++ rest)
      | _, _ => .ub .oob
    else .ok []

/-- `nkiDbgDumpListing`, `src/nkdbg.c:615-714`: the lines. -/
def listing (F : FloatOps) (junk : Nat → UInt8) (vm : VM) (script : Option Bytes) : Res (List Bytes) :=
  listLoop F vm (match script with | some s => countLines s | none => 0) (vm.instrMask + 2) 0 ⟨0, script⟩ (buf junk) (buf junk)

/-- `nkiValueDump`, `src/nkdbg.c:475-519`. -/
def valueDump (F : FloatOps) (junk : Nat → UInt8) (vm : VM) : Value → Res Bytes
  | .int i => .ok (itoa i)
  | .float b => .ok (F.print b)
  | .str id => do
    let e ← vm.strings.get id
    let b ← wr (buf junk) 0 0
    let b ← appendEscaped 80 b (strOr e (cs "<bad id>"))
    let t ← text b
    .ok (cs "string:" ++ natDec id ++ cs ":\"" ++ t ++ cs "\"")
  | .nil => .ok (cs "<nil>")
  | .fn id => .ok (cs "<function:" ++ natDec id ++ cs ">")
  | .obj id => .ok (cs "<object:" ++ natDec id ++ cs ">")
  | .bad t _ => .ok (cs "nkiValueDump unimplemented for type " ++ cs (typeName t))

/-- `label` and a number on a line. -/
def field (label : String) (n : Nat) : Bytes := cs label ++ natDec n ++ [10]

/-- The texts for the elements of a list one after the other. -/
def each (l : List α) (f : α → Res Bytes) : Res Bytes :=
  match l with
  | [] => .ok []
  | a :: l => do
    let t ← f a
    let r ← each l f
    .ok (t ++ r)

/-- An indexed element of an array that is not checked by the code. -/
def elem (l : List α) (i : Nat) : Res α :=
  match l[i]? with
  | some a => .ok a
  | none => .ub .oob

/-- `nkiDbgDumpRaw`, `src/nkdbg.c:101-110`. -/
def raw (s : Bytes) : Bytes :=
  s.flatMap fun c => [(cs "0123456789abcdef").getD (c.toNat / 16) 0, (cs "0123456789abcdef").getD (c.toNat % 16) 0]

/-- `nkiDbgDumpExecutionContext`, `src/nkdbg.c:112-133`. -/
def context (F : FloatOps) (junk : Nat → UInt8) (vm : VM) (c : Ctx) : Res Bytes := do
  let els ← each (List.range c.stack.size) fun i => do
    let v ← elem c.stack.vals i
    let t ← valueDump F junk vm v
    .ok (cs "      " ++ natDec i ++ cs ": " ++ t ++ [10])
  .ok (cs "Execution context:\n" ++ field "  instructionPointer: " c.ip ++ cs "  Stack:\n" ++
    field "    Capacity:  " c.stack.cap ++ field "    Size:      " c.stack.size ++ field "    IndexMask: " c.stack.mask ++
    cs "    Elements:\n" ++ els)

/-- The hole tracker, `src/nkdbg.c:167-184` and `:222-239`: a byte for each entry, asserted to be zero when a hole is found. -/
def trackHoles : List Nat → List Bool → Res (List Bool)
  | [], t => .ok t
  | i :: hs, t => do
    let b ← elem t i
    if b then .ub .assert else trackHoles hs (t.set i true)

/-- The holes of a table, `src/nkdbg.c:165-190` and `:220-245`. -/
def holes (t : Table α) : Res Bytes := do
  let tr ← trackHoles t.holes (List.replicate t.cap false)
  each (List.range t.cap) fun i => do
    let b ← elem tr i
    .ok (if b then field "    " i else [])

/-- The bucket tracker, `src/nkdbg.c:191-206`, which only writes. -/
def trackBuckets (cap : Nat) (ids : List Nat) : Res Bytes :=
  each ids fun i => if i < cap then .ok [] else .ub .oob

/-- A string, `src/nkdbg.c:208-219`. -/
def string (i : Nat) (s : Str) : Bytes :=
  cs "    string " ++ natDec i ++ cs ":\n" ++ field "      stringTableIndex: " i ++
  field "      dontGC:           " (if s.dontGC then 1 else 0) ++ field "      hash:             " s.hash ++
  cs "      data:             " ++ s.str ++ [10] ++ field "      lastGCPass:       " s.lastGCPass ++ raw s.str ++ [10]

/-- The elements of a hash bucket, `src/nkdbg.c:263-276`. -/
def bucket (F : FloatOps) (junk : Nat → UInt8) (vm : VM) (n : Nat) (els : List (Value × Value)) : Res Bytes :=
  if els = [] then .ok []
  else do
    let t ← each els fun (k, v) => do
      let k ← valueDump F junk vm k
      let v ← valueDump F junk vm v
      .ok (cs "          key: " ++ k ++ cs "\n          value: " ++ v ++ [10])
    .ok (cs "        " ++ natDec n ++ cs ":\n" ++ t)

/-- An object, `src/nkdbg.c:248-287`.  The data of a coroutine object is its context. -/
def object (F : FloatOps) (junk : Nat → UInt8) (vm : VM) (i : Nat) (o : Obj) : Res Bytes := do
  let bs ← each (List.range 16) fun n => do
    let els ← elem o.buckets n
    bucket F junk vm n els
  let co ← if o.extType = vm.coType then
      match o.extData with
      | none => .ub .null
      | some d => do
        let c ← ctxAt vm d
        let t ← context F junk vm c
        .ok (cs "      coroutine data:\n" ++ t)
    else .ok []
  .ok (field "    " i ++ field "      index: " i ++ field "      lastGCPass: " o.lastGCPass ++ field "      size: " o.size ++
    field "      external handles: " o.handleCount ++ cs "      hashbuckets:\n" ++ bs ++
    field "      externalDataType: " o.extType ++ co)

/-- The entries of a table that are in use, `src/nkdbg.c:208-219` and `:247-288`. -/
def entries (t : Table α) (f : Nat → α → Res Bytes) : Res Bytes :=
  each (List.range t.cap) fun i => do
    match ← t.read i with
    | none => .ok []
    | some a => f i a

/-- A native function, `src/nkdbg.c:303-332`. -/
def native (i : Nat) (f : ExtFunc) : Res Bytes := do
  let args ← if f.argc ≠ UINT_MAX then
      each (List.range f.argc) fun n => do
        let t ← elem f.argTypes n
        let x ← elem f.argExtTypes n
        .ok (cs "      " ++ natDec n ++ cs " int: " ++ cs (typeName t) ++ cs ", ext: " ++ natDec x ++ [10])
    else .ok []
  .ok (cs "  " ++ natDec i ++ cs ":\n    name: " ++ f.name ++ [10] ++ field "    internalFunctionId: " f.internalId ++
    field "    argumentCount: " f.argc ++ field "    argTypes: " f.argc ++ args)

/-- A list with its indices. -/
def numbered (l : List α) (f : Nat → α → Res Bytes) : Res Bytes :=
  each (List.range l.length) fun i => do
    let a ← elem l i
    f i a

/-- `nkiDbgDumpState`, `src/nkdbg.c:135-349`, called by `nkxDbgDumpState`, `src/nkx.c:631-637`. -/
def dumpState (F : FloatOps) (junk : Nat → UInt8) (usage : Nat) (script : Option Bytes) (vm : VM) : Res Bytes := do
  let errors ← each vm.errors fun e => .ok (cs "  " ++ cs e ++ [10])
  let main ← ctxAt vm 0
  let main ← context F junk vm main
  let statics ← each (List.range (vm.staticMask + 1)) fun i => do
    let v ← elem vm.statics i
    let t ← valueDump F junk vm v
    .ok (cs "    " ++ natDec i ++ cs ": " ++ t ++ [10])
  let code ← listing F junk vm script
  let sholes ← holes vm.strings
  let _ ← each vm.sbuckets (trackBuckets vm.strings.cap)
  let strings ← entries vm.strings fun i s => .ok (string i s)
  let oholes ← holes vm.objects
  let objects ← entries vm.objects (object F junk vm)
  let functions ← numbered vm.functions fun i f => .ok (cs "  " ++ natDec i ++ cs ":\n" ++ field "    argumentCount: " f.argc ++
    field "    firstInstructionIndex: " f.first ++ field "    externalFunctionId: " f.extId)
  let natives ← numbered vm.extFuncs native
  let globals ← numbered vm.globals fun i g => .ok (cs "  " ++ natDec i ++ cs ":\n    name: " ++ g.1 ++ [10] ++
    field "    staticPosition: " g.2)
  let types ← numbered vm.extTypes fun i t => .ok (cs "  " ++ natDec i ++ cs ":\n    name: " ++ t.name ++ [10])
  .ok (cs "Errors:\n" ++ errors ++ main ++
    cs "Statics:\n" ++ field "  staticAddressMask: " vm.staticMask ++ cs "  Elements:\n" ++ statics ++
    cs "Instructions:\n" ++ field "  instructionAddressMask: " vm.instrMask ++ code.flatMap (· ++ [10]) ++
    cs "String table:\n" ++ field "  capacity: " vm.strings.cap ++ cs "  holes:\n" ++ sholes ++ cs "  strings:\n" ++ strings ++
    cs "objectTable:\n" ++ field "  capacity: " vm.objects.cap ++ cs "  holes:\n" ++ oholes ++ cs "  objects:\n" ++ objects ++
    field "functions: " vm.functions.length ++ functions ++ field "external functions: " vm.extFuncs.length ++ natives ++
    field "globals: " vm.globals.length ++ globals ++ field "externalTypes: " vm.extTypes.length ++ types ++
    cs "Gc stuff:\n" ++ field "  lastGCPass: " vm.gc.lastGCPass ++ field "  gcInterval: " vm.gc.interval ++
    field "  gcCountdown: " vm.gc.countdown ++ field "  gcNewObjectInterval: " vm.gc.newObjInterval ++
    field "  gcNewObjectCountdown: " vm.gc.newObjCountdown ++ field "Current memory usage: " usage)

end Nk.Dbg
