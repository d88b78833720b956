import Verif.Model.Token
/-!
# The compiler: state, instructions, variables, and the expression parser

`src/nkcompil.c`, `src/nkexpr.c`.  The tree nodes and contexts of the C code are values here: how they are allocated
and freed is not modelled.  Failures of the allocator (`longjmp`) are modelled only where an array length overflows.
The texts of error messages are kept without the parts that are put in at run time (token and variable names).

Recursive functions of the C code take the recursive call as a parameter; `parseExpr` and, in `Model.Compile`,
`compileStatement` close the loop with a depth bound.
-/
namespace Nk.Cc

/-- `struct NKCompilerStateContextVariable`, `src/nkcompil.h`. -/
structure CVar where
  name : Bytes
  isGlobal : Bool
  noPop : Bool
  position : Nat
deriving DecidableEq, Repr

/-- `struct NKCompilerStateContext`, `src/nkcompil.h`.  `vars` has the newest variable first, `fixups` the newest
last; the parent is the rest of the list of contexts. -/
structure CCtx where
  vars : List CVar
  offset : Nat
  fnId : Nat
  isLoop : Bool
  fixups : List Nat
deriving DecidableEq, Repr

/-- `struct NKCompilerState`, `src/nkcompil.h`.  `ctx` is the chain of contexts from `cs->context` to the root, `toks`
the tokens from `cs->currentToken` on.  `currentActualLineNumber` is left out: it is never read. -/
structure CS where
  vm : VM
  write : Nat
  ctx : List CCtx
  toks : List Token
  line : Nat
  file : Nat
  depth : Nat
  staticCount : Nat
deriving DecidableEq, Repr

/-- A C function working on the compiler state. -/
def CM (α : Type) := CS → Res (α × CS)

namespace CM
@[inline] def pure (a : α) : CM α := fun s => .ok (a, s)

@[inline] def bind (x : CM α) (f : α → CM β) : CM β := fun s =>
  match x s with
  | .ok (a, s') => f a s'
  | .ub k => .ub k

instance : Monad CM where
  pure := pure
  bind := bind
end CM

/-- Read the state. -/
def cget : CM CS := fun s => .ok (s, s)
/-- Update the state. -/
def cmod (f : CS → CS) : CM Unit := fun s => .ok ((), f s)
/-- A computation on the VM. -/
def onVM (m : M α) : CM α := fun s => match m s.vm with
  | .ok (a, vm) => .ok (a, { s with vm := vm })
  | .ub k => .ub k
/-- Undefined behaviour. -/
def cub (k : UB) : CM α := fun _ => .ub k

/-- `nkiCompilerAddError`, `src/nkcompil.c:980-987`. -/
def err (e : String) : CM Unit := onVM (addError e)

/-- `nkiCompilerPushRecursion`, `src/nkcompil.c:1643-1652`. -/
def pushRec : CM Bool := do
  let s ← cget
  if s.depth > 256 then do
    err "Reached recursion limit during compilation."
    return false
  else do
    cmod fun s => { s with depth := s.depth + 1 }
    return true

/-- `nkiCompilerPopRecursion`, `src/nkcompil.c:1654-1658`. -/
def popRec : CM Unit := do
  let s ← cget
  if s.depth = 0 then cub .assert else cmod fun s => { s with depth := s.depth - 1 }

/-! ## Tokens -/

/-- A line number as a 32-bit word. -/
def word (i : Int) : Nat := (BitVec.ofInt 32 i).toNat

/-- `nkiCompilerNextToken`, `src/nkcompil.c:905-936`. -/
def advance (s : CS) : CS :=
  match s.toks with
  | [] => s
  | [_] => { s with toks := [] }
  | _ :: t :: ts =>
    let p := PosState.next ⟨s.line, s.file, s.write, s.vm.markers⟩ t.file (word t.line) (word t.actualLine)
    { s with toks := t :: ts, line := p.line, file := p.file, vm := { s.vm with markers := p.markers } }

/-- `nkiCompilerNextToken` as a step. -/
def nextTok : CM Unit := cmod advance

/-- The type of a token that may be missing, `nkiCompilerCurrentTokenType`, `src/nkcompil.c:948-954`. -/
def typeOf : List Token → TokType
  | [] => .invalid
  | t :: _ => t.type

/-- `nkiCompilerCurrentTokenType`, `src/nkcompil.c:948-954`. -/
def curType : CM TokType := do
  let s ← cget
  return typeOf s.toks

/-- `nkiCompilerExpectAndSkipToken`, `src/nkcompil.c:381-397`. -/
def expectSkip (t : TokType) : CM Bool := do
  let c ← curType
  if c ≠ t then do
    err "Unexpected token: "
    return false
  else do
    nextTok
    return true

/-! ## Instructions -/

/-- `nkiCompilerStackOffsetTable`, `src/nkvm.c:60-142`, by opcode number (`enum NKOpcode`, `src/nkenums.h`). -/
def stackOffset : Nat → Int
  | 1 => -1 | 2 => -1 | 3 => -1 | 4 => -1 | 5 => 0 | 6 => -1
  | 7 => 1 | 8 => 1 | 9 => 1 | 10 => 1
  | 11 => -1 | 12 => 0
  | 13 => 0 | 14 => -1 | 15 => -1 | 16 => 0
  | 17 => -1 | 18 => 0 | 19 => 0 | 20 => 0 | 21 => -2
  | 22 => -1 | 23 => -1 | 24 => -1 | 25 => -1 | 26 => -1 | 27 => -1 | 28 => -1 | 29 => 0
  | 30 => -1 | 31 => -1
  | 32 => 1 | 33 => -1 | 34 => -2 | 35 => 0 | 36 => 0 | 37 => 1
  | 38 => 1 | 39 => 0 | 40 => -1 | 41 => 1 | 42 => 0
  | _ => 0

/-- `x += n` on a `nkuint32_t` for a signed `n`. -/
def addInt (x : Nat) (n : Int) : Nat := ((x + n) % 4294967296).toNat

/-- Change the innermost context, `cs->context->...`. -/
def modCtx (f : CCtx → CCtx) : CM Unit := fun s => match s.ctx with
  | [] => .ub .null
  | c :: cs => .ok ((), { s with ctx := f c :: cs })

/-- The growth of the instruction array, `src/nkcompil.c:50-76`; an instruction has 4 bytes. -/
def growInstrs : CM Unit := do
  let s ← cget
  let oldSize := u32 (s.vm.instrMask + 1)
  let newSize := u32 (oldSize * 2)
  let mask := u32 (s.vm.instrMask * 2) ||| 1
  let mask ← (if mask ≥ UINT_MAX then do
      err "Too many instructions. Hit address space limit."
      pure (mask / 2)
    else pure mask)
  if newSize ≥ UINT_MAX / 4 then cub .longjmp
  else if newSize ≤ oldSize then cub .oob
  else cmod fun s => { s with vm := { s.vm with
    instrs := s.vm.instrs.take oldSize ++ List.replicate (newSize - oldSize) 0, instrMask := mask } }

/-- Write a word of the instruction array. -/
def writeInstr (i : Nat) (w : BitVec 32) : CM Unit := fun s =>
  if i < s.vm.instrs.length then .ok ((), { s with vm := { s.vm with instrs := s.vm.instrs.set i w } })
  else .ub .oob

/-- `nkiCompilerAddInstruction`, `src/nkcompil.c:46-87`. -/
def addInstr (w : BitVec 32) (adjust : Bool) : CM Unit := do
  let s ← cget
  if s.write ≥ s.vm.instrMask then growInstrs else pure ()
  writeInstr s.write w
  if adjust ∧ s.ctx ≠ [] then modCtx fun c => { c with offset := addInt c.offset (stackOffset (w.toNat % 64)) }
  else pure ()
  cmod fun s => { s with write := u32 (s.write + 1) }

/-- `nkiCompilerAddInstructionSimple`, `src/nkcompil.c:89-97`. -/
def emitOp (op : Nat) (adjust : Bool) : CM Unit := addInstr (BitVec.ofNat 32 op) adjust

/-- `nkiCompilerEmitPushLiteralInt`, `src/nkcompil.c:199-212`. -/
def emitInt (v : BitVec 32) (adjust : Bool) : CM Unit := do
  emitOp 7 adjust
  addInstr v false

/-- `nkiCompilerEmitPushLiteralFunctionId`, `src/nkcompil.c:214-228`. -/
def emitFn (id : BitVec 32) (adjust : Bool) : CM Unit := do
  emitOp 10 adjust
  addInstr id false

/-- `nkiCompilerEmitPushLiteralFloat`, `src/nkcompil.c:230-243`. -/
def emitFloat (v : BitVec 32) (adjust : Bool) : CM Unit := do
  emitOp 8 adjust
  addInstr v false

/-- `entry->dontGC = nktrue`, `src/nkcompil.c:263-269`. -/
def keepString (id : Nat) : M Unit := fun vm =>
  match vm.strings.get id with
  | .ub k => .ub k
  | .ok none => .ok ((), vm)
  | .ok (some e) =>
    match vm.strings.write id (some { e with dontGC := true }) with
    | .ub k => .ub k
    | .ok t => .ok ((), { vm with strings := t })

/-- `nkiCompilerEmitPushLiteralString`, `src/nkcompil.c:245-270`. -/
def emitStr (str : Bytes) (adjust : Bool) : CM Unit := do
  emitOp 9 adjust
  let id ← onVM (findOrAddString str)
  addInstr (BitVec.ofNat 32 id) false
  onVM (keepString id)

/-! ## Contexts and variables -/

/-- `nkiCompilerPushContext`, `src/nkcompil.c:99-114`. -/
def pushCtx : CM Unit := cmod fun s => { s with
  ctx := { vars := [], offset := (match s.ctx with | [] => 0 | c :: _ => c.offset), fnId := UINT_MAX, isLoop := false,
           fixups := [] } :: s.ctx }

/-- `popCount`, `src/nkcompil.c:130-147`. -/
def popCount (c : CCtx) : Nat := (c.vars.filter fun v => !v.noPop && !v.isGlobal).length

/-- `nkiCompilerPopContext`, `src/nkcompil.c:116-197`. -/
def popCtx : CM Unit := do
  let s ← cget
  match s.ctx with
  | [] => cub .assert
  | c :: cs => do
    cmod fun s => { s with ctx := cs }
    if popCount c ≠ 0 then do
      emitInt (BitVec.ofNat 32 (popCount c)) false
      emitOp 12 false
    else pure ()

/-- `nkiCompilerAllocateStaticSpace`, `src/nkcompil.c:277-315`; a value has 8 bytes. -/
def allocStatic : CM Nat := do
  let s ← cget
  let ok ← (if u32 (s.vm.staticMask + 1) = s.staticCount then do
      let mask := u32 (s.vm.staticMask * 2) ||| 1
      cmod fun s => { s with vm := { s.vm with staticMask := mask } }
      if mask = UINT_MAX then do
        err "Address space exhaustion trying to add static variable."
        return false
      else if mask + 1 ≥ UINT_MAX / 8 then cub .longjmp
      else do
        cmod fun s => { s with vm := { s.vm with
          statics := s.vm.statics.take s.staticCount ++ List.replicate s.staticCount Value.zero } }
        return true
    else return true)
  if ok then do
    cmod fun s => { s with staticCount := u32 (s.staticCount + 1) }
    let s ← cget
    if s.staticCount = 0 then do
      err "Address space exhaustion trying to add static variable."
      return 0
    else return s.staticCount - 1
  else return 0

/-- The new variable at the front of `cs->context->variables`. -/
def consVar (v : CVar) : CM Unit := modCtx fun c => { c with vars := v :: c.vars }

/-- `nkiCompilerAddVariable`, `src/nkcompil.c:317-379`: whether a variable was added (it is then the first of the
innermost context). -/
def addVariable (name : Bytes) (useTop init : Bool) : CM Bool := do
  let s ← cget
  match s.ctx with
  | [] => cub .null
  | c :: cs =>
    if c.vars.any fun v => strcmp v.name name = 0 then do
      err "Redundant variable declaration."
      return false
    else if cs = [] then do
      if init && !useTop then emitInt 0 true else pure ()
      let pos ← allocStatic
      if init then do
        emitInt (BitVec.ofNat 32 pos) true
        emitOp 15 true
        emitOp 11 true
      else pure ()
      consVar { name, isGlobal := true, noPop := false, position := pos }
      return true
    else do
      if !useTop then emitInt 0 true else pure ()
      modCtx fun c => { c with
        vars := { name, isGlobal := false, noPop := false, position := usub c.offset 1 } :: c.vars }
      return true

/-- The search of `nkiCompilerLookupVariable` in one context, `src/nkcompil.c:516-526`. -/
def findVar (name : Bytes) : List CVar → Option CVar
  | [] => none
  | v :: vs => if strcmp v.name name = 0 then some v else findVar name vs

/-- The search of `nkiCompilerLookupVariable`, `src/nkcompil.c:516-530`. -/
def findCtx (name : Bytes) : List CCtx → Option CVar
  | [] => none
  | c :: cs => match findVar name c.vars with
    | some v => some v
    | none => findCtx name cs

/-- `nkiCompilerLookupVariable`, `src/nkcompil.c:509-541`. -/
def lookupVar (name : Bytes) : CM (Option CVar) := do
  let s ← cget
  match findCtx name s.ctx with
  | some v => return some v
  | none => do
    err "Cannot find variable: "
    return none

/-! ## Expression trees: `src/nkexpr.c` -/

/-- `struct NKExpressionAstNode`, `src/nkexpr.h`; `nil` is NULL.  `stackNext` and `ownedToken` are left out: the
stacks are lists here, and tokens are values. -/
inductive Node where
  | nil
  | mk (tok : Token) (root : Bool) (l r : Node)
deriving DecidableEq, Repr

/-- `nkiCompilerIsSubexpressionEndingToken`, `src/nkexpr.c:68-74`, for the type of a present token. -/
def isSubEnd (t : TokType) : Bool := t == .parenClose || t == .bracketClose || t == .comma

/-- `nkiCompilerIsExpressionEndingToken`, `src/nkexpr.c:76-80`. -/
def isEnd : List Token → Bool
  | [] => true
  | t :: _ => isSubEnd t.type || t.type == .semicolon

/-- `nkiCompilerIsPrefixOperator`, `src/nkexpr.c:82-89`. -/
def isPrefix (t : TokType) : Bool := t == .minus || t == .decrement || t == .increment || t == .not

/-- `nkiCompilerIsPostfixOperator`, `src/nkexpr.c:91-100`. -/
def isPostfix (t : TokType) : Bool :=
  t == .bracketOpen || t == .parenOpen || t == .dot || t == .cIndirection || t == .increment || t == .decrement

/-- `nkiCompilerGetPrecedence`, `src/nkexpr.c:102-134`. -/
def prec : TokType → Int
  | .multiply | .divide | .modulo => 5
  | .plus | .minus => 6
  | .greaterThan | .lessThan | .greaterThanOrEqual | .lessThanOrEqual => 8
  | .equal | .notEqual | .equalWithSameType => 9
  | .and => 13
  | .or => 14
  | .assignment => 15
  | _ => -1

/-- `nkiCompilerExpressionReduce`, `src/nkexpr.c:167-194`: the new stacks, or none for `nkfalse`. -/
def reduce (ops : List Token) (vals : List Node) : Res (Option (List Token × List Node)) :=
  match vals with
  | [] => .ub .null
  | [_] => .ok none
  | v2 :: v1 :: vs =>
    match ops with
    | [] => .ok none
    | op :: ops => .ok (some (ops, .mk op false v1 v2 :: vs))

/-- The loop over prefix operators, `src/nkexpr.c:293-315`: the tokens, outermost first. -/
def prefixLoop : Nat → List Token → CM (List Token)
  | 0, _ => cub .fuel
  | n + 1, acc => do
    let s ← cget
    match s.toks with
    | t :: _ =>
      if isPrefix t.type then do
        nextTok
        prefixLoop n (acc ++ [t])
      else return acc
    | [] => return acc

/-- A token made by the parser; its file index is never set in the C code (`src/nkexpr.c:361-370`, `427-444`, `463-470`).
-/
def made (type : TokType) (str : Bytes) (line : Int) : Token := ⟨type, str, line, 0, 0⟩

/-- The chain of parameter nodes built by `nkiCompilerExpressionParseFunctioncall`, `src/nkexpr.c:209-245`. -/
def argChain (tok : Token) : List Node → Node
  | [] => .nil
  | a :: as => .mk tok false a (argChain tok as)

/-- The parameter loop, `src/nkexpr.c:211-244`; none is failure. -/
def argLoop (pe : CM Node) : Nat → List Node → CM (Option (List Node))
  | 0, _ => cub .fuel
  | n + 1, acc => do
    let t ← curType
    if t ≠ .invalid ∧ t ≠ .parenClose then do
      let a ← pe
      if a = .nil then do
        err "Function parameter subexpression parse failure."
        return none
      else do
        let t ← curType
        if t = .comma then do
          nextTok
          argLoop pe n (acc ++ [a])
        else if t = .parenClose then argLoop pe n (acc ++ [a])
        else do
          err "Expected ',' or ')' in function parameter parsing."
          return none
    else return (some acc)

/-- `nkiCompilerExpressionParseFunctioncall`, `src/nkexpr.c:196-259`: the arguments; none is failure. -/
def parseCall (pe : CM Node) : CM (Option (List Node)) := do
  if ← pushRec then do
    nextTok
    let s ← cget
    match ← argLoop pe (s.toks.length + 1) [] with
    | none => do
      popRec
      return none
    | some args => do
      let ok ← expectSkip .parenClose
      popRec
      return (if ok then some args else none)
  else return none

/-- A postfix operator: its token, whether it is a call, and its right child. -/
structure Post where
  tok : Token
  root : Bool
  arg : Node
deriving DecidableEq, Repr

/-- `.name` and `->name(..)`, `src/nkexpr.c:413-523`; `ind` for `->`.  `p` is the token of the operator. -/
def parseDot (pe : CM Node) (ind : Bool) : CM (Option (List Post)) := do
  nextTok
  let s ← cget
  match s.toks with
  | t :: _ =>
    if t.type = .identifier then do
      let name := Node.mk (made .string t.str t.line) false .nil .nil
      nextTok
      if ind then do
        let s ← cget
        match s.toks with
        | u :: _ =>
          if u.type = .parenOpen then do
            match ← parseCall pe with
            | none => return none
            | some args =>
              return (some [⟨made .indexIntoNoPop (cs "[") t.line, false, name⟩,
                ⟨made .functionCallWithSelf (cs "(") u.line, true,
                  argChain (made .functionCallWithSelf (cs "(") u.line) args⟩])
          else do
            err "Expected function call after '->'."
            return none
        | [] => do
          err "Expected function call after '->'."
          return none
      else return (some [⟨made .bracketOpen (cs "[") t.line, false, name⟩])
    else do
      err "Expected identifier after '.'."
      return none
  | [] => do
    err "Expected identifier after '.'."
    return none

/-- One postfix operator, `src/nkexpr.c:393-586`, at the token `t`; none is failure. -/
def parsePost (pe : CM Node) (t : Token) : CM (Option (List Post)) :=
  if t.type = .dot then parseDot pe false
  else if t.type = .cIndirection then parseDot pe true
  else if t.type = .bracketOpen then do
    nextTok
    let i ← pe
    if i = .nil then do
      err "Index subexpression parse failure."
      return none
    else if ← expectSkip .bracketClose then return (some [⟨t, false, i⟩])
    else return none
  else if t.type = .parenOpen then do
    match ← parseCall pe with
    | none => return none
    | some args => return (some [⟨t, true, argChain t args⟩])
  else if t.type = .increment then do
    nextTok
    return (some [⟨made .postIncrement (cs "++") t.line, false, .nil⟩])
  else if t.type = .decrement then do
    nextTok
    return (some [⟨made .postDecrement (cs "--") t.line, false, .nil⟩])
  else do
    err "Unknown postfix operator: "
    return none

/-- The loop over postfix operators, `src/nkexpr.c:391-587`: innermost first; none is failure. -/
def postLoop (pe : CM Node) : Nat → List Post → CM (Option (List Post))
  | 0, _ => cub .fuel
  | n + 1, acc => do
    let s ← cget
    match s.toks with
    | t :: _ =>
      if isPostfix t.type then do
        match ← parsePost pe t with
        | none => return none
        | some ps => postLoop pe n (acc ++ ps)
      else return (some acc)
    | [] => return (some acc)

/-- A value or a parenthesised expression, `src/nkexpr.c:317-388`; none is failure.  `fd` compiles an anonymous
function and returns its id. -/
def parseValue (pe : CM Node) (fd : CM (Option Nat)) : CM (Option Node) := do
  let s ← cget
  match s.toks with
  | [] => do
    err "Prefix with no value."
    return none
  | t :: _ =>
    if t.type = .parenOpen then do
      nextTok
      let v ← pe
      if v = .nil then do
        err "Subexpression parse failure."
        return none
      else do
        let s ← cget
        match s.toks with
        | [] => do
          err "Bad expression end."
          return none
        | u :: _ =>
          if isSubEnd u.type then do
            nextTok
            return (some v)
          else do
            err "Bad expression end."
            return none
    else if isEnd s.toks then do
      err "Prefix with no value."
      return none
    else if t.type = .kwFunction then do
      match ← fd with
      | none => do
        err "Anonymous function parse error."
        return none
      | some id => do
        let s ← cget
        let line : Int := match s.toks with
          | u :: _ => u.line
          | [] => (BitVec.ofNat 32 s.line).toInt
        return (some (.mk (made .kwFunction (natDec id) line) false .nil .nil))
    else do
      nextTok
      return (some (.mk t false .nil .nil))

/-- Attach postfix operators to the node before them, `src/nkexpr.c:398-402`. -/
def chain (v : Node) (ps : List Post) : Node := ps.foldl (fun acc p => .mk p.tok p.root acc p.arg) v

/-- Attach postfix operators, `src/nkexpr.c:591-629`: a call of a function-style expression becomes a node of its own. -/
def attachPost (v : Node) (ps : List Post) : Res Node :=
  match ps with
  | [] => .ok v
  | p :: qs =>
    match v with
    | .nil => .ub .null
    | .mk t _ l r =>
      if t.type = .functionStyleExpression ∧ p.tok.type = .parenOpen then
        if l = .nil ∧ r = .nil then .ok (chain (.mk (made t.type t.str t.line) p.root .nil p.arg) qs)
        else .ub .assert
      else .ok (chain v ps)

/-- Attach prefix operators, `src/nkexpr.c:631-639`. -/
def attachPre (pre : List Token) (v : Node) : Node := pre.foldr (fun t acc => .mk t false acc .nil) v

/-- One operand, `src/nkexpr.c:285-639`; none is failure. -/
def operand (pe : CM Node) (fd : CM (Option Nat)) : CM (Option Node) := do
  let s ← cget
  let pre ← prefixLoop (s.toks.length + 1) []
  match ← parseValue pe fd with
  | none => return none
  | some v => do
    let s ← cget
    match ← postLoop pe (s.toks.length + 1) [] with
    | none => return none
    | some ps => fun s => match attachPost v ps with
      | .ok v => .ok (some (attachPre pre v), s)
      | .ub k => .ub k

/-- The reductions before an operator is pushed, `src/nkexpr.c:668-678`; none is failure.  `t` is the operator. -/
def reduceWhile (t : TokType) : List Token → List Node → Res (Option (List Token × List Node))
  | [], vals => .ok (some ([], vals))
  | op :: ops, vals =>
    if prec t ≥ prec op.type then
      match reduce (op :: ops) vals with
      | .ub k => .ub k
      | .ok none => .ok none
      | .ok (some (_, vals)) => reduceWhile t ops vals
    else .ok (some (op :: ops, vals))

/-- The reductions at the end, `src/nkexpr.c:697-704`; none is failure. -/
def reduceAll : List Token → List Node → Res (Option (List Node))
  | [], vals => .ok (some vals)
  | op :: ops, vals =>
    match reduce (op :: ops) vals with
    | .ub k => .ub k
    | .ok none => .ok none
    | .ok (some (_, vals)) => reduceAll ops vals

/-- The loop of `nkiCompilerParseExpression`, `src/nkexpr.c:282-694`: the stacks at the end; none is failure. -/
def exprLoop (pe : CM Node) (fd : CM (Option Nat)) :
    Nat → List Token → List Node → CM (Option (List Token × List Node))
  | 0, _, _ => cub .fuel
  | n + 1, ops, vals => do
    let s ← cget
    if isEnd s.toks then return (some (ops, vals))
    else do
      match ← operand pe fd with
      | none => return none
      | some v => do
        let s ← cget
        if isEnd s.toks then return (some (ops, v :: vals))
        else
          match s.toks with
          | [] => cub .null
          | t :: _ =>
            if prec t.type = -1 then do
              err "Unknown operator: "
              return none
            else
              match reduceWhile t.type ops (v :: vals) with
              | .ub k => cub k
              | .ok none => do
                err "Expression parse failure."
                return none
              | .ok (some (ops, vals)) => do
                nextTok
                exprLoop pe fd n (t :: ops) vals

/-- The end of `nkiCompilerParseExpression`, `src/nkexpr.c:696-722`; `nil` is failure. -/
def parseEnd (ops : List Token) (vals : List Node) : CM Node :=
  match reduceAll ops vals with
  | .ub k => cub k
  | .ok none => do
    err "Expression parse failure."
    return .nil
  | .ok (some []) => do
    err "No value to parse in expression."
    return .nil
  | .ok (some [v]) => return v
  | .ok (some _) => cub .assert

/-- `nkiCompilerParseExpression`, `src/nkexpr.c:272-723`; `nil` is failure.  `pe` is the recursive call. -/
def parseExprBody (fd : CM (Option Nat)) (pe : CM Node) : CM Node := do
  if ← pushRec then do
    let s ← cget
    match ← exprLoop pe fd (s.toks.length + 1) [] [] with
    | none => do
      popRec
      return .nil
    | some (ops, vals) => do
      let v ← parseEnd ops vals
      popRec
      return v
  else return .nil

/-- `nkiCompilerParseExpression`, `src/nkexpr.c:272-723`, with a bound on the depth of recursion. -/
def parseExpr (fd : CM (Option Nat)) : Nat → CM Node
  | 0 => cub .fuel
  | n + 1 => parseExprBody fd (parseExpr fd n)

end Nk.Cc
