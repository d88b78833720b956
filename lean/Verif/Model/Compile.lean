import Verif.Model.Expr
/-!
# The compiler: from expression trees and statements to instructions

`src/nkexpr.c`, `src/nkopt.c`, `src/nkfse.c`, `src/nkcompil.c`.  See `Model.Expr` for what is simplified.
-/
namespace Nk.Cc

/-! ## Increments and decrements -/

/-- The four types rewritten by `nkiCompilerExpressionExpandIncrementsAndDecrements`, `src/nkexpr.c:1117-1120`. -/
def isIncDec (t : TokType) : Bool :=
  t == .increment || t == .decrement || t == .postIncrement || t == .postDecrement

/-- The tree for an increment or decrement of `l`, `src/nkexpr.c:1122-1259`; `tok` is the operator.
`nkiCompilerCloneExpressionTree` (`src/nkexpr.c:1070-1102`) copies the tree, which is the same value here. -/
def incDecNode (tok : Token) (l : Node) (discard : Bool) : Node :=
  let up := tok.type = .increment ∨ tok.type = .postIncrement
  let one := Node.mk (made .integer (cs "1") tok.line) false .nil .nil
  let addition := Node.mk (made (if up then .plus else .minus) (cs (if up then "+" else "-")) tok.line) false l one
  let assign := Node.mk (made .assignment (cs "=") tok.line) false l addition
  if (tok.type = .postIncrement ∨ tok.type = .postDecrement) ∧ ¬discard then
    .mk (made (if up then .minus else .plus) (cs (if up then "-" else "+")) tok.line) false assign one
  else assign

/-- `nkiCompilerExpressionExpandIncrementsAndDecrements`, `src/nkexpr.c:1104-1280`. -/
def expand : Node → Bool → CM Node
  | .nil, _ => return .nil
  | .mk tok root l r, discard => do
    if ← pushRec then
      if isIncDec tok.type then
        if l = .nil ∨ r ≠ .nil then cub .assert
        else do
          popRec
          return (incDecNode tok l discard)
      else do
        let l ← expand l false
        let r ← expand r false
        popRec
        return (.mk tok root l r)
    else return (.mk tok root l r)

/-! ## Constant folding: `src/nkopt.c` -/

/-- `nkiCompilerCanOptimizeOperationWithConstants`, `src/nkopt.c:46-56`. -/
def canFold (t : TokType) : Bool := t == .plus || t == .minus || t == .multiply || t == .divide

/-- `nkiCompilerIsImmediateValue`, `src/nkopt.c:58-66`. -/
def isImm : Node → Bool
  | .nil => false
  | .mk t _ _ _ => t.type == .integer || t.type == .float

/-- The text of a node's token. -/
def textOf : Node → Bytes
  | .nil => []
  | .mk t _ _ _ => t.str

/-- A result that replaces the node. -/
def someR : Res α → Res (Option α)
  | .ok a => .ok (some a)
  | .ub k => .ub k

/-- `NK_APPLY_MATH` on integers, `src/nkopt.c:88-132`; none leaves the node alone.  Overflow is undefined behaviour. -/
def foldInt (op : TokType) (a : BitVec 32) (b : Option (BitVec 32)) : Res (Option (BitVec 32)) :=
  let b1 := b.getD 0
  match op with
  | .plus => someR (i32 (a.toInt + b1.toInt))
  | .minus => match b with
    | none => someR (i32 (-a.toInt))
    | some b => someR (i32 (a.toInt - b.toInt))
  | .multiply => someR (i32 (a.toInt * b1.toInt))
  | .divide =>
    if b1.toInt = 0 ∨ (b1.toInt = -1 ∧ a.toInt = -2147483648) then .ok none
    else someR (i32 (a.toInt.tdiv b1.toInt))
  | _ => .ub .assert

/-- `c1Val == 0` for a float. -/
def fIsZero (b : BitVec 32) : Bool := !isNaN b && fkey b == 0

/-- `NK_APPLY_MATH` on floats, `src/nkopt.c:88-132`; none leaves the node alone. -/
def foldFloat (F : FloatOps) (op : TokType) (a : BitVec 32) (b : Option (BitVec 32)) : Res (Option (BitVec 32)) :=
  let b1 := b.getD 0
  match op with
  | .plus => .ok (some (F.add a b1))
  | .minus => match b with
    | none => .ok (some (fneg a))
    | some b => .ok (some (F.sub a b))
  | .multiply => .ok (some (F.mul a b1))
  | .divide => if fIsZero b1 then .ok none else .ok (some (F.div a b1))
  | _ => .ub .assert

/-- The folding of one node, `src/nkopt.c:153-236`. -/
def foldNode (F : FloatOps) (tok : Token) (root : Bool) (l r : Node) : Res Node :=
  match l with
  | .nil => .ok (.mk tok root l r)
  | .mk lt _ _ _ =>
    if canFold tok.type ∧ isImm l ∧ (r = .nil ∨ isImm r) then
      if lt.type = .integer then
        match foldInt tok.type (atoi32 lt.str) (if r = .nil then none else some (atoi32 (textOf r))) with
        | .ub k => .ub k
        | .ok none => .ok (.mk tok root l r)
        | .ok (some v) => .ok (.mk (made .integer (itoa v) lt.line) false .nil .nil)
      else
        match foldFloat F tok.type (F.atof lt.str) (if r = .nil then none else some (F.atof (textOf r))) with
        | .ub k => .ub k
        | .ok none => .ok (.mk tok root l r)
        | .ok (some v) => .ok (.mk (made .float (F.print v) lt.line) false .nil .nil)
    else .ok (.mk tok root l r)

/-- `nkiCompilerOptimizeConstants`, `src/nkopt.c:134-237`. -/
def optimize (F : FloatOps) : Node → Res Node
  | .nil => .ok .nil
  | .mk tok root l r =>
    match optimize F l with
    | .ub k => .ub k
    | .ok l =>
      match optimize F r with
      | .ub k => .ub k
      | .ok r => foldNode F tok root l r

/-! ## Function-style expressions: `src/nkfse.c` -/

/-- Change the stack offset of the current context, `cs->context->stackFrameOffset -= n`. -/
def subOffset (n : Nat) : CM Unit := modCtx fun c => { c with offset := usub c.offset n }

/-- The emitters, `src/nkfse.c:62-169`; `n` is the number of arguments. -/
def emitFSE (name : Bytes) (n : Nat) : CM Unit :=
  if name = cs "coroutine" then do
    subOffset n
    emitInt (BitVec.ofNat 32 (usub n 1)) false
    emitOp 38 true
  else if name = cs "yield" then do
    if n = 0 then emitOp 37 true else pure ()
    if n > 1 then err "Too many arguments to yield()." else emitOp 39 true
  else if name = cs "resume" then
    if n > 2 then err "Too many arguments to resume()."
    else if n < 1 then err "Too few arguments to resume()."
    else do
      if n = 1 then emitOp 37 true else pure ()
      emitOp 40 true
  else if name = cs "is_finished" then
    if n ≠ 1 then err "Incorrect argument count to coroutine_finished()." else emitOp 41 true
  else if name = cs "object" then
    if n ≠ 0 then err "Too many arguments given to object()." else emitOp 32 true
  else if name = cs "len" then
    if n ≠ 1 then err "Incorrect number of arguments to len()." else emitOp 42 true
  else pure ()

/-! ## Emitting expressions -/

/-- `nkiCompilerEmitFetchVariable`, `src/nkexpr.c:729-761`. -/
def emitFetch (name : Bytes) : CM Unit := do
  match ← lookupVar name with
  | none => pure ()
  | some v =>
    if v.isGlobal then do
      emitInt (BitVec.ofNat 32 v.position) true
      emitOp 16 false
    else do
      let s ← cget
      match s.ctx with
      | [] => cub .null
      | c :: _ => do
        emitInt (BitVec.ofNat 32 (usub v.position c.offset)) true
        emitOp 13 false

/-- `nkiCompilerExpressionEmitSetVariable`, `src/nkexpr.c:763-792`. -/
def emitSet (name : Bytes) : CM Unit := do
  match ← lookupVar name with
  | none => pure ()
  | some v =>
    if v.isGlobal then do
      emitInt (BitVec.ofNat 32 v.position) true
      emitOp 15 true
    else do
      let s ← cget
      match s.ctx with
      | [] => cub .null
      | c :: _ => do
        emitInt (BitVec.ofNat 32 (usub v.position c.offset)) true
        emitOp 14 true

/-- `nkiCompilerCountCallArguments`, `src/nkexpr.c:261-270`, on the right child of the call. -/
def argCount : Node → Nat
  | .nil => 0
  | .mk _ _ _ r => argCount r + 1

/-- `nkiCompilerEmitExpressionAssignment`, `src/nkexpr.c:796-860`; `er`, `ea`, `eb` emit the assigned value and the two
children of the left side. -/
def emitAssign (l r : Node) (er ea eb : CM Bool) : CM Bool := do
  if ← pushRec then
    if r = .nil then do
      err "No RValue to assign in assignment."
      popRec
      return false
    else
      match l with
      | .nil => do
        err "No LValue to assign in assignment."
        popRec
        return false
      | .mk t _ _ _ => do
        let _ ← er
        if t.type = .identifier then do
          emitSet t.str
          popRec
          return true
        else if t.type = .bracketOpen then do
          let _ ← ea
          let _ ← eb
          emitOp 34 true
          popRec
          return true
        else do
          err "Operator or value cannot be used to generate an LValue: "
          popRec
          return false
  else return false

/-- The opcode emitted for a token type without further work, `src/nkexpr.c:899-1005`. -/
def simpleOp (t : TokType) (binary : Bool) : Option Nat :=
  match t with
  | .newobject => some 32
  | .nil => some 37
  | .plus => some 1
  | .minus => some (if binary then 2 else 5)
  | .multiply => some 3
  | .divide => some 4
  | .modulo => some 6
  | .greaterThan => some 22
  | .lessThan => some 23
  | .greaterThanOrEqual => some 24
  | .lessThanOrEqual => some 25
  | .equal => some 26
  | .notEqual => some 27
  | .equalWithSameType => some 28
  | .not => some 29
  | .and => some 30
  | .or => some 31
  | .bracketOpen => some 33
  | .indexIntoNoPop => some 35
  | _ => none

/-- The `switch` of `nkiCompilerEmitExpression`, `src/nkexpr.c:897-1063`, with the final `nkiCompilerPopRecursion`. -/
def emitNode (F : FloatOps) (tok : Token) (root : Bool) (r : Node) : CM Bool :=
  match simpleOp tok.type (r ≠ .nil) with
  | some op => do
    emitOp op true
    popRec
    return true
  | none =>
    match tok.type with
    | .kwFunction => do
      emitFn (atoi32 tok.str) true
      popRec
      return true
    | .integer => do
      emitInt (atoi32 tok.str) true
      popRec
      return true
    | .float => do
      emitFloat (F.atof tok.str) true
      popRec
      return true
    | .string => do
      emitStr tok.str true
      popRec
      return true
    | .identifier => do
      emitFetch tok.str
      popRec
      return true
    | .functionStyleExpression =>
      if root then do
        emitFSE tok.str (argCount r)
        popRec
        return true
      else do
        err "Corrupted AST in FSE creation."
        return false
    | .parenOpen => do
      if root then do
        emitInt (BitVec.ofNat 32 (argCount r)) false
        emitOp 18 false
        subOffset (argCount r)
      else pure ()
      popRec
      return true
    | .functionCallWithSelf => do
      if root then do
        emitInt (BitVec.ofNat 32 (argCount r)) false
        emitOp 36 false
        emitOp 18 false
        subOffset (argCount r + 1)
      else pure ()
      popRec
      return true
    | _ => do
      err "Unknown value or operator in nkiCompilerEmitExpression: "
      popRec
      return false

/-- Emit a child if there is one, `src/nkexpr.c:885-893`. -/
def emitChild (n : Node) (e : CM Bool) : CM Bool := if n = .nil then return true else e

/-- `nkiCompilerEmitExpression`, `src/nkexpr.c:862-1068`. -/
def emitExpr (F : FloatOps) : Node → CM Bool
  | .nil => do
    let _ ← pushRec
    return false
  | .mk tok root .nil r => do
    if ← pushRec then
      if tok.type = .assignment then do
        popRec
        emitAssign .nil r (emitExpr F r) (return false) (return false)
      else do
        if ← emitChild r (emitExpr F r) then emitNode F tok root r
        else do
          popRec
          return false
    else return false
  | .mk tok root (.mk lt lr a b) r => do
    if ← pushRec then
      if tok.type = .assignment then do
        popRec
        emitAssign (.mk lt lr a b) r (emitExpr F r) (emitExpr F a) (emitExpr F b)
      else do
        if ← emitExpr F (.mk lt lr a b) then do
          if ← emitChild r (emitExpr F r) then emitNode F tok root r
          else do
            popRec
            return false
        else do
          popRec
          return false
    else return false

/-- How deep the recursive calls of the parser and of statements may go before the limit of
`nkiCompilerPushRecursion` ends them. -/
def maxDepth : Nat := 300

/-- `nkiCompilerCompileExpressionWithoutEmit`, `src/nkexpr.c:1282-1308`; `nil` is failure.  `fd` compiles an anonymous
function. -/
def compileNoEmit (F : FloatOps) (fd : CM (Option Nat)) (discard : Bool) : CM Node := do
  if ← pushRec then do
    let node ← parseExpr fd maxDepth
    let node ← expand node discard
    match optimize F node with
    | .ub k => cub k
    | .ok node => do
      let s ← cget
      popRec
      return (if s.vm.errors = [] then node else .nil)
  else return .nil

/-- `nkiCompilerCompileExpression`, `src/nkexpr.c:1310-1333`. -/
def compileExpr (F : FloatOps) (fd : CM (Option Nat)) (discard : Bool) : CM Bool := do
  if ← pushRec then do
    let node ← compileNoEmit F fd discard
    if node = .nil then do
      popRec
      return false
    else do
      let ret ← emitExpr F node
      popRec
      return ret
  else return false

/-! ## Statements: `src/nkcompil.c` -/

/-- `NK_EXPECT_AND_SKIP_STATEMENT`, `src/nkcompil.c:400-406`, and the rest of the function. -/
def expectStmt (t : TokType) (k : CM Bool) : CM Bool := do
  if ← expectSkip t then k
  else do
    popRec
    return false

/-- `nkiCompilerCurrentTokenString`, `src/nkcompil.c:972-978`. -/
def curString : CM Bytes := do
  let s ← cget
  return (match s.toks with
    | t :: _ => t.str
    | [] => cs "<invalid token>")

/-- `nkiCompilerCompileVariableDeclaration`, `src/nkcompil.c:592-637`; `ce` compiles an expression. -/
def varDecl (ce : CM Bool) : CM Bool := do
  if ← pushRec then
    expectStmt .kwVar do
      let t ← curType
      if t ≠ .identifier then do
        err "Expected identifier in variable declaration."
        popRec
        return false
      else do
        let name ← curString
        expectStmt .identifier do
          let t ← curType
          if t = .assignment then
            expectStmt .assignment do
              if ← ce then do
                let _ ← addVariable name true true
                expectStmt .semicolon do
                  popRec
                  return true
              else do
                popRec
                return false
          else do
            let _ ← addVariable name false true
            expectStmt .semicolon do
              popRec
              return true
  else return false

/-- The context of the function being compiled, `src/nkcompil.c:642-646`. -/
def findFn : List CCtx → Option CCtx
  | [] => none
  | c :: cs => if c.fnId = UINT_MAX then findFn cs else some c

/-- `nkiCompilerEmitReturn`, `src/nkcompil.c:639-674`. -/
def emitReturn : CM Unit := do
  let s ← cget
  match findFn s.ctx with
  | none => err "return statement outside of function."
  | some fc =>
    match s.vm.functions[fc.fnId]? with
    | none => err "Bad function id when attempting to emit return."
    | some f =>
      match s.ctx with
      | [] => cub .null
      | c :: _ => do
        emitInt (BitVec.ofNat 32 (usub (usub c.offset f.argc) 3)) false
        emitOp 19 false

/-- `nkiCompilerCompileReturnStatement`, `src/nkcompil.c:676-696`. -/
def returnStmt (ce : CM Bool) : CM Bool := do
  if ← pushRec then
    expectStmt .kwReturn do
      if ← ce then do
        emitReturn
        expectStmt .semicolon do
          popRec
          return true
      else do
        popRec
        return false
  else return false

/-- The statements of a block, `src/nkcompil.c:559-573`; false when one of them failed. -/
def blockLoop (st : CM Bool) : Nat → CM Bool
  | 0 => cub .fuel
  | n + 1 => do
    let t ← curType
    if t ≠ .curlyClose ∧ t ≠ .invalid then do
      if ← st then blockLoop st n else return false
    else return true

/-- `assert(cs->context == startContext)`: contexts are values here, so the depth of the chain is compared. -/
def sameCtx (start : Nat) : CM Unit := do
  let s ← cget
  if s.ctx.length = start then pure () else cub .assert

/-- `nkiCompilerCompileBlock(cs, nkfalse)`, `src/nkcompil.c:543-590`. -/
def block (st : CM Bool) : CM Bool := do
  let start ← cget
  if ← pushRec then
    expectStmt .curlyOpen do
      pushCtx
      let s ← cget
      if ← blockLoop st (s.toks.length + 1) then do
        popCtx
        expectStmt .curlyClose do
          sameCtx start.ctx.length
          popRec
          return true
      else do
        popCtx
        popRec
        return false
  else return false

/-- `nkiCompilerCompileBlock(cs, nktrue)`, `src/nkcompil.c:543-590`. -/
def script (st : CM Bool) : CM Bool := do
  let start ← cget
  if ← pushRec then do
    let s ← cget
    if ← blockLoop st (s.toks.length + 1) then do
      let t ← curType
      if t = .curlyClose then do
        err "Extra closing curly brace."
        return false
      else do
        sameCtx start.ctx.length
        popRec
        return true
    else do
      popRec
      return false
  else return false

/-- `nkiCompilerEmitJump` and `nkiCompilerEmitJumpIfZero`, `src/nkcompil.c:1214-1230`; `op` is the jump. -/
def emitJump (op : Nat) (target : Nat) : CM Nat := do
  let s ← cget
  emitInt (BitVec.ofNat 32 (usub (usub target s.write) 3)) true
  emitOp op true
  return s.write

/-- `nkiCompilerGetInstruction`, `src/nkcompil.c:1232-1235`: read. -/
def instrWord (a : Nat) : CM (BitVec 32) := fun s =>
  match s.vm.instrs[s.vm.instrMask &&& a]? with
  | some w => .ok (w, s)
  | none => .ub .oob

/-- `nkiCompilerModifyJump`, `src/nkcompil.c:1237-1256`. -/
def modifyJump (at_ target : Nat) : CM Unit := do
  let p ← instrWord at_
  let j ← instrWord (u32 (at_ + 2))
  if p = 7#32 ∧ (j = 17#32 ∨ j = 21#32) then do
    let s ← cget
    writeInstr (s.vm.instrMask &&& u32 (at_ + 1)) (BitVec.ofNat 32 (usub (usub target at_) 3))
  else cub .assert

/-- `nkiCompilerModifyJump(cs, .., cs->instructionWriteIndex)`. -/
def jumpHere (at_ : Nat) : CM Unit := do
  let s ← cget
  modifyJump at_ s.write

/-- The end of `nkiCompilerCompileIfStatement`, `src/nkcompil.c:1296-1321`. -/
def elsePart (st : CM Bool) (skip : Nat) : CM Bool := do
  let t ← curType
  if t = .kwElse then
    expectStmt .kwElse do
      let skipElse ← emitJump 17 0
      jumpHere skip
      pushCtx
      if ← st then do
        popCtx
        jumpHere skipElse
        popRec
        return true
      else do
        popCtx
        popRec
        return false
  else do
    popRec
    return true

/-- `nkiCompilerCompileIfStatement`, `src/nkcompil.c:1258-1325`. -/
def ifStmt (st ce : CM Bool) : CM Bool := do
  if ← pushRec then
    expectStmt .kwIf do
      expectStmt .parenOpen do
        if ← ce then do
          let skip ← emitJump 21 0
          expectStmt .parenClose do
            pushCtx
            if ← st then do
              popCtx
              jumpHere skip
              elsePart st skip
            else do
              popCtx
              popRec
              return false
        else do
          popRec
          return false
  else return false

/-- Take the newest break of the current context, `src/nkcompil.c:1329-1332`. -/
def fixupLoop : List Nat → CM Unit
  | [] => pure ()
  | a :: as => do
    jumpHere a
    fixupLoop as

/-- `nkiCompilerFixupBreakJumpForContext`, `src/nkcompil.c:1327-1336`. -/
def fixupBreaks : CM Unit := do
  let s ← cget
  match s.ctx with
  | [] => cub .null
  | c :: _ => do
    fixupLoop c.fixups.reverse
    modCtx fun c => { c with fixups := [] }

/-- `nkiCompilerPopContextCount(cs, n)` and a failing return, `src/nkcompil.c:1339-1346`. -/
def failPop : Nat → CM Bool
  | 0 => do
    popRec
    return false
  | n + 1 => do
    popCtx
    failPop n

/-- Contexts of a loop, `src/nkcompil.c:1357-1359`: one that `break` can find, and one for what is inside. -/
def pushLoop : CM Unit := do
  pushCtx
  modCtx fun c => { c with isLoop := true }
  pushCtx

/-- The end of a loop, `src/nkcompil.c:1402-1406`. -/
def endLoop : CM Unit := do
  popCtx
  fixupBreaks
  popCtx
  popRec

/-- `nkiCompilerExpectAndSkipToken` in a loop statement, with `n` contexts to pop on failure. -/
def expectLoop (t : TokType) (n : Nat) (k : CM Bool) : CM Bool := do
  if ← expectSkip t then k else failPop n

/-- `nkiCompilerCompileWhileStatement`, `src/nkcompil.c:1348-1409`. -/
def whileStmt (st ce : CM Bool) : CM Bool := do
  let s ← cget
  let start := s.write
  if ← pushRec then do
    pushLoop
    expectLoop .kwWhile 2 do
      expectLoop .parenOpen 2 do
        if ← ce then do
          let skip ← emitJump 21 0
          expectLoop .parenClose 2 do
            pushCtx
            if ← st then do
              popCtx
              let _ ← emitJump 17 start
              jumpHere skip
              endLoop
              return true
            else failPop 3
        else failPop 2
  else return false

/-- `nkiCompilerCompileDoWhileStatement`, `src/nkcompil.c:1411-1481`. -/
def doStmt (st ce : CM Bool) : CM Bool := do
  let s ← cget
  let start := s.write
  if ← pushRec then do
    pushLoop
    expectLoop .kwDo 2 do
      pushCtx
      if ← st then do
        popCtx
        expectLoop .kwWhile 2 do
          expectLoop .parenOpen 2 do
            if ← ce then
              expectLoop .parenClose 2 do
                emitOp 29 true
                let _ ← emitJump 21 start
                endLoop
                expectSkip .semicolon
            else failPop 2
      else failPop 3
  else return false

/-- `nkiCompilerCompileForStatement`, `src/nkcompil.c:1483-1584`; `ci` compiles the increment expression without
emitting it. -/
def forStmt (F : FloatOps) (st ce : CM Bool) (ci : CM Node) : CM Bool := do
  if ← pushRec then do
    pushLoop
    expectLoop .kwFor 2 do
      expectLoop .parenOpen 2 do
        if ← st then do
          let s ← cget
          let start := s.write
          if ← ce then do
            let skip ← emitJump 21 0
            expectLoop .semicolon 2 do
              let inc ← ci
              if inc = .nil then failPop 2
              else expectLoop .parenClose 2 do
                pushCtx
                if ← st then do
                  popCtx
                  if ← emitExpr F inc then do
                    emitOp 11 true
                    let _ ← emitJump 17 start
                    jumpHere skip
                    endLoop
                    return true
                  else failPop 2
                else failPop 3
          else failPop 2
        else failPop 2
  else return false

/-- The search for a loop, `src/nkcompil.c:1597-1603`: its distance from the innermost context. -/
def findLoop : List CCtx → Option Nat
  | [] => none
  | c :: cs => if c.isLoop then some 0 else (findLoop cs).map (· + 1)

/-- `nkiCompilerCompileBreakStatement`, `src/nkcompil.c:1586-1641`. -/
def breakStmt : CM Bool := do
  let s ← cget
  match s.ctx with
  | [] => cub .null
  | c :: _ =>
    if ← pushRec then
      match findLoop s.ctx with
      | none => do
        err "Cannot break outside of a loop."
        popRec
        return false
      | some i =>
        if i + 1 = s.ctx.length then do
          err "Cannot break out of the root context."
          popRec
          return false
        else
          match s.ctx[i]? with
          | none => cub .null
          | some lc => do
            emitInt (BitVec.ofNat 32 (usub c.offset lc.offset)) false
            emitOp 12 false
            let fix ← emitJump 17 0
            cmod fun s => { s with ctx := s.ctx.modify i fun c => { c with fixups := c.fixups ++ [fix] } }
            expectStmt .kwBreak do
              expectStmt .semicolon do
                popRec
                return true
    else return false

/-- `varTmp = nkiCompilerAddVariable(..); varTmp->doNotPopWhenOutOfScope = nktrue`, `src/nkcompil.c:781-786`. -/
def addParam (name : Bytes) : CM Unit := do
  if ← addVariable name true true then
    modCtx fun c => { c with vars := match c.vars with
      | [] => []
      | v :: vs => { v with noPop := true } :: vs }
  else pure ()

/-- `cs->context->stackFrameOffset++`. -/
def incOffset : CM Unit := modCtx fun c => { c with offset := u32 (c.offset + 1) }

/-- The parameters of a function, `src/nkcompil.c:790-827`: success and their number. -/
def paramLoop : Nat → Nat → CM (Bool × Nat)
  | 0, _ => cub .fuel
  | n + 1, argc => do
    let t ← curType
    if t = .invalid then return (true, argc)
    else if t = .identifier then do
      let name ← curString
      addParam name
      incOffset
      nextTok
      let t ← curType
      if t = .parenClose then return (true, argc + 1)
      else if t = .comma then do
        nextTok
        paramLoop n (argc + 1)
      else do
        err "Expected ')' or ','."
        paramLoop n (argc + 1)
    else if t = .parenClose then return (true, argc)
    else do
      err "Expected identifier for function argument name."
      return (false, argc)

/-- The last context of the chain, `src/nkcompil.c:763-767`. -/
def rootOf : List CCtx → Res CCtx
  | [] => .ub .null
  | [c] => .ok c
  | _ :: cs => rootOf cs

/-- Store the number of parameters and the address of a function, `src/nkcompil.c:829-833`. -/
def setFunction (id argc first : Nat) : CM Unit := fun s =>
  if id < s.vm.functions.length then
    .ok ((), { s with vm := { s.vm with
      functions := s.vm.functions.modify id fun f => { f with argc := argc, first := first } } })
  else .ub .oob

/-- `nkiCompilerNextToken` at an expected token, otherwise an error, `src/nkcompil.c:774-779`, `853-858`. -/
def skipOr (t : TokType) (e : String) : CM Unit := do
  let c ← curType
  if c = t then nextTok else err e

/-- `nkiCompilerCompileFunctionDefinition` from the skipping jump on, `src/nkcompil.c:747-902`.  The context of the
function has the global context as its parent; the body cannot change the global context, so putting back the saved
chain loses nothing. -/
def functionBody (st : CM Bool) (id : Nat) : CM (Option Nat) := do
  emitInt 0 false
  let s ← cget
  let skip := usub s.write 1
  emitOp 17 false
  let saved ← cget
  match rootOf saved.ctx with
  | .ub k => cub k
  | .ok root => do
    cmod fun s => { s with ctx := [{ vars := [], offset := 0, fnId := id, isLoop := false, fixups := [] }, root] }
    skipOr .parenOpen "Expected '('."
    addParam (cs "_functionId")
    incOffset
    let s ← cget
    let (ok, argc) ← paramLoop (s.toks.length + 1) 0
    let s ← cget
    setFunction id argc s.write
    addParam (cs "_argumentCount")
    incOffset
    addParam (cs "_returnPointer")
    skipOr .parenClose "Expected ')'."
    let ok2 ← st
    emitInt 0 false
    incOffset
    emitReturn
    let s ← cget
    writeInstr skip (BitVec.ofNat 32 (usub (usub s.write skip) 2))
    popCtx
    cmod fun s => { s with ctx := saved.ctx }
    popRec
    return (if ok && ok2 then some id else none)

/-- `nkiCompilerCompileFunctionDefinition`, `src/nkcompil.c:698-903`: none is failure.  `st` compiles a statement. -/
def functionDef (st : CM Bool) (anonymous : Bool) : CM (Option Nat) := do
  if ← pushRec then do
    let id ← onVM createFunction
    if ← expectSkip .kwFunction then
      if anonymous then functionBody st id
      else do
        let t ← curType
        if t = .identifier then do
          let name ← curString
          nextTok
          emitFn (BitVec.ofNat 32 id) true
          let _ ← addVariable name true true
          functionBody st id
        else do
          err "Expected identifier for function name."
          popRec
          return none
    else do
      popRec
      return none
  else return none

/-- The end of `nkiCompilerCompileStatement`, `src/nkcompil.c:440-506`: `r` is the result of the kind of statement. -/
def stmtEnd (start : Nat) (r : Bool) : CM Bool :=
  if r then do
    sameCtx start
    popRec
    return true
  else return false

/-- An expression as a statement, `src/nkcompil.c:489-501`. -/
def exprStmt (ce : CM Bool) (start : Nat) : CM Bool := do
  if ← ce then do
    let t ← curType
    if t = .semicolon then emitOp 11 true else pure ()
    expectStmt .semicolon (stmtEnd start true)
  else return false

/-- `nkiCompilerPeekToken`, `src/nkcompil.c:938-946`. -/
def peekType : CM TokType := do
  let s ← cget
  return typeOf s.toks.tail

/-- `nkiCompilerCompileStatement`, `src/nkcompil.c:410-507`; `st` is the recursive call. -/
def statementBody (F : FloatOps) (st : CM Bool) : CM Bool := do
  let start ← cget
  let n := start.ctx.length
  let fd := functionDef st true
  let ce := compileExpr F fd false
  if ← pushRec then do
    let t ← curType
    match t with
    | .invalid => do
      err "Ran out of tokens to parse."
      return false
    | .kwVar => varDecl ce
    | .kwReturn => returnStmt ce
    | .curlyOpen => do stmtEnd n (← block st)
    | .kwIf => do stmtEnd n (← ifStmt st ce)
    | .kwWhile => do stmtEnd n (← whileStmt st ce)
    | .kwDo => do stmtEnd n (← doStmt st ce)
    | .kwFor => do stmtEnd n (← forStmt F st ce (compileNoEmit F fd true))
    | .kwBreak => do stmtEnd n (← breakStmt)
    | .kwFunction => do
      let p ← peekType
      if p = .identifier then do
        let r ← functionDef st false
        stmtEnd n r.isSome
      else exprStmt (compileExpr F fd true) n
    | _ => exprStmt (compileExpr F fd true) n
  else return false

/-- `nkiCompilerCompileStatement`, `src/nkcompil.c:410-507`, with a bound on the depth of recursion. -/
def statement (F : FloatOps) : Nat → CM Bool
  | 0 => cub .fuel
  | n + 1 => statementBody F (statement F n)

/-- `nkiCompilerCompileScript` after the tokenizer, `src/nkcompil.c:1195-1212`. -/
def compileTokens (F : FloatOps) (toks : List Token) : CM Bool := do
  cmod fun s => { s with
    toks := toks
    line := (match toks with | t :: _ => word t.line | [] => 0)
    file := (match toks with | t :: _ => t.file | [] => UINT_MAX) }
  let ok ← script (statement F maxDepth)
  cmod fun s => { s with toks := [], line := 0, file := UINT_MAX }
  return ok

/-- `nkiCompilerCompileScript`, `src/nkcompil.c:1173-1212`; `hdr` and `junk` as for the tokenizer. -/
def compileScript (F : FloatOps) (hdr : Nat) (junk : Nat → UInt8) (source filename : Bytes) : CM Bool := do
  if ← pushRec then do
    match ← onVM (Tok.tokenize hdr junk source filename) with
    | none => do
      popRec
      return false
    | some toks => do
      let ok ← compileTokens F toks
      popRec
      return ok
  else return false

/-- `nkiCompilerCreate`, `src/nkcompil.c:1042-1071`. -/
def createCompiler (vm : VM) : CS :=
  { vm, write := 0, ctx := [{ vars := [], offset := 0, fnId := UINT_MAX, isLoop := false, fixups := [] }], toks := [],
    line := 0, file := UINT_MAX, depth := 0, staticCount := 0 }

/-- `nkiCompilerCreateGlobalVariable`, `src/nkcompil.c:989-1012`: the position of the variable in static space. -/
def createGlobal (name : Bytes) : CM (Option Nat) := do
  let s ← cget
  match s.ctx with
  | [] => cub .null
  | [_] => do
    if ← addVariable name false false then do
      let s ← cget
      match s.ctx with
      | { vars := v :: _, .. } :: _ =>
        if v.position ≠ UINT_MAX then do
          let pos ← allocStatic
          modCtx fun c => { c with vars := match c.vars with
            | [] => []
            | v :: vs => { v with position := pos } :: vs }
          return some pos
        else return none
      | _ => return none
    else return none
  | _ => cub .assert

/-- `*staticVal = funcVal`, `src/nkcompil.c:1035-1037`, at the address taken in `src/nkcompil.c:1004`. -/
def setStatic (pos : Nat) (v : Value) : CM Unit := fun s =>
  if (s.vm.staticMask &&& pos) < s.vm.statics.length then
    .ok ((), { s with vm := { s.vm with statics := s.vm.statics.set (s.vm.staticMask &&& pos) v } })
  else .ub .oob

/-- `nkiCompilerCreateCFunctionVariable`, `src/nkcompil.c:1014-1040`. -/
def createCFunction (name : Bytes) (cb : Option Nat) : CM Unit := do
  let e ← onVM (registerNative name cb)
  let f ← onVM (internalFor e)
  match ← createGlobal name with
  | none => pure ()
  | some pos => setStatic pos (.fn f)

/-- `nkiCompilerGenerateGlobalVariables`, `src/nkcompil.c:1074-1112`. -/
def generateGlobals : CM Unit := do
  let s ← cget
  match s.ctx with
  | [] => cub .null
  | c :: _ => cmod fun s => { s with vm := { s.vm with globals := c.vars.map fun v => (v.name, v.position) } }

/-- `nkiCompilerPartiallyFinalize`, `src/nkcompil.c:1123-1143`. -/
def partiallyFinalize : CM Unit := do
  let s ← cget
  if s.ctx.length ≤ 1 then do
    generateGlobals
    let s ← cget
    emitOp 20 false
    cmod fun s' => { s' with write := s.write }
  else cub .assert

/-- Pop contexts while more than `n` are left, `src/nkcompil.c:1154-1156`, `1163-1165`. -/
def popTo (n : Nat) : Nat → CM Unit
  | 0 => pure ()
  | k + 1 => do
    let s ← cget
    if s.ctx.length > n then do
      popCtx
      popTo n k
    else pure ()

/-- `nkiCompilerFinalize`, `src/nkcompil.c:1145-1171`. -/
def finalize : CM Unit := do
  let s ← cget
  if s.ctx.length ≠ 1 then err "Context mismatch at compilation end!" else pure ()
  popTo 1 s.ctx.length
  partiallyFinalize
  popTo 0 s.ctx.length
  emitOp 20 true

end Nk.Cc
