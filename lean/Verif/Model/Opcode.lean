import Verif.Model.GC
/-!
# The instructions: `src/nkopcode.c`, and the interpreter loop of `src/nkvm.c`
-/
namespace Nk

section
variable (F : FloatOps) (H : Host)

/-- 32-bit signed arithmetic on two values of which the left is an integer. -/
def intOp (f : Int → Int → Int) (a b : BitVec 32) : M Unit := do
  let r ← liftR (i32 (f a.toInt b.toInt))
  pushInt r

/-- `nkiOpcode_add`, `src/nkopcode.c:46-108`. -/
def opAdd : M Unit := do
  let b ← pop
  let a ← pop
  match a with
  | .int i => do
    let j ← valueToInt b
    intOp (· + ·) i j
  | .float x => do
    let y ← valueToFloat F b
    push (.float (F.add x y))
  | .str id => do
    let s1 ← getString id
    let s2 ← valueToString F b
    pushString ((s1.getD (cs "<null>")) ++ (s2.getD (cs "<null>")))
  | a => addError ("Addition unimplemented for type " ++ typeName a.ty ++ ".")

/-- `nkiOpcode_subtract`, `src/nkopcode.c:155-189`. -/
def opSub : M Unit := do
  let b ← pop
  let a ← pop
  match a with
  | .int i => do
    let j ← valueToInt b
    intOp (· - ·) i j
  | .float x => do
    let y ← valueToFloat F b
    push (.float (F.sub x y))
  | a => addError ("Subtraction unimplemented for type " ++ typeName a.ty ++ ".")

/-- `nkiOpcode_multiply`, `src/nkopcode.c:191-225`. -/
def opMul : M Unit := do
  let b ← pop
  let a ← pop
  match a with
  | .int i => do
    let j ← valueToInt b
    intOp (· * ·) i j
  | .float x => do
    let y ← valueToFloat F b
    push (.float (F.mul x y))
  | a => addError ("Multiplication unimplemented for type " ++ typeName a.ty ++ ".")

/-- `nkiOpcode_divide`, `src/nkopcode.c:227-275`. -/
def opDiv : M Unit := do
  let b ← pop
  let a ← pop
  match a with
  | .int i => do
    let j ← valueToInt b
    if j.toInt = 0 ∨ (j.toInt = -1 ∧ i.toInt = -2147483648) then
      addError "Integer divide-by-zero or division overflow."
    else intOp Int.tdiv i j
  | .float x => do
    let y ← valueToFloat F b
    push (.float (F.div x y))
  | a => addError ("Division unimplemented for type " ++ typeName a.ty ++ ".")

/-- `nkiOpcode_modulo`, `src/nkopcode.c:277-315`. -/
def opMod : M Unit := do
  let b ← pop
  let a ← pop
  match a with
  | .int i => do
    let j ← valueToInt b
    if j.toInt = 0 ∨ (i.toInt = -2147483648 ∧ j.toInt = -1) then
      addError "Integer divide-by-zero."
    else intOp Int.tmod i j
  | a => addError ("Modulo unimplemented for type " ++ typeName a.ty ++ ".")

/-- `nkiOpcode_negate`, `src/nkopcode.c:317-348`. -/
def opNeg : M Unit := do
  let a ← pop
  match a with
  | .int i => do
    let r ← liftR (i32 (-i.toInt))
    pushInt r
  | .float x => push (.float (fneg x))
  | a => addError ("Negation unimplemented for type " ++ typeName a.ty ++ ".")

/-- `vm->instructions[ip & mask]`. -/
def instrAt (vm : VM) (ip : Nat) : Res (BitVec 32) :=
  match vm.instrs[ip &&& vm.instrMask]? with
  | some w => .ok w
  | none => .ub .oob

/-- The `nkiOpcode_pushLiteral_*` functions, `src/nkopcode.c:110-149`: take a slot, advance the
instruction pointer, write the literal. -/
def opPushLiteral (mk : BitVec 32 → Value) : M Unit := do
  let i ← pushSlot
  modCur fun c => { c with ip := u32 (c.ip + 1) }
  let c ← curCtx
  let vm ← get
  let w ← liftR (instrAt vm c.ip)
  pokeAt i (mk w)

/-- `nkiOpcode_popN`, `src/nkopcode.c:355-359`. -/
def opPopN : M Unit := do
  let v ← pop
  let n ← valueToInt v
  popN n.toNat

/-- The stack address computed from an index operand, `src/nkopcode.c:372-388` and `401-418`: absolute
if non-negative, otherwise relative to the stack size. -/
def stackAddr (i : BitVec 32) (size : Nat) : Nat :=
  if i.toInt ≥ 0 then i.toNat else u32 (size + i.toNat)

/-- `nkiOpcode_stackPeek`, `src/nkopcode.c:361-390`. -/
def opStackPeek : M Unit := do
  let v ← pop
  match v with
  | .int i => do
    let s ← curStack
    let x ← peek (stackAddr i s.size)
    push x
  | _ => addError "Attempted to use a non-integer as a stack index."

/-- `nkiOpcode_stackPoke`, `src/nkopcode.c:392-420`. -/
def opStackPoke : M Unit := do
  let v ← pop
  match v with
  | .int i => do
    let s ← curStack
    let x ← peek (usub s.size 1)
    poke (stackAddr i s.size) x
  | _ => addError "Attempted to use a non-integer as a stack index."

/-- `nkiOpcode_staticPeek`, `src/nkopcode.c:422-438`. -/
def opStaticPeek : M Unit := do
  let v ← pop
  match v with
  | .int i => do
    let vm ← get
    match vm.statics[i.toNat &&& vm.staticMask]? with
    | some x => push x
    | none => liftR (.ub .oob)
  | _ => addError "Attempted to use a non-integer as a static index."

/-- `nkiOpcode_staticPoke`, `src/nkopcode.c:440-456`. -/
def opStaticPoke : M Unit := do
  let v ← pop
  match v with
  | .int i => do
    let s ← curStack
    let x ← peek (usub s.size 1)
    let vm ← get
    let a := i.toNat &&& vm.staticMask
    if a < vm.statics.length then modify fun vm => { vm with statics := vm.statics.set a x }
    else liftR (.ub .oob)
  | _ => addError "Attempted to use a non-integer as a static index."

/-- `nkiOpcode_jumpRelative`, `src/nkopcode.c:458-462`. -/
def opJump : M Unit := do
  let v ← pop
  let o ← valueToInt v
  modCur fun c => { c with ip := u32 (c.ip + o.toNat) }

/-- `nkiOpcode_jz`, `src/nkopcode.c:890-898`. -/
def opJz : M Unit := do
  let off ← pop
  let test ← pop
  let t ← valueToInt test
  if t = 0 then do
    let o ← valueToInt off
    modCur fun c => { c with ip := u32 (c.ip + o.toNat) }
  else return ()

/-! ### Calls -/

/-- The shift loop of a callable-object call, `src/nkopcode.c:534-537`: `i` runs from `argc` down to 1. -/
def shiftArgs (base : Nat) : Nat → M Unit
  | 0 => return ()
  | n + 1 => do
    let v ← peek (u32 (base + (n + 1)))
    poke (u32 (base + (n + 2))) v
    shiftArgs base n

/-- The callable-object loop, `src/nkopcode.c:490-565`.  `redir` is how many redirections are still
allowed (10 at the start).  Returns the function value found and the argument count, or `none` after
an early `return`. -/
def resolveCallable : Nat → Nat → Value → M (Option (Option Value × Nat))
  | redir, argc, .obj id =>
    match redir with
    | 0 => do
      addError "Too many callable object redirections."
      return none
    | redir + 1 => do
      let kx ← findOrAddString (cs "_exec")
      let f ← lookupPublic F (.obj id) (.str kx)
      let kd ← findOrAddString (cs "_data")
      let d ← lookupPublic F (.obj id) (.str kd)
      match d with
      | none => match f with
        | none => return some (none, argc)
        | some f => resolveCallable redir argc f
      | some d =>
        if argc = UINT_MAX then do
          addError "Argument count overflow."
          return none
        else do
          let argc := argc + 1
          let _ ← pushSlot
          let s ← curStack
          shiftArgs (usub s.size (u32 (argc + 2))) argc
          poke (usub s.size (u32 (argc + 1))) d
          poke (usub s.size 1) (.int (BitVec.ofNat 32 argc))
          match f with
          | none => return some (none, argc)
          | some f => resolveCallable redir argc f
  | _, argc, v => return some (some v, argc)

/-- Copy of the arguments, `src/nkopcode.c:642-649`: `n` values from stack index `base`. -/
def copyArgs (base : Nat) : Nat → Nat → M (List Value)
  | _, 0 => return []
  | i, n + 1 => do
    let v ← peek (u32 (base + i))
    let vs ← copyArgs base (i + 1) n
    return v :: vs

/-- The type checks on native arguments, `src/nkopcode.c:666-739`, from argument `i` on. -/
def checkArgs (f : ExtFunc) : Nat → List Value → M Bool
  | _, [] => return true
  | i, v :: vs =>
    match f.argTypes[i]? with
    | none => liftR (.ub .oob)
    | some t =>
      if t = 5 then checkArgs f (i + 1) vs
      else if t ≠ v.ty then do
        addError "Incorrect argument type in call to external function."
        return false
      else if t = 4 then
        match f.argExtTypes[i]? with
        | none => liftR (.ub .oob)
        | some expected => do
          let o ← getObj v.raw
          match o with
          | none => do
            addError "Bad object ID passed to external function."
            return false
          | some o =>
            if expected ≠ UINT_MAX ∧ expected ≠ o.extType then do
              addError "Bad external object type passed to external function."
              return false
            else checkArgs f (i + 1) vs
      else checkArgs f (i + 1) vs

/-- The native half of `nkiOpcode_call`, `src/nkopcode.c:601-769`. -/
def callNative (extId argc : Nat) : M Unit := do
  let vm ← get
  match vm.extFuncs[extId]? with
  | none => addError "Tried to call a bad native function."
  | some f =>
    match f.callback with
    | none => addError "Tried to call a null native function."
    | some cb => do
      let s ← curStack
      let args ← copyArgs (usub s.size (u32 (argc + 1))) 0 argc
      let okArgs ←
        (if f.argc ≠ UINT_MAX then
          if f.argc ≠ argc then do
            addError "Tried to call an external function with an incorrect number of arguments."
            return false
          else checkArgs f 0 args
        else return true)
      if okArgs then do
        let r ← H.call cb args
        popN (u32 (argc + 2))
        push r
      else return ()

/-- `nkiOpcode_call`, `src/nkopcode.c:464-789`. -/
def opCall : M Unit := do
  let s ← curStack
  let top ← peek (usub s.size 1)
  let n ← valueToInt top
  let fv ← peek (usub s.size (u32 (n.toNat + 2)))
  let r ← resolveCallable F 10 n.toNat fv
  match r with
  | none => return ()
  | some (some (.fn id), argc) => do
    let vm ← get
    match vm.functions[id]? with
    | none => addError "Bad function id."
    | some f =>
      if f.argc ≠ UINT_MAX ∧ f.argc ≠ argc then
        addError "Incorrect argument count for function call."
      else if f.extId ≠ UINT_MAX then callNative H f.extId argc
      else do
        let c ← curCtx
        pushInt (BitVec.ofNat 32 c.ip)
        modCur fun c => { c with ip := usub f.first 1 }
  | some _ =>
    addError "Tried to call something that is not a function id or a callable object."

/-- `nkiOpcode_return`, `src/nkopcode.c:791-868`. -/
def opReturn : M Unit := do
  let cnt ← pop
  let rv ← pop
  let n ← valueToInt cnt
  popN n.toNat
  let ra ← pop
  let ra ← valueToInt ra
  let ac ← pop
  let ac ← valueToInt ac
  popN ac.toNat
  let _ ← pop
  if ra.toNat = UINT_MAX then do
    modCur fun c => { c with state := .finished, ip := UINT_MAX }
    popContext
    push rv
  else do
    push rv
    modCur fun c => { c with ip := ra.toNat }

/-- `nkiOpcode_end`, `src/nkopcode.c:870-888`. -/
def opEnd : M Unit := do
  let s ← curStack
  if s.size ≠ 0 then addError "Stack data remaining after end of program."
  modCur fun c => { c with ip := usub c.ip 1 }

/-! ### Comparison and logic -/

/-- A C truth value. -/
def b2i (b : Bool) : BitVec 32 := if b then 1 else 0

/-- `nkiOpcode_internal_compare`, `src/nkopcode.c:900-906`. -/
def popCompare : M Int := do
  let b ← pop
  let a ← pop
  valueCompare F a b false

/-- The comparison instructions, `src/nkopcode.c:908-942`. -/
def opCompare (p : Int → Bool) : M Unit := do
  let c ← popCompare F
  pushInt (b2i (p c))

/-- `nkiOpcode_eqsametype`, `src/nkopcode.c:944-958`. -/
def opEqSameType : M Unit := do
  let s ← curStack
  let x ← peek (usub s.size 1)
  let y ← peek (usub s.size 2)
  if x.ty = y.ty then do
    let c ← popCompare F
    pushInt (b2i (c = 0))
  else do
    popN 2
    pushInt 0

/-- `nkiOpcode_not`, `src/nkopcode.c:960-963`. -/
def opNot : M Unit := do
  let v ← pop
  let i ← valueToInt v
  pushInt (b2i (i = 0))

/-- `nkbool x = <nkint32_t>`: `nkbool` is `unsigned char` (`src/nktypes.h`), so only the low 8 bits
survive. -/
def toBool8 (i : BitVec 32) : Bool := decide (i.toNat % 256 ≠ 0)

/-- `nkiOpcode_and`, `src/nkopcode.c:965-972`. -/
def opAnd : M Unit := do
  let v1 ← pop
  let i1 ← valueToInt v1
  let v2 ← pop
  let i2 ← valueToInt v2
  pushInt (b2i (toBool8 i1 && toBool8 i2))

/-- `nkiOpcode_or`, `src/nkopcode.c:974-981`. -/
def opOr : M Unit := do
  let v1 ← pop
  let i1 ← valueToInt v1
  let v2 ← pop
  let i2 ← valueToInt v2
  pushInt (b2i (toBool8 i1 || toBool8 i2))

/-! ### Objects -/

/-- `nkiOpcode_createObject`, `src/nkopcode.c:983-988`. -/
def opCreateObject : M Unit := do
  let i ← pushSlot
  let id ← createObject
  pokeAt i (.obj id)

/-- `nkiOpcode_objectFieldGet_internal`, `src/nkopcode.c:990-1031`. -/
def opFieldGet (popObject : Bool) : M Unit := do
  let key ← pop
  let o ← (if popObject then pop else do
    let s ← curStack
    peek (usub s.size 1))
  match o with
  | .obj id => do
    let ob ← getObj id
    match ob with
    | none => addError "Bad object id in nkiOpcode_objectFieldGet."
    | some _ => do
      let i ← pushSlot
      let v ← lookupField F id key
      pokeAt i (v.getD .nil)
  | _ => addError "Attempted to get a field on a value that is not an object."

/-- `nkiOpcode_objectFieldSet`, `src/nkopcode.c:1043-1089`. -/
def opFieldSet : M Unit := do
  let key ← pop
  let o ← pop
  let v ← pop
  match o with
  | .obj id => do
    let ob ← getObj id
    match ob with
    | none => addError "Bad object id in nkiOpcode_objectFieldSet."
    | some _ => do
      storeField F id key v
      push v
  | _ => addError "Attempted to set a field on a value that is not an object."

/-- `nkiOpcode_prepareSelfCall`, `src/nkopcode.c:1091-1111`. -/
def opPrepareSelfCall : M Unit := do
  let s ← curStack
  let top ← peek (usub s.size 1)
  let n ← valueToInt top
  let f ← peek (usub s.size (u32 (n.toNat + 3)))
  let o ← peek (usub s.size (u32 (n.toNat + 2)))
  poke (usub s.size (u32 (n.toNat + 3))) o
  poke (usub s.size (u32 (n.toNat + 2))) f
  poke (usub s.size 1) (.int (n + 1))

/-- `nkiOpcode_len`, `src/nkopcode.c:1365-1384`. -/
def opLen : M Unit := do
  let v ← pop
  let i ← pushSlot
  match v with
  | .obj _ => do
    let n ← objectSize v
    pokeAt i (.int (BitVec.ofNat 32 n))
  | _ => addError "Non-object passed into len()."

/-! ### Coroutines -/

/-- Push a list of values, `src/nkopcode.c:1203-1206`. -/
def pushAll : List Value → M Unit
  | [] => return ()
  | v :: vs => do
    push v
    pushAll vs

/-- `nkiOpcode_coroutineCreate`, `src/nkopcode.c:1119-1232`. -/
def opCoroutineCreate : M Unit := do
  let ac ← pop
  let argc ← valueToInt ac
  if argc.toInt < 0 then addError "Got negative argument count in coroutine creation."
  else do
    let s ← curStack
    if argc.toNat > s.size then addError "Argument count bigger than stack in coroutine creation."
    else if s.size > s.vals.length then liftR (.ub .oob)
    else do
      let args := (s.vals.drop (s.size - argc.toNat)).take argc.toNat
      popN argc.toNat
      let fv ← pop
      let slot ← pushSlot
      let id ← createObject
      let co := Value.obj id
      pokeAt slot co
      let vm ← get
      let k := vm.ctxs.length
      modify fun vm => { vm with
        ctxs := vm.ctxs ++ [some { Ctx.init with coObj := co, state := .created }] }
      let ok1 ← setExtType co vm.coType
      let ok2 ← (if ok1 then setExtData co k else return false)
      if ok2 then do
        pushContext k
        push fv
        pushAll args
        pushInt argc
        fun vm => match ctxAt vm k with
          | .ok c => .ok ((), { vm with ctxs := vm.ctxs.set k (some { c with ip := UINT_MAX }) })
          | .ub e => .ub e
        opCall F H
        popContext
      else do
        let _ ← clearExt co
        freeCtx (some k)
        addError "Failed to set execution context for coroutine."

/-- `nkiOpcode_coroutineYield`, `src/nkopcode.c:1234-1260`. -/
def opYield : M Unit := do
  let vm ← get
  if vm.cur = 0 then addError "Tried to yield from the root execution context."
  else do
    let v ← pop
    popContext
    push v

/-- `nkiOpcode_coroutineResume`, `src/nkopcode.c:1262-1328`.  The context pointer is dereferenced
before it is compared with NULL. -/
def opResume : M Unit := do
  let v ← pop
  let co ← pop
  let vm ← get
  let t ← getExtType co
  if vm.coType ≠ t then addError "Tried to resume something that is not a coroutine."
  else do
    let d ← getExtData co
    match d with
    | none => liftR (.ub .null)
    | some k => do
      let vm ← get
      let c ← liftR (ctxAt vm k)
      match c.state with
      | .invalid => addError "Tried to resume an invalid coroutine."
      | .finished => push .nil
      | st =>
        match c.parent with
        | some _ => addError "Tried to recursively resume an active coroutine."
        | none => do
          pushContext k
          match st with
          | .created => do
            let vm ← get
            let c ← liftR (ctxAt vm k)
            setCtx k { c with state := .running }
          | _ => push v

/-- `nkiOpcode_coroutineIsFinished`, `src/nkopcode.c:1330-1363`. -/
def opIsFinished : M Unit := do
  let co ← pop
  let vm ← get
  let t ← getExtType co
  if vm.coType ≠ t then
    addError "Tried to check for a finished coroutine with the wrong object type."
  else do
    let d ← getExtData co
    match d with
    | none => liftR (.ub .null)
    | some k => do
      let vm ← get
      let c ← liftR (ctxAt vm k)
      push (.int (b2i (c.state = .finished)))

/-! ### Dispatch -/

/-- `nkiOpcodeTable`, `src/nkvm.c:69-153`, with `enum NKOpcode` of `src/nkenums.h`; the padding entries
are no-ops. -/
def dispatch (op : Nat) : M Unit :=
  match op with
  | 1 => opAdd F
  | 2 => opSub F
  | 3 => opMul F
  | 4 => opDiv F
  | 5 => opNeg
  | 6 => opMod
  | 7 => opPushLiteral .int
  | 8 => opPushLiteral .float
  | 9 => opPushLiteral (fun w => .str w.toNat)
  | 10 => opPushLiteral (fun w => .fn w.toNat)
  | 11 => do
    let _ ← pop
    return ()
  | 12 => opPopN
  | 13 => opStackPeek
  | 14 => opStackPoke
  | 15 => opStaticPoke
  | 16 => opStaticPeek
  | 17 => opJump
  | 18 => opCall F H
  | 19 => opReturn
  | 20 => opEnd
  | 21 => opJz
  | 22 => opCompare F (fun c => decide (c = 1))
  | 23 => opCompare F (fun c => decide (c = -1))
  | 24 => opCompare F (fun c => decide (c = 0 ∨ c = 1))
  | 25 => opCompare F (fun c => decide (c = 0 ∨ c = -1))
  | 26 => opCompare F (fun c => decide (c = 0))
  | 27 => opCompare F (fun c => decide (c ≠ 0))
  | 28 => opEqSameType F
  | 29 => opNot
  | 30 => opAnd
  | 31 => opOr
  | 32 => opCreateObject
  | 33 => opFieldGet F true
  | 34 => opFieldSet F
  | 35 => opFieldGet F false
  | 36 => opPrepareSelfCall
  | 37 => push .nil
  | 38 => opCoroutineCreate F H
  | 39 => opYield
  | 40 => opResume
  | 41 => opIsFinished
  | 42 => opLen
  | _ => return ()

/-- The part of `nkiVmIterate` that does the instruction, `src/nkvm.c:421-423`. -/
def execute (op : Nat) : M Unit := do
  dispatch F H op
  modCur fun c => { c with ip := u32 (c.ip + 1) }

/-- `src/nkvm.c:402`. -/
def tick (vm : VM) : VM := { vm with gc := { vm.gc with countdown := usub vm.gc.countdown 1 } }

/-- `src/nkvm.c:406-413` when the limit is not reached. -/
def charge (vm : VM) : VM :=
  { vm with instrLeft := if vm.instrLeft = UINT_MAX then vm.instrLeft else vm.instrLeft - vm.gc.interval }

/-- `src/nkvm.c:409`. -/
def noneLeft (vm : VM) : VM := { vm with instrLeft := 0 }

/-- `src/nkvm.c:417`. -/
def resetNew (vm : VM) : VM := { vm with gc := { vm.gc with newObjCountdown := vm.gc.newObjInterval } }

/-- `src/nkvm.c:419`. -/
def resetCountdown (vm : VM) : VM := { vm with gc := { vm.gc with countdown := vm.gc.interval } }

/-- `src/nkvm.c:415-418`. -/
def collectIfDue : M Unit := do
  let vm ← get
  if vm.gc.newObjCountdown = 0 then do
    garbageCollect H
    modify resetNew
  else return ()

/-- `nkiVmIterate`, `src/nkvm.c:390-424`, after the instruction word has been read. -/
def iterateOp (op : Nat) : M Unit := do
  modify tick
  let vm ← get
  if vm.gc.countdown = 0 then
    if vm.instrLeft ≠ UINT_MAX ∧ vm.instrLeft < vm.gc.interval then do
      addError "Instruction count limit reached."
      modify noneLeft
    else do
      modify charge
      collectIfDue H
      modify resetCountdown
      execute F H op
  else execute F H op

/-- `nkiVmIterate`, `src/nkvm.c:390-424`. -/
def iterate : M Unit := do
  let c ← curCtx
  let vm ← get
  let w ← liftR (instrAt vm c.ip)
  iterateOp F H (w.toNat % 64)

end
end Nk
