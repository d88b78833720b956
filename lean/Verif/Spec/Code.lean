import Verif.Spec.Machine
import Verif.Model.Exec
import Verif.Model.Compile
/-!
# What expressions and their code mean

Expressions are trees of the kinds the compiler handles (`Ex`), with the node of the compiler each stands for
(`Ex.node`).  Their meaning (`Ev`) is given on a list of values, the current stack with the local variables in it, and a
machine, for everything else.  What an operator does is what its instruction does with the operands on the stack
(`Does`); the meaning of the instructions themselves is the subject of C20 to C24 and C59 to C61.
-/
namespace Nk.Cc

/-! ## Running -/

section
variable (F : FloatOps) (H : Host)

/-- One instruction, at the instruction pointer, which is not the END instruction.  Counting instructions and collecting
garbage, which `nkiVmIterate` does in between, are left out here. -/
def Step (vm vm' : VM) : Prop :=
  ∃ c w, vm.At c ∧ instrAt vm c.ip = .ok w ∧ w.toNat ≠ 20 ∧ execute F H (w.toNat % 64) vm = .ok ((), vm')

/-- Some number of instructions. -/
inductive Runs : VM → VM → Prop
  | refl (vm : VM) : Runs vm vm
  | step {a b c : VM} : Step F H a b → Runs b c → Runs a c
end

/-- `vm` is `W` at the instruction `p` with the values `l` on the current stack. -/
def Mach (W : VM) (p : Nat) (l : List Value) (vm : VM) : Prop :=
  ∃ c s, W.At c ∧ s.WF ∧ s.used = l ∧ vm = W.setC { c with stack := s, ip := p }

/-- The words `ws` are the instructions from `p` on. -/
def CodeAt (W : VM) (p : Nat) (ws : List (BitVec 32)) : Prop := ∀ i w, ws[i]? = some w → W.instrs[p + i]? = some w

/-- The limit on the stack size allows `n` values. -/
def Space (W : VM) (n : Nat) : Prop := ∃ k, k ≤ 16 ∧ 2 ^ k ≤ W.limits.maxStackSize ∧ n ≤ 2 ^ k

/-- The arrays of instructions and of global variables have the sizes their masks say, and strings are in order. -/
structure Good (W : VM) : Prop where
  mask : W.instrs.length = W.instrMask + 1
  pow : ∃ k, k ≤ 31 ∧ W.instrMask + 1 = 2 ^ k
  smask : W.statics.length = W.staticMask + 1
  spow : ∃ k, k ≤ 31 ∧ W.staticMask + 1 = 2 ^ k
  str : StrWF W

/-- What evaluating an expression never changes: the code, the limits, the texts of existing strings, existing functions; and
it records no error. -/
structure Keep (W W' : VM) : Prop where
  instrs : W'.instrs = W.instrs
  mask : W'.instrMask = W.instrMask
  smask : W'.staticMask = W.staticMask
  slen : W'.statics.length = W.statics.length
  limits : W'.limits = W.limits
  errors : W'.errors = W.errors
  str : StrWF W'
  texts : ∀ id t, TextIs W id t → TextIs W' id t
  fns : ∀ (id : Nat) (f : Func), W.functions[id]? = some f → W'.functions[id]? = some f

section
variable (F : FloatOps) (H : Host)

/-- Instruction `op` with `args` on top of the values `l` replaces them by `v`, and turns `W` into `W'`.  (For a call this
includes running the function.) -/
def Does (op : Nat) (l args : List Value) (W : VM) (v : Value) (W' : VM) : Prop :=
  Keep W W' ∧ ∀ p vm, Mach W p (l ++ args) vm → W.instrs[p]? = some (BitVec.ofNat 32 op) →
    ∃ vm', Runs F H vm vm' ∧ Mach W' (p + 1) (l ++ [v]) vm'

/-- Instruction `op` with `args` on top of the values `l` records an error. -/
def Fails (op : Nat) (l args : List Value) (W : VM) : Prop :=
  ∀ p vm, Mach W p (l ++ args) vm → W.instrs[p]? = some (BitVec.ofNat 32 op) →
    ∃ vm', Runs F H vm vm' ∧ W.errors.length < vm'.errors.length
end

/-! ## Expressions -/

/-- Unary operators. -/
inductive UnOp where
  | neg | not
deriving DecidableEq

/-- The token of a unary operator. -/
def UnOp.type : UnOp → TokType
  | neg => .minus
  | not => .not

/-- The instruction of a unary operator (`enum NKOpcode`, `src/nkenums.h`). -/
def UnOp.code : UnOp → Nat
  | neg => 5
  | not => 29

/-- Binary operators; `index` is `a[b]`. -/
inductive BinOp where
  | add | sub | mul | div | mod | gt | lt | ge | le | eq | ne | same | and | or | index
deriving DecidableEq

/-- The token of a binary operator. -/
def BinOp.type : BinOp → TokType
  | add => .plus
  | sub => .minus
  | mul => .multiply
  | div => .divide
  | mod => .modulo
  | gt => .greaterThan
  | lt => .lessThan
  | ge => .greaterThanOrEqual
  | le => .lessThanOrEqual
  | eq => .equal
  | ne => .notEqual
  | same => .equalWithSameType
  | and => .and
  | or => .or
  | index => .bracketOpen

/-- The instruction of a binary operator (`enum NKOpcode`, `src/nkenums.h`). -/
def BinOp.code : BinOp → Nat
  | add => 1
  | sub => 2
  | mul => 3
  | div => 4
  | mod => 6
  | gt => 22
  | lt => 23
  | ge => 24
  | le => 25
  | eq => 26
  | ne => 27
  | same => 28
  | and => 30
  | or => 31
  | index => 33

/-- Built-in functions; `is_finished` is left out, because of `C51_violated`. -/
inductive Builtin where
  | object | len | resume | yield | coroutine
deriving DecidableEq

/-- The name of a built-in function. -/
def Builtin.name : Builtin → Bytes
  | object => cs "object"
  | len => cs "len"
  | resume => cs "resume"
  | yield => cs "yield"
  | coroutine => cs "coroutine"

/-- The instruction of a built-in function (`enum NKOpcode`, `src/nkenums.h`). -/
def Builtin.code : Builtin → Nat
  | object => 32
  | len => 42
  | resume => 40
  | yield => 39
  | coroutine => 38

/-- What the instruction of a built-in function gets besides `n` arguments: a missing value to pass on is nil, and
`coroutine` gets the number of arguments for the function.  Other numbers of arguments are not allowed. -/
def Builtin.extra : Builtin → Nat → Option (List Value)
  | object, 0 => some []
  | len, 1 => some []
  | resume, 1 => some [.nil]
  | resume, 2 => some []
  | yield, 0 => some [.nil]
  | yield, 1 => some []
  | coroutine, n => some [.int (BitVec.ofNat 32 n - 1)]
  | _, _ => none

/-- A token with a given type. -/
def ofType (t : Token) (ty : TokType) : Token := { t with type := ty }

mutual
/-- Expressions.  Tokens carry names, literals and positions. -/
inductive Ex where
  | int (t : Token)
  | float (t : Token)
  | str (t : Token)
  | fn (t : Token)
  | nil (t : Token)
  | newObj (t : Token)
  | var (t : Token)
  | un (o : UnOp) (t : Token) (e : Ex)
  | bin (o : BinOp) (t : Token) (l r : Ex)
  /-- `x = e` -/
  | setVar (t x : Token) (e : Ex)
  /-- `o[k] = e` -/
  | setField (t u : Token) (o k e : Ex)
  /-- `f(..)` -/
  | call (t : Token) (f : Ex) (args : Exs)
  /-- `o->k(..)` -/
  | method (t u : Token) (o k : Ex) (args : Exs)
  /-- `len(..)` and the like -/
  | builtin (f : Builtin) (n t : Token) (args : Exs)
/-- Arguments of a call. -/
inductive Exs where
  | nil
  | cons (a : Ex) (as : Exs)
end

mutual
/-- The node of the compiler for an expression. -/
def Ex.node : Ex → Node
  | .int t => .mk (ofType t .integer) false .nil .nil
  | .float t => .mk (ofType t .float) false .nil .nil
  | .str t => .mk (ofType t .string) false .nil .nil
  | .fn t => .mk (ofType t .kwFunction) false .nil .nil
  | .nil t => .mk (ofType t .nil) false .nil .nil
  | .newObj t => .mk (ofType t .newobject) false .nil .nil
  | .var t => .mk (ofType t .identifier) false .nil .nil
  | .un o t e => .mk (ofType t o.type) false e.node .nil
  | .bin o t l r => .mk (ofType t o.type) false l.node r.node
  | .setVar t x e => .mk (ofType t .assignment) false (.mk (ofType x .identifier) false .nil .nil) e.node
  | .setField t u o k e => .mk (ofType t .assignment) false (.mk (ofType u .bracketOpen) false o.node k.node) e.node
  | .call t f as => .mk (ofType t .parenOpen) true f.node (as.node (ofType t .parenOpen))
  | .method t u o k as => .mk (ofType t .functionCallWithSelf) true (.mk (ofType u .indexIntoNoPop) false o.node k.node)
      (as.node (ofType t .functionCallWithSelf))
  | .builtin f n t as => .mk { n with type := .functionStyleExpression, str := f.name } true .nil (as.node (ofType t .parenOpen))
/-- The chain of nodes for arguments. -/
def Exs.node (t : Token) : Exs → Node
  | .nil => .nil
  | .cons a as => .mk t false a.node (as.node t)
end

mutual
/-- The number of nodes. -/
def Ex.size : Ex → Nat
  | .int _ | .float _ | .str _ | .fn _ | .nil _ | .newObj _ | .var _ => 1
  | .un _ _ e => e.size + 1
  | .bin _ _ l r => l.size + r.size + 1
  | .setVar _ _ e => e.size + 2
  | .setField _ _ o k e => o.size + k.size + e.size + 2
  | .call _ f as => f.size + as.size + 1
  | .method _ _ o k as => o.size + k.size + as.size + 2
  | .builtin _ _ _ as => as.size + 1
/-- The number of nodes. -/
def Exs.size : Exs → Nat
  | .nil => 0
  | .cons a as => a.size + as.size + 1
end

/-- The number of arguments. -/
def Exs.count : Exs → Nat
  | .nil => 0
  | .cons _ as => as.count + 1

/-- Where a variable lives: in the stack, counted from the start of the function's frame, or with the globals. -/
inductive Place where
  | loc (i : Nat)
  | glob (i : Nat)
deriving DecidableEq

section
variable (F : FloatOps) (H : Host) (Γ : Bytes → Option Place) (b : Nat)

mutual
/-- `Ev l W e v l' W'`: with the values `l` on the stack (the frame of the current function begins at `b`) and the machine
`W`, the expression `e` has the value `v`, and leaves the values `l'` and the machine `W'`.  `Γ` says where variables
are. -/
inductive Ev : List Value → VM → Ex → Value → List Value → VM → Prop
  | int {l W} (t : Token) : Ev l W (.int t) (.int (atoi32 t.str)) l W
  | float {l W} (t : Token) : Ev l W (.float t) (.float (F.atof t.str)) l W
  | str {l W id} (t : Token) : TextIs W id t.str → Ev l W (.str t) (.str id) l W
  | fn {l W} (t : Token) : Ev l W (.fn t) (.fn (atoi32 t.str).toNat) l W
  | nil {l W} (t : Token) : Ev l W (.nil t) .nil l W
  | newObj {l W v W'} (t : Token) : Does F H 32 l [] W v W' → Ev l W (.newObj t) v l W'
  | loc {l W i v} (t : Token) : Γ t.str = some (.loc i) → l[b + i]? = some v → Ev l W (.var t) v l W
  | glob {l W i v} (t : Token) : Γ t.str = some (.glob i) → W.statics[i]? = some v → Ev l W (.var t) v l W
  | un {l W o t e x l1 W1 v W2} : Ev l W e x l1 W1 → Does F H o.code l1 [x] W1 v W2 → Ev l W (.un o t e) v l1 W2
  | bin {l W o t e f x l1 W1 y l2 W2 v W3} : Ev l W e x l1 W1 → Ev (l1 ++ [x]) W1 f y (l2 ++ [x]) W2 →
      Does F H (BinOp.code o) l2 [x, y] W2 v W3 → Ev l W (.bin o t e f) v l2 W3
  | setLoc {l W t x e v l1 W1 i} : Ev l W e v l1 W1 → Γ x.str = some (.loc i) → b + i < l1.length →
      Ev l W (.setVar t x e) v (l1.set (b + i) v) W1
  | setGlob {l W t x e v l1 W1 i} : Ev l W e v l1 W1 → Γ x.str = some (.glob i) → i < W1.statics.length →
      Ev l W (.setVar t x e) v l1 { W1 with statics := W1.statics.set i v }
  | setField {l W t u o k e v l1 W1 x l2 W2 y l3 W3 r W4} : Ev l W e v l1 W1 → Ev (l1 ++ [v]) W1 o x (l2 ++ [v]) W2 →
      Ev (l2 ++ [v, x]) W2 k y (l3 ++ [v, x]) W3 → Does F H 34 l3 [v, x, y] W3 r W4 → Ev l W (.setField t u o k e) r l3 W4
  | call {l W t f as x l1 W1 vs l2 W2 v W3} : Ev l W f x l1 W1 → EvArgs (l1 ++ [x]) W1 as vs (l2 ++ [x]) W2 →
      Does F H 18 l2 (x :: vs ++ [.int (BitVec.ofNat 32 vs.length)]) W2 v W3 → Ev l W (.call t f as) v l2 W3
  /-- The field `k` of the object is called with the object as first argument. -/
  | method {l W t u o k as x l1 W1 y l2 W2 f W3 vs l3 W4 v W5} : Ev l W o x l1 W1 → Ev (l1 ++ [x]) W1 k y (l2 ++ [x]) W2 →
      Does F H 35 (l2 ++ [x]) [y] W2 f W3 → EvArgs (l2 ++ [x, f]) W3 as vs (l3 ++ [x, f]) W4 →
      Does F H 18 l3 (f :: x :: vs ++ [.int (BitVec.ofNat 32 (vs.length + 1))]) W4 v W5 → Ev l W (.method t u o k as) v l3 W5
  | builtin {l W f n t as vs l1 W1 xs v W2} : EvArgs l W as vs l1 W1 → Builtin.extra f vs.length = some xs →
      Does F H f.code l1 (vs ++ xs) W1 v W2 → Ev l W (.builtin f n t as) v l1 W2
/-- The values of arguments, first to last. -/
inductive EvArgs : List Value → VM → Exs → List Value → List Value → VM → Prop
  | nil {l W} : EvArgs l W .nil [] l W
  | cons {l W a as v l1 W1 vs l2 W2} : Ev l W a v l1 W1 → EvArgs (l1 ++ [v]) W1 as vs (l2 ++ [v]) W2 →
      EvArgs l W (.cons a as) (v :: vs) l2 W2
end

mutual
/-- `EvErr l W e`: evaluating `e` is an error, because some operation in it, all before it having values, is one. -/
inductive EvErr : List Value → VM → Ex → Prop
  | newObj {l W} (t : Token) : Fails F H 32 l [] W → EvErr l W (.newObj t)
  | unArg {l W o t e} : EvErr l W e → EvErr l W (.un o t e)
  | un {l W o t e x l1 W1} : Ev F H Γ b l W e x l1 W1 → Fails F H (UnOp.code o) l1 [x] W1 → EvErr l W (.un o t e)
  | binL {l W o t e f} : EvErr l W e → EvErr l W (.bin o t e f)
  | binR {l W o t e f x l1 W1} : Ev F H Γ b l W e x l1 W1 → EvErr (l1 ++ [x]) W1 f → EvErr l W (.bin o t e f)
  | bin {l W o t e f x l1 W1 y l2 W2} : Ev F H Γ b l W e x l1 W1 → Ev F H Γ b (l1 ++ [x]) W1 f y (l2 ++ [x]) W2 →
      Fails F H (BinOp.code o) l2 [x, y] W2 → EvErr l W (.bin o t e f)
  | setVar {l W t x e} : EvErr l W e → EvErr l W (.setVar t x e)
  | setFieldE {l W t u o k e} : EvErr l W e → EvErr l W (.setField t u o k e)
  | setFieldO {l W t u o k e v l1 W1} : Ev F H Γ b l W e v l1 W1 → EvErr (l1 ++ [v]) W1 o → EvErr l W (.setField t u o k e)
  | setFieldK {l W t u o k e v l1 W1 x l2 W2} : Ev F H Γ b l W e v l1 W1 →
      Ev F H Γ b (l1 ++ [v]) W1 o x (l2 ++ [v]) W2 → EvErr (l2 ++ [v, x]) W2 k → EvErr l W (.setField t u o k e)
  | setField {l W t u o k e v l1 W1 x l2 W2 y l3 W3} : Ev F H Γ b l W e v l1 W1 →
      Ev F H Γ b (l1 ++ [v]) W1 o x (l2 ++ [v]) W2 → Ev F H Γ b (l2 ++ [v, x]) W2 k y (l3 ++ [v, x]) W3 →
      Fails F H 34 l3 [v, x, y] W3 → EvErr l W (.setField t u o k e)
  | callF {l W t f as} : EvErr l W f → EvErr l W (.call t f as)
  | callArgs {l W t f as x l1 W1} : Ev F H Γ b l W f x l1 W1 → EvErrArgs (l1 ++ [x]) W1 as → EvErr l W (.call t f as)
  | call {l W t f as x l1 W1 vs l2 W2} : Ev F H Γ b l W f x l1 W1 →
      EvArgs F H Γ b (l1 ++ [x]) W1 as vs (l2 ++ [x]) W2 →
      Fails F H 18 l2 (x :: vs ++ [.int (BitVec.ofNat 32 vs.length)]) W2 → EvErr l W (.call t f as)
  | methodO {l W t u o k as} : EvErr l W o → EvErr l W (.method t u o k as)
  | methodK {l W t u o k as x l1 W1} : Ev F H Γ b l W o x l1 W1 → EvErr (l1 ++ [x]) W1 k → EvErr l W (.method t u o k as)
  | methodF {l W t u o k as x l1 W1 y l2 W2} : Ev F H Γ b l W o x l1 W1 → Ev F H Γ b (l1 ++ [x]) W1 k y (l2 ++ [x]) W2 →
      Fails F H 35 (l2 ++ [x]) [y] W2 → EvErr l W (.method t u o k as)
  | methodArgs {l W t u o k as x l1 W1 y l2 W2 f W3} : Ev F H Γ b l W o x l1 W1 → Ev F H Γ b (l1 ++ [x]) W1 k y (l2 ++ [x]) W2 →
      Does F H 35 (l2 ++ [x]) [y] W2 f W3 → EvErrArgs (l2 ++ [x, f]) W3 as → EvErr l W (.method t u o k as)
  | method {l W t u o k as x l1 W1 y l2 W2 f W3 vs l3 W4} : Ev F H Γ b l W o x l1 W1 →
      Ev F H Γ b (l1 ++ [x]) W1 k y (l2 ++ [x]) W2 → Does F H 35 (l2 ++ [x]) [y] W2 f W3 →
      EvArgs F H Γ b (l2 ++ [x, f]) W3 as vs (l3 ++ [x, f]) W4 →
      Fails F H 18 l3 (f :: x :: vs ++ [.int (BitVec.ofNat 32 (vs.length + 1))]) W4 → EvErr l W (.method t u o k as)
  | builtinArgs {l W f n t as} : EvErrArgs l W as → EvErr l W (.builtin f n t as)
  | builtin {l W f n t as vs l1 W1 xs} : EvArgs F H Γ b l W as vs l1 W1 → Builtin.extra f vs.length = some xs →
      Fails F H f.code l1 (vs ++ xs) W1 → EvErr l W (.builtin f n t as)
/-- Evaluating one of the arguments is an error. -/
inductive EvErrArgs : List Value → VM → Exs → Prop
  | head {l W a as} : EvErr l W a → EvErrArgs l W (.cons a as)
  | tail {l W a as v l1 W1} : Ev F H Γ b l W a v l1 W1 → EvErrArgs (l1 ++ [v]) W1 as → EvErrArgs l W (.cons a as)
end

end

/-! ## The compiler's state -/

/-- The string literals of the compiled code have their texts in `W`. -/
def Lits (cvm W : VM) : Prop := ∀ id e, cvm.strings.entry id = some e → e.dontGC = true → TextIs W id e.str

/-- The compiler is writing into an instruction array of the size its mask says. -/
structure CodeWF (s : CS) : Prop where
  pow : ∃ k, k ≤ 29 ∧ s.vm.instrMask + 1 = 2 ^ k
  len : s.vm.instrs.length = s.vm.instrMask + 1
  write : s.write ≤ s.vm.instrMask
  str : StrWF s.vm
  ctx : s.ctx ≠ []

/-- From `s` to `s'` exactly the words `ws` were written; besides, string literals may have been added, and contexts and
the recursion count may differ. -/
structure Emit (s : CS) (ws : List (BitVec 32)) (s' : CS) : Prop where
  wf : CodeWF s'
  write : s'.write = s.write + ws.length
  below : ∀ i, i < s.write → s'.vm.instrs[i]? = s.vm.instrs[i]?
  code : ∀ i w, ws[i]? = some w → s'.vm.instrs[s.write + i]? = some w
  rest : s' = { s with
    vm := { s.vm with instrs := s'.vm.instrs, instrMask := s'.vm.instrMask, strings := s'.vm.strings, sbuckets := s'.vm.sbuckets },
    write := s'.write, ctx := s'.ctx, depth := s'.depth }
  lits : ∀ W, Lits s'.vm W → Lits s.vm W

/-- The place the compiler's contexts give to a name. -/
def placeOf (ctx : List CCtx) (name : Bytes) : Option Place :=
  (findCtx name ctx).map fun v => if v.isGlobal then .glob v.position else .loc v.position

/-- How many values the compiler believes to be on the stack above the start of the function's frame. -/
def offOf : List CCtx → Nat
  | [] => 0
  | c :: _ => c.offset

end Nk.Cc
