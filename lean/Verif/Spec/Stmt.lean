import Verif.Spec.Code
import Verif.Model.Compile
import Verif.Spec.Parse
import Verif.Props.Instr
/-!
# What statements mean

Statements are trees (`St`), with the tokens they are written with (`Src`).  Their meaning (`St.exec`) is a relation
between what is there before (the values on the stack, the machine) and how execution ends and what is there then.  It is
put together from a few combinators, one for each way in which execution proceeds.
-/
namespace Nk.Cc
open Nk.Props

mutual
/-- Statements. -/
inductive St where
  /-- `e;` -/
  | expr (e : Ex)
  /-- `var x = e;` -/
  | decl (x : Bytes) (e : Ex)
  /-- `var x;` -/
  | decl0 (x : Bytes)
  /-- `{ .. }` -/
  | block (ss : Sts)
  /-- `if(c) a` -/
  | ifThen (c : Ex) (a : St)
  /-- `if(c) a else d` -/
  | ifElse (c : Ex) (a d : St)
  /-- `while(c) a` -/
  | while (c : Ex) (a : St)
  /-- `do a while(c);` -/
  | doWhile (a : St) (c : Ex)
  /-- `for(i c; n) a` -/
  | for (i : St) (c n : Ex) (a : St)
  /-- `break;` -/
  | brk
  /-- `return e;` -/
  | ret (e : Ex)
/-- Lists of statements. -/
inductive Sts where
  | nil
  | cons (a : St) (as : Sts)
end

/-! ## Meaning -/

/-- How execution ends. -/
inductive Out where
  /-- at the end of the statement -/
  | normal
  /-- at a `break` -/
  | brk
  /-- at a `return` with this value -/
  | ret (v : Value)
  /-- with an error -/
  | err
  /-- not at all: this is how far it has come.  With this outcome nonterminating programs have a meaning, too: what they
  have done after any number of steps. -/
  | part

/-- The values on the stack and the machine before, the outcome, the values on the stack and the machine after. -/
abbrev Rel := List Value → VM → Out → List Value → VM → Prop

/-- What names mean at a place in the program: where variables are, how many global variables there are if the next
variable is to be a global one, and how many values there are on the stack above the start of the function's frame. -/
structure Env where
  Γ : Bytes → Option Place
  g : Option Nat
  h : Nat

/-- Inside of a block: variables are local. -/
def Env.inner (E : Env) : Env := { E with g := none }

/-- After the declaration of a variable. -/
def Env.bind (E : Env) (x : Bytes) : Env :=
  match E.g with
  | some n => { Γ := fun y => if x = y then some (.glob n) else E.Γ y, g := some (n + 1), h := E.h }
  | none => { Γ := fun y => if x = y then some (.loc E.h) else E.Γ y, g := none, h := E.h + 1 }

/-- The meaning of names after a statement. -/
def St.bind (E : Env) : St → Env
  | .decl x _ => E.bind x
  | .decl0 x => E.bind x
  | _ => E

section
variable (F : FloatOps) (H : Host) (b : Nat)

/-- Nothing happens. -/
inductive Done : Rel
  | mk {l W} : Done l W .normal l W

/-- Execution has come this far. -/
inductive Stop : Rel
  | mk {l W} : Stop l W .part l W

/-- `break` -/
inductive Break : Rel
  | mk {l W} : Break l W .brk l W

/-- `return` -/
inductive Return (v : Value) : Rel
  | mk {l W} : Return v l W (.ret v) l W

/-- A new variable with a value: the next on the stack or the next global. -/
inductive Declare (E : Env) (v : Value) : Rel
  | loc {l W} : E.g = none → Declare E v l W .normal (l ++ [v]) W
  | glob {l W n} : E.g = some n → n < W.statics.length → Declare E v l W .normal l { W with statics := W.statics.set n v }

/-- `P`, and then, if it gets to its end, `Q`. -/
inductive Seq (P Q : Rel) : Rel
  | next {l W l1 W1 o l2 W2} : P l W .normal l1 W1 → Q l1 W1 o l2 W2 → Seq P Q l W o l2 W2
  | stop {l W o l1 W1} : P l W o l1 W1 → o ≠ .normal → Seq P Q l W o l1 W1

/-- Evaluate an expression, and then do what `k` says about the value. -/
inductive Eval (Γ : Bytes → Option Place) (e : Ex) (k : Value → Rel) : Rel
  | part {l W} : Eval Γ e k l W .part l W
  | err {l W} : EvErr F H Γ b l W e → Eval Γ e k l W .err l W
  | val {l W v l1 W1 o l2 W2} : Ev F H Γ b l W e v l1 W1 → k v l1 W1 o l2 W2 → Eval Γ e k l W o l2 W2

/-- `P` if the value counts as an integer other than zero, `Q` if it counts as zero. -/
inductive Test (P Q : Rel) (v : Value) : Rel
  | yes {l W i o l1 W1} : IntOf W v i → i ≠ 0 → P l W o l1 W1 → Test P Q v l W o l1 W1
  | no {l W o l1 W1} : IntOf W v 0 → Q l W o l1 W1 → Test P Q v l W o l1 W1

/-- The variables declared in `P` are gone afterwards. -/
inductive Scope (P : Rel) : Rel
  | done {l W l1 W1} : P l W .normal l1 W1 → Scope P l W .normal (l1.take l.length) W1
  | leave {l W o l1 W1} : P l W o l1 W1 → o ≠ .normal → Scope P l W o l1 W1

/-- `break` in `P` ends `P`. -/
inductive Catch (P : Rel) : Rel
  | brk {l W l1 W1} : P l W .brk l1 W1 → Catch P l W .normal (l1.take l.length) W1
  | other {l W o l1 W1} : P l W o l1 W1 → o ≠ .brk → Catch P l W o l1 W1

/-- At most `n` rounds: `step next` is one round followed by `next`. -/
def rounds (step : Rel → Rel) : Nat → Rel
  | 0 => Stop
  | n + 1 => step (rounds step n)

/-- Any number of rounds. -/
def Loop (step : Rel → Rel) : Rel := fun l W o l1 W1 => ∃ n, rounds step n l W o l1 W1

mutual
/-- The meaning of a statement. -/
def St.exec (E : Env) : St → Rel
  | .expr e => Eval F H b E.Γ e fun _ => Done
  | .decl _ e => Eval F H b E.Γ e fun v => Declare E v
  | .decl0 _ => Declare E (.int 0)
  | .block ss => Scope (ss.exec E.inner)
  | .ifThen c a => Eval F H b E.Γ c (Test (Scope (a.exec E.inner)) Done)
  | .ifElse c a d => Eval F H b E.Γ c (Test (Scope (a.exec E.inner)) (Scope (d.exec E.inner)))
  | .while c a => Catch (Loop fun next => Eval F H b E.Γ c (Test (Seq (Scope (a.exec E.inner)) next) Done))
  | .doWhile a c => Catch (Loop fun next => Seq (Scope (a.exec E.inner)) (Eval F H b E.Γ c (Test next Done)))
  | .for i c n a => Catch (Scope (Seq (i.exec E.inner) (Loop fun next =>
      Eval F H b (i.bind E.inner).Γ c (Test
        (Seq (Scope (a.exec (i.bind E.inner))) (Seq (Eval F H b (i.bind E.inner).Γ n fun _ => Done) next)) Done))))
  | .brk => Break
  | .ret e => Eval F H b E.Γ e Return
/-- The meaning of a list of statements. -/
def Sts.exec (E : Env) : Sts → Rel
  | .nil => Done
  | .cons a as => Seq (a.exec E) (as.exec (a.bind E))
end
end

/-! ## Source -/

/-- `++` and `--` written out: `x++` becomes `(x = x + 1) - 1`, `++x` becomes `x = x + 1`, and `x++` becomes the same if its
value is discarded. -/
def unfoldIncDec : Node → Bool → Node
  | .nil, _ => .nil
  | .mk tok root l r, discard =>
    if isIncDec tok.type then incDecNode tok l discard else .mk tok root (unfoldIncDec l false) (unfoldIncDec r false)

/-- The tokens of an expression nested at most `d` deep that stands, with `++` and `--` written out and constants folded, for
`e`. -/
def ExSrc (F : FloatOps) (d : Nat) (discard : Bool) (ts : List Token) (e : Ex) : Prop :=
  ∃ v, Expr d ts v ∧ optimize F (unfoldIncDec v discard) = .ok e.node

mutual
/-- How many of the levels of recursion that the compiler allows are used up for good after this statement. -/
def St.leak : St → Nat
  | .expr _ => 0
  | .decl _ _ => 1
  | .decl0 _ => 1
  | .block ss => ss.leak
  | .ifThen _ a => a.leak
  | .ifElse _ a d => a.leak + d.leak
  | .while _ a => a.leak
  | .doWhile a _ => a.leak
  | .for i _ _ a => i.leak + a.leak
  | .brk => 0
  | .ret _ => 1
/-- The same for lists. -/
def Sts.leak : Sts → Nat
  | .nil => 0
  | .cons a as => a.leak + as.leak
end

/-- The statement ends with an `if` to which an `else` could be added. -/
def St.open : St → Bool
  | .ifThen _ _ => true
  | .ifElse _ _ d => d.open
  | .while _ a => a.open
  | .for _ _ _ a => a.open
  | _ => false

section
variable (F : FloatOps)
mutual
/-- The tokens of a statement, nested so that the compiler needs at most `d` levels of recursion. -/
inductive Src : Nat → List Token → St → Prop
  | expr {d k ts e} {semi : Token} : ExSrc F k true ts e → semi.type = .semicolon → 3 + 2 * k ≤ d → Src d (ts ++ [semi]) (.expr e)
  | decl {d k ts e} {v x a semi : Token} : v.type = .kwVar → x.type = .identifier → a.type = .assignment →
      ExSrc F k false ts e → semi.type = .semicolon → 4 + 2 * k ≤ d → Src d (v :: x :: a :: ts ++ [semi]) (.decl x.str e)
  | decl0 {d} {v x semi : Token} : v.type = .kwVar → x.type = .identifier → semi.type = .semicolon → 2 ≤ d →
      Src d [v, x, semi] (.decl0 x.str)
  | block {d ts ss} {o c : Token} : o.type = .curlyOpen → c.type = .curlyClose → Srcs d ts ss →
      Src (d + 2) (o :: ts ++ [c]) (.block ss)
  | ifThen {d k ts e us a} {i o c : Token} : i.type = .kwIf → o.type = .parenOpen → c.type = .parenClose →
      ExSrc F k false ts e → 2 + 2 * k ≤ d → Src d us a → Src (d + 2) (i :: o :: ts ++ c :: us) (.ifThen e a)
  | ifElse {d k ts e us a ws b} {i o c el : Token} : i.type = .kwIf → o.type = .parenOpen → c.type = .parenClose →
      ExSrc F k false ts e → 2 + 2 * k ≤ d → Src d us a → a.open = false → el.type = .kwElse → Src (d - a.leak) ws b →
      Src (d + 2) (i :: o :: ts ++ c :: us ++ el :: ws) (.ifElse e a b)
  | while {d k ts e us a} {w o c : Token} : w.type = .kwWhile → o.type = .parenOpen → c.type = .parenClose →
      ExSrc F k false ts e → 2 + 2 * k ≤ d → Src d us a → Src (d + 2) (w :: o :: ts ++ c :: us) (.while e a)
  | doWhile {d k us a ts e} {t w o c semi : Token} : t.type = .kwDo → Src d us a → w.type = .kwWhile → o.type = .parenOpen →
      ExSrc F k false ts e → 2 + 2 * k ≤ d - a.leak → c.type = .parenClose → semi.type = .semicolon →
      Src (d + 2) (t :: us ++ w :: o :: ts ++ [c, semi]) (.doWhile a e)
  | for {d k m is i ts e ns n us a} {f o semi c : Token} : f.type = .kwFor → o.type = .parenOpen → Src d is i →
      ExSrc F k false ts e → 2 + 2 * k ≤ d - i.leak → semi.type = .semicolon → ExSrc F m true ns n → 1 + 2 * m ≤ d - i.leak →
      c.type = .parenClose → Src (d - i.leak) us a →
      Src (d + 2) (f :: o :: is ++ ts ++ semi :: ns ++ c :: us) (.for i e n a)
  | brk {d} {t semi : Token} : t.type = .kwBreak → semi.type = .semicolon → 2 ≤ d → Src d [t, semi] .brk
  | ret {d k ts e} {t semi : Token} : t.type = .kwReturn → ExSrc F k false ts e → semi.type = .semicolon → 4 + 2 * k ≤ d →
      Src d (t :: ts ++ [semi]) (.ret e)
/-- The tokens of a list of statements. -/
inductive Srcs : Nat → List Token → Sts → Prop
  | nil {d} : Srcs d [] .nil
  | cons {d ts a us as} : Src d ts a → Srcs (d - a.leak) us as → Srcs d (ts ++ us) (.cons a as)
end
end

mutual
/-- How many values a statement may need on the stack. -/
def St.size : St → Nat
  | .expr e => e.size
  | .decl _ e => e.size + 1
  | .decl0 _ => 2
  | .block ss => ss.size + 1
  | .ifThen c a => c.size + a.size + 1
  | .ifElse c a d => c.size + a.size + d.size + 1
  | .while c a => c.size + a.size + 1
  | .doWhile a c => c.size + a.size + 1
  | .for i c n a => i.size + c.size + n.size + a.size + 1
  | .brk => 1
  | .ret e => e.size + 1
/-- The same for lists. -/
def Sts.size : Sts → Nat
  | .nil => 0
  | .cons a as => a.size + as.size
end

mutual
/-- The statement contains a `break` that is not in a loop inside of it. -/
def St.breaks : St → Bool
  | .block ss => ss.breaks
  | .ifThen _ a => a.breaks
  | .ifElse _ a d => a.breaks || d.breaks
  | .brk => true
  | _ => false
/-- The same for lists. -/
def Sts.breaks : Sts → Bool
  | .nil => false
  | .cons a as => a.breaks || as.breaks
end

/-- The meaning of names after a list of statements. -/
def Sts.bind (E : Env) : Sts → Env
  | .nil => E
  | .cons a as => as.bind (a.bind E)

/-! ## The state of the compiler -/

/-- The stack offset at the start of the innermost loop. -/
def loopOff : List CCtx → Nat
  | [] => 0
  | c :: cs => if c.isLoop then c.offset else loopOff cs

/-- How many parameters the function being compiled has. -/
def fnArgs (fns : List Func) (ctx : List CCtx) : Option Nat :=
  (findFn ctx).bind fun fc => (fns[fc.fnId]?).map (·.argc)

/-- What names mean in a state of the compiler. -/
def envOf (s : CS) : Env := ⟨placeOf s.ctx, if s.ctx.tail = [] then some s.staticCount else none, offOf s.ctx⟩

/-- A state in which a statement can be compiled: code can be written, no error has been recorded, the innermost context is not
the one that marks a loop, and the stack is at least as high as at the start of the loop or of the function. -/
structure Pre (s : CS) : Prop where
  wf : CodeWF s
  errs : s.vm.errors = []
  head : ∀ c cs, s.ctx = c :: cs → c.isLoop = false
  loop : loopOff s.ctx ≤ offOf s.ctx
  ret : ∀ a, fnArgs s.vm.functions s.ctx = some a → a + 2 ≤ offOf s.ctx
  stat : s.staticCount < 4294967296

end Nk.Cc
