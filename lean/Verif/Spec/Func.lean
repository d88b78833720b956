import Verif.Spec.Stmt
/-!
# What functions mean

The definition of a function at the top of a program, and calls of it.  In the body the parameters are the first local
variables; the frame of a call begins with them.
-/
namespace Nk.Cc
open Nk.Props

/-! ## Assigned names -/

mutual
/-- The expression assigns to the name `x`. -/
def Ex.sets (x : Bytes) : Ex → Bool
  | .int _ | .float _ | .str _ | .fn _ | .nil _ | .newObj _ | .var _ => false
  | .un _ _ e => e.sets x
  | .bin _ _ l r => l.sets x || r.sets x
  | .setVar _ y e => decide (y.str = x) || e.sets x
  | .setField _ _ o k e => o.sets x || k.sets x || e.sets x
  | .call _ f as => f.sets x || as.sets x
  | .method _ _ o k as => o.sets x || k.sets x || as.sets x
  | .builtin _ _ _ as => as.sets x
/-- One of the expressions does. -/
def Exs.sets (x : Bytes) : Exs → Bool
  | .nil => false
  | .cons a as => a.sets x || as.sets x
end

mutual
/-- The statement assigns to the name `x`.  (A declaration of it does not count.) -/
def St.sets (x : Bytes) : St → Bool
  | .expr e => e.sets x
  | .decl _ e => e.sets x
  | .decl0 _ => false
  | .block ss => ss.sets x
  | .ifThen c a => c.sets x || a.sets x
  | .ifElse c a d => c.sets x || a.sets x || d.sets x
  | .while c a => c.sets x || a.sets x
  | .doWhile a c => a.sets x || c.sets x
  | .for i c n a => i.sets x || c.sets x || n.sets x || a.sets x
  | .brk => false
  | .ret e => e.sets x
/-- One of the statements does. -/
def Sts.sets (x : Bytes) : Sts → Bool
  | .nil => false
  | .cons a as => a.sets x || as.sets x
end

/-! ## Functions -/

/-- What names mean in the body of a function with the parameters `ps`, if at the top of the program they mean `Γ`.  The
parameters are the first local variables, and after them come the number of arguments and the return address, which have
names, too.  `_functionId`, the function itself, is below the frame: its position is -1, which is no place here, so that
expressions that use it have no meaning in this model. -/
def fnEnv (ps : List Bytes) (Γ : Bytes → Option Place) : Env where
  Γ x :=
    if x = cs "_returnPointer" then some (.loc (ps.length + 1))
    else if x = cs "_argumentCount" then some (.loc ps.length)
    else match ps.idxOf? x with
      | some i => some (.loc i)
      | none => if x = cs "_functionId" then some (.loc UINT_MAX) else Γ x
  g := none
  h := ps.length + 2

/-- The meaning of the body of a function: its statements, and at their end `return 0`. -/
def Body (F : FloatOps) (H : Host) (b : Nat) (E : Env) (ss : Sts) : Rel := Seq ((St.block ss).exec F H b E) (Return (.int 0))

/-- The values on the stack when the function begins that is called with the values `l` on the stack: the function, the
arguments, their number and the address of the call. -/
def frame (l : List Value) (fn : Value) (args : List Value) (p : Nat) : List Value :=
  l ++ fn :: args ++ [.int (BitVec.ofNat 32 args.length), .int (BitVec.ofNat 32 p)]

/-! ## Source -/

/-- The tokens of a list of parameters. -/
inductive Params : List Token → List Bytes → Prop
  | nil : Params [] []
  | one {x : Token} : x.type = .identifier → Params [x] [x.str]
  | cons {x c : Token} {ts : List Token} {ps : List Bytes} : x.type = .identifier → c.type = .comma → Params ts ps →
      Params (x :: c :: ts) (x.str :: ps)

/-- The tokens of the definition of the function `f` with the parameters `ps` and the body `ss`. -/
inductive FnSrc (F : FloatOps) : Nat → List Token → Bytes → List Bytes → Sts → Prop
  | mk {d us ps ts ss} {k f o c bo bc : Token} : k.type = .kwFunction → f.type = .identifier → o.type = .parenOpen →
      Params us ps → c.type = .parenClose → bo.type = .curlyOpen → Srcs F d ts ss → bc.type = .curlyClose →
      FnSrc F (d + 4) (k :: f :: o :: us ++ c :: bo :: ts ++ [bc]) f.str ps ss

/-! ## Programs -/

/-- What is at the top of a program: a statement, or the definition of a function. -/
inductive Item where
  | st (S : St)
  | fn (f : Bytes) (ps : List Bytes) (ss : Sts)

/-- What names mean after it. -/
def Item.bind (E : Env) : Item → Env
  | .st S => S.bind E
  | .fn f _ _ => E.bind f

/-- How many functions it defines. -/
def Item.count : Item → Nat
  | .st _ => 0
  | .fn _ _ _ => 1

/-- What it does when the program runs; `k` is the number of the next function.  The definition of a function puts the
function in a new variable. -/
def Item.exec (F : FloatOps) (H : Host) (b : Nat) (E : Env) (k : Nat) : Item → Rel
  | .st S => S.exec F H b E
  | .fn _ _ _ => Declare E (.fn k)

/-- How many values it needs on the stack when the program runs. -/
def Item.size : Item → Nat
  | .st S => S.size
  | .fn _ _ _ => 2

/-- The levels of recursion of the compiler used up for good. -/
def Item.leak : Item → Nat
  | .st S => S.leak
  | .fn _ _ ss => ss.leak

/-- No `break` outside of a loop, and no function too big to be counted. -/
def Item.Fine : Item → Prop
  | .st S => S.breaks = false
  | .fn _ ps ss => ss.breaks = false ∧ ps.length + ss.size + 4 < 4294967296

/-- The tokens of an item. -/
inductive ItemSrc (F : FloatOps) : Nat → List Token → Item → Prop
  | st {d ts S} : Src F d ts S → ItemSrc F d ts (.st S)
  | fn {d ts f ps ss} : FnSrc F d ts f ps ss → ItemSrc F d ts (.fn f ps ss)

/-- The tokens of a program. -/
inductive Prog (F : FloatOps) : Nat → List Token → List Item → Prop
  | nil {d} : Prog F d [] []
  | cons {d ts i us is} : ItemSrc F d ts i → Prog F (d - i.leak) us is → Prog F d (ts ++ us) (i :: is)

/-- What names mean after some items. -/
def Items.bind (E : Env) : List Item → Env
  | [] => E
  | i :: is => Items.bind (i.bind E) is

/-- How many functions they define. -/
def Items.count : List Item → Nat
  | [] => 0
  | i :: is => i.count + Items.count is

/-- How many values they need on the stack. -/
def Items.size : List Item → Nat
  | [] => 0
  | i :: is => i.size + Items.size is

/-- What they do, one after the other. -/
def Items.exec (F : FloatOps) (H : Host) (b : Nat) (E : Env) (k : Nat) : List Item → Rel
  | [] => Done
  | i :: is => Seq (i.exec F H b E k) (Items.exec F H b (i.bind E) (k + i.count) is)

/-! ## Calls -/

/-- Calling the function number `id` on the machine `W` runs the body `ss` with the parameters `ps`, where names mean `E`.  Whatever
values `l` are below, and from wherever (`p`) it is called, if there is room on the stack:
* if the body, started on its frame, returns a value, the machine gets to the instruction after the call with this value in place
  of the function and its arguments, and with the machine the body leaves;
* if the body gets to an error, the machine records one;
* if the body gets to some point, so does the machine. -/
structure CallsAs (F : FloatOps) (H : Host) (W : VM) (id : Nat) (ps : List Bytes) (E : Env) (ss : Sts) : Prop where
  ret : ∀ l args p vm v l' W', args.length = ps.length → Space W (l.length + ps.length + ss.size + 5) → W.instrs[p]? = some 18 →
    Mach W p (l ++ (.fn id :: args ++ [.int (BitVec.ofNat 32 args.length)])) vm →
    Body F H (l.length + 1) E ss (frame l (.fn id) args p) W (.ret v) l' W' → ∃ vm', Runs F H vm vm' ∧ Mach W' (p + 1) (l ++ [v]) vm'
  err : ∀ l args p vm l' W', args.length = ps.length → Space W (l.length + ps.length + ss.size + 5) → W.instrs[p]? = some 18 →
    Mach W p (l ++ (.fn id :: args ++ [.int (BitVec.ofNat 32 args.length)])) vm →
    Body F H (l.length + 1) E ss (frame l (.fn id) args p) W .err l' W' → ∃ vm', Runs F H vm vm' ∧ W.errors.length < vm'.errors.length
  part : ∀ l args p vm l' W', args.length = ps.length → Space W (l.length + ps.length + ss.size + 5) → W.instrs[p]? = some 18 →
    Mach W p (l ++ (.fn id :: args ++ [.int (BitVec.ofNat 32 args.length)])) vm →
    Body F H (l.length + 1) E ss (frame l (.fn id) args p) W .part l' W' → ∃ vm' r, Runs F H vm vm' ∧ Mach W' r l' vm'

end Nk.Cc

namespace Nk.Props
open Nk.Cc

/-- The functions compiled in `s` are in `W`. -/
def HasFns (W : VM) (s : CS) : Prop := ∀ (i : Nat) (f : Func), s.vm.functions[i]? = some f → W.functions[i]? = some f

/-- At the top of a program names mean global variables, no two of which are at the same place, and new ones are made for
declarations. -/
structure Top (E : Env) : Prop where
  glob : ∀ x i, E.Γ x ≠ some (.loc i)
  new : ∃ g, E.g = some g
  bound : ∀ x i g, E.Γ x = some (.glob i) → E.g = some g → i < g
  inj : ∀ x y i, E.Γ x = some (.glob i) → E.Γ y = some (.glob i) → x = y

end Nk.Props
