import Verif.Model.Expr
/-!
# What expressions mean as trees

The grammar of expressions, written without reference to the parser.
-/
namespace Nk.Cc

/-- A tree of binary operators over operands; an operand is the tokens it is written with and its own tree. -/
inductive Tree where
  | leaf (toks : List Token) (v : Node)
  | op (t : Token) (l r : Tree)

namespace Tree

/-- The operators and operands in source order. -/
def items : Tree → List (Token ⊕ (List Token × Node))
  | leaf ts v => [.inr (ts, v)]
  | op t l r => l.items ++ .inl t :: r.items

/-- The tokens in source order. -/
def toks : Tree → List Token
  | leaf ts _ => ts
  | op t l r => l.toks ++ t :: r.toks

/-- The tree without the tokens of the operands. -/
def node : Tree → Node
  | leaf _ v => v
  | op t l r => .mk t false l.node r.node

/-- The binary operators of the language from the tightest to the loosest: products 1, sums 2, comparisons 3,
equality 4, `&&` 5, `||` 6, `=` 7; 0 for any other token. -/
def rank : TokType → Nat
  | .multiply | .divide | .modulo => 1
  | .plus | .minus => 2
  | .greaterThan | .lessThan | .greaterThanOrEqual | .lessThanOrEqual => 3
  | .equal | .notEqual | .equalWithSameType => 4
  | .and => 5
  | .or => 6
  | .assignment => 7
  | _ => 0

/-- The rank of the operator at the top, 0 for an operand. -/
def top : Tree → Nat
  | leaf _ _ => 0
  | op t _ _ => rank t.type

/-- Grouping by precedence: below an operator there are only operators that bind at least as tightly on its left and
only operators that bind more tightly on its right (so equal precedence groups to the left). -/
def Grouped : Tree → Prop
  | leaf _ _ => True
  | op t l r => 0 < rank t.type ∧ l.top ≤ rank t.type ∧ r.top < rank t.type ∧ l.Grouped ∧ r.Grouped

/-- All operands satisfy `P`. -/
def All (P : List Token → Node → Prop) : Tree → Prop
  | leaf ts v => P ts v
  | op _ l r => l.All P ∧ r.All P

end Tree

/-- Alternating operands and binary operators, starting and ending with an operand. -/
inductive Alternating : List (Token ⊕ (List Token × Node)) → Prop
  | one (ts : List Token) (v : Node) : Alternating [.inr (ts, v)]
  | cons (ts : List Token) (v : Node) (t : Token) (h : 0 < Tree.rank t.type) {rest : List (Token ⊕ (List Token × Node))}
      (hr : Alternating rest) : Alternating (.inr (ts, v) :: .inl t :: rest)

/-! ## Operands -/

/-- Tokens that are operands by themselves. -/
def isAtom (t : TokType) : Bool :=
  t == .identifier || t == .integer || t == .float || t == .string || t == .nil || t == .newobject

/-- A tree without children. -/
def leafNode (t : Token) : Node := .mk t false .nil .nil

/-- The name after `.` or `->`, which is a string key. -/
def nameNode (t : Token) : Node := leafNode (made .string t.str t.line)

/-- The tree of a function-style expression such as `len(x)`. -/
def isFSE : Node → Bool
  | .nil => false
  | .mk t _ _ _ => t.type == .functionStyleExpression

section
variable (E : List Token → Node → Prop)

/-- A list of expressions separated by commas. -/
inductive Args1 : List Token → List Node → Prop
  | one {ts : List Token} {v : Node} (h : E ts v) : Args1 ts [v]
  | cons {ts : List Token} {v : Node} (h : E ts v) (c : Token) (hc : c.type = .comma) {us : List Token} {vs : List Node}
      (hs : Args1 us vs) : Args1 (ts ++ c :: us) (v :: vs)

/-- A possibly empty list of expressions separated by commas. -/
inductive Args : List Token → List Node → Prop
  | none : Args [] []
  | some {ts : List Token} {vs : List Node} (h : Args1 E ts vs) : Args ts vs

/-- An atom or an expression in parentheses. -/
inductive Primary : List Token → Node → Prop
  | atom (t : Token) (h : isAtom t.type) : Primary [t] (leafNode t)
  | paren (o c : Token) (ho : o.type = .parenOpen) (hc : c.type = .parenClose) {ts : List Token} {v : Node}
      (h : E ts v) : Primary (o :: ts ++ [c]) v

/-- An operand with postfix operators.  A call of a parenthesised function-style expression is left out: it stops the
parser at an assertion. -/
inductive Postfixed : List Token → Node → Prop
  | primary {ts : List Token} {v : Node} (h : Primary E ts v) : Postfixed ts v
  | fse (t o c : Token) (ht : t.type = .functionStyleExpression) (ho : o.type = .parenOpen) (hc : c.type = .parenClose)
      {as : List Token} {vs : List Node} (h : Args E as vs) :
      Postfixed (t :: o :: as ++ [c]) (.mk (made .functionStyleExpression t.str t.line) true .nil (argChain o vs))
  | index {ts : List Token} {v : Node} (h : Postfixed ts v) (o c : Token) (ho : o.type = .bracketOpen)
      (hc : c.type = .bracketClose) {is : List Token} {i : Node} (hi : E is i) :
      Postfixed (ts ++ (o :: is ++ [c])) (.mk o false v i)
  | call {ts : List Token} {v : Node} (h : Postfixed ts v) (hf : Primary E ts v → isFSE v = false)
      (o c : Token) (ho : o.type = .parenOpen) (hc : c.type = .parenClose) {as : List Token} {vs : List Node}
      (ha : Args E as vs) : Postfixed (ts ++ (o :: as ++ [c])) (.mk o true v (argChain o vs))
  | dot {ts : List Token} {v : Node} (h : Postfixed ts v) (d n : Token) (hd : d.type = .dot) (hn : n.type = .identifier) :
      Postfixed (ts ++ [d, n]) (.mk (made .bracketOpen (cs "[") n.line) false v (nameNode n))
  | self {ts : List Token} {v : Node} (h : Postfixed ts v) (d n o c : Token) (hd : d.type = .cIndirection)
      (hn : n.type = .identifier) (ho : o.type = .parenOpen) (hc : c.type = .parenClose) {as : List Token}
      {vs : List Node} (ha : Args E as vs) :
      Postfixed (ts ++ (d :: n :: o :: as ++ [c]))
        (.mk (made .functionCallWithSelf (cs "(") o.line) true
          (.mk (made .indexIntoNoPop (cs "[") n.line) false v (nameNode n))
          (argChain (made .functionCallWithSelf (cs "(") o.line) vs))
  | inc {ts : List Token} {v : Node} (h : Postfixed ts v) (t : Token) (ht : t.type = .increment) :
      Postfixed (ts ++ [t]) (.mk (made .postIncrement (cs "++") t.line) false v .nil)
  | dec {ts : List Token} {v : Node} (h : Postfixed ts v) (t : Token) (ht : t.type = .decrement) :
      Postfixed (ts ++ [t]) (.mk (made .postDecrement (cs "--") t.line) false v .nil)

/-- The prefix operators. -/
def isPrefixOp (t : TokType) : Bool := t == .minus || t == .not || t == .increment || t == .decrement

/-- An operand with prefix and postfix operators: postfix operators bind more tightly. -/
inductive Prefixed : List Token → Node → Prop
  | none {ts : List Token} {v : Node} (h : Postfixed E ts v) : Prefixed ts v
  | cons (t : Token) (ht : isPrefixOp t.type) {ts : List Token} {v : Node} (h : Prefixed ts v) :
      Prefixed (t :: ts) (.mk t false v .nil)
end

/-- Expressions in which expressions are nested at most `d` deep, and their trees. -/
def Expr : Nat → List Token → Node → Prop
  | 0, _, _ => False
  | d + 1, ts, v => ∃ T : Tree, T.Grouped ∧ T.All (Prefixed (Expr d)) ∧ T.toks = ts ∧ T.node = v

/-- `m` only adds errors. -/
structure CMono {α : Type} (m : CM α) : Prop where
  run : ∀ s a s', m s = .ok (a, s') → s.vm.errors <+: s'.vm.errors

end Nk.Cc
