import Verif.Model.Token
/-!
# What operators and string literals look like in source text
-/
namespace Nk.Tok

/-- The operators, other than those of one character that begin no other operator. -/
def operators : List (TokType × Bytes) :=
  [(.increment, cs "++"), (.plus, cs "+"), (.decrement, cs "--"), (.cIndirection, cs "->"), (.minus, cs "-"), (.divide, cs "/"),
   (.equalWithSameType, cs "==="), (.equal, cs "=="), (.assignment, cs "="), (.greaterThanOrEqual, cs ">="), (.greaterThan, cs ">"),
   (.lessThanOrEqual, cs "<="), (.lessThan, cs "<"), (.notEqual, cs "!="), (.not, cs "!"), (.and, cs "&&"), (.or, cs "||")]

/-- `t` is the longest operator the text begins with. -/
def Longest (text : Bytes) (t : Bytes) : Prop :=
  t <+: text ∧ ∀ o ∈ operators, o.2 <+: text → o.2.length ≤ t.length

/-- What can be between the quotation marks of a string literal: a backslash comes with the character after it; other than that there
are no quotation marks; and no line ends. -/
inductive LitBody : Bytes → Prop
  | nil : LitBody []
  | plain {c : UInt8} {l : Bytes} : c ≠ 0 → c ≠ ch '"' → c ≠ ch '\\' → c ≠ ch '\n' → LitBody l → LitBody (c :: l)
  | escaped {c : UInt8} {l : Bytes} : c ≠ 0 → c ≠ ch '\n' → LitBody l → LitBody (ch '\\' :: c :: l)

end Nk.Tok
