import Verif.Spec.CStr
import Verif.Model.Token
/-!
# Source texts the tokenizer can be given
-/
namespace Nk.Spec

/-- The text of a preprocessor directive, from after its `#`: up to the end of the line or a comment,
every quotation mark is closed and no backslash is inside quotation marks.  `quoted`: are we inside? -/
def closed (quoted : Bool) : Bytes → Bool
  | [] => !quoted
  | c :: t =>
    if quoted then
      if c = 34 then closed false t else if c = 92 then false else closed true t
    else
      if c = 10 then true
      else if c = 47 ∧ t.head? = some 47 then true
      else closed (c = 34) t

/-- Wherever the text has a `#`, what follows has its quotation marks closed as above. -/
def DirectivesClosed (s : Bytes) : Prop :=
  ∀ q, s[q]? = some 35 → closed false (s.drop (q + 1)) = true

end Nk.Spec
