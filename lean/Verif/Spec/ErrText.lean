import Verif.Model.ErrText
import Verif.Spec.CStr
/-!
# What the host reads about errors
-/
namespace Nk.ErrText
open Nk.Spec

/-- The text of an error: `file:line: message`. -/
def report (file : Bytes) (line : Nat) (msg : Bytes) : Bytes := file ++ cs ":" ++ natDec line ++ cs ": " ++ msg

/-- All texts, each on a line. -/
def lines (ts : List Bytes) : Bytes := ts.flatMap fun t => t ++ cs "\n"

/-- The buffer `b` holds the text `t`. -/
def Holds (b : Option Bytes) (t : Bytes) : Prop := NoNul t ∧ ∃ r, b = some (t ++ 0 :: r)

/-- The buffers, first to last, hold these texts. -/
def Each : List (Option Bytes) → List Bytes → Prop
  | [], [] => True
  | b :: bs, t :: ts => Holds b t ∧ Each bs ts
  | _, _ => False

/-- The errors in `e`, first to last, have the texts `ts`. -/
def Texts (e : State) (ts : List Bytes) : Prop := Each e.texts ts

/-- The bytes of memory the texts of the errors take. -/
def memory (e : State) : Nat := (e.texts.map fun b => (b.getD []).length).sum

/-- The name of the file with this number. -/
def nameOf (files : List Bytes) (i : Nat) : Bytes := (files[i]?).getD (cs "<unknown>")

end Nk.ErrText
