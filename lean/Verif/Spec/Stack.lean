import Verif.Model.Value
/-!
# Specification of the value stack: a list, bottom first
-/
namespace Nk.StackSpec

/-- Stack operations. -/
inductive Op where
  | push (v : Value)
  | pop
  | popN (n : Nat)
  | clear (freeMem : Bool)
deriving Repr, DecidableEq

/-- One operation on a mathematical stack; the output is the popped value.  `none` when more is popped
than there is. -/
def step (l : List Value) : Op → Option (Option Value × List Value)
  | .push v => some (none, l ++ [v])
  | .pop => match l.getLast? with
    | some v => some (some v, l.dropLast)
    | none => none
  | .popN n => if n ≤ l.length then some (none, l.take (l.length - n)) else none
  | .clear _ => some (none, [])

/-- A sequence of operations: the outputs and the final stack. -/
def run (l : List Value) : List Op → Option (List (Option Value) × List Value)
  | [] => some ([], l)
  | op :: ops => match step l op with
    | none => none
    | some (o, l') => match run l' ops with
      | none => none
      | some (os, l'') => some (o :: os, l'')

end Nk.StackSpec
