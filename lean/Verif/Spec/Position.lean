import Verif.Model.Compile
import Verif.Spec.Registry
/-!
# Positions in the source text
-/
namespace Nk.Spec
open Nk.Cc

/-- Two tokens on the same line of the same file. -/
def SameLine (a b : Token) : Prop := a.file = b.file ∧ word a.line = word b.line

instance (a b : Token) : Decidable (SameLine a b) := inferInstanceAs (Decidable (_ ∧ _))

/-- The tokens that are not on the line of the token before them: the first of each line but the first. -/
def newLines : List Token → List Token
  | a :: b :: r => if SameLine a b then newLines (b :: r) else b :: newLines (b :: r)
  | _ => []

/-- Where a token is: its file, its line and its line without regard to `#line` directives. -/
def tokPlace (t : Token) : Nat × Nat × Nat := (t.file, word t.line, word t.actualLine)

/-- The place a marker is for. -/
def markerPlace (m : Marker) : Nat × Nat × Nat := (m.file, m.line, m.actualLine)

/-- What the compiler knows about positions. -/
def posOf (s : CS) : PosState := ⟨s.line, s.file, s.write, s.vm.markers⟩

end Nk.Spec
