import Verif.Model.Compile
import Verif.Spec.Machine
/-!
# String literals

The compiler marks the strings that compiled code refers to (`dontGC`), so that collections leave them alone.
-/
namespace Nk

/-- The string with this id is `text`, and it is protected from collections. -/
def Literal (vm : VM) (id : Nat) (text : Bytes) : Prop := ∃ e, vm.strings.entry id = some e ∧ e.str = text ∧ e.dontGC = true

/-- All protected strings of `vm` are protected strings of `vm'`, with the same ids and texts. -/
def KeepsLiterals (vm vm' : VM) : Prop := ∀ id text, Literal vm id text → Literal vm' id text

/-- What is assumed about native functions here: they leave the string table in order and protected strings alone. -/
def HostLiterals (H : Host) : Prop := ∀ cb args vm r vm', H.call cb args vm = .ok (r, vm') → vm.strings.WF →
  vm'.strings.WF ∧ KeepsLiterals vm vm'

end Nk
