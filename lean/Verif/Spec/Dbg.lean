import Verif.Model.VM
/-!
# What a listing has to show
-/
namespace Nk

/-- The number of words the listing shows as one instruction: literals are followed by their value. -/
def listedWords (w : BitVec 32) : Nat := if w = 7 ∨ w = 8 ∨ w = 9 ∨ w = 10 then 2 else 1

/-- The words of the program at which the listing sees an instruction: from the first word on, up to an END. -/
inductive Listed (vm : VM) : Nat → Prop
  | first : Listed vm 0
  | next {a : Nat} {w : BitVec 32} (h : Listed vm a) (hw : vm.instrs[a]? = some w) (he : w ≠ 20) :
    Listed vm (a + listedWords w)

/-- Every instruction the listing sees is one of the 43 there are (and not one of the numbers that pad the table to 64). -/
def AllNamed (vm : VM) : Prop :=
  ∀ a w, Listed vm a → vm.instrs[a]? = some w → w ≠ 20 → w.toNat % 64 < 43

/-- What is asked of the printing of numbers with `%f`: a `float` never takes more than 48 characters. -/
def Prints (F : FloatOps) : Prop := ∀ b, (F.print b).length ≤ 78 ∧ ∀ c ∈ F.print b, c ≠ 0

/-- How a character is shown between quotes. -/
def escaped (c : UInt8) : Bytes :=
  if c = 10 then [92, 110] else if c = 9 then [92, 116] else if c = 34 then [92, 34] else [c]

/-- The first line of a text. -/
def firstLine (s : Bytes) : Bytes := s.takeWhile fun c => c ≠ 0 ∧ c ≠ 10

/-- `l` put after `s` in a field of `size` characters: in full if three characters are left, otherwise cut off with three dots. -/
def fitted (size : Nat) (s l : Bytes) : Bytes :=
  if s.length + l.length + 4 < size then s ++ l
  else if s.length + 4 ≤ size then s ++ l.take (size - 4 - s.length) ++ [46, 46, 46]
  else s

/-- How a line about the instruction at word `a` begins: a mark at the one that is executed next, the address, padded to six
characters, and the name. -/
def instrLabel (here : Bool) (a : Nat) (name : Bytes) : Bytes :=
  [if here then 62 else 32, 32] ++ natDec a ++ List.replicate (6 - ([if here then 62 else 32, 32] ++ natDec a).length) 32 ++ [58, 32] ++ name

end Nk
