import Verif.Model.Base
/-!
# What the C string helpers are supposed to do
-/
namespace Nk.Spec

/-- No byte of the text is the terminator. -/
def NoNul (s : Bytes) : Prop := (0 : UInt8) ∉ s

/-- The text a buffer holds: the bytes before its first terminator. -/
def text (b : Bytes) : Bytes := b.takeWhile (· ≠ 0)

/-- The meaning of a string literal.  `\n`, `\r`, `\t` and `\"` name a character; a backslash before
anything else stands for itself, and so does what follows it. -/
def literal : Bytes → Bytes
  | [] => []
  | 92 :: 110 :: r => 10 :: literal r
  | 92 :: 114 :: r => 13 :: literal r
  | 92 :: 116 :: r => 9 :: literal r
  | 92 :: 34 :: r => 34 :: literal r
  | 92 :: c :: r => 92 :: c :: literal r
  | c :: r => c :: literal r

end Nk.Spec
