import Verif.Model.Compile
/-!
# What well-formed code is

Compiled code is a list of words.  An instruction that pushes a literal is followed by a word with the literal, every
other instruction has one word; a jump takes its distance from the stack.
-/
namespace Nk.Cc

/-- The instruction a word stands for: the machine looks at the low six bits. -/
def opOf (w : BitVec 32) : Nat := w.toNat % 64

/-- The number of words of an instruction. -/
def width (w : BitVec 32) : Nat := if 7 ≤ opOf w ∧ opOf w ≤ 10 then 2 else 1

/-- A jump, conditional or not. -/
def IsJump (w : BitVec 32) : Prop := opOf w = 17 ∨ opOf w = 21

/-- The words of `I` at which an instruction starts, reading from the first word. -/
inductive Starts (I : List (BitVec 32)) : Nat → Prop
  | first : Starts I 0
  | next {a : Nat} {w : BitVec 32} (h : Starts I a) (hw : I[a]? = some w) : Starts I (a + width w)

/-- Execution may be sent to `T` in the program made of the first `n` words: an instruction starts there (or the program
ends there), and it is not a jump, which would find some other value than its distance on the stack. -/
structure Entry (I : List (BitVec 32)) (n T : Nat) : Prop where
  le : T ≤ n
  start : Starts I T
  plain : T < n → ∀ w, I[T]? = some w → ¬IsJump w

/-- The first `n` words are a program: they are whole instructions, each one of the 43 there are, each jump comes right after the integer literal
with its distance, and leads to a place where execution may be sent. -/
structure Shape (I : List (BitVec 32)) (n : Nat) : Prop where
  whole : Starts I n
  jumps : ∀ b w, b < n → Starts I b → I[b]? = some w → IsJump w →
    ∃ a d, b = a + 2 ∧ Starts I a ∧ I[a]? = some 7#32 ∧ I[a + 1]? = some d ∧ Entry I n ((b + 1 + d.toNat) % 4294967296)
  known : ∀ b w, b < n → Starts I b → I[b]? = some w → w.toNat < 43

end Nk.Cc
