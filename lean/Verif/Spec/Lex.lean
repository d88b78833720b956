import Verif.Spec.CStr
import Verif.Model.Token
/-!
# The tokens of a source text

`Lex` says of which tokens a text consists.  It is about texts without preprocessor directives.
-/
namespace Nk.Spec

/-- The operators and punctuation marks. -/
def symbols : List (Bytes × TokType) :=
  [(cs "(", .parenOpen), (cs ")", .parenClose), (cs "[", .bracketOpen), (cs "]", .bracketClose), (cs "{", .curlyOpen), (cs "}", .curlyClose),
   (cs "+", .plus), (cs "++", .increment), (cs "-", .minus), (cs "--", .decrement), (cs "->", .cIndirection), (cs "*", .multiply),
   (cs "/", .divide), (cs "%", .modulo), (cs ".", .dot), (cs ";", .semicolon), (cs ",", .comma),
   (cs "=", .assignment), (cs "==", .equal), (cs "===", .equalWithSameType), (cs "!", .not), (cs "!=", .notEqual),
   (cs ">", .greaterThan), (cs ">=", .greaterThanOrEqual), (cs "<", .lessThan), (cs "<=", .lessThanOrEqual), (cs "&&", .and), (cs "||", .or)]

/-- The words that are no names. -/
def keywords : List (Bytes × TokType) :=
  [(cs "var", .kwVar), (cs "function", .kwFunction), (cs "return", .kwReturn), (cs "if", .kwIf), (cs "else", .kwElse), (cs "while", .kwWhile),
   (cs "do", .kwDo), (cs "for", .kwFor), (cs "break", .kwBreak), (cs "newobject", .newobject), (cs "nil", .nil),
   (cs "coroutine", .functionStyleExpression), (cs "yield", .functionStyleExpression), (cs "resume", .functionStyleExpression),
   (cs "is_finished", .functionStyleExpression), (cs "object", .functionStyleExpression), (cs "len", .functionStyleExpression)]

/-- What a word is. -/
def wordKind (w : Bytes) : TokType := (keywords.lookup w).getD .identifier

/-- Space, tab, carriage return and newline. -/
def Blank (c : UInt8) : Prop := c = 32 ∨ c = 9 ∨ c = 13 ∨ c = 10

/-- `0` to `9`. -/
def Digit (c : UInt8) : Prop := 48 ≤ c ∧ c ≤ 57

/-- What a word can begin with: a letter, `_`, or a byte that is not ASCII. -/
def Letter (c : UInt8) : Prop := 97 ≤ c ∧ c ≤ 122 ∨ 65 ≤ c ∧ c ≤ 90 ∨ c = 95 ∨ 128 ≤ c

/-- The text does not go on with a character like this. -/
def Apart (P : UInt8 → Prop) (t : Bytes) : Prop := ∀ c r, t = c :: r → ¬ P c

/-- What may be between quotation marks: no newline, and quotation marks only after a backslash. -/
inductive Quoted : Bytes → Prop
  | nil : Quoted []
  | char {c : UInt8} {w : Bytes} : c ≠ 34 → c ≠ 92 → c ≠ 10 → Quoted w → Quoted (c :: w)
  | esc {c : UInt8} {w : Bytes} : c ≠ 10 → Quoted w → Quoted (92 :: c :: w)

/-- The text after a quotation mark that no other one follows: like `Quoted`, or with a backslash at the end. -/
def Unclosed (w : Bytes) : Prop := Quoted w ∨ ∃ v, Quoted v ∧ w = v ++ [92]

/-- The numbers the compiler keeps with each token. -/
structure Pos where
  line : Int
  file : Nat
  actual : Int

/-- The position after a character. -/
def Pos.after (p : Pos) (c : UInt8) : Pos := if c = 10 then { p with line := p.line + 1, actual := p.actual + 1 } else p

/-- A token at a position. -/
def Pos.tok (p : Pos) (type : TokType) (str : Bytes) : Token := ⟨type, str, p.line, p.file, p.actual⟩

/-- The file table with a file in it. -/
def filesWith (file : Bytes) (l : List Bytes) : List Bytes := if file ∈ l then l else l ++ [file]

/-- `Lex rest p t ts q`: from the position `p` the text `t` consists of the tokens `ts`, and then `rest` follows at position `q`.
Every token is as long as it can be, but no number is longer than 255 characters.  A string literal without its last quotation
mark is accepted at the end of the text. -/
inductive Lex (rest : Bytes) : Pos → Bytes → List Token → Pos → Prop
  | done {p} : Lex rest p rest [] p
  | blank {p c t ts q} : Blank c → Lex rest (p.after c) t ts q → Lex rest p (c :: t) ts q
  | comment {p w t ts q} : (∀ c ∈ w, c ≠ 10) → Apart (· ≠ 10) t → Lex rest p t ts q → Lex rest p (47 :: 47 :: w ++ t) ts q
  | symbol {p w ty t ts q} : (w, ty) ∈ symbols → (∀ w' ∈ symbols, w'.1 <+: w ++ t → w'.1.length ≤ w.length) → ¬ cs "//" <+: w ++ t →
      Lex rest p t ts q → Lex rest p (w ++ t) (p.tok ty w :: ts) q
  | word {p c w t ts q} : Letter c → (∀ d ∈ w, Letter d ∨ Digit d) → Apart (fun d => Letter d ∨ Digit d) t → Lex rest p t ts q →
      Lex rest p (c :: w ++ t) (p.tok (wordKind (c :: w)) (c :: w) :: ts) q
  | number {p c w t ts q} : Digit c → (∀ d ∈ w, Digit d ∨ d = 46) → w.length < 255 → (w.length = 254 ∨ Apart (fun d => Digit d ∨ d = 46) t) →
      Lex rest p t ts q → Lex rest p (c :: w ++ t) (p.tok (if 46 ∈ w then .float else .integer) (c :: w) :: ts) q
  | string {p w t ts q} : Quoted w → Lex rest p t ts q → Lex rest p (34 :: w ++ 34 :: t) (p.tok .string (literal w) :: ts) q
  | open {p w} : Unclosed w → rest = [] → Lex rest p (34 :: w) [p.tok .string (literal w)] p

/-- String literals that follow each other are one. -/
def merge : List Token → List Token
  | [] => []
  | t :: ts =>
    match merge ts with
    | [] => [t]
    | u :: r => if t.type = .string ∧ u.type = .string then { t with str := t.str ++ u.str } :: r else t :: u :: r

/-- A text that begins with no token: because of its first character, because it has only one of the two characters of `&&` or
`||`, or because of a newline in a string literal. -/
inductive Bad : Bytes → Prop
  | unknown {c : UInt8} {r : Bytes} : ¬ Blank c → ¬ Letter c → ¬ Digit c → c ≠ 34 → c ≠ 35 → c ≠ 0 → (∀ w ∈ symbols, w.1.head? ≠ some c) → Bad (c :: r)
  | half {c : UInt8} {r : Bytes} : c = 38 ∨ c = 124 → Apart (· = c) r → Bad (c :: r)
  | newline {w r : Bytes} : Unclosed w → Bad (34 :: w ++ 10 :: r)

end Nk.Spec
