import Verif.Model.CStr
import Verif.Model.Registry
/-!
# The tokenizer: `src/nktoken.c`

The source text is a block of memory: the text and its terminator.  Reads outside it are undefined.
Every `while` of the C code is a loop with an iteration bound of one more than the size of that block.
-/
namespace Nk

/-- `enum NKTokenType`, `src/nkenums.h:133-197`. -/
inductive TokType where
  | integer | float | plus | minus | multiply | divide | modulo | increment | decrement
  | parenOpen | parenClose | bracketOpen | bracketClose | curlyOpen | curlyClose
  | string | identifier | semicolon | assignment
  | kwIf | kwElse | kwWhile | kwDo | kwFor | and | or | dot | cIndirection
  | greaterThan | lessThan | greaterThanOrEqual | lessThanOrEqual | equal | notEqual
  | equalWithSameType | not | comma | kwVar | kwFunction | kwReturn | newobject
  | indexIntoNoPop | functionCallWithSelf | postIncrement | postDecrement
  | nil | kwBreak | functionStyleExpression | invalid
deriving DecidableEq, Repr

/-- `struct NKToken`, `src/nktoken.h`.  `str` is the text without its terminator. -/
structure Token where
  type : TokType
  str : Bytes
  line : Int
  file : Nat
  actualLine : Int
deriving DecidableEq, Repr

namespace Tok
open CStr

/-- A C character constant. -/
def ch (c : Char) : UInt8 := UInt8.ofNat c.toNat

/-- The text a terminated buffer holds. -/
def val (b : Bytes) : Bytes := b.takeWhile (· ≠ 0)

/-- `nkiCompilerIsWhitespace`, `src/nktoken.c:46-52`. -/
def isWhitespace (c : UInt8) : Bool := c == ch ' ' || c == ch '\n' || c == ch '\t' || c == ch '\r'

/-- `nkiCompilerIsNumber`, `src/nktoken.c:54-57`. -/
def isNumber (c : UInt8) : Bool := ch '0' ≤ c && c ≤ ch '9'

/-- `nkiCompilerIsValidIdentifierCharacter`, `src/nktoken.c:221-236`. -/
def isIdent (c : UInt8) (first : Bool) : Bool :=
  (!first && isNumber c) || c == ch '_' || (ch 'a' ≤ c && c ≤ ch 'z') ||
  (ch 'A' ≤ c && c ≤ ch 'Z') || 128 ≤ c

/-- `while(p(b[i])) { i++; }`: the index at the end. -/
def scan (p : UInt8 → Bool) (b : Bytes) : Nat → Nat → Res Nat
  | 0, _ => .ub .fuel
  | n + 1, i => do
    let c ← rd b i
    if p c then scan p b n (u32 (i + 1)) else .ok i

/-- `nkiMemcpy` of `n` bytes from offset `i` into a fresh buffer of `n + 1` bytes, and a terminator,
as at `src/nktoken.c:388-391`, `687-691` and `744-746`.  Simplified: the new buffer is its contents. -/
def sub (b : Bytes) (i n : Nat) : Res Bytes :=
  if i + n ≤ b.length then .ok ((b.drop i).take n) else .ub .oob

/-- `nkiCompilerTokenizerUnescapeString` with its error, `src/nktoken.c:111-166`: the text of the
result.  (`CStr.unescape` is the function itself.) -/
def unescaped (hdr : Nat) (junk : Nat → UInt8) (t : Bytes) : M Bytes := do
  let (out, trunc) ← liftR (unescape hdr junk (t ++ [0]))
  if trunc then addError "String too long to escape."
  return val out

/-- `nkiCompilerPreprocessorSkipWhitespace`, `src/nktoken.c:238-251`. -/
def ppSkip (b : Bytes) (k : Nat) : Res Nat :=
  scan (fun c => c ≠ 0 && isWhitespace c && c ≠ ch '\n') b (b.length + 1) k

/-- The identifier loop, `src/nktoken.c:298-300`: the first character of an identifier may not be
a digit. -/
def ppIdent (b : Bytes) (start : Nat) : Nat → Nat → Res Nat
  | 0, _ => .ub .fuel
  | n + 1, k => do
    let c ← rd b k
    if isIdent c (k = start) then ppIdent b start n (u32 (k + 1)) else .ok k

/-- The quoted token loop, `src/nktoken.c:323-347`: the index of the closing quote. -/
def ppQuote (b : Bytes) : Nat → Bool → Nat → Res Nat
  | 0, _, _ => .ub .fuel
  | n + 1, skipNext, k => do
    let c ← rd b k
    if c = ch '\\' then ppQuote b n (!skipNext) (u32 (k + 1))
    else if c = ch '"' then
      if !skipNext then .ok k else ppQuote b n skipNext (u32 (k + 1))
    else ppQuote b n false (u32 (k + 1))

/-- The token at `k`, `src/nktoken.c:291-370`: where it starts and ends, whether it was quoted, and
where to go on; none for an unknown token. -/
def ppToken (b : Bytes) (k : Nat) : Res (Option (Nat × Nat × Bool × Nat)) := do
  let c ← rd b k
  if isIdent c true then do
    let e ← ppIdent b k (b.length + 1) k
    .ok (some (k, e, false, e))
  else if isNumber c then do
    let e ← scan isNumber b (b.length + 1) k
    .ok (some (k, e, false, e))
  else if c = ch '"' then do
    let e ← ppQuote b (b.length + 1) false (u32 (k + 1))
    .ok (some (u32 (k + 1), e, true, u32 (e + 1)))
  else do
    let slash ← if c = ch '/' then do
        let c1 ← rd b (u32 (k + 1))
        .ok (c1 = ch '/' : Bool)
      else .ok false
    if slash then do
      let e ← scan (fun c => c ≠ 0 && c ≠ ch '\n') b (b.length + 1) k
      .ok (some (e, e, false, e))
    else .ok none

/-- The loop of `nkiCompilerGetPreprocessorTokens`, `src/nktoken.c:289-412`.  `b` starts at the
directive. -/
def ppLoop (hdr : Nat) (junk : Nat → UInt8) (b : Bytes) :
    Nat → Nat → List Bytes → M (Option (List Bytes))
  | 0, _, _ => liftR (.ub .fuel)
  | n + 1, k, toks => do
    let c ← liftR (rd b k)
    if c ≠ 0 && c ≠ ch '\n' then do
      match ← liftR (ppToken b k) with
      | none => do
        addError "Unknown preprocessor token."
        return none
      | some (st, e, quoted, k) => do
        let c ← liftR (rd b st)
        if c ≠ 0 && c ≠ ch '\n' then do
          let len := usub e st
          if len = UINT_MAX then do
            addError "Bad preprocessor token."
            return none
          else do
            let t ← liftR (sub b st len)
            let t ← if quoted then unescaped hdr junk t else pure t
            let k ← liftR (ppSkip b k)
            ppLoop hdr junk b n k (toks ++ [t])
        else do
          let k ← liftR (ppSkip b k)
          ppLoop hdr junk b n k toks
    else return (some toks)

/-- `nkiCompilerGetPreprocessorTokens`, `src/nktoken.c:266-418`; none is failure. -/
def ppTokens (hdr : Nat) (junk : Nat → UInt8) (b : Bytes) : M (Option (List Bytes)) := do
  let c ← liftR (rd b 0)
  let k := if c = ch '#' then 1 else 0
  let k ← liftR (ppSkip b k)
  ppLoop hdr junk b (b.length + 1) k []

/-- The local variables of `nkiCompilerTokenize`, `src/nktoken.c:426-430`, and the token list. -/
structure St where
  i : Nat
  line : Int
  file : Nat
  actual : Int
  toks : List Token
deriving DecidableEq, Repr

/-- `lineNumber++` on a signed 32-bit variable. -/
def incr (n : Int) : Res Int := if n + 1 < 2147483648 then .ok (n + 1) else .ub .overflow

/-- The white space loop, `src/nktoken.c:437-443`. -/
def skipWs (b : Bytes) (len : Nat) : Nat → St → Res St
  | 0, _ => .ub .fuel
  | n + 1, s =>
    if s.i < len then do
      let c ← rd b s.i
      if isWhitespace c then do
        if c = ch '\n' then do
          let line ← incr s.line
          let actual ← incr s.actual
          skipWs b len n { s with line := line, actual := actual, i := u32 (s.i + 1) }
        else skipWs b len n { s with i := u32 (s.i + 1) }
      else .ok s
    else .ok s

/-- `nkiCompilerAddToken`, `src/nktoken.c:80-109`. -/
def St.add (s : St) (type : TokType) (str : Bytes) : St :=
  { s with toks := s.toks ++ [⟨type, str, s.line, s.file, s.actual⟩] }

/-- `i += n` -/
def St.skip (s : St) (n : Nat) : St := { s with i := u32 (s.i + n) }

/-- What a directive does, `src/nktoken.c:473-518`; none is failure. -/
def directive (s : St) (toks : List Bytes) : M (Option St) :=
  match toks with
  | [] => return (some s)
  | t :: ts =>
    if strcmp t (cs "line") = 0 then
      match ts with
      | [n] => return (some { s with line := (atoi32 n).toInt })
      | [n, f] => do
        let file ← addSourceFile f
        return (some { s with line := (atoi32 n).toInt, file := file })
      | _ => do
        addError "Incorrect number of parameters for #line directive."
        return none
    else if strcmp t (cs "file") = 0 then
      match ts with
      | [f] => do
        let file ← addSourceFile f
        return (some { s with file := file })
      | _ => do
        addError "Incorrect number of parameters for #file directive."
        return none
    else do
      addError "Unknown preprocessor directive."
      return none

/-- The string literal loop, `src/nktoken.c:667-685`: the index of the end, or none for a newline inside
the literal. -/
def quoteLoop (b : Bytes) : Nat → Bool → Nat → Res (Option Nat)
  | 0, _, _ => .ub .fuel
  | n + 1, skip, e => do
    let c ← rd b e
    if c ≠ 0 && (skip || c ≠ ch '"') then
      if c = ch '\n' then .ok none
      else quoteLoop b n (if c = ch '\\' then !skip else false) (u32 (e + 1))
    else .ok (some e)

/-- The terminator of the number, `src/nktoken.c:722`, whose index in the 256 byte buffer `tmp` is checked. -/
def numEnd (start i : Nat) (tmp : Bytes) : Res (Nat × Bytes) :=
  if usub i start < 256 then .ok (i, tmp) else .ub .oob

/-- The number loop, `src/nktoken.c:710-722`: the index of the end and the characters written to the
256 byte buffer `tmp`, whose indices are checked. -/
def numLoop (b : Bytes) (len start : Nat) : Nat → Nat → Bytes → Res (Nat × Bytes)
  | 0, _, _ => .ub .fuel
  | n + 1, i, tmp =>
    if i < len then do
      let c ← rd b i
      if (isNumber c || c = ch '.') && usub i start < 255 then
        if usub i start < 256 then numLoop b len start n (u32 (i + 1)) (tmp ++ [c])
        else .ub .oob
      else numEnd start i tmp
    else numEnd start i tmp

/-- The names in `nkiFunctionStyleExpressionList`, `src/nkfse.c:170-177`. -/
def fseNames : List Bytes :=
  [cs "coroutine", cs "yield", cs "resume", cs "is_finished", cs "object", cs "len"]

/-- `nkiCompilerIsFunctionStyleExpressionName`, `src/nkfse.c:183-195`. -/
def isFse (t : Bytes) : Bool := fseNames.any fun n => strcmp t n = 0

/-- The token type of a word, `src/nktoken.c:748-774`. -/
def wordType (t : Bytes) : TokType :=
  if strcmp t (cs "var") = 0 then .kwVar
  else if strcmp t (cs "function") = 0 then .kwFunction
  else if strcmp t (cs "return") = 0 then .kwReturn
  else if strcmp t (cs "if") = 0 then .kwIf
  else if strcmp t (cs "else") = 0 then .kwElse
  else if strcmp t (cs "while") = 0 then .kwWhile
  else if strcmp t (cs "do") = 0 then .kwDo
  else if strcmp t (cs "for") = 0 then .kwFor
  else if strcmp t (cs "newobject") = 0 then .newobject
  else if strcmp t (cs "nil") = 0 then .nil
  else if strcmp t (cs "break") = 0 then .kwBreak
  else if isFse t then .functionStyleExpression
  else .identifier

/-- The tokens of one character that are the prefix of no other, `src/nktoken.c:523-545`, `572-582`,
`599-601`, `617-619`. -/
def single (c : UInt8) : Option TokType :=
  if c = ch '(' then some .parenOpen
  else if c = ch ')' then some .parenClose
  else if c = ch '[' then some .bracketOpen
  else if c = ch ']' then some .bracketClose
  else if c = ch '{' then some .curlyOpen
  else if c = ch '}' then some .curlyClose
  else if c = ch '*' then some .multiply
  else if c = ch '%' then some .modulo
  else if c = ch '.' then some .dot
  else if c = ch ';' then some .semicolon
  else if c = ch ',' then some .comma
  else none

/-- The operators of one to three characters, `src/nktoken.c:547-570`, `584-615`, `621-656`: the token
starting with `c` at index `i`; none if there is none.  Simplified: the comment case of `/` is in
`token`. -/
def operator (b : Bytes) (i : Nat) (c : UInt8) : Res (Option (TokType × Bytes)) := do
  if c = ch '+' then do
    let d ← rd b (u32 (i + 1))
    if d = ch '+' then .ok (some (.increment, cs "++")) else .ok (some (.plus, cs "+"))
  else if c = ch '-' then do
    let d ← rd b (u32 (i + 1))
    if d = ch '-' then .ok (some (.decrement, cs "--"))
    else if d = ch '>' then .ok (some (.cIndirection, cs "->"))
    else .ok (some (.minus, cs "-"))
  else if c = ch '/' then .ok (some (.divide, cs "/"))
  else if c = ch '=' then do
    let d ← rd b (u32 (i + 1))
    if d = ch '=' then do
      let e ← rd b (u32 (i + 2))
      if e = ch '=' then .ok (some (.equalWithSameType, cs "===")) else .ok (some (.equal, cs "=="))
    else .ok (some (.assignment, cs "="))
  else if c = ch '>' then do
    let d ← rd b (u32 (i + 1))
    if d = ch '=' then .ok (some (.greaterThanOrEqual, cs ">=")) else .ok (some (.greaterThan, cs ">"))
  else if c = ch '<' then do
    let d ← rd b (u32 (i + 1))
    if d = ch '=' then .ok (some (.lessThanOrEqual, cs "<=")) else .ok (some (.lessThan, cs "<"))
  else if c = ch '!' then do
    let d ← rd b (u32 (i + 1))
    if d = ch '=' then .ok (some (.notEqual, cs "!=")) else .ok (some (.not, cs "!"))
  else if c = ch '&' then do
    let d ← rd b (u32 (i + 1))
    if d = ch '&' then .ok (some (.and, cs "&&")) else .ok none
  else if c = ch '|' then do
    let d ← rd b (u32 (i + 1))
    if d = ch '|' then .ok (some (.or, cs "||")) else .ok none
  else .ok none

/-- Is this the start of a comment?  `src/nktoken.c:586`. -/
def isComment (b : Bytes) (i : Nat) (c : UInt8) : Res Bool :=
  if c = ch '/' then do
    let d ← rd b (u32 (i + 1))
    .ok (d = ch '/' : Bool)
  else .ok false

/-- The body of the tokenizer's loop after white space, `src/nktoken.c:446-791`, without the final
`i++`; none is failure.  The order of the tests differs from the code for characters that cannot
satisfy two of them. -/
def token (hdr : Nat) (junk : Nat → UInt8) (b : Bytes) (len : Nat) (s : St) : M (Option St) := do
  let c ← liftR (rd b s.i)
  if c = ch '#' then do
    let e ← liftR (scan (fun c => c ≠ ch '\n' && c ≠ ch '\r' && c ≠ 0) b (b.length + 1) s.i)
    match ← ppTokens hdr junk (b.drop s.i) with
    | none => do
      addError "Preprocessor directive parse failure."
      return none
    | some ts => directive { s with i := e } ts
  else match single c with
  | some ty => return (some (s.add ty [c]))
  | none => do
    if ← liftR (isComment b s.i c) then do
      let e ← liftR (scan (fun c => c ≠ 0 && c ≠ ch '\n') b (b.length + 1) s.i)
      return (some { s with i := usub e 1 })
    else match ← liftR (operator b s.i c) with
    | some (ty, t) => return (some ((s.add ty t).skip (t.length - 1)))
    | none =>
      if c = ch '"' then do
        match ← liftR (quoteLoop b (b.length + 1) false (u32 (s.i + 1))) with
        | none => do
          addError "Newline inside of quoted string."
          return none
        | some e => do
          let quotedLen := usub e (u32 (s.i + 1))
          let t ← liftR (sub b (u32 (s.i + 1)) quotedLen)
          let t ← unescaped hdr junk t
          return (some ((s.add .string t).skip (quotedLen + 1)))
      else if isNumber c then do
        let (e, t) ← liftR (numLoop b len s.i (b.length + 1) s.i [])
        return (some { s.add (if t.contains (ch '.') then .float else .integer) t with i := usub e 1 })
      else if isIdent c true then do
        let e ← liftR (scan (fun c => isIdent c false) b (b.length + 1) (u32 (s.i + 1)))
        let t ← liftR (sub b s.i (usub e s.i))
        return (some { s.add (wordType t) t with i := usub e 1 })
      else if c = 0 then return (some s)
      else do
        addError "Unknown token."
        return none

/-- The loop of `nkiCompilerTokenize`, `src/nktoken.c:434-794`; none is failure. -/
def loop (hdr : Nat) (junk : Nat → UInt8) (b : Bytes) (len : Nat) : Nat → St → M (Option St)
  | 0, _ => liftR (.ub .fuel)
  | n + 1, s => do
    if s.i < len then do
      let s ← liftR (skipWs b len (b.length + 1) s)
      match ← token hdr junk b len s with
      | none => return none
      | some s => loop hdr junk b len n (s.skip 1)
    else return (some s)

/-- `nkiCompilerConsolidateStringLiterals`, `src/nktoken.c:168-219`. -/
def consolidate (hdr : Nat) (junk : Nat → UInt8) : List Token → M (List Token)
  | [] => return []
  | [t] => return [t]
  | t :: u :: r =>
    if t.type = .string ∧ u.type = .string then do
      let (new, trunc) ← liftR (concatLiterals hdr junk (t.str ++ [0]) (u.str ++ [0]))
      if trunc then addError "String too long to concatenate."
      consolidate hdr junk ({ t with str := val new } :: r)
    else do
      let r ← consolidate hdr junk (u :: r)
      return (t :: r)
termination_by l => l.length

/-- `nkiCompilerTokenize`, `src/nktoken.c:420-799`: the tokens, or none on failure.  `b` is the memory
of the source text. -/
def tokenize (hdr : Nat) (junk : Nat → UInt8) (b : Bytes) (filename : Bytes) :
    M (Option (List Token)) := do
  let len ← liftR (strlen b)
  let file ← addSourceFile filename
  match ← loop hdr junk b len (b.length + 1) ⟨0, 1, file, 1, []⟩ with
  | none => return none
  | some s => do
    let toks ← consolidate hdr junk s.toks
    return (some toks)

end Tok
end Nk
