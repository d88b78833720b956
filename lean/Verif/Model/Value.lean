import Verif.Model.Base
/-!
# Values, numbers and C strings: `src/nkvalue.h`, parts of `src/nkvalue.c` and `src/nkstring.c`

Everything here is independent of the VM state.
-/
namespace Nk

/-- `struct NKValue`, `src/nkvalue.h:62-86` with `enum NKValueType`, `src/nkenums.h`.  A value is a
type tag and a 32-bit payload; identifiers are kept as numbers.  Simplified: the payload of nil is
never read by the code and is dropped.  `bad` is a value whose tag is none of the enum constants
(such a value can only come from a loaded image). -/
inductive Value where
  | int (i : BitVec 32)
  | float (b : BitVec 32)
  | str (id : Nat)
  | fn (id : Nat)
  | obj (id : Nat)
  | nil
  | bad (ty raw : Nat)
deriving DecidableEq, Repr

namespace Value

/-- The numeric tag, `enum NKValueType` in `src/nkenums.h`. -/
def ty : Value → Nat
  | int _ => 0
  | float _ => 1
  | str _ => 2
  | fn _ => 3
  | obj _ => 4
  | nil => 5
  | bad t _ => t

/-- The payload read as `nkuint32_t`, i.e. `basicHashValue`, `src/nkvalue.h:80-84`. -/
def raw : Value → Nat
  | int i => i.toNat
  | float b => b.toNat
  | str n => n
  | fn n => n
  | obj n => n
  | nil => 0
  | bad _ r => r

/-- A value produced by `nkiMemset(.., 0, ..)`: tag 0 is `NK_VALUETYPE_INT`. -/
def zero : Value := int 0

end Value

/-- `nkiValueTypeGetName`, `src/nkvalue.c:64-95`. -/
def typeName (t : Nat) : String :=
  match t with
  | 0 => "integer"
  | 1 => "float"
  | 2 => "string"
  | 3 => "function"
  | 4 => "object"
  | 5 => "nil"
  | _ => "unknown"

/-! ## Integers -/

/-- Result of a signed 32-bit computation whose mathematical value is `n`: C leaves overflow
undefined. -/
def i32 (n : Int) : Res (BitVec 32) :=
  if -2147483648 ≤ n ∧ n < 2147483648 then .ok (BitVec.ofInt 32 n) else .ub .overflow

/-- Decimal digits of a natural number, most significant first, as ASCII. -/
def natDec (n : Nat) : Bytes :=
  if n < 10 then [UInt8.ofNat (48 + n)]
  else natDec (n / 10) ++ [UInt8.ofNat (48 + n % 10)]
termination_by n

/-- `sprintf("%d", value)` as used by `nkiDynStrAppendInt32`, `src/nkdynstr.c:88-96`. -/
def itoa (i : BitVec 32) : Bytes :=
  if i.toInt < 0 then 45 :: natDec (-i.toInt).toNat else natDec i.toInt.toNat

/-- `isspace` in the C locale. -/
def isSpace (c : UInt8) : Bool := c == 32 || (9 ≤ c && c ≤ 13)

/-- ASCII digit. -/
def isDigit (c : UInt8) : Bool := 48 ≤ c && c ≤ 57

/-- The value of the longest digit prefix. -/
def digitsVal (acc : Nat) : Bytes → Nat
  | [] => acc
  | c :: cs => if isDigit c then digitsVal (acc * 10 + (c.toNat - 48)) cs else acc

/-- An optional sign and digits, as `strtol` reads them. -/
def signedVal (s : Bytes) : Int :=
  match s with
  | [] => 0
  | c :: cs =>
    if c = 45 then -(digitsVal 0 cs : Int)
    else if c = 43 then digitsVal 0 cs
    else digitsVal 0 (c :: cs)

/-- `atol` (C library, as called at `src/nkvalue.c:114`) with a 64-bit `long`: skip white space, an
optional sign, digits.  Out-of-range input is clamped to `long` as glibc's `strtol` does. -/
def atol (s : Bytes) : Int :=
  max (-9223372036854775808) (min 9223372036854775807 (signedVal (s.dropWhile isSpace)))

/-- `return atol(str);` in a function returning `nkint32_t`, `src/nkvalue.c:114`: the `long` is
truncated to 32 bits (implementation-defined, two's complement). -/
def atoi32 (s : Bytes) : BitVec 32 := BitVec.ofInt 32 (atol s)

/-! ## Floats (IEEE 754 binary32 bit patterns) -/

/-- NaN test on bit patterns. -/
def isNaN (b : BitVec 32) : Bool := b.toNat % 2147483648 > 2139095040

/-- A non-NaN float's position on the number line: order and equality of floats are order and
equality of these keys (both zeros have key 0). -/
def fkey (b : BitVec 32) : Int :=
  if b.toNat < 2147483648 then (b.toNat : Int) else -((b.toNat % 2147483648 : Nat) : Int)

/-- C `a > b` on floats. -/
def fgt (a b : BitVec 32) : Bool := !isNaN a && !isNaN b && decide (fkey a > fkey b)

/-- C `a == b` on floats. -/
def feq (a b : BitVec 32) : Bool := !isNaN a && !isNaN b && decide (fkey a = fkey b)

/-- C `-x` on floats: flips the sign bit. -/
def fneg (b : BitVec 32) : BitVec 32 := b ^^^ 0x80000000#32

/-- `(int)x` for a float: truncation toward zero, undefined when the result does not fit (this
includes infinities and NaN). -/
def f2i (b : BitVec 32) : Res (BitVec 32) :=
  let m := b.toNat % 8388608
  let e := b.toNat / 8388608 % 256
  let neg := 2147483648 ≤ b.toNat
  if e = 255 then .ub .cast
  else
    let mag : Nat :=
      if e = 0 then 0
      else if 150 ≤ e then (8388608 + m) * 2 ^ (e - 150)
      else (8388608 + m) / 2 ^ (150 - e)
    let v : Int := if neg then -(mag : Int) else mag
    if -2147483648 ≤ v ∧ v < 2147483648 then .ok (BitVec.ofInt 32 v) else .ub .cast

/-- The floating-point operations the model leaves abstract.  Theorems hold for every choice. -/
structure FloatOps where
  add : BitVec 32 → BitVec 32 → BitVec 32
  sub : BitVec 32 → BitVec 32 → BitVec 32
  mul : BitVec 32 → BitVec 32 → BitVec 32
  div : BitVec 32 → BitVec 32 → BitVec 32
  /-- `(float)i` -/
  ofInt : BitVec 32 → BitVec 32
  /-- `atof` followed by conversion to `float` -/
  atof : Bytes → BitVec 32
  /-- `sprintf("%f", x)` -/
  print : BitVec 32 → Bytes

/-! ## C strings -/

/-- A `char` as a number; `char` is signed on the platforms modelled. -/
def schar (c : UInt8) : Int := if c.toNat < 128 then c.toNat else (c.toNat : Int) - 256

/-- `nkiStrcmp`, `src/nkstring.c:231-250`.  Simplified: strings are shorter than 2^32-1 bytes, so the
early exit of lines 237-239 is never taken. -/
def strcmp : Bytes → Bytes → Int
  | [], [] => 0
  | [], b :: _ => if schar b < 0 then 1 else -1
  | a :: _, [] => if schar a < 0 then -1 else 1
  | a :: as, b :: bs =>
    if schar a > schar b then 1 else if schar a < schar b then -1 else strcmp as bs

/-- The loop of `nkiStringHash`, `src/nkstring.c:53-56`: `in[i]` is a signed `char` converted to
`nkuint32_t`. -/
def hashLoop (a b : Nat) : Bytes → Nat × Nat
  | [] => (a, b)
  | c :: cs =>
    let a' := u32 (a + (if c.toNat < 128 then c.toNat else c.toNat + (U32 - 256))) % 65521
    let b' := u32 (b + a') % 65521
    hashLoop a' b' cs

/-- `nkiStringHash`, `src/nkstring.c:46-59`. -/
def stringHash (s : Bytes) : Nat :=
  let r := hashLoop 1 0 s
  u32 (r.2 * 65536) ||| r.1

/-- ASCII text of a Lean string literal, for the literals in the C source. -/
def cs (s : String) : Bytes := s.toList.map (fun c => UInt8.ofNat c.toNat)

end Nk
