import Verif.Model.Value
/-!
# C string helpers: `src/nkstring.c:213-303`, `src/nkdynstr.c`, `src/nkmem.c:271-286` and the string
handling of `src/nktoken.c:111-219`

Here strings are the memory they live in: a `Bytes` value is a whole allocation, terminator included,
and every read and write is checked against it.  (Elsewhere in the model a string is the list of bytes
before its terminator.)
-/
namespace Nk.CStr

/-- `b[i]` read from an allocation. -/
def rd (b : Bytes) (i : Nat) : Res UInt8 :=
  match b[i]? with
  | some c => .ok c
  | none => .ub .oob

/-- `b[i] = v` into an allocation. -/
def wr (b : Bytes) (i : Nat) (v : UInt8) : Res Bytes :=
  if i < b.length then .ok (b.set i v) else .ub .oob

/-- The loop of `nkiStrlen`, `src/nkstring.c:213-227`. -/
def strlenLoop (b : Bytes) : Nat → Nat → Res Nat
  | 0, _ => .ub .fuel
  | n + 1, i => do
    let c ← rd b i
    if c = 0 then .ok i
    else if i = UINT_MAX - 1 then .ok i
    else strlenLoop b n (u32 (i + 1))

/-- `nkiStrlen`, `src/nkstring.c:213-227`.  The bound is one more than the bytes there are. -/
def strlen (b : Bytes) : Res Nat := strlenLoop b (b.length + 1) 0

/-- The loop of `nkiStrcpy_s`, `src/nkstring.c:281-302`. -/
def strcpyLoop (src : Bytes) (len : Nat) : Nat → Bytes → Nat → Res Bytes
  | 0, _, _ => .ub .fuel
  | n + 1, dst, i => do
    let c ← rd src i
    if c = 0 then wr dst i 0
    else if i ≥ len then wr dst i 0
    else do
      let dst ← wr dst i c
      let i := u32 (i + 1)
      if i = UINT_MAX then wr dst i 0
      else strcpyLoop src len n dst i

/-- `nkiStrcpy_s`, `src/nkstring.c:277-303`: the destination afterwards. -/
def strcpyS (dst src : Bytes) (len : Nat) : Res Bytes := strcpyLoop src len (src.length + 1) dst 0

/-- `nkiStrcpy`, `src/nkstring.c:272-275`. -/
def strcpy (dst src : Bytes) : Res Bytes := strcpyS dst src UINT_MAX

/-- The loop of `nkiStrcat`, `src/nkstring.c:257-269`. -/
def strcatLoop (src : Bytes) (start : Nat) : Nat → Bytes → Nat → Res Bytes
  | 0, _, _ => .ub .fuel
  | n + 1, dst, i => do
    let c ← rd src (i - start)
    if c = 0 then wr dst i 0
    else if i = UINT_MAX then wr dst i 0
    else do
      let dst ← wr dst i c
      strcatLoop src start n dst (u32 (i + 1))

/-- `nkiStrcat`, `src/nkstring.c:252-270`: the destination afterwards. -/
def strcat (dst src : Bytes) : Res Bytes := do
  let start ← strlen dst
  strcatLoop src start (src.length + 1) dst start

/-- Contents of fresh memory: unknown bytes. -/
def fresh (junk : Nat → UInt8) (n : Nat) : Bytes := (List.range n).map junk

/-- `nkiMalloc` as these functions see it, `src/nkmem.c:96-225` (modelled in full in `Model/Mem.lean`):
a request that does not fit in 32 bits together with the block header of `hdr` bytes, ends in
`NK_CATASTROPHE` (line 125).  Running out of memory or limit ends there too; it is left out here. -/
def malloc (hdr : Nat) (junk : Nat → UInt8) (size : Nat) : Res Bytes :=
  if size > UINT_MAX - hdr then .ub .longjmp else .ok (fresh junk size)

/-- `nkiRealloc` as these functions see it, `src/nkmem.c:250-271`: a new block holding the old bytes. -/
def realloc (hdr : Nat) (junk : Nat → UInt8) (b : Bytes) (size : Nat) : Res Bytes :=
  if size > UINT_MAX - hdr then .ub .longjmp
  else .ok (b.take size ++ fresh junk (size - b.length))

/-- `nkiStrdup`, `src/nkmem.c:273-286`, for a pointer that is not NULL: the new allocation, or none
where the length wraps. -/
def strdup (hdr : Nat) (junk : Nat → UInt8) (str : Bytes) : Res (Option Bytes) := do
  let l ← strlen str
  let len := u32 (l + 1)
  if len = 0 then .ok none
  else do
    let copy ← malloc hdr junk len
    let copy ← strcpy copy str
    .ok (some copy)

/-- `nkiDynStrAppend`, `src/nkdynstr.c:61-86`: the buffer afterwards and whether the truncation error was
recorded.  `none` is a NULL string. -/
def dynStrAppend (hdr : Nat) (junk : Nat → UInt8) (data : Bytes) (str : Option Bytes) :
    Res (Bytes × Bool) := do
  let str := match str with
    | some s => s
    | none => cs "<null>" ++ [0]
  let len1 ← strlen data
  let len2 ← strlen str
  let trunc : Bool := len2 ≥ UINT_MAX - len1
  let len2 := if trunc then UINT_MAX - len1 - 1 else len2
  let data ← realloc hdr junk data (u32 (len1 + len2 + 1))
  let data ← strcat data str
  .ok (data, trunc)

/-- The concatenation in `nkiCompilerConsolidateStringLiterals`, `src/nktoken.c:181-194`: the new
allocation and whether the truncation error was recorded. -/
def concatLiterals (hdr : Nat) (junk : Nat → UInt8) (s1 s2 : Bytes) : Res (Bytes × Bool) := do
  let len1 ← strlen s1
  let len2 ← strlen s2
  let trunc : Bool := len2 > UINT_MAX - len1
  let len2 := if trunc then UINT_MAX - len1 else len2
  let new ← malloc hdr junk (u32 (len1 + len2 + 1))
  let new ← strcpy new s1
  let new ← strcat new s2
  .ok (new, trunc)

/-- The loop of `nkiCompilerTokenizerUnescapeString`, `src/nktoken.c:131-163`: the output buffer and the
write index at the end. -/
def unescapeLoop (inp : Bytes) (len : Nat) : Nat → Bytes → Nat → Nat → Res (Bytes × Nat)
  | 0, _, _, _ => .ub .fuel
  | n + 1, out, r, w =>
    if r < len then do
      let c ← rd inp r
      if c = 92 then do
        let r := u32 (r + 1)
        let e ← rd inp r
        if e = 110 then do
          let out ← wr out w 10
          unescapeLoop inp len n out (u32 (r + 1)) (u32 (w + 1))
        else if e = 114 then do
          let out ← wr out w 13
          unescapeLoop inp len n out (u32 (r + 1)) (u32 (w + 1))
        else if e = 116 then do
          let out ← wr out w 9
          unescapeLoop inp len n out (u32 (r + 1)) (u32 (w + 1))
        else if e = 34 then do
          let out ← wr out w 34
          unescapeLoop inp len n out (u32 (r + 1)) (u32 (w + 1))
        else do
          let out ← wr out w 92
          let w := u32 (w + 1)
          let out ← wr out w e
          unescapeLoop inp len n out (u32 (r + 1)) (u32 (w + 1))
      else do
        let out ← wr out w c
        unescapeLoop inp len n out (u32 (r + 1)) (u32 (w + 1))
    else .ok (out, w)

/-- `nkiCompilerTokenizerUnescapeString`, `src/nktoken.c:111-166`: the new allocation and whether the
truncation error was recorded. -/
def unescape (hdr : Nat) (junk : Nat → UInt8) (inp : Bytes) : Res (Bytes × Bool) := do
  let len ← strlen inp
  let trunc : Bool := len > UINT_MAX - 2
  let len := if trunc then UINT_MAX - 2 else len
  let out ← malloc hdr junk (u32 (len + 2))
  let (out, w) ← unescapeLoop inp len (inp.length + 1) out 0 0
  let out ← wr out w 0
  .ok (out, trunc)

end Nk.CStr
