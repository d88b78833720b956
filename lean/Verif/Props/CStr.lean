import Verif.Lemmas.CStr
/-!
# C46, C47: string literals and the string helpers

A string in memory is `s ++ 0 :: r`: the text, the terminator, and whatever follows it in the same
allocation.  `hdr` is the size of the allocator's block header and `junk` is what fresh memory contains.
-/
namespace Nk.Props
open Nk.Spec Nk.CStr

/-- C46.  For every literal text, escapes and all, processing it stays inside the buffer allocated for
it, and what the buffer then holds is the meaning of the literal. -/
theorem C46_unescape (hdr : Nat) (junk : Nat → UInt8) (s : Bytes) (hs : NoNul s)
    (hfit : s.length + 2 + hdr ≤ UINT_MAX) :
    ∃ out, unescape hdr junk (s ++ [0]) = .ok (out, false) ∧ out.length = s.length + 2 ∧
      (0 : UInt8) ∈ out ∧ text out = literal s :=
  unescape_ok hdr junk s hs hfit

/-- C46.  A text too long for its buffer ends in the catastrophic failure path, not outside the buffer. -/
theorem C46_too_long (hdr : Nat) (junk : Nat → UInt8) (s : Bytes) (hs : NoNul s)
    (hlen : s.length < UINT_MAX) (hbig : UINT_MAX < s.length + 2 + hdr) (hh : 1 ≤ hdr) :
    unescape hdr junk (s ++ [0]) = .ub .longjmp := by
  have hM : UINT_MAX = 4294967295 := rfl
  unfold unescape
  rw [strlen_ok s [] hs hlen, Res.ok_bind]
  unfold malloc
  by_cases ht : s.length > UINT_MAX - 2
  · simp only [decide_eq_true ht, if_true]
    rw [u32_fit (by omega), if_pos (by omega)]; rfl
  · simp only [decide_eq_false ht, Bool.false_eq_true, if_false]
    rw [u32_fit (by omega), if_pos (by omega)]; rfl

/-- C46, the meaning of a literal: the four escapes name their characters … -/
theorem C46_escapes (r : Bytes) :
    literal (92 :: 110 :: r) = 10 :: literal r ∧ literal (92 :: 116 :: r) = 9 :: literal r ∧
    literal (92 :: 114 :: r) = 13 :: literal r ∧ literal (92 :: 34 :: r) = 34 :: literal r := by
  simp [literal]

/-- … and a text without a backslash is left as it is. -/
theorem C46_plain (s : Bytes) (h : (92 : UInt8) ∉ s) : literal s = s := by
  induction s with
  | nil => simp [literal]
  | cons c s ih =>
    rw [literal_plain c s (fun e => h (by simp [e])), ih (fun m => h (by simp [m]))]

/-- A text that uses every escape, an unknown one, a double backslash, and ends in a backslash. -/
example : (unescape 16 (fun _ => 7)
    ([97, 92, 110, 92, 114, 92, 116, 92, 34, 92, 120, 92, 92, 110, 92] ++ [0])).test
    (fun p => p.1 == [97, 10, 13, 9, 34, 92, 120, 92, 92, 110, 92, 0, 0, 7, 7, 7, 7]) = true := by
  decide +kernel

/-! ## C47 -/

/-- C47, the copy helper.  Given the number `len`, it copies at most `len` bytes of the text and then
terminates it, and changes nothing else, provided the destination has room for that: one byte more
than it copies.  Otherwise it writes outside the destination.  Partial: `len` is not the size of the
buffer but one less than the size it needs, see `C47_copy_overruns`. -/
theorem C47_copy_partial (dst s r : Bytes) (len : Nat) (hs : NoNul s) (hl : s.length < UINT_MAX) :
    (min s.length len < dst.length →
      strcpyS dst (s ++ 0 :: r) len =
        .ok (s.take len ++ 0 :: dst.drop (min s.length len + 1))) ∧
    (dst.length ≤ min s.length len → strcpyS dst (s ++ 0 :: r) len = .ub .oob) := by
  rw [strcpyS_eq s r dst len hs hl]
  exact ⟨fun h => if_pos h, fun h => if_neg (by omega)⟩

/-- C47 fails for a caller who passes the size of the buffer: any text at least that long is written,
terminator included, one byte past the end. -/
theorem C47_copy_overruns (dst s r : Bytes) (hs : NoNul s) (hl : s.length < UINT_MAX)
    (hlong : dst.length ≤ s.length) : strcpyS dst (s ++ 0 :: r) dst.length = .ub .oob :=
  (C47_copy_partial dst s r dst.length hs hl).2 (by omega)

example : strcpyS [1, 1, 1] ([97, 98, 99, 100] ++ 0 :: []) 3 = .ub .oob := by decide +kernel
example : strcpyS [1, 1, 1] ([97, 98, 99, 100] ++ 0 :: []) 2 = .ok [97, 98, 0] := by decide +kernel

/-- C47, the unbounded copy: into a buffer with room for text and terminator. -/
theorem C47_copy_whole (dst s r : Bytes) (hs : NoNul s) (hl : s.length < UINT_MAX)
    (hroom : s.length < dst.length) :
    strcpy dst (s ++ 0 :: r) = .ok (s ++ 0 :: dst.drop (s.length + 1)) :=
  strcpy_ok dst s r hs hl hroom

/-- C47, duplication: the copy is an allocation of exactly the text and its terminator. -/
theorem C47_duplicate (hdr : Nat) (junk : Nat → UInt8) (s r : Bytes) (hs : NoNul s)
    (hfit : s.length + 1 + hdr ≤ UINT_MAX) :
    strdup hdr junk (s ++ 0 :: r) = .ok (some (s ++ [0])) := by
  unfold strdup
  rw [strlen_ok s r hs (by omega), Res.ok_bind]
  simp only
  rw [u32_fit (by omega), if_neg (by omega)]
  unfold malloc
  rw [if_neg (by omega), Res.ok_bind, C47_copy_whole _ s r hs (by omega) (by simp), Res.ok_bind]
  rw [List.drop_of_length_le (by simp)]

/-- C47, appending to a dynamic string: whatever is in its buffer after the text, the new buffer is
exactly both texts and the terminator. -/
theorem C47_append (hdr : Nat) (junk : Nat → UInt8) (a s r : Bytes) (ha : NoNul a) (hs : NoNul s)
    (hfit : a.length + s.length + 1 + hdr ≤ UINT_MAX) (hh : 1 ≤ hdr) :
    dynStrAppend hdr junk (a ++ [0]) (some (s ++ 0 :: r)) = .ok (a ++ s ++ [0], false) := by
  unfold dynStrAppend
  simp only
  rw [strlen_ok a [] ha (by omega), Res.ok_bind, strlen_ok s r hs (by omega), Res.ok_bind]
  have hd : decide (s.length ≥ UINT_MAX - a.length) = false := by simp; omega
  simp only [hd, Bool.false_eq_true, if_false]
  rw [u32_fit (by omega)]
  unfold CStr.realloc
  rw [if_neg (by omega), Res.ok_bind, List.take_of_length_le (by simp)]
  rw [List.append_assoc, List.cons_append, List.nil_append,
    strcat_eq a _ s r ha hs (by omega), if_pos (by simp), Res.ok_bind,
    List.drop_of_length_le (by simp)]

/-- C47: two texts too long for one allocation end in the catastrophic failure path, not outside the
buffer. -/
theorem C47_append_too_long (hdr : Nat) (junk : Nat → UInt8) (a s r : Bytes) (ha : NoNul a)
    (hs : NoNul s) (hla : a.length < UINT_MAX) (hls : s.length < UINT_MAX)
    (hbig : UINT_MAX < a.length + s.length + 1 + hdr) (hh : 1 ≤ hdr) :
    dynStrAppend hdr junk (a ++ [0]) (some (s ++ 0 :: r)) = .ub .longjmp := by
  have hM : UINT_MAX = 4294967295 := rfl
  unfold dynStrAppend
  simp only
  rw [strlen_ok a [] ha hla, Res.ok_bind, strlen_ok s r hs hls, Res.ok_bind]
  unfold CStr.realloc
  by_cases ht : s.length ≥ UINT_MAX - a.length
  · simp only [decide_eq_true ht, if_true]
    rw [u32_fit (by omega), if_pos (by omega)]; rfl
  · simp only [decide_eq_false ht, Bool.false_eq_true, if_false]
    rw [u32_fit (by omega), if_pos (by omega)]; rfl

/-- C47, adjacent literals: the joined literal is an allocation of exactly both texts and the
terminator. -/
theorem C47_join (hdr : Nat) (junk : Nat → UInt8) (a r s r' : Bytes) (ha : NoNul a) (hs : NoNul s)
    (hfit : a.length + s.length + 1 + hdr ≤ UINT_MAX) :
    concatLiterals hdr junk (a ++ 0 :: r) (s ++ 0 :: r') = .ok (a ++ s ++ [0], false) :=
  concat_ok hdr junk a r s r' ha hs hfit

example : dynStrAppend 16 (fun _ => 7) ([97, 98] ++ [0]) (some ([99] ++ 0 :: [5])) =
    .ok ([97, 98, 99, 0], false) := by decide +kernel

end Nk.Props
