import Verif.Lemmas.Token
import Verif.Spec.Sample
/-!
# C45: tokenizing stays inside the source text
-/
namespace Nk.Props
open Nk.Spec Nk.Tok

/-- C45, for source texts in which the quotation marks of preprocessor directives are closed and hold no
backslash.  Whatever else is in the text, tokenizing it ends, with tokens or with an error recorded,
and never reads or writes outside the text or any buffer; the only undefined behaviour left is the
line counter overflowing (`C45_line_overflow`).  Partial: see `C45_unclosed_quote` and
`C45_escaped_quote`. -/
theorem C45_partial (hdr : Nat) (junk : Nat → UInt8) (src file : Bytes) (hs : NoNul src)
    (hfit : src.length + 2 + hdr ≤ UINT_MAX) (hd : DirectivesClosed src) (vm : VM) :
    (∃ r vm', tokenize hdr junk (src ++ [0]) file vm = .ok (r, vm')) ∨
      tokenize hdr junk (src ++ [0]) file vm = .ub .overflow := by
  have := tokenize_lim hdr junk src file hs hfit hd vm
  match h : tokenize hdr junk (src ++ [0]) file vm with
  | .ok (r, vm') => exact Or.inl ⟨r, vm', rfl⟩
  | .ub k =>
    rw [h] at this
    exact Or.inr (by rw [show k = .overflow from this])

/-- A text with no directive at all is one of those. -/
theorem C45_no_directive (src : Bytes) (h : (35 : UInt8) ∉ src) : DirectivesClosed src := by
  intro q hq
  exact absurd (List.mem_of_getElem? hq) h

/-- A program with a directive, a comment and most kinds of token, read to its end. -/
example : (tokenize 16 (fun _ => 7)
    (cs "#file \"a.nk\" // \"x\nvar a_1 = 12.5 >= b[\"q\\\"\" \"r\"];" ++ [0]) (cs "main") VM.create).test
    (fun p => p.1.map (fun ts => ts.map fun t => (t.type, t.str, t.line, t.file)) ==
      some [(.kwVar, cs "var", 1, 1), (.identifier, cs "a_1", 1, 1), (.assignment, cs "=", 1, 1),
        (.float, cs "12.5", 1, 1), (.greaterThanOrEqual, cs ">=", 1, 1), (.identifier, cs "b", 1, 1),
        (.bracketOpen, cs "[", 1, 1), (.string, cs "q\"r", 1, 1), (.bracketClose, cs "]", 1, 1),
        (.semicolon, cs ";", 1, 1)]) = true := by
  decide +kernel

/-- Its directive satisfies the hypothesis. -/
example : closed false (cs "file \"a.nk\" // \"x\nvar a") = true := by decide +kernel

/-- Did the call end in this way? -/
def endsIn (r : Res α) (k : UB) : Bool :=
  match r with
  | .ok _ => false
  | .ub k' => k' = k

theorem endsIn_eq {r : Res α} {k : UB} (h : endsIn r k = true) : r = .ub k := by
  cases r with
  | ok a => cases h
  | ub k' => simp only [endsIn, decide_eq_true_eq] at h; rw [h]

/-- C45 fails: a quotation mark in a directive that is never closed takes the tokenizer past the
terminator of the source text. -/
theorem C45_unclosed_quote :
    tokenize 16 (fun _ => 7) (cs "#line 1 \"abc" ++ [0]) (cs "main") VM.create = .ub .oob :=
  endsIn_eq (by decide +kernel)

/-- C45 fails even for a directive whose quotation marks are closed: an escaped quotation mark before
the closing one hides it. -/
theorem C45_escaped_quote :
    tokenize 16 (fun _ => 7) (cs "#file \"a\\\"\"\nvar x;" ++ [0]) (cs "main") VM.create = .ub .oob :=
  endsIn_eq (by decide +kernel)

/-- The line counter is signed and a directive can set it to its maximum. -/
theorem C45_line_overflow :
    tokenize 16 (fun _ => 7) (cs "#line 2147483647\n\nx" ++ [0]) (cs "main") VM.create =
      .ub .overflow :=
  endsIn_eq (by decide +kernel)

end Nk.Props
