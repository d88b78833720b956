import Verif.Lemmas.LexLoop
import Verif.Lemmas.LexTotal
import Verif.Lemmas.Registry
import Verif.Spec.Sample
/-!
# C66: the tokens of a source text
-/
namespace Nk.Props
open Nk.Spec Nk.Tok

/-- Entering a file name: it gets the number it has in the table, or the next one. -/
theorem addSourceFile_idx {file : Bytes} {vm : VM} (hf : vm.sourceFiles.length + 1 < UINT_MAX) :
    addSourceFile file vm = .ok (vm.sourceFiles.idxOf file, { vm with sourceFiles := filesWith file vm.sourceFiles }) := by
  have find : ∀ (l : List Bytes) i, findFileFrom file i l = if file ∈ l then some (i + l.idxOf file) else none := by
    intro l
    induction l with
    | nil => intro i; rfl
    | cons x l ih =>
      intro i
      unfold findFileFrom
      by_cases h : strcmp file x = 0
      · have := strcmp_eq.1 h
        subst this
        rw [if_pos h]; simp
      · have hne : file ≠ x := fun e => h (strcmp_eq.2 e)
        rw [if_neg h, ih, List.idxOf_cons_ne _ (fun e => hne e.symm)]
        simp [hne, Nat.add_comm, Nat.add_left_comm]
  unfold addSourceFile
  rw [M.bind_ok (show (get : M VM) vm = .ok (vm, vm) from rfl), find]
  unfold filesWith
  by_cases h : file ∈ vm.sourceFiles
  · rw [if_pos h, if_pos h, Nat.zero_add]; rfl
  · rw [if_neg h, if_neg h]
    dsimp only
    rw [if_neg (by unfold u32 U32; unfold UINT_MAX at *; omega), List.idxOf_eq_length h]
    rfl

variable {hdr : Nat} {junk : Nat → UInt8} {text file rest : Bytes} {vm : VM} {ts : List Token} {q : Pos}

/-- **C66**: a text that consists of tokens (`Lex`) is split into exactly these, with string literals that follow each other
joined.  Lines are counted from 1, the file gets its number in the file table, and nothing else in the VM changes. -/
theorem C66_tokens (hz : NoNul text) (hu : text.length + 3 + hdr < UINT_MAX) (hl : text.length < 2147483647)
    (hf : vm.sourceFiles.length + 1 < UINT_MAX) (h : Lex [] ⟨1, vm.sourceFiles.idxOf file, 1⟩ text ts q) :
    tokenize hdr junk (text ++ [0]) file vm = .ok (some (merge ts), { vm with sourceFiles := filesWith file vm.sourceFiles }) := by
  rcases tokenize_run hdr junk hz hu hl (.inl rfl) (addSourceFile_idx hf) h with ⟨_, h⟩ | ⟨h, _⟩
  · exact h
  · cases h

/-- **C66**: a text with something in it that is no token is refused with one error. -/
theorem C66_bad (hz : NoNul text) (hu : text.length + 3 + hdr < UINT_MAX) (hl : text.length < 2147483647)
    (hf : vm.sourceFiles.length + 1 < UINT_MAX) (h : Lex rest ⟨1, vm.sourceFiles.idxOf file, 1⟩ text ts q) (hb : Bad rest) :
    ∃ e, tokenize hdr junk (text ++ [0]) file vm =
      .ok (none, { vm with sourceFiles := filesWith file vm.sourceFiles, errors := vm.errors ++ [e] }) := by
  rcases tokenize_run hdr junk hz hu hl (.inr hb) (addSourceFile_idx hf) h with ⟨h, _⟩ | ⟨_, vm', h, e, h2⟩
  · subst h; cases hb
  · exact ⟨e, by rw [h, h2]⟩

/-- **C66**: there are no other texts, except for those with a preprocessor directive. -/
theorem C66_total (text : Bytes) (hz : NoNul text) (p : Pos) :
    ∃ rest ts q, Lex rest p text ts q ∧ (rest = [] ∨ Bad rest ∨ ∃ r, rest = 35 :: r) :=
  lex_total text hz p

/-! ### An example: two lines with a comment -/

namespace LexEx

instance : DecidablePred Letter := fun c => by unfold Letter; infer_instance
instance : DecidablePred Digit := fun c => by unfold Digit; infer_instance
instance : DecidablePred Blank := fun c => by unfold Blank; infer_instance

theorem apart_nil {P : UInt8 → Prop} : Apart P [] := fun _ _ e => by cases e

theorem apart {P : UInt8 → Prop} {c : UInt8} {t : Bytes} (h : ¬ P c) : Apart P (c :: t) := fun _ _ e => by cases e; exact h

/-- The tokens of the text. -/
def toks (p q : Pos) : List Token :=
  [p.tok .kwIf (cs "if"), p.tok .parenOpen (cs "("), p.tok .identifier (cs "x1"), p.tok .greaterThanOrEqual (cs ">="), p.tok .string (cs "a\n"),
    q.tok .string (cs "b"), q.tok .float (cs "2.5"), q.tok .not (cs "!"), q.tok .integer (cs "7")]

theorem sample (p : Pos) : Lex [] p (cs "if(x1>=\"a\\n\" // c\n\"b\"2.5!7") (toks p (p.after 10)) (p.after 10) := by
  rw [show cs "if(x1>=\"a\\n\" // c\n\"b\"2.5!7" = 105 :: cs "f" ++ cs "(x1>=\"a\\n\" // c\n\"b\"2.5!7" by decide +kernel]
  refine Lex.word (w := cs "f") (by decide) (by decide) (apart (t := cs "x1>=\"a\\n\" // c\n\"b\"2.5!7") (by decide)) ?_
  rw [show cs "(x1>=\"a\\n\" // c\n\"b\"2.5!7" = cs "(" ++ cs "x1>=\"a\\n\" // c\n\"b\"2.5!7" by decide +kernel]
  refine .symbol (ty := .parenOpen) (by decide +kernel) (by decide +kernel) (by decide +kernel) ?_
  rw [show cs "x1>=\"a\\n\" // c\n\"b\"2.5!7" = 120 :: cs "1" ++ cs ">=\"a\\n\" // c\n\"b\"2.5!7" by decide +kernel]
  refine .word (by decide) (by decide) (apart (t := cs "=\"a\\n\" // c\n\"b\"2.5!7") (by decide)) ?_
  rw [show cs ">=\"a\\n\" // c\n\"b\"2.5!7" = cs ">=" ++ cs "\"a\\n\" // c\n\"b\"2.5!7" by decide +kernel]
  refine .symbol (ty := .greaterThanOrEqual) (by decide +kernel) (by decide +kernel) (by decide +kernel) ?_
  rw [show cs "\"a\\n\" // c\n\"b\"2.5!7" = 34 :: cs "a\\n" ++ 34 :: cs " // c\n\"b\"2.5!7" by decide +kernel]
  have hq : Quoted (cs "a\\n") := .char (by decide) (by decide) (by decide) (.esc (by decide) .nil)
  refine (show p.tok .string (cs "a\n") = p.tok .string (literal (cs "a\\n")) by rw [show literal (cs "a\\n") = cs "a\n" by decide +kernel]) ▸ .string hq ?_
  rw [show cs " // c\n\"b\"2.5!7" = 32 :: (47 :: 47 :: cs " c" ++ (10 :: (34 :: cs "b" ++ 34 :: (50 :: cs ".5" ++ (cs "!" ++ (55 :: [] ++ [])))))) by decide +kernel]
  refine .blank (by decide) ?_
  refine .comment (by decide) (apart (by decide)) ?_
  refine .blank (by decide) ?_
  refine (show p.after 10 = (p.after 32).after 10 by rfl) ▸ ?_
  have hb : Quoted (cs "b") := .char (by decide) (by decide) (by decide) .nil
  refine (show (p.after 10).tok .string (cs "b") = (p.after 10).tok .string (literal (cs "b")) by rw [show literal (cs "b") = cs "b" by decide +kernel]) ▸ .string hb ?_
  refine .number (w := cs ".5") (by decide) (by decide) (by decide) (.inr (apart (by decide))) ?_
  refine .symbol (ty := .not) (by decide +kernel) (by decide +kernel) (by decide +kernel) ?_
  exact .number (w := []) (by decide) (by decide) (by decide) (.inr apart_nil) .done

end LexEx

/-- So this text has these tokens: the two string literals, in two lines, are one. -/
example : tokenize 16 (fun _ => 7) (cs "if(x1>=\"a\\n\" // c\n\"b\"2.5!7" ++ [0]) (cs "main") VM.create =
    .ok (some [⟨.kwIf, cs "if", 1, 0, 1⟩, ⟨.parenOpen, cs "(", 1, 0, 1⟩, ⟨.identifier, cs "x1", 1, 0, 1⟩, ⟨.greaterThanOrEqual, cs ">=", 1, 0, 1⟩,
      ⟨.string, cs "a\nb", 1, 0, 1⟩, ⟨.float, cs "2.5", 2, 0, 2⟩, ⟨.not, cs "!", 2, 0, 2⟩, ⟨.integer, cs "7", 2, 0, 2⟩],
      { VM.create with sourceFiles := [cs "main"] }) := by
  have := C66_tokens (hdr := 16) (junk := fun _ => 7) (file := cs "main") (vm := VM.create) (by unfold NoNul; decide +kernel) (by decide +kernel) (by decide +kernel)
    (by decide +kernel) (LexEx.sample ⟨1, 0, 1⟩)
  rw [this]
  rfl

/-- A text that is refused: `a & b`. -/
example : ∃ e, tokenize 16 (fun _ => 7) (cs "a & b" ++ [0]) (cs "main") VM.create =
    .ok (none, { VM.create with sourceFiles := [cs "main"], errors := [e] }) := by
  refine C66_bad (rest := cs "& b") (ts := [⟨.identifier, cs "a", 1, 0, 1⟩]) (q := ⟨1, 0, 1⟩) (by unfold NoNul; decide +kernel) (by decide +kernel) (by decide +kernel) (by decide +kernel)
    ?_ (.half (.inl rfl) (LexEx.apart (by decide)))
  rw [show cs "a & b" = 97 :: [] ++ 32 :: cs "& b" by decide +kernel]
  exact .word (by decide) (by decide) (LexEx.apart (by decide)) (.blank (by decide) .done)

end Nk.Props
