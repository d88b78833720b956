import Verif.Model.File
import Verif.Props.Session
/-!
# C76: compiling a file
-/
namespace Nk.Props
open Nk.Spec Nk.Cc

variable {F : FloatOps} {s : CS}

/-- A file of which all is read: the size is that of its contents, and fits into 32 bits with one to spare for the end of the text. -/
structure Readable (f : File) : Prop where
  size : f.size = f.data.length
  fits : f.data.length < UINT_MAX

theorem readFile_all {f : File} (h : Readable f) (old : Nat → UInt8) : readFile old f = .ok (f.data ++ [0]) := by
  obtain ⟨size, data⟩ := f
  obtain ⟨h1, h2⟩ := h
  dsimp only at h1 h2
  subst h1
  unfold UINT_MAX at h2
  have e1 : ((data.length : Int) % 4294967296).toNat = data.length := by omega
  have e2 : u32 (data.length + 1) = data.length + 1 := by unfold u32 U32; omega
  unfold readFile
  dsimp only
  rw [e1, e2, List.take_length, if_pos (by omega), if_pos (by omega), show data.length + 1 - data.length = 1 by omega]
  simp

/-- **C76**: compiling a file is compiling its contents under its name, whatever was in memory before. -/
theorem C76_contents {f : File} (h : Readable f) (hdr : Nat) (junk old : Nat → UInt8) (name : Bytes) :
    compileFile F hdr junk old (some f) true name s =
      match compileScript F hdr junk (f.data ++ [0]) name s with
      | .ok (b, s') => .ok (some b, s')
      | .ub k => .ub k := by
  unfold compileFile
  dsimp only
  rw [if_pos rfl, readFile_all h]
  dsimp only
  cases e : compileScript F hdr junk (f.data ++ [0]) name s with
  | ok q => rw [CM.bind_ok e]; rfl
  | ub k => exact CM.bind_ub e

/-- **C76**: a file that cannot be opened is an error, and nothing else happens. -/
theorem C76_missing (hdr : Nat) (junk old : Nat → UInt8) (mem : Bool) (name : Bytes) :
    compileFile F hdr junk old none mem name s = .ok (some false, { s with vm := s.vm.addErr "Cannot open script file." }) := rfl

/-- **C76**: without memory for the text the failure flag is set, and nothing else happens. -/
theorem C76_memory (f : File) (hdr : Nat) (junk old : Nat → UInt8) (name : Bytes) :
    compileFile F hdr junk old (some f) false name s = .ok (none, s) := rfl

/-- **C76**, with C63: a text file that can be read whole is compiled, or refused with an error, or the compiler stops in one of the ways of
C63.  Partial as C63 is. -/
theorem C76_safe_partial {f : File} (hf : Readable f) (h : Session F s) (hdr : Nat) (junk old : Nat → UInt8) (name : Bytes) (hs : NoNul f.data)
    (hfit : f.data.length + 2 + hdr ≤ UINT_MAX) (hd : DirectivesClosed f.data) :
    (∃ b s', compileFile F hdr junk old (some f) true name s = .ok (some b, s') ∧ (b = false → s'.vm.errors ≠ [])) ∨
      ∃ k, compileFile F hdr junk old (some f) true name s = .ub k ∧ k ∈ [UB.longjmp, .overflow, .assert] := by
  rw [C76_contents hf]
  rcases C63_source_partial h hdr junk f.data name hs hfit hd with ⟨b, s', e, g⟩ | e | e | ⟨e, -⟩ <;> rw [e]
  · exact .inl ⟨b, s', rfl, g⟩
  all_goals exact .inr ⟨_, rfl, by simp⟩

/-- C76 is false for files whose size is not known, for which `ftell` returns -1, or, for directories, the largest `long`: no memory is allocated,
and the end of the text is written to the byte 4 GB behind it. -/
theorem C76_size_violated {f : File} (h : f.size = -1 ∨ f.size = 9223372036854775807) (hdr : Nat) (junk old : Nat → UInt8) (name : Bytes) :
    compileFile F hdr junk old (some f) true name s = .ub .oob := by
  have e1 : (f.size % 4294967296).toNat = 4294967295 := by omega
  have : readFile old f = .ub .oob := by
    unfold readFile
    dsimp only
    rw [e1]
    split
    · exact if_neg (by decide)
    · rfl
  unfold compileFile
  dsimp only
  rw [if_pos rfl, this]
  rfl

/-- C76 is false for files of 4 GB and more: only what exceeds a multiple of 4 GB is read, from the start of the file, and compiled without an error about that. -/
theorem C76_large_violated {f : File} {n : Nat} (hs : f.size = f.data.length) (hl : f.data.length = 4294967296 + n) (hn : n < UINT_MAX)
    (old : Nat → UInt8) : readFile old f = .ok (f.data.take n ++ [0]) := by
  unfold UINT_MAX at hn
  have e1 : (f.size % 4294967296).toNat = n := by omega
  have e2 : u32 (n + 1) = n + 1 := by unfold u32 U32; omega
  have e3 : (f.data.take n).length = n := by rw [List.length_take]; omega
  unfold readFile
  dsimp only
  rw [e1, e2, e3, if_pos (by omega), if_pos (by omega), show n + 1 - n = 1 by omega, List.set_append_right _ _ (by omega), e3]
  simp

/-- C76 is false if less can be read than the size says (the file was changed in between, or reading fails): what was in memory before is compiled. -/
theorem C76_short_violated {f : File} {n : Nat} (hs : f.size = f.data.length + n) (hl : f.data.length + n < UINT_MAX) (old : Nat → UInt8) :
    readFile old f = .ok (f.data ++ (List.range n).map (fun i => old (f.data.length + i)) ++ [0]) := by
  unfold UINT_MAX at hl
  have e1 : (f.size % 4294967296).toNat = f.data.length + n := by omega
  have e2 : u32 (f.data.length + n + 1) = f.data.length + n + 1 := by unfold u32 U32; omega
  unfold readFile
  dsimp only
  rw [e1, e2, List.take_of_length_le (by omega), if_pos (by omega), if_pos (by omega), show f.data.length + n + 1 - f.data.length = n + 1 by omega,
    List.range_succ, List.map_append, ← List.append_assoc, List.set_append_right _ _ (by simp)]
  simp

/-! ## Cases -/

namespace FileEx

/-- A file with a program. -/
def file : File := ⟨10, cs "var z = 3;"⟩

theorem file_readable : Readable file := ⟨rfl, by decide +kernel⟩

/-- It is compiled. -/
example : Res.test (compileFile Sample.F 32 (fun _ => 0) (fun _ => 7) (some file) true (cs "a.nks") (createCompiler VM.create))
    (fun r => r.1 = some true ∧ r.2.vm.errors = [] ∧ r.2.write = 6 ∧ r.2.vm.sourceFiles = [cs "a.nks"]) = true := by decide +kernel

/-- The hypotheses of `C76_safe_partial` hold for it. -/
example : NoNul file.data ∧ file.data.length + 2 + 32 ≤ UINT_MAX ∧ DirectivesClosed file.data :=
  ⟨by unfold NoNul; decide +kernel, by decide +kernel, C45_no_directive _ (by decide +kernel)⟩

/-- A file from which less is read than its size says, in a place where memory contained something else. -/
example : Res.test (compileFile Sample.F 32 (fun _ => 0) (fun i => (cs "var z = 3; z = 4;").getD i 0) (some ⟨17, cs "var z = 3;"⟩) true (cs "a.nks") (createCompiler VM.create))
    (fun r => r.1 = some true ∧ r.2.write = 12) = true := by decide +kernel

end FileEx
end Nk.Props
