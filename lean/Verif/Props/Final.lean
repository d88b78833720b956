import Verif.Lemmas.Final
import Verif.Props.Session
/-!
# Finishing a compiler for good: C64
-/
namespace Nk.Props
open Nk.Spec Nk.Cc

variable {F : FloatOps} {s : CS}

/-- **C64**, for `nkxCompilerFinalize`, which also destroys the compiler: whatever was compiled before, it ends or the allocator ends it.
It does what finishing does (`partiallyFinalize`, so with `C64_finished`), with the same functions, globals and errors; the words of the program stay as they are; an END comes last,
and the program with it is one; functions and execution that runs off the end of the old program find an instruction there, and if all variables of the
outermost scope are globals (they are in the compiler's own code, `src/nkcompil.c:339-375`), that is the END itself. -/
theorem C64_finalized (h : Session F s) : finalize s = .ub .longjmp ∨ ∃ s1 s' n,
    finalize s = .ok ((), s') ∧ partiallyFinalize s = .ok ((), s1) ∧
    s'.vm.functions = s1.vm.functions ∧ s'.vm.globals = s1.vm.globals ∧ s'.vm.errors = s1.vm.errors ∧
    s.write ≤ n ∧ s'.write = n + 1 ∧ s'.vm.instrs[n]? = some 20#32 ∧ (∀ i, i < s.write → s'.vm.instrs[i]? = s.vm.instrs[i]?) ∧
    Shape s'.vm.instrs (n + 1) ∧ Entry s'.vm.instrs (n + 1) s.write ∧ (∀ f ∈ s'.vm.functions, Entry s'.vm.instrs (n + 1) f.first) ∧
    ((∀ c ∈ s.ctx, ∀ v ∈ c.vars, v.isGlobal = true) → n = s.write) := by
  obtain ⟨c, hc⟩ := C53_closed h
  have hi2 := h.idle.any (fun k => k = UB.longjmp)
  rcases finalize_run (B := fun k => k = UB.longjmp) rfl hi2 hc with ⟨k, rfl, r⟩ | ⟨s1, s2, s3, r1, l2, hz, r, l3, w3, c3⟩
  · exact .inl r
  · have q := (partiallyFinalize_step (B := fun k => k = UB.longjmp) rfl hi2 (by rw [hc]; rfl)).post r1
    have w1 : s1.write = s.write := q.2.2.2.1
    have b1 : ∀ i, i < s.write → s1.vm.instrs[i]? = s.vm.instrs[i]? := q.1.base
    have ff : s3.vm.functions = s1.vm.functions := l3.functions.trans l2.functions
    have gg := l2.grew.trans l3.grew
    have lo := l2.low
    refine .inr ⟨s1, bare s3, s2.write, r, r1, ff, l3.globals.trans l2.globals, l3.errors.trans l2.errors, by omega, w3, c3, fun i hi => ?_, ?_, ?_, ?_, fun hg => ?_⟩
    · exact (l3.below i (by omega)).trans ((l2.below i (by omega)).trans (b1 i hi))
    · rw [← w3]; exact l3.shape
    · rw [← w3, ← w1]; exact gg.entry
    · intro f hf
      rw [← w3]
      exact gg.keep (q.1.fns f (by rw [← ff]; exact hf))
    · rw [hz, w1]
      unfold popCount
      rw [List.length_eq_zero_iff, List.filter_eq_nil_iff]
      intro v hv
      rw [hg c (by rw [hc]; simp) v hv]
      simp

/-! ## Cases -/

namespace SessionEx

/-- Two texts, then finishing for good: the END is behind the code, and the globals are there. -/
example : Res.test (match two "var y = 3;" "function f(a) { return a; } var z = 1;" with | .ok (_, s) => finalize s | .ub k => .ub k)
    (fun r => r.2.ctx = [] ∧ r.2.vm.errors = [] ∧ r.2.vm.functions.map (·.first) = [15] ∧ r.2.vm.instrs[r.2.write - 1]? = some 20 ∧
      r.2.vm.globals.length = 3) = true := by
  decide +kernel

/-- The variables of the outermost scope are globals there, so `C64_finalized` says where the END is. -/
example : Res.test (two "var y = 3;" "function f(a) { var b; return a; } { var z = 1; }")
    (fun r => r.2.ctx.all fun c => c.vars.all (·.isGlobal)) = true := by
  decide +kernel

end SessionEx
end Nk.Props
