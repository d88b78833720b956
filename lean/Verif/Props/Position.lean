import Verif.Lemmas.Position
import Verif.Props.Life
import Verif.Props.Registry
/-!
# C43: the source positions of the instructions of a script
-/
namespace Nk.Props
open Nk.Spec Nk.Cc

variable {F : FloatOps} {H : Host}

theorem Later.going {K : UB → Prop} (hH : HostOK H K) (hC : NoCompiling H) {a s : CS} (h : Later F H a s)
    {l : List (Nat × Nat × Nat × Bool)} (ha : Going l a) : Going l s := by
  induction h with
  | now => exact ha
  | tokens h ht r ih => exact (compileTokens_going F _).run _ _ _ ih r
  | script h r ih => exact (compileScript_going F _ _ _ _).run _ _ _ ih r
  | global h r ih => exact (createGlobal_going _).run _ _ _ ih r
  | native h r ih => exact (createCFunction_going _ _).run _ _ _ ih r
  | finish h r ih => exact partiallyFinalize_going.run _ _ _ ih r
  | run h r ih =>
    exact ih.still ((h.run r).tidy hH hC ha.tidy) ⟨rfl, rfl, rfl, rfl, (run_same hC r).lines⟩
  | host h hi c ih => exact ih.still ((h.host hi c).tidy hH hC ha.tidy) ⟨rfl, rfl, rfl, rfl, c.lines⟩

theorem blockLoop_stop {st : CM Bool} (n : Nat) {s s' : CS} (e : blockLoop st n s = .ok (true, s')) :
    typeOf s'.toks = .curlyClose ∨ typeOf s'.toks = .invalid := by
  induction n generalizing s with
  | zero => cases e
  | succ n ih =>
    unfold blockLoop at e
    obtain ⟨t, s1, e1, e⟩ := CM.bind_inv e
    unfold curType at e1
    rw [CM.cget_bind] at e1
    cases e1
    split at e
    · obtain ⟨b, s2, e2, e⟩ := CM.bind_inv e
      cases b
      · cases e
      · exact ih e
    · next hn =>
      cases e
      rcases Classical.em (typeOf s'.toks = .curlyClose) with h | h
      · exact .inl h
      · rcases Classical.em (typeOf s'.toks = .invalid) with g | g
        · exact .inr g
        · exact absurd ⟨h, g⟩ hn

theorem script_stop {st : CM Bool} {s s' : CS} (e : script st s = .ok (true, s')) : typeOf s'.toks = .invalid := by
  unfold script at e
  rw [CM.cget_bind] at e
  obtain ⟨b, s1, e1, e⟩ := CM.bind_inv e
  cases b
  · cases e
  · rw [if_pos rfl, CM.cget_bind] at e
    obtain ⟨b, s2, e2, e⟩ := CM.bind_inv e
    cases b
    · obtain ⟨_, s3, e3, e⟩ := CM.bind_inv e
      cases e
    · rw [if_pos rfl] at e
      obtain ⟨t, s3, e3, e⟩ := CM.bind_inv e
      unfold curType at e3
      rw [CM.cget_bind] at e3
      cases e3
      split at e
      · obtain ⟨_, s4, e4, e⟩ := CM.bind_inv e
        cases e
      · next hn =>
        obtain ⟨_, s4, e4, e⟩ := CM.bind_inv e
        obtain ⟨_, s5, e5, e⟩ := CM.bind_inv e
        cases e
        have h4 : s4.toks = s2.toks := by
          unfold sameCtx at e4
          rw [CM.cget_bind] at e4
          split at e4 <;> cases e4
          rfl
        have h5 : s'.toks = s4.toks := by
          unfold popRec at e5
          rw [CM.cget_bind] at e5
          split at e5 <;> cases e5
          rfl
        rw [h5, h4]
        exact (blockLoop_stop _ e2).resolve_left hn

/-- What is recorded about one script. -/
theorem compileTokens_track {ts : List Token} (hn : ts ≠ []) {s s' : CS} {ok : Bool} (ht : Tidy s.vm) {b : Bool}
    {l0 : List (Nat × Nat × Nat × Bool)} (hc : Compiling (posOf s) b l0) (r : compileTokens F ts s = .ok (ok, s')) :
    ∃ s1, Track ts l0 s.vm.markers s.write s1 ∧ (ok = true → typeOf s1.toks = .invalid) ∧
      s' = { s1 with toks := [], line := 0, file := UINT_MAX } := by
  unfold compileTokens at r
  rw [CM.cmod_bind] at r
  obtain ⟨b, s1, e1, r⟩ := CM.bind_inv r
  rw [CM.cmod_bind] at r
  cases r
  refine ⟨s1, ?_, fun h => ?_, rfl⟩
  · cases ts with
    | nil => exact absurd rfl hn
    | cons t r =>
      refine (script_keep (statement_keep F maxDepth)).run _ _ _ ?_ e1
      refine ⟨ht, ?_⟩
      exact ⟨false, [], [], t, [], t, rfl, hc.start _ _, rfl, rfl, rfl, rfl, (List.append_nil _).symm, rfl, fun _ => ⟨rfl, rfl⟩,
        fun e he => (by cases he), rfl, rfl, fun m hm => (by cases hm)⟩
  · subst h; exact script_stop e1

theorem create_going : Going [] (createCompiler VM.create) := ⟨create_tidy, false, [], .init⟩

/-- **C43**, what is recorded: at any point of the life of a VM, compiling the tokens of a script adds markers for the places
of the first tokens of the lines, in order, and of no others; for all lines but the first if compiling succeeds, and up to some
token otherwise. -/
theorem C43_markers {K : UB → Prop} (hH : HostOK H K) (hC : NoCompiling H) {s s' : CS} (h : Life F H s) {ts : List Token} (hn : ts ≠ [])
    (ht : ∀ t ∈ ts, t.type ≠ .invalid) {ok : Bool} (r : compileTokens F ts s = .ok (ok, s')) :
    ∃ seen ms, seen <+: ts ∧ (ok = true → seen = ts) ∧ s'.vm.markers = s.vm.markers ++ ms ∧
      ms.map markerPlace = (newLines seen).map tokPlace ∧ ∀ m ∈ ms, s.write ≤ m.instr ∧ m.instr ≤ s'.write := by
  obtain ⟨_, b0, l0, hc⟩ := Later.going hH hC h create_going
  obtain ⟨s1, htr, hok, rfl⟩ := compileTokens_track hn (h.tidy hH hC) hc r
  obtain ⟨b, l, pre, last, ms, first, hf, hc1, g1, g2, g3, g4, g5, g6, g7, g8, g9, g10, g11⟩ := htr.trail
  refine ⟨_, ms, ?_, fun h => ?_, g5, g6, g11⟩
  · rw [g1]; exact (List.prefix_append_right_inj _).2 (List.take_prefix _ _)
  · have := hok h
    cases hx : s1.toks with
    | nil => rw [g1, hx]; rfl
    | cons t q =>
      rw [hx] at this
      exact absurd this (ht t (by rw [g1, hx]; simp))

/-- **C43**, which position is reported: the compiler goes through the tokens as in `Compiling`, and the list of instructions
`l` it emits has these properties.  They are all the instructions of the script; each has the position of a token of
the script; for those that are not on the first line, that is the position reported for the instruction, whatever is compiled,
declared and run afterwards.

Missing for the full claim: the instructions of the first line (`C43_first_line_wrong`). -/
theorem C43_lines_partial {K : UB → Prop} (hH : HostOK H K) (hC : NoCompiling H) {s s' s2 : CS} (h : Life F H s) {ts : List Token} (hn : ts ≠ [])
    {ok : Bool} (r : compileTokens F ts s = .ok (ok, s')) (g : Later F H s' s2) :
    ∃ l l0, Compiling (posOf s') false (l ++ l0) ∧ l.map (·.1) = (List.range' s.write (s'.write - s.write)).reverse ∧
      (∀ k f n b, (k, f, n, b) ∈ l → ∃ t ∈ ts, t.file = f ∧ word t.line = n) ∧
      ∀ k f n b, (k, f, n, b) ∈ l → (∀ t ∈ ts.head?, t.file ≠ f ∨ word t.line ≠ n) →
        ∃ m, findSourceMarker s2.vm.markers k = some m ∧ m.file = f ∧ m.line = n := by
  obtain ⟨_, b0, l0, hc⟩ := Later.going hH hC h create_going
  obtain ⟨s1, htr, _, rfl⟩ := compileTokens_track hn (h.tidy hH hC) hc r
  obtain ⟨b, l, pre, last, ms, first, hf, hc1, g1, g2, g3, g4, g5, g6, g7, g8, g9, g10, g11⟩ := htr.trail
  refine ⟨l, _, hc1.stop, ?_, ?_, ?_⟩
  · show _ = (List.range' s.write (s1.write - s.write)).reverse
    rw [g10, Nat.add_sub_cancel_left]; exact g9
  · intro k f n b hm
    obtain ⟨t, h1, h2, h3, _⟩ := g8 _ hm
    exact ⟨t, h1, h2.symm, h3.symm⟩
  · intro k f n b hm hd
    obtain ⟨t, h1, h2, h3, h4⟩ := g8 _ hm
    cases b
    · have := h4 rfl
      rcases hd first hf with hd | hd
      · exact absurd (this.1.symm.trans h2.symm) hd
      · exact absurd (this.2.symm.trans h3.symm) hd
    · obtain ⟨_, b2, l2, hc2⟩ := Later.going hH hC g ⟨htr.tidy, false, [], hc1.stop⟩
      exact C43_position_partial hc2 (List.mem_append_right _ (List.mem_append_left _ hm))

/-! ### An example -/

namespace PositionEx

/-- Compile a text in a new VM: the tokens, whether it succeeded and the state. -/
def compiled (a : String) : Res (List Token × Bool × CS) :=
  match Tok.tokenize 32 (fun _ => 0) (cs a ++ [0]) (cs "f") VM.create with
  | .ok (some ts, vm) => match compileTokens Sample.F ts (createCompiler vm) with
    | .ok (b, s) => .ok (ts, b, s)
    | .ub k => .ub k
  | .ok (none, _) => .ub .fuel
  | .ub k => .ub k

/-- Three lines: two markers, and an instruction of the second line is reported on the second line. -/
example : Res.test (compiled "var a = 1;\na = 2;\na = 3;") (fun x =>
    x.2.1 = true ∧ x.2.2.vm.markers.map markerPlace = [(0, 2, 2), (0, 3, 3)] ∧
    x.2.2.vm.markers.map (·.instr) = [6, 12] ∧ (newLines x.1).map tokPlace = [(0, 2, 2), (0, 3, 3)] ∧
    (findSourceMarker x.2.2.vm.markers 8).map markerPlace = some (0, 2, 2)) = true := by
  decide +kernel

end PositionEx

end Nk.Props
