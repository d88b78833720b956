import Verif.Lemmas.Life
import Verif.Lemmas.Registry
import Verif.Spec.Position
/-!
# The positions recorded while a script is compiled
-/
namespace Nk.Cc
open Nk.Spec

theorem newLines_snoc (l : List Token) (a b : Token) :
    newLines (l ++ [a, b]) = newLines (l ++ [a]) ++ (if SameLine a b then [] else [b]) := by
  induction l with
  | nil => simp only [List.nil_append, newLines]
  | cons x l ih =>
    cases l with
    | nil =>
      simp only [List.cons_append, List.nil_append, newLines]
      split <;> rfl
    | cons y l =>
      simp only [List.cons_append, newLines] at ih ⊢
      split
      · exact ih
      · rw [ih]; rfl

/-- While the tokens `ts` are compiled: `l0`, `m0` and `w0` are what was there before. -/
structure Track (ts : List Token) (l0 : List (Nat × Nat × Nat × Bool)) (m0 : List Marker) (w0 : Nat) (s : CS) : Prop where
  tidy : Tidy s.vm
  trail : ∃ b l pre last ms, ∃ first ∈ ts.head?, Compiling (posOf s) b (l ++ l0) ∧ ts = pre ++ s.toks ∧ (pre ++ s.toks.take 1).getLast? = some last ∧
    s.file = last.file ∧ s.line = word last.line ∧ s.vm.markers = m0 ++ ms ∧
    ms.map markerPlace = (newLines (pre ++ s.toks.take 1)).map tokPlace ∧ (b = false → SameLine last first) ∧
    (∀ e ∈ l, ∃ t ∈ ts, e.2.1 = t.file ∧ e.2.2.1 = word t.line ∧ (e.2.2.2 = false → SameLine t first)) ∧ l.map (·.1) = (List.range' w0 l.length).reverse ∧
    s.write = w0 + l.length ∧ ∀ m ∈ ms, w0 ≤ m.instr ∧ m.instr ≤ s.write

variable {ts : List Token} {l0 : List (Nat × Nat × Nat × Bool)} {m0 : List Marker} {w0 : Nat}

theorem Track.of {s s' : CS} (h : Track ts l0 m0 w0 s) (ht : Tidy s'.vm) (h1 : s'.toks = s.toks) (h2 : s'.line = s.line) (h3 : s'.file = s.file)
    (h4 : s'.write = s.write) (h5 : s'.vm.markers = s.vm.markers) : Track ts l0 m0 w0 s' := by
  refine ⟨ht, ?_⟩
  unfold posOf
  rw [h1, h2, h3, h4, h5]
  exact h.trail

/-- The fields that `Track` is about besides the VM being in order. -/
structure Still (s s' : CS) : Prop where
  toks : s'.toks = s.toks
  line : s'.line = s.line
  file : s'.file = s.file
  write : s'.write = s.write
  markers : s'.vm.markers = s.vm.markers

theorem Track.still {s s' : CS} (h : Track ts l0 m0 w0 s) (ht : Tidy s'.vm) (g : Still s s') : Track ts l0 m0 w0 s' :=
  h.of ht g.toks g.line g.file g.write g.markers

theorem Still.refl (s : CS) : Still s s := ⟨rfl, rfl, rfl, rfl, rfl⟩
theorem Still.trans {a b c : CS} (h : Still a b) (g : Still b c) : Still a c :=
  ⟨g.toks.trans h.toks, g.line.trans h.line, g.file.trans h.file, g.write.trans h.write, g.markers.trans h.markers⟩

theorem growInstrs_still {s s' : CS} {a : Unit} (e : growInstrs s = .ok (a, s')) : Still s s' := by
  unfold growInstrs at e
  rw [CM.cget_bind] at e
  dsimp only at e
  split at e
  · obtain ⟨_, s1, g1, e⟩ := CM.bind_inv e
    cases g1
    split at e
    · cases e
    · split at e
      · cases e
      · cases e; exact ⟨rfl, rfl, rfl, rfl, rfl⟩
  · obtain ⟨_, s1, g1, e⟩ := CM.bind_inv e
    cases g1
    split at e
    · cases e
    · split at e
      · cases e
      · cases e; exact ⟨rfl, rfl, rfl, rfl, rfl⟩

theorem allocStatic_still {s s' : CS} {a : Nat} (e : allocStatic s = .ok (a, s')) : Still s s' := by
  unfold allocStatic at e
  rw [CM.cget_bind] at e
  obtain ⟨ok, s1, g1, e⟩ := CM.bind_inv e
  have h1 : Still s s1 := by
    split at g1
    · rw [CM.cmod_bind] at g1
      split at g1
      · obtain ⟨_, s2, g2, g1⟩ := CM.bind_inv g1
        cases g2; cases g1; exact ⟨rfl, rfl, rfl, rfl, rfl⟩
      · split at g1
        · cases g1
        · rw [CM.cmod_bind] at g1
          cases g1; exact ⟨rfl, rfl, rfl, rfl, rfl⟩
    · cases g1; exact .refl _
  split at e
  · rw [CM.cmod_bind, CM.cget_bind] at e
    split at e
    · obtain ⟨_, s2, g2, e⟩ := CM.bind_inv e
      cases g2; cases e; exact h1.trans ⟨rfl, rfl, rfl, rfl, rfl⟩
    · cases e; exact h1.trans ⟨rfl, rfl, rfl, rfl, rfl⟩
  · cases e; exact h1

/-- The position after `nkiCompilerNextToken`. -/
theorem posOf_advance {s : CS} {b : Bool} {l : List (Nat × Nat × Nat × Bool)} (hc : Compiling (posOf s) b l) :
    ∃ b', Compiling (posOf (advance s)) b' l := by
  unfold advance
  split
  · exact ⟨b, hc⟩
  · exact ⟨b, hc⟩
  · next x t r hx =>
    refine ⟨b || s.line != word t.line || s.file != t.file, ?_⟩
    show Compiling ⟨(PosState.next ⟨s.line, s.file, s.write, s.vm.markers⟩ t.file (word t.line) (word t.actualLine)).line,
        (PosState.next ⟨s.line, s.file, s.write, s.vm.markers⟩ t.file (word t.line) (word t.actualLine)).file, s.write,
        (PosState.next ⟨s.line, s.file, s.write, s.vm.markers⟩ t.file (word t.line) (word t.actualLine)).markers⟩
        (b || s.line != word t.line || s.file != t.file) l
    have := hc.next t.file (word t.line) (word t.actualLine)
    unfold posOf at this
    unfold PosState.next at this ⊢
    split at this
    · next hq => rw [if_pos hq]; exact this
    · next hq => rw [if_neg hq]; exact this

/-- One written word: nothing about the position changes but the index of the next instruction. -/
theorem addInstr_pos {s s' : CS} {w : BitVec 32} {b : Bool} (ht : Tidy s.vm) (e : addInstr w b s = .ok ((), s')) :
    s'.toks = s.toks ∧ posOf s' = (posOf s).emit := by
  rw [addInstr_eq] at e
  obtain ⟨_, s1, e1, e⟩ := CM.bind_inv e
  obtain ⟨_, s2, e2, e⟩ := CM.bind_inv e
  obtain ⟨_, s3, e3, e⟩ := CM.bind_inv e
  have h1 : Still s s1 ∧ Tidy s1.vm := by
    split at e1
    · exact ⟨growInstrs_still e1, tidy_grow.run _ _ _ ht e1⟩
    · cases e1; exact ⟨.refl _, ht⟩
  have h2 : Still s s2 ∧ s.write + 1 < 4294967296 := by
    unfold writeInstr at e2
    split at e2
    · next hlt =>
      cases e2
      have := h1.2.inv.instrs
      have := h1.2.code
      unfold UINT_MAX at this
      exact ⟨h1.1.trans ⟨rfl, rfl, rfl, rfl, rfl⟩, by omega⟩
    · cases e2
  have h3 : Still s s3 := by
    split at e3
    · unfold modCtx at e3
      split at e3 <;> cases e3
      exact h2.1.trans ⟨rfl, rfl, rfl, rfl, rfl⟩
    · cases e3; exact h2.1
  cases e
  have hw : u32 (s3.write + 1) = s.write + 1 := by rw [h3.write]; unfold u32 U32; omega
  refine ⟨h3.toks, ?_⟩
  show (⟨s3.line, s3.file, u32 (s3.write + 1), s3.vm.markers⟩ : PosState) = ⟨s.line, s.file, s.write + 1, s.vm.markers⟩
  rw [hw, h3.line, h3.file, h3.markers]

theorem Track.next {s : CS} (h : Track ts l0 m0 w0 s) : Track ts l0 m0 w0 (advance s) := by
  have ht : Tidy (advance s).vm := (instCFrameVm (V := Tidy)).next s h.tidy
  obtain ⟨b, l, pre, last, ms, first, hf, hc, h1, h2, h3, h4, h5, h6, h7, h8, h9, h10, h11⟩ := h.trail
  unfold advance at ht ⊢
  split
  · exact h
  · next x hx =>
    refine ⟨h.tidy, b, l, pre ++ [x], last, ms, first, hf, hc, ?_, ?_, h3, h4, h5, ?_, h7, h8, h9, h10, h11⟩
    · rw [h1, hx]; simp
    · rw [hx] at h2; simpa using h2
    · rw [hx] at h6; simpa using h6
  · next x t r hx =>
    rw [hx] at ht h1 h2 h6
    have hl : last = x := by simpa using h2.symm
    subst hl
    have hn : newLines (pre ++ [last] ++ [t]) = newLines (pre ++ [last]) ++ (if SameLine last t then [] else [t]) := by
      rw [← newLines_snoc]; simp
    have hsame : SameLine last t ↔ ¬ (s.line ≠ word t.line ∨ s.file ≠ t.file) := by
      unfold SameLine
      rw [← h3, ← h4]
      constructor
      · rintro ⟨a, b⟩ (c | c)
        · exact c b
        · exact c a
      · intro hc
        rcases Classical.propComplete (s.file = t.file) with a | a
        · rcases Classical.propComplete (s.line = word t.line) with b | b
          · exact ⟨of_eq_true a, of_eq_true b⟩
          · exact absurd (.inl (of_eq_false b)) hc
        · exact absurd (.inr (of_eq_false a)) hc
    have hc' : Compiling ⟨(PosState.next ⟨s.line, s.file, s.write, s.vm.markers⟩ t.file (word t.line) (word t.actualLine)).line,
        (PosState.next ⟨s.line, s.file, s.write, s.vm.markers⟩ t.file (word t.line) (word t.actualLine)).file, s.write,
        (PosState.next ⟨s.line, s.file, s.write, s.vm.markers⟩ t.file (word t.line) (word t.actualLine)).markers⟩
        (b || s.line != word t.line || s.file != t.file) (l ++ l0) := by
      have := hc.next t.file (word t.line) (word t.actualLine)
      unfold posOf at this
      unfold PosState.next at this ⊢
      split at this
      · next hq => rw [if_pos hq]; exact this
      · next hq => rw [if_neg hq]; exact this
    dsimp only [List.take] at h6
    by_cases hs : SameLine last t
    · have hp : PosState.next ⟨s.line, s.file, s.write, s.vm.markers⟩ t.file (word t.line) (word t.actualLine) = ⟨s.line, s.file, s.write, s.vm.markers⟩ := by
        unfold PosState.next; exact if_neg (hsame.1 hs)
      rw [if_pos hs, List.append_nil] at hn
      refine ⟨ht, _, l, pre ++ [last], t, ms, first, hf, hc', ?_, by simp, ?_, ?_, ?_, ?_, ?_, h8, h9, h10, h11⟩
      · rw [h1]; simp
      · show PosState.file _ = _; rw [hp]; exact h3.trans hs.1
      · show PosState.line _ = _; rw [hp]; exact h4.trans hs.2
      · show PosState.markers _ = _; rw [hp]; exact h5
      · show _ = (newLines (pre ++ [last] ++ [t])).map tokPlace; rw [hn]; exact h6
      · intro hb
        simp only [Bool.or_eq_false_iff] at hb
        have := h7 hb.1.1
        exact ⟨hs.1.symm.trans this.1, hs.2.symm.trans this.2⟩
    · have hp : PosState.next ⟨s.line, s.file, s.write, s.vm.markers⟩ t.file (word t.line) (word t.actualLine) =
          ⟨word t.line, t.file, s.write, s.vm.markers ++ [⟨s.write, t.file, word t.line, word t.actualLine⟩]⟩ := by
        unfold PosState.next; exact if_pos (Classical.byContradiction fun hc => hs (hsame.2 hc))
      rw [if_neg hs] at hn
      refine ⟨ht, _, l, pre ++ [last], t, ms ++ [⟨s.write, t.file, word t.line, word t.actualLine⟩], first, hf, hc', ?_, by simp, ?_, ?_, ?_, ?_, ?_, h8, h9, h10, fun m hm => ?_⟩
      · rw [h1]; simp
      · show PosState.file _ = _; rw [hp]
      · show PosState.line _ = _; rw [hp]
      · show PosState.markers _ = _; rw [hp, h5]; simp
      · show _ = (newLines (pre ++ [last] ++ [t])).map tokPlace
        rw [hn, List.map_append, List.map_append, ← h6]; rfl
      · intro hb
        simp only [Bool.or_eq_false_iff, bne_eq_false_iff_eq] at hb
        exact absurd (hsame.2 fun hc => by rcases hc with hc | hc
                                           · exact hc hb.1.2
                                           · exact hc hb.2) hs
      · rcases List.mem_append.1 hm with hm | hm
        · exact h11 m hm
        · rw [List.mem_singleton.1 hm]
          exact ⟨by show w0 ≤ s.write; omega, Nat.le_refl _⟩

theorem Track.emit {s s' : CS} {w : BitVec 32} {b : Bool} (h : Track ts l0 m0 w0 s) (e : addInstr w b s = .ok ((), s')) : Track ts l0 m0 w0 s' := by
  have ht : Tidy s'.vm := (addInstr_keep (P := fun s => Tidy s.vm)).run _ _ _ h.tidy e
  obtain ⟨q1, q2⟩ := addInstr_pos h.tidy e
  refine ⟨ht, ?_⟩
  obtain ⟨b, l, pre, last, ms, first, hf, hc, g1, g2, g3, g4, g5, g6, g7, g8, g9, g10, g11⟩ := h.trail
  have q3 : s'.line = s.line := congrArg PosState.line q2
  have q4 : s'.file = s.file := congrArg PosState.file q2
  have q5 : s'.write = s.write + 1 := congrArg PosState.write q2
  have q6 : s'.vm.markers = s.vm.markers := congrArg PosState.markers q2
  refine ⟨b, (s.write, s.file, s.line, b) :: l, pre, last, ms, first, hf, ?_, ?_, ?_, ?_, ?_, ?_, ?_, ?_, ?_, ?_, ?_, fun m hm => ?_⟩
  · rw [q2]; exact hc.emit
  · rw [q1]; exact g1
  · rw [q1]; exact g2
  · rw [q4]; exact g3
  · rw [q3]; exact g4
  · rw [q6]; exact g5
  · rw [q1]; exact g6
  · exact g7
  · intro e he
    rcases List.mem_cons.1 he with rfl | he
    · refine ⟨last, ?_, g3, g4, g7⟩
      have := List.mem_of_getLast? g2
      rw [g1]
      rcases List.mem_append.1 this with hm | hm
      · exact List.mem_append_left _ hm
      · exact List.mem_append_right _ (List.mem_of_mem_take hm)
    · exact g8 e he
  · rw [List.map_cons, g9, List.length_cons, List.range'_concat, List.reverse_append, g10]; simp
  · rw [q5, g10]; rfl
  · have := g11 m hm; rw [q5]; omega

/-- What interning a string leaves alone. -/
theorem intern_still {s s' : CS} {t : Bytes} {a : Nat} (ht : Tidy s.vm) (e : onVM (findOrAddString t) s = .ok (a, s')) : Still s s' := by
  unfold onVM at e
  split at e
  · next hm =>
    cases e
    obtain ⟨id, v, e', hs⟩ := findOrAddString_sext ht.inv.heap.str t
    rw [hm] at e'; cases e'
    exact ⟨rfl, rfl, rfl, rfl, by rw [hs.frame]⟩
  · cases e

theorem keepString_still {s s' : CS} {i : Nat} {a : Unit} (e : onVM (keepString i) s = .ok (a, s')) : Still s s' := by
  unfold onVM keepString at e
  split at e
  · next hm =>
    cases e
    refine ⟨rfl, rfl, rfl, rfl, ?_⟩
    split at hm
    · cases hm
    · cases hm; rfl
    · split at hm <;> cases hm
      rfl
  · cases e

instance : CFrame (Track ts l0 m0 w0) where
  of s s' h h1 h2 h3 h4 _ hp := hp.of (by rw [h]; exact hp.tidy) h1 h2 h3 h4 (by rw [h])
  err s e h := h.of (h.tidy.err e) rfl rfl rfl rfl rfl
  next s h := h.next
  code s i w h := h.of ((instCFrameVm (V := Tidy)).code s i w h.tidy) rfl rfl rfl rfl rfl
  add w b := ⟨fun s a s' h e => h.emit e⟩
  alloc := ⟨fun s a s' h e => h.still (tidy_alloc.run _ _ _ h.tidy e) (allocStatic_still e)⟩
  intern t := ⟨fun s a s' h e => h.still (((instCFrameVm (V := Tidy)).intern t).run _ _ _ h.tidy e) (intern_still h.tidy e)⟩
  keep i := ⟨fun s a s' h e => h.still (((instCFrameVm (V := Tidy)).keep i).run _ _ _ h.tidy e) (keepString_still e)⟩
  fns s l h := h.of ((instCFrameVm (V := Tidy)).fns s l h.tidy) rfl rfl rfl rfl rfl

/-- At any time: the positions recorded are those that compiling produces, and those of before are among them. -/
structure Going (l0 : List (Nat × Nat × Nat × Bool)) (s : CS) : Prop where
  tidy : Tidy s.vm
  trail : ∃ b l, Compiling (posOf s) b (l ++ l0)

theorem Going.still {s s' : CS} (h : Going l0 s) (ht : Tidy s'.vm) (g : Still s s') : Going l0 s' :=
  ⟨ht, by unfold posOf; rw [g.line, g.file, g.write, g.markers]; exact h.trail⟩

instance : CFrame (Going l0) where
  of s s' h h1 h2 h3 h4 _ hp := hp.still (by rw [h]; exact hp.tidy) ⟨h1, h2, h3, h4, by rw [h]⟩
  err s e h := h.still (h.tidy.err e) ⟨rfl, rfl, rfl, rfl, rfl⟩
  next s h := ⟨(instCFrameVm (V := Tidy)).next s h.tidy, by
    obtain ⟨b, l, hc⟩ := h.trail
    obtain ⟨b', hc'⟩ := posOf_advance hc
    exact ⟨b', l, hc'⟩⟩
  code s i w h := h.still ((instCFrameVm (V := Tidy)).code s i w h.tidy) ⟨rfl, rfl, rfl, rfl, rfl⟩
  add w b := ⟨fun s a s' h e => ⟨(addInstr_keep (P := fun s => Tidy s.vm)).run _ _ _ h.tidy e, by
    obtain ⟨b, l, hc⟩ := h.trail
    rw [(addInstr_pos h.tidy e).2]
    exact ⟨b, (s.write, s.file, s.line, b) :: l, hc.emit⟩⟩⟩
  alloc := ⟨fun s a s' h e => h.still (tidy_alloc.run _ _ _ h.tidy e) (allocStatic_still e)⟩
  intern t := ⟨fun s a s' h e => h.still (((instCFrameVm (V := Tidy)).intern t).run _ _ _ h.tidy e) (intern_still h.tidy e)⟩
  keep i := ⟨fun s a s' h e => h.still (((instCFrameVm (V := Tidy)).keep i).run _ _ _ h.tidy e) (keepString_still e)⟩
  fns s l h := h.still ((instCFrameVm (V := Tidy)).fns s l h.tidy) ⟨rfl, rfl, rfl, rfl, rfl⟩

theorem compileTokens_going (F : FloatOps) (ts : List Token) : CKeep (Going l0) (compileTokens F ts) := by
  unfold compileTokens
  refine CKeep.bind (CKeep.cmod' fun s h => ⟨h.tidy, ?_⟩) fun _ => CKeep.bind (script_keep (statement_keep F maxDepth)) fun _ =>
    CKeep.bind (CKeep.cmod' fun s h => ⟨h.tidy, ?_⟩) fun _ => CKeep.pure
  · obtain ⟨b, l, hc⟩ := h.trail
    exact ⟨false, l, hc.start _ _⟩
  · obtain ⟨b, l, hc⟩ := h.trail
    exact ⟨false, l, hc.stop⟩

theorem compileScript_going (F : FloatOps) (hdr : Nat) (junk : Nat → UInt8) (b n : Bytes) : CKeep (Going l0) (compileScript F hdr junk b n) := by
  have h1 : CKeep (Going l0) (onVM (Tok.tokenize hdr junk b n)) := ⟨fun s a s' h e => by
    have ht := (tokenize_keep (V := Tidy) hdr junk b n).run _ _ _ h.tidy e
    unfold onVM at e
    split at e
    · next hm =>
      cases e
      obtain ⟨⟨es, fs, rfl, hl⟩, _⟩ := Tok.tokenize_ret hdr junk b n _ _ _ hm
      exact h.still ht ⟨rfl, rfl, rfl, rfl, rfl⟩
    · cases e⟩
  have h2 := compileTokens_going (l0 := l0) F
  unfold compileScript
  ckeep
  exact h2 _

theorem createGlobal_going (n : Bytes) : CKeep (Going l0) (createGlobal n) := by unfold createGlobal; ckeep

theorem createCFunction_going (n : Bytes) (cb : Option Nat) : CKeep (Going l0) (createCFunction n cb) := by
  have h0 := createGlobal_going (l0 := l0) n
  have h1 : CKeep (Going l0) (onVM (registerNative n cb)) := ⟨fun s a s' h e => by
    have ht := (CKeep.onVM (VFrame.native (P := Tidy) n cb)).run _ _ _ h.tidy e
    unfold onVM at e
    split at e
    · next hm =>
      cases e
      refine h.still ht ⟨rfl, rfl, rfl, rfl, ?_⟩
      rcases registerNative_cases hm with ⟨_, rfl, _⟩ | ⟨_, ⟨_, _, rfl⟩ | ⟨_, _, rfl⟩⟩ <;> rfl
    · cases e⟩
  have h2 : ∀ i, CKeep (Going l0) (onVM (internalFor i)) := fun i => ⟨fun s a s' h e => by
    have ht := (CKeep.onVM (VFrame.inner (P := Tidy) i)).run _ _ _ h.tidy e
    unfold onVM at e
    split at e
    · next hm =>
      cases e
      refine h.still ht ⟨rfl, rfl, rfl, rfl, ?_⟩
      rcases internalFor_cases hm with ⟨_, _, _, rfl⟩ | ⟨_, _, _, _, rfl⟩ | ⟨_, _, _, _, _, rfl⟩ <;> rfl
    · cases e⟩
  have h3 : ∀ p v, CKeep (Going l0) (setStatic p v) := fun p v => ⟨fun s a s' h e => by
    have ht := (setStatic_keep (V := Tidy) p v).run _ _ _ h.tidy e
    unfold setStatic at e
    split at e <;> cases e
    exact h.still ht ⟨rfl, rfl, rfl, rfl, rfl⟩⟩
  unfold createCFunction
  refine CKeep.bind h1 fun _ => CKeep.bind (h2 _) fun _ => CKeep.bind h0 fun o => ?_
  cases o with
  | none => exact .pure
  | some p => exact h3 _ _

theorem partiallyFinalize_going : CKeep (Going l0) partiallyFinalize := ⟨fun s a s' h e => by
  have ht := (partiallyFinalize_keep (V := Tidy)).run _ _ _ h.tidy e
  unfold partiallyFinalize at e
  rw [CM.cget_bind] at e
  split at e
  · obtain ⟨_, s1, e1, e⟩ := CM.bind_inv e
    have g1 := (generateGlobals_keep (V := Tidy)).run _ _ _ h.tidy e1
    have h1 : Still s s1 := by
      unfold generateGlobals at e1
      rw [CM.cget_bind] at e1
      cases hx : s.ctx with
      | nil => rw [hx] at e1; cases e1
      | cons c cs => rw [hx] at e1; cases e1; exact ⟨rfl, rfl, rfl, rfl, rfl⟩
    rw [CM.cget_bind] at e
    obtain ⟨_, s2, e2, e⟩ := CM.bind_inv e
    obtain ⟨q1, q2⟩ := addInstr_pos g1 e2
    cases e
    refine (h.still g1 h1).still ht ⟨q1, congrArg PosState.line q2, congrArg PosState.file q2, rfl, congrArg PosState.markers q2⟩
  · cases e⟩

end Nk.Cc
