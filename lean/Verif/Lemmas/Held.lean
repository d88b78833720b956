import Verif.Lemmas.Life
import Verif.Lemmas.CodeEmit
/-!
# What compiling leaves alone

The contexts of the machine, its limits and its counters; and the space for global variables stays as large as its mask says and large
enough for those the compiler has allocated.
-/
namespace Nk.Cc

structure Held (a : VM) (s : CS) : Prop where
  ctxs : s.vm.ctxs = a.ctxs
  cur : s.vm.cur = a.cur
  gc : s.vm.gc = a.gc
  limits : s.vm.limits = a.limits
  left : s.vm.instrLeft = a.instrLeft
  slen : s.vm.statics.length = s.vm.staticMask + 1
  spow : ∃ k, k ≤ 31 ∧ s.vm.staticMask + 1 = 2 ^ k
  small : s.vm.staticMask + 1 < UINT_MAX / 8
  count : s.staticCount ≤ s.vm.staticMask + 1
  str : StrWF s.vm
  vars : a.statics <+: s.vm.statics
  objects : s.vm.objects = a.objects
  handles : s.vm.handles = a.handles

variable {a : VM} {s s' : CS}

theorem Held.of (h : Held a s) (h1 : s'.vm.ctxs = s.vm.ctxs) (h2 : s'.vm.cur = s.vm.cur) (h3 : s'.vm.gc = s.vm.gc) (h4 : s'.vm.limits = s.vm.limits)
    (h5 : s'.vm.instrLeft = s.vm.instrLeft) (h6 : s'.vm.statics = s.vm.statics) (h7 : s'.vm.staticMask = s.vm.staticMask)
    (h8 : s'.staticCount = s.staticCount) (h9 : s'.vm.strings = s.vm.strings) (h10 : s'.vm.sbuckets = s.vm.sbuckets)
    (h11 : s'.vm.objects = s.vm.objects) (h12 : s'.vm.handles = s.vm.handles) : Held a s' :=
  ⟨h1.trans h.ctxs, h2.trans h.cur, h3.trans h.gc, h4.trans h.limits, h5.trans h.left, by rw [h6, h7, h.slen], by rw [h7]; exact h.spow, by rw [h7]; exact h.small,
    by rw [h7, h8]; exact h.count, CodeWF.str' h.str h9 h10, by rw [h6]; exact h.vars, h11.trans h.objects, h12.trans h.handles⟩

theorem held_grow : CKeep (Held a) growInstrs := ⟨fun s x s' h e => by
  unfold growInstrs at e
  rw [CM.cget_bind] at e
  dsimp only at e
  obtain ⟨m, s1, g1, e⟩ := CM.bind_inv e
  have h1 : Held a s1 := by
    split at g1
    · obtain ⟨_, s2, g2, g3⟩ := CM.bind_inv g1
      cases g2; cases g3
      exact h.of rfl rfl rfl rfl rfl rfl rfl rfl rfl rfl rfl rfl
    · cases g1; exact h
  split at e
  · cases e
  · split at e
    · cases e
    · cases e
      exact h1.of rfl rfl rfl rfl rfl rfl rfl rfl rfl rfl rfl rfl⟩

theorem held_alloc : CKeep (Held a) allocStatic := ⟨fun s x s' h e => by
  have hc := h.small
  have hl := h.slen
  have hn := h.count
  unfold allocStatic at e
  rw [CM.cget_bind] at e
  obtain ⟨ok, s1, g1, e⟩ := CM.bind_inv e
  have e1 : u32 (s.vm.staticMask + 1) = s.vm.staticMask + 1 := by unfold u32 U32; unfold UINT_MAX at hc; omega
  have h1 : Held a s1 ∧ s1.staticCount < s1.vm.staticMask + 1 := by
    by_cases hm : u32 (s.vm.staticMask + 1) = s.staticCount
    · rw [if_pos hm] at g1
      have e3 := twice_or s.vm.staticMask (by unfold UINT_MAX at hc; omega)
      dsimp only at g1
      rw [e3, CM.cmod_bind, if_neg (by unfold UINT_MAX at hc ⊢; omega)] at g1
      by_cases hn : s.vm.staticMask * 2 + 1 + 1 ≥ UINT_MAX / 8
      · rw [if_pos hn] at g1; cases g1
      · rw [if_neg hn, CM.cmod_bind] at g1
        cases g1
        obtain ⟨k, hk, hp⟩ := h.spow
        refine ⟨⟨h.ctxs, h.cur, h.gc, h.limits, h.left, ?_, ⟨k + 1, ?_, ?_⟩, ?_, ?_, CodeWF.str' h.str rfl rfl, ?_, h.objects, h.handles⟩, ?_⟩
        · show (s.vm.statics.take _ ++ List.replicate _ _).length = s.vm.staticMask * 2 + 1 + 1
          rw [List.length_append, List.length_take, List.length_replicate, hl]
          show min s.staticCount _ + s.staticCount = _
          omega
        · apply Classical.byContradiction
          intro hk'
          have : k = 31 := by omega
          rw [this] at hp
          unfold UINT_MAX at hc
          omega
        · show s.vm.staticMask * 2 + 1 + 1 = _
          rw [Nat.pow_succ]; omega
        · show s.vm.staticMask * 2 + 1 + 1 < _
          omega
        · show s.staticCount ≤ s.vm.staticMask * 2 + 1 + 1
          omega
        · show a.statics <+: s.vm.statics.take _ ++ List.replicate _ _
          rw [List.take_of_length_le (by rw [hl]; show _ ≤ s.staticCount; omega)]
          exact h.vars.trans (List.prefix_append _ _)
        · show s.staticCount < s.vm.staticMask * 2 + 1 + 1
          omega
    · rw [if_neg hm] at g1
      cases g1; exact ⟨h, by omega⟩
  obtain ⟨h1, h2⟩ := h1
  have hc1 := h1.small
  have key : Held a { s1 with staticCount := u32 (s1.staticCount + 1) } :=
    ⟨h1.ctxs, h1.cur, h1.gc, h1.limits, h1.left, h1.slen, h1.spow, h1.small, by
      show u32 (s1.staticCount + 1) ≤ s1.vm.staticMask + 1
      unfold u32 U32; unfold UINT_MAX at hc1; omega, h1.str, h1.vars, h1.objects, h1.handles⟩
  split at e
  · rw [CM.cmod_bind, CM.cget_bind] at e
    split at e
    · obtain ⟨_, s2, g2, e⟩ := CM.bind_inv e
      cases g2; cases e
      exact key.of rfl rfl rfl rfl rfl rfl rfl rfl rfl rfl rfl rfl
    · cases e; exact key
  · cases e; exact h1⟩

theorem Held.intern {t : Bytes} {id : Nat} {vm : VM} (h : Held a s) (e : findOrAddString t s.vm = .ok (id, vm)) : Held a { s with vm := vm } := by
  obtain ⟨i, v, e', hs⟩ := findOrAddString_sext h.str t
  rw [e] at e'; cases e'
  have f := hs.frame
  refine ⟨?_, ?_, ?_, ?_, ?_, ?_, ?_, ?_, ?_, hs.wf, ?_, ?_, ?_⟩
  all_goals dsimp only
  all_goals rw [f]
  · exact h.ctxs
  · exact h.cur
  · exact h.gc
  · exact h.limits
  · exact h.left
  · exact h.slen
  · exact h.spow
  · exact h.small
  · exact h.count
  · exact h.vars
  · exact h.objects
  · exact h.handles

theorem Held.keepString {i : Nat} {u : Unit} {vm : VM} (h : Held a s) (e : keepString i s.vm = .ok (u, vm)) : Held a { s with vm := vm } := by
  unfold Nk.Cc.keepString at e
  rw [Table.get_eq h.str.tab i] at e
  cases he : s.vm.strings.entry i with
  | none => rw [he] at e; cases e; exact h.of rfl rfl rfl rfl rfl rfl rfl rfl rfl rfl rfl rfl
  | some x =>
    obtain ⟨w1, w2, w3⟩ := Table.write_live h.str.tab he { x with dontGC := true }
    rw [he] at e
    simp only [w1] at e
    cases e
    exact ⟨h.ctxs, h.cur, h.gc, h.limits, h.left, h.slen, h.spow, h.small, h.count, StrWF.replace h.str he rfl rfl, h.vars, h.objects, h.handles⟩

theorem CKeep.onVM' {α : Type} {P : CS → Prop} {m : M α} (h : ∀ s x vm, P s → m s.vm = .ok (x, vm) → P { s with vm := vm }) : CKeep P (Cc.onVM m) :=
  ⟨fun s b s' hp e => by
    unfold Cc.onVM at e
    split at e
    · next hm => cases e; exact h _ _ _ hp hm
    · cases e⟩

instance : CFrame (Held a) where
  of s s' h _ _ _ _ hc hp := hp.of (by rw [h]) (by rw [h]) (by rw [h]) (by rw [h]) (by rw [h]) (by rw [h]) (by rw [h]) hc (by rw [h]) (by rw [h]) (by rw [h]) (by rw [h])
  err s e h := h.of rfl rfl rfl rfl rfl rfl rfl rfl rfl rfl rfl rfl
  next s h := by
    unfold advance
    split <;> exact h.of rfl rfl rfl rfl rfl rfl rfl rfl rfl rfl rfl rfl
  code s i w h := h.of rfl rfl rfl rfl rfl rfl rfl rfl rfl rfl rfl rfl
  add w b := by
    have hw : ∀ i, CKeep (Held a) (writeInstr i w) := fun i => ⟨fun s x s' h e => by
      unfold writeInstr at e
      split at e <;> cases e
      exact h.of rfl rfl rfl rfl rfl rfl rfl rfl rfl rfl rfl rfl⟩
    have hm : ∀ k, CKeep (Held a) (modCtx k) := fun k => ⟨fun s x s' h e => by
      unfold modCtx at e
      split at e <;> cases e
      exact h.of rfl rfl rfl rfl rfl rfl rfl rfl rfl rfl rfl rfl⟩
    have hc : CKeep (Held a) (cmod fun s => { s with write := u32 (s.write + 1) }) := CKeep.cmod' fun s h => h.of rfl rfl rfl rfl rfl rfl rfl rfl rfl rfl rfl rfl
    unfold addInstr
    refine CKeep.bind .cget fun s => ?_
    repeat' first | exact hw _ | exact hm _ | exact hc | exact held_grow | exact CKeep.pure | (intro _) | (refine CKeep.bind ?_ ?_) | split
  alloc := held_alloc
  intern t := CKeep.onVM' fun s x vm h e => h.intern e
  keep i := CKeep.onVM' fun s x vm h e => h.keepString e
  fns s l h := h.of rfl rfl rfl rfl rfl rfl rfl rfl rfl rfl rfl rfl

theorem compileTokens_held (F : FloatOps) (ts : List Token) : CKeep (Held a) (compileTokens F ts) := by
  have := script_keep (statement_keep (P := Held a) F maxDepth)
  unfold compileTokens
  exact CKeep.bind (CKeep.cmod' fun s h => h.of rfl rfl rfl rfl rfl rfl rfl rfl rfl rfl rfl rfl) fun _ => CKeep.bind this fun _ =>
    CKeep.bind (CKeep.cmod' fun s h => h.of rfl rfl rfl rfl rfl rfl rfl rfl rfl rfl rfl rfl) fun _ => CKeep.pure

theorem partiallyFinalize_held : CKeep (Held a) partiallyFinalize := by
  have hg : CKeep (Held a) generateGlobals := by
    unfold generateGlobals
    ckeep
    exact CKeep.cmod' fun s h => h.of rfl rfl rfl rfl rfl rfl rfl rfl rfl rfl rfl rfl
  unfold partiallyFinalize
  ckeep
  exact CKeep.cmod' fun s h => h.of rfl rfl rfl rfl rfl rfl rfl rfl rfl rfl rfl rfl

/-- What making a program ready does. -/
theorem partiallyFinalize_inv (wf : CodeWF s) (h : partiallyFinalize s = .ok ((), s')) :
    ∃ gs is m b, s' = { s with vm := { s.vm with globals := gs, instrs := is, instrMask := m, sbuckets := b } } ∧ CodeWF s' ∧
      (∀ i, i < s.write → is[i]? = s.vm.instrs[i]?) ∧ is[s.write]? = some 20 := by
  unfold partiallyFinalize at h
  rw [CM.cget_bind] at h
  split at h
  · obtain ⟨_, s1, h1, h2⟩ := CM.bind_inv h
    obtain ⟨gs, hs1⟩ : ∃ gs, s1 = { s with vm := { s.vm with globals := gs } } := by
      unfold generateGlobals at h1
      rw [CM.cget_bind] at h1
      cases hc : s.ctx with
      | nil => rw [hc] at h1; cases h1
      | cons c cs => rw [hc] at h1; cases h1; exact ⟨_, by rw [← hc]⟩
    have wf1 : CodeWF s1 := by rw [hs1]; exact ⟨wf.pow, wf.len, wf.write, CodeWF.str' wf.str rfl rfl, wf.ctx⟩
    rw [CM.cget_bind] at h2
    obtain ⟨_, s2, h3, h4⟩ := CM.bind_inv h2
    obtain ⟨em, d, st, c⟩ := addInstr_inv wf1 h3
    have rest := em.rest
    have e4 : s' = { s2 with write := s1.write } := by cases h4; rfl
    refine ⟨gs, s2.vm.instrs, s2.vm.instrMask, s2.vm.sbuckets, ?_, ?_, ?_, ?_⟩
    · rw [e4, rest, d, st, c, hs1]; rfl
    · rw [e4]
      exact ⟨em.wf.pow, em.wf.len, Nat.le_trans (by rw [em.write]; exact Nat.le_add_right _ _) em.wf.write, em.wf.str, em.wf.ctx⟩
    · intro i hi
      have := em.below i (by rw [hs1]; exact hi)
      rw [this, hs1]
    · have := em.code 0 _ rfl
      rw [hs1] at this; exact this
  · cases h

end Nk.Cc
