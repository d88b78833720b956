import Verif.Lemmas.StmtComp
/-!
# Compiling statements
-/
namespace Nk.Cc
open Nk.Props
variable {F : FloatOps} {H : Host}

theorem err_ne {e : String} {s s' : CS} (h : err e s = .ok ((), s')) : s'.vm.errors ≠ [] := by
  unfold err onVM at h
  split at h
  · next h1 =>
    cases h
    unfold addError at h1
    cases h1
    simp
  · cases h

theorem err_bind_ne {e : String} {f : Unit → CM β} (hf : CMono (f ())) {s s' : CS} {b : β} (h : (err e >>= f) s = .ok (b, s')) : s'.vm.errors ≠ [] := by
  obtain ⟨_, s1, h1, h2⟩ := CM.bind_inv h
  have := hf.run _ _ _ h2
  intro he
  rw [he] at this
  exact err_ne h1 (List.prefix_nil.mp this)

/-! ## `break` -/

theorem findLoop_spec {l : List CCtx} {i : Nat} (h : findLoop l = some i) : ∃ c, l[i]? = some c ∧ loopOff l = c.offset ∧
    ∀ fix, l.modify i (fun c => { c with fixups := c.fixups ++ [fix] }) = withFix [fix] l := by
  induction l generalizing i with
  | nil => cases h
  | cons c cs ih =>
    rw [findLoop] at h
    by_cases hc : c.isLoop = true
    · rw [if_pos hc] at h
      cases h
      refine ⟨c, rfl, by simp [loopOff, hc], fun fix => by simp [withFix, hc]⟩
    · rw [if_neg hc] at h
      obtain ⟨j, h1, rfl⟩ := Option.map_eq_some_iff.mp h
      obtain ⟨d, h2, h3, h4⟩ := ih h1
      refine ⟨d, by simpa using h2, by simp [loopOff, hc, h3], fun fix => by simp [withFix, hc, ← h4]⟩

theorem break_inv {rest : List Token} {s s' : CS} {t semi : Token} {r : Bool} (p : Pre s)
    (ho : offOf s.ctx + 1 < 4294967296) (hi : t.type = .kwBreak) (hse : semi.type = .semicolon)
    (ht : s.toks = t :: semi :: rest) (h : breakStmt s = .ok (r, s')) (he : s'.vm.errors = []) :
    r = true ∧ s'.toks = rest ∧ s'.depth = s.depth ∧ Plain F H s s' 1 [s.write + 3] fun _ => Break := by
  unfold breakStmt at h
  rw [CM.cget_bind] at h
  cases hc : s.ctx with
  | nil => exact absurd hc p.wf.ctx
  | cons c cs =>
  rw [hc] at h
  dsimp only at h
  rw [← hc] at h
  have h := pushRec_same (by intro a; have := @expectStmt_mono; cmono) h (he.trans p.errs.symm)
  rw [if_pos rfl] at h
  cases hf : findLoop s.ctx with
  | none =>
    rw [hf] at h
    exact absurd he (err_bind_ne (by cmono) h)
  | some i =>
  rw [hf] at h
  dsimp only at h
  split at h
  · exact absurd he (err_bind_ne (by cmono) h)
  obtain ⟨lc, q1, q2, q3⟩ := findLoop_spec hf
  rw [q1] at h
  dsimp only at h
  have m0 := moved_depth p.wf (s.depth + 1)
  have t0 : ({ s with depth := s.depth + 1 } : CS).toks = t :: semi :: rest := ht
  have c0 : ({ s with depth := s.depth + 1 } : CS).ctx = s.ctx := rfl
  generalize e0 : ({ s with depth := s.depth + 1 } : CS) = s0 at *
  have d0 : s0.depth = s.depth + 1 := by rw [← e0]
  obtain ⟨_, s1, h1, h⟩ := CM.bind_inv h
  obtain ⟨a1, a2, a3⟩ := emitInt_inv m0.grow.wf h1
  obtain ⟨_, s2, h2, h⟩ := CM.bind_inv h
  obtain ⟨b1, b2, b3⟩ := emitOp_inv a1.wf (op := 12) (by decide) h2
  rw [if_neg (by decide)] at a3 b3
  obtain ⟨fix, s3, h3, h⟩ := CM.bind_inv h
  have o2 : offOf s2.ctx = offOf s.ctx := by rw [b3, a3, c0]
  obtain ⟨rfl, c1, c2, c3, c4⟩ := jump_inv b1.wf (by omega) h3
  have em := (a1.trans b1).trans c1
  have hw2 : s2.write = s.write + 3 := by rw [(a1.trans b1).write, m0.write]; rfl
  rw [CM.cmod_bind] at h
  have c3' := c3.ctx
  rw [setOff_off, withFix_nil, b3, a3, c0] at c3'
  rw [c3', q3, hw2] at h
  have eg : Grow s0 s3 [] := (em.line (by rw [c2, b2, a2])).grow
  have es : s3.staticCount = s0.staticCount := (em.line (by rw [c2, b2, a2])).stat
  have et : s3.toks = t :: semi :: rest := by rw [(em.line (by rw [c2, b2, a2])).toks, t0]
  have ee := em.errors
  have hw3 : s3.write = s.write + 6 := by rw [c1.write, hw2]; rfl
  have w3 := c3.grow.wf
  have hcx : withFix [s.write + 3] s.ctx ≠ [] := by rw [Ne, withFix_eq_nil]; exact p.wf.ctx
  have sg : Seg s0 { s3 with ctx := withFix [s.write + 3] s.ctx } [s.write + 3] (offOf s.ctx) := by
    refine ⟨⟨⟨w3.pow, w3.len, w3.write, w3.str, hcx⟩, eg.le, eg.below, ?_, eg.lits, eg.fns, eg.stat⟩, ?_, es⟩
    · intro a ha
      rw [List.mem_singleton] at ha; subst ha
      exact ⟨by rw [m0.write]; omega, by show _ ≤ s3.write; omega⟩
    · rw [c0, setOff_off]
  have t4 : ({ s3 with ctx := withFix [s.write + 3] s.ctx } : CS).toks = t :: semi :: rest := et
  have d4 : ({ s3 with ctx := withFix [s.write + 3] s.ctx } : CS).depth = s.depth + 1 := by show s3.depth = _; rw [c2, b2, a2, d0]
  have g4 : Grow s3 { s3 with ctx := withFix [s.write + 3] s.ctx } [] :=
    ⟨sg.grow.wf, Nat.le_refl _, fun _ _ => rfl, by simp, fun _ h => h, rfl, Nat.le_refl _⟩
  have hw4 : ({ s3 with ctx := withFix [s.write + 3] s.ctx } : CS).write = s.write + 6 := hw3
  generalize ({ s3 with ctx := withFix [s.write + 3] s.ctx } : CS) = s4 at *
  rw [expectStmt_run t4 hi] at h
  obtain ⟨m5, t5, d5⟩ := moved_skip sg.grow.wf t4
  generalize skip 1 s4 = s5 at *
  rw [expectStmt_run t5 hse] at h
  obtain ⟨m6, t6, d6⟩ := moved_skip m5.grow.wf t5
  generalize skip 1 s5 = s6 at *
  obtain ⟨rfl, _, rfl⟩ := popTrue_inv h
  have o4 : offOf s4.ctx = offOf s.ctx := sg.off m0.grow.wf
  have m46 := (m5.trans m6).trans (moved_depth m6.grow.wf (s6.depth - 1))
  refine ⟨rfl, t6, by show s6.depth - 1 = _; rw [d6, d5, d4]; omega, ?_, fun K ha hh hl hn => ?_⟩
  · have := (m0.seg.trans sg).trans0 m46.seg
    rwa [List.nil_append, o4] at this
  have gg := (g4.trans0 m46.grow)
  have nin : ∀ j, j ≠ 4 → j < 6 → ∀ x ∈ toT [s.write + 3] K.T, s0.write + j ≠ x.1 + 1 := by
    intro j hj hj' x hx
    have := (mem_toT.mp hx).1
    rw [List.mem_singleton] at this
    rw [m0.write]; omega
  have hw7 : s6.write = s.write + 6 := by rw [m6.write, m5.write, hw4]
  have k1 := em.write
  have at' : ∀ j w, j ≠ 4 → j < 6 → ([7, BitVec.ofNat 32 (usub c.offset lc.offset)] ++ [BitVec.ofNat 32 12] ++ [7, jumpWord 0 s2.write, 17])[j]? = some w →
      K.I[s.write + j]? = some w := by
    intro j w h1 h2 h3
    have := em.loaded gg hl h3 (by rw [m0.write]) (by show _ ≤ s6.write; omega) (nin j h1 h2)
    rwa [m0.write] at this
  have hoc : c.offset = offOf s.ctx := by rw [hc]; rfl
  have hlp := p.loop
  rw [q2] at hlp
  have hk : usub c.offset lc.offset = offOf s.ctx - lc.offset := by rw [hoc]; unfold usub u32 U32; omega
  have hb := ha.hb
  rw [q2] at hb
  have jj := hl.jumps (s.write + 3, K.T) (by simp [toT])
  exact sim_break (k := usub c.offset lc.offset) (at' 0 _ (by decide) (by decide) rfl) (at' 1 _ (by decide) (by decide) rfl)
    (at' 2 _ (by decide) (by decide) rfl) (at' 3 _ (by decide) (by decide) rfl) jj (at' 5 _ (by decide) (by decide) rfl) ha.T (by omega)
    (by rw [hk, hb]; omega) (by omega)

/-! ## `return` -/

theorem return_inv {fd : CM (Option Nat)} (hfd : CMono fd) {e : Ex} {k : Nat} {ts rest : List Token} {s s' : CS} {t semi : Token} {r : Bool} (p : Pre s)
    (ho : offOf s.ctx + (e.size + 1) < 4294967296) (hi : t.type = .kwReturn) (hse : semi.type = .semicolon) (sx : ExSrc F k false ts e)
    (ht : s.toks = t :: ts ++ [semi] ++ rest) (hd : s.depth + 3 + 2 * k ≤ 257)
    (h : returnStmt (compileExpr F fd false) s = .ok (r, s')) (he : s'.vm.errors = []) :
    r = true ∧ s'.toks = rest ∧ s'.depth = s.depth ∧
      StPost F H s s' (e.size + 1) [] (envOf s) fun b => Eval F H b (envOf s).Γ e Return := by
  have hes := e.size_pos
  have mono := compileExpr_mono hfd F false
  unfold returnStmt at h
  have h := pushRec_same (by intro a; have := @expectStmt_mono; have := @emitReturn_mono; cmono) h (he.trans p.errs.symm)
  rw [if_pos rfl] at h
  have m0 := moved_depth p.wf (s.depth + 1)
  have t0 : ({ s with depth := s.depth + 1 } : CS).toks = t :: (ts ++ semi :: rest) := by simpa using ht
  generalize e0 : ({ s with depth := s.depth + 1 } : CS) = s0 at *
  have d0 : s0.depth = s.depth + 1 := by rw [← e0]
  rw [expectStmt_run t0 hi] at h
  obtain ⟨m1, t1, d1⟩ := moved_skip m0.grow.wf t0
  generalize skip 1 s0 = s1 at *
  have m := m0.trans m1
  have p1 := p.moved m
  have o1 : offOf s1.ctx = offOf s.ctx := by rw [m.ctx]
  obtain ⟨r1, s2, h1, h, er2⟩ := CM.bind_nil h (by intro a; have := @expectStmt_mono; have := @emitReturn_mono; cmono) he
  obtain ⟨rfl, t2, d2, g2, sim2⟩ := expr_inv (H := H) hfd p1 sx t1 (by simp [isEnd, isSubEnd, hse]) (by omega) (by omega) h1 er2
  rw [if_pos rfl] at h
  obtain ⟨_, s3, h2, h, er3⟩ := CM.bind_nil h (by intro a; have := @expectStmt_mono; cmono) he
  unfold emitReturn at h2
  rw [CM.cget_bind] at h2
  cases hfn : findFn s2.ctx with
  | none => rw [hfn] at h2; exact absurd er3 (err_ne h2)
  | some fc =>
  rw [hfn] at h2
  dsimp only at h2
  cases hfu : s2.vm.functions[fc.fnId]? with
  | none => rw [hfu] at h2; exact absurd er3 (err_ne h2)
  | some f =>
  rw [hfu] at h2
  dsimp only at h2
  have p2 := p1.seg g2 er2 (by omega)
  cases hc : s2.ctx with
  | nil => exact absurd hc p2.wf.ctx
  | cons c cs =>
  rw [hc] at h2
  dsimp only at h2
  obtain ⟨_, s4, h3, h4⟩ := CM.bind_inv h2
  obtain ⟨a1, a2, a3⟩ := emitInt_inv p2.wf h3
  obtain ⟨b1, b2, b3⟩ := emitOp_inv a1.wf (op := 19) (by decide) h4
  rw [if_neg (by decide)] at a3 b3
  have em := a1.trans b1
  have ln := em.line (b2.trans a2)
  have t3 : s3.toks = semi :: rest := by rw [ln.toks, t2]
  rw [expectStmt_run t3 hse] at h
  obtain ⟨m5, t5, d5⟩ := moved_skip ln.grow.wf t3
  generalize skip 1 s3 = s5 at *
  obtain ⟨rfl, _, rfl⟩ := popTrue_inv h
  have m6 := m5.trans (moved_depth m5.grow.wf (s5.depth - 1))
  have ec : s5.ctx = setOff (offOf s.ctx + 1) s.ctx := by
    rw [m5.ctx, b3, a3, g2.ctx, withFix_nil, o1, m.ctx]
  have grow := ((m.grow.trans0 g2.grow).trans0 ln.grow).trans0 m6.grow
  have est : s5.staticCount = s.staticCount := by rw [m5.stat, ln.stat, g2.stat, m.stat]
  have hox : offOf s5.ctx = offOf s.ctx + 1 := by rw [ec, offOf_setOff _ p.wf.ctx]
  refine ⟨rfl, t5, by show s5.depth - 1 = _; rw [d5, ln.depth, d2, d1, d0]; omega, grow, by show s5.staticCount < _; rw [est]; exact p.stat, fun _ => est, ?_, ?_⟩
  · cases hs : s.ctx with
    | nil => exact absurd hs p.wf.ctx
    | cons c0 cs0 =>
      refine ⟨c0, { c0 with offset := offOf s.ctx + 1 }, cs0, rfl, ?_, rfl, rfl, rfl, ?_, ?_, .inr ?_⟩
      · show s5.ctx = _
        rw [ec, withFix_nil, hs]
        rfl
      · show c0.offset ≤ offOf s.ctx + 1; rw [hs]; simp [offOf]
      · show offOf s.ctx + 1 ≤ c0.offset + _; rw [hs]; simp [offOf]
      · intro b l W l' W' hP
        cases hP with
        | val _ x => cases x
  · intro K ha hh hl hn
    have g56 : Grow s3 { s5 with depth := s5.depth - 1 } [] := m6.grow
    have g26 := ln.grow.trans0 g56
    have l2 : Loaded K.I s1.write s2.write s2.vm.instrs [] := hl.sub (by rw [m.write]) g26.le (fun i _ hi => g26.below i hi) (by simp) (by simp [toT])
    have a1 := ha.seg p m.seg
    have a2' := a1.seg p1 g2
    have x2 := sim2 K a1 (hh.grow g26) l2 (by rw [o1]; omega)
    have hwr := em.write
    have hle := g2.grow.le
    have mw := m.write
    have hw5 : s5.write = s3.write := m5.write
    have nin : ∀ j, ∀ x ∈ toT [] K.T, s2.write + j ≠ x.1 + 1 := by intro j x hx; simp [toT] at hx
    have i0 := em.loaded g56 hl (i := 0) rfl (by omega) (by show _ ≤ s5.write; omega) (nin 0)
    have i1 := em.loaded g56 hl (i := 1) rfl (by omega) (by show _ ≤ s5.write; omega) (nin 1)
    have i2 := em.loaded g56 hl (i := 2) rfl (by omega) (by show _ ≤ s5.write; omega) (nin 2)
    have hfa : fnArgs s2.vm.functions s2.ctx = some f.argc := by unfold fnArgs; rw [hfn]; simp [hfu]
    have hrb := a2'.rb _ hfa
    have hra := p1.ret f.argc (by
      have := hfa
      rw [g2.ctx, fnArgs_withFix, fnArgs_setOff, g2.grow.fns] at this; exact this)
    have oc : c.offset = offOf s.ctx + 1 := by
      have : offOf s2.ctx = offOf s.ctx + 1 := by rw [g2.off p1.wf, o1]
      rw [hc] at this; exact this
    have hk : usub (usub c.offset f.argc) 3 = offOf s.ctx - f.argc - 2 := by
      rw [oc]; rw [o1] at hra; unfold usub u32 U32; omega
    rw [o1] at hra
    have sv := simV_return (K := K) (h := offOf s.ctx) (h' := offOf s.ctx + 1) (q := s5.write) (k := usub (usub c.offset f.argc) 3) i0 i1 i2 (by omega)
      (by rw [hk, hrb]; omega) (by omega)
    have := x2 _ _ _ (by rw [o1]; exact sv)
    rw [o1, m.ctx, m.write] at this
    show Sim K _ s.write s5.write _ (offOf s5.ctx)
    rw [hox]
    exact this

/-! ## Expression statements -/

theorem exprStmt_inv {fd : CM (Option Nat)} (hfd : CMono fd) {e : Ex} {k n : Nat} {ts rest : List Token} {s s' : CS} {semi : Token} {r : Bool} (p : Pre s)
    (ho : offOf s.ctx + e.size < 4294967296) (hse : semi.type = .semicolon) (sx : ExSrc F k true ts e)
    (ht : s.toks = ts ++ [semi] ++ rest) (hd : s.depth + 2 + 2 * k ≤ 257)
    (h : exprStmt (compileExpr F fd true) n s = .ok (r, s')) (he : s'.vm.errors = []) :
    r = true ∧ s'.toks = rest ∧ s'.depth = s.depth - 1 ∧ Plain F H s s' e.size [] fun b => Eval F H b (envOf s).Γ e fun _ => Done := by
  have hes := e.size_pos
  have mono := compileExpr_mono hfd F true
  unfold exprStmt at h
  obtain ⟨r1, s1, h1, h, er1⟩ := CM.bind_nil h (by intro a; have := @expectStmt_mono; have := @stmtEnd_mono; cmono) he
  obtain ⟨rfl, t1, d1, g1, sim1⟩ := expr_inv (H := H) (rest := semi :: rest) hfd p sx (by simpa using ht) (by simp [isEnd, isSubEnd, hse]) hd (by omega) h1 er1
  rw [if_pos rfl, curType_bind, if_pos (by rw [t1]; exact hse)] at h
  obtain ⟨_, s2, h2, h⟩ := CM.bind_inv h
  have o1 := g1.off p.wf
  obtain ⟨em, d2, g2, t2⟩ := pop_inv g1.grow.wf (k := offOf s.ctx) (by omega) o1 h2
  have t2' : s2.toks = semi :: rest := t2.trans t1
  dsimp only at h
  rw [expectStmt_run t2' hse] at h
  obtain ⟨m3, t3, d3⟩ := moved_skip g2.grow.wf t2'
  generalize skip 1 s2 = s3 at *
  obtain ⟨rfl, rfl⟩ := stmtEnd_inv h
  have m4 := m3.trans (moved_depth m3.grow.wf (s3.depth - 1))
  have o2 : offOf s2.ctx = offOf s.ctx := g2.off g1.grow.wf
  refine ⟨rfl, t3, by show s3.depth - 1 = _; rw [d3, d2, d1], ?_, fun K ha hh hl hn => ?_⟩
  · have := (g1.trans0 g2).trans0 m4.seg
    rwa [o2] at this
  have g14 := g2.grow.trans0 m4.grow
  have l1 : Loaded K.I s.write s1.write s1.vm.instrs [] := hl.sub (Nat.le_refl _) g14.le (fun i _ hi => g14.below i hi) (by simp) (by simp [toT])
  have i0 := em.loaded m4.grow hl (i := 0) rfl g1.grow.le (by show _ ≤ s3.write; rw [m3.write]) (by simp [toT])
  have := sim1 K ha (hh.grow g14) l1 hn _ _ _ (simV_pop (h := offOf s.ctx) i0)
  show Sim K _ s.write s3.write _ _
  rw [m3.write, em.write]
  exact this

/-! ## Declarations -/

theorem allocStatic_inv {s s' : CS} {n : Nat} (hs : s.staticCount < 4294967296) (h : allocStatic s = .ok (n, s')) (he : s'.vm.errors = []) :
    n = s.staticCount ∧ s.staticCount + 1 < 4294967296 ∧
      ∃ st mk, s' = { s with staticCount := s.staticCount + 1, vm := { s.vm with statics := st, staticMask := mk } } := by
  unfold allocStatic at h
  rw [CM.cget_bind] at h
  obtain ⟨ok, s1, h1, h2⟩ := CM.bind_inv h
  have key : (ok = true ∧ ∃ st mk, s1 = { s with vm := { s.vm with statics := st, staticMask := mk } }) ∨ s1.vm.errors ≠ [] := by
    split at h1
    · dsimp only at h1
      rw [CM.cmod_bind] at h1
      split at h1
      · exact .inr (err_bind_ne (by cmono) h1)
      · split at h1
        · cases h1
        · rw [CM.cmod_bind] at h1
          obtain ⟨rfl, rfl⟩ := pure_inv h1
          exact .inl ⟨rfl, _, _, rfl⟩
    · obtain ⟨rfl, rfl⟩ := pure_inv h1
      exact .inl ⟨rfl, s1.vm.statics, s1.vm.staticMask, rfl⟩
  rcases key with ⟨rfl, st, mk, rfl⟩ | key
  · rw [if_pos rfl, CM.cmod_bind, CM.cget_bind] at h2
    dsimp only at h2
    split at h2
    · exact absurd he (err_bind_ne (by cmono) h2)
    · next hz =>
      obtain ⟨rfl, rfl⟩ := pure_inv h2
      have : u32 (s.staticCount + 1) = s.staticCount + 1 := by unfold u32 U32 at hz ⊢; omega
      refine ⟨by rw [this]; omega, by unfold u32 U32 at hz; omega, st, mk, by rw [this]⟩
  · have := CMono.run (show CMono _ by cmono) _ _ _ h2
    rw [he] at this
    exact absurd (List.prefix_nil.mp this) key

/-- A variable with the value on top of the stack. -/
theorem addVar_inv {s s' : CS} {x : Bytes} {r : Bool} {k : Nat} (p : Pre s) (hk : offOf s.ctx = k + 1) (ho : k + 2 < 4294967296)
    (h : addVariable x true true s = .ok (r, s')) (he : s'.vm.errors = []) :
    Grow s s' [] ∧ s'.toks = s.toks ∧ s'.depth = s.depth ∧ s'.staticCount < 4294967296 ∧
      ∃ c cs, s.ctx = c :: cs ∧
      ((cs = [] ∧ s'.staticCount = s.staticCount + 1 ∧ s'.write = s.write + 4 ∧
        s'.ctx = [{ c with vars := ⟨x, true, false, s.staticCount⟩ :: c.vars, offset := k }] ∧
        (∀ i w, [7, BitVec.ofNat 32 s.staticCount, 15, 11][i]? = some w → s'.vm.instrs[s.write + i]? = some w)) ∨
       (cs ≠ [] ∧ s' = { s with ctx := { c with vars := ⟨x, false, false, k⟩ :: c.vars } :: cs })) := by
  unfold addVariable at h
  rw [CM.cget_bind] at h
  cases hc : s.ctx with
  | nil => exact absurd hc p.wf.ctx
  | cons c cs =>
  rw [hc] at h
  have oc : c.offset = k + 1 := by rw [hc] at hk; exact hk
  dsimp only at h
  split at h
  · exact absurd he (err_bind_ne (by cmono) h)
  split at h
  · next hcs =>
    subst hcs
    have h : (allocStatic >>= fun pos => (do
        emitInt (BitVec.ofNat 32 pos) true; emitOp 15 true; emitOp 11 true
        consVar { name := x, isGlobal := true, noPop := false, position := pos }
        return true : CM Bool)) s = .ok (r, s') := h
    obtain ⟨pos, s1, h1, h, e1⟩ := CM.bind_nil h (by intro a; unfold consVar; cmono) he
    obtain ⟨rfl, hst, st, mk, rfl⟩ := allocStatic_inv p.stat h1 e1
    have w0 : CodeWF { s with staticCount := s.staticCount + 1, vm := { s.vm with statics := st, staticMask := mk } } :=
      ⟨p.wf.pow, p.wf.len, p.wf.write, CodeWF.str' p.wf.str rfl rfl, p.wf.ctx⟩
    have g0 : Grow s { s with staticCount := s.staticCount + 1, vm := { s.vm with statics := st, staticMask := mk } } [] :=
      ⟨w0, Nat.le_refl _, fun _ _ => rfl, by simp, fun _ h => h, rfl, Nat.le_succ _⟩
    have hw0 : ({ s with staticCount := s.staticCount + 1, vm := { s.vm with statics := st, staticMask := mk } } : CS).write = s.write := rfl
    have hc0 : ({ s with staticCount := s.staticCount + 1, vm := { s.vm with statics := st, staticMask := mk } } : CS).ctx = s.ctx := rfl
    have ht0 : ({ s with staticCount := s.staticCount + 1, vm := { s.vm with statics := st, staticMask := mk } } : CS).toks = s.toks := rfl
    have hd0 : ({ s with staticCount := s.staticCount + 1, vm := { s.vm with statics := st, staticMask := mk } } : CS).depth = s.depth := rfl
    have hs0 : ({ s with staticCount := s.staticCount + 1, vm := { s.vm with statics := st, staticMask := mk } } : CS).staticCount = s.staticCount + 1 := rfl
    generalize ({ s with staticCount := s.staticCount + 1, vm := { s.vm with statics := st, staticMask := mk } } : CS) = s1 at *
    obtain ⟨_, s2, h2, h⟩ := CM.bind_inv h
    obtain ⟨a1, a2, a3⟩ := emitInt_inv w0 h2
    obtain ⟨_, s3, h3, h⟩ := CM.bind_inv h
    obtain ⟨b1, b2, b3⟩ := emitOp_inv a1.wf (op := 15) (by decide) h3
    obtain ⟨_, s4, h4, h⟩ := CM.bind_inv h
    obtain ⟨c1, c2, c3⟩ := emitOp_inv b1.wf (op := 11) (by decide) h4
    rw [if_pos rfl] at a3 b3 c3
    have em := (a1.trans b1).trans c1
    have ln := em.line (by rw [c2, b2, a2])
    have o2 : offOf s2.ctx = k + 2 := by
      rw [a3, offOf_setOff _ (by rw [hc0, hc]; simp), hc0, hk]
      exact addInt_pos (n := 1) ho
    have e2 : s2.ctx ≠ [] := a1.wf.ctx
    have o3 : offOf s3.ctx = k + 1 := by
      rw [b3, offOf_setOff _ e2, o2]
      show ((((k + 2 : Nat) : Int) + (-1 : Int)) % 4294967296).toNat = _
      omega
    have o4 : addInt (offOf s3.ctx) (stackOffset 11) = k := by
      rw [o3]
      show ((((k + 1 : Nat) : Int) + (-1 : Int)) % 4294967296).toNat = _
      omega
    have c4 : s4.ctx = [{ c with offset := k }] := by
      rw [c3, o4, b3, a3, setOff_setOff, setOff_setOff, hc0, hc]; rfl
    unfold consVar modCtx at h
    obtain ⟨_, s5, h5, h6⟩ := CM.bind_inv h
    rw [c4] at h5
    cases h5
    obtain ⟨rfl, rfl⟩ := pure_inv h6
    have w4 := c1.wf
    refine ⟨(g0.trans0 ln.grow).trans0 ⟨⟨w4.pow, w4.len, w4.write, w4.str, by simp⟩, Nat.le_refl _, fun _ _ => rfl, by simp, fun _ h => h, rfl, Nat.le_refl _⟩,
      ln.toks.trans ht0, ln.depth.trans hd0, by show s4.staticCount < _; rw [ln.stat, hs0]; exact hst, c, [], rfl, .inl ⟨rfl, ln.stat.trans hs0, ?_, rfl, ?_⟩⟩
    · show s4.write = _; rw [em.write, hw0]; rfl
    · intro i w hw
      rw [← hw0]; exact em.code i w hw
  · next hcs =>
    obtain ⟨_, s2, h3, h4⟩ := CM.bind_inv h
    unfold modCtx at h3
    rw [hc] at h3
    cases h3
    obtain ⟨rfl, rfl⟩ := pure_inv h4
    have hp : usub c.offset 1 = k := by rw [oc]; unfold usub u32 U32; omega
    refine ⟨⟨⟨p.wf.pow, p.wf.len, p.wf.write, p.wf.str, by simp⟩, Nat.le_refl _, fun _ _ => rfl, by simp, fun _ h => h, rfl, Nat.le_refl _⟩,
      rfl, rfl, p.stat, c, cs, rfl, .inr ⟨hcs, by dsimp only; rw [hp]⟩⟩

theorem placeOf_cons (x : Bytes) (g np : Bool) (n k : Nat) (c : CCtx) (cs : List CCtx) :
    placeOf ({ c with vars := ⟨x, g, np, n⟩ :: c.vars, offset := k } :: cs) =
      fun y => if x = y then some (if g then .glob n else .loc n) else placeOf (c :: cs) y := by
  funext y
  unfold placeOf
  simp only [findCtx, findVar]
  by_cases h : x = y
  · have : strcmp x y = 0 := (strcmp_eq).mpr h
    simp [this, h]
  · have : ¬strcmp x y = 0 := fun e => h ((strcmp_eq).mp e)
    simp [this, h]

/-- A variable was declared. -/
theorem declared {s s1 s2 s' : CS} {x : Bytes} {size : Nat} {P : Nat → Rel} (p : Pre s) (g1 : Seg s s1 [] (offOf s.ctx + 1))
    (e1 : s1.vm.errors = []) (ho : offOf s.ctx + 2 < 4294967296) (hz : 2 ≤ size) {r : Bool} (h : addVariable x true true s1 = .ok (r, s2)) (e2 : s2.vm.errors = [])
    (m : Moved s2 s')
    (sim : ∀ K q h', At F H K s → Has K s1 → Loaded K.I s.write s1.write s1.vm.instrs [] → K.b + offOf s.ctx + size ≤ K.n →
      SimV K (fun v => Declare (envOf s) v) s1.write q (offOf s.ctx) h' → Sim K (P K.b) s.write q (offOf s.ctx) h') :
    StPost F H s s' size [] ((envOf s).bind x) P ∧ s2.toks = s1.toks ∧ s2.depth = s1.depth := by
  have p1 := p.seg g1 e1 (by omega)
  obtain ⟨a1, a2, a3, a4, c, cs, a5, a6⟩ := addVar_inv p1 (g1.off p.wf) ho h e2
  refine ⟨?_, a2, a3⟩
  have g := (g1.grow.trans0 a1).trans0 m.grow
  cases hs : s.ctx with
  | nil => exact absurd hs p.wf.ctx
  | cons c0 cs0 =>
  have hcc := g1.ctx
  rw [withFix_nil, hs, a5] at hcc
  have hcc : c :: cs = { c0 with offset := offOf s.ctx + 1 } :: cs0 := by rw [hcc, hs]; rfl
  injection hcc with h1 h2
  subst h1 h2
  have oc : offOf s.ctx = c0.offset := by rw [hs]; rfl
  have pl0 : ∀ o, placeOf ({ c0 with offset := o } :: cs) = placeOf s.ctx := by
    intro o
    rw [hs]; exact placeOf_setOff o (c0 :: cs)
  rcases a6 with ⟨rfl, b1, b2, b3, b4⟩ | ⟨hne, rfl⟩
  · have ev : envOf s' = (envOf s).bind x := by
      have e3 : (envOf s).g = some s.staticCount := by simp [envOf, hs]
      unfold Env.bind
      rw [e3]
      simp only [envOf, m.ctx, b3, m.stat, b1, g1.stat]
      rw [placeOf_cons]
      simp only [if_true, List.tail_cons]
      rw [pl0]
      simp [offOf, oc]
    refine ⟨g, by rw [m.stat]; exact a4, fun h => by rw [hs] at h; exact absurd rfl h, ⟨c0, { c0 with vars := ⟨x, true, false, s1.staticCount⟩ :: c0.vars, offset := offOf s.ctx }, [], hs, by rw [m.ctx, b3]; rfl, rfl, rfl, rfl, ?_, ?_, .inl ⟨?_, ev⟩⟩, ?_⟩
    · show c0.offset ≤ offOf s.ctx; omega
    · show offOf s.ctx ≤ _; omega
    · show popCount _ + c0.offset = popCount c0 + offOf s.ctx
      rw [oc]
      congr 1
    · intro K ha hh hl hn
      have g2 := a1.trans0 m.grow
      have l1 : Loaded K.I s.write s1.write s1.vm.instrs [] := hl.sub (Nat.le_refl _) g2.le (fun i _ hi => g2.below i hi) (by simp) (by simp [toT])
      have ii : ∀ i w, [7, BitVec.ofNat 32 s1.staticCount, 15, 11][i]? = some w → K.I[s1.write + i]? = some w := by
        intro i w hw
        have hlt : i < 4 := (List.getElem?_eq_some_iff.mp hw).1
        have hle := g1.grow.le
        have hmw := m.write
        exact hl.at ((m.grow.below _ (by omega)).trans (b4 i w hw)) (by omega) (by omega) (by simp [toT])
      have hst := hh.stat
      rw [m.stat, b1] at hst
      have := p1.stat
      have x := sim K (s1.write + 4) (offOf s.ctx) ha (hh.grow g2) l1 hn (simV_global (n := s1.staticCount) (by simp [envOf, hs, g1.stat]) (by omega) (by omega)
        (ii 0 _ rfl) (ii 1 _ rfl) (ii 2 _ rfl) (ii 3 _ rfl) (by omega))
      have o' : offOf s'.ctx = offOf s.ctx := by rw [m.ctx, b3]; rfl
      rw [o', m.write, b2]
      exact x
  · have ev : envOf s' = (envOf s).bind x := by
      have e3 : (envOf s).g = none := by simp [envOf, hs, hne]
      unfold Env.bind
      rw [e3]
      simp only [envOf, m.ctx, m.stat]
      have := placeOf_cons x false false (offOf s.ctx) (offOf s.ctx + 1) { c0 with offset := offOf s.ctx + 1 } cs
      rw [pl0] at this
      simp only [List.tail_cons, hne, if_false, offOf, Env.mk.injEq, true_and]
      exact ⟨this, trivial⟩
    refine ⟨g, by rw [m.stat]; exact a4, fun _ => by rw [m.stat]; exact g1.stat, ⟨c0, { c0 with vars := ⟨x, false, false, offOf s.ctx⟩ :: c0.vars, offset := offOf s.ctx + 1 }, cs, hs, by rw [m.ctx, withFix_nil], rfl, rfl, rfl, ?_, ?_, .inl ⟨?_, ev⟩⟩, ?_⟩
    · show c0.offset ≤ offOf s.ctx + 1; omega
    · show offOf s.ctx + 1 ≤ _; omega
    · show popCount _ + c0.offset = popCount c0 + (offOf s.ctx + 1)
      rw [oc]
      simp only [popCount, List.filter, Bool.not_false, Bool.and_self, List.length_cons]
      omega
    · intro K ha hh hl hn
      have g2 := a1.trans0 m.grow
      have l1 : Loaded K.I s.write s1.write s1.vm.instrs [] := hl.sub (Nat.le_refl _) g2.le (fun i _ hi => g2.below i hi) (by simp) (by simp [toT])
      have x := sim K s1.write (offOf s.ctx + 1) ha (hh.grow g2) l1 hn (simV_local (by simp [envOf, hs, hne]))
      have o' : offOf s'.ctx = offOf s.ctx + 1 := by rw [m.ctx]; rfl
      rw [o', m.write]
      exact x

/-- The first tokens of a declaration. -/
theorem declHead {ce : CM Bool} (hce : CMono ce) {s s' : CS} {r : Bool} {v x : Token} {ts : List Token} (p : Pre s) (hv : v.type = .kwVar) (hx : x.type = .identifier)
    (ht : s.toks = v :: x :: ts) (h : varDecl ce s = .ok (r, s')) (he : s'.vm.errors = []) :
    ∃ s1, Moved s s1 ∧ s1.toks = ts ∧ s1.depth = s.depth + 1 ∧
      (if typeOf ts = .assignment then
        expectStmt .assignment (do
          if ← ce then do
            let _ ← addVariable x.str true true
            expectStmt .semicolon do
              popRec
              return true
          else do
            popRec
            return false)
       else do
        let _ ← addVariable x.str false true
        expectStmt .semicolon do
          popRec
          return true : CM Bool) s1 = .ok (r, s') := by
  unfold varDecl at h
  have h := pushRec_same (by intro a; have := @expectStmt_mono; have := @addVariable_mono; cmono) h (he.trans p.errs.symm)
  rw [if_pos rfl] at h
  have m0 := moved_depth p.wf (s.depth + 1)
  have t0 : ({ s with depth := s.depth + 1 } : CS).toks = v :: x :: ts := ht
  generalize e0 : ({ s with depth := s.depth + 1 } : CS) = s0 at *
  have d0 : s0.depth = s.depth + 1 := by rw [← e0]
  rw [expectStmt_run t0 hv] at h
  obtain ⟨m1, t1, d1⟩ := moved_skip m0.grow.wf t0
  generalize skip 1 s0 = s1 at *
  rw [curType_bind, if_neg (by rw [t1, typeOf_cons]; simpa using hx)] at h
  have hcs : curString s1 = .ok (x.str, s1) := by
    unfold curString
    rw [CM.cget_bind, t1]; rfl
  rw [CM.bind_ok hcs, expectStmt_run t1 hx] at h
  obtain ⟨m2, t2, d2⟩ := moved_skip m1.grow.wf t1
  generalize skip 1 s1 = s2 at *
  rw [curType_bind, t2] at h
  exact ⟨s2, (m0.trans m1).trans m2, t2, by rw [d2, d1, d0], h⟩

theorem decl_inv {fd : CM (Option Nat)} (hfd : CMono fd) {e : Ex} {k : Nat} {ts rest : List Token} {s s' : CS} {v x a semi : Token} {r : Bool} (p : Pre s)
    (ho : offOf s.ctx + (e.size + 1) < 4294967296) (hv : v.type = .kwVar) (hx : x.type = .identifier) (ha : a.type = .assignment)
    (hse : semi.type = .semicolon) (sx : ExSrc F k false ts e) (ht : s.toks = v :: x :: a :: ts ++ [semi] ++ rest) (hd : s.depth + 3 + 2 * k ≤ 257)
    (h : varDecl (compileExpr F fd false) s = .ok (r, s')) (he : s'.vm.errors = []) :
    r = true ∧ s'.toks = rest ∧ s'.depth = s.depth ∧
      StPost F H s s' (e.size + 1) [] ((envOf s).bind x.str) fun b => Eval F H b (envOf s).Γ e fun v => Declare (envOf s) v := by
  have hes := e.size_pos
  have mono := compileExpr_mono hfd F false
  obtain ⟨s1, m1, t1, d1, h⟩ := declHead mono p hv hx (ts := a :: (ts ++ semi :: rest)) (by simpa using ht) h he
  rw [if_pos (by exact ha), expectStmt_run t1 ha] at h
  obtain ⟨m2, t2, d2⟩ := moved_skip m1.grow.wf t1
  generalize skip 1 s1 = s2 at *
  have m := m1.trans m2
  have p2 := p.moved m
  have o2 : offOf s2.ctx = offOf s.ctx := by rw [m.ctx]
  obtain ⟨r1, s3, h1, h, er3⟩ := CM.bind_nil h (by intro a; have := @expectStmt_mono; have := @addVariable_mono; cmono) he
  obtain ⟨rfl, t3, d3, g3, sim3⟩ := expr_inv (H := H) hfd p2 sx t2 (by simp [isEnd, isSubEnd, hse]) (by omega) (by omega) h1 er3
  rw [if_pos rfl] at h
  obtain ⟨r2, s4, h2, h, er4⟩ := CM.bind_nil h (by intro a; have := @expectStmt_mono; cmono) he
  have g : Seg s s3 [] (offOf s.ctx + 1) := by have := m.seg.trans g3; rwa [List.nil_append, o2] at this
  obtain ⟨w4, -⟩ := addVar_inv (p2.seg g3 er3 (by omega)) (g3.off p2.wf) (by omega) h2 er4
  have ft : s4.toks = s3.toks ∧ s4.depth = s3.depth := by
    obtain ⟨-, a, b, -⟩ := addVar_inv (p2.seg g3 er3 (by omega)) (g3.off p2.wf) (by omega) h2 er4
    exact ⟨a, b⟩
  have t4 : s4.toks = semi :: rest := by rw [ft.1, t3]
  rw [expectStmt_run t4 hse] at h
  obtain ⟨m5, t5, d5⟩ := moved_skip w4.wf t4
  generalize skip 1 s4 = s5 at *
  obtain ⟨rfl, _, rfl⟩ := popTrue_inv h
  have m6 := m5.trans (moved_depth m5.grow.wf (s5.depth - 1))
  refine ⟨rfl, t5, by show s5.depth - 1 = _; rw [d5, ft.2, d3, d2, d1]; omega, (declared (H := H) p g er3 (by omega) (by omega) h2 er4 m6 ?_).1⟩
  intro K q h' at' hh hl hn hk
  have := sim3 K (at'.seg p m.seg) hh (by rw [m.write]; exact hl) (by rw [o2]; omega) _ q h' (by rw [o2]; exact hk)
  rwa [o2, m.ctx, m.write] at this

/-- A declaration without a value is one with the value zero. -/
theorem addVar_zero {s s' : CS} {x : Bytes} {r : Bool} (p : Pre s) (h : addVariable x false true s = .ok (r, s')) (he : s'.vm.errors = []) :
    ∃ s1, emitInt 0 true s = .ok ((), s1) ∧ addVariable x true true s1 = .ok (r, s') := by
  unfold addVariable at h
  rw [CM.cget_bind] at h
  cases hc : s.ctx with
  | nil => exact absurd hc p.wf.ctx
  | cons c cs =>
  rw [hc] at h
  dsimp only at h
  split at h
  · exact absurd he (err_bind_ne (by cmono) h)
  next hr =>
  split at h
  · next hcs =>
    subst hcs
    obtain ⟨_, s1, h1, h2⟩ := CM.bind_inv h
    obtain ⟨a1, a2, a3⟩ := emitInt_inv p.wf h1
    rw [if_pos rfl, hc] at a3
    refine ⟨s1, h1, ?_⟩
    unfold addVariable
    rw [CM.cget_bind, a3]
    dsimp only [setOff]
    rw [if_neg hr, if_pos rfl]
    exact h2
  · next hcs =>
    obtain ⟨_, s1, h1, h2⟩ := CM.bind_inv h
    obtain ⟨a1, a2, a3⟩ := emitInt_inv p.wf h1
    rw [if_pos rfl, hc] at a3
    refine ⟨s1, h1, ?_⟩
    unfold addVariable
    rw [CM.cget_bind, a3]
    dsimp only [setOff]
    rw [if_neg hr, if_neg hcs]
    exact h2

theorem decl0_inv {ce : CM Bool} (mono : CMono ce) {rest : List Token} {s s' : CS} {v x semi : Token} {r : Bool} (p : Pre s)
    (ho : offOf s.ctx + 2 < 4294967296) (hv : v.type = .kwVar) (hx : x.type = .identifier) 
    (hse : semi.type = .semicolon) (ht : s.toks = v :: x :: semi :: rest)
    (h : varDecl ce s = .ok (r, s')) (he : s'.vm.errors = []) :
    r = true ∧ s'.toks = rest ∧ s'.depth = s.depth ∧
      StPost F H s s' 2 [] ((envOf s).bind x.str) fun _ => Declare (envOf s) (.int 0) := by
  obtain ⟨s1, m, t1, d1, h⟩ := declHead mono p hv hx ht h he
  rw [if_neg (by rw [typeOf_cons, hse]; decide)] at h
  have p1 := p.moved m
  have o1 : offOf s1.ctx = offOf s.ctx := by rw [m.ctx]
  obtain ⟨r2, s4, h2, h, er4⟩ := CM.bind_nil h (by intro a; have := @expectStmt_mono; cmono) he
  obtain ⟨s3, h3, h4⟩ := addVar_zero p1 h2 er4
  obtain ⟨a1, a2, a3⟩ := emitInt_inv p1.wf h3
  rw [if_pos rfl, o1, show addInt (offOf s.ctx) 1 = offOf s.ctx + 1 from addInt_pos (n := 1) (by omega)] at a3
  have er3 : s3.vm.errors = [] := a1.errors.trans p1.errs
  have g3 := a1.seg a2 a3
  have g : Seg s s3 [] (offOf s.ctx + 1) := by have := m.seg.trans g3; rwa [List.nil_append] at this
  obtain ⟨w4, ft1, ft2, -⟩ := addVar_inv (p1.seg g3 er3 (by omega)) (g3.off p1.wf) (by omega) h4 er4
  have t4 : s4.toks = semi :: rest := by rw [ft1, (a1.line a2).toks, t1]
  rw [expectStmt_run t4 hse] at h
  obtain ⟨m5, t5, d5⟩ := moved_skip w4.wf t4
  generalize skip 1 s4 = s5 at *
  obtain ⟨rfl, _, rfl⟩ := popTrue_inv h
  have m6 := m5.trans (moved_depth m5.grow.wf (s5.depth - 1))
  refine ⟨rfl, t5, by show s5.depth - 1 = _; rw [d5, ft2, a2, d1]; omega, (declared (H := H) p g er3 (by omega) (by omega) h4 er4 m6 ?_).1⟩
  intro K q h' at' hh hl hn hk
  have hw3 : s3.write = s.write + 2 := by rw [a1.write, m.write]; rfl
  have c0 := hl.at (a1.code 0 _ rfl) (by rw [m.write]; omega) (by rw [m.write]; omega) (by simp)
  have c1 := hl.at (a1.code 1 _ rfl) (by rw [m.write]; omega) (by rw [m.write]; omega) (by simp)
  rw [m.write] at c0 c1
  exact sim_zero c0 c1 (by omega) (by rw [← hw3]; exact hk)

/-! ## Blocks -/

/-- All of the statements in a list. -/
def Sts.All (P : St → Prop) : Sts → Prop
  | .nil => True
  | .cons a as => P a ∧ as.All P

theorem StPost.dead {s s1 : CS} {size : Nat} {fx : List Nat} {E E' : Env} {P : Nat → Rel} (h : StPost F H s s1 size fx E P) (hd : Dead P) :
    StPost F H s s1 size fx E' P := by
  obtain ⟨c, c', cs, a1, a2, a3, a4, a5, a6, a7, _⟩ := h.ctx
  exact ⟨h.grow, h.stat, h.glob, ⟨c, c', cs, a1, a2, a3, a4, a5, a6, a7, .inr hd⟩, h.sim⟩

theorem blockLoop_inv {st : CM Bool} (hst : CMono st) : ∀ (ss : Sts), ss.All (Works F H st) → ∀ {n d : Nat} {ts rest : List Token} {s s' : CS} {r : Bool}, Pre s →
    offOf s.ctx + ss.size < 4294967296 → Srcs F d ts ss → s.toks = ts ++ rest → (typeOf rest = .curlyClose ∨ typeOf rest = .invalid) →
    s.depth + d ≤ 257 → blockLoop st n s = .ok (r, s') → s'.vm.errors = [] →
    r = true ∧ s'.toks = rest ∧ s'.depth = s.depth + ss.leak ∧ ∃ fx, (ss.breaks = false → fx = []) ∧ StPost F H s s' ss.size fx (ss.bind (envOf s)) fun b => ss.exec F H b (envOf s)
  | .nil, _, n, d, ts, rest, s, s', r, p, ho, src, ht, hr, hd, h, he => by
    cases src
    cases n with
    | zero => cases h
    | succ n =>
    rw [blockLoop, curType_bind, if_neg (by rw [ht, List.nil_append]; rcases hr with hr | hr <;> simp [hr])] at h
    obtain ⟨rfl, rfl⟩ := pure_inv h
    exact ⟨rfl, ht, rfl, [], fun _ => rfl, Plain.post ⟨.refl p.wf, fun K _ _ _ _ => sim_done⟩ p⟩
  | .cons a as, w, n, d, ts, rest, s, s', r, p, ho, src, ht, hr, hd, h, he => by
    obtain ⟨w1, w2⟩ := w
    cases src with
    | @cons _ ts1 _ us _ s1 s2 =>
    have hlk := src_leak s1
    cases n with
    | zero => cases h
    | succ n =>
    obtain ⟨t, us', e1, e2, e3, e4⟩ := src_start s1
    rw [blockLoop, curType_bind, if_pos (by rw [ht, e1]; exact ⟨e2, e3⟩)] at h
    have mb := @blockLoop_mono
    obtain ⟨r1, sa, h1, h2, ea⟩ := CM.bind_nil h (by intro a; cmono) he
    simp only [Sts.size] at ho
    obtain ⟨rfl, t1, d1, f1, hb1, post1⟩ := w1 d ts1 (us ++ rest) s sa r1 p (by omega) s1 (by rw [ht, List.append_assoc]) (fun _ => by
      cases s2 with
      | nil => rw [List.nil_append]; rcases hr with hr | hr <;> simp [hr]
      | cons s2 _ =>
        obtain ⟨t, us', e1, e2, e3, e4⟩ := src_start s2
        rw [e1]; exact e4) hd h1 ea
    rw [if_pos rfl] at h2
    have p1 := post1.pre p ea
    obtain ⟨-, -, -, k4, -, -⟩ := post1.ctx' p
    obtain ⟨rfl, t2, d2, f2, hb2, post2⟩ := blockLoop_inv hst as w2 p1 (by omega) s2 t1 hr (by omega) h2 he
    refine ⟨rfl, t2, by rw [d2, d1]; simp only [Sts.leak]; omega, f1 ++ f2, ?_, ?_⟩
    · intro hb
      simp only [Sts.breaks, Bool.or_eq_false_iff] at hb
      rw [hb1 hb.1, hb2 hb.2]; rfl
    · have post := post1.seq (Q := fun b => as.exec F H b (a.bind (envOf s))) p post2 (fun e => by rw [e])
      obtain ⟨_, _, _, _, _, _, _, _, _, _, ⟨_, ee⟩ | dd⟩ := post1.ctx
      · rw [ee] at post; exact post
      · refine post.dead fun b l W l' W' hx => ?_
        cases hx with
        | next h _ => exact dd _ _ _ _ _ h
        | stop h hn => exact hn rfl

/-- Popping the context of a scope. -/
theorem scope_post {s s2 s3 : CS} {size : Nat} {fx : List Nat} {E : Env} {P : Nat → Rel} (p : Pre s)
    (post : StPost F H { s with ctx := inCtx s.ctx :: s.ctx } s2 size fx E P) (ho : offOf s.ctx + size < 4294967296) (h3 : popCtx s2 = .ok ((), s3)) :
    s3.toks = s2.toks ∧ s3.depth = s2.depth ∧ s3.vm.errors = s2.vm.errors ∧ Plain F H s s3 (size + 1) fx fun b => Scope (P b) := by
  obtain ⟨c, c', cs, a1, a2, a3, a4, a5, a6, a7, a8⟩ := post.ctx
  cases a1
  have hcs : withFix fx s.ctx ≠ [] := by rw [Ne, withFix_eq_nil]; exact p.wf.ctx
  obtain ⟨b1, b2, b3, b4, b5, b6, b7⟩ := popCtx_inv post.grow.wf a2 hcs h3
  have g : Grow s s3 fx := by
    have g0 : Grow s { s with ctx := inCtx s.ctx :: s.ctx } [] :=
      ⟨p.inner.wf, Nat.le_refl _, fun _ _ => rfl, by simp, fun _ h => h, rfl, Nat.le_refl _⟩
    exact (g0.trans post.grow).trans0 b6
  refine ⟨b3, b2, b5, ⟨g, by rw [b1, setOff_off], b4.trans (post.glob (by exact p.wf.ctx))⟩, fun K ha hh hl hn => ?_⟩
  have a : At F H K { s with ctx := inCtx s.ctx :: s.ctx } := ⟨ha.f, ha.h, ha.T, ha.hb, fun a hx => ha.rb a (by rw [← fnArgs_in]; exact hx)⟩
  have l1 : Loaded K.I s.write s2.write s2.vm.instrs (toT fx K.T) := hl.sub (Nat.le_refl _) b6.le (fun i _ hi => b6.below i hi)
    (fun x hx => hx) (fun x hx hn => absurd hx hn)
  have x := post.sim K a (hh.grow b6) l1 (by show K.b + offOf s.ctx + size ≤ K.n; omega)
  have e0 : offOf s2.ctx = c'.offset := by rw [a2]; rfl
  rw [e0] at x
  have a6' : offOf s.ctx ≤ c'.offset := a6
  have a7' : c'.offset ≤ offOf s.ctx + size := a7
  refine sim_popped (k := popCount c') x ?_ ?_ a6 (by omega) (by omega)
  · rcases b7 with ⟨b7, b8⟩ | ⟨b7, b8, b9, b10, b11⟩
    · exact .inl ⟨b7, b8⟩
    · have nf : ∀ j, ∀ x ∈ toT fx K.T, s2.write + j ≠ x.1 + 1 := fun j x hx => by
        have := post.grow.fix x.1 (mem_toT.mp hx).1; omega
      have := post.grow.le
      have hsw : ({ s with ctx := inCtx s.ctx :: s.ctx } : CS).write = s.write := rfl
      rw [hsw] at this
      exact .inr ⟨b7, b8, hl.at b9 (by omega) (by omega) (nf 0), hl.at b10 (by omega) (by omega) (nf 1),
        hl.at b11 (by omega) (by omega) (nf 2)⟩
  · rcases a8 with ⟨a8, _⟩ | a8
    · left
      have e1 : popCount (inCtx s.ctx) = 0 := rfl
      have e2 : (inCtx s.ctx).offset = offOf s.ctx := rfl
      show popCount c' + offOf s.ctx = _
      omega
    · exact .inr (a8 K.b)

theorem block_inv {st : CM Bool} (hst : CMono st) {ss : Sts} (w : ss.All (Works F H st)) {d : Nat} {ts rest : List Token} {s s' : CS} {o c : Token} {r : Bool}
    (p : Pre s) (ho : offOf s.ctx + ss.size < 4294967296) (hpo : o.type = .curlyOpen) (hpc : c.type = .curlyClose) (src : Srcs F d ts ss)
    (ht : s.toks = o :: ts ++ [c] ++ rest) (hd : s.depth + 1 + d ≤ 257) (h : block st s = .ok (r, s')) (he : s'.vm.errors = []) :
    r = true ∧ s'.toks = rest ∧ s'.depth = s.depth + ss.leak ∧ ∃ fx, (ss.breaks = false → fx = []) ∧ Plain F H s s' (ss.size + 1) fx fun b => Scope (ss.exec F H b (envOf s).inner) := by
  have mb := @blockLoop_mono
  unfold block at h
  rw [CM.cget_bind] at h
  have h := pushRec_same (by intro a; have := @expectStmt_mono; cmono) h (he.trans p.errs.symm)
  rw [if_pos rfl] at h
  have m0 := moved_depth p.wf (s.depth + 1)
  have t0 : ({ s with depth := s.depth + 1 } : CS).toks = o :: (ts ++ c :: rest) := by simpa using ht
  generalize e0 : ({ s with depth := s.depth + 1 } : CS) = s0 at *
  have d0 : s0.depth = s.depth + 1 := by rw [← e0]
  rw [expectStmt_run t0 hpo] at h
  obtain ⟨m1, t1, d1⟩ := moved_skip m0.grow.wf t0
  generalize skip 1 s0 = s1 at *
  have m := m0.trans m1
  have p1 := p.moved m
  have o1 : offOf s1.ctx = offOf s.ctx := by rw [m.ctx]
  have ev1 : envOf s1 = envOf s := m.seg.env
  rw [CM.bind_ok (pushCtx_eq s1), CM.cget_bind] at h
  obtain ⟨r1, s2, h1, h, e2⟩ := CM.bind_nil h (by intro a; have := @expectStmt_mono; cmono) he
  obtain ⟨rfl, t2, d2, fx, hbr, post⟩ := blockLoop_inv hst ss w p1.inner (by show offOf s1.ctx + _ < _; omega) src t1 (.inl hpc)
    (by show s1.depth + d ≤ _; omega) h1 e2
  rw [envOf_inner p1.wf, ev1] at post
  rw [if_pos rfl] at h
  obtain ⟨_, s3, h3, h4, e3⟩ := CM.bind_nil h (by intro a; have := @expectStmt_mono; cmono) he
  obtain ⟨t3, d3, _, pl⟩ := scope_post p1 post (by omega) h3
  have t3' : s3.toks = c :: rest := t3.trans t2
  rw [expectStmt_run t3' hpc] at h4
  obtain ⟨m4, t4, d4⟩ := moved_skip pl.seg.grow.wf t3'
  have hi4 : (skip 1 s3).vm.instrs = s3.vm.instrs := by obtain ⟨a, b, c, e⟩ := skip_readTo 1 s3; rw [e]
  generalize skip 1 s3 = s4 at *
  obtain ⟨_, s5, h5, h6⟩ := CM.bind_inv h4
  have : s5 = s4 := by
    unfold sameCtx at h5
    rw [CM.cget_bind] at h5
    split at h5
    · cases h5; rfl
    · cases h5
  subst this
  obtain ⟨rfl, _, rfl⟩ := popTrue_inv h6
  have d2' : s2.depth = s1.depth + ss.leak := d2
  refine ⟨rfl, t4, by show s5.depth - 1 = _; rw [d4, d3, d2', d1, d0]; omega, fx, hbr, pl.moved m p (m4.trans (moved_depth m4.grow.wf (s5.depth - 1))) hi4⟩

/-! ## All statements -/

theorem statement_rec {n : Nat} {s s' : CS} {r : Bool} (p : Pre s) (h : statement F (n + 1) s = .ok (r, s')) (he : s'.vm.errors = []) :
    (match typeOf s.toks with
    | .invalid => do
      err "Ran out of tokens to parse."
      return false
    | .kwVar => varDecl (compileExpr F (functionDef (statement F n) true) false)
    | .kwReturn => returnStmt (compileExpr F (functionDef (statement F n) true) false)
    | .curlyOpen => do stmtEnd s.ctx.length (← block (statement F n))
    | .kwIf => do stmtEnd s.ctx.length (← ifStmt (statement F n) (compileExpr F (functionDef (statement F n) true) false))
    | .kwWhile => do stmtEnd s.ctx.length (← whileStmt (statement F n) (compileExpr F (functionDef (statement F n) true) false))
    | .kwDo => do stmtEnd s.ctx.length (← doStmt (statement F n) (compileExpr F (functionDef (statement F n) true) false))
    | .kwFor => do stmtEnd s.ctx.length (← forStmt F (statement F n) (compileExpr F (functionDef (statement F n) true) false)
        (compileNoEmit F (functionDef (statement F n) true) true))
    | .kwBreak => do stmtEnd s.ctx.length (← breakStmt)
    | .kwFunction => do
      let p ← peekType
      if p = .identifier then do
        let r ← functionDef (statement F n) false
        stmtEnd s.ctx.length r.isSome
      else exprStmt (compileExpr F (functionDef (statement F n) true) true) s.ctx.length
    | _ => exprStmt (compileExpr F (functionDef (statement F n) true) true) s.ctx.length : CM Bool) { s with depth := s.depth + 1 } = .ok (r, s') := by
  have h0 : statementBody F (statement F n) s = .ok (r, s') := h
  unfold statementBody at h0
  rw [CM.cget_bind] at h0
  have ms := statement_mono F n
  have hf := functionDef_mono ms true
  have hf2 := functionDef_mono ms false
  have he0 := compileExpr_mono hf F false
  have he2 := compileExpr_mono hf F true
  have hi := compileNoEmit_mono hf F true
  have h1 := block_mono ms
  have h2 := ifStmt_mono ms he0
  have h3 := whileStmt_mono ms he0
  have h4 := doStmt_mono ms he0
  have h5 := forStmt_mono ms he0 hi F
  have h6 := varDecl_mono he0
  have h7 := returnStmt_mono he0
  have h8 := exprStmt_mono he2 s.ctx.length
  have h1 := pushRec_same (by intro a; cmono) h0 (he.trans p.errs.symm)
  rw [if_pos rfl, curType_bind] at h1
  exact h1

/-- Ending a statement. -/
theorem ended {s s' : CS} {m : CM Bool} {n : Nat} {r : Bool} (h : (m >>= fun r => stmtEnd n r) s = .ok (r, s')) (he : s'.vm.errors = [])
    (hm : ∀ r s1, m s = .ok (r, s1) → s1.vm.errors = [] → r = true) :
    ∃ s1, m s = .ok (true, s1) ∧ s1.vm.errors = [] ∧ r = true ∧ s' = { s1 with depth := s1.depth - 1 } := by
  obtain ⟨r1, s2, h1, h2, e2⟩ := CM.bind_nil h (by intro a; have := @stmtEnd_mono; cmono) he
  obtain rfl := hm _ _ h1 e2
  obtain ⟨rfl, rfl⟩ := stmtEnd_inv h2
  exact ⟨s2, h1, e2, rfl, rfl⟩

theorem Plain.wrap {s s1 : CS} {size : Nat} {fx : List Nat} {P : Nat → Rel} (p : Pre s) (h : Plain F H { s with depth := s.depth + 1 } s1 size fx P) :
    StPost F H s { s1 with depth := s1.depth - 1 } size fx (envOf s) P :=
  (h.moved (moved_depth p.wf (s.depth + 1)) p (moved_depth h.seg.grow.wf (s1.depth - 1)) rfl).post p

theorem StPost.wrap {s s1 : CS} {size : Nat} {fx : List Nat} {E : Env} {P : Nat → Rel} (p : Pre s) (h : StPost F H { s with depth := s.depth + 1 } s1 size fx E P) :
    StPost F H s s1 size fx E P :=
  ⟨(moved_depth p.wf (s.depth + 1)).grow.trans h.grow, h.stat, h.glob, h.ctx, fun K a b c d => h.sim K ⟨a.f, a.h, a.T, a.hb, a.rb⟩ b c d⟩

mutual
/-- The compiler compiles every statement to code that does what the statement means. -/
theorem works : ∀ (S : St) (n : Nat), Works F H (statement F n) S
  | S, 0 => fun d ts rest s s' r p ho src ht hopen hd h he => by cases h
  | .expr e, n + 1 => fun d ts rest s s' r p ho src ht hopen hd h he => by
    have h := statement_rec p h he
    cases src with
    | @expr _ k ts _ semi sx hse hk =>
    obtain ⟨t, us, rfl, hx⟩ := exSrc_start sx
    have hty : typeOf s.toks = t.type := by rw [ht]; rfl
    rw [hty] at h
    have h : exprStmt (compileExpr F (functionDef (statement F n) true) true) s.ctx.length { s with depth := s.depth + 1 } = .ok (r, s') := by
      revert h hx
      cases t.type <;> intro h hx <;> first | exact h | (cases hx)
    have p0 := p.moved (moved_depth p.wf (s.depth + 1))
    obtain ⟨rfl, q2, q3, q4⟩ := exprStmt_inv (H := H) (functionDef_mono (statement_mono F n) true) p0 ho hse sx ht (by show s.depth + 1 + 2 + 2 * k ≤ _; omega) h he
    refine ⟨rfl, q2, by rw [q3]; simp [St.leak], [], fun _ => rfl, ?_⟩
    have := q4.post p0
    exact this.wrap p
  | .decl x e, n + 1 => fun d ts rest s s' r p ho src ht hopen hd h he => by
    have h := statement_rec p h he
    cases src with
    | @decl _ k ts _ v xt a semi hv hx ha sx hse hk =>
    rw [show typeOf s.toks = .kwVar by rw [ht]; exact hv] at h
    have p0 := p.moved (moved_depth p.wf (s.depth + 1))
    obtain ⟨rfl, q2, q3, q4⟩ := decl_inv (H := H) (functionDef_mono (statement_mono F n) true) p0 ho hv hx ha hse sx ht (by show s.depth + 1 + _ + _ ≤ _; omega) h he
    exact ⟨rfl, q2, q3, [], fun _ => rfl, q4.wrap p⟩
  | .decl0 x, n + 1 => fun d ts rest s s' r p ho src ht hopen hd h he => by
    have h := statement_rec p h he
    cases src with
    | @decl0 _ v xt semi hv hx hse hk =>
    rw [show typeOf s.toks = .kwVar by rw [ht]; exact hv] at h
    have p0 := p.moved (moved_depth p.wf (s.depth + 1))
    obtain ⟨rfl, q2, q3, q4⟩ := decl0_inv (H := H) (compileExpr_mono (functionDef_mono (statement_mono F n) true) F false) p0 ho hv hx hse ht h he
    exact ⟨rfl, q2, q3, [], fun _ => rfl, q4.wrap p⟩
  | .block ss, n + 1 => fun d ts rest s s' r p ho src ht hopen hd h he => by
    have h := statement_rec p h he
    cases src with
    | @block d ts _ o c hpo hpc src =>
    rw [show typeOf s.toks = .curlyOpen by rw [ht]; exact hpo] at h
    have p0 := p.moved (moved_depth p.wf (s.depth + 1))
    have ho : offOf s.ctx + (ss.size + 1) < 4294967296 := ho
    have key := fun r s1 => block_inv (H := H) (r := r) (s' := s1) (statement_mono F n) (worksL ss n) p0 (by show offOf s.ctx + _ < _; omega) hpo hpc src ht
      (by show s.depth + 1 + 1 + _ ≤ _; omega)
    obtain ⟨s1, h1, e1, rfl, rfl⟩ := ended h he (fun r s1 h e => (key r s1 h e).1)
    obtain ⟨-, q2, q3, fx, hbr, q4⟩ := key _ _ h1 e1
    exact ⟨rfl, q2, by show s1.depth - 1 = _; rw [q3]; show s.depth + 1 + _ - 1 = _; simp only [St.leak]; omega, fx, hbr, q4.wrap p⟩
  | .ifThen e a, n + 1 => fun d ts rest s s' r p ho src ht hopen hd h he => by
    have h := statement_rec p h he
    cases src with
    | @ifThen d k ts _ us _ i o c hi hpo hpc sx hk src =>
    rw [show typeOf s.toks = .kwIf by rw [ht]; exact hi] at h
    have p0 := p.moved (moved_depth p.wf (s.depth + 1))
    have key := fun r s1 => ifThen_inv (H := H) (r := r) (s' := s1) (rest := rest) (statement_mono F n) (functionDef_mono (statement_mono F n) true) (works a n) p0 ho
      hi hpo hpc sx hk src (hopen rfl) (by simpa using ht) (by show s.depth + 1 + 1 + _ ≤ _; omega)
    obtain ⟨s1, h1, e1, rfl, rfl⟩ := ended h he (fun r s1 h e => (key r s1 h e).1)
    obtain ⟨-, q2, q3, fx, hbr, q4⟩ := key _ _ h1 e1
    exact ⟨rfl, q2, by show s1.depth - 1 = _; rw [q3]; show s.depth + 1 + _ - 1 = _; simp only [St.leak]; omega, fx, hbr, q4.wrap p⟩
  | .ifElse e a b, n + 1 => fun d ts rest s s' r p ho src ht hopen hd h he => by
    have h := statement_rec p h he
    cases src with
    | @ifElse d k ts _ us _ ws _ i o c el hi hpo hpc sx hk src hno hel src2 =>
    rw [show typeOf s.toks = .kwIf by rw [ht]; exact hi] at h
    have p0 := p.moved (moved_depth p.wf (s.depth + 1))
    have key := fun r s1 => ifElse_inv (H := H) (r := r) (s' := s1) (rest := rest) (statement_mono F n) (functionDef_mono (statement_mono F n) true) (works a n)
      (works b n) p0 ho hi hpo hpc sx hk src hno hel src2 hopen (by simpa using ht) (by show s.depth + 1 + 1 + _ ≤ _; omega)
    obtain ⟨s1, h1, e1, rfl, rfl⟩ := ended h he (fun r s1 h e => (key r s1 h e).1)
    obtain ⟨-, q2, q3, fx, hbr, q4⟩ := key _ _ h1 e1
    exact ⟨rfl, q2, by show s1.depth - 1 = _; rw [q3]; show s.depth + 1 + _ - 1 = _; simp only [St.leak]; omega, fx, hbr, q4.wrap p⟩
  | .while e a, n + 1 => fun d ts rest s s' r p ho src ht hopen hd h he => by
    have h := statement_rec p h he
    cases src with
    | @«while» d k ts _ us _ i o c hi hpo hpc sx hk src =>
    rw [show typeOf s.toks = .kwWhile by rw [ht]; exact hi] at h
    have p0 := p.moved (moved_depth p.wf (s.depth + 1))
    have key := fun r s1 => while_inv (H := H) (r := r) (s' := s1) (rest := rest) (statement_mono F n) (functionDef_mono (statement_mono F n) true) (works a n) p0 ho
      hi hpo hpc sx hk src hopen (by simpa using ht) (by show s.depth + 1 + 1 + _ ≤ _; omega)
    obtain ⟨s1, h1, e1, rfl, rfl⟩ := ended h he (fun r s1 h e => (key r s1 h e).1)
    obtain ⟨-, q2, q3, q4⟩ := key _ _ h1 e1
    exact ⟨rfl, q2, by show s1.depth - 1 = _; rw [q3]; show s.depth + 1 + _ - 1 = _; simp only [St.leak]; omega, [], fun _ => rfl, q4.wrap p⟩
  | .doWhile a e, n + 1 => fun d ts rest s s' r p ho src ht hopen hd h he => by
    have h := statement_rec p h he
    cases src with
    | @doWhile d k us _ ts _ i wh o c semi hi src hwh hpo sx hk hpc hse =>
    rw [show typeOf s.toks = .kwDo by rw [ht]; exact hi] at h
    have p0 := p.moved (moved_depth p.wf (s.depth + 1))
    have key := fun r s1 => do_inv (H := H) (r := r) (s' := s1) (rest := rest) (statement_mono F n) (functionDef_mono (statement_mono F n) true) (works a n) p0 ho
      hi hwh hpo hpc hse sx hk src (by simpa using ht) (by show s.depth + 1 + 1 + _ ≤ _; omega)
    obtain ⟨s1, h1, e1, rfl, rfl⟩ := ended h he (fun r s1 h e => (key r s1 h e).1)
    obtain ⟨-, q2, q3, q4⟩ := key _ _ h1 e1
    exact ⟨rfl, q2, by show s1.depth - 1 = _; rw [q3]; show s.depth + 1 + _ - 1 = _; simp only [St.leak]; omega, [], fun _ => rfl, q4.wrap p⟩
  | .for j e m a, n + 1 => fun d ts rest s s' r p ho src ht hopen hd h he => by
    have h := statement_rec p h he
    cases src with
    | @«for» d k _ is _ ts _ ns _ us _ i o semi c hi hpo srcI sx hk hse sn hm hpc src =>
    rw [show typeOf s.toks = .kwFor by rw [ht]; exact hi] at h
    have p0 := p.moved (moved_depth p.wf (s.depth + 1))
    have hex : ∀ t ts', ts = t :: ts' → t.type ≠ .kwElse := by
      rintro t ts' rfl
      obtain ⟨t1, us1, e1, hx⟩ := exSrc_start sx
      cases e1
      rintro e; rw [e] at hx; cases hx
    have key := fun r s1 => for_inv (H := H) (r := r) (s' := s1) (rest := rest) (statement_mono F n) (functionDef_mono (statement_mono F n) true) (works j n) (works a n) p0 ho
      hi hpo hse hpc srcI sx hk sn hm src hopen hex (by simpa using ht) (by show s.depth + 1 + 1 + _ ≤ _; omega)
    obtain ⟨s1, h1, e1, rfl, rfl⟩ := ended h he (fun r s1 h e => (key r s1 h e).1)
    obtain ⟨-, q2, q3, q4⟩ := key _ _ h1 e1
    exact ⟨rfl, q2, by show s1.depth - 1 = _; rw [q3]; show s.depth + 1 + _ - 1 = _; simp only [St.leak]; omega, [], fun _ => rfl, q4.wrap p⟩
  | .brk, n + 1 => fun d ts rest s s' r p ho src ht hopen hd h he => by
    have h := statement_rec p h he
    cases src with
    | @brk _ t semi hi hse hk =>
    rw [show typeOf s.toks = .kwBreak by rw [ht]; exact hi] at h
    have p0 := p.moved (moved_depth p.wf (s.depth + 1))
    have key := fun r s1 => break_inv (F := F) (H := H) (r := r) (s' := s1) (rest := rest) p0 ho hi hse ht
    obtain ⟨s1, h1, e1, rfl, rfl⟩ := ended h he (fun r s1 h e => (key r s1 h e).1)
    obtain ⟨-, q2, q3, q4⟩ := key _ _ h1 e1
    exact ⟨rfl, q2, by show s1.depth - 1 = _; rw [q3]; show s.depth + 1 - 1 = _; simp only [St.leak]; omega, _, (fun h => by cases h), q4.wrap p⟩
  | .ret e, n + 1 => fun d ts rest s s' r p ho src ht hopen hd h he => by
    have h := statement_rec p h he
    cases src with
    | @ret _ k ts _ t semi hi sx hse hk =>
    rw [show typeOf s.toks = .kwReturn by rw [ht]; exact hi] at h
    have p0 := p.moved (moved_depth p.wf (s.depth + 1))
    obtain ⟨rfl, q2, q3, q4⟩ := return_inv (H := H) (functionDef_mono (statement_mono F n) true) p0 ho hi hse sx ht (by show s.depth + 1 + _ + _ ≤ _; omega) h he
    exact ⟨rfl, q2, q3, [], fun _ => rfl, q4.wrap p⟩
theorem worksL : ∀ (ss : Sts) (n : Nat), ss.All (Works F H (statement F n))
  | .nil, n => trivial
  | .cons a as, n => ⟨works a n, worksL as n⟩
end

end Nk.Cc
