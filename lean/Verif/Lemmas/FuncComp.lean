import Verif.Lemmas.FuncHead
import Verif.Lemmas.Registry
/-!
# What the compiler emits for functions
-/
namespace Nk.Cc
open Nk.Props
variable {F : FloatOps} {H : Host}

/-- A block as a statement. -/
theorem blockStmt_inv {ss : Sts} {n d : Nat} {ts rest : List Token} {s s' : CS} {o c : Token} {r : Bool} (p : Pre s)
    (ho : offOf s.ctx + ss.size < 4294967296) (hpo : o.type = .curlyOpen) (hpc : c.type = .curlyClose) (src : Srcs F d ts ss)
    (hbr : ss.breaks = false) (ht : s.toks = o :: ts ++ [c] ++ rest) (hd : s.depth + 2 + d ≤ 257) (h : statement F (n + 1) s = .ok (r, s'))
    (he : s'.vm.errors = []) :
    r = true ∧ s'.toks = rest ∧ s'.depth = s.depth + ss.leak ∧
      Plain F H s s' (ss.size + 1) [] fun b => (St.block ss).exec F H b (envOf s) := by
  have h := statement_rec p h he
  rw [show typeOf s.toks = .curlyOpen by rw [ht]; exact hpo] at h
  have p0 := p.moved (moved_depth p.wf (s.depth + 1))
  have key := fun r s1 => block_inv (H := H) (r := r) (s' := s1) (statement_mono F n) (worksL ss n) p0 (by show offOf s.ctx + _ < _; omega) hpo hpc src ht
    (by show s.depth + 1 + 1 + _ ≤ _; omega)
  obtain ⟨s1, h1, e1, rfl, rfl⟩ := ended h he (fun r s1 h e => (key r s1 h e).1)
  obtain ⟨-, q2, q3, fx, hb, q4⟩ := key _ _ h1 e1
  obtain rfl := hb hbr
  refine ⟨rfl, q2, by show s1.depth - 1 = _; rw [q3]; show s.depth + 1 + _ - 1 = _; omega, ?_⟩
  exact q4.moved (moved_depth p.wf (s.depth + 1)) p (moved_depth q4.seg.grow.wf (s1.depth - 1)) rfl

/-- The variables at the start of the body of a function. -/
def fnVars (ps : List Bytes) : List CVar :=
  ⟨cs "_returnPointer", false, true, ps.length + 1⟩ :: ⟨cs "_argumentCount", false, true, ps.length⟩ ::
    paramVars 0 ps [⟨cs "_functionId", false, true, UINT_MAX⟩]

/-- The context of a function at the start of its body. -/
def fnCtx (ps : List Bytes) (id : Nat) : CCtx := ⟨fnVars ps, ps.length + 2, id, false, []⟩

theorem popCount_fn (ps : List Bytes) (id o : Nat) : popCount { fnCtx ps id with offset := o } = 0 := by
  have := @popCount_params ps 0 [⟨cs "_functionId", false, true, UINT_MAX⟩]
  simp only [popCount, fnCtx, fnVars, List.filter_cons]
  rw [this]
  rfl

theorem placeOf_fn {ps : List Bytes} (hp : ps.Nodup) (id : Nat) (cs : List CCtx) :
    placeOf (fnCtx ps id :: cs) = (fnEnv ps (placeOf cs)).Γ := by
  funext x
  unfold placeOf
  simp only [findCtx, fnCtx, fnVars, fnEnv]
  rw [findVar_cons, findVar_cons, findVar_params hp, findVar_cons]
  by_cases h1 : Nk.cs "_returnPointer" = x
  · rw [if_pos h1, if_pos h1.symm]; rfl
  rw [if_neg h1, if_neg (show ¬x = Nk.cs "_returnPointer" from fun e => h1 e.symm)]
  by_cases h2 : Nk.cs "_argumentCount" = x
  · rw [if_pos h2, if_pos h2.symm]; rfl
  rw [if_neg h2, if_neg (show ¬x = Nk.cs "_argumentCount" from fun e => h2 e.symm)]
  cases hi : ps.idxOf? x with
  | some i => simp
  | none =>
    dsimp only
    by_cases h3 : Nk.cs "_functionId" = x
    · rw [if_pos h3, if_pos h3.symm]; rfl
    · rw [if_neg h3, if_neg (show ¬x = Nk.cs "_functionId" from fun e => h3 e.symm)]
      rfl

/-- Code was added, functions were added. -/
structure Extends (s s' : CS) : Prop where
  le : s.write ≤ s'.write
  below : ∀ i, i < s.write → s'.vm.instrs[i]? = s.vm.instrs[i]?
  lits : ∀ W, Lits s'.vm W → Lits s.vm W
  stat : s.staticCount ≤ s'.staticCount
  fns : ∃ t, s'.vm.functions = s.vm.functions ++ t

theorem Extends.trans {a b c : CS} (h : Extends a b) (k : Extends b c) : Extends a c :=
  ⟨Nat.le_trans h.le k.le, fun i hi => (k.below i (Nat.lt_of_lt_of_le hi h.le)).trans (h.below i hi), fun W hW => h.lits W (k.lits W hW),
    Nat.le_trans h.stat k.stat, by
      obtain ⟨t, ht⟩ := h.fns
      obtain ⟨u, hu⟩ := k.fns
      exact ⟨t ++ u, by rw [hu, ht, List.append_assoc]⟩⟩

theorem Grow.grew {s s' : CS} {fx : List Nat} (h : Grow s s' fx) : Extends s s' := ⟨h.le, h.below, h.lits, h.stat, [], by rw [h.fns, List.append_nil]⟩

theorem Has.grew {K : Cfg} {s s' : CS} (h : Has K s') (g : Extends s s') : Has K s :=
  ⟨fun W hW => g.lits W (h.lits W hW), Nat.le_trans g.stat h.stat⟩

theorem skipOr_bind {β : Type} {t : TokType} {e : String} {s : CS} {x : Token} {ts : List Token} (ht : s.toks = x :: ts) (hx : x.type = t) (f : Unit → CM β) :
    (skipOr t e >>= f) s = f () (skip 1 s) := by
  have : skipOr t e s = .ok ((), skip 1 s) := by
    unfold skipOr
    rw [curType_bind, ht, if_pos (show typeOf (x :: ts) = t from hx)]
    exact nextTok_run s
  rw [CM.bind_ok this]

/-- The head of a function. -/
theorem fnHead_inv {β : Type} {k : Bool → CM β} (mk : ∀ b, CMono (k b)) {id : Nat} {us rest : List Token} {ps : List Bytes} {s s' : CS} {o c : Token} {root : CCtx}
    {r : β} (hpo : o.type = .parenOpen) (hps : Params us ps) (hpc : c.type = .parenClose) (ho : ps.length + 2 < 4294967296)
    (ht : s.toks = o :: (us ++ c :: rest))
    (h : (do
      cmod fun s => { s with ctx := [{ vars := [], offset := 0, fnId := id, isLoop := false, fixups := [] }, root] }
      skipOr .parenOpen "Expected '('."
      addParam (cs "_functionId")
      incOffset
      let s ← cget
      let (ok, argc) ← paramLoop (s.toks.length + 1) 0
      let s ← cget
      setFunction id argc s.write
      addParam (cs "_argumentCount")
      incOffset
      addParam (cs "_returnPointer")
      skipOr .parenClose "Expected ')'."
      k ok : CM β) s = .ok (r, s')) (he : s'.vm.errors = []) :
    ps.Nodup ∧ ∃ s1, HeadTo s s1 rest [fnCtx ps id, root] (s.vm.functions.modify id fun f => { f with argc := ps.length, first := s.write }) ∧
      k true s1 = .ok (r, s') := by
  have mp := @paramLoop_mono
  have m1 : ∀ id a f, CMono (setFunction id a f) := fun id a f => setFunction_mono ..
  have m2 : ∀ t e, CMono (skipOr t e) := fun t e => skipOr_mono ..
  have m3 : ∀ x, CMono (addParam x) := fun x => addParam_mono ..
  rw [CM.cmod_bind] at h
  have q0 := headTo_ctx (s := s) [{ vars := [], offset := 0, fnId := id, isLoop := false, fixups := [] }, root]
  generalize ({ s with ctx := [{ vars := [], offset := 0, fnId := id, isLoop := false, fixups := [] }, root] } : CS) = s3 at *
  rw [ht] at q0
  rw [skipOr_bind q0.toks hpo] at h
  have q1 := q0.skip
  generalize skip 1 s3 = s4 at *
  obtain ⟨_, s5, h5, h, e5⟩ := CM.bind_nil h (by intro a; cmono <;> exact mk _) he
  obtain ⟨-, q2⟩ := q1.param (by simp) (k := UINT_MAX) (by show usub 0 1 = _; decide) h5 e5
  obtain ⟨_, s6, h6, h, e6⟩ := CM.bind_nil h (by intro a; cmono <;> exact mk _) he
  have q3 := q2.inc (k := 1) (by show u32 (0 + 1) = 1; decide) h6
  clear h6 h5 q1 q0 q2
  rw [CM.cget_bind] at h
  obtain ⟨⟨ok, argc⟩, s7, h7, h, e7⟩ := CM.bind_nil h (by intro a; cmono <;> exact mk _) he
  obtain ⟨rfl, rfl, nd, -, q7⟩ := paramLoop_inv hpc hps (k := 0) q3.toks q3.ctx (by simp) rfl (by omega) h7 e7
  rw [q3.fns] at q7
  have q7 := q3.trans q7
  clear q3 h7 e6
  dsimp only at h q7
  rw [CM.cget_bind] at h
  obtain ⟨_, s8, h8, h, e8⟩ := CM.bind_nil h (by intro a; cmono <;> exact mk _) he
  have q8 := q7.setFunction h8
  rw [q7.write] at q8
  obtain ⟨_, s9, h9, h, e9⟩ := CM.bind_nil h (by intro a; cmono <;> exact mk _) he
  obtain ⟨-, q9⟩ := q8.param (by simp) (k := ps.length) (by dsimp only; unfold usub u32 U32; omega) h9 e9
  obtain ⟨_, s10, h10, h, e10⟩ := CM.bind_nil h (by intro a; cmono <;> exact mk _) he
  have q10 := q9.inc (k := ps.length + 2) (by dsimp only; unfold u32 U32; omega) h10
  obtain ⟨_, s11, h11, h, e11⟩ := CM.bind_nil h (by intro a; cmono <;> exact mk _) he
  obtain ⟨-, q11⟩ := q10.param (by simp) (k := ps.length + 1) (by dsimp only; unfold usub u32 U32; omega) h11 e11
  rw [skipOr_bind q11.toks hpc] at h
  refine ⟨nd, _, ?_, h⟩
  have := q11.skip
  simp only [Nat.zero_add] at this
  exact this

/-- A change of the contexts only. -/
theorem emit_ctx {s : CS} (w : CodeWF s) {ctx : List CCtx} (h : ctx ≠ []) : Emit s [] { s with ctx := ctx } :=
  ⟨⟨w.pow, w.len, w.write, w.str, h⟩, rfl, fun _ _ => rfl, fun i w hw => by simp at hw, rfl, fun _ h => h⟩

/-- The end of a function. -/
theorem fnTail_inv {β : Type} {x r : β} {a id : Nat} {ps : List Bytes} {root : CCtx} {f : Func} {s s' : CS} (w : CodeWF s) (hc : s.ctx = [fnCtx ps id, root])
    (hid : id < UINT_MAX) (hf : s.vm.functions[id]? = some f) (hfa : f.argc = ps.length) (ha : a + 3 ≤ s.write) (ho : ps.length + 3 < 4294967296)
    (h : (do
      emitInt 0 false
      incOffset
      emitReturn
      let s3 ← cget
      writeInstr (a + 1) (BitVec.ofNat 32 (usub (usub s3.write (a + 1)) 2))
      popCtx
      cmod fun s => { s with ctx := [root] }
      popRec
      return x : CM β) s = .ok (r, s')) :
    r = x ∧ s'.toks = s.toks ∧ s'.depth = s.depth - 1 ∧ s'.ctx = [root] ∧ s'.write = s.write + 5 ∧ CodeWF s' ∧ s'.vm.functions = s.vm.functions ∧
      s'.staticCount = s.staticCount ∧ s'.vm.errors = s.vm.errors ∧ (∀ W, Lits s'.vm W → Lits s.vm W) ∧
      (∀ i, i < s.write → i ≠ a + 1 → s'.vm.instrs[i]? = s.vm.instrs[i]?) ∧ s'.vm.instrs[a + 1]? = some (jumpWord s'.write a) ∧
      ∀ i w, [7, 0, 7, 0, 19][i]? = some w → s'.vm.instrs[s.write + i]? = some w := by
  obtain ⟨_, s1, h1, h⟩ := CM.bind_inv h
  obtain ⟨a1, a2, a3⟩ := emitInt_inv w h1
  rw [if_neg (by decide), hc] at a3
  obtain ⟨_, s2, h2, h⟩ := CM.bind_inv h
  have r2 := incOffset_inv a3 h2
  have u2 : u32 ((fnCtx ps id).offset + 1) = ps.length + 3 := by show u32 (ps.length + 2 + 1) = _; unfold u32 U32; omega
  rw [u2] at r2
  have b1 := emit_ctx a1.wf (ctx := [{ fnCtx ps id with offset := ps.length + 3 }, root]) (by simp)
  rw [← r2] at b1
  have c2 : s2.ctx = [{ fnCtx ps id with offset := ps.length + 3 }, root] := by rw [r2]
  have d2 : s2.depth = s.depth := by rw [r2]; exact a2
  have em := a1.trans b1
  clear r2 h1 h2
  obtain ⟨_, s3, h3, h⟩ := CM.bind_inv h
  unfold emitReturn at h3
  rw [CM.cget_bind, c2] at h3
  have ff : findFn [{ fnCtx ps id with offset := ps.length + 3 }, root] = some { fnCtx ps id with offset := ps.length + 3 } := by
    unfold findFn
    rw [if_neg (show ¬(fnCtx ps id).fnId = UINT_MAX from Nat.ne_of_lt hid)]
  rw [ff] at h3
  dsimp only at h3
  have hf2 : s2.vm.functions[(fnCtx ps id).fnId]? = some f := by
    rw [em.rest]; exact hf
  rw [hf2] at h3
  dsimp only at h3
  have u3 : usub (usub (ps.length + 3) f.argc) 3 = 0 := by rw [hfa]; unfold usub u32 U32; omega
  rw [u3] at h3
  obtain ⟨_, s4, h4, h5⟩ := CM.bind_inv h3
  obtain ⟨g1, g2, g3⟩ := emitInt_inv em.wf h4
  obtain ⟨k1, k2, k3⟩ := emitOp_inv g1.wf (op := 19) (by decide) h5
  rw [if_neg (by decide)] at g3 k3
  have em := (em.trans g1).trans k1
  have ln := em.line (by rw [k2, g2, d2])
  have c3 : s3.ctx = [{ fnCtx ps id with offset := ps.length + 3 }, root] := by rw [k3, g3, c2]
  clear k1 k2 k3 g1 g2 g3 h3 h4 h5 b1 a1 a2 a3
  rw [CM.cget_bind] at h
  have hw3 : s3.write = s.write + 5 := em.write
  obtain ⟨_, s5, h5, h⟩ := CM.bind_inv h
  have l3 := ln.grow.wf.len
  have s3m := ln.grow.wf.small
  have w3 := ln.grow.wf.write
  unfold writeInstr at h5
  rw [if_pos (by rw [l3]; omega)] at h5
  have r5 : s5 = { s3 with vm := { s3.vm with instrs := s3.vm.instrs.set (a + 1) (BitVec.ofNat 32 (usub (usub s3.write (a + 1)) 2)) } } := by
    cases h5; rfl
  have uj : BitVec.ofNat 32 (usub (usub s3.write (a + 1)) 2) = jumpWord s3.write a := by
    have : usub (usub s3.write (a + 1)) 2 = usub (usub s3.write a) 3 := by unfold usub u32 U32; omega
    rw [this]; rfl
  rw [uj] at r5
  obtain ⟨_, s6, h6, h⟩ := CM.bind_inv h
  have c5 : s5.ctx = [{ fnCtx ps id with offset := ps.length + 3 }, root] := by rw [r5]; exact c3
  unfold popCtx at h6
  rw [CM.cget_bind, c5] at h6
  dsimp only at h6
  rw [CM.cmod_bind, popCount_fn, if_neg (by simp)] at h6
  obtain ⟨_, r6⟩ := pure_inv h6
  rw [CM.cmod_bind] at h
  obtain ⟨_, h⟩ := popRec_inv h
  obtain ⟨rfl, r7⟩ := pure_inv h
  rw [r6] at r7
  dsimp only at r7
  rw [r5] at r7
  dsimp only at r7
  subst r7
  refine ⟨rfl, ln.toks, by show s3.depth - 1 = _; rw [ln.depth], rfl, hw3, ?_, ln.grow.fns, ln.stat, em.errors, em.lits, ?_, ?_, ?_⟩
  · exact ⟨ln.grow.wf.pow, by show (s3.vm.instrs.set _ _).length = _; rw [List.length_set]; exact l3, w3, CodeWF.str' ln.grow.wf.str rfl rfl, by simp⟩
  · intro i hi hne
    show (s3.vm.instrs.set (a + 1) _)[i]? = _
    rw [List.getElem?_set_ne (Ne.symm hne)]
    exact em.below i hi
  · show (s3.vm.instrs.set (a + 1) _)[a + 1]? = _
    rw [List.getElem?_set_self (by rw [l3]; omega)]
  · intro i w hw
    show (s3.vm.instrs.set (a + 1) _)[s.write + i]? = _
    rw [List.getElem?_set_ne (by omega)]
    exact em.code i w hw

/-- The body of a function, from the jump over it on. -/
structure BodyPost (F : FloatOps) (H : Host) (s s' : CS) (id : Nat) (ps : List Bytes) (ss : Sts) : Prop where
  wf : CodeWF s'
  nodup : ps.Nodup
  write : s.write + 6 ≤ s'.write
  below : ∀ i, i < s.write → s'.vm.instrs[i]? = s.vm.instrs[i]?
  lits : ∀ W, Lits s'.vm W → Lits s.vm W
  stat : s'.staticCount = s.staticCount
  ctx : s'.ctx = s.ctx
  fns : s'.vm.functions = s.vm.functions.modify id fun f => { f with argc := ps.length, first := s.write + 3 }
  jump : s'.vm.instrs[s.write]? = some 7 ∧ s'.vm.instrs[s.write + 1]? = some (jumpWord s'.write s.write) ∧ s'.vm.instrs[s.write + 2]? = some 17
  sim : ∀ K, K.F = F → K.H = H → K.T < 4294967296 → K.hb = K.b → K.rb = K.b + ps.length + 2 → Has K s' →
    Loaded K.I s.write s'.write s'.vm.instrs [] → K.b + (ps.length + 2) + (ss.size + 2) ≤ K.n →
    Sim K (Body F H K.b (fnEnv ps (placeOf s.ctx)) ss) (s.write + 3) s'.write (ps.length + 2) (ps.length + 3)

theorem functionBody_inv {ss : Sts} {id n d : Nat} {us ts rest : List Token} {ps : List Bytes} {s s' : CS} {o c bo bc : Token} {root : CCtx} {r : Option Nat}
    (p : Pre s) (hc : s.ctx = [root]) (hid : id < s.vm.functions.length) (hid' : id < UINT_MAX)
    (hpo : o.type = .parenOpen) (hps : Params us ps) (hpc : c.type = .parenClose)
    (hbo : bo.type = .curlyOpen) (src : Srcs F d ts ss) (hbc : bc.type = .curlyClose) (hbr : ss.breaks = false)
    (ho : ps.length + ss.size + 4 < 4294967296) (ht : s.toks = o :: us ++ c :: bo :: ts ++ [bc] ++ rest) (hd : s.depth + 2 + d ≤ 257)
    (h : functionBody (statement F (n + 1)) id s = .ok (r, s')) (he : s'.vm.errors = []) :
    r = some id ∧ s'.toks = rest ∧ s'.depth = s.depth + ss.leak - 1 ∧ BodyPost F H s s' id ps ss := by
  have ms := statement_mono F (n + 1)
  have mp := @paramLoop_mono
  have mr := @emitReturn_mono
  have mc := @popCtx_mono
  have m1 : ∀ id a f, CMono (setFunction id a f) := fun id a f => setFunction_mono ..
  have m2 : ∀ t e, CMono (skipOr t e) := fun t e => skipOr_mono ..
  have m3 : ∀ x, CMono (addParam x) := fun x => addParam_mono ..
  unfold functionBody at h
  obtain ⟨_, s1, h1, h, e1⟩ := CM.bind_nil h (by intro a; cmono) he
  obtain ⟨a1, a2, a3⟩ := emitInt_inv p.wf h1
  rw [if_neg (by decide)] at a3
  rw [CM.cget_bind] at h
  obtain ⟨_, s2, h2, h, e2⟩ := CM.bind_nil h (by intro a; cmono) he
  obtain ⟨b1, b2, b3⟩ := emitOp_inv a1.wf (op := 17) (by decide) h2
  rw [if_neg (by decide)] at b3
  have em := a1.trans b1
  have ln := em.line (b2.trans a2)
  have hc2 : s2.ctx = [root] := by rw [b3, a3, hc]
  have t2 : s2.toks = o :: (us ++ c :: bo :: (ts ++ [bc] ++ rest)) := by rw [ln.toks, ht]; simp
  have hw1 : s1.write = s.write + 2 := a1.write
  have hw2 : s2.write = s.write + 3 := em.write
  have hsm := ln.grow.wf.write
  have hsl := ln.grow.wf.small
  have hsk : usub s1.write 1 = s.write + 1 := by rw [hw1]; unfold usub u32 U32; omega
  rw [CM.cget_bind, hc2, hsk] at h
  dsimp only [rootOf] at h
  clear h1 h2
  obtain ⟨nd, s12, q12, h⟩ := fnHead_inv (k := fun ok => (do
    let ok2 ← statement F (n + 1)
    emitInt 0 false
    incOffset
    emitReturn
    let s3 ← cget
    writeInstr (s.write + 1) (BitVec.ofNat 32 (usub (usub s3.write (s.write + 1)) 2))
    popCtx
    cmod fun s => { s with ctx := [root] }
    popRec
    return (if ok && ok2 then some id else none) : CM (Option Nat))) (by intro a; cmono) hpo hps hpc (by omega) t2 h he
  rw [hw2, ln.grow.fns] at q12
  have e12 : s12.vm.errors = [] := q12.errors.trans e2
  have fa : fnArgs s12.vm.functions s12.ctx = some ps.length := by
    unfold fnArgs
    rw [q12.ctx, q12.fns]
    have : findFn [fnCtx ps id, root] = some (fnCtx ps id) := by
      unfold findFn
      rw [if_neg (show ¬(fnCtx ps id).fnId = UINT_MAX from Nat.ne_of_lt hid')]
    rw [this]
    simp [fnCtx, List.getElem?_modify, List.getElem?_eq_getElem hid]
  have of12 : offOf s12.ctx = ps.length + 2 := by rw [q12.ctx]; rfl
  have lo12 : loopOff s12.ctx = 0 := by
    rw [q12.ctx]
    have := p.head root [] hc
    simp [loopOff, fnCtx, this]
  have p12 : Pre s12 := by
    refine ⟨q12.wf ln.grow.wf (by simp), e12, ?_, by rw [lo12]; omega, ?_, by rw [q12.stat, ln.stat]; exact p.stat⟩
    · intro c cs e; rw [q12.ctx] at e; cases e; rfl
    · intro a ha
      rw [fa] at ha; cases ha; omega
  obtain ⟨r13, s13, h13, h, e13⟩ := CM.bind_nil h (by intro a; cmono) he
  obtain ⟨rfl, t13, d13, pl⟩ := blockStmt_inv (H := H) (rest := rest) p12 (by rw [of12]; omega) hbo hbc src hbr (by rw [q12.toks]; simp) (by rw [q12.depth, ln.depth]; exact hd) h13 e13
  have c13 : s13.ctx = [fnCtx ps id, root] := by rw [pl.seg.ctx, setOff_off, withFix_nil, q12.ctx]
  have f13 : s13.vm.functions[id]? = some { s.vm.functions[id] with argc := ps.length, first := s.write + 3 } := by
    rw [pl.seg.grow.fns, q12.fns]
    simp [List.getElem?_modify, List.getElem?_eq_getElem hid]
  have hle := pl.seg.grow.le
  rw [q12.write, hw2] at hle
  obtain ⟨rfl, v1, v2, v3, v4, v5, v6, v7, v8, v9, v10, v11, v12⟩ := fnTail_inv (a := s.write) pl.seg.grow.wf c13 hid' f13 rfl (by omega) (by omega) h
  have below : ∀ i, i < s.write → s'.vm.instrs[i]? = s.vm.instrs[i]? := by
    intro i hi
    rw [v10 i (by omega) (by omega), pl.seg.grow.below i (by rw [q12.write]; omega), q12.instrs, em.below i hi]
  refine ⟨rfl, v1.trans t13, by rw [v2, d13, q12.depth, ln.depth], v5, nd, by omega, below, fun W hW => em.lits W (q12.lits (pl.seg.grow.lits W (v9 W hW))),
    by rw [v7, pl.seg.stat, q12.stat, ln.stat], by rw [v3, hc], by rw [v6, pl.seg.grow.fns, q12.fns], ⟨?_, v11, ?_⟩, ?_⟩
  · rw [v10 _ (by omega) (by omega), pl.seg.grow.below _ (by rw [q12.write]; omega), q12.instrs]
    exact em.code 0 _ rfl
  · rw [v10 _ (by omega) (by omega), pl.seg.grow.below _ (by rw [q12.write]; omega), q12.instrs]
    exact em.code 2 _ rfl
  · intro K kF kH kT khb krb hh hl hn
    have env : envOf s12 = fnEnv ps (placeOf s.ctx) := by
      unfold envOf
      rw [q12.ctx, placeOf_fn nd, hc]
      rfl
    have at12 : At F H K s12 := ⟨kF, kH, kT, by rw [lo12, khb]; rfl, fun a ha => by rw [fa] at ha; cases ha; exact krb⟩
    have x := pl.sim K at12 ⟨fun W hW => v9 W (hh.lits W hW), by rw [← v7]; exact hh.stat⟩ ⟨fun i h1 h2 _ => by
      rw [q12.write, hw2] at h1
      rw [hl.code i (by omega) (by omega) (by simp)]
      exact v10 i h2 (by omega), by simp⟩ (by rw [of12]; omega)
    rw [env, of12, q12.write, hw2] at x
    have ii : ∀ i w, [7, 0, 7, 0, 19][i]? = some w → K.I[s13.write + i]? = some w := by
      intro i w hw
      have hlt : i < 5 := (List.getElem?_eq_some_iff.mp hw).1
      rw [hl.code _ (by omega) (by omega) (by simp)]
      exact v12 i w hw
    refine sim_seq x ?_
    intro W l vm o l' W' f hl m hP
    obtain ⟨vm1, r1, m1⟩ := m.pushInt K.F K.H f.good (by rw [f.instrs]; exact ii 0 _ rfl) (by rw [f.instrs]; exact ii 1 _ rfl) f.space (by omega)
    have sv := simV_return (K := K) (h := ps.length + 2) (h' := ps.length + 3) (q := s'.write) (k := 0) (ii 2 _ rfl) (ii 3 _ rfl) (ii 4 _ rfl) (by omega)
      (by rw [krb]; omega) (by omega)
    exact (sv _ _ _ _ _ _ _ f hl m1 hP).before r1 (.refl f.good.str)

end Nk.Cc
