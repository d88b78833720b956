import Verif.Lemmas.CompSafe5
import Verif.Lemmas.TokKinds
import Verif.Spec.Session
import Verif.Lemmas.Repl
/-!
# Every state of a compiler between two calls is well formed
-/
namespace Nk.Cc

variable {α β : Type} {Z : Base} {B : UB → Prop} {k p : Nat} {s s1 : CS}

theorem Inv.any {B' : UB → Prop} (h : Inv Z B s) (ht : ∀ t ∈ s.toks, TokOK B' t) : Inv Z B' s :=
  ⟨h.wf, h.shape, h.fns, h.fix, h.root, ht, h.low, h.base, h.lits, h.funs⟩

theorem CSafe.post {m : CM α} {s s' : CS} {a : α} {Q : α → CS → Prop} (h : CSafe B m s Q) (e : m s = .ok (a, s')) : Q a s' := by
  unfold CSafe at h; rw [e] at h; exact h

theorem Inv.toks {B' : UB → Prop} (h : Inv Z B s) {ts : List Token} {l f : Nat} (ht : ∀ t ∈ ts, TokOK B' t) :
    Inv Z B' { s with toks := ts, line := l, file := f } :=
  ⟨h.wf.congr rfl rfl rfl rfl rfl h.wf.ctx, h.shape, h.fns, h.fix, h.root, ht, h.low, h.base, h.lits, h.funs⟩

theorem compileTokens_step (hL : B .longjmp) (hO : B .overflow) (F : FloatOps) {ts : List Token} (ht : ∀ t ∈ ts, TokOK B t) {B' : UB → Prop} (h : Inv Z B' s) :
    CSafe B (compileTokens F ts) s fun b s' => Inv Z B s' ∧ s'.toks = [] ∧ CtxTo s.ctx s'.ctx ∧ s.depth ≤ s'.depth ∧
      s.vm.errors.length ≤ s'.vm.errors.length ∧ (b = false → s'.vm.errors ≠ []) ∧ Grew s.vm.instrs s.write s'.vm.instrs s'.write := by
  unfold compileTokens
  refine CSafe.cmod ?_
  refine (script_step (statement_step hL hO F maxDepth 0 (by decide) (by decide)).st (h.toks ht) (Nat.zero_le _)).bind fun b s2 ⟨h2, c2, e2⟩ => CSafe.cmod ?_
  exact CSafe.pure ⟨h2.inv.toks (by intro t ht; cases ht), rfl, c2, h2.depth, h2.errs, e2, h2.grew⟩

/-- The contexts between two calls: there is one, and no break waits for its target. -/
def Clean (l : List CCtx) : Prop := ∃ c, l = [c] ∧ c.isLoop = false ∧ c.fixups = []

theorem Clean.one {l : List CCtx} (h : Clean l) : l.length = 1 := by obtain ⟨c, rfl, _⟩ := h; rfl

theorem Clean.to {l l' : List CCtx} (h : Clean l) (g : CtxTo l l') : Clean l' := by
  obtain ⟨c, rfl, h1, h2⟩ := h
  cases l' with
  | nil => exact g.elim
  | cons d ds =>
    obtain ⟨g1, g2⟩ := g
    cases g2
    exact ⟨d, rfl, g1.loop.trans h1, (g1.fix h1).trans h2⟩

/-- What holds between two calls. -/
structure Idle (s : CS) : Prop where
  inv : Inv Base.none (fun _ => True) s
  toks : s.toks = []
  clean : Clean s.ctx

theorem Idle.one (h : Idle s) : s.ctx.length = 1 := h.clean.one

/-- Everything that was compiled is kept from now on. -/
theorem Idle.any (h : Idle s) (B : UB → Prop) : Inv (Base.of s) B s := by
  refine ⟨h.inv.wf, h.inv.shape, h.inv.fns, fun c hc a ha => ?_, h.inv.root, ?_, Nat.le_refl _, fun _ _ => rfl, ⟨Nat.le_refl _, fun i h1 h2 => absurd h2 (Nat.not_lt.mpr h1)⟩, List.prefix_refl _⟩
  · obtain ⟨d, e, _, e2⟩ := h.clean
    rw [e, List.mem_singleton] at hc
    rw [hc, e2] at ha; cases ha
  · rw [h.toks]; intro t ht; cases ht

theorem Inv.zero (h : Inv Z B s) : Inv Base.none B s :=
  ⟨h.wf, h.shape, h.fns, fun c hc a ha => { h.fix c hc a ha with low := Nat.zero_le _ }, h.root, h.good, Nat.zero_le _, (fun _ hi => nomatch hi),
    ⟨Nat.zero_le _, fun i h1 h2 => by have : 536870912 ≤ i := h1; have := h.wf.lt; omega⟩, List.nil_prefix⟩

/-- A base that says nothing about literals. -/
def Base.Quiet (Z : Base) : Prop := 536870912 ≤ Z.lit ∧ Z.errs = 0

theorem Base.Quiet.lits (h : Z.Quiet) {I : List (BitVec 32)} {n : Nat} {S : Table Str} {e : Nat} (hn : n < 536870912) : LitsOK Z I n S e :=
  ⟨by have := h.2; omega, fun i h1 h2 => by have := h.1; omega⟩

/-- Everything that was compiled is kept from now on; nothing about literals. -/
def Base.kept (s : CS) : Base := ⟨s.write, s.vm.instrs, 536870912, 0, s.vm.functions⟩

theorem Idle.kept (h : Idle s) (B : UB → Prop) : Inv (Base.kept s) B s :=
  { h.any B with lits := Base.Quiet.lits ⟨Nat.le_refl _, rfl⟩ h.inv.wf.lt }

theorem Idle.of_adv (h : Idle s) (a : Adv Z (fun _ => True) k p s s1) (hc : Clean s1.ctx) : Idle s1 :=
  ⟨a.inv.zero, List.suffix_nil.mp (h.toks ▸ a.toks), hc⟩

theorem createGlobal_step (hL : B .longjmp) (name : Bytes) (h : Adv Z B k p s s1) (h1 : Clean s1.ctx) :
    CSafe B (createGlobal name) s1 fun _ s2 => Adv Z B k p s s2 ∧ Clean s2.ctx := by
  unfold createGlobal
  refine CSafe.cget ?_
  split
  · next hx => rw [hx] at h1; obtain ⟨_, e, _⟩ := h1; cases e
  · refine (addVariable_step hL name false false h).bind fun ok s2 ⟨h2, c2, _⟩ => ?_
    have l2 : Clean s2.ctx := h1.to c2
    cases ok with
    | false => exact CSafe.pure ⟨h2, l2⟩
    | true =>
      rw [if_pos rfl]
      refine CSafe.cget ?_
      split
      · split
        · refine (allocStatic_step hL h2).bind fun pos s3 ⟨h3, c3⟩ => ?_
          refine (modCtx_step h3 (fun c => { c with vars := match c.vars with
            | [] => []
            | v :: vs => { v with position := pos } :: vs }) (fun _ _ h => h) (fun _ => rfl)).bind fun _ s4 ⟨h4, c4⟩ => CSafe.pure ⟨h4, ?_⟩
          cases hx : s3.ctx with
          | nil => exact absurd hx h3.inv.wf.ctx
          | cons c cs =>
            rw [c4 c cs hx]
            rw [← c3, hx] at l2
            obtain ⟨d, e, e1, e2⟩ := l2
            cases e
            exact ⟨_, rfl, e1, e2⟩
        · exact CSafe.pure ⟨h2, l2⟩
      · exact CSafe.pure ⟨h2, l2⟩
  · next c hx =>
    exfalso
    cases hs : s1.ctx with
    | nil => exact h.inv.wf.ctx hs
    | cons a as =>
      cases as with
      | nil => exact hx _ hs
      | cons => rw [hs] at h1; obtain ⟨_, e, _⟩ := h1; cases e

theorem registerNative_leaves {name : Bytes} {cb : Option Nat} {vm vm' : VM} {i : Nat} (h : registerNative name cb vm = .ok (i, vm')) :
    ∃ es fs, vm' = { vm with errors := es, extFuncs := fs } ∧ vm.errors.length ≤ es.length := by
  unfold registerNative at h
  have h' : M.bind get _ vm = .ok (i, vm') := h
  unfold M.bind get at h'
  simp only at h'
  split at h'
  · unfold registerNativeNoSearch at h'
    have h2 : M.bind get _ vm = .ok (i, vm') := h'
    unfold M.bind get at h2
    simp only at h2
    split at h2
    · cases h2; exact ⟨_, vm.extFuncs, rfl, by simp⟩
    · cases h2; exact ⟨vm.errors, _, rfl, Nat.le_refl _⟩
  · cases h'; exact ⟨vm.errors, vm.extFuncs, rfl, Nat.le_refl _⟩

/-- A change of the VM that leaves the code. -/
theorem Adv.vm (h : Adv Z B k p s s1) {vm : VM} (h1 : vm.instrs = s1.vm.instrs) (h2 : vm.instrMask = s1.vm.instrMask)
    (h3 : ∀ f ∈ vm.functions, f ∈ s1.vm.functions ∨ f.first = 0) (h4 : StrWF vm) (h5 : s1.vm.errors.length ≤ vm.errors.length)
    (h6 : s1.vm.functions <+: vm.functions) (h7 : LitKeep s1.vm.strings vm.strings) : Adv Z B k p s { s1 with vm := vm } := by
  refine { h with inv := ⟨⟨?_, ?_, ?_, h4, h.inv.wf.ctx⟩, ?_, ?_, ?_, h.inv.root, h.inv.good, h.inv.low, ?_,
      by show LitsOK Z vm.instrs s1.write _ _; rw [h1]; exact h.inv.lits.still h7 h5, h.inv.funs.trans h6⟩, grew := ?_, errs := Nat.le_trans h.errs h5, fnum := Nat.le_trans h.fnum h6.length_le }
  · show ∃ k, k ≤ 29 ∧ vm.instrMask + 1 = _; rw [h2]; exact h.inv.wf.pow
  · show vm.instrs.length = vm.instrMask + 1; rw [h1, h2]; exact h.inv.wf.len
  · show _ ≤ vm.instrMask; rw [h2]; exact h.inv.wf.write
  · show Shape vm.instrs s1.write; rw [h1]; exact h.inv.shape
  · intro f hf
    show Entry vm.instrs s1.write f.first
    rw [h1]
    rcases h3 f hf with hf | hf
    · exact h.inv.fns f hf
    · rw [hf]; exact h.inv.shape.zero
  · show ∀ c ∈ s1.ctx, ∀ a ∈ c.fixups, JumpAt Z.n vm.instrs s1.write a; rw [h1]; exact h.inv.fix
  · show ∀ i, i < Z.n → vm.instrs[i]? = _; rw [h1]; exact h.inv.base
  · show Grew s.vm.instrs s.write vm.instrs s1.write; rw [h1]; exact h.grew

theorem createCFunction_step {name : Bytes} {cb : Option Nat} (h : Adv Z (fun _ => True) k p s s1) (h1 : Clean s1.ctx) :
    CSafe (fun _ => True) (createCFunction name cb) s1 fun _ s2 => Adv Z (fun _ => True) k p s s2 ∧ Clean s2.ctx := by
  unfold createCFunction
  refine CSafe.bind (P := fun _ s2 => Adv Z (fun _ => True) k p s s2 ∧ Clean s2.ctx) ?_ fun e s2 ⟨h2, l2⟩ => ?_
  · cases hr : registerNative name cb s1.vm with
    | ub k => exact CSafe.ub (k := k) (by unfold onVM; rw [hr]) trivial
    | ok q =>
      obtain ⟨i, vm⟩ := q
      obtain ⟨es, fs, rfl, hl⟩ := registerNative_leaves hr
      exact onVM_safe hr ⟨h.vm rfl rfl (fun f hf => .inl hf) (CodeWF.str' h.inv.wf.str rfl rfl) hl (List.prefix_refl _) (.refl _), h1⟩
  refine CSafe.bind (P := fun _ s3 => Adv Z (fun _ => True) k p s s3 ∧ Clean s3.ctx) ?_ fun f s3 ⟨h3, l3⟩ => ?_
  · have key : ∀ i vm', internalFor e s2.vm = .ok (i, vm') → vm'.instrs = s2.vm.instrs ∧ vm'.instrMask = s2.vm.instrMask ∧
        (∀ f ∈ vm'.functions, f ∈ s2.vm.functions ∨ f.first = 0) ∧ vm'.strings = s2.vm.strings ∧ vm'.sbuckets = s2.vm.sbuckets ∧
        s2.vm.errors.length ≤ vm'.errors.length ∧ s2.vm.functions <+: vm'.functions := by
      intro i vm' hr
      unfold internalFor at hr
      have h' : M.bind get _ s2.vm = .ok (i, vm') := hr
      unfold M.bind get at h'
      simp only at h'
      cases hx : s2.vm.extFuncs[e]? with
      | none => rw [hx] at h'; cases h'; exact ⟨rfl, rfl, fun _ h => .inl h, rfl, rfl, by simp, List.prefix_refl _⟩
      | some g =>
        rw [hx] at h'
        simp only at h'
        split at h'
        · by_cases hn : s2.vm.functions.length + 1 ≥ UINT_MAX / 12
          · have : createFunction s2.vm = .ub .longjmp := by
              show (if s2.vm.functions.length + 1 ≥ UINT_MAX / 12 then liftR (.ub .longjmp) else _ : M Nat) s2.vm = _
              rw [if_pos hn]; rfl
            have h2 : M.bind createFunction _ s2.vm = .ok (i, vm') := h'
            unfold M.bind at h2
            rw [this] at h2; cases h2
          · have : createFunction s2.vm = .ok (s2.vm.functions.length,
                { s2.vm with functions := s2.vm.functions ++ [{ argc := 0, first := 0, extId := UINT_MAX }] }) := by
              show (if s2.vm.functions.length + 1 ≥ UINT_MAX / 12 then liftR (.ub .longjmp) else _ : M Nat) s2.vm = _
              rw [if_neg hn]; rfl
            have h2 : M.bind createFunction _ s2.vm = .ok (i, vm') := h'
            unfold M.bind at h2
            rw [this] at h2
            cases h2
            refine ⟨rfl, rfl, fun f hf => ?_, rfl, rfl, Nat.le_refl _, ?_⟩
            · rcases List.mem_or_eq_of_mem_set hf with hf | hf
              · rcases List.mem_append.mp hf with hf | hf
                · exact .inl hf
                · rw [List.mem_singleton] at hf; rw [hf]; exact .inr rfl
              · rw [hf]; exact .inr rfl
            · show _ <+: (s2.vm.functions ++ _).set _ _
              rw [List.set_append_right _ _ (Nat.le_refl _)]; exact List.prefix_append _ _
        · cases h'; exact ⟨rfl, rfl, fun _ h => .inl h, rfl, rfl, Nat.le_refl _, List.prefix_refl _⟩
    cases hr : internalFor e s2.vm with
    | ub k => exact CSafe.ub (k := k) (by unfold onVM; rw [hr]) trivial
    | ok q =>
      obtain ⟨i, vm⟩ := q
      obtain ⟨k1, k2, k3, k4, k5, k6, k7⟩ := key i vm hr
      exact onVM_safe hr ⟨h2.vm k1 k2 k3 (CodeWF.str' h2.inv.wf.str k4 k5) k6 k7 (.of_eq k4), l2⟩
  refine (createGlobal_step trivial name h3 l3).bind fun o s4 ⟨h4, l4⟩ => ?_
  cases o with
  | none => exact CSafe.pure ⟨h4, l4⟩
  | some pos =>
    dsimp only
    by_cases hp : (s4.vm.staticMask &&& pos) < s4.vm.statics.length
    · refine CSafe.ok (a := ()) ((if_pos hp).trans rfl) ⟨?_, l4⟩
      exact h4.vm rfl rfl (fun f hf => .inl hf) (CodeWF.str' h4.inv.wf.str rfl rfl) (Nat.le_refl _) (List.prefix_refl _) (.refl _)
    · exact CSafe.ub (k := .oob) ((if_neg hp).trans rfl) trivial

/-! ## Finishing -/

theorem Entry.below {I I' : List (BitVec 32)} {n T : Nat} (hb : ∀ i, i < n → I'[i]? = I[i]?) (h : Entry I n T) : Entry I' n T :=
  ⟨h.le, h.start.keep (fun i hi _ => hb i hi) h.le, fun ht w hw => h.plain ht w (by rw [← hb T ht]; exact hw)⟩

theorem Shape.below {I I' : List (BitVec 32)} {n : Nat} (hb : ∀ i, i < n → I'[i]? = I[i]?) (h : Shape I n) : Shape I' n := by
  have hs : ∀ i, i < n → Starts I i → I'[i]? = I[i]? := fun i hi _ => hb i hi
  refine ⟨h.whole.keep hs (Nat.le_refl _), fun b w hlt hst hw hj => ?_, fun b w hlt hst hw =>
    h.known b w hlt (hst.back hs (by omega)) (by rw [← hb b hlt]; exact hw)⟩
  obtain ⟨a, d, rfl, e2, e3, e4, e5⟩ := h.jumps b w hlt (hst.back hs (by omega)) (by rw [← hb b hlt]; exact hw) hj
  exact ⟨a, d, rfl, e2.keep hs (by omega), by rw [hb a (by omega)]; exact e3, by rw [hb _ (by omega)]; exact e4, e5.below hb⟩

theorem JumpAt.below {I I' : List (BitVec 32)} {m n a : Nat} (hb : ∀ i, i < n → I'[i]? = I[i]?) (h : JumpAt m I n a) : JumpAt m I' n a := by
  have hl := h.le
  refine ⟨h.low, h.le, h.start.keep (fun i hi _ => hb i hi) (by omega), by rw [hb a (by omega)]; exact h.lit, ?_⟩
  rw [hb (a + 2) (by omega)]; exact h.jump

theorem partiallyFinalize_step (hL : B .longjmp) (h : Inv Z B s) (h1 : s.ctx.length = 1) :
    CSafe B partiallyFinalize s fun _ s' => Inv Z B s' ∧ s'.ctx = s.ctx ∧ s'.toks = s.toks ∧ s'.write = s.write ∧ s'.vm.functions = s.vm.functions ∧
      s'.vm.instrs[s'.write]? = some 20#32 ∧ Shape s'.vm.instrs (s'.write + 1) := by
  unfold partiallyFinalize
  refine CSafe.cget ?_
  rw [if_pos (by omega)]
  have e1 : ∃ g, generateGlobals s = .ok ((), { s with vm := { s.vm with globals := g } }) := by
    unfold generateGlobals
    rw [CM.cget_bind]
    obtain ⟨vm, w, ctx, d1, d2, d3, d4, d5⟩ := s
    cases ctx with
    | nil => exact absurd rfl h.wf.ctx
    | cons c cs => exact ⟨c.vars.map fun v => (v.name, v.position), rfl⟩
  obtain ⟨g, e1⟩ := e1
  refine CSafe.bind (CSafe.ok e1 (Q := fun _ s' => s' = { s with vm := { s.vm with globals := g } }) rfl) fun _ s2 e2 => CSafe.cget ?_
  have i2 : Inv Z B s2 := by rw [e2]; exact h.still rfl rfl rfl rfl rfl rfl rfl (List.suffix_refl _) (Nat.le_refl _)
  have w2 : s2.write = s.write := by rw [e2]
  have c2 : s2.ctx = s.ctx := by rw [e2]
  have t2 : s2.toks = s.toks := by rw [e2]
  have f2 : s2.vm.functions = s.vm.functions := by rw [e2]
  clear e1 e2
  rcases addInstr_run i2.wf (BitVec.ofNat 32 20) false with r | ⟨s3, r, e, _, tr, cc⟩
  · exact CSafe.ub (CM.bind_ub r) hL
  · refine CSafe.ok (a := ()) (s' := { s3 with write := s2.write }) ((CM.bind_ok r).trans rfl) ?_
    have w3 : s3.write = s2.write + 1 := e.write
    have bb := e.below
    have cc : s3.ctx = s2.ctx := by rw [cc]; rfl
    have ff : s3.vm.functions = s2.vm.functions := by rw [e.rest]
    have tt : s3.toks = s2.toks := by rw [e.rest]
    refine ⟨⟨⟨e.wf.pow, e.wf.len, ?_, e.wf.str, e.wf.ctx⟩, i2.shape.below bb, fun f hf => ?_, fun c hc a ha => ?_, fun c hc => ?_, fun t ht => ?_, ?_, ?_, ?_, ?_⟩,
      cc.trans c2, tt.trans t2, w2, ff.trans f2, ?_, ?_⟩
    · show s2.write ≤ _
      have h5 : s3.write ≤ s3.vm.instrMask := e.wf.write
      exact Nat.le_trans (by omega) h5
    · exact (i2.fns f (by rw [← ff]; exact hf)).below bb
    · exact (i2.fix c (by rw [← cc]; exact hc) a ha).below bb
    · exact i2.root c (by rw [← cc]; exact hc)
    · exact i2.good t (by rw [← tt]; exact ht)
    · exact i2.low
    · exact fun i hi => (bb i (Nat.lt_of_lt_of_le hi i2.low)).trans (i2.base i hi)
    · exact i2.lits.below i2.shape.whole bb (.of_eq tr) (by rw [e.errors]) fun i h1 h2 => absurd h2 (Nat.not_lt.mpr h1)
    · show _ <+: s3.vm.functions
      rw [ff]; exact i2.funs
    · exact e.code 0 _ rfl
    · exact (i2.shape.plain bb (e.code 0 _ rfl) (by decide) (by unfold IsJump opOf; decide) (by decide)).1

theorem compileScript_inv {F : FloatOps} {hdr : Nat} {junk : Nat → UInt8} {source file : Bytes} {b : Bool} (ih : Idle s)
    (hz : Inv Z (fun _ => True) s) {s' : CS} (r : compileScript F hdr junk source file s = .ok (b, s')) : Idle s' ∧ Inv Z (fun _ => True) s' := by
  have key : CSafe (fun _ => True) (compileScript F hdr junk source file) s fun _ s' => Idle s' ∧ Inv Z (fun _ => True) s' := by
    unfold compileScript
    refine (pushRec_step (Adv.refl hz)).bind fun ok s1 ⟨c1, h1⟩ => ?_
    cases ok with
    | false => exact CSafe.pure ⟨ih.of_adv h1.1 (by rw [c1]; exact ih.clean), h1.1.inv⟩
    | true =>
      rw [if_pos rfl]
      replace h1 := h1.1
      cases hr : Tok.tokenize hdr junk source file s1.vm with
      | ub k => exact CSafe.ub (k := k) (CM.bind_ub (by unfold onVM; rw [hr])) trivial
      | ok q =>
        obtain ⟨o, vm⟩ := q
        obtain ⟨⟨es, fs, rfl, hl⟩, q⟩ := Tok.tokenize_ret hdr junk source file s1.vm o _ hr
        have h2 : Adv Z (fun _ => True) 1 0 s { s1 with vm := { s1.vm with errors := es, sourceFiles := fs } } :=
          h1.vm rfl rfl (fun f hf => .inl hf) (CodeWF.str' h1.inv.wf.str rfl rfl) hl.length_le (List.prefix_refl _) (.refl _)
        refine CSafe.bind (CSafe.ok (by unfold onVM; rw [hr]) (Q := fun o' s' => o' = o ∧ s' = { s1 with vm := { s1.vm with errors := es, sourceFiles := fs } }) ⟨rfl, rfl⟩) fun o' s2 ⟨e1, e2⟩ => ?_
        subst e1
        rw [← e2] at h2
        have c2 : s2.ctx = s1.ctx := by rw [e2]
        cases o' with
        | none => exact pop_pure h2 fun s3 h3 c3 _ => ⟨ih.of_adv h3 (by rw [c3, c2, c1]; exact ih.clean), h3.inv⟩
        | some ts =>
          refine (compileTokens_step (B := fun _ => True) trivial trivial F (fun t h => ⟨(q t h).1, (q t h).2, fun _ => trivial⟩) h2.inv).bind
            fun b s3 ⟨i3, t3, c3, d3, _⟩ => ?_
          have := h2.depth
          refine CSafe.ok (a := b) (s' := { s3 with depth := s3.depth - 1 }) ((CM.bind_ok (popRec_run (by omega))).trans rfl) ?_
          exact ⟨⟨(i3.dep _).zero, t3, by show Clean s3.ctx; refine Clean.to ?_ c3; rw [c2, c1]; exact ih.clean⟩, i3.dep _⟩
  exact key.post r

theorem Turn.inv {F : FloatOps} (ih : Idle s) (hq : Z.Quiet) (hz : Inv Z (fun _ => True) s) {s' : CS} (st : Turn F s s') :
    Idle s' ∧ Inv Z (fun _ => True) s' := by
  cases st with
  | tokens ht r =>
    have := (compileTokens_step (B := fun _ => True) trivial trivial F (fun t h => ⟨(ht t h).1, (ht t h).2, fun _ => trivial⟩) hz).post r
    exact ⟨⟨this.1.zero, this.2.1, ih.clean.to this.2.2.1⟩, this.1⟩
  | script r => exact compileScript_inv ih hz r
  | global r =>
    have := (createGlobal_step trivial _ (Adv.refl hz) ih.clean).post r
    exact ⟨ih.of_adv this.1 this.2, this.1.inv⟩
  | native r =>
    have := (createCFunction_step (Adv.refl hz) ih.clean).post r
    exact ⟨ih.of_adv this.1 this.2, this.1.inv⟩
  | finish r =>
    have := (partiallyFinalize_step trivial hz ih.one).post r
    exact ⟨⟨this.1.zero, this.2.2.1.trans ih.toks, by rw [this.2.1]; exact ih.clean⟩, this.1⟩
  | @run vm c =>
    have key : Inv Z (fun _ => True) { s with vm := vm } := by
      refine ⟨⟨?_, ?_, ?_, c.strings, ih.inv.wf.ctx⟩, ?_, ?_, ?_, ih.inv.root, ih.inv.good, hz.low, ?_, hq.lits ih.inv.wf.lt, hz.funs.trans c.kept⟩
      · show ∃ k, k ≤ 29 ∧ vm.instrMask + 1 = _; rw [c.mask]; exact ih.inv.wf.pow
      · show vm.instrs.length = vm.instrMask + 1; rw [c.instrs, c.mask]; exact ih.inv.wf.len
      · show _ ≤ vm.instrMask; rw [c.mask]; exact ih.inv.wf.write
      · show Shape vm.instrs s.write; rw [c.instrs]; exact ih.inv.shape
      · intro f hf
        show Entry vm.instrs s.write f.first
        rw [c.instrs]
        rcases c.fns f hf with hf | hf
        · exact ih.inv.fns f hf
        · rw [hf]; exact ih.inv.shape.zero
      · show ∀ c ∈ s.ctx, ∀ a ∈ c.fixups, JumpAt Z.n vm.instrs s.write a; rw [c.instrs]; exact hz.fix
      · show ∀ i, i < Z.n → vm.instrs[i]? = _; rw [c.instrs]; exact hz.base
    exact ⟨⟨key.zero, ih.toks, ih.clean⟩, key⟩

theorem After.inv {F : FloatOps} (h : Idle s) (hq : Z.Quiet) (hz : Inv Z (fun _ => True) s) {s' : CS} (a : After F s s') :
    Idle s' ∧ Inv Z (fun _ => True) s' := by
  induction a with
  | refl => exact ⟨h, hz⟩
  | step _ r ih => exact r.inv ih.1 hq ih.2

/-- Going back to an earlier state of the program and clearing the errors. -/
theorem Idle.cleared {Z : Base} (h : Idle s) (i : Inv Z (fun _ => True) s) (hz : Z.n ≤ s.write) (sh : Shape Z.code Z.n)
    (hf : ∀ f ∈ s.vm.functions, Entry Z.code Z.n f.first) {t : CS} (r : clearRepl Z.n s = .ok ((), t)) : Idle t := by
  obtain ⟨e, ht⟩ := clearRepl_frame r
  obtain ⟨hip, hv⟩ := clearReplErrors_frame e
  generalize t.vm = v at *
  subst ht
  have hb : ∀ j, j < Z.n → v.instrs[j]? = Z.code[j]? := fun j hj => by
    rw [hv]
    exact (List.getElem?_set_ne (by omega)).trans (i.base j hj)
  have hw := i.wf.write
  refine ⟨⟨⟨?_, ?_, ?_, ?_, h.inv.wf.ctx⟩, sh.below hb, fun f hf' => ?_, fun c hc a ha => ?_, h.inv.root, h.inv.good, Nat.zero_le _, (fun _ hi => nomatch hi),
    Base.Quiet.lits ⟨Nat.le_refl _, rfl⟩ (Nat.lt_of_le_of_lt hz i.wf.lt), List.nil_prefix⟩, h.toks, h.clean⟩
  · show ∃ k, k ≤ 29 ∧ v.instrMask + 1 = _
    rw [hv]; exact i.wf.pow
  · show v.instrs.length = v.instrMask + 1
    rw [hv]; exact (List.length_set ..).trans i.wf.len
  · show Z.n ≤ v.instrMask
    rw [hv]
    exact Nat.le_trans hz hw
  · show StrWF v
    rw [hv]; exact CodeWF.str' i.wf.str rfl rfl
  · refine (hf f ?_).below hb
    have : v.functions = s.vm.functions := by rw [hv]
    rw [← this]; exact hf'
  · obtain ⟨c', hc', _, hfx⟩ := h.clean
    have hc : c ∈ s.ctx := hc
    rw [hc', List.mem_singleton] at hc
    subst hc
    rw [hfx] at ha; cases ha

theorem Session.idle {F : FloatOps} (h : Session F s) : Idle s := by
  induction h with
  | @start vm h =>
    refine ⟨⟨⟨⟨2, by decide, ?_⟩, ?_, by show 0 ≤ _; omega, h.strings, by simp [createCompiler]⟩, ⟨.first, ?_, fun b w hb => nomatch hb⟩, fun f hf => ?_, ?_, ?_, ?_, Nat.zero_le _, (fun _ hi => nomatch hi),
      Base.Quiet.lits ⟨Nat.le_refl _, rfl⟩ (by show 0 < _; decide), List.nil_prefix⟩, rfl, ⟨_, rfl, rfl, rfl⟩⟩
    · show vm.instrMask + 1 = _; rw [h.mask]; rfl
    · show vm.instrs.length = vm.instrMask + 1; rw [h.mask, h.instrs]; rfl
    · intro b w hb; cases hb
    · rw [h.fns f hf]
      exact ⟨Nat.le_refl _, .first, fun h => by cases h⟩
    · intro c hc a ha
      simp only [createCompiler, List.mem_singleton] at hc
      rw [hc] at ha; cases ha
    · intro c hc; cases hc; rfl
    · intro t ht; cases ht
  | tokens h ht r ih => exact ((Turn.tokens ht r).inv ih ⟨Nat.le_refl _, rfl⟩ ih.inv).1
  | script h r ih => exact ((Turn.script (F := F) r).inv ih ⟨Nat.le_refl _, rfl⟩ ih.inv).1
  | global h r ih => exact ((Turn.global (F := F) r).inv ih ⟨Nat.le_refl _, rfl⟩ ih.inv).1
  | native h r ih => exact ((Turn.native (F := F) r).inv ih ⟨Nat.le_refl _, rfl⟩ ih.inv).1
  | finish h r ih => exact ((Turn.finish (F := F) r).inv ih ⟨Nat.le_refl _, rfl⟩ ih.inv).1
  | run h c ih => exact ((Turn.run (F := F) c).inv ih ⟨Nat.le_refl _, rfl⟩ ih.inv).1
  | @clear s s' t h a hf r ih =>
    have hi := After.inv ih (Z := Base.kept s) ⟨Nat.le_refl _, rfl⟩ (ih.kept fun _ => True) a
    exact hi.1.cleared (Z := Base.kept s) hi.2 hi.2.low ih.inv.shape (fun f hf' => by
      rcases hf f hf' with h | h
      · exact ih.inv.fns f h
      · rw [h]; exact ih.inv.shape.zero) r

theorem Session.after {F : FloatOps} (h : Session F s) {s' : CS} (a : After F s s') : Session F s' := by
  induction a with
  | refl => exact h
  | step _ r ih =>
    cases r with
    | tokens ht r => exact ih.tokens ht r
    | script r => exact ih.script r
    | global r => exact ih.global r
    | native r => exact ih.native r
    | finish r => exact ih.finish r
    | run c => exact ih.run c

end Nk.Cc
