import Verif.Lemmas.StmtRun
import Verif.Props.Parse
/-!
# What the compiler emits for statements
-/
namespace Nk.Cc
open Nk.Props
variable {β : Type}

/-! ## Growing code -/

/-- From `s` to `s'` code was added; `fx` are the addresses of the jumps in it that `break` still has to be given a target. -/
structure Grow (s s' : CS) (fx : List Nat) : Prop where
  wf : CodeWF s'
  le : s.write ≤ s'.write
  below : ∀ i, i < s.write → s'.vm.instrs[i]? = s.vm.instrs[i]?
  fix : ∀ a ∈ fx, s.write ≤ a ∧ a + 3 ≤ s'.write
  lits : ∀ W, Lits s'.vm W → Lits s.vm W
  fns : s'.vm.functions = s.vm.functions
  stat : s.staticCount ≤ s'.staticCount

theorem Grow.trans {a b c : CS} {f g : List Nat} (h : Grow a b f) (k : Grow b c g) : Grow a c (f ++ g) :=
  ⟨k.wf, Nat.le_trans h.le k.le, fun i hi => (k.below i (Nat.lt_of_lt_of_le hi h.le)).trans (h.below i hi), fun x hx => by
    rcases List.mem_append.mp hx with hx | hx
    · have := h.fix x hx; have := k.le; omega
    · have := k.fix x hx; have := h.le; omega, fun W hW => h.lits W (k.lits W hW), k.fns.trans h.fns, Nat.le_trans h.stat k.stat⟩

theorem Grow.trans0 {a b c : CS} {f : List Nat} (h : Grow a b f) (k : Grow b c []) : Grow a c f := by
  have := h.trans k; rwa [List.append_nil] at this

/-- A step that adds code without open jumps and declares nothing. -/
structure Line (s s' : CS) : Prop where
  grow : Grow s s' []
  stat : s'.staticCount = s.staticCount
  depth : s'.depth = s.depth
  toks : s'.toks = s.toks

theorem Line.trans {a b c : CS} (h : Line a b) (k : Line b c) : Line a c :=
  ⟨h.grow.trans0 k.grow, k.stat.trans h.stat, k.depth.trans h.depth, k.toks.trans h.toks⟩

theorem Emit.line {s s' : CS} {ws : List (BitVec 32)} (h : Emit s ws s') (hd : s'.depth = s.depth) : Line s s' := by
  refine ⟨⟨h.wf, by rw [h.write]; omega, h.below, by simp, h.lits, ?_, ?_⟩, ?_, hd, ?_⟩
  · rw [h.rest]
  · rw [h.rest]
    first | done | exact Nat.le_refl _
  · rw [h.rest]
  · rw [h.rest]

/-- A change of the tokens, the position and the recursion count. -/
structure Moved (s s' : CS) : Prop where
  grow : Grow s s' []
  write : s'.write = s.write
  ctx : s'.ctx = s.ctx
  stat : s'.staticCount = s.staticCount
  errors : s'.vm.errors = s.vm.errors

theorem Moved.trans {a b c : CS} (h : Moved a b) (k : Moved b c) : Moved a c :=
  ⟨h.grow.trans0 k.grow, k.write.trans h.write, k.ctx.trans h.ctx, k.stat.trans h.stat, k.errors.trans h.errors⟩

theorem CodeWF.str' {vm vm' : VM} (h : StrWF vm) (h1 : vm'.strings = vm.strings) (h2 : vm'.sbuckets = vm.sbuckets) : StrWF vm' :=
  ⟨by rw [h1]; exact h.tab, by rw [h2]; exact h.blen, by rw [h2]; exact h.nodup, by rw [h1, h2]; exact h.mem, by rw [h1]; exact h.hash,
    by rw [h1, h2]; exact h.bucket, by rw [h1]; exact h.inj⟩

theorem moved_read {s s' : CS} {rest : List Token} (hw : CodeWF s) (h : ReadTo s s' rest) : Moved s s' ∧ s'.toks = rest ∧ s'.depth = s.depth := by
  obtain ⟨a, b, c, rfl⟩ := h
  exact ⟨⟨⟨⟨hw.pow, hw.len, hw.write, CodeWF.str' hw.str rfl rfl, hw.ctx⟩, Nat.le_refl _, fun _ _ => rfl, by simp, fun _ h => h, rfl,
    Nat.le_refl _⟩, rfl, rfl, rfl, rfl⟩, rfl, rfl⟩

theorem moved_depth {s : CS} (hw : CodeWF s) (n : Nat) : Moved s { s with depth := n } :=
  ⟨⟨hw.depth n, Nat.le_refl _, fun _ _ => rfl, by simp, fun _ h => h, rfl, Nat.le_refl _⟩, rfl, rfl, rfl, rfl⟩

theorem moved_skip {s : CS} (hw : CodeWF s) {t : Token} {rest : List Token} (h : s.toks = t :: rest) :
    Moved s (skip 1 s) ∧ (skip 1 s).toks = rest ∧ (skip 1 s).depth = s.depth := by
  have := moved_read hw (skip_readTo 1 s)
  rwa [h] at this

theorem expectSkip_bind {s : CS} {t : Token} {ts : List Token} {ty : TokType} (h : s.toks = t :: ts) (ht : t.type = ty) (f : Bool → CM β) :
    (expectSkip ty >>= f) s = f true (skip 1 s) := CM.bind_ok (expectSkip_run h ht)

theorem expectStmt_run {s : CS} {t : Token} {ts : List Token} {ty : TokType} (h : s.toks = t :: ts) (ht : t.type = ty) (k : CM Bool) :
    expectStmt ty k s = k (skip 1 s) := by
  unfold expectStmt
  rw [expectSkip_bind h ht]; rfl

theorem expectLoop_run {s : CS} {t : Token} {ts : List Token} {ty : TokType} (h : s.toks = t :: ts) (ht : t.type = ty) (n : Nat) (k : CM Bool) :
    expectLoop ty n k s = k (skip 1 s) := by
  unfold expectLoop
  rw [expectSkip_bind h ht]; rfl

/-! ## Expressions -/

theorem expand_inv : ∀ (v : Node) (d : Bool) {s s' : CS} {w : Node}, expand v d s = .ok (w, s') → s'.vm.errors = s.vm.errors →
    w = unfoldIncDec v d ∧ s' = s
  | .nil, d, s, s', w, h, he => by
    rw [expand] at h
    obtain ⟨rfl, rfl⟩ := pure_inv h
    exact ⟨rfl, rfl⟩
  | .mk tok root l r, d, s, s', w, h, he => by
    rw [expand] at h
    have h := pushRec_same (by intro a; cmono) h he
    rw [if_pos rfl] at h
    rw [unfoldIncDec]
    split at h
    · next hi =>
      rw [if_pos hi]
      split at h
      · cases h
      · obtain ⟨_, h⟩ := popRec_inv h
        obtain ⟨rfl, rfl⟩ := pure_inv h
        exact ⟨rfl, rfl⟩
    · next hi =>
      rw [if_neg hi]
      obtain ⟨l', s1, h1, h2, e1, e2⟩ := CM.bind_same (expand_mono _ _) (by intro a; cmono) h he
      obtain ⟨rfl, rfl⟩ := expand_inv l false h1 e1
      obtain ⟨r', s2, h3, h4, e3, e4⟩ := CM.bind_same (expand_mono _ _) (by intro a; cmono) h2 e2
      obtain ⟨rfl, rfl⟩ := expand_inv r false h3 e3
      obtain ⟨_, h4⟩ := popRec_inv h4
      obtain ⟨rfl, rfl⟩ := pure_inv h4
      exact ⟨rfl, rfl⟩

theorem compileNoEmit_inv {F : FloatOps} {fd : CM (Option Nat)} (hfd : CMono fd) {discard : Bool} {s s' : CS} {v : Node} {k : Nat}
    {ts rest : List Token} {e : Ex} (src : ExSrc F k discard ts e) (ht : s.toks = ts ++ rest) (hend : isEnd rest = true)
    (hd : s.depth + 1 + 2 * k ≤ 257) (hw : CodeWF s) (h : compileNoEmit F fd discard s = .ok (v, s')) (h0 : s.vm.errors = [])
    (he : s'.vm.errors = []) : v = e.node ∧ Moved s s' ∧ s'.toks = rest ∧ s'.depth = s.depth := by
  obtain ⟨u, src, opt⟩ := src
  unfold compileNoEmit at h
  have he' : s'.vm.errors = s.vm.errors := he.trans h0.symm
  have h := pushRec_same (by intro a; have := parseExpr_mono hfd maxDepth; cmono) h he'
  rw [if_pos rfl] at h
  obtain ⟨s1, p1, p2⟩ := C48_parse fd src (s := { s with depth := s.depth + 1 }) (rest := rest) ht hend hd
  rw [CM.bind_ok p1] at h
  obtain ⟨m, m2, m3⟩ := moved_read (hw.depth _) p2
  obtain ⟨w, s2, h1, h2, e1, e2⟩ := CM.bind_same (expand_mono _ _) (by intro a; cmono) h (he'.trans m.errors.symm)
  obtain ⟨rfl, rfl⟩ := expand_inv u discard h1 e1
  rw [opt] at h2
  dsimp only at h2
  rw [CM.cget_bind] at h2
  obtain ⟨_, h3⟩ := popRec_inv h2
  have e3 : s2.vm.errors = [] := m.errors.trans h0
  rw [if_pos e3] at h3
  obtain ⟨rfl, rfl⟩ := pure_inv h3
  have m4 := ((moved_depth hw (s.depth + 1)).trans m).trans (moved_depth m.grow.wf (s2.depth - 1))
  exact ⟨rfl, m4, m2, by show s2.depth - 1 = _; rw [m3]; show s.depth + 1 - 1 = _; omega⟩

/-- Compiling an expression. -/
theorem compileExpr_inv {F : FloatOps} (H : Host) {fd : CM (Option Nat)} (hfd : CMono fd) {discard : Bool} {s s' : CS} {r : Bool} {k : Nat}
    {ts rest : List Token} {e : Ex} (src : ExSrc F k discard ts e) (ht : s.toks = ts ++ rest) (hend : isEnd rest = true)
    (hd : s.depth + 2 + 2 * k ≤ 257) (hw : CodeWF s) (ho : offOf s.ctx + e.size < 4294967296)
    (h : compileExpr F fd discard s = .ok (r, s')) (h0 : s.vm.errors = []) (he : s'.vm.errors = []) :
    r = true ∧ s'.toks = rest ∧ s'.depth = s.depth ∧ s'.ctx = setOff (offOf s.ctx + 1) s.ctx ∧ Grow s s' [] ∧
      s'.staticCount = s.staticCount ∧ ∃ ws, s'.write = s.write + ws.length ∧
      (∀ i w, ws[i]? = some w → s'.vm.instrs[s.write + i]? = some w) ∧ ∀ b, SimX F H s'.vm (placeOf s.ctx) b (offOf s.ctx) ws e := by
  unfold compileExpr at h
  have he' : s'.vm.errors = s.vm.errors := he.trans h0.symm
  have mn := compileNoEmit_mono hfd F discard
  have h := pushRec_same (by intro a; cmono) h he'
  rw [if_pos rfl] at h
  obtain ⟨v, s1, h1, h2, e1, e2⟩ := CM.bind_same mn (by intro a; cmono) h he'
  obtain ⟨rfl, m, m2, m3⟩ := compileNoEmit_inv hfd src (s := { s with depth := s.depth + 1 }) ht hend (by show s.depth + 1 + 1 + _ ≤ _; omega)
    (hw.depth _) h1 h0 (e1.trans h0)
  rw [if_neg e.node_ne] at h2
  obtain ⟨r', s2, h3, h4, e3, e4⟩ := CM.bind_same (emitExpr_mono F _) (by intro a; cmono) h2 e2
  obtain ⟨rfl, ws, c, x⟩ := emit_ex F H e m.grow.wf (by rw [m.ctx]; exact ho) h3 e3
  obtain ⟨rfl, _, rfl⟩ := popTrue_inv h4
  have d1 : s2.depth - 1 = s.depth := by rw [c.depth, m3]; show s.depth + 1 - 1 = _; omega
  have l1 := c.emit.line c.depth
  have g := (((moved_depth hw (s.depth + 1)).trans m).grow.trans0 l1.grow).trans0 (moved_depth l1.grow.wf (s2.depth - 1)).grow
  refine ⟨rfl, l1.toks.trans m2, d1, ?_, g, l1.stat.trans m.stat, ws, c.emit.write.trans (by rw [m.write]), ?_, ?_⟩
  · show s2.ctx = _; rw [c.ctx, m.ctx]
  · have := c.emit.code; rwa [m.write] at this
  · have := x; rw [m.ctx] at this; exact this

/-! ## Contexts -/

/-- Add jumps to be given a target to the innermost loop. -/
def withFix (fx : List Nat) : List CCtx → List CCtx
  | [] => []
  | c :: cs => if c.isLoop then { c with fixups := c.fixups ++ fx } :: cs else c :: withFix fx cs

@[simp] theorem withFix_nil (l : List CCtx) : withFix [] l = l := by
  induction l with
  | nil => rfl
  | cons c cs ih => unfold withFix; split <;> simp [ih]

theorem withFix_append (f g : List Nat) (l : List CCtx) : withFix g (withFix f l) = withFix (f ++ g) l := by
  induction l with
  | nil => rfl
  | cons c cs ih =>
    by_cases h : c.isLoop = true <;> simp [withFix, h, ih]

theorem withFix_setOff (f : List Nat) (k : Nat) (l : List CCtx) : withFix f (setOff k l) = setOff k (withFix f l) := by
  cases l with
  | nil => rfl
  | cons c cs => by_cases h : c.isLoop = true <;> simp [withFix, setOff, h]

@[simp] theorem withFix_eq_nil {f : List Nat} {l : List CCtx} : withFix f l = [] ↔ l = [] := by
  cases l with
  | nil => simp [withFix]
  | cons c cs => by_cases h : c.isLoop = true <;> simp [withFix, h]

@[simp] theorem offOf_withFix (f : List Nat) (l : List CCtx) : offOf (withFix f l) = offOf l := by
  cases l with
  | nil => rfl
  | cons c cs => by_cases h : c.isLoop = true <;> simp [withFix, offOf, h]

@[simp] theorem loopOff_withFix (f : List Nat) (l : List CCtx) : loopOff (withFix f l) = loopOff l := by
  induction l with
  | nil => rfl
  | cons c cs ih => by_cases h : c.isLoop = true <;> simp [withFix, loopOff, h, ih]

@[simp] theorem tail_withFix (f : List Nat) (l : List CCtx) : (withFix f l).tail = [] ↔ l.tail = [] := by
  cases l with
  | nil => rfl
  | cons c cs => by_cases h : c.isLoop = true <;> simp [withFix, h]

@[simp] theorem tail_setOff (k : Nat) (l : List CCtx) : (setOff k l).tail = l.tail := by cases l <;> rfl

theorem findCtx_withFix (f : List Nat) (x : Bytes) (l : List CCtx) : findCtx x (withFix f l) = findCtx x l := by
  induction l with
  | nil => rfl
  | cons c cs ih => by_cases h : c.isLoop = true <;> simp [withFix, findCtx, h, ih]

theorem findCtx_setOff (k : Nat) (x : Bytes) (l : List CCtx) : findCtx x (setOff k l) = findCtx x l := by cases l <;> rfl

@[simp] theorem placeOf_withFix (f : List Nat) (l : List CCtx) : placeOf (withFix f l) = placeOf l := by
  funext x; unfold placeOf; rw [findCtx_withFix]

attribute [simp] placeOf_setOff

@[simp] theorem fnArgs_withFix (f : List Nat) (fns : List Func) (l : List CCtx) : fnArgs fns (withFix f l) = fnArgs fns l := by
  unfold fnArgs
  induction l with
  | nil => rfl
  | cons c cs ih =>
    by_cases h : c.isLoop = true
    · simp only [withFix, h, if_true, findFn]
      by_cases hf : c.fnId = UINT_MAX <;> simp [hf]
    · simp only [withFix, h, findFn]
      by_cases hf : c.fnId = UINT_MAX
      · simp [hf, ih, findFn]
      · simp [hf, findFn]

@[simp] theorem fnArgs_setOff (k : Nat) (fns : List Func) (l : List CCtx) : fnArgs fns (setOff k l) = fnArgs fns l := by
  unfold fnArgs
  cases l with
  | nil => rfl
  | cons c cs =>
    simp only [setOff, findFn]
    by_cases hf : c.fnId = UINT_MAX <;> simp [hf]

/-- The context inside of a block. -/
def inCtx (l : List CCtx) : CCtx := { vars := [], offset := offOf l, fnId := UINT_MAX, isLoop := false, fixups := [] }

theorem pushCtx_eq (s : CS) : pushCtx s = .ok ((), { s with ctx := inCtx s.ctx :: s.ctx }) := by
  unfold pushCtx cmod inCtx offOf
  cases h : s.ctx <;> simp [h]

@[simp] theorem placeOf_in (l : List CCtx) : placeOf (inCtx l :: l) = placeOf l := rfl
@[simp] theorem fnArgs_in (fns : List Func) (l : List CCtx) : fnArgs fns (inCtx l :: l) = fnArgs fns l := by
  simp [fnArgs, inCtx, findFn]
@[simp] theorem loopOff_in (l : List CCtx) : loopOff (inCtx l :: l) = loopOff l := rfl

/-- Code was added, and the stack offset is now `k`. -/
structure Seg (s s' : CS) (fx : List Nat) (k : Nat) : Prop where
  grow : Grow s s' fx
  ctx : s'.ctx = withFix fx (setOff k s.ctx)
  stat : s'.staticCount = s.staticCount

theorem loopOff_setOff {l : List CCtx} {k : Nat} (h : ∀ c cs, l = c :: cs → c.isLoop = false) : loopOff (setOff k l) = loopOff l := by
  cases l with
  | nil => rfl
  | cons c cs => simp [setOff, loopOff, h c cs rfl]

theorem head_setOff {l : List CCtx} {k : Nat} (h : ∀ c cs, l = c :: cs → c.isLoop = false) :
    ∀ c cs, setOff k l = c :: cs → c.isLoop = false := by
  cases l with
  | nil => intro c cs h; cases h
  | cons c cs => intro a as e; cases e; exact h c cs rfl

theorem head_withFix {l : List CCtx} {f : List Nat} (h : ∀ c cs, l = c :: cs → c.isLoop = false) :
    ∀ c cs, withFix f l = c :: cs → c.isLoop = false := by
  cases l with
  | nil => intro c cs h; cases h
  | cons c cs =>
    intro a as e
    simp only [withFix, h c cs rfl] at e
    cases e; exact h c cs rfl

theorem Seg.trans {a b c : CS} {f g : List Nat} {k m : Nat} (h : Seg a b f k) (j : Seg b c g m) : Seg a c (f ++ g) m :=
  ⟨h.grow.trans j.grow, by rw [j.ctx, h.ctx, ← withFix_append, withFix_setOff, withFix_setOff, withFix_setOff, withFix_setOff, setOff_setOff, withFix_setOff],
    j.stat.trans h.stat⟩

theorem Seg.trans0 {a b c : CS} {f : List Nat} {k m : Nat} (h : Seg a b f k) (j : Seg b c [] m) : Seg a c f m := by
  have := h.trans j; rwa [List.append_nil] at this

theorem Seg.off {s s' : CS} {f : List Nat} {k : Nat} (h : Seg s s' f k) (hw : CodeWF s) : offOf s'.ctx = k := by
  rw [h.ctx, offOf_withFix, offOf_setOff _ hw.ctx]

theorem Seg.place {s s' : CS} {f : List Nat} {k : Nat} (h : Seg s s' f k) : placeOf s'.ctx = placeOf s.ctx := by
  rw [h.ctx, placeOf_withFix, placeOf_setOff]

theorem Seg.env {s s' : CS} {f : List Nat} (h : Seg s s' f (offOf s.ctx)) : envOf s' = envOf s := by
  unfold envOf
  have e := h.ctx
  rw [setOff_off] at e
  rw [e, h.stat]
  simp

theorem Seg.refl {s : CS} (h : CodeWF s) : Seg s s [] (offOf s.ctx) :=
  ⟨⟨h, Nat.le_refl _, fun _ _ => rfl, by simp, fun _ h => h, rfl, Nat.le_refl _⟩, by simp, rfl⟩

theorem Moved.seg {s s' : CS} (h : Moved s s') : Seg s s' [] (offOf s.ctx) :=
  ⟨h.grow, by rw [h.ctx]; simp, h.stat⟩

theorem Pre.seg {s s' : CS} {f : List Nat} {k : Nat} (h : Pre s) (g : Seg s s' f k) (he : s'.vm.errors = []) (hk : offOf s.ctx ≤ k) : Pre s' := by
  refine ⟨g.grow.wf, he, ?_, ?_, ?_, by rw [g.stat]; exact h.stat⟩
  · rw [g.ctx]; exact head_withFix (head_setOff h.head)
  · rw [g.off h.wf, g.ctx, loopOff_withFix, loopOff_setOff h.head]; exact Nat.le_trans h.loop hk
  · intro a ha
    rw [g.ctx, fnArgs_withFix, fnArgs_setOff, g.grow.fns] at ha
    rw [g.off h.wf]; exact Nat.le_trans (h.ret a ha) hk

theorem Pre.moved {s s' : CS} (h : Pre s) (g : Moved s s') : Pre s' := h.seg g.seg (g.errors.trans h.errs) (Nat.le_refl _)

/-! ## The finished code -/

/-- The code from `lo` to `hi` is in `I` as it is in `J`, except that the jumps at the addresses in `js` lead where `js` says. -/
structure Loaded (I : List (BitVec 32)) (lo hi : Nat) (J : List (BitVec 32)) (js : List (Nat × Nat)) : Prop where
  code : ∀ i, lo ≤ i → i < hi → (∀ x ∈ js, i ≠ x.1 + 1) → I[i]? = J[i]?
  jumps : ∀ x ∈ js, I[x.1 + 1]? = some (jumpWord x.2 x.1)

/-- A part of the code. -/
theorem Loaded.sub {I J J' : List (BitVec 32)} {lo hi lo' hi' : Nat} {js js' : List (Nat × Nat)} (h : Loaded I lo hi J js) (h1 : lo ≤ lo')
    (h2 : hi' ≤ hi) (hJ : ∀ i, lo' ≤ i → i < hi' → J[i]? = J'[i]?) (hin : ∀ x ∈ js', x ∈ js)
    (hout : ∀ x ∈ js, x ∉ js' → x.1 + 1 < lo' ∨ hi' ≤ x.1 + 1) : Loaded I lo' hi' J' js' :=
  ⟨fun i a b c => (h.code i (by omega) (by omega) fun x hx => by
      by_cases hx' : x ∈ js'
      · exact c x hx'
      · have := hout x hx hx'; omega).trans (hJ i a b), fun x hx => h.jumps x (hin x hx)⟩

/-- The jumps of `break`. -/
def toT (fx : List Nat) (T : Nat) : List (Nat × Nat) := fx.map fun a => (a, T)

theorem mem_toT {fx : List Nat} {T : Nat} {x : Nat × Nat} : x ∈ toT fx T ↔ x.1 ∈ fx ∧ x.2 = T := by
  obtain ⟨a, b⟩ := x
  unfold toT
  simp only [List.mem_map, Prod.mk.injEq]
  constructor
  · rintro ⟨c, h, rfl, rfl⟩; exact ⟨h, rfl⟩
  · rintro ⟨h, rfl⟩; exact ⟨a, h, rfl, rfl⟩

@[simp] theorem toT_nil (T : Nat) : toT [] T = [] := rfl
@[simp] theorem toT_append (f g : List Nat) (T : Nat) : toT (f ++ g) T = toT f T ++ toT g T := by simp [toT]

/-- The code that was written at some time, seen later. -/
theorem Loaded.at {I J : List (BitVec 32)} {lo hi : Nat} {js : List (Nat × Nat)} (h : Loaded I lo hi J js) {i : Nat} {w : BitVec 32}
    (hJ : J[i]? = some w) (h1 : lo ≤ i) (h2 : i < hi) (h3 : ∀ x ∈ js, i ≠ x.1 + 1) : I[i]? = some w := (h.code i h1 h2 h3).trans hJ

/-- The jumps in `fx` have been given the target `T`. -/
structure Patch (s s' : CS) (fx : List Nat) (T : Nat) : Prop where
  same : ∀ i, (∀ a ∈ fx, i ≠ a + 1) → s'.vm.instrs[i]? = s.vm.instrs[i]?
  set : ∀ a ∈ fx, s'.vm.instrs[a + 1]? = some (jumpWord T a)
  rest : s' = { s with vm := { s.vm with instrs := s'.vm.instrs } }
  len : s'.vm.instrs.length = s.vm.instrs.length

theorem Patch.wf {s s' : CS} {fx : List Nat} {T : Nat} (h : Patch s s' fx T) (w : CodeWF s) : CodeWF s' := by
  have e := h.rest
  have l := h.len
  generalize s'.vm.instrs = q at *
  subst e
  exact ⟨w.pow, by show q.length = _; rw [l]; exact w.len, w.write, CodeWF.str' w.str rfl rfl, w.ctx⟩

theorem Patch.refl (s : CS) (T : Nat) : Patch s s [] T := ⟨fun _ _ => rfl, by simp, rfl, rfl⟩

theorem Patch.trans {a b c : CS} {f g : List Nat} {T : Nat} (h : Patch a b f T) (k : Patch b c g T) : Patch a c (f ++ g) T := by
  refine ⟨fun i hi => ?_, fun x hx => ?_, ?_, k.len.trans h.len⟩
  · rw [k.same i fun x hx => hi x (List.mem_append_right _ hx), h.same i fun x hx => hi x (List.mem_append_left _ hx)]
  · by_cases hg : x ∈ g
    · exact k.set x hg
    · rw [k.same _ fun y hy e => hg (by have : x = y := by omega
                                        rwa [this])]
      exact h.set x ((List.mem_append.mp hx).resolve_right hg)
  · have e1 := h.rest
    have e2 := k.rest
    generalize c.vm.instrs = q at *
    generalize b.vm.instrs = r at *
    rw [e2, e1]

theorem Patch.grow {s s1 s' : CS} {fx g : List Nat} {T : Nat} (p : Patch s1 s' g T) (h : Grow s s1 fx) (hg : ∀ a ∈ g, s.write ≤ a) : Grow s s' fx := by
  have e := p.rest
  have w := p.wf h.wf
  have sm := p.same
  generalize s'.vm.instrs = q at *
  subst e
  refine ⟨w, h.le, fun i hi => ?_, h.fix, h.lits, h.fns, h.stat⟩
  have := sm i fun a ha => by have := hg a ha; omega
  exact this.trans (h.below i hi)

theorem Patch.seg {s s1 s' : CS} {fx g : List Nat} {T k : Nat} (p : Patch s1 s' g T) (h : Seg s s1 fx k) (hg : ∀ a ∈ g, s.write ≤ a) :
    Seg s s' fx k := by
  refine ⟨p.grow h.grow hg, ?_, ?_⟩
  · rw [p.rest]; exact h.ctx
  · rw [p.rest]; exact h.stat

/-- Before the jumps were given their target. -/
theorem Patch.loaded {s s' : CS} {g : List Nat} {T : Nat} (p : Patch s s' g T) {I : List (BitVec 32)} {lo hi : Nat} {js : List (Nat × Nat)}
    (h : Loaded I lo hi s'.vm.instrs js) (hg : ∀ a ∈ g, lo ≤ a + 1 ∧ a + 1 < hi ∧ ∀ x ∈ js, x.1 ≠ a) :
    Loaded I lo hi s.vm.instrs (toT g T ++ js) := by
  refine ⟨fun i a b c => ?_, fun x hx => ?_⟩
  · rw [h.code i a b fun x hx => c x (List.mem_append_right _ hx)]
    exact p.same i fun a ha => c (a, T) (List.mem_append_left _ (mem_toT.mpr ⟨ha, rfl⟩))
  · rcases List.mem_append.mp hx with hx | hx
    · obtain ⟨h1, rfl⟩ := mem_toT.mp hx
      obtain ⟨k1, k2, k3⟩ := hg _ h1
      exact h.at (p.set _ h1) k1 k2 fun y hy e => k3 y hy (by omega)
    · exact h.jumps x hx

theorem modifyJump_inv {s s' : CS} (h : CodeWF s) {a T : Nat} (ha : a + 3 ≤ s.write) (he : modifyJump a T s = .ok ((), s')) :
    Patch s s' [a] T := by
  have hs := h.small
  have hw := h.write
  obtain ⟨k, hk, e⟩ := h.pow
  have mask : ∀ x, x < s.vm.instrMask + 1 → s.vm.instrMask &&& x = x := by
    intro x hx
    rw [e] at hx
    rw [show s.vm.instrMask = 2 ^ k - 1 by omega, Nat.and_comm, Nat.and_two_pow_sub_one_eq_mod, Nat.mod_eq_of_lt hx]
  unfold modifyJump at he
  obtain ⟨p, s1, h1, he1⟩ := CM.bind_inv he
  obtain ⟨j, s2, h2, he2⟩ := CM.bind_inv he1
  clear he he1
  have e1 : s1 = s := by
    unfold instrWord at h1; split at h1 <;> cases h1; rfl
  subst e1
  have e2 : s2 = s1 := by
    unfold instrWord at h2; split at h2 <;> cases h2; rfl
  subst e2
  split at he2
  · rw [CM.cget_bind] at he2
    have e3 : u32 (a + 1) = a + 1 := by unfold u32 U32; omega
    rw [e3, mask _ (by omega)] at he2
    unfold writeInstr at he2
    split at he2
    · cases he2
      refine ⟨fun i hi => ?_, fun x hx => ?_, rfl, by simp⟩
      · show (s2.vm.instrs.set (a + 1) _)[i]? = _
        rw [List.getElem?_set_ne (fun e => hi a (by simp) e.symm)]
      · rw [List.mem_singleton] at hx
        subst hx
        show (s2.vm.instrs.set (x + 1) _)[x + 1]? = _
        rw [List.getElem?_set_self (by assumption)]
        rfl
    · cases he2
  · cases he2

theorem jumpHere_inv {s s' : CS} (h : CodeWF s) {a : Nat} (ha : a + 3 ≤ s.write) (he : jumpHere a s = .ok ((), s')) :
    Patch s s' [a] s.write := by
  unfold jumpHere at he
  rw [CM.cget_bind] at he
  exact modifyJump_inv h ha he

theorem fixupLoop_inv : ∀ {l : List Nat} {s s' : CS}, CodeWF s → (∀ a ∈ l, a + 3 ≤ s.write) → fixupLoop l s = .ok ((), s') →
    Patch s s' l s.write
  | [], s, s', h, ha, he => by cases he; exact Patch.refl s _
  | a :: as, s, s', h, ha, he => by
    rw [fixupLoop] at he
    obtain ⟨_, s1, h1, h2⟩ := CM.bind_inv he
    have p := jumpHere_inv h (ha a (by simp)) h1
    have ew : s1.write = s.write := by rw [p.rest]
    have q := fixupLoop_inv (p.wf h) (fun x hx => by rw [ew]; exact ha x (by simp [hx])) h2
    rw [ew] at q
    exact p.trans q

theorem Patch.errors {s s' : CS} {g : List Nat} {T : Nat} (p : Patch s s' g T) : s'.vm.errors = s.vm.errors := by rw [p.rest]
theorem Patch.write {s s' : CS} {g : List Nat} {T : Nat} (p : Patch s s' g T) : s'.write = s.write := by rw [p.rest]
theorem Patch.toks {s s' : CS} {g : List Nat} {T : Nat} (p : Patch s s' g T) : s'.toks = s.toks := by rw [p.rest]
theorem Patch.depth {s s' : CS} {g : List Nat} {T : Nat} (p : Patch s s' g T) : s'.depth = s.depth := by rw [p.rest]
theorem Patch.ctx {s s' : CS} {g : List Nat} {T : Nat} (p : Patch s s' g T) : s'.ctx = s.ctx := by rw [p.rest]
theorem Patch.stat {s s' : CS} {g : List Nat} {T : Nat} (p : Patch s s' g T) : s'.staticCount = s.staticCount := by rw [p.rest]

theorem Emit.seg {s s' : CS} {ws : List (BitVec 32)} {k : Nat} (h : Emit s ws s') (hd : s'.depth = s.depth) (hc : s'.ctx = setOff k s.ctx) :
    Seg s s' [] k := ⟨(h.line hd).grow, by rw [hc, withFix_nil], (h.line hd).stat⟩

theorem emitJump_inv {s s' : CS} (h : CodeWF s) {op T a : Nat} (ho : op < 64) (he : emitJump op T s = .ok (a, s')) :
    a = s.write ∧ Emit s [7, jumpWord T s.write, BitVec.ofNat 32 op] s' ∧ s'.depth = s.depth ∧
      s'.ctx = setOff (addInt (addInt (offOf s.ctx) 1) (stackOffset op)) s.ctx := by
  unfold emitJump at he
  rw [CM.cget_bind] at he
  obtain ⟨_, s1, h1, he⟩ := CM.bind_inv he
  obtain ⟨_, s2, h2, he⟩ := CM.bind_inv he
  obtain ⟨rfl, rfl⟩ := pure_inv he
  obtain ⟨a1, a2, a3⟩ := emitInt_inv h h1
  obtain ⟨b1, b2, b3⟩ := emitOp_inv a1.wf ho h2
  refine ⟨rfl, a1.trans b1, b2.trans a2, ?_⟩
  rw [if_pos rfl] at a3 b3
  rw [b3, a3, setOff_setOff, offOf_setOff _ h.ctx]

theorem jump_inv {s s' : CS} (h : CodeWF s) {T a : Nat} (ho : offOf s.ctx + 1 < 4294967296) (he : emitJump 17 T s = .ok (a, s')) :
    a = s.write ∧ Emit s [7, jumpWord T s.write, 17] s' ∧ s'.depth = s.depth ∧ Seg s s' [] (offOf s.ctx) ∧ s'.toks = s.toks := by
  obtain ⟨h1, h2, h3, h4⟩ := emitJump_inv h (by decide) he
  have e : addInt (addInt (offOf s.ctx) 1) (stackOffset 17) = offOf s.ctx := by
    show ((((offOf s.ctx + (1 : Int)) % 4294967296).toNat + (-1 : Int)) % 4294967296).toNat = _
    omega
  rw [e] at h4
  exact ⟨h1, h2, h3, h2.seg h3 h4, (h2.line h3).toks⟩

theorem jz_inv {s s' : CS} (h : CodeWF s) {T a k : Nat} (ho : k + 2 < 4294967296) (hk : offOf s.ctx = k + 1) (he : emitJump 21 T s = .ok (a, s')) :
    a = s.write ∧ Emit s [7, jumpWord T s.write, 21] s' ∧ s'.depth = s.depth ∧ Seg s s' [] k ∧ s'.toks = s.toks := by
  obtain ⟨h1, h2, h3, h4⟩ := emitJump_inv h (by decide) he
  have e : addInt (addInt (offOf s.ctx) 1) (stackOffset 21) = k := by
    rw [hk]
    show ((((((k + 1 : Nat) : Int) + (1 : Int)) % 4294967296).toNat + (-2 : Int)) % 4294967296).toNat = _
    omega
  rw [e] at h4
  exact ⟨h1, h2, h3, h2.seg h3 h4, (h2.line h3).toks⟩

theorem pop_inv {s s' : CS} (h : CodeWF s) {k : Nat} (ho : k < 4294967296) (hk : offOf s.ctx = k + 1) (he : emitOp 11 true s = .ok ((), s')) :
    Emit s [11] s' ∧ s'.depth = s.depth ∧ Seg s s' [] k ∧ s'.toks = s.toks := by
  obtain ⟨h2, h3, h4⟩ := emitOp_inv h (by decide) he
  have e : addInt (offOf s.ctx) (stackOffset 11) = k := by
    rw [hk]
    show ((((k + 1 : Nat) : Int) + (-1 : Int)) % 4294967296).toNat = _
    omega
  rw [if_pos rfl, e] at h4
  exact ⟨h2, h3, h2.seg h3 h4, (h2.line h3).toks⟩

theorem not_inv {s s' : CS} (h : CodeWF s) (ho : offOf s.ctx < 4294967296) (he : emitOp 29 true s = .ok ((), s')) :
    Emit s [29] s' ∧ s'.depth = s.depth ∧ Seg s s' [] (offOf s.ctx) ∧ s'.toks = s.toks := by
  obtain ⟨h2, h3, h4⟩ := emitOp_inv h (by decide) he
  have e : addInt (offOf s.ctx) (stackOffset 29) = offOf s.ctx := by
    show ((offOf s.ctx + (0 : Int)) % 4294967296).toNat = _
    omega
  rw [if_pos rfl, e] at h4
  exact ⟨h2, h3, h2.seg h3 h4, (h2.line h3).toks⟩

/-! ## Configurations -/

/-- The configuration fits the place where `s` is. -/
structure At (F : FloatOps) (H : Host) (K : Cfg) (s : CS) : Prop where
  f : K.F = F
  h : K.H = H
  T : K.T < 4294967296
  hb : K.hb = K.b + loopOff s.ctx
  rb : ∀ a, fnArgs s.vm.functions s.ctx = some a → K.rb = K.b + a + 2

/-- The configuration has what is known in `s`. -/
structure Has (K : Cfg) (s : CS) : Prop where
  lits : ∀ W, Lits K.cvm W → Lits s.vm W
  stat : s.staticCount ≤ K.sc

theorem Has.grow {K : Cfg} {s s' : CS} {fx : List Nat} (h : Has K s') (g : Grow s s' fx) : Has K s :=
  ⟨fun W hW => g.lits W (h.lits W hW), Nat.le_trans g.stat h.stat⟩

theorem Has.patch {K : Cfg} {s s' : CS} {fx : List Nat} {T : Nat} (h : Has K s') (g : Patch s s' fx T) : Has K s := by
  have e := g.rest
  generalize s'.vm.instrs = q at *
  subst e
  exact ⟨h.lits, h.stat⟩

theorem At.seg {F : FloatOps} {H : Host} {K : Cfg} {s s' : CS} {fx : List Nat} {k : Nat} (h : At F H K s) (p : Pre s) (g : Seg s s' fx k) :
    At F H K s' :=
  ⟨h.f, h.h, h.T, by rw [g.ctx, loopOff_withFix, loopOff_setOff p.head]; exact h.hb, fun a ha => by
    rw [g.ctx, fnArgs_withFix, fnArgs_setOff, g.grow.fns] at ha; exact h.rb a ha⟩

/-- Execution never gets to the end. -/
def Dead (P : Nat → Rel) : Prop := ∀ b l W l' W', ¬P b l W .normal l' W'

/-- A statement has been compiled: `s` is before, `s'` after, `size` bounds the values needed on the stack, `fx` are the jumps of
`break`, `E` is what names mean afterwards, and the code does what `P` says. -/
structure StPost (F : FloatOps) (H : Host) (s s' : CS) (size : Nat) (fx : List Nat) (E : Env) (P : Nat → Rel) : Prop where
  grow : Grow s s' fx
  stat : s'.staticCount < 4294967296
  glob : s.ctx.tail ≠ [] → s'.staticCount = s.staticCount
  ctx : ∃ c c' cs, s.ctx = c :: cs ∧ s'.ctx = c' :: withFix fx cs ∧ c'.isLoop = c.isLoop ∧ c'.fnId = c.fnId ∧ c'.fixups = c.fixups ∧
    c.offset ≤ c'.offset ∧ c'.offset ≤ c.offset + size ∧ ((popCount c' + c.offset = popCount c + c'.offset ∧ envOf s' = E) ∨ Dead P)
  sim : ∀ K, At F H K s → Has K s' → Loaded K.I s.write s'.write s'.vm.instrs (toT fx K.T) → K.b + offOf s.ctx + size ≤ K.n →
    Sim K (P K.b) s.write s'.write (offOf s.ctx) (offOf s'.ctx)

/-- A statement that declares nothing has been compiled. -/
structure Plain (F : FloatOps) (H : Host) (s s' : CS) (size : Nat) (fx : List Nat) (P : Nat → Rel) : Prop where
  seg : Seg s s' fx (offOf s.ctx)
  sim : ∀ K, At F H K s → Has K s' → Loaded K.I s.write s'.write s'.vm.instrs (toT fx K.T) → K.b + offOf s.ctx + size ≤ K.n →
    Sim K (P K.b) s.write s'.write (offOf s.ctx) (offOf s.ctx)

variable {F : FloatOps} {H : Host}

theorem Plain.post {s s' : CS} {size : Nat} {fx : List Nat} {P : Nat → Rel} (h : Plain F H s s' size fx P) (p : Pre s) :
    StPost F H s s' size fx (envOf s) P := by
  have e := h.seg.ctx
  rw [setOff_off] at e
  refine ⟨h.seg.grow, by rw [h.seg.stat]; exact p.stat, fun _ => h.seg.stat, ?_, fun K a b c d => by
    rw [h.seg.off p.wf]; exact h.sim K a b c d⟩
  cases hc : s.ctx with
  | nil => exact absurd hc p.wf.ctx
  | cons c cs =>
    have hl := p.head c cs hc
    rw [hc] at e
    simp only [withFix, hl] at e
    exact ⟨c, c, cs, rfl, e, rfl, rfl, rfl, Nat.le_refl _, by omega, .inl ⟨rfl, h.seg.env⟩⟩

theorem StPost.ctx' {s s' : CS} {size : Nat} {fx : List Nat} {E : Env} {P : Nat → Rel} (h : StPost F H s s' size fx E P) (p : Pre s) :
    loopOff s'.ctx = loopOff s.ctx ∧ fnArgs s'.vm.functions s'.ctx = fnArgs s.vm.functions s.ctx ∧ offOf s.ctx ≤ offOf s'.ctx ∧
      offOf s'.ctx ≤ offOf s.ctx + size ∧ (∀ c cs, s'.ctx = c :: cs → c.isLoop = false) ∧ (s'.ctx.tail = [] ↔ s.ctx.tail = []) := by
  obtain ⟨c, c', cs, h1, h2, h3, h4, h5, h6, h7, h8⟩ := h.ctx
  have hl := p.head c cs h1
  rw [h1, h2, h.grow.fns]
  refine ⟨by simp [loopOff, h3, hl], ?_, h6, h7, ?_, by simp⟩
  · have : fnArgs s.vm.functions (withFix fx cs) = fnArgs s.vm.functions cs := fnArgs_withFix ..
    unfold fnArgs at this ⊢
    simp only [findFn, h4]
    by_cases hf : c.fnId = UINT_MAX
    · simp only [hf, if_true]; exact this
    · simp [hf, h4]
  · intro x xs e; cases e; rw [h3]; exact hl

theorem StPost.pre {s s' : CS} {size : Nat} {fx : List Nat} {E : Env} {P : Nat → Rel} (h : StPost F H s s' size fx E P) (p : Pre s)
    (he : s'.vm.errors = []) : Pre s' := by
  obtain ⟨h1, h2, h3, h4, h5, h6⟩ := h.ctx' p
  exact ⟨h.grow.wf, he, h5, by rw [h1]; exact Nat.le_trans p.loop h3, fun a ha => by
    rw [h2] at ha; exact Nat.le_trans (p.ret a ha) h3, h.stat⟩

theorem StPost.at {s s' : CS} {size : Nat} {fx : List Nat} {E : Env} {P : Nat → Rel} (h : StPost F H s s' size fx E P) (p : Pre s) {K : Cfg}
    (a : At F H K s) : At F H K s' := by
  obtain ⟨h1, h2, _⟩ := h.ctx' p
  exact ⟨a.f, a.h, a.T, by rw [h1]; exact a.hb, fun x hx => a.rb x (by rw [← h2]; exact hx)⟩

/-- Code that never gets to its end. -/
theorem sim_dead {K : Cfg} {P : Rel} {p q q' h h1 h2 : Nat} (a : Sim K P p q h h1) (hd : ∀ l W l' W', ¬P l W .normal l' W') :
    Sim K P p q' h h2 := by
  intro W l vm o l' W' f hl m hP
  refine (a _ _ _ _ _ _ f hl m hP).to ?_
  rintro rfl
  exact hd _ _ _ _ hP

theorem sim_seq_dead {K : Cfg} {P Q : Rel} {p q q' h h1 h2 : Nat} (a : Sim K P p q h h1) (hd : ∀ l W l' W', ¬P l W .normal l' W') :
    Sim K (Seq P Q) p q' h h2 := by
  intro W l vm o l' W' f hl m hP
  cases hP with
  | next x y => exact absurd x (hd _ _ _ _)
  | stop x y => exact (a _ _ _ _ _ _ f hl m x).to y

theorem sim_scope_dead {K : Cfg} {P : Rel} {p q q' h h1 h2 : Nat} (a : Sim K P p q h h1) (hd : ∀ l W l' W', ¬P l W .normal l' W') :
    Sim K (Scope P) p q' h h2 := by
  intro W l vm o l' W' f hl m hP
  cases hP with
  | done x => exact absurd x (hd _ _ _ _)
  | leave x y => exact (a _ _ _ _ _ _ f hl m x).to y

theorem CM.bind_nil {α : Type} {m : CM α} {f : α → CM β} {s s' : CS} {b : β} (h : (m >>= f) s = .ok (b, s')) (hf : ∀ a, CMono (f a))
    (he : s'.vm.errors = []) : ∃ a s1, m s = .ok (a, s1) ∧ f a s1 = .ok (b, s') ∧ s1.vm.errors = [] := by
  obtain ⟨a, s1, h1, h2⟩ := CM.bind_inv h
  refine ⟨a, s1, h1, h2, ?_⟩
  have := (hf a).run _ _ _ h2
  rw [he] at this
  exact List.prefix_nil.mp this

/-- What compiling a statement amounts to. -/
def Works (F : FloatOps) (H : Host) (st : CM Bool) (S : St) : Prop :=
  ∀ d ts rest s s' r, Pre s → offOf s.ctx + S.size < 4294967296 → Src F d ts S → s.toks = ts ++ rest →
    (S.open = true → typeOf rest ≠ .kwElse) → s.depth + d ≤ 257 → st s = .ok (r, s') → s'.vm.errors = [] →
    r = true ∧ s'.toks = rest ∧ s'.depth = s.depth + S.leak ∧
      ∃ fx, (S.breaks = false → fx = []) ∧ StPost F H s s' S.size fx (S.bind (envOf s)) fun b => S.exec F H b (envOf s)

/-- Two statements. -/
theorem StPost.seq {s s1 s2 : CS} {n1 n2 : Nat} {f1 f2 : List Nat} {E1 E2 : Env} {P1 : Nat → Rel} {P2 Q : Nat → Rel}
    (h1 : StPost F H s s1 n1 f1 E1 P1) (p : Pre s) (h2 : StPost F H s1 s2 n2 f2 E2 P2) (hq : envOf s1 = E1 → P2 = Q) :
    StPost F H s s2 (n1 + n2) (f1 ++ f2) E2 fun b => Seq (P1 b) (Q b) := by
  obtain ⟨k1, k2, k3, k4, k5, k6⟩ := h1.ctx' p
  obtain ⟨c, c', cs, a1, a2, a3, a4, a5, a6, a7, a8⟩ := h1.ctx
  obtain ⟨d, d', ds, b1, b2, b3, b4, b5, b6, b7, b8⟩ := h2.ctx
  rw [a2] at b1
  cases b1
  refine ⟨h1.grow.trans h2.grow, h2.stat, fun ht => (h2.glob (by rw [Ne, k6]; exact ht)).trans (h1.glob ht),
    ⟨c, d', cs, a1, by rw [b2, withFix_append], b3.trans a3, b4.trans a4, b5.trans a5, by omega, by omega, ?_⟩, fun K ha hh hl hn => ?_⟩
  · rcases a8 with ⟨a8, e8⟩ | a8
    · rcases b8 with ⟨b8, e9⟩ | b8
      · exact .inl ⟨by omega, e9⟩
      · refine .inr fun b l W l' W' hP => ?_
        rw [hq e8] at b8
        cases hP with
        | next x y => exact b8 _ _ _ _ _ y
        | stop x y => exact y rfl
    · refine .inr fun b l W l' W' hP => ?_
      cases hP with
      | next x y => exact a8 _ _ _ _ _ x
      | stop x y => exact y rfl
  · rw [toT_append] at hl
    have l1 : Loaded K.I s.write s1.write s1.vm.instrs (toT f1 K.T) := hl.sub (Nat.le_refl _) h2.grow.le (fun i _ hi => h2.grow.below i hi)
      (fun x hx => List.mem_append_left _ hx) (fun x hx hn => by
        have := h2.grow.fix x.1 (mem_toT.mp ((List.mem_append.mp hx).resolve_left hn)).1; omega)
    have l2 : Loaded K.I s1.write s2.write s2.vm.instrs (toT f2 K.T) := hl.sub h1.grow.le (Nat.le_refl _) (fun i _ hi => rfl)
      (fun x hx => List.mem_append_right _ hx) (fun x hx hn => by
        have := h1.grow.fix x.1 (mem_toT.mp ((List.mem_append.mp hx).resolve_right hn)).1; omega)
    have x1 := h1.sim K ha (hh.grow h2.grow) l1 (by omega)
    rcases a8 with ⟨a8, e8⟩ | a8
    · have x2 := h2.sim K (h1.at p ha) hh l2 (by omega)
      rw [hq e8] at x2
      exact sim_seq x1 x2
    · exact sim_seq_dead x1 (a8 K.b)

/-- Popping a context. -/
theorem popCtx_inv {s s' : CS} {c : CCtx} {cs : List CCtx} (h : CodeWF s) (hc : s.ctx = c :: cs) (hcs : cs ≠ []) (he : popCtx s = .ok ((), s')) :
    s'.ctx = cs ∧ s'.depth = s.depth ∧ s'.toks = s.toks ∧ s'.staticCount = s.staticCount ∧ s'.vm.errors = s.vm.errors ∧ Grow s s' [] ∧
      ((popCount c = 0 ∧ s'.write = s.write) ∨ (popCount c ≠ 0 ∧ s'.write = s.write + 3 ∧ s'.vm.instrs[s.write]? = some 7 ∧
        s'.vm.instrs[s.write + 1]? = some (BitVec.ofNat 32 (popCount c)) ∧ s'.vm.instrs[s.write + 2]? = some 12)) := by
  unfold popCtx at he
  rw [CM.cget_bind, hc] at he
  dsimp only at he
  rw [CM.cmod_bind] at he
  have w : CodeWF { s with ctx := cs } := ⟨h.pow, h.len, h.write, h.str, hcs⟩
  have g0 : Grow s { s with ctx := cs } [] := ⟨w, Nat.le_refl _, fun _ _ => rfl, by simp, fun _ h => h, rfl, Nat.le_refl _⟩
  split at he
  · next hp =>
    obtain ⟨_, s1, h1, h2⟩ := CM.bind_inv he
    obtain ⟨a1, a2, a3⟩ := emitInt_inv w h1
    obtain ⟨b1, b2, b3⟩ := emitOp_inv a1.wf (op := 12) (by decide) h2
    have e := a1.trans b1
    have hd := b2.trans a2
    have l := e.line hd
    refine ⟨?_, hd, l.toks, l.stat, e.errors, g0.trans0 l.grow, .inr ⟨hp, e.write, e.code 0 _ rfl, e.code 1 _ rfl, e.code 2 _ rfl⟩⟩
    rw [b3, if_neg (by decide), a3, if_neg (by decide)]
  · next hp =>
    cases he
    exact ⟨rfl, rfl, rfl, rfl, rfl, g0, .inl ⟨by simpa using hp, rfl⟩⟩

/-- The part of a scope at the end of its code. -/
theorem sim_popped {K : Cfg} {P : Rel} {p q q' h h' k : Nat} (x : Sim K P p q h h')
    (hp : (k = 0 ∧ q' = q) ∨ (k ≠ 0 ∧ q' = q + 3 ∧ K.I[q]? = some 7 ∧ K.I[q + 1]? = some (BitVec.ofNat 32 k) ∧ K.I[q + 2]? = some 12))
    (hk : k + h = h' ∨ ∀ l W l' W', ¬P l W .normal l' W') (hh : h ≤ h') (hh' : h' < 4294967296) (hn : K.b + h' < K.n) :
    Sim K (Scope P) p q' h h := by
  rcases hk with hk | hk
  · rcases hp with ⟨hp, rfl⟩ | ⟨hp, rfl, a, b, c⟩
    · subst hp
      rw [Nat.zero_add] at hk
      subst hk
      exact sim_scope0 x
    · exact sim_scope (by rw [Nat.add_comm h k, hk]; exact x) a b c (by omega) (by omega)
  · exact sim_scope_dead x hk

theorem Pre.inner {s : CS} (p : Pre s) : Pre { s with ctx := inCtx s.ctx :: s.ctx } :=
  ⟨⟨p.wf.pow, p.wf.len, p.wf.write, p.wf.str, by simp⟩, p.errs, by intro c cs e; cases e; rfl, p.loop, by
    intro a ha; exact p.ret a (by rw [← fnArgs_in]; exact ha), p.stat⟩

theorem envOf_inner {s : CS} (p : CodeWF s) : envOf { s with ctx := inCtx s.ctx :: s.ctx } = (envOf s).inner := by
  show (⟨placeOf s.ctx, if s.ctx = [] then some s.staticCount else none, offOf s.ctx⟩ : Env) = _
  rw [if_neg p.ctx]
  rfl

/-- A statement with a scope of its own. -/
theorem scope_inv {st : CM Bool} (hst : CMono st) {S : St} (w : Works F H st S) {k bad : CM Bool} (hk : CMono k) (hbad : CMono bad)
    {d : Nat} {ts rest : List Token} {s s' : CS} {r : Bool} (p : Pre s) (ho : offOf s.ctx + S.size < 4294967296) (src : Src F d ts S)
    (ht : s.toks = ts ++ rest) (hopen : S.open = true → typeOf rest ≠ .kwElse) (hd : s.depth + d ≤ 257)
    (h : (pushCtx >>= fun _ => st >>= fun r => if r then popCtx >>= fun _ => k else bad) s = .ok (r, s')) (he : s'.vm.errors = []) :
    ∃ s1 fx, k s1 = .ok (r, s') ∧ s1.vm.errors = [] ∧ s1.toks = rest ∧ s1.depth = s.depth + S.leak ∧
      (S.breaks = false → fx = []) ∧ Plain F H s s1 (S.size + 1) fx fun b => Scope (S.exec F H b (envOf s).inner) := by
  rw [CM.bind_ok (pushCtx_eq s)] at h
  obtain ⟨r1, s2, h1, h2, e2⟩ := CM.bind_nil h (by intro a; have := @popCtx_mono; cmono) he
  obtain ⟨rfl, t2, d2, fx, hbr, post⟩ := w d ts rest { s with ctx := inCtx s.ctx :: s.ctx } s2 r1 p.inner ho src ht hopen hd h1 e2
  rw [if_pos rfl] at h2
  obtain ⟨_, s3, h3, h4, e3⟩ := CM.bind_nil h2 (fun _ => hk) he
  obtain ⟨c, c', cs, a1, a2, a3, a4, a5, a6, a7, a8⟩ := post.ctx
  cases a1
  have hcs : withFix fx s.ctx ≠ [] := by rw [Ne, withFix_eq_nil]; exact p.wf.ctx
  obtain ⟨b1, b2, b3, b4, b5, b6, b7⟩ := popCtx_inv post.grow.wf a2 hcs h3
  rw [envOf_inner p.wf] at a8
  have g : Grow s s3 fx := by
    have g0 : Grow s { s with ctx := inCtx s.ctx :: s.ctx } [] :=
      ⟨p.inner.wf, Nat.le_refl _, fun _ _ => rfl, by simp, fun _ h => h, rfl, Nat.le_refl _⟩
    exact (g0.trans post.grow).trans0 b6
  refine ⟨s3, fx, h4, e3, b3.trans t2, b2.trans d2, hbr, ⟨⟨g, by rw [b1, setOff_off], b4.trans (post.glob (by exact p.wf.ctx))⟩, fun K ha hh hl hn => ?_⟩⟩
  have a : At F H K { s with ctx := inCtx s.ctx :: s.ctx } := ⟨ha.f, ha.h, ha.T, ha.hb, fun a hx => ha.rb a (by rw [← fnArgs_in]; exact hx)⟩
  have l1 : Loaded K.I s.write s2.write s2.vm.instrs (toT fx K.T) := hl.sub (Nat.le_refl _) b6.le (fun i _ hi => b6.below i hi)
    (fun x hx => hx) (fun x hx hn => absurd hx hn)
  have x := post.sim K a (hh.grow b6) l1 (by show K.b + offOf s.ctx + S.size ≤ K.n; omega)
  rw [envOf_inner p.wf] at x
  have e0 : offOf s2.ctx = c'.offset := by rw [a2]; rfl
  rw [e0] at x
  have a6' : offOf s.ctx ≤ c'.offset := a6
  have a7' : c'.offset ≤ offOf s.ctx + S.size := a7
  refine sim_popped (k := popCount c') x ?_ ?_ a6 (by omega) (by omega)
  · rcases b7 with ⟨b7, b8⟩ | ⟨b7, b8, b9, b10, b11⟩
    · exact .inl ⟨b7, b8⟩
    · have nf : ∀ j, ∀ x ∈ toT fx K.T, s2.write + j ≠ x.1 + 1 := fun j x hx => by
        have := post.grow.fix x.1 (mem_toT.mp hx).1; omega
      have := post.grow.le
      have hsw : ({ s with ctx := inCtx s.ctx :: s.ctx } : CS).write = s.write := rfl
      rw [hsw] at this
      exact .inr ⟨b7, b8, hl.at b9 (by omega) (by omega) (nf 0), hl.at b10 (by omega) (by omega) (nf 1),
        hl.at b11 (by omega) (by omega) (nf 2)⟩
  · rcases a8 with ⟨a8, _⟩ | a8
    · left
      have e1 : popCount (inCtx s.ctx) = 0 := rfl
      have e2 : (inCtx s.ctx).offset = offOf s.ctx := rfl
      show popCount c' + offOf s.ctx = _
      omega
    · exact .inr (a8 K.b)

/-- An expression. -/
theorem expr_inv {fd : CM (Option Nat)} (hfd : CMono fd) {discard : Bool} {s s' : CS} {r : Bool} {k : Nat}
    {ts rest : List Token} {e : Ex} (p : Pre s) (src : ExSrc F k discard ts e) (ht : s.toks = ts ++ rest) (hend : isEnd rest = true)
    (hd : s.depth + 2 + 2 * k ≤ 257) (ho : offOf s.ctx + e.size < 4294967296)
    (h : compileExpr F fd discard s = .ok (r, s')) (he : s'.vm.errors = []) :
    r = true ∧ s'.toks = rest ∧ s'.depth = s.depth ∧ Seg s s' [] (offOf s.ctx + 1) ∧
      ∀ K, At F H K s → Has K s' → Loaded K.I s.write s'.write s'.vm.instrs [] → K.b + offOf s.ctx + e.size ≤ K.n →
        ∀ k q h', SimV K k s'.write q (offOf s.ctx) h' → Sim K (Eval F H K.b (placeOf s.ctx) e k) s.write q (offOf s.ctx) h' := by
  obtain ⟨h1, h2, h3, h4, h5, h6, ws, h7, h8, h9⟩ := compileExpr_inv H hfd src ht hend hd p.wf ho h p.errs he
  refine ⟨h1, h2, h3, ⟨h5, by rw [h4, withFix_nil], h6⟩, fun K ha hh hl hn k q h' hk => ?_⟩
  have x := (h9 K.b).lit hh.lits
  obtain ⟨rfl, rfl⟩ := And.intro ha.f ha.h
  refine sim_eval x (fun i w hw => ?_) hn (by rw [← h7]; exact hk)
  have : i < ws.length := (List.getElem?_eq_some_iff.mp hw).1
  exact hl.at (h8 i w hw) (by omega) (by omega) (by simp)

end Nk.Cc
