import Verif.Lemmas.Layout
import Verif.Lemmas.ParseSafe
/-!
# The compiler on arbitrary tokens: what every step keeps
-/
namespace Nk.Cc

variable {α β : Type} {Z : Base} {B : UB → Prop} {k p : Nat} {s s1 : CS}

/-! ## Contexts -/

/-- Only the stack offset of the innermost context may differ. -/
def Same (l l' : List CCtx) : Prop := ∃ n, l' = setOff n l

theorem Same.refl (l : List CCtx) : Same l l := ⟨offOf l, (setOff_off l).symm⟩
theorem Same.trans {a b c : List CCtx} (h : Same a b) (g : Same b c) : Same a c := by
  obtain ⟨n, rfl⟩ := h; obtain ⟨m, rfl⟩ := g; exact ⟨m, by rw [setOff_setOff]⟩
theorem Same.of_eq {a b : List CCtx} (h : b = a) : Same a b := h ▸ Same.refl a

/-- An outer context: only the breaks that leave it may be more, if it is a loop. -/
structure Far (c c' : CCtx) : Prop where
  vars : c'.vars = c.vars
  offset : c'.offset = c.offset
  fnId : c'.fnId = c.fnId
  loop : c'.isLoop = c.isLoop
  fix : c.isLoop = false → c'.fixups = c.fixups

theorem Far.refl (c : CCtx) : Far c c := ⟨rfl, rfl, rfl, rfl, fun _ => rfl⟩
theorem Far.trans {a b c : CCtx} (h : Far a b) (g : Far b c) : Far a c :=
  ⟨g.vars.trans h.vars, g.offset.trans h.offset, g.fnId.trans h.fnId, g.loop.trans h.loop,
    fun e => (g.fix (h.loop.trans e)).trans (h.fix e)⟩
theorem Far.eq {c c' : CCtx} (h : Far c c') (hl : c.isLoop = false) : c' = c := by
  cases c; cases c'
  obtain ⟨h1, h2, h3, h4, h5⟩ := h
  have := h5 hl
  dsimp only at *
  subst h1 h2 h3 h4 this
  rfl

/-- The outer contexts. -/
abbrev Fars (l l' : List CCtx) : Prop := List.Forall₂ Far l l'

theorem Fars.refl : ∀ l : List CCtx, Fars l l
  | [] => .nil
  | c :: cs => .cons (Far.refl c) (Fars.refl cs)
theorem Fars.trans : ∀ {a b c : List CCtx}, Fars a b → Fars b c → Fars a c
  | _, _, _, .nil, .nil => .nil
  | _, _, _, .cons h hs, .cons g gs => .cons (h.trans g) (Fars.trans hs gs)

/-- The innermost context may also have more variables, and another offset. -/
structure Near (c c' : CCtx) : Prop where
  vars : c.vars <:+ c'.vars
  fnId : c'.fnId = c.fnId
  loop : c'.isLoop = c.isLoop
  fix : c.isLoop = false → c'.fixups = c.fixups

theorem Near.trans {a b c : CCtx} (h : Near a b) (g : Near b c) : Near a c :=
  ⟨h.vars.trans g.vars, g.fnId.trans h.fnId, g.loop.trans h.loop, fun e => (g.fix (h.loop.trans e)).trans (h.fix e)⟩

/-- What a statement does to the contexts. -/
def CtxTo : List CCtx → List CCtx → Prop
  | c :: cs, c' :: cs' => Near c c' ∧ Fars cs cs'
  | _, _ => False

theorem CtxTo.trans {a b c : List CCtx} (h : CtxTo a b) (g : CtxTo b c) : CtxTo a c := by
  cases a <;> cases b <;> cases c <;> first | exact h.elim | exact g.elim | exact ⟨h.1.trans g.1, h.2.trans g.2⟩
theorem CtxTo.ne {a b : List CCtx} (h : CtxTo a b) : b ≠ [] := by cases a <;> cases b <;> simp_all [CtxTo]
theorem Fars.to {a b : List CCtx} (h : Fars a b) (ha : a ≠ []) : CtxTo a b := by
  cases h with
  | nil => exact absurd rfl ha
  | cons h hs => exact ⟨⟨h.vars ▸ List.suffix_refl _, h.fnId, h.loop, h.fix⟩, hs⟩
theorem Same.to {a b : List CCtx} (h : Same a b) (ha : a ≠ []) : CtxTo a b := by
  obtain ⟨n, rfl⟩ := h
  cases a with
  | nil => exact absurd rfl ha
  | cons c cs => exact ⟨⟨List.suffix_refl _, rfl, rfl, fun _ => rfl⟩, Fars.refl cs⟩
theorem CtxTo.refl {a : List CCtx} (ha : a ≠ []) : CtxTo a a := (Fars.refl a).to ha
theorem CtxTo.length {a b : List CCtx} (h : CtxTo a b) : b.length = a.length := by
  cases a <;> cases b <;> first | exact h.elim | (have := h.2.length_eq; simp_all)

/-- The names the contexts declare. -/
def names (l : List CCtx) : List (List CVar) := l.map (·.vars)

theorem Same.names {a b : List CCtx} (h : Same a b) : names b = names a := by
  obtain ⟨n, rfl⟩ := h; cases a <;> rfl
theorem Fars.names : ∀ {a b : List CCtx}, Fars a b → Cc.names b = Cc.names a
  | _, _, .nil => rfl
  | _, _, .cons h hs => by
    have := Fars.names hs
    unfold Cc.names at *
    rw [List.map_cons, List.map_cons, h.vars, this]

/-- `n` contexts inside the contexts `l`. -/
def Under (n : Nat) (l l' : List CCtx) : Prop := ∃ pre m, l' = pre ++ m ∧ pre.length = n ∧ Fars l m

theorem Under.zero {l l' : List CCtx} : Under 0 l l' ↔ Fars l l' := by
  constructor
  · rintro ⟨pre, m, rfl, h1, h2⟩
    cases pre with
    | nil => exact h2
    | cons => cases h1
  · exact fun h => ⟨[], l', rfl, rfl, h⟩
theorem Under.push {n : Nat} {l l' : List CCtx} (h : Under n l l') (c : CCtx) : Under (n + 1) l (c :: l') := by
  obtain ⟨pre, m, rfl, h1, h2⟩ := h
  exact ⟨c :: pre, m, rfl, by rw [List.length_cons, h1], h2⟩
theorem Under.pop {n : Nat} {l l' : List CCtx} {c : CCtx} (h : Under (n + 1) l (c :: l')) : Under n l l' := by
  obtain ⟨pre, m, h0, h1, h2⟩ := h
  cases pre with
  | nil => cases h1
  | cons d pre => cases h0; exact ⟨pre, m, rfl, by simpa using h1, h2⟩
theorem Fars.append_inv : ∀ {a b c : List CCtx}, Fars (a ++ b) c → ∃ x y, c = x ++ y ∧ x.length = a.length ∧ Fars b y
  | [], _, c, h => ⟨[], c, rfl, rfl, h⟩
  | _ :: a, _, _, .cons _ hs => by
    obtain ⟨x, y, rfl, h1, h2⟩ := Fars.append_inv hs
    exact ⟨_ :: x, y, rfl, by rw [List.length_cons, List.length_cons, h1], h2⟩
theorem Under.to {n : Nat} {l m m' : List CCtx} (h : Under (n + 1) l m) (g : CtxTo m m') : Under (n + 1) l m' := by
  obtain ⟨pre, q, rfl, h1, h2⟩ := h
  cases pre with
  | nil => cases h1
  | cons d pre =>
    cases m' with
    | nil => exact g.elim
    | cons c cs =>
      obtain ⟨x, y, rfl, e1, e2⟩ := Fars.append_inv g.2
      exact ⟨c :: x, y, rfl, by rw [List.length_cons, e1]; exact h1, h2.trans e2⟩
theorem Under.same {n : Nat} {l m m' : List CCtx} (h : Under (n + 1) l m) (g : Same m m') : Under (n + 1) l m' := by
  refine h.to (g.to ?_)
  obtain ⟨pre, q, rfl, h1, h2⟩ := h
  cases pre <;> simp at h1 ⊢
theorem Under.ne {n : Nat} {l m : List CCtx} (h : Under (n + 1) l m) : ∃ c cs, m = c :: cs := by
  obtain ⟨pre, q, rfl, h1, h2⟩ := h
  cases pre with
  | nil => cases h1
  | cons c cs => exact ⟨c, cs ++ q, rfl⟩
theorem Under.ne' {n : Nat} {l m : List CCtx} (h : Under n l m) (hl : l ≠ []) : m ≠ [] := by
  obtain ⟨pre, q, rfl, h1, h2⟩ := h
  cases h2 with
  | nil => exact absurd rfl hl
  | cons => simp
theorem Under.head {n : Nat} {l : List CCtx} {c c' : CCtx} {cs : List CCtx} (h : Under (n + 1) l (c :: cs)) :
    Under (n + 1) l (c' :: cs) := h.pop.push c'

/-! ## The invariant -/

/-- A token the parser may see: not the types it makes up itself, and function-style expressions only if an assertion may
fail. -/
def TokOK (B : UB → Prop) (t : Token) : Prop :=
  t.type ≠ .postIncrement ∧ t.type ≠ .postDecrement ∧ (t.type = .functionStyleExpression → B .assert)

/-- The code that was there at some time: it stays as it is.  Literals in the code from `lit` on are of interest, as long as there
are not more than `errs` errors.  The functions `funs` are the first ones and stay. -/
structure Base where
  n : Nat
  code : List (BitVec 32)
  lit : Nat
  errs : Nat
  funs : List Func

/-- Nothing to keep. -/
def Base.none : Base := ⟨0, [], 536870912, 0, []⟩

/-- What there is now. -/
def Base.of (s : CS) : Base := ⟨s.write, s.vm.instrs, s.write, s.vm.errors.length, s.vm.functions⟩

/-- Protected strings stay, with their texts. -/
def LitKeep (S S' : Table Str) : Prop :=
  ∀ i x, S.entry i = some x → x.dontGC = true → ∃ x', S'.entry i = some x' ∧ x'.str = x.str ∧ x'.dontGC = true

theorem LitKeep.refl (S : Table Str) : LitKeep S S := fun _ x h g => ⟨x, h, rfl, g⟩
theorem LitKeep.of_eq {S S' : Table Str} (h : S' = S) : LitKeep S S' := h ▸ LitKeep.refl S
theorem LitKeep.trans {a b c : Table Str} (h : LitKeep a b) (g : LitKeep b c) : LitKeep a c := fun i x hx hd => by
  obtain ⟨y, h1, h2, h3⟩ := h i x hx hd
  obtain ⟨z, g1, g2, g3⟩ := g i y h1 h3
  exact ⟨z, g1, g2.trans h2, g3⟩

/-- A word that is the id of a protected string, unless there were errors. -/
def LitWord (Z : Base) (S : Table Str) (e : Nat) (v : BitVec 32) : Prop :=
  Z.errs < e ∨ ∃ x, S.entry v.toNat = some x ∧ x.dontGC = true

/-- The string literals in the code are protected strings. -/
structure LitsOK (Z : Base) (I : List (BitVec 32)) (n : Nat) (S : Table Str) (e : Nat) : Prop where
  le : Z.errs ≤ e
  ok : ∀ i, Z.lit ≤ i → i < n → Starts I i → I[i]? = some 9#32 → ∃ v, I[i + 1]? = some v ∧ LitWord Z S e v

theorem LitWord.mono {S S' : Table Str} {e e' : Nat} {v : BitVec 32} (h : LitWord Z S e v) (hk : LitKeep S S') (he : e ≤ e') : LitWord Z S' e' v := by
  rcases h with h | ⟨x, h1, h2⟩
  · exact .inl (by omega)
  · obtain ⟨x', k1, _, k3⟩ := hk _ x h1 h2
    exact .inr ⟨x', k1, k3⟩

theorem LitsOK.mono {I I' : List (BitVec 32)} {n n' : Nat} {S S' : Table Str} {e e' : Nat} (h : LitsOK Z I n S e)
    (hs : ∀ i, i < n → Starts I i → I'[i]? = I[i]?) (ho : ∀ i, i < n → Starts I i → I[i]? = some 9#32 → I'[i + 1]? = I[i + 1]?)
    (hk : LitKeep S S') (he : e ≤ e')
    (hn : ∀ i, n ≤ i → i < n' → Starts I' i → I'[i]? = some 9#32 → ∃ v, I'[i + 1]? = some v ∧ LitWord Z S' e' v) : LitsOK Z I' n' S' e' := by
  refine ⟨Nat.le_trans h.le he, fun i h1 h2 h3 h4 => ?_⟩
  by_cases hi : i < n
  · have hb := h3.back hs (by omega)
    rw [hs i hi hb] at h4
    obtain ⟨v, k1, k2⟩ := h.ok i h1 hi hb h4
    exact ⟨v, by rw [ho i hi hb h4]; exact k1, k2.mono hk he⟩
  · exact hn i (by omega) h2 h3 h4

/-- Nothing about the code has changed. -/
theorem LitsOK.still {I : List (BitVec 32)} {n : Nat} {S S' : Table Str} {e e' : Nat} (h : LitsOK Z I n S e) (hk : LitKeep S S') (he : e ≤ e') :
    LitsOK Z I n S' e' :=
  h.mono (fun _ _ _ => rfl) (fun _ _ _ _ => rfl) hk he fun i h1 h2 => by omega

/-- Words were added. -/
theorem LitsOK.below {I I' : List (BitVec 32)} {n n' : Nat} {S S' : Table Str} {e e' : Nat} (h : LitsOK Z I n S e) (hw : Starts I n)
    (hs : ∀ i, i < n → I'[i]? = I[i]?) (hk : LitKeep S S') (he : e ≤ e')
    (hn : ∀ i, n ≤ i → i < n' → Starts I' i → I'[i]? = some 9#32 → ∃ v, I'[i + 1]? = some v ∧ LitWord Z S' e' v) : LitsOK Z I' n' S' e' :=
  h.mono (fun i hi _ => hs i hi) (fun i hi hst h9 => hs _ (by
    have := Starts.gap n hw hst h9 hi
    rw [show width 9#32 = 2 by decide] at this
    omega)) hk he hn

/-- What holds between any two steps of the compiler. -/
structure Inv (Z : Base) (B : UB → Prop) (s : CS) : Prop where
  wf : CodeWF s
  shape : Shape s.vm.instrs s.write
  fns : ∀ f ∈ s.vm.functions, Entry s.vm.instrs s.write f.first
  fix : ∀ c ∈ s.ctx, ∀ a ∈ c.fixups, JumpAt Z.n s.vm.instrs s.write a
  root : ∀ c, s.ctx.getLast? = some c → c.isLoop = false
  good : ∀ t ∈ s.toks, TokOK B t
  low : Z.n ≤ s.write
  base : ∀ i, i < Z.n → s.vm.instrs[i]? = Z.code[i]?
  lits : LitsOK Z s.vm.instrs s.write s.vm.strings s.vm.errors.length
  funs : Z.funs <+: s.vm.functions

/-- From `s` to `s'` with `k` recursion counts open and `p` tokens read. -/
structure Adv (Z : Base) (B : UB → Prop) (k p : Nat) (s s' : CS) : Prop where
  inv : Inv Z B s'
  grew : Grew s.vm.instrs s.write s'.vm.instrs s'.write
  depth : s.depth + k ≤ s'.depth
  toks : s'.toks <:+ s.toks
  len : s'.toks.length + p ≤ s.toks.length
  errs : s.vm.errors.length ≤ s'.vm.errors.length
  fnum : s.vm.functions.length ≤ s'.vm.functions.length

theorem Adv.refl (h : Inv Z B s) : Adv Z B 0 0 s s :=
  ⟨h, h.shape.refl, by omega, List.suffix_refl _, by omega, Nat.le_refl _, Nat.le_refl _⟩

theorem Adv.trans {s2 : CS} {k' p' : Nat} (h : Adv Z B k p s s1) (g : Adv Z B k' p' s1 s2) : Adv Z B (k + k') (p + p') s s2 :=
  ⟨g.inv, h.grew.trans g.grew, by have := h.depth; have := g.depth; omega, g.toks.trans h.toks, by have := h.len; have := g.len; omega,
    Nat.le_trans h.errs g.errs, Nat.le_trans h.fnum g.fnum⟩

theorem Adv.weaken {k' p' : Nat} (h : Adv Z B k p s s1) (hk : k' ≤ k) (hp : p' ≤ p) : Adv Z B k' p' s s1 :=
  { h with depth := by have := h.depth; omega, len := by have := h.len; omega }

theorem Adv.failed (h : Adv Z B k p s s1) (e : s.vm.errors ≠ []) : s1.vm.errors ≠ [] := by
  have := h.errs
  intro h0
  rw [h0] at this
  exact e (List.length_eq_zero_iff.mp (Nat.le_zero.mp this))

theorem CodeWF.congr {s s' : CS} (h : CodeWF s) (h1 : s'.vm.instrs = s.vm.instrs) (h2 : s'.vm.instrMask = s.vm.instrMask)
    (h3 : s'.write = s.write) (h4 : s'.vm.strings = s.vm.strings) (h5 : s'.vm.sbuckets = s.vm.sbuckets) (h6 : s'.ctx ≠ []) : CodeWF s' :=
  ⟨by rw [h2]; exact h.pow, by rw [h1, h2]; exact h.len, by rw [h2, h3]; exact h.write, CodeWF.str' h.str h4 h5, h6⟩

/-- A step that changes neither the code nor the contexts. -/
theorem Inv.still {s s' : CS} (h : Inv Z B s) (h1 : s'.vm.instrs = s.vm.instrs) (h2 : s'.vm.instrMask = s.vm.instrMask)
    (h3 : s'.write = s.write) (h4 : s'.vm.strings = s.vm.strings) (h5 : s'.vm.sbuckets = s.vm.sbuckets) (h6 : s'.ctx = s.ctx)
    (h7 : s'.vm.functions = s.vm.functions) (h8 : s'.toks <:+ s.toks) (h9 : s.vm.errors.length ≤ s'.vm.errors.length) : Inv Z B s' :=
  ⟨h.wf.congr h1 h2 h3 h4 h5 (by rw [h6]; exact h.wf.ctx), by rw [h1, h3]; exact h.shape, by rw [h1, h3, h7]; exact h.fns,
    by rw [h1, h3, h6]; exact h.fix, by rw [h6]; exact h.root, fun t ht => h.good t (h8.subset ht),
    by rw [h3]; exact h.low, by rw [h1]; exact h.base, by rw [h1, h3, h4]; exact h.lits.still (.refl _) h9, by rw [h7]; exact h.funs⟩

theorem advance_eqs (s : CS) : (advance s).vm.instrs = s.vm.instrs ∧ (advance s).vm.instrMask = s.vm.instrMask ∧
    (advance s).write = s.write ∧ (advance s).vm.strings = s.vm.strings ∧ (advance s).vm.sbuckets = s.vm.sbuckets ∧
    (advance s).ctx = s.ctx ∧ (advance s).vm.functions = s.vm.functions := by
  unfold advance; split <;> exact ⟨rfl, rfl, rfl, rfl, rfl, rfl, rfl⟩

theorem Inv.adv (h : Inv Z B s) : Inv Z B (advance s) := by
  obtain ⟨h1, h2, h3, h4, h5, h6, h7⟩ := advance_eqs s
  exact h.still h1 h2 h3 h4 h5 h6 h7 (by rw [advance_toks]; exact List.tail_suffix _) (by rw [advance_errs])

theorem Inv.err (h : Inv Z B s) (e : String) : Inv Z B (s.addErr e) := h.still rfl rfl rfl rfl rfl rfl rfl (List.suffix_refl _) (by rw [addErr_len]; omega)
theorem Inv.dep (h : Inv Z B s) (d : Nat) : Inv Z B { s with depth := d } := h.still rfl rfl rfl rfl rfl rfl rfl (List.suffix_refl _) (Nat.le_refl _)

theorem Adv.adv (h : Adv Z B k p s s1) : Adv Z B k p s (advance s1) := by
  obtain ⟨h1, h2, h3, h4, h5, h6, h7⟩ := advance_eqs s1
  refine ⟨h.inv.adv, by rw [h1, h3]; exact h.grew, by rw [advance_depth_eq]; exact h.depth, ?_, ?_, by rw [advance_errs]; exact h.errs,
    by rw [h7]; exact h.fnum⟩
  · rw [advance_toks]; exact (List.tail_suffix _).trans h.toks
  · have := h.len
    rw [advance_toks, List.length_tail]; omega

theorem Adv.adv1 (h : Adv Z B k p s s1) (hn : s1.toks ≠ []) : Adv Z B k (p + 1) s (advance s1) := by
  have := h.len
  have : 0 < s1.toks.length := List.length_pos_iff.mpr hn
  exact { h.adv with len := by rw [advance_toks, List.length_tail]; omega }

theorem Adv.err (h : Adv Z B k p s s1) (e : String) : Adv Z B k p s (s1.addErr e) :=
  { h with inv := h.inv.err e, errs := by rw [addErr_len]; have := h.errs; omega }
theorem Adv.err' (h : Adv Z B k p s s1) (e : String) : Adv Z B k p s (s1.addErr e) ∧ (s1.addErr e).vm.errors ≠ [] :=
  ⟨h.err e, by simp [CS.addErr, VM.addErr]⟩

theorem err_step (h : Adv Z B k p s s1) (e : String) :
    CSafe B (Cc.err e) s1 fun _ s2 => Adv Z B k p s s2 ∧ s2.ctx = s1.ctx ∧ s2.vm.errors ≠ [] :=
  ⟨h.err e, rfl, (h.err' e).2⟩

theorem pushRec_step (h : Adv Z B k p s s1) : CSafe B pushRec s1 fun ok s2 => s2.ctx = s1.ctx ∧
    if ok then Adv Z B (k + 1) p s s2 ∧ s1.depth ≤ 256 else Adv Z B k p s s2 ∧ s2.vm.errors ≠ [] := by
  unfold pushRec
  refine CSafe.cget ?_
  by_cases hd : s1.depth > 256
  · rw [if_pos hd]
    exact CSafe.err ⟨rfl, h.err' _⟩
  · rw [if_neg hd]
    exact CSafe.cmod ⟨rfl, { h with inv := h.inv.dep _, depth := by have := h.depth; show _ ≤ s1.depth + 1; omega }, by omega⟩

theorem popRec_step (h : Adv Z B (k + 1) p s s1) : CSafe B popRec s1 fun _ s2 => Adv Z B k p s s2 ∧ s2.ctx = s1.ctx ∧
    s2.vm.errors = s1.vm.errors := by
  have := h.depth
  refine CSafe.ok (popRec_run (by omega)) ⟨{ h with inv := h.inv.dep _, depth := ?_ }, rfl, rfl⟩
  show _ ≤ s1.depth - 1; omega

theorem expectSkip_step {t : TokType} (ht : t ≠ .invalid) (h : Adv Z B k p s s1) : CSafe B (expectSkip t) s1 fun ok s2 => s2.ctx = s1.ctx ∧
    if ok then Adv Z B k (p + 1) s s2 else Adv Z B k p s s2 ∧ s2.vm.errors ≠ [] := by
  unfold expectSkip
  refine CSafe.curType ?_
  by_cases hc : typeOf s1.toks ≠ t
  · rw [if_pos hc]
    exact CSafe.err ⟨rfl, h.err' _⟩
  · rw [if_neg hc]
    refine CSafe.next ⟨(advance_eqs s1).2.2.2.2.2.1, h.adv1 fun h0 => ?_⟩
    rw [h0] at hc
    exact hc ht.symm

/-! ## Writing code -/

/-- From `s` to `s'` the words `ws` were written. -/
structure Wrote (s : CS) (ws : List (BitVec 32)) (s' : CS) : Prop where
  wf : CodeWF s'
  write : s'.write = s.write + ws.length
  below : ∀ i, i < s.write → s'.vm.instrs[i]? = s.vm.instrs[i]?
  code : ∀ i w, ws[i]? = some w → s'.vm.instrs[s.write + i]? = some w
  fns : s'.vm.functions = s.vm.functions
  toks : s'.toks = s.toks
  depth : s'.depth = s.depth
  errs : s.vm.errors.length ≤ s'.vm.errors.length
  ctx : Same s.ctx s'.ctx
  keeps : LitKeep s.vm.strings s'.vm.strings

theorem Wrote.trans {a b c : CS} {x y : List (BitVec 32)} (h : Wrote a x b) (g : Wrote b y c) : Wrote a (x ++ y) c := by
  refine ⟨g.wf, by rw [g.write, h.write, List.length_append, Nat.add_assoc], ?_, ?_, g.fns.trans h.fns, g.toks.trans h.toks,
    g.depth.trans h.depth, Nat.le_trans h.errs g.errs, h.ctx.trans g.ctx, h.keeps.trans g.keeps⟩
  · intro i hi
    rw [g.below i (by rw [h.write]; omega), h.below i hi]
  · intro i w hw
    by_cases hi : i < x.length
    · rw [List.getElem?_append_left hi] at hw
      rw [g.below _ (by rw [h.write]; omega)]
      exact h.code i w hw
    · rw [List.getElem?_append_right (by omega)] at hw
      have := g.code _ w hw
      rwa [h.write, show a.write + x.length + (i - x.length) = a.write + i by omega] at this

theorem Emit.wrote {s s' : CS} {ws : List (BitVec 32)} (e : Emit s ws s') (hd : s'.depth = s.depth) (hc : Same s.ctx s'.ctx)
    (hs : s'.vm.strings = s.vm.strings) : Wrote s ws s' := by
  refine ⟨e.wf, e.write, e.below, e.code, ?_, ?_, hd, ?_, hc, .of_eq hs⟩
  · rw [e.rest]
  · rw [e.rest]
  · rw [e.errors]

theorem addInstr_wrote (hL : B .longjmp) (w : BitVec 32) (adj : Bool) {s : CS} (h : CodeWF s) :
    CSafe B (addInstr w adj) s fun _ s' => Wrote s [w] s' ∧ s'.vm.strings = s.vm.strings := by
  rcases addInstr_run h w adj with h1 | ⟨s', h1, h2, h3, h4, h5⟩
  · exact CSafe.ub h1 hL
  · refine CSafe.ok h1 ⟨h2.wrote h3 ?_ h4, h4⟩
    rw [h5]
    cases adj
    · exact Same.refl _
    · exact ⟨_, rfl⟩

theorem lit_wrote (hL : B .longjmp) (op : Nat) (v : BitVec 32) (adj : Bool) {s : CS} (h : CodeWF s) :
    CSafe B (do emitOp op adj; addInstr v false) s fun _ s' => Wrote s [BitVec.ofNat 32 op, v] s' := by
  refine (addInstr_wrote hL _ adj h).bind fun _ s1 h1 => ?_
  exact (addInstr_wrote hL v false h1.1.wf).mono fun _ s2 h2 => h1.1.trans h2.1

/-- Changing only the strings. -/
theorem Wrote.strs {s : CS} (h : CodeWF s) {vm : VM} (hs : StrWF vm) (h1 : vm.instrs = s.vm.instrs) (h2 : vm.instrMask = s.vm.instrMask)
    (h3 : vm.functions = s.vm.functions) (h4 : s.vm.errors.length ≤ vm.errors.length) (h5 : LitKeep s.vm.strings vm.strings) :
    Wrote s [] { s with vm := vm } :=
  ⟨⟨by show ∃ k, k ≤ 29 ∧ vm.instrMask + 1 = _; rw [h2]; exact h.pow, by show vm.instrs.length = vm.instrMask + 1; rw [h1, h2]; exact h.len,
    by show s.write ≤ vm.instrMask; rw [h2]; exact h.write, hs, h.ctx⟩, rfl, fun i _ => by show vm.instrs[i]? = _; rw [h1],
    fun i w hw => by simp at hw, h3, rfl, rfl, h4, Same.refl _, h5⟩

theorem onVM_safe {m : M α} {s : CS} {Q : α → CS → Prop} {a : α} {vm : VM} (h : m s.vm = .ok (a, vm)) (q : Q a { s with vm := vm }) :
    CSafe B (onVM m) s Q := CSafe.ok (by unfold onVM; rw [h]) q

theorem findOrAdd_wrote (t : Bytes) {s : CS} (h : CodeWF s) : CSafe B (onVM (findOrAddString t)) s fun id s' => Wrote s [] s' ∧
    (s.vm.errors.length < s'.vm.errors.length ∨ ∃ x, s'.vm.strings.entry id = some x) := by
  rcases findOrAddString_spec h.str t with ⟨id, e, h1, h2, _⟩ | ⟨id, tb, b, h1, h2, h3, h4, _⟩ | ⟨h1, _⟩
  · exact onVM_safe h1 ⟨Wrote.strs h h.str rfl rfl rfl (Nat.le_refl _) (.refl _), .inr ⟨e, h2⟩⟩
  · refine onVM_safe h1 ⟨Wrote.strs h h2 rfl rfl rfl (Nat.le_refl _) fun i x hx hd => ⟨x, ?_, rfl, hd⟩, .inr ⟨Str.mk' t, ?_⟩⟩
    · show tb.entry i = _
      rw [h4, if_neg]
      · exact hx
      · rintro rfl; rw [h3] at hx; cases hx
    · show tb.entry id = _
      rw [h4, if_pos rfl]
  · exact onVM_safe h1 ⟨Wrote.strs h (h.str.addErr _) rfl rfl rfl (by simp [VM.addErr]) (.refl _), .inl (by simp [VM.addErr])⟩

theorem keepString_wrote (id : Nat) {s : CS} (h : CodeWF s) : CSafe B (onVM (keepString id)) s fun _ s' => Wrote s [] s' ∧
    ∀ x, s.vm.strings.entry id = some x → ∃ y, s'.vm.strings.entry id = some y ∧ y.dontGC = true := by
  have hg := Table.get_eq h.str.tab id
  cases he : s.vm.strings.entry id with
  | none =>
    refine onVM_safe (a := ()) (vm := s.vm) ?_ ⟨Wrote.strs h h.str rfl rfl rfl (Nat.le_refl _) (.refl _), fun x hx => by cases hx⟩
    unfold keepString; rw [hg, he]
  | some e =>
    obtain ⟨w1, w2, w3⟩ := Table.write_live h.str.tab he { e with dontGC := true }
    refine onVM_safe (a := ()) (vm := { s.vm with strings := { s.vm.strings with slots := s.vm.strings.slots.set id (some { e with dontGC := true }) } })
      ?_ ⟨Wrote.strs h (StrWF.replace h.str he rfl rfl) rfl rfl rfl (Nat.le_refl _) fun i x hx hd => ?_, fun x _ => ⟨{ e with dontGC := true }, ?_, rfl⟩⟩
    · unfold keepString; rw [hg, he]; simp only [w1]
    · show ∃ x', Table.entry { s.vm.strings with slots := _ } i = some x' ∧ _
      rw [w3]
      by_cases hid : i = id
      · subst hid
        rw [he] at hx; cases hx
        exact ⟨_, if_pos rfl, rfl, rfl⟩
      · exact ⟨x, by rw [if_neg hid]; exact hx, rfl, hd⟩
    · show Table.entry { s.vm.strings with slots := _ } id = _
      rw [w3, if_pos rfl]

theorem emitStr_wrote (hL : B .longjmp) (t : Bytes) (adj : Bool) {s : CS} (h : CodeWF s) :
    CSafe B (emitStr t adj) s fun _ s' => ∃ v, Wrote s [9#32, v] s' ∧
      (s.vm.errors.length < s'.vm.errors.length ∨ ∃ x, s'.vm.strings.entry v.toNat = some x ∧ x.dontGC = true) := by
  unfold emitStr
  refine (addInstr_wrote hL _ adj h).bind fun _ s1 h1 => ?_
  refine (findOrAdd_wrote t h1.1.wf).bind fun id s2 h2 => ?_
  refine (addInstr_wrote hL _ false h2.1.wf).bind fun _ s3 h3 => ?_
  refine (keepString_wrote id h3.1.wf).mono fun _ s4 h4 => ⟨BitVec.ofNat 32 id, ?_, ?_⟩
  · have := ((h1.1.trans h2.1).trans h3.1).trans h4.1
    simpa using this
  · have k1 := h1.1.errs
    have k3 := h3.1.errs
    have k4 := h4.1.errs
    rcases h2.2 with h | ⟨x, hx⟩
    · exact .inl (by omega)
    · have hx3 : s3.vm.strings.entry id = some x := by rw [h3.2]; exact hx
      obtain ⟨y, h5, h6⟩ := h4.2 x hx3
      refine .inr ⟨y, ?_, h6⟩
      have hlt := Table.entry_some_lt hx3
      obtain ⟨k, hk, ek⟩ := h3.1.wf.str.tab.pow
      have : 2 ^ k ≤ 2 ^ 31 := Nat.pow_le_pow_right (by decide) hk
      have := h3.1.wf.str.tab.len
      rw [BitVec.toNat_ofNat, Nat.mod_eq_of_lt (by omega)]
      exact h5

theorem Inv.wrote {s s' : CS} {ws : List (BitVec 32)} (h : Inv Z B s) (e : Wrote s ws s') (sh : Shape s'.vm.instrs s'.write)
    (g : Grew s.vm.instrs s.write s'.vm.instrs s'.write)
    (hl : ∀ i, s.write ≤ i → i < s'.write → Starts s'.vm.instrs i → s'.vm.instrs[i]? = some 9#32 →
      ∃ v, s'.vm.instrs[i + 1]? = some v ∧ LitWord Z s'.vm.strings s'.vm.errors.length v) : Inv Z B s' := by
  obtain ⟨n, hc⟩ := e.ctx
  refine ⟨e.wf, sh, fun f hf => g.keep (h.fns f (by rw [← e.fns]; exact hf)), fun c hcc a ha => g.jumpAt ?_, fun c hl => ?_,
    by rw [e.toks]; exact h.good, by rw [e.write]; exact Nat.le_trans h.low (Nat.le_add_right _ _),
    fun i hi => by rw [e.below i (Nat.lt_of_lt_of_le hi h.low)]; exact h.base i hi,
    h.lits.below h.shape.whole e.below e.keeps e.errs hl, by rw [e.fns]; exact h.funs⟩
  · rw [hc] at hcc
    cases hx : s.ctx with
    | nil => exact absurd hx h.wf.ctx
    | cons d ds =>
      rw [hx] at hcc
      simp only [setOff, List.mem_cons] at hcc
      rcases hcc with rfl | hcc
      · exact h.fix d (by rw [hx]; simp) a ha
      · exact h.fix c (by rw [hx]; simp [hcc]) a ha
  · rw [hc] at hl
    have h0 := h.root
    cases hx : s.ctx with
    | nil => exact absurd hx h.wf.ctx
    | cons d ds =>
      rw [hx] at hl h0
      cases ds with
      | nil => simp only [setOff, List.getLast?_singleton, Option.some.injEq] at hl; rw [← hl]; exact h0 d rfl
      | cons e es => exact h0 c (by simpa [setOff, List.getLast?_cons_cons] using hl)

theorem Adv.wrote {s2 : CS} {ws : List (BitVec 32)} (h : Adv Z B k p s s1) (e : Wrote s1 ws s2)
    (sh : Shape s2.vm.instrs s2.write ∧ Grew s1.vm.instrs s1.write s2.vm.instrs s2.write)
    (hl : ∀ i, s1.write ≤ i → i < s2.write → Starts s2.vm.instrs i → s2.vm.instrs[i]? = some 9#32 →
      ∃ v, s2.vm.instrs[i + 1]? = some v ∧ LitWord Z s2.vm.strings s2.vm.errors.length v) : Adv Z B k p s s2 :=
  ⟨h.inv.wrote e sh.1 sh.2 hl, h.grew.trans sh.2, by rw [e.depth]; exact h.depth, by rw [e.toks]; exact h.toks, by rw [e.toks]; exact h.len,
    Nat.le_trans h.errs e.errs, by rw [e.fns]; exact h.fnum⟩

/-- A plain instruction. -/
def PlainOp (op : Nat) : Prop := op < 43 ∧ ¬(7 ≤ op ∧ op ≤ 10) ∧ op ≠ 17 ∧ op ≠ 21

instance (op : Nat) : Decidable (PlainOp op) := by unfold PlainOp; infer_instance

theorem opOf_ofNat {op : Nat} (h : op < 64) : opOf (BitVec.ofNat 32 op) = op := code64 h

theorem emitOp_step (hL : B .longjmp) {op : Nat} (ho : PlainOp op) (adj : Bool) (h : Adv Z B k p s s1) :
    CSafe B (emitOp op adj) s1 fun _ s2 => Adv Z B k p s s2 ∧ Same s1.ctx s2.ctx ∧ s1.vm.errors.length ≤ s2.vm.errors.length := by
  refine (addInstr_wrote hL _ adj h.inv.wf).mono fun _ s2 e => ?_
  have hw := e.1.code 0 _ rfl
  refine ⟨h.wrote e.1 ?_ fun i h1 h2 _ h9 => ?_, e.1.ctx, e.1.errs⟩
  rotate_left
  · rw [e.1.write] at h2
    obtain rfl : i = s1.write := by simp at h2; omega
    exfalso
    rw [show s1.write + 0 = s1.write from rfl, h9] at hw
    have h8 := congrArg BitVec.toNat (Option.some.inj hw)
    have := ho.1
    have := ho.2.1
    have e8 : (BitVec.ofNat 32 op).toNat = op := by rw [BitVec.toNat_ofNat]; omega
    have e9 : (9#32).toNat = 9 := rfl
    omega
  rw [e.1.write]
  have h64 : op < 64 := by have := ho.1; omega
  refine h.inv.shape.plain e.1.below hw ?_ ?_ (by rw [BitVec.toNat_ofNat]; have := ho.1; omega)
  · unfold width; rw [opOf_ofNat h64, if_neg ho.2.1]
  · unfold IsJump; rw [opOf_ofNat h64]; have := ho.2.2; omega

theorem Adv.lit {s2 : CS} {w v : BitVec 32} (hw : width w = 2 ∧ w.toNat < 43) (h : Adv Z B k p s s1) (e : Wrote s1 [w, v] s2)
    (hl : w = 9#32 → LitWord Z s2.vm.strings s2.vm.errors.length v) : Adv Z B k p s s2 := by
  have c0 : s2.vm.instrs[s1.write]? = some w := e.code 0 _ rfl
  have sh := h.inv.shape.lit e.below c0 hw.1 hw.2
  refine h.wrote e (by rw [e.write]; exact sh) fun i h1 h2 h3 h9 => ?_
  rw [e.write] at h2
  by_cases hi : i = s1.write
  · subst hi
    rw [c0] at h9
    exact ⟨v, e.code 1 _ rfl, hl (Option.some.inj h9)⟩
  · have := Starts.gap i h3 (h.inv.shape.whole.keep (fun i hi _ => e.below i hi) (Nat.le_refl _)) c0 (by omega)
    rw [hw.1] at this
    simp at h2
    omega

theorem emitInt_step (hL : B .longjmp) (v : BitVec 32) (adj : Bool) (h : Adv Z B k p s s1) :
    CSafe B (emitInt v adj) s1 fun _ s2 => Adv Z B k p s s2 ∧ Same s1.ctx s2.ctx := by
  refine (lit_wrote hL 7 v adj h.inv.wf).mono fun _ s2 e => ?_
  exact ⟨h.lit (by decide) e (fun h => absurd h (by decide)), e.ctx⟩

theorem emitFn_step (hL : B .longjmp) (v : BitVec 32) (adj : Bool) (h : Adv Z B k p s s1) :
    CSafe B (emitFn v adj) s1 fun _ s2 => Adv Z B k p s s2 ∧ Same s1.ctx s2.ctx := by
  refine (lit_wrote hL 10 v adj h.inv.wf).mono fun _ s2 e => ?_
  exact ⟨h.lit (by decide) e (fun h => absurd h (by decide)), e.ctx⟩

theorem emitFloat_step (hL : B .longjmp) (v : BitVec 32) (adj : Bool) (h : Adv Z B k p s s1) :
    CSafe B (emitFloat v adj) s1 fun _ s2 => Adv Z B k p s s2 ∧ Same s1.ctx s2.ctx := by
  refine (lit_wrote hL 8 v adj h.inv.wf).mono fun _ s2 e => ?_
  exact ⟨h.lit (by decide) e (fun h => absurd h (by decide)), e.ctx⟩

theorem emitStr_step (hL : B .longjmp) (t : Bytes) (adj : Bool) (h : Adv Z B k p s s1) :
    CSafe B (emitStr t adj) s1 fun _ s2 => Adv Z B k p s s2 ∧ Same s1.ctx s2.ctx := by
  refine (emitStr_wrote hL t adj h.inv.wf).mono fun _ s2 ⟨v, e, hv⟩ => ?_
  refine ⟨h.lit (by decide) e fun _ => ?_, e.ctx⟩
  have := h.inv.lits.le
  exact hv.imp (fun h => by omega) id

/-! ## Jumps -/

theorem CodeWF.lt (h : CodeWF s) : s.write < 536870912 := by have := h.small; have := h.write; omega

/-- There are no string literals in a jump. -/
theorem jump_lits {I : List (BitVec 32)} {n op : Nat} {S : Table Str} {e : Nat} (hn : Starts I n) (h0 : I[n]? = some 7#32)
    (h2 : I[n + 2]? = some (BitVec.ofNat 32 op)) (ho : op = 17 ∨ op = 21) :
    ∀ i, n ≤ i → i < n + 3 → Starts I i → I[i]? = some 9#32 → ∃ v, I[i + 1]? = some v ∧ LitWord Z S e v := by
  intro i a b hi h9
  exfalso
  by_cases h : i = n
  · subst h; rw [h0] at h9; cases h9
  · have := Starts.gap i hi hn h0 (by omega)
    rw [show width 7#32 = 2 by decide] at this
    obtain rfl : i = n + 2 := by omega
    rw [h2] at h9
    rcases ho with rfl | rfl <;> cases h9

theorem emitJump_step (hL : B .longjmp) {op T : Nat} (ho : op = 17 ∨ op = 21) (h : Adv Z B k p s s1)
    (hT : Entry s1.vm.instrs s1.write T) :
    CSafe B (emitJump op T) s1 fun a s2 => Adv Z B k p s s2 ∧ Same s1.ctx s2.ctx ∧ JumpAt Z.n s2.vm.instrs s2.write a := by
  have hsm := h.inv.wf.lt
  unfold emitJump
  refine CSafe.cget ?_
  refine (lit_wrote hL 7 _ true h.inv.wf).bind fun _ s2 e2 => ?_
  refine (addInstr_wrote hL (BitVec.ofNat 32 op) true e2.wf).bind fun _ s3 e3 => ?_
  have e := e2.trans e3.1
  have c0 := e.code 0 _ rfl
  have c1 := e.code 1 _ rfl
  have c2 := e.code 2 _ rfl
  have hj : IsJump (BitVec.ofNat 32 op) := by unfold IsJump opOf; rcases ho with rfl | rfl <;> decide
  have hT' := hT.le
  have sh := h.inv.shape.jump e.below c0 c1 c2 hj (by rcases ho with rfl | rfl <;> decide) (.inl (by rw [jump_dist (by omega) (by omega)]; exact hT))
  have ew : s3.write = s1.write + 3 := e.write
  rw [← ew] at sh
  refine ⟨h.wrote e sh (by rw [ew]; exact jump_lits (h.inv.shape.whole.keep sh.2.same (Nat.le_refl _)) c0 c2 ho), e.ctx, ⟨h.inv.low, by omega, h.inv.shape.whole.keep sh.2.same (Nat.le_refl _), c0, ?_⟩⟩
  rcases ho with rfl | rfl
  · exact .inl c2
  · exact .inr c2

theorem modifyJump_run {a T : Nat} (h : CodeWF s) (ha : JumpAt Z.n s.vm.instrs s.write a) :
    modifyJump a T s = .ok ((), { s with vm := { s.vm with instrs := s.vm.instrs.set (a + 1) (BitVec.ofNat 32 (usub (usub T a) 3)) } }) := by
  have hs := h.small
  have hw := h.write
  have hle := ha.le
  obtain ⟨k, hk, e⟩ := h.pow
  have mask : ∀ x, x < s.vm.instrMask + 1 → s.vm.instrMask &&& x = x := by
    intro x hx
    rw [e] at hx
    rw [show s.vm.instrMask = 2 ^ k - 1 by omega, Nat.and_comm, Nat.and_two_pow_sub_one_eq_mod, Nat.mod_eq_of_lt hx]
  have e1 : u32 (a + 1) = a + 1 := by unfold u32 U32; omega
  have e2 : u32 (a + 2) = a + 2 := by unfold u32 U32; omega
  have hlen := h.len
  unfold modifyJump
  have i1 : instrWord a s = .ok (7#32, s) := by unfold instrWord; rw [mask a (by omega), ha.lit]
  rw [CM.bind_ok i1, e2]
  have fin : writeInstr (s.vm.instrMask &&& u32 (a + 1)) (BitVec.ofNat 32 (usub (usub T a) 3)) s =
      .ok ((), { s with vm := { s.vm with instrs := s.vm.instrs.set (a + 1) (BitVec.ofNat 32 (usub (usub T a) 3)) } }) := by
    rw [e1, mask _ (by omega)]
    unfold writeInstr
    rw [if_pos (by omega)]
  rcases ha.jump with hj | hj
  · have i2 : instrWord (a + 2) s = .ok (17#32, s) := by unfold instrWord; rw [mask _ (by omega), hj]
    rw [CM.bind_ok i2, if_pos (by decide), CM.cget_bind]
    exact fin
  · have i2 : instrWord (a + 2) s = .ok (21#32, s) := by unfold instrWord; rw [mask _ (by omega), hj]
    rw [CM.bind_ok i2, if_pos (by decide), CM.cget_bind]
    exact fin

theorem Adv.patch {i : Nat} {w : BitVec 32} (h : Adv Z B k p s s1) (hi : Z.n ≤ i) (hp : ∃ a, i = a + 1 ∧ s1.vm.instrs[a]? = some 7#32)
    (sh : Shape (s1.vm.instrs.set i w) s1.write ∧ Grew s1.vm.instrs s1.write (s1.vm.instrs.set i w) s1.write) :
    Adv Z B k p s { s1 with vm := { s1.vm with instrs := s1.vm.instrs.set i w } } := by
  refine { h with inv := ⟨⟨h.inv.wf.pow, ?_, h.inv.wf.write, CodeWF.str' h.inv.wf.str rfl rfl, h.inv.wf.ctx⟩, sh.1,
    fun f hf => sh.2.keep (h.inv.fns f hf), fun c hc a ha => sh.2.jumpAt (h.inv.fix c hc a ha), h.inv.root, h.inv.good, h.inv.low,
    fun j hj => by
      show (s1.vm.instrs.set i w)[j]? = _
      rw [List.getElem?_set_ne (by omega)]; exact h.inv.base j hj,
    h.inv.lits.mono sh.2.same (fun j _ _ h9 => by
      obtain ⟨a, rfl, h7⟩ := hp
      show (s1.vm.instrs.set (a + 1) w)[j + 1]? = _
      rw [List.getElem?_set_ne]
      rintro e
      obtain rfl : a = j := by omega
      rw [h7] at h9; cases h9) (.refl _) (Nat.le_refl _) (fun j h1 h2 => absurd h2 (Nat.not_lt.mpr h1)), h.inv.funs⟩, grew := h.grew.trans sh.2 }
  show (s1.vm.instrs.set i w).length = _
  rw [List.length_set]; exact h.inv.wf.len

theorem jumpHere_step {a : Nat} (h : Adv Z B k p s s1) (ha : JumpAt Z.n s1.vm.instrs s1.write a) :
    CSafe B (jumpHere a) s1 fun _ s2 => Adv Z B k p s s2 ∧ s2.ctx = s1.ctx ∧ Grew s1.vm.instrs s1.write s2.vm.instrs s2.write := by
  have hle := ha.le
  have hlt := h.inv.wf.lt
  have hlen := h.inv.wf.len
  have hw := h.inv.wf.write
  unfold jumpHere
  refine CSafe.cget (CSafe.ok (modifyJump_run h.inv.wf ha) ?_)
  have sh := h.inv.shape.patch (I' := s1.vm.instrs.set (a + 1) (BitVec.ofNat 32 (usub (usub s1.write a) 3))) ha
    (fun i hi => List.getElem?_set_ne (Ne.symm hi)) (List.getElem?_set_self (by omega)) h.inv.shape.entry (jump_dist (by omega) (by omega))
  exact ⟨h.patch (Nat.le_succ_of_le ha.low) ⟨a, rfl, ha.lit⟩ sh, rfl, sh.2⟩

end Nk.Cc
