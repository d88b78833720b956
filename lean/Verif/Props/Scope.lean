import Verif.Lemmas.StmtAll
import Verif.Props.Stmt
/-!
# C53 and C54: names and nesting
-/
namespace Nk.Props
open Nk.Cc

/-! ## C53: scopes -/

/-- The name is declared in this scope. -/
def Declared (c : CCtx) (name : Bytes) : Prop := ∃ v ∈ c.vars, v.name = name

theorem findVar_some {name : Bytes} {vs : List CVar} {v : CVar} (h : findVar name vs = some v) : v ∈ vs ∧ v.name = name := by
  induction vs with
  | nil => cases h
  | cons w ws ih =>
    rw [findVar] at h
    split at h
    · next e => cases h; exact ⟨List.mem_cons_self, strcmp_eq.mp e⟩
    · exact ⟨List.mem_cons_of_mem _ (ih h).1, (ih h).2⟩

theorem findVar_none {name : Bytes} {vs : List CVar} (h : findVar name vs = none) : ∀ v ∈ vs, v.name ≠ name := by
  induction vs with
  | nil => simp
  | cons w ws ih =>
    rw [findVar] at h
    split at h
    · cases h
    · next e =>
      intro v hv
      rcases List.mem_cons.mp hv with rfl | hv
      · exact fun he => e (strcmp_eq.mpr he)
      · exact ih h v hv

theorem findCtx_spec (name : Bytes) (l : List CCtx) :
    match findCtx name l with
    | some v => ∃ inner c outer, l = inner ++ c :: outer ∧ v ∈ c.vars ∧ v.name = name ∧ ∀ c' ∈ inner, ¬Declared c' name
    | none => ∀ c ∈ l, ¬Declared c name := by
  induction l with
  | nil => simp [findCtx]
  | cons c cs ih =>
    rw [findCtx]
    cases h : findVar name c.vars with
    | some v => exact ⟨[], c, cs, rfl, (findVar_some h).1, (findVar_some h).2, by simp⟩
    | none =>
      have hn : ¬Declared c name := fun ⟨v, hv, he⟩ => findVar_none h v hv he
      dsimp only
      cases h2 : findCtx name cs with
      | some v =>
        rw [h2] at ih
        obtain ⟨i, d, o, a, b, e, f⟩ := ih
        refine ⟨c :: i, d, o, by rw [a]; rfl, b, e, fun c' hc => ?_⟩
        rcases List.mem_cons.mp hc with rfl | hc
        · exact hn
        · exact f c' hc
      | none =>
        rw [h2] at ih
        intro c' hc
        rcases List.mem_cons.mp hc with rfl | hc
        · exact hn
        · exact ih c' hc

/-- **C53**, lookup: with any nesting of scopes (the innermost is the first), a name is looked up in the innermost scope that
declares it, and it is an error if there is none. -/
theorem C53_innermost (name : Bytes) (s : CS) :
    (∃ v inner c outer, lookupVar name s = .ok (some v, s) ∧ s.ctx = inner ++ c :: outer ∧ v ∈ c.vars ∧ v.name = name ∧
        ∀ c' ∈ inner, ¬Declared c' name) ∨
    (∃ s', lookupVar name s = .ok (none, s') ∧ s.vm.errors.length < s'.vm.errors.length ∧ ∀ c ∈ s.ctx, ¬Declared c name) := by
  have h := findCtx_spec name s.ctx
  unfold lookupVar
  rw [CM.cget_bind]
  cases e : findCtx name s.ctx with
  | some v =>
    rw [e] at h
    obtain ⟨i, c, o, a1, a2, a3, a4⟩ := h
    exact .inl ⟨v, i, c, o, rfl, a1, a2, a3, a4⟩
  | none =>
    rw [e] at h
    right
    obtain ⟨s', h1, h2⟩ : ∃ s', err "Cannot find variable: " s = .ok ((), s') ∧ s.vm.errors.length < s'.vm.errors.length :=
      ⟨_, rfl, by simp⟩
    exact ⟨s', by dsimp only; rw [CM.bind_ok h1]; rfl, h2, h⟩

/-- **C53**, redeclaration: declaring a name again in the same scope is an error and changes no scope. -/
theorem C53_redeclared {name : Bytes} {s : CS} {c : CCtx} {cs : List CCtx} (hc : s.ctx = c :: cs) (hd : Declared c name) (useTop init : Bool) :
    ∃ s', addVariable name useTop init s = .ok (false, s') ∧ s.vm.errors.length < s'.vm.errors.length ∧ s'.ctx = s.ctx := by
  unfold addVariable
  rw [CM.cget_bind, hc]
  dsimp only
  rw [if_pos]
  · obtain ⟨s', h1, h2, h3⟩ : ∃ s', err "Redundant variable declaration." s = .ok ((), s') ∧ s.vm.errors.length < s'.vm.errors.length ∧ s'.ctx = s.ctx :=
      ⟨_, rfl, by simp, rfl⟩
    exact ⟨s', by rw [CM.bind_ok h1]; rfl, h2, by rw [h3, hc]⟩
  · obtain ⟨v, hv, he⟩ := hd
    rw [List.any_eq_true]
    exact ⟨v, hv, by simpa using strcmp_eq.mpr he⟩

/-- **C53**, declaration: after a declaration the name means the new variable (outside of all blocks a global one, otherwise the
one on top of the stack), and every other name means what it meant before. -/
theorem C53_declared {s s' : CS} {x : Bytes} {r : Bool} {k : Nat} (p : Pre s) (hk : offOf s.ctx = k + 1) (ho : k + 2 < 4294967296)
    (h : addVariable x true true s = .ok (r, s')) (he : s'.vm.errors = []) :
    placeOf s'.ctx x = some (if s.ctx.tail = [] then .glob s.staticCount else .loc k) ∧ ∀ y, y ≠ x → placeOf s'.ctx y = placeOf s.ctx y := by
  obtain ⟨_, _, _, _, c, cs, hc, h⟩ := addVar_inv p hk ho h he
  rcases h with ⟨rfl, _, _, h, _⟩ | ⟨hcs, rfl⟩
  · rw [h, hc]
    refine ⟨by simp [placeOf, findCtx, findVar, strcmp_eq.mpr], fun y hy => ?_⟩
    have : ¬strcmp x y = 0 := fun e => hy (strcmp_eq.mp e).symm
    simp [placeOf, findCtx, findVar, this]
  · rw [hc]
    refine ⟨by simp [placeOf, findCtx, findVar, strcmp_eq.mpr, hcs], fun y hy => ?_⟩
    have : ¬strcmp x y = 0 := fun e => hy (strcmp_eq.mp e).symm
    simp [placeOf, findCtx, findVar, this]

/-- **C53**, leaving: after a block every name means what it meant before the block.  (That the code of the statements in and
after the block accesses the variables names mean there is `C52_statement` and `C52_program`.) -/
theorem C53_leave (F : FloatOps) {ss : Sts} {d n : Nat} {ts rest : List Token} {s s' : CS} {o c : Token} {r : Bool} (p : Pre s)
    (ho : offOf s.ctx + ss.size < 4294967296) (hpo : o.type = .curlyOpen) (hpc : c.type = .curlyClose) (src : Srcs F d ts ss)
    (ht : s.toks = o :: ts ++ [c] ++ rest) (hd : s.depth + 1 + d ≤ 257) (h : block (statement F n) s = .ok (r, s')) (he : s'.vm.errors = []) :
    ∀ y, placeOf s'.ctx y = placeOf s.ctx y := by
  obtain ⟨_, _, _, fx, _, pl⟩ := block_inv (H := Sample.H) (statement_mono F n) (worksL ss n) p ho hpo hpc src ht hd h he
  intro y
  rw [pl.seg.ctx, setOff_off]
  exact congrFun (placeOf_withFix fx s.ctx) y

/-- Compile a text with a new compiler. -/
def compileText (text : String) : Res (Bool × CS) :=
  match Tok.tokenize 32 (fun _ => 0) (cs text ++ [0]) (cs "f") VM.create with
  | .ok (some toks, vm) => compileTokens Sample.F toks (createCompiler vm)
  | .ok (none, vm) => .ok (false, createCompiler vm)
  | .ub k => .ub k

/-- The inner `x` is a local variable (stored by instruction 14), the outer one the global variable 0 (instruction 15), which is
meant again after the block. -/
example : Res.test (compileText "var x = 1; { var x = 2; x = 3; } x = 4;") (fun r => r.1 = true ∧ r.2.vm.errors = [] ∧
    r.2.vm.instrs.take r.2.write = [7, 1, 7, 0, 15, 11, 7, 2, 7, 3, 7, 0xfffffffe, 14, 11, 7, 1, 12, 7, 4, 7, 0, 15, 11]) = true := by
  decide +kernel

/-- Declaring `x` twice in a scope is an error, and so is using it outside of its scope. -/
example : Res.test (compileText "{ var x; var x; }") (fun r => r.2.vm.errors.head? = some "Redundant variable declaration.") = true ∧
    Res.test (compileText "{ var x; } x = 1;") (fun r => r.2.vm.errors.head? = some "Cannot find variable: ") = true := by
  decide +kernel

/-! ## C54: nesting -/

/-- **C54**, what holds: compiling a statement uses up as many of the 256 levels of recursion for good as there are `var` and
`return` statements in it, and none if there are none, whatever its length.  Missing for the whole property: that is how a
program without any nesting is refused for recursion (`C54_violated`). -/
theorem C54_levels_partial (F : FloatOps) {S : St} {d n : Nat} {ts rest : List Token} {s s' : CS} {r : Bool} (src : Src F d ts S) (p : Pre s)
    (ht : s.toks = ts ++ rest) (hopen : S.open = true → typeOf rest ≠ .kwElse) (hd : s.depth + d ≤ 257)
    (hs : offOf s.ctx + S.size < 4294967296) (h : statement F n s = .ok (r, s')) (he : s'.vm.errors = []) :
    s'.depth = s.depth + S.leak :=
  (works (H := Sample.H) S n d ts rest s s' r p hs src ht hopen hd h he).2.2.1

/-- The start of a list of statements has been compiled. -/
theorem blockLoop_prefix {F : FloatOps} {st : CM Bool} (hst : CMono st) : ∀ (ss : Sts), ss.All (Works F Sample.H st) → ∀ {n d : Nat} {ts rest : List Token} {s s' : CS} {r : Bool}, Pre s →
    offOf s.ctx + ss.size < 4294967296 → Srcs F d ts ss → s.toks = ts ++ rest → typeOf rest ≠ .kwElse →
    s.depth + d ≤ 257 → blockLoop st n s = .ok (r, s') → s'.vm.errors = [] →
    ∃ n1 s1, blockLoop st n1 s1 = .ok (r, s') ∧ Pre s1 ∧ s1.toks = rest ∧ s1.depth = s.depth + ss.leak
  | .nil, _, n, d, ts, rest, s, s', r, p, ho, src, ht, hr, hd, h, he => by
    cases src
    exact ⟨n, s, h, p, ht, rfl⟩
  | .cons a as, w, n, d, ts, rest, s, s', r, p, ho, src, ht, hr, hd, h, he => by
    obtain ⟨w1, w2⟩ := w
    cases src with
    | @cons _ ts1 _ us _ s1 s2 =>
    have hlk := src_leak s1
    cases n with
    | zero => cases h
    | succ n =>
    obtain ⟨t, us', e1, e2, e3, e4⟩ := src_start s1
    rw [blockLoop, curType_bind, if_pos (by rw [ht, e1]; exact ⟨e2, e3⟩)] at h
    have mb := @blockLoop_mono
    obtain ⟨r1, sa, h1, h2, ea⟩ := CM.bind_nil h (by intro a; cmono) he
    simp only [Sts.size] at ho
    obtain ⟨rfl, t1, d1, f1, -, post1⟩ := w1 d ts1 (us ++ rest) s sa r1 p (by omega) s1 (by rw [ht, List.append_assoc]) (fun _ => by
      cases s2 with
      | nil => exact hr
      | cons s2 _ =>
        obtain ⟨t, us', e1, e2, e3, e4⟩ := src_start s2
        rw [e1]; exact e4) hd h1 ea
    rw [if_pos rfl] at h2
    have p1 := post1.pre p ea
    obtain ⟨-, -, -, k4, -, -⟩ := post1.ctx' p
    obtain ⟨n1, s1, b1, b2, b3, b4⟩ := blockLoop_prefix hst as w2 p1 (by omega) s2 t1 hr (by omega) h2 he
    exact ⟨n1, s1, b1, b2, b3, by rw [b4, d1]; simp only [Sts.leak]; omega⟩

theorem pushRec_full {m : Bool → CM β} {s : CS} (h : 256 < s.depth) :
    (pushRec >>= m) s = (err "Reached recursion limit during compilation." >>= fun _ => m false) s := by
  unfold pushRec
  rw [CM.assoc, CM.cget_bind, if_pos h, CM.assoc]
  rfl

/-- C54 is false as stated: a program whose statements contain 255 declarations or returns (after which the compiler has used up
its levels, however they are nested) and go on with one more declaration does not compile. -/
theorem C54_violated {F : FloatOps} {ss : Sts} {d : Nat} {ts rest : List Token} {s s' : CS} {r : Bool} (src : Srcs F d ts ss) (p : Pre s)
    (hd : s.depth + 1 + d ≤ 257) (hs : offOf s.ctx + ss.size < 4294967296) (hleak : 255 ≤ ss.leak) (hrest : typeOf rest = .kwVar)
    (h : compileTokens F (ts ++ rest) s = .ok (r, s')) : s'.vm.errors ≠ [] := by
  intro he
  unfold compileTokens at h
  rw [CM.cmod_bind] at h
  obtain ⟨s0, h, m0, t0, d0⟩ : ∃ s0, (script (statement F maxDepth) >>= fun ok => (cmod fun s => { s with toks := [], line := 0, file := UINT_MAX }) >>= fun _ =>
      pure ok) s0 = .ok (r, s') ∧ Moved s s0 ∧ s0.toks = ts ++ rest ∧ s0.depth = s.depth := by
    refine ⟨_, h, ?_, rfl, rfl⟩
    exact ⟨⟨⟨p.wf.pow, p.wf.len, p.wf.write, p.wf.str, p.wf.ctx⟩, Nat.le_refl _, fun _ _ => rfl, by simp, fun _ h => h, rfl, Nat.le_refl _⟩, rfl, rfl, rfl, rfl⟩
  obtain ⟨r1, s1, h1, h2, er1⟩ := CM.bind_nil h (by intro a; cmono) he
  have mb := @blockLoop_mono
  have ms := statement_mono F maxDepth
  unfold script at h1
  rw [CM.cget_bind] at h1
  have h1 := pushRec_same (by intro a; cmono) h1 (er1.trans (p.moved m0).errs.symm)
  rw [if_pos rfl, CM.cget_bind] at h1
  have p1 := p.moved (m0.trans (moved_depth m0.grow.wf (s0.depth + 1)))
  obtain ⟨r2, s2, h3, h4, er2⟩ := CM.bind_nil h1 (by intro a; cmono) er1
  obtain ⟨n, s3, h5, e5, t5, d5⟩ := blockLoop_prefix ms ss (worksL (H := Sample.H) ss maxDepth) p1 (by show offOf s0.ctx + _ < _; rw [m0.ctx]; exact hs) src t0
    (by rw [hrest]; decide) (by show s0.depth + 1 + d ≤ _; omega) h3 er2
  have d5 : s3.depth = s0.depth + 1 + ss.leak := d5
  cases n with
  | zero => cases h5
  | succ n =>
  rw [blockLoop, curType_bind, if_pos (by rw [t5, hrest]; decide)] at h5
  obtain ⟨r3, s4, h6, -, er4⟩ := CM.bind_nil h5 (by intro a; cmono) er2
  have h7 := statement_rec (n := 299) e5 h6 er4
  rw [show typeOf s3.toks = .kwVar by rw [t5, hrest]] at h7
  have h7 : varDecl (compileExpr F (functionDef (statement F 299) true) false) { s3 with depth := s3.depth + 1 } = .ok (r3, s4) := h7
  unfold varDecl at h7
  rw [pushRec_full (by show 256 < s3.depth + 1; omega)] at h7
  obtain ⟨_, s5, k1, k2⟩ := CM.bind_inv h7
  cases k1
  rw [if_neg (by decide)] at k2
  obtain ⟨rfl, rfl⟩ := pure_inv k2
  simp at er4

namespace ScopeEx

/-- A token. -/
def tok (t : TokType) (s : String) : Token := ⟨t, cs s, 1, 0, 1⟩

/-- `{ var x; }` -/
def one : List Token := [tok .curlyOpen "{", tok .kwVar "var", tok .identifier "x", tok .semicolon ";", tok .curlyClose "}"]

/-- `{ var x; }`, `n` times, and `var a; var b;`. -/
def flat : Nat → List Token
  | 0 => [tok .kwVar "var", tok .identifier "a", tok .semicolon ";", tok .kwVar "var", tok .identifier "b", tok .semicolon ";"]
  | n + 1 => one ++ flat n

/-- The statements. -/
def flatS : Nat → Sts
  | 0 => .cons (.decl0 (cs "a")) (.cons (.decl0 (cs "b")) .nil)
  | n + 1 => .cons (.block (.cons (.decl0 (cs "x")) .nil)) (flatS n)

theorem flat_src (F : FloatOps) : ∀ n, Srcs F (n + 3) (flat n) (flatS n)
  | 0 => .cons (ts := [_, _, _]) (.decl0 (v := tok .kwVar "var") (x := tok .identifier "a") (semi := tok .semicolon ";") rfl rfl rfl (by omega))
      (.cons (ts := [_, _, _]) (.decl0 (v := tok .kwVar "var") (x := tok .identifier "b") (semi := tok .semicolon ";") rfl rfl rfl (by simp [St.leak])) .nil)
  | n + 1 => by
    refine .cons (ts := one) ?_ ?_
    · exact .block (d := n + 2) (o := tok .curlyOpen "{") (c := tok .curlyClose "}") (ts := [_, _, _]) rfl rfl
        (.cons (ts := [_, _, _]) (.decl0 (v := tok .kwVar "var") (x := tok .identifier "x") (semi := tok .semicolon ";") rfl rfl rfl (by omega)) .nil)
    · exact flat_src F n

theorem flat_leak : ∀ n, (flatS n).leak = n + 2
  | 0 => rfl
  | n + 1 => by simp [flatS, Sts.leak, St.leak, flat_leak n]; omega

/-- `var c;` -/
def more : List Token := [tok .kwVar "var", tok .identifier "c", tok .semicolon ";"]

/-- The program is compiled if the block in it is repeated a few times .. -/
example : Res.test (compileTokens Sample.F (flat 20 ++ more) (createCompiler VM.create)) (fun r => r.1 = true ∧ r.2.vm.errors = []) = true := by
  decide +kernel

/-- .. but not if it is repeated 253 times, although nothing is nested deeper. -/
example {r : Bool} {s' : CS} (h : compileTokens Sample.F (flat 253 ++ more) (createCompiler VM.create) = .ok (r, s')) : s'.vm.errors ≠ [] :=
  C54_violated (flat_src Sample.F 253) StmtEx.pre (by decide) (by decide +kernel) (by rw [flat_leak]) rfl h

end ScopeEx

end Nk.Props
