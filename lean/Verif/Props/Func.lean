import Verif.Lemmas.FuncProg
import Verif.Lemmas.Fold
import Verif.Props.Stmt
/-!
# C65: programs with functions
-/
namespace Nk.Props
open Nk.Cc
variable (F : FloatOps) (H : Host)

variable {F H}

/-- A new variable at a place that is not in use. -/
theorem Top.put {E : Env} (h : Top E) (x : Bytes) {g n m : Nat} (hg : E.g = some g) (h1 : g ≤ n) (h2 : n < m) :
    Top { Γ := fun y => if x = y then some (.glob n) else E.Γ y, g := some m, h := E.h } := by
  have below : ∀ y i, E.Γ y = some (.glob i) → i < g := fun y i e => h.bound y i g e hg
  refine ⟨fun y i => ?_, ⟨_, rfl⟩, fun y i k e ek => ?_, fun y z i e1 e2 => ?_⟩
  · dsimp only
    split
    · exact fun e => by cases e
    · exact h.glob y i
  · cases ek
    dsimp only at e
    split at e
    · cases e; exact h2
    · have := below y i e; omega
  · dsimp only at e1 e2
    split at e1 <;> split at e2
    · next a b => exact a.symm.trans b
    · cases e1; have := below z _ e2; omega
    · cases e2; have := below y _ e1; omega
    · exact h.inj y z i e1 e2

theorem Top.bind {E : Env} (h : Top E) (x : Bytes) : Top (E.bind x) := by
  obtain ⟨g, hg⟩ := h.new
  unfold Env.bind
  rw [hg]
  exact h.put x hg (Nat.le_refl _) (Nat.lt_succ_self _)

theorem Top.item {E : Env} (h : Top E) (i : Item) : Top (i.bind E) := by
  cases i with
  | fn f ps ss => exact h.bind f
  | st S =>
    cases S with
    | decl x e => exact h.bind x
    | decl0 x => exact h.bind x
    | _ => exact h

theorem Top.items {E : Env} (h : Top E) : ∀ is : List Item, Top (Items.bind E is)
  | [] => h
  | i :: is => (h.item i).items is

variable (F H)

/-- What compiling a program does, in terms of the loop over its statements. -/
theorem program_post {is : List Item} {d : Nat} {ts : List Token} {s s' : CS} {root : CCtx} {r : Bool} (src : Prog F d ts is) (p : Pre s)
    (hc : s.ctx = [root]) (hroot : root.fnId = UINT_MAX) (fine : ∀ i ∈ is, i.Fine) (hd : s.depth + 1 + d ≤ 257)
    (hs : offOf s.ctx + Items.size is + 2 < 4294967296) (h : compileTokens F ts s = .ok (r, s')) (he : s'.vm.errors = []) :
    r = true ∧ ∃ s0 s3, Moved s s0 ∧ ProgPost F H s0 s3 is ∧ s'.write = s3.write ∧ s'.vm = s3.vm ∧ s'.staticCount = s3.staticCount ∧ s'.ctx = s3.ctx := by
  unfold compileTokens at h
  rw [CM.cmod_bind] at h
  obtain ⟨s0, h, m0, t0, d0⟩ : ∃ s0, (script (statement F maxDepth) >>= fun ok => (cmod fun s => { s with toks := [], line := 0, file := UINT_MAX }) >>= fun _ =>
      pure ok) s0 = .ok (r, s') ∧ Moved s s0 ∧ s0.toks = ts ∧ s0.depth = s.depth := by
    refine ⟨_, h, ?_, rfl, rfl⟩
    exact ⟨⟨⟨p.wf.pow, p.wf.len, p.wf.write, p.wf.str, p.wf.ctx⟩, Nat.le_refl _, fun _ _ => rfl, by simp, fun _ h => h, rfl, Nat.le_refl _⟩, rfl, rfl, rfl, rfl⟩
  obtain ⟨r1, s1, h1, h2, er1⟩ := CM.bind_nil h (by intro a; cmono) he
  rw [CM.cmod_bind] at h2
  obtain ⟨rfl, e2⟩ := pure_inv h2
  have mb := @blockLoop_mono
  have ms := statement_mono F maxDepth
  unfold script at h1
  rw [CM.cget_bind] at h1
  have h1 := pushRec_same (by intro a; cmono) h1 (er1.trans (p.moved m0).errs.symm)
  rw [if_pos rfl, CM.cget_bind] at h1
  have m1 := m0.trans (moved_depth m0.grow.wf (s0.depth + 1))
  have p1 := p.moved m1
  obtain ⟨r2, s2, h3, h4, er2⟩ := CM.bind_nil h1 (by intro a; cmono) er1
  have t1 : ({ s0 with depth := s0.depth + 1 } : CS).toks = ts := t0
  have dd : ({ s0 with depth := s0.depth + 1 } : CS).depth = s.depth + 1 := by show s0.depth + 1 = _; rw [d0]
  generalize ({ s0 with depth := s0.depth + 1 } : CS) = s0' at *
  obtain ⟨rfl, t2, post⟩ := progLoop_inv (H := H) (n := 298) is p1 (m1.ctx.trans hc) hroot fine (by rw [m1.ctx]; exact hs) src t1 (by omega) h3 er2
  rw [if_pos rfl, curType_bind, if_neg (by rw [t2]; decide)] at h4
  obtain ⟨_, s3, h5, h6⟩ := CM.bind_inv h4
  have : s3 = s2 := by
    unfold sameCtx at h5
    rw [CM.cget_bind] at h5
    split at h5
    · cases h5; rfl
    · cases h5
  subst this
  obtain ⟨rfl, _, rfl⟩ := popTrue_inv h6
  exact ⟨rfl, s0', s3, m1, post, by rw [e2], by rw [e2], by rw [e2], by rw [e2]⟩

/-- **C65**: when a program of statements and function definitions compiles without an error, then
* running it from its start does what its statements mean, one after the other, where the definition of a function puts the
  function in a new global variable: the bodies of functions are skipped;
* calling one of its functions, whose definition the program can get to, with as many arguments as it has parameters, runs
  its body: the parameters are the arguments, other names mean what they mean where the function is defined (so that it can
  call itself), and at the end the value of the `return` statement, or 0 if there is none, is the value of the call.

The body may not assign to `_argumentCount` and `_returnPointer`. -/
theorem C65_program {is : List Item} {d : Nat} {ts : List Token} {s s' : CS} {root : CCtx} {r : Bool} (src : Prog F d ts is) (p : Pre s)
    (hc : s.ctx = [root]) (hroot : root.fnId = UINT_MAX) (htop : Top (envOf s)) (fine : ∀ i ∈ is, i.Fine) (hd : s.depth + 1 + d ≤ 257)
    (hs : offOf s.ctx + Items.size is + 2 < 4294967296) (h : compileTokens F ts s = .ok (r, s')) (he : s'.vm.errors = []) :
    r = true ∧
      (∀ b l W vm, HasCode W s.write s' → Space W (l.length + Items.size is) → l.length = b + offOf s.ctx → Mach W s.write l vm →
        Obeys F H (Items.exec F H b (envOf s) s.vm.functions.length is) b none s'.write l W vm) ∧
      ∀ before f ps ss after, is = before ++ .fn f ps ss :: after →
        (∃ b l W l' W', Items.exec F H b (envOf s) s.vm.functions.length before l W .normal l' W') →
        ss.sets (cs "_argumentCount") = false → ss.sets (cs "_returnPointer") = false → ps.Nodup ∧
          ∀ W, HasCode W s.write s' → HasFns W s' →
            CallsAs F H W (s.vm.functions.length + Items.count before) ps (fnEnv ps ((Items.bind (envOf s) before).bind f).Γ) ss ∧
            ∀ l args, args.length ≠ ps.length → args.length < 4294967296 →
              Fails F H 18 l (.fn (s.vm.functions.length + Items.count before) :: args ++ [.int (BitVec.ofNat 32 args.length)]) W := by
  obtain ⟨rfl, s0', s3, m1, post, w', v', c', -⟩ := program_post F H src p hc hroot fine hd hs h he
  have ew : s0'.write = s.write := m1.write
  have ec : s0'.ctx = s.ctx := m1.ctx
  have ev : envOf s0' = envOf s := m1.seg.env
  have ef : s0'.vm.functions = s.vm.functions := m1.grow.fns
  have hasc : ∀ W, HasCode W s.write s' → HasCode W s0'.write s3 := fun W hw =>
    ⟨hw.good, by rw [ew, ← w', ← v']; exact hw.code, by rw [← v']; exact hw.lits, by rw [← c']; exact hw.statics⟩
  refine ⟨rfl, fun b l W vm hw hsp hl m => ?_, fun before f ps ss after e hx hs1 hs2 => ?_⟩
  · have hw := hasc W hw
    let K : Cfg := { F, H, cvm := s3.vm, I := W.instrs, n := l.length + Items.size is, sc := s3.staticCount, b, T := 0, hb := b + loopOff s0'.ctx, rb := b + 2 }
    have fit : Fit K W := ⟨rfl, hw.good, hw.lits, hsp, hw.statics⟩
    have none_ : fnArgs s0'.vm.functions s0'.ctx = none := by rw [ec, hc]; exact fnArgs_root hroot _
    have x := post.sim K ⟨rfl, rfl, by show 0 < 4294967296; omega, rfl, fun a ha => by rw [none_] at ha; cases ha⟩ ⟨fun _ h => h, Nat.le_refl _⟩
      ⟨fun i h1 h2 _ => hw.code i h1 h2, by simp⟩ (by show b + _ + _ ≤ _ + _; rw [ec]; omega)
    rw [ev, ef, ew, ec, ← w'] at x
    refine ⟨fun l' W' hP => ?_, fun v l' W' hP => ?_, fun l' W' hP => ?_, fun l' W' hP => ?_⟩
    · exact (x W l vm _ _ _ fit hl m hP).2.2
    · obtain ⟨k, vm', r, n, a1, a2, a3, a4⟩ := x W l vm _ _ _ fit hl m hP
      exact ⟨vm', r, n, a1, by rw [← k.instrs]; exact a2, a3, fun a ha => by cases ha⟩
    · exact x W l vm _ _ _ fit hl m hP
    · exact (x W l vm _ _ _ fit hl m hP).2
  · obtain ⟨sa, sb, g1, fp, g2, e1, e3⟩ := post.fns before f ps ss after e (fun dd => by
      obtain ⟨b, l, W, l', W', hx⟩ := hx
      rw [ev, ef] at dd
      exact dd b l W l' W' hx)
    rw [ev] at e1
    rw [ef] at e3
    refine ⟨fp.nodup, fun W hw hf => ?_⟩
    have hw := hasc W hw
    have hwf : HasCode W sa.write sb :=
      ⟨hw.good, fun i h1 h2 => (hw.code i (Nat.le_trans g1.le h1) (Nat.lt_of_lt_of_le h2 g2.le)).trans (g2.below i h2), g2.lits W hw.lits, Nat.le_trans g2.stat hw.statics⟩
    obtain ⟨t, ht⟩ := g2.fns
    have hf' : ∀ g, sb.vm.functions[sa.vm.functions.length]? = some g → W.functions[sa.vm.functions.length]? = some g := by
      intro g hg
      refine hf _ _ ?_
      rw [v', ht, List.getElem?_append_left (List.getElem?_eq_some_iff.mp hg).1]
      exact hg
    have htop' := (htop.items before).bind f
    rw [← e1] at htop'
    have k := fp.calls htop'.glob hs1 hs2 hwf hf'
    rw [e1, e3] at k
    refine ⟨k, fun l args hne hlt => ?_⟩
    obtain ⟨first, b1, b2, b3, b4⟩ := fp.body
    have := hf' _ (by rw [b3, List.getElem?_append_right (Nat.le_refl _)]; simp; rfl)
    rw [e3] at this
    have fm := fine (.fn f ps ss) (by rw [e]; simp)
    have fm2 : ps.length + ss.size + 4 < 4294967296 := fm.2
    exact call_wrong hw.good hlt this ⟨by show ps.length ≠ UINT_MAX; unfold UINT_MAX; omega, fun e => hne e.symm⟩

variable {F H}

/-- **C65**, calls in expressions: if the body, wherever it is called from, returns `v` and leaves the machine `W'`, then a call
in an expression has the value `v` and leaves `W'` (`Does … 18` is what the meaning of expressions says about calls). -/
theorem C65_value {W : VM} {id : Nat} {ps : List Bytes} {E : Env} {ss : Sts} (h : CallsAs F H W id ps E ss) (hg : Good W) {l args : List Value}
    (ha : args.length = ps.length) (hs : Space W (l.length + ps.length + ss.size + 5)) {v : Value} {W' : VM}
    (hx : ∀ p, ∃ l', Cc.Body F H (l.length + 1) E ss (frame l (.fn id) args p) W (.ret v) l' W') :
    Does F H 18 l (.fn id :: args ++ [.int (BitVec.ofNat 32 args.length)]) W v W' := by
  refine ⟨?_, fun p vm m hp => ?_⟩
  · obtain ⟨l', hx⟩ := hx 0
    exact kept_body _ _ _ _ _ _ _ hg.str hx
  · obtain ⟨l', hx⟩ := hx p
    exact h.ret l args p vm v l' W' ha hs hp m hx

/-- **C65**, errors: if the body gets to an error, a call in an expression is one. -/
theorem C65_error {W : VM} {id : Nat} {ps : List Bytes} {E : Env} {ss : Sts} (h : CallsAs F H W id ps E ss) {l args : List Value}
    (ha : args.length = ps.length) (hs : Space W (l.length + ps.length + ss.size + 5))
    (hx : ∀ p, ∃ l' W', Cc.Body F H (l.length + 1) E ss (frame l (.fn id) args p) W .err l' W') :
    Fails F H 18 l (.fn id :: args ++ [.int (BitVec.ofNat 32 args.length)]) W := by
  intro p vm m hp
  obtain ⟨l', W', hx⟩ := hx p
  exact h.err l args p vm l' W' ha hs hp m hx

/-! ### An example: `function sum(n) { if(n < 1) { return 0; } return n + sum(n - 1); } var x = sum(4);` -/

namespace FuncEx
open StmtEx (k)

/-- `sum(4)` or the like. -/
def callToks (as : List Token) : List Token := [k .identifier "sum"] ++ (k .parenOpen "(" :: as ++ [k .parenClose ")"])

/-- The tokens of the body. -/
def bodyToks : List Token :=
  (k .kwIf "if" :: k .parenOpen "(" :: [k .identifier "n", k .lessThan "<", k .integer "1"] ++ k .parenClose ")" ::
    (k .curlyOpen "{" :: ((k .kwReturn "return" :: [k .integer "0"] ++ [k .semicolon ";"]) ++ []) ++ [k .curlyClose "}"])) ++
  ((k .kwReturn "return" :: ([k .identifier "n"] ++ k .plus "+" :: callToks [k .identifier "n", k .minus "-", k .integer "1"]) ++ [k .semicolon ";"]) ++ [])

/-- The tokens. -/
def toks : List Token :=
  (k .kwFunction "function" :: k .identifier "sum" :: k .parenOpen "(" :: [k .identifier "n"] ++ k .parenClose ")" :: k .curlyOpen "{" ::
    bodyToks ++ [k .curlyClose "}"]) ++
  ((k .kwVar "var" :: k .identifier "x" :: k .assignment "=" :: callToks [k .integer "4"] ++ [k .semicolon ";"]) ++ [])

/-- They are what the tokenizer makes of the text. -/
example : Res.test (Tok.tokenize 32 (fun _ => 0)
    (cs "function sum(n) { if(n < 1) { return 0; } return n + sum(n - 1); } var x = sum(4);" ++ [0]) (cs "f") VM.create)
    (fun r => r.1 = some toks) = true := by decide +kernel

/-- A name, an integer, and a call of `sum`. -/
def v (x : String) : Ex := .var (k .identifier x)
def i (x : String) : Ex := .int (k .integer x)
def call (e : Ex) : Ex := .call (k .parenOpen "(") (v "sum") (.cons e .nil)

/-- `n < 1`, `n - 1` and `n + sum(n - 1)`. -/
def cond : Ex := .bin .lt (k .lessThan "<") (v "n") (i "1")
def less : Ex := .bin .sub (k .minus "-") (v "n") (i "1")
def more : Ex := .bin .add (k .plus "+") (v "n") (call less)

/-- The body of the function. -/
def body : Sts := .cons (.ifThen cond (.block (.cons (.ret (i "0")) .nil))) (.cons (.ret more) .nil)

/-- The program. -/
def prog : List Item := [.fn (cs "sum") [cs "n"] body, .st (.decl (cs "x") (call (i "4")))]

open StmtEx (atom lit)

theorem call_ex {d : Nat} {as : List Token} {e : Node} (h : Expr d as e) :
    Prefixed (Expr d) (callToks as) (.mk (k .parenOpen "(") true (leafNode (k .identifier "sum")) (argChain (k .parenOpen "(") [e])) :=
  .none (.call (.primary (.atom _ rfl)) (fun _ => rfl) _ _ rfl rfl (.some (.one h)))

theorem less_ex : Expr 1 [k .identifier "n", k .minus "-", k .integer "1"] (.mk (k .minus "-") false (leafNode (k .identifier "n")) (leafNode (k .integer "1"))) :=
  ⟨.op (k .minus "-") (.leaf [k .identifier "n"] (leafNode (k .identifier "n"))) (.leaf [k .integer "1"] (leafNode (k .integer "1"))),
      by simp only [Tree.Grouped, Tree.top]; decide, ⟨atom 0 _ rfl, atom 0 _ rfl⟩, rfl, rfl⟩

theorem src : Prog Sample.F 20 toks prog := by
  refine .cons (.fn (.mk (d := 16) rfl rfl rfl (.one rfl) rfl rfl ?_ rfl)) (.cons (.st (.decl (k := 2) rfl rfl rfl ?_ rfl (by decide))) .nil)
  · refine .cons (.ifThen (d := 14) (k := 1) rfl rfl rfl ?_ (by decide) (.block (d := 12) rfl rfl (.cons (.ret (k := 1) rfl (lit "0" false) rfl (by decide)) .nil)))
      (.cons (.ret (k := 2) rfl ?_ rfl (by decide)) .nil)
    · exact ⟨_, ⟨.op (k .lessThan "<") (.leaf [k .identifier "n"] (leafNode (k .identifier "n"))) (.leaf [k .integer "1"] (leafNode (k .integer "1"))),
        by simp only [Tree.Grouped, Tree.top]; decide, ⟨atom 0 _ rfl, atom 0 _ rfl⟩, rfl, rfl⟩, rfl⟩
    · exact ⟨_, ⟨.op (k .plus "+") (.leaf [k .identifier "n"] (leafNode (k .identifier "n"))) (.leaf _ _),
        by simp only [Tree.Grouped, Tree.top]; decide, ⟨atom 1 _ rfl, call_ex less_ex⟩, rfl, rfl⟩, rfl⟩
  · exact ⟨_, ⟨.leaf _ _, trivial, call_ex (d := 1) ⟨.leaf [k .integer "4"] (leafNode (k .integer "4")), trivial, atom 0 _ rfl, rfl, rfl⟩, rfl, rfl⟩, rfl⟩

/-- The compiler before. -/
def s : CS := createCompiler VM.create

theorem pre : Pre s := StmtEx.pre

/-- The code: 47 words for the function, and 12 for the declaration. -/
def code : List (BitVec 32) :=
  [10, 0, 7, 0, 15, 11, 7, 38, 17, 7, -3, 13, 7, 1, 23, 7, 5, 21, 7, 0, 7, 0, 19, 7, -3, 13, 7, 0, 16, 7, -5, 13, 7, 1, 2, 7, 1, 18, 1,
   7, 0, 19, 7, 0, 7, 0, 19, 7, 0, 16, 7, 4, 7, 1, 18, 7, 1, 15, 11]

/-- The function. -/
def func : Func := { argc := 1, first := 9, extId := UINT_MAX }

theorem compiled : ∃ s', compileTokens Sample.F toks s = .ok (true, s') ∧ s'.vm.errors = [] ∧ s'.write = 59 ∧ s'.staticCount = 2 ∧
    s'.vm.strings = VM.create.strings ∧ s'.vm.functions = [func] ∧ s'.vm.instrs.take 59 = code := by
  obtain ⟨⟨r, s'⟩, h1, h2⟩ := test_ok (r := compileTokens Sample.F toks s)
    (p := fun x => x.1 = true ∧ x.2.vm.errors = [] ∧ x.2.write = 59 ∧ x.2.staticCount = 2 ∧
      x.2.vm.strings = VM.create.strings ∧ x.2.vm.functions = [func] ∧ x.2.vm.instrs.take 59 = code) (by decide +kernel)
  obtain ⟨rfl, h2⟩ := h2
  exact ⟨s', h1, h2⟩

/-- A machine with this code and the global variables `sum` and `x`. -/
def M (a b : Value) : VM :=
  { VM.create with instrs := code ++ List.replicate 5 0, instrMask := 63, statics := [a, b], staticMask := 1, functions := [func] }

theorem good (a b : Value) : Good (M a b) := by
  have h := create_strWF
  exact ⟨rfl, ⟨6, by decide, rfl⟩, rfl, ⟨1, by decide, rfl⟩, ⟨h.tab, h.blen, h.nodup, h.mem, h.hash, h.bucket, h.inj⟩⟩

theorem space (a b : Value) {n : Nat} (h : n ≤ 65536) : Space (M a b) n := ⟨16, by decide, by show 2 ^ 16 ≤ VM.create.limits.maxStackSize; decide, h⟩

/-- What names mean in the body. -/
def E : Env := fnEnv [cs "n"] ((envOf s).bind (cs "sum")).Γ

/-- The machine when the function is defined. -/
abbrev V : VM := M (.fn 0) .nil

/-- 1 + 2 + … + n -/
def tri : Nat → Nat
  | 0 => 0
  | n + 1 => n + 1 + tri n

theorem tri_le : ∀ n, tri n ≤ n * n + n
  | 0 => Nat.le_refl _
  | n + 1 => by
    have := tri_le n
    have e : (n + 1) * (n + 1) = n * n + 2 * n + 1 := by ring
    unfold tri
    omega

theorem fits {n : Nat} (h : n ≤ 1000000) : Fits (n : Int) := by unfold Fits; omega

theorem tri_fits {n : Nat} (h : n ≤ 900) : tri n ≤ 1000000 := by
  have := tri_le n
  have : n * n ≤ 900 * 900 := Nat.mul_le_mul h h
  omega

variable {l : List Value} {n p : Nat}

theorem n_is (h : n ≤ 900) : HoldsInt E.inner.Γ (l.length + 1) (frame l (.fn 0) [num n] p) V (cs "n") n :=
  ⟨fits (by omega), .inl ⟨0, rfl, by simp [frame]⟩⟩

theorem one : (atoi32 (k .integer "1").str).toInt = 1 := by decide

theorem cond_ev (h : n ≤ 900) : Ev Sample.F Sample.H E.inner.Γ (l.length + 1) (frame l (.fn 0) [num n] p) V cond (num (if n < 1 then 1 else 0))
    (frame l (.fn 0) [num n] p) V := by
  have := (num_ev (F := Sample.F) (H := Sample.H) (good _ _) (Num.rel .lt (k .lessThan "<") (.var (k .identifier "n") (n_is (l := l) (p := p) h))
    (.lit (k .integer "1")))).2 []
  rw [one, List.append_nil] at this
  by_cases hn : n = 0
  · subst hn; exact this
  · have e : ((n : Int) < 1) = False := by simp; omega
    simpa [Rel.holds, Rel.op, cond, v, i, hn, e] using this

theorem less_ev (h : n + 1 ≤ 900) (ts : List Value) : Ev Sample.F Sample.H E.inner.Γ (l.length + 1) (frame l (.fn 0) [num ((n + 1 : Nat) : Int)] p ++ ts) V less
    (num n) (frame l (.fn 0) [num ((n + 1 : Nat) : Int)] p ++ ts) V := by
  have := (num_ev (F := Sample.F) (H := Sample.H) (good _ _) (Num.arith .sub (k .minus "-") (.var (k .identifier "n") (n_is (l := l) (p := p) h))
    (.lit (k .integer "1")) (by simp [Arith.refused]) (by rw [one]; show Fits (((n + 1 : Nat) : Int) - 1); unfold Fits; omega))).2 ts
  rw [one] at this
  have e : Arith.exact .sub ((n + 1 : Nat) : Int) 1 = n := by show ((n + 1 : Nat) : Int) - 1 = n; omega
  rw [e] at this
  exact this

theorem more_ev (h : n + 1 ≤ 900)
    (hd : Does Sample.F Sample.H 18 (frame l (.fn 0) [num ((n + 1 : Nat) : Int)] p ++ [num ((n + 1 : Nat) : Int)]) [.fn 0, num n, .int 1] V (num (tri n)) V) :
    Ev Sample.F Sample.H E.inner.Γ (l.length + 1) (frame l (.fn 0) [num ((n + 1 : Nat) : Int)] p) V more (num (tri (n + 1)))
      (frame l (.fn 0) [num ((n + 1 : Nat) : Int)] p) V := by
  refine .bin (W1 := V) (x := num ((n + 1 : Nat) : Int)) (y := num (tri n)) (l1 := frame l (.fn 0) [num ((n + 1 : Nat) : Int)] p) (.loc (i := 0) _ rfl (by simp [frame])) (.call (W1 := V) (W2 := V) (vs := [num n]) (.glob (i := 0) _ rfl rfl)
    (.cons (W1 := V) (l1 := _ ++ [num ((n + 1 : Nat) : Int)] ++ [.fn 0]) ?_ .nil) hd) ?_
  · have := less_ev (l := l) (p := p) h [num ((n + 1 : Nat) : Int), .fn 0]
    simpa using this
  · have t := tri_fits (n := n) (by omega)
    have t' := tri_fits (n := n + 1) h
    refine does_arith (good _ _) .add (by simp [Arith.refused]) ?_ ?_
    · rw [toInt_num (fits (by omega)), toInt_num (fits t)]
      show Fits (((n + 1 : Nat) : Int) + (tri n : Int))
      have : tri (n + 1) = n + 1 + tri n := rfl
      unfold Fits; omega
    · rw [toInt_num (fits t'), toInt_num (fits (n := n + 1) (by omega)), toInt_num (fits t)]
      show (tri (n + 1) : Int) = ((n + 1 : Nat) : Int) + (tri n : Int)
      have : tri (n + 1) = n + 1 + tri n := rfl
      omega

/-- The body, called with 0. -/
theorem body_zero : Cc.Body Sample.F Sample.H (l.length + 1) E body (frame l (.fn 0) [num (0 : Nat)] p) V (.ret (num (0 : Nat))) (frame l (.fn 0) [num (0 : Nat)] p) V := by
  refine .stop (.leave (.stop (.val (cond_ev (n := 0) (by omega)) (.yes (i := 1) (.int 1) (by decide) (.leave (.leave (.stop (.val (.int _) .mk) ?_) ?_) ?_))) ?_) ?_) ?_
  all_goals exact fun e => by cases e

/-- The body, called with another number. -/
theorem body_succ (h : n + 1 ≤ 900)
    (hd : Does Sample.F Sample.H 18 (frame l (.fn 0) [num ((n + 1 : Nat) : Int)] p ++ [num ((n + 1 : Nat) : Int)]) [.fn 0, num n, .int 1] V (num (tri n)) V) :
    Cc.Body Sample.F Sample.H (l.length + 1) E body (frame l (.fn 0) [num ((n + 1 : Nat) : Int)] p) V (.ret (num (tri (n + 1))))
      (frame l (.fn 0) [num ((n + 1 : Nat) : Int)] p) V := by
  have hc := cond_ev (l := l) (p := p) h
  rw [if_neg (by omega)] at hc
  refine .stop (.leave (.next (.val hc (.no (.int 0) .mk)) (.stop (.val (more_ev h hd) .mk) ?_)) ?_) ?_
  all_goals exact fun e => by cases e

/-- Calling the function with `n` gives 1 + 2 + … + n. -/
theorem sum_does (hc : CallsAs Sample.F Sample.H V 0 [cs "n"] E body) : ∀ (n : Nat) (l : List Value), n ≤ 900 → l.length + 5 * n + 100 ≤ 65536 →
    Does Sample.F Sample.H 18 l [.fn 0, num n, .int 1] V (num (tri n)) V
  | 0, l, _, hl => C65_value hc (good _ _) (args := [num (0 : Nat)]) rfl (space _ _ (by simp [show body.size = 16 by decide]; omega)) fun p => ⟨_, body_zero⟩
  | n + 1, l, hn, hl => C65_value hc (good _ _) (args := [num ((n + 1 : Nat) : Int)]) rfl (space _ _ (by simp [show body.size = 16 by decide]; omega)) fun p =>
      ⟨_, body_succ hn (sum_does hc n _ (by omega) (by simp [frame]; omega))⟩

/-- What the program means: it ends with `x = 10`. -/
theorem means (hc : CallsAs Sample.F Sample.H V 0 [cs "n"] E body) :
    Items.exec Sample.F Sample.H 0 (envOf s) 0 prog [] (M .nil .nil) .normal [] (M (.fn 0) (num 10)) := by
  refine .next (l1 := []) (W1 := V) (.glob (n := 0) rfl (by decide)) (.next (l1 := []) (W1 := M (.fn 0) (num 10)) ?_ .mk)
  exact .val (l1 := []) (W1 := V) (.call (l1 := []) (l2 := []) (W1 := V) (W2 := V) (.glob (i := 0) _ rfl rfl) (.cons (W1 := V) (l1 := [.fn 0]) (.int _) .nil)
    (sum_does hc 4 [] (by omega) (by decide))) (.glob (n := 1) rfl (by decide))

/-- And so the compiled code, run from its start, stops at its end with `x = 10` and nothing on the stack. -/
example : ∃ vm vm', Mach (M .nil .nil) 0 [] vm ∧ Runs Sample.F Sample.H vm vm' ∧ Mach (M (.fn 0) (num 10)) 59 [] vm' := by
  obtain ⟨s', h1, h2, h3, h4, h5, h6, h7⟩ := compiled
  obtain ⟨-, h, hf⟩ := C65_program Sample.F Sample.H src pre rfl rfl ⟨fun x i h => (by cases h), ⟨_, rfl⟩, fun x i g h => (by cases h), fun x y i h => (by cases h)⟩ (by
    intro i hi
    simp only [prog, List.mem_cons, List.not_mem_nil, or_false] at hi
    rcases hi with rfl | rfl
    · exact ⟨rfl, by decide⟩
    · rfl) (by decide) (by decide) h1 h2
  have hw : ∀ a b, HasCode (M a b) s.write s' := by
    intro a b
    refine ⟨good a b, fun i _ hi => ?_, fun id e he _ => ⟨e, by rw [h5] at he; exact he, rfl⟩, by rw [h4]; exact Nat.le_refl 2⟩
    rw [h3] at hi
    have e2 : (s'.vm.instrs.take 59)[i]? = ((M a b).instrs.take 59)[i]? := by rw [h7]; rfl
    rw [List.getElem?_take_of_lt (by omega), List.getElem?_take_of_lt (by omega)] at e2
    exact e2.symm
  obtain ⟨-, hf⟩ := hf [] (cs "sum") [cs "n"] body _ rfl ⟨0, [], V, [], V, .mk⟩ rfl rfl
  obtain ⟨hc, -⟩ := hf V (hw _ _) (fun i f hi => by rw [h6] at hi; exact hi)
  have hm : ∃ vm, Mach (M .nil .nil) 0 [] vm := ⟨_, _, { vals := [.nil], size := 0, cap := 1, mask := 0 }, rfl, ⟨⟨0, by decide, rfl⟩, rfl, rfl, by decide⟩, rfl, rfl⟩
  obtain ⟨vm, hm⟩ := hm
  obtain ⟨vm', k2, k3⟩ := (h 0 [] _ vm (hw _ _) (space _ _ (by decide)) rfl hm).normal _ _ (means hc)
  rw [h3] at k3
  exact ⟨vm, vm', hm, k2, k3⟩

end FuncEx
end Nk.Props
