import Verif.Lemmas.StmtAll
import Verif.Props.Code
/-!
# C52: the code of statements
-/
namespace Nk.Props
open Nk.Cc
variable (F : FloatOps) (H : Host)

/-- What the machine `vm` does if its code is right for `P`: it is `W` with the values `l` on the stack, of which `b` are below the
frame of the function, and the code ends at `q`.
* If `P` gets to its end, the machine gets to the end of the code with the same values.
* If `P` gets to a `return`, the machine gets to a return instruction, with the value on top of the stack and above it how
  many values are to be dropped: all but the parameters of the function, their number and the return address.
* If `P` gets to an error, the machine records one.
* If `P` gets to some point, so does the machine. -/
structure Obeys (P : Cc.Rel) (b : Nat) (args : Option Nat) (q : Nat) (l : List Value) (W vm : VM) : Prop where
  normal : ∀ l' W', P l W .normal l' W' → ∃ vm', Runs F H vm vm' ∧ Mach W' q l' vm'
  ret : ∀ v l' W', P l W (.ret v) l' W' → ∃ vm' r k, Runs F H vm vm' ∧ W.instrs[r]? = some 19 ∧ Mach W' r (l' ++ [v, .int k]) vm' ∧
    ∀ a, args = some a → b + a + 2 + k.toNat = l'.length
  err : ∀ l' W', P l W .err l' W' → ∃ vm', Runs F H vm vm' ∧ W.errors.length < vm'.errors.length
  part : ∀ l' W', P l W .part l' W' → ∃ vm' r, Runs F H vm vm' ∧ Mach W' r l' vm'

/-- The machine `W` has what `s` has compiled from the address `p` on: the code, the strings, and the global variables. -/
structure HasCode (W : VM) (p : Nat) (s : CS) : Prop where
  good : Good W
  code : ∀ i, p ≤ i → i < s.write → W.instrs[i]? = s.vm.instrs[i]?
  lits : Lits s.vm W
  statics : s.staticCount ≤ W.statics.length

variable {F H}

theorem obeys_of {s s' : CS} {size : Nat} {E : Env} {P : Nat → Cc.Rel} (p : Pre s) (post : StPost F H s s' size [] E P) {b : Nat} {l : List Value} {W vm : VM}
    (hw : HasCode W s.write s') (hs : Space W (l.length + size)) (hl : l.length = b + offOf s.ctx) (m : Mach W s.write l vm) :
    Obeys F H (P b) b (fnArgs s.vm.functions s.ctx) s'.write l W vm ∧ ∀ l' W', P b l W .normal l' W' → l'.length = b + E.h := by
  let K : Cfg := { F, H, cvm := s'.vm, I := W.instrs, n := l.length + size, sc := s'.staticCount, b, T := 0, hb := b + loopOff s.ctx,
                   rb := b + (fnArgs s.vm.functions s.ctx).getD 0 + 2 }
  have fit : Fit K W := ⟨rfl, hw.good, hw.lits, hs, hw.statics⟩
  have x := post.sim K ⟨rfl, rfl, by show 0 < 4294967296; omega, rfl, fun a ha => by show _ + _ + 2 = _; rw [ha]; rfl⟩ ⟨fun _ h => h, Nat.le_refl _⟩
    ⟨fun i h1 h2 _ => hw.code i h1 h2, by simp⟩ (by show b + _ + _ ≤ _ + _; omega)
  refine ⟨⟨fun l' W' hP => ?_, fun v l' W' hP => ?_, fun l' W' hP => ?_, fun l' W' hP => ?_⟩, fun l' W' hP => ?_⟩
  · exact (x W l vm _ _ _ fit hl m hP).2.2
  · obtain ⟨k, vm', r, n, a1, a2, a3, a4⟩ := x W l vm _ _ _ fit hl m hP
    refine ⟨vm', r, n, a1, by rw [← k.instrs]; exact a2, a3, fun a ha => ?_⟩
    have a4 : b + (fnArgs s.vm.functions s.ctx).getD 0 + 2 + n.toNat = _ := a4
    rw [ha] at a4; exact a4
  · exact x W l vm _ _ _ fit hl m hP
  · exact (x W l vm _ _ _ fit hl m hP).2
  · have e := (x W l vm _ _ _ fit hl m hP).2.1
    obtain ⟨c, c', cs, a1, a2, a3, a4, a5, a6, a7, ⟨_, ee⟩ | dd⟩ := post.ctx
    · rw [e, ← ee]; rfl
    · exact absurd hP (dd _ _ _ _ _)

variable (F H)

/-- **C52**: when a statement compiles without an error, its code does what the statement means: on every machine that has
the code, with any values on the stack below, with the local variables where the compiler believes them to be and with room
on the stack, running the code has the outcome the statement has.  At the end the stack has the height it had before, except
that a declaration outside of all blocks of a function, or inside of one, adds its variable (`bind`). -/
theorem C52_statement {S : St} {d n : Nat} {ts rest : List Token} {s s' : CS} {r : Bool} (src : Src F d ts S) (p : Pre s)
    (ht : s.toks = ts ++ rest) (hopen : S.open = true → typeOf rest ≠ .kwElse) (hb : S.breaks = false) (hd : s.depth + d ≤ 257)
    (hs : offOf s.ctx + S.size < 4294967296) (h : statement F n s = .ok (r, s')) (he : s'.vm.errors = []) :
    r = true ∧ s'.toks = rest ∧
      ∀ b l W vm, HasCode W s.write s' → Space W (l.length + S.size) → l.length = b + offOf s.ctx → Mach W s.write l vm →
        Obeys F H (S.exec F H b (envOf s)) b (fnArgs s.vm.functions s.ctx) s'.write l W vm ∧
        ∀ l' W', S.exec F H b (envOf s) l W .normal l' W' → l'.length = b + (S.bind (envOf s)).h := by
  obtain ⟨h1, h2, h3, fx, h4, h5⟩ := works (H := H) S n d ts rest s s' r p hs src ht hopen hd h he
  obtain rfl := h4 hb
  exact ⟨h1, h2, fun b l W vm k1 k2 k3 k4 => obeys_of p h5 k1 k2 k3 k4⟩

/-- **C52**, the stack: at the end of a block, an `if` or a loop there are as many values on the stack as before. -/
theorem C52_height {S : St} {d n : Nat} {ts rest : List Token} {s s' : CS} {r : Bool} (src : Src F d ts S) (p : Pre s)
    (ht : s.toks = ts ++ rest) (hopen : S.open = true → typeOf rest ≠ .kwElse) (hb : S.breaks = false) (hd : s.depth + d ≤ 257)
    (hs : offOf s.ctx + S.size < 4294967296) (h : statement F n s = .ok (r, s')) (he : s'.vm.errors = [])
    (hS : (∀ x e, S ≠ .decl x e) ∧ ∀ x, S ≠ .decl0 x) {b : Nat} {l : List Value} {W vm : VM} (hw : HasCode W s.write s')
    (hsp : Space W (l.length + S.size)) (hl : l.length = b + offOf s.ctx) (m : Mach W s.write l vm) {l' : List Value} {W' : VM}
    (hx : S.exec F H b (envOf s) l W .normal l' W') :
    ∃ vm', Runs F H vm vm' ∧ Mach W' s'.write l' vm' ∧ l'.length = l.length := by
  obtain ⟨-, -, h1⟩ := C52_statement F H src p ht hopen hb hd hs h he
  obtain ⟨h1, h2⟩ := h1 b l W vm hw hsp hl m
  obtain ⟨vm', k1, k2⟩ := h1.normal _ _ hx
  refine ⟨vm', k1, k2, ?_⟩
  rw [h2 _ _ hx, hl]
  cases S with
  | decl x e => exact absurd rfl (hS.1 x e)
  | decl0 x => exact absurd rfl (hS.2 x)
  | _ => rfl

theorem C52_bind_top {E : Env} {g : Nat} (h : E.g = some g) : ∀ ss : Sts, (ss.bind E).h = E.h ∧ ∃ g', (ss.bind E).g = some g'
  | .nil => ⟨rfl, g, h⟩
  | .cons a as => by
    have e : (a.bind E).h = E.h ∧ ∃ g', (a.bind E).g = some g' := by
      cases a with
      | decl x e => simp [St.bind, Env.bind, h]
      | decl0 x => simp [St.bind, Env.bind, h]
      | _ => exact ⟨rfl, g, h⟩
    obtain ⟨e1, g', e2⟩ := e
    obtain ⟨e3, e4⟩ := C52_bind_top e2 as
    exact ⟨e3.trans e1, e4⟩

/-- **C52** for a whole program: when a program compiles without an error, running it from its start does what its statements
mean, one after the other, and at the end the stack is as high as before. -/
theorem C52_program {ss : Sts} {d : Nat} {ts : List Token} {s s' : CS} {r : Bool} (src : Srcs F d ts ss) (p : Pre s) (hroot : s.ctx.tail = [])
    (hb : ss.breaks = false) (hd : s.depth + 1 + d ≤ 257) (hs : offOf s.ctx + ss.size < 4294967296)
    (h : compileTokens F ts s = .ok (r, s')) (he : s'.vm.errors = []) :
    r = true ∧ s.write ≤ s'.write ∧
      ∀ b l W vm, HasCode W s.write s' → Space W (l.length + ss.size) → l.length = b + offOf s.ctx → Mach W s.write l vm →
        Obeys F H (ss.exec F H b (envOf s)) b (fnArgs s.vm.functions s.ctx) s'.write l W vm ∧
        ∀ l' W', ss.exec F H b (envOf s) l W .normal l' W' → l'.length = l.length := by
  unfold compileTokens at h
  rw [CM.cmod_bind] at h
  obtain ⟨s0, h, m0, t0, d0⟩ : ∃ s0, (script (statement F maxDepth) >>= fun ok => (cmod fun s => { s with toks := [], line := 0, file := UINT_MAX }) >>= fun _ =>
      pure ok) s0 = .ok (r, s') ∧ Moved s s0 ∧ s0.toks = ts ∧ s0.depth = s.depth := by
    refine ⟨_, h, ?_, rfl, rfl⟩
    exact ⟨⟨⟨p.wf.pow, p.wf.len, p.wf.write, p.wf.str, p.wf.ctx⟩, Nat.le_refl _, fun _ _ => rfl, by simp, fun _ h => h, rfl, Nat.le_refl _⟩, rfl, rfl, rfl, rfl⟩
  obtain ⟨r1, s1, h1, h2, er1⟩ := CM.bind_nil h (by intro a; cmono) he
  rw [CM.cmod_bind] at h2
  obtain ⟨rfl, e2⟩ := pure_inv h2
  have mb := @blockLoop_mono
  have ms := statement_mono F maxDepth
  unfold script at h1
  rw [CM.cget_bind] at h1
  have h1 := pushRec_same (by intro a; cmono) h1 (er1.trans (p.moved m0).errs.symm)
  rw [if_pos rfl, CM.cget_bind] at h1
  have m1 := m0.trans (moved_depth m0.grow.wf (s0.depth + 1))
  have p1 := p.moved m1
  obtain ⟨r2, s2, h3, h4, er2⟩ := CM.bind_nil h1 (by intro a; cmono) er1
  obtain ⟨rfl, t2, d2, fx, hfx, post⟩ := blockLoop_inv (rest := []) ms ss (worksL (H := H) ss maxDepth) p1 (by show offOf s0.ctx + _ < _; rw [m0.ctx]; exact hs) src
    (by show s0.toks = _; rw [t0, List.append_nil]) (.inr rfl) (by show s0.depth + 1 + d ≤ _; omega) h3 er2
  obtain rfl := hfx hb
  rw [if_pos rfl, curType_bind, if_neg (by rw [t2]; decide)] at h4
  obtain ⟨_, s3, h5, h6⟩ := CM.bind_inv h4
  have : s3 = s2 := by
    unfold sameCtx at h5
    rw [CM.cget_bind] at h5
    split at h5
    · cases h5; rfl
    · cases h5
  subst this
  obtain ⟨rfl, _, rfl⟩ := popTrue_inv h6
  have ew : ({ s0 with depth := s0.depth + 1 } : CS).write = s.write := m1.write
  have ec : ({ s0 with depth := s0.depth + 1 } : CS).ctx = s.ctx := m1.ctx
  have ev : envOf { s0 with depth := s0.depth + 1 } = envOf s := m1.seg.env
  have ef : ({ s0 with depth := s0.depth + 1 } : CS).vm.functions = s.vm.functions := m1.grow.fns
  have w' : s'.write = s3.write := by rw [e2]
  have v' : s'.vm = s3.vm := by rw [e2]
  have c' : s'.staticCount = s3.staticCount := by rw [e2]
  refine ⟨rfl, by rw [w', ← ew]; exact post.grow.le, fun b l W vm hw hsp hl m => ?_⟩
  have hw' : HasCode W ({ s0 with depth := s0.depth + 1 } : CS).write s3 :=
    ⟨hw.good, by rw [ew, ← w', ← v']; exact hw.code, by rw [← v']; exact hw.lits, by rw [← c']; exact hw.statics⟩
  obtain ⟨k1, k2⟩ := obeys_of p1 post hw' hsp (by rw [ec]; exact hl) (by rw [ew]; exact m)
  rw [ev, ec, ef, ← w'] at k1
  rw [ev] at k2
  refine ⟨k1, fun l' W' hx => ?_⟩
  have hg : (envOf s).g = some s.staticCount := by show (if _ then _ else _) = _; rw [if_pos hroot]
  rw [k2 _ _ hx, (C52_bind_top hg ss).1, hl]
  rfl

/-! ### An example: `var x = 0; while(x < 2) { var y = 1; x = x + y; }` -/

namespace StmtEx

/-- A token. -/
def k (t : TokType) (s : String) : Token := ⟨t, cs s, 1, 0, 1⟩

/-- The tokens. -/
def toks : List Token :=
  [k .kwVar "var", k .identifier "x", k .assignment "=", k .integer "0", k .semicolon ";"] ++
  ((k .kwWhile "while" :: k .parenOpen "(" :: [k .identifier "x", k .lessThan "<", k .integer "2"] ++ k .parenClose ")" ::
    (k .curlyOpen "{" :: (
      (k .kwVar "var" :: k .identifier "y" :: k .assignment "=" :: [k .integer "1"] ++ [k .semicolon ";"]) ++
      (([k .identifier "x", k .assignment "=", k .identifier "x", k .plus "+", k .identifier "y"] ++ [k .semicolon ";"]) ++ [])) ++
     [k .curlyClose "}"])) ++ [])

/-- They are what the tokenizer makes of the text. -/
example : Res.test (Tok.tokenize 32 (fun _ => 0) (cs "var x = 0; while(x < 2) { var y = 1; x = x + y; }" ++ [0]) (cs "f") VM.create)
    (fun r => r.1 = some toks) = true := by decide +kernel

/-- `x < 2` -/
def cond : Ex := .bin .lt (k .lessThan "<") (.var (k .identifier "x")) (.int (k .integer "2"))
/-- `x + y` -/
def sum : Ex := .bin .add (k .plus "+") (.var (k .identifier "x")) (.var (k .identifier "y"))
/-- The body of the loop. -/
def body : Sts := .cons (.decl (cs "y") (.int (k .integer "1"))) (.cons (.expr (.setVar (k .assignment "=") (k .identifier "x") sum)) .nil)
/-- The program. -/
def prog : Sts := .cons (.decl (cs "x") (.int (k .integer "0"))) (.cons (.while cond (.block body)) .nil)

theorem atom (d : Nat) (t : Token) (h : isAtom t.type) : Prefixed (Expr d) [t] (leafNode t) := .none (.primary (.atom t h))

theorem lit (s : String) (d : Bool) : ExSrc Sample.F 1 d [k .integer s] (.int (k .integer s)) := by
  refine ⟨leafNode (k .integer s), ⟨.leaf [k .integer s] (leafNode (k .integer s)), trivial, atom 0 _ rfl, rfl, rfl⟩, ?_⟩
  cases d <;> rfl

theorem src : Srcs Sample.F 12 toks prog := by
  refine .cons (.decl (k := 1) rfl rfl rfl (lit "0" false) rfl (by decide)) (.cons (.while (d := 9) (k := 1) rfl rfl rfl ?_ (by decide) (.block (d := 7) rfl rfl
    (.cons (.decl (k := 1) rfl rfl rfl (lit "1" false) rfl (by decide)) (.cons (.expr (k := 1) ?_ rfl (by decide)) .nil)))) .nil)
  · refine ⟨_, ⟨.op (k .lessThan "<") (.leaf [k .identifier "x"] (leafNode (k .identifier "x"))) (.leaf [k .integer "2"] (leafNode (k .integer "2"))),
      by simp only [Tree.Grouped, Tree.top]; decide, ⟨atom 0 _ rfl, atom 0 _ rfl⟩, rfl, rfl⟩, rfl⟩
  · refine ⟨_, ⟨.op (k .assignment "=") (.leaf [k .identifier "x"] (leafNode (k .identifier "x")))
      (.op (k .plus "+") (.leaf [k .identifier "x"] (leafNode (k .identifier "x"))) (.leaf [k .identifier "y"] (leafNode (k .identifier "y")))),
      by simp only [Tree.Grouped, Tree.top]; decide, ⟨atom 0 _ rfl, atom 0 _ rfl, atom 0 _ rfl⟩, rfl, rfl⟩, rfl⟩

/-- The compiler before. -/
def s : CS := createCompiler VM.create

theorem pre : Pre s := by
  refine ⟨⟨⟨2, by decide, rfl⟩, rfl, by decide, create_strWF, by decide⟩, rfl, ?_, Nat.le_refl _, ?_, by decide⟩
  · intro c cs h; cases h; rfl
  · intro a h; cases h

/-- The code. -/
def code : List (BitVec 32) :=
  [7, 0, 7, 0, 15, 11, 7, 0, 16, 7, 2, 23, 7, 19, 21, 7, 1, 7, 0, 16, 7, 0xfffffffe, 13, 1, 7, 0, 15, 11, 7, 1, 12, 7, 0xffffffe4, 17]

theorem compiled : ∃ s', compileTokens Sample.F toks s = .ok (true, s') ∧ s'.vm.errors = [] ∧ s'.write = 34 ∧ s'.staticCount = 1 ∧
    s'.vm.strings = VM.create.strings ∧ s'.vm.instrs.take 34 = code := by
  obtain ⟨⟨r, s'⟩, h1, h2⟩ := test_ok (r := compileTokens Sample.F toks s)
    (p := fun x => x.1 = true ∧ x.2.vm.errors = [] ∧ x.2.write = 34 ∧ x.2.staticCount = 1 ∧
      x.2.vm.strings = VM.create.strings ∧ x.2.vm.instrs.take 34 = code) (by decide +kernel)
  obtain ⟨rfl, h2⟩ := h2
  exact ⟨s', h1, h2⟩

/-- A machine with this code and a global variable. -/
def W : VM := { VM.create with instrs := code ++ List.replicate 30 0, instrMask := 63, statics := [.nil, .nil], staticMask := 1 }

/-- The machine with `x = v`. -/
def M (v : Value) : VM := { W with statics := [v, .nil] }

theorem good (v : Value) : Good (M v) := by
  have h := create_strWF
  exact ⟨rfl, ⟨6, by decide, rfl⟩, rfl, ⟨1, by decide, rfl⟩, ⟨h.tab, h.blen, h.nodup, h.mem, h.hash, h.bucket, h.inj⟩⟩

/-- Names outside of the loop, and inside after the declaration of `y`. -/
def E1 : Env := (envOf s).bind (cs "x")

theorem fits {n : Int} (h : 0 ≤ n ∧ n < 100) : Fits n := by unfold Fits; omega

theorem x_is {Γ : Bytes → Option Place} (hΓ : Γ (cs "x") = some (.glob 0)) (b : Nat) (l : List Value) {n : Int} (h : 0 ≤ n ∧ n < 100) :
    HoldsInt Γ b l (M (num n)) (cs "x") n := ⟨fits h, .inr ⟨0, hΓ, rfl⟩⟩

theorem test_ev {n : Int} (h : 0 ≤ n ∧ n < 100) :
    Ev Sample.F Sample.H E1.Γ 0 [] (M (num n)) cond (num (if n < 2 then 1 else 0)) [] (M (num n)) := by
  have h2 : (atoi32 (k .integer "2").str).toInt = 2 := by decide
  have := (num_ev (F := Sample.F) (H := Sample.H) (good _) (Num.rel .lt (k .lessThan "<") (.var (k .identifier "x") (x_is (Γ := E1.Γ) rfl 0 [] h))
    (.lit (k .integer "2")))).2 []
  rw [h2] at this
  by_cases hn : n < 2
  · simpa [Rel.holds, Rel.op, cond, hn] using this
  · simpa [Rel.holds, Rel.op, cond, hn] using this

theorem sum_ev {n : Int} (h : 0 ≤ n ∧ n < 99) :
    Ev Sample.F Sample.H (E1.inner.bind (cs "y")).Γ 0 [num 1] (M (num n)) (.setVar (k .assignment "=") (k .identifier "x") sum) (num (n + 1)) [num 1] (M (num (n + 1))) := by
  have hy : HoldsInt (E1.inner.bind (cs "y")).Γ 0 [num 1] (M (num n)) (cs "y") 1 := ⟨fits (by omega), .inl ⟨0, rfl, rfl⟩⟩
  have := (num_ev (F := Sample.F) (H := Sample.H) (good _) (Num.arith .add (k .plus "+") (.var (k .identifier "x")
    (x_is (Γ := (E1.inner.bind (cs "y")).Γ) rfl 0 [num 1] (by omega : 0 ≤ n ∧ n < 100))) (.var (k .identifier "y") hy) (by simp [Arith.refused])
    (fits (by show 0 ≤ n + 1 ∧ n + 1 < 100; omega)))).2 []
  have := Ev.setGlob (t := k .assignment "=") (x := k .identifier "x") (i := 0) this rfl (by simp [M])
  exact this

/-- One round of the loop. -/
theorem round {n : Int} (h : 0 ≤ n ∧ n < 99) :
    Scope ((St.block body).exec Sample.F Sample.H 0 E1.inner) [] (M (num n)) .normal [] (M (num (n + 1))) := by
  have : body.exec Sample.F Sample.H 0 E1.inner [] (M (num n)) .normal [num 1] (M (num (n + 1))) :=
    .next (.val (v := num 1) (.int (k .integer "1")) (.loc rfl)) (.next (.val (sum_ev h) .mk) .mk)
  exact .done (l1 := []) (.done this)

/-- What the program means: it ends with `x = 2`. -/
theorem means : prog.exec Sample.F Sample.H 0 (envOf s) [] W .normal [] (M (num 2)) := by
  refine .next (l1 := []) (W1 := M (num 0)) (.val (.int (k .integer "0")) (.glob (n := 0) rfl (by decide))) (.next (l1 := []) (W1 := M (num 2)) ?_ .mk)
  refine .other ⟨3, ?_⟩ (by simp)
  have i1 : ∀ n, IntOf (M (num n)) (num 1) 1 := fun n => .int 1
  have i0 : IntOf (M (num 2)) (num 0) 0 := .int 0
  refine .val (test_ev (n := 0) (by omega)) (.yes (i1 0) (by decide) (.next (round (by omega)) ?_))
  refine .val (test_ev (n := 1) (by omega)) (.yes (i1 1) (by decide) (.next (round (by omega)) ?_))
  exact .val (test_ev (n := 2) (by omega)) (.no i0 .mk)

/-- And so the compiled code, run from its start, stops at its end with `x = 2` and nothing on the stack. -/
example : ∃ vm vm', Mach W 0 [] vm ∧ Runs Sample.F Sample.H vm vm' ∧ Mach (M (num 2)) 34 [] vm' := by
  obtain ⟨s', h1, h2, h3, h4, h5, h6⟩ := compiled
  obtain ⟨-, -, h⟩ := C52_program Sample.F Sample.H src pre rfl rfl (by decide) (by decide) h1 h2
  have hm : ∃ vm, Mach W 0 [] vm := ⟨_, _, { vals := [.nil], size := 0, cap := 1, mask := 0 }, rfl, ⟨⟨0, by decide, rfl⟩, rfl, rfl, by decide⟩, rfl, rfl⟩
  obtain ⟨vm, hm⟩ := hm
  have hw : HasCode W s.write s' := by
    refine ⟨good .nil, fun i _ hi => ?_, fun id e he _ => ⟨e, by rw [h5] at he; exact he, rfl⟩, by rw [h4]; decide⟩
    rw [h3] at hi
    have e2 : (s'.vm.instrs.take 34)[i]? = (W.instrs.take 34)[i]? := by rw [h6]; rfl
    rw [List.getElem?_take_of_lt (by omega), List.getElem?_take_of_lt (by omega)] at e2
    exact e2.symm
  obtain ⟨k1, -⟩ := h 0 [] W vm hw ⟨16, by decide, by decide, by decide⟩ rfl hm
  obtain ⟨vm', k2, k3⟩ := k1.normal _ _ means
  rw [h3] at k3
  exact ⟨vm, vm', hm, k2, k3⟩

end StmtEx

end Nk.Props
