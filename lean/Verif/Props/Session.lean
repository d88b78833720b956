import Verif.Lemmas.Session
import Verif.Lemmas.StmtRun
import Verif.Props.Token
import Verif.Props.Scope
/-!
# Whatever a host compiles: C49, C53, C63, C64
-/
namespace Nk.Props
open Nk.Spec Nk.Cc

variable {F : FloatOps} {s : CS}

/-- How a call of the compiler may end other than by returning: the allocator ends it, a counter or a folded constant
overflows, or, if there is a word like `len` among the tokens, an assertion fails (`C49_violated`). -/
inductive Stops (ts : List Token) : UB → Prop
  | memory : Stops ts .longjmp
  | overflow : Stops ts .overflow
  | word {t : Token} (h : t ∈ ts) (ht : t.type = .functionStyleExpression) : Stops ts .assert

theorem stops_ok {ts : List Token} (ht : ∀ t ∈ ts, FromSource t) : ∀ t ∈ ts, TokOK (Stops ts) t :=
  fun t h => ⟨(ht t h).1, (ht t h).2, fun e => .word h e⟩

/-! ## C63: compiling never goes wrong silently -/

/-- **C63**, for tokens: whatever the host did with the compiler before and whatever the tokens are, compiling them ends.
It succeeds, or reports an error, or stops in one of the ways `Stops` lists; it never reads or writes outside of a buffer,
uses a null pointer or a missing scope, or recurses without bound.  Partial: the assertion and the overflows should not be there either. -/
theorem C63_tokens_partial (h : Session F s) {ts : List Token} (ht : ∀ t ∈ ts, FromSource t) :
    (∃ b s', compileTokens F ts s = .ok (b, s') ∧ (b = false → s'.vm.errors ≠ [])) ∨
    ∃ k, compileTokens F ts s = .ub k ∧ Stops ts k := by
  have := compileTokens_step (B := Stops ts) .memory .overflow F (stops_ok ht) h.idle.inv
  unfold CSafe at this
  split at this
  · next b s' e => exact .inl ⟨b, s', e, this.2.2.2.2.2.1⟩
  · next k e => exact .inr ⟨k, e, this⟩

/-- **C63**, for source texts: the text can be any text whose preprocessor directives close their quotation marks
(see C45 for those that do not).  Partial for the same reasons. -/
theorem C63_source_partial (h : Session F s) (hdr : Nat) (junk : Nat → UInt8) (src file : Bytes) (hs : NoNul src)
    (hfit : src.length + 2 + hdr ≤ UINT_MAX) (hd : DirectivesClosed src) :
    (∃ b s', compileScript F hdr junk (src ++ [0]) file s = .ok (b, s') ∧ (b = false → s'.vm.errors ≠ [])) ∨
    compileScript F hdr junk (src ++ [0]) file s = .ub .longjmp ∨ compileScript F hdr junk (src ++ [0]) file s = .ub .overflow ∨
    (compileScript F hdr junk (src ++ [0]) file s = .ub .assert ∧
      ∃ ts vm vm', Tok.tokenize hdr junk (src ++ [0]) file vm = .ok (some ts, vm') ∧ ∃ t ∈ ts, t.type = .functionStyleExpression) := by
  let B : UB → Prop := fun k => k = .longjmp ∨ k = .overflow ∨ (k = .assert ∧
    ∃ ts vm vm', Tok.tokenize hdr junk (src ++ [0]) file vm = .ok (some ts, vm') ∧ ∃ t ∈ ts, t.type = .functionStyleExpression)
  have key : CSafe B (compileScript F hdr junk (src ++ [0]) file) s fun b s' => b = false → s'.vm.errors ≠ [] := by
    have ih := h.idle
    unfold compileScript
    refine (pushRec_step (Adv.refl (ih.any B))).bind fun ok s1 ⟨c1, h1⟩ => ?_
    cases ok with
    | false => exact CSafe.pure fun _ => h1.2
    | true =>
      rw [if_pos rfl]
      replace h1 := h1.1
      rcases C45_partial hdr junk src file hs hfit hd s1.vm with ⟨o, vm, hr⟩ | hr
      · obtain ⟨⟨es, fs, rfl, hl⟩, q⟩ := Tok.tokenize_ret hdr junk (src ++ [0]) file s1.vm o _ hr
        have h2 : Adv (Base.of s) B 1 0 s { s1 with vm := { s1.vm with errors := es, sourceFiles := fs } } :=
          h1.vm rfl rfl (fun f hf => .inl hf) (CodeWF.str' h1.inv.wf.str rfl rfl) hl.length_le (List.prefix_refl _) (.refl _)
        refine CSafe.bind (CSafe.ok (by unfold onVM; rw [hr]) (Q := fun o' s' => o' = o ∧ s' = { s1 with vm := { s1.vm with errors := es, sourceFiles := fs } }) ⟨rfl, rfl⟩) fun o' s2 ⟨e1, e2⟩ => ?_
        subst e1
        rw [← e2] at h2
        have v2 : s2.vm = { s1.vm with errors := es, sourceFiles := fs } := by rw [e2]
        rw [← v2] at q
        cases o' with
        | none => exact pop_pure h2 fun s3 h3 c3 e3 _ => by rw [e3]; exact q
        | some ts =>
          refine (compileTokens_step (B := B) (.inl rfl) (.inr (.inl rfl)) F (fun t h => ⟨(q t h).1, (q t h).2, fun e => .inr (.inr ⟨rfl, ts, _, _, hr, t, h, e⟩)⟩) h2.inv).bind
            fun b s3 ⟨i3, t3, c3, d3, _, e3, _⟩ => ?_
          have := h2.depth
          exact CSafe.ok (a := b) (s' := { s3 with depth := s3.depth - 1 }) ((CM.bind_ok (popRec_run (by omega))).trans rfl) e3
      · exact CSafe.ub (k := .overflow) (CM.bind_ub (by unfold onVM; rw [hr])) (.inr (.inl rfl))
  unfold CSafe at key
  split at key
  · next b s' e => exact .inl ⟨b, s', e, key⟩
  · next k e =>
    right
    rw [e]
    rcases key with rfl | rfl | ⟨rfl, key⟩
    · exact .inl rfl
    · exact .inr (.inl rfl)
    · exact .inr (.inr ⟨rfl, key⟩)

/-- **C63**, finishing: whatever was compiled before, successfully or not, finishing the program for running it cannot fail, except
for want of memory; in particular no failed script leaves a scope open that would end it with an assertion. -/
theorem C63_finish (h : Session F s) : (∃ s', partiallyFinalize s = .ok ((), s')) ∨ partiallyFinalize s = .ub .longjmp := by
  have := partiallyFinalize_step (B := (· = .longjmp)) rfl (h.idle.any _) h.idle.one
  unfold CSafe at this
  split at this
  · next s' e => exact .inl ⟨s', e⟩
  · next k e => exact .inr (by rw [e, this])

/-- **C63**, variables: a host can declare a variable at any time between two calls. -/
theorem C63_global (h : Session F s) (name : Bytes) :
    (∃ o s', createGlobal name s = .ok (o, s')) ∨ createGlobal name s = .ub .longjmp := by
  have := createGlobal_step (B := (· = .longjmp)) rfl name (Adv.refl (h.idle.any _)) h.idle.clean
  unfold CSafe at this
  split at this
  · next o s' e => exact .inl ⟨o, s', e⟩
  · next k e => exact .inr (by rw [e, this])

/-! ## C64: the code is well formed -/

/-- **C64**: between two calls the code is a program: it consists of whole instructions, every jump follows the literal
with its distance and leads to the start of an instruction of the program or to its end, and so do all functions. -/
theorem C64_program (h : Session F s) :
    Shape s.vm.instrs s.write ∧ ∀ f ∈ s.vm.functions, Entry s.vm.instrs s.write f.first :=
  ⟨h.idle.inv.shape, h.idle.inv.fns⟩

/-- **C64**: after finishing, the program with the END instruction behind it is still one: wherever a jump leads to, and
wherever execution runs off the end of the code, there is an instruction. -/
theorem C64_finished {s' : CS} (h : Session F s) (r : partiallyFinalize s = .ok ((), s')) :
    s'.write = s.write ∧ s'.vm.instrs[s'.write]? = some 20#32 ∧ Shape s'.vm.instrs (s'.write + 1) ∧
      ∀ f ∈ s'.vm.functions, Entry s'.vm.instrs s'.write f.first := by
  have := (partiallyFinalize_step (B := fun _ => True) trivial h.idle.inv h.idle.one).post r
  exact ⟨this.2.2.2.1, this.2.2.2.2.2.1, this.2.2.2.2.2.2, this.1.fns⟩

/-- **C64**: compiling more adds to the program: every instruction that was there is still there, and execution that ran to the end of the
old program goes on with the new code. -/
theorem C64_kept {s' : CS} {ts : List Token} {b : Bool} (h : Session F s) (ht : ∀ t ∈ ts, FromSource t)
    (r : compileTokens F ts s = .ok (b, s')) : s.write ≤ s'.write ∧ (∀ i, i < s.write → s'.vm.instrs[i]? = s.vm.instrs[i]?) ∧
      Entry s'.vm.instrs s'.write s.write := by
  have := (compileTokens_step (B := fun _ => True) trivial trivial F (fun t h => ⟨(ht t h).1, (ht t h).2, fun _ => trivial⟩) (h.idle.any fun _ => True)).post r
  exact ⟨this.1.low, this.1.base, this.2.2.2.2.2.2.entry⟩

/-- **C64**, for whatever the host does afterwards: the words of the program, the distances of its jumps and its other operands among them,
stay as they are, however many scripts are compiled later and whether they compile or not. -/
theorem C64_stays {s' : CS} (h : Session F s) (a : Cc.After F s s') :
    s.write ≤ s'.write ∧ ∀ i, i < s.write → s'.vm.instrs[i]? = s.vm.instrs[i]? := by
  have := (Cc.After.inv h.idle (Z := Base.kept _) ⟨Nat.le_refl _, rfl⟩ (h.idle.kept _) a).2
  exact ⟨this.low, this.base⟩

theorem jumpWord_of {p : Nat} {d : BitVec 32} (hp : p + 3 < 4294967296) : d = jumpWord ((p + 2 + 1 + d.toNat) % 4294967296) p := by
  apply BitVec.eq_of_toNat_eq
  have := d.isLt
  unfold jumpWord usub u32 U32
  rw [BitVec.toNat_ofNat]
  omega

/-- **C64**, in terms of running: where a jump of the program is executed, execution goes on at the start of an instruction of the
program that is not itself a jump, or at its end. -/
theorem C64_jump_runs (H : Host) (h : Session F s) {W : VM} (g : Good W) (hW : W.instrs = s.vm.instrs) {b : Nat} (hb : b < s.write)
    (hst : Starts W.instrs b) (hw : W.instrs[b]? = some 17#32) {n : Nat} (hs : Space W n) :
    ∃ a T, b = a + 2 ∧ Starts W.instrs a ∧ Entry W.instrs s.write T ∧
      ∀ l, l.length < n → ∀ vm, Mach W a l vm → ∃ vm', Runs F H vm vm' ∧ Mach W T l vm' := by
  have sh := h.idle.inv.shape
  rw [hW] at hst hw ⊢
  obtain ⟨a, d, rfl, h1, h2, h3, h4⟩ := sh.jumps b _ hb hst hw (by unfold IsJump opOf; decide)
  refine ⟨a, _, rfl, h1, h4, fun l hl vm m => ?_⟩
  rw [← hW] at h2 h3 hw
  have hp := (g.ip hw).1
  replace h3 : W.instrs[a + 1]? = some (jumpWord ((a + 2 + 1 + d.toNat) % 4294967296) a) := by rw [← jumpWord_of (by omega)]; exact h3
  exact m.jump F H g h2 h3 hw (Nat.mod_lt _ (by decide)) hs hl

/-- **C64**, for conditional jumps. -/
theorem C64_branch_runs (H : Host) (h : Session F s) {W : VM} (g : Good W) (hW : W.instrs = s.vm.instrs) {b : Nat} (hb : b < s.write)
    (hst : Starts W.instrs b) (hw : W.instrs[b]? = some 21#32) {n : Nat} (hs : Space W n) :
    ∃ a T, b = a + 2 ∧ Starts W.instrs a ∧ Entry W.instrs s.write T ∧
      ∀ l v i, l.length + 1 < n → IntOf W v i → ∀ vm, Mach W a (l ++ [v]) vm →
        ∃ vm', Runs F H vm vm' ∧ Mach W (if i = 0 then T else b + 1) l vm' := by
  have sh := h.idle.inv.shape
  rw [hW] at hst hw ⊢
  obtain ⟨a, d, rfl, h1, h2, h3, h4⟩ := sh.jumps b _ hb hst hw (by unfold IsJump opOf; decide)
  refine ⟨a, _, rfl, h1, h4, fun l v i hl hi vm m => ?_⟩
  rw [← hW] at h2 h3 hw
  have hp := (g.ip hw).1
  replace h3 : W.instrs[a + 1]? = some (jumpWord ((a + 2 + 1 + d.toNat) % 4294967296) a) := by rw [← jumpWord_of (by omega)]; exact h3
  exact m.jumpIf F H g h2 h3 hw (Nat.mod_lt _ (by decide)) hi hs (by simpa using hl)

/-! ## C49: the parser's stacks -/

/-- C49, for every sequence of tokens: if the parser returns, it has made a tree from at least one token, or reported an error; and it does
not return only in the ways `Stops` lists, so that its stacks are never unbalanced without an error unless there is a word like
`len` among the tokens.  Partial: with those it is false, `C49_violated`. -/
theorem C49_partial (h : Session F s) {ts : List Token} (ht : ∀ t ∈ ts, FromSource t) :
    (∃ v s', parseExpr (functionDef (statement F maxDepth) true) maxDepth { s with toks := ts } = .ok (v, s') ∧
      ((v ≠ .nil ∧ s'.toks.length < ts.length) ∨ (v = .nil ∧ s'.vm.errors.length > s.vm.errors.length))) ∨
    ∃ k, parseExpr (functionDef (statement F maxDepth) true) maxDepth { s with toks := ts } = .ub k ∧ Stops ts k := by
  have hi : Cc.Inv Base.none (Stops ts) { s with toks := ts } := h.idle.inv.toks (stops_ok ht)
  have hfd : FDS Base.none (Stops ts) 0 (functionDef (statement F maxDepth) true) := fun s hi hd =>
    (functionDef_step .memory (statement_step .memory .overflow F maxDepth 0 (by decide) (by decide)).st true hi hd).mono fun o s' ⟨a, b, _⟩ => ⟨a, b⟩
  have := parseExpr_safe (PJ.closed (Stops ts) { s with toks := ts }) (hfd.fd _) maxDepth 0 (by omega) (by decide) (by decide) _
    ⟨hi, hi.shape.refl, Same.refl _, Nat.le_refl _⟩ (Nat.zero_le _)
  unfold CSafe at this
  split at this
  · next v s' e =>
    refine .inl ⟨v, s', e, ?_⟩
    rcases this.2 with ⟨a, b⟩ | ⟨a, b⟩
    · exact .inl ⟨a.1, b⟩
    · exact .inr ⟨a, b⟩
  · next k e => exact .inr ⟨k, e, this⟩

/-! ## C53: scopes are closed -/

/-- **C53**, at the end: whatever was compiled, successfully or not, no scope is left open between two calls. -/
theorem C53_closed (h : Session F s) : ∃ c, s.ctx = [c] := by
  have := h.idle.one
  match hc : s.ctx with
  | [] => rw [hc] at this; cases this
  | [c] => exact ⟨c, rfl⟩
  | _ :: _ :: _ => rw [hc] at this; simp at this

/-- **C53**, leaving, for all tokens: a statement that is not a declaration of a variable or of a named function leaves the names of the
scope it is in as they were, whatever it declares inside and even if it is not well formed; and one that is a declaration keeps all older
names. -/
theorem C53_statement {s' : CS} {ts : List Token} {b : Bool} (h : Session F s) (ht : ∀ t ∈ ts, FromSource t)
    (r : statement F maxDepth { s with toks := ts } = .ok (b, s')) :
    ∃ c c', s.ctx = [c] ∧ s'.ctx = [c'] ∧ c.vars <:+ c'.vars ∧
      (typeOf ts ≠ .kwVar → ¬(typeOf ts = .kwFunction ∧ typeOf ts.tail = .identifier) → c'.vars = c.vars) := by
  obtain ⟨c, hc⟩ := C53_closed h
  have hi : Cc.Inv Base.none (Stops ts) { s with toks := ts } := h.idle.inv.toks (stops_ok ht)
  have := (statement_step (B := Stops ts) .memory .overflow F maxDepth 0 (by decide) (by decide) _ hi (Nat.zero_le _)).post r
  obtain ⟨_, ⟨h1, h2⟩, _⟩ := this
  have hc' : ({ s with toks := ts } : CS).ctx = [c] := hc
  rw [hc'] at h1 h2
  have hl := h1.length
  match hx : s'.ctx with
  | [] => rw [hx] at hl; cases hl
  | _ :: _ :: _ => rw [hx] at hl; simp at hl
  | [c'] =>
    rw [hx] at h1 h2
    refine ⟨c, c', hc, rfl, h1.1.vars, fun n1 n2 => ?_⟩
    have := h2 (by rintro (e | e); exacts [n1 e, n2 e])
    simpa [names] using this

/-! ## Cases -/

namespace SessionEx

theorem blank : Blank VM.create := ⟨rfl, rfl, (by intro f hf; cases hf), create_strWF⟩

/-- A text, compiled by a compiler that compiled another one before. -/
def two (a b : String) : Res ((Bool × Bool) × CS) :=
  match compileScript Sample.F 32 (fun _ => 0) (cs a ++ [0]) (cs "f") (createCompiler VM.create) with
  | .ok (x, s) => match compileScript Sample.F 32 (fun _ => 0) (cs b ++ [0]) (cs "g") s with
    | .ok (y, s) => .ok ((x, y), s)
    | .ub k => .ub k
  | .ub k => .ub k

/-- Those states are ones of a session, so everything here applies to them. -/
theorem two_session {a b : String} {p : Bool × Bool} {s : CS} (h : two a b = .ok (p, s)) : Session Sample.F s := by
  unfold two at h
  split at h
  · next x s1 e1 =>
    split at h
    · next y s2 e2 =>
      cases h
      exact ((Session.start blank).script e1).script e2
    · cases h
  · cases h

/-- A text that ends within two blocks and a loop fails, with no scope left open; the branch of the unfinished loop leads to the first
instruction. -/
example : Res.test (two "{ while(1) { var x = 1; {" "1;")
    (fun r => r.1.1 = false ∧ r.2.ctx.length = 1 ∧ r.2.vm.instrs.take 5 = [7, 1, 7, 4294967291, 21]) = true := by
  decide +kernel

/-- Functions start behind the jump over them. -/
example : Res.test (two "var y = 3;" "function f(a) { return a; }")
    (fun r => r.1 = (true, true) ∧ r.2.vm.functions.map (·.first) = [15] ∧ r.2.vm.instrs[14]? = some 17) = true := by
  decide +kernel

/-- The code of a loop: the jumps at 11 and 24 follow their distances and lead to 25 and 6. -/
example : Res.test (two "var y = 3;" "while (y) { y = y - 1; }") (fun r => r.1 = (true, true) ∧ r.2.vm.errors = [] ∧
    r.2.vm.instrs.take r.2.write =
      [7, 3, 7, 0, 15, 11, 7, 0, 16, 7, 13, 21, 7, 0, 16, 7, 1, 2, 7, 0, 15, 11, 7, 0xffffffed, 17]) = true := by
  decide +kernel

/-- A program stays as it is when a text compiled after it fails, which leaves a jump to the first instruction behind it. -/
example : Res.test (two "var y = 3;" "while (y) { y = 1; ") (fun r => r.1 = (true, false) ∧ 6 < r.2.write ∧
    r.2.vm.instrs.take 6 = [7, 3, 7, 0, 15, 11]) = true := by
  decide +kernel

/-- Which is a case of `C64_stays`. -/
theorem two_after {a b : String} {p : Bool × Bool} {s : CS} (h : two a b = .ok (p, s)) :
    ∃ s1, Session Sample.F s1 ∧ Cc.After Sample.F s1 s := by
  unfold two at h
  split at h
  · next x s1 e1 =>
    split at h
    · next y s2 e2 =>
      cases h
      exact ⟨s1, (Session.start blank).script e1, .step .refl (.script e2)⟩
    · cases h
  · cases h

/-- An expression with nothing after its operator is an error, as `C49_partial` says for all tokens. -/
example : Res.test (parseExpr (cub .null) maxDepth { createCompiler VM.create with toks := [⟨.identifier, cs "a", 0, 0, 0⟩, ⟨.plus, cs "+", 0, 0, 0⟩] })
    (fun r => r.2.vm.errors.length = 1) = true := by
  decide +kernel

end SessionEx
end Nk.Props
