import Verif.Lemmas.CodeGen
import Verif.Props.Value
import Verif.Props.Save
/-!
# C50, C51: the code of expressions
-/
namespace Nk.Props
open Nk.Cc
variable (F : FloatOps) (H : Host)

/-! ## C50 -/

/-- **C50**: when an expression compiles without an error, the words written are code for it: run on a machine with these
words, from their start, with the local variables where the compiler believes them to be and with room on the stack, it
pushes the value of the expression and stops behind the last word; and if the value of the expression is an error, it
records an error.  (`offset` is the height of the stack above the frame of the function the compiler keeps track of; it
also is one higher afterwards.) -/
theorem C50_expression {s s' : CS} {r : Bool} {c : CCtx} {cs : List CCtx} (e : Ex) (hw : CodeWF s) (hc : s.ctx = c :: cs)
    (hs : c.offset + e.size < 4294967296) (h : emitExpr F e.node s = .ok (r, s')) (he : s'.vm.errors = s.vm.errors) :
    ∃ ws, Emit s ws s' ∧ s'.ctx = { c with offset := c.offset + 1 } :: cs ∧
      ∀ (b p : Nat) (l : List Value) (W vm : VM), Good W → Lits s'.vm W → CodeAt W p ws → l.length = b + c.offset →
        Space W (l.length + e.size) → Mach W p l vm →
        (∀ v l' W', Ev F H (placeOf s.ctx) b l W e v l' W' →
          ∃ vm', Runs F H vm vm' ∧ Mach W' (p + ws.length) (l' ++ [v]) vm') ∧
        (EvErr F H (placeOf s.ctx) b l W e → ∃ vm', Runs F H vm vm' ∧ W.errors.length < vm'.errors.length) := by
  have ho : offOf s.ctx = c.offset := by rw [hc]; rfl
  obtain ⟨_, ws, h1, h2⟩ := emit_ex F H e hw (by rw [ho]; exact hs) h he
  refine ⟨ws, h1.emit, by rw [h1.ctx, hc]; rfl, fun b p l W vm g1 g2 g3 g4 g5 g6 => ?_⟩
  exact h2 b W p l _ vm ⟨g1, g2, g3, g5, g6⟩ (by rw [ho]; exact g4) (Nat.le_refl _)

/-- **C50**, the rest of the stack: evaluating an expression leaves every slot that is not one of a local variable as it
was. -/
theorem C50_frame {Γ : Bytes → Option Place} {b : Nat} {e : Ex} {l l' : List Value} {W W' : VM} {v : Value}
    (h : Ev F H Γ b l W e v l' W') : l'.length = l.length ∧
      ∀ k, (∀ name i, Γ name = some (.loc i) → k ≠ b + i) → l'[k]? = l[k]? := by
  obtain ⟨h1, h2⟩ := Ev.frame e h
  refine ⟨h1, fun k hk => ?_⟩
  by_cases hl : k < l.length
  · exact h2 k hk hl
  · rw [List.getElem?_eq_none_iff.mpr (by omega), List.getElem?_eq_none_iff.mpr (by omega)]

/-! ### What the operators are on integers -/

variable {F H}

theorem does_yields {op : Nat} {l args : List Value} {W : VM} {v : Value} (ho : op < 64 ∧ op ≠ 20) (hg : Good W)
    (h : ∀ vm c, vm.Stk c (l ++ args) → StrWF vm → ∃ vm', dispatch F H op vm = .ok ((), vm') ∧ Yields vm l v vm') :
    Does F H op l args W v W := by
  refine ⟨.refl hg.str, fun p vm hm hp => ?_⟩
  obtain ⟨c, s, h1, h2, h3⟩ := hm.stk
  obtain ⟨vm1, k1, k2⟩ := h vm _ h3 (hm.strWF hg.str)
  obtain ⟨vm2, j1, j2⟩ := hm.yields F H hg ho hp k1 k2
  exact ⟨vm2, .one j1, j2⟩

theorem fails_error {op : Nat} {l args : List Value} {W : VM} (ho : op < 64 ∧ op ≠ 20) (hg : Good W)
    (h : ∀ vm c, vm.Stk c (l ++ args) → StrWF vm → ∃ vm' e s, dispatch F H op vm = .ok ((), vm') ∧
      vm' = (vm.addErr e).setC { c with stack := s } ∧ vm'.Stk { c with stack := s } l) : Fails F H op l args W := by
  intro p vm hm hp
  obtain ⟨c, s, h1, h2, h3⟩ := hm.stk
  obtain ⟨vm1, e, s', k1, k2, k3⟩ := h vm _ h3 (hm.strWF hg.str)
  obtain ⟨vm2, j1, j2⟩ := hm.step F H (W' := W.addErr e) (l' := l) hg ho hp (c := c) (s := s') (q := p) h1
    (by rw [k1, k2, h2]; simp [VM.setC, VM.addErr]) k3.wf k3.used rfl
  exact ⟨vm2, .one j1, by rw [j2.same.2.2.2.2.2.1]; simp [VM.addErr]⟩

/-- The operator of an arithmetic instruction. -/
def Arith.op : Arith → BinOp
  | add => .add
  | sub => .sub
  | mul => .mul
  | div => .div
  | mod => .mod

/-- The operator of a comparison. -/
def Rel.op : Rel → BinOp
  | gt => .gt
  | lt => .lt
  | ge => .ge
  | le => .le
  | eq => .eq
  | ne => .ne

/-- The integer as a value. -/
def num (x : Int) : Value := .int (BitVec.ofInt 32 x)

theorem toInt_num {x : Int} (h : Fits x) : (BitVec.ofInt 32 x).toInt = x := by
  obtain ⟨h1, h2⟩ := h
  rw [BitVec.toInt_ofInt]
  simp only [Int.bmod]
  split <;> omega

theorem eq_num {k : BitVec 32} {x : Int} (h : k.toInt = x) : Value.int k = num x := by
  unfold num
  rw [← h, BitVec.ofInt_toInt]

theorem fits_toInt (k : BitVec 32) : Fits k.toInt := by
  have h1 := BitVec.toInt_lt (x := k)
  have h2 := BitVec.le_toInt (x := k)
  simp at h1 h2
  unfold Fits; omega

/-- The value of an expression over integers: literals, variables, negation, `!`, arithmetic and comparisons, with every
intermediate result a 32-bit signed number and no division by zero.  `ρ x n` says that the variable `x` is `n`. -/
inductive Num (ρ : Bytes → Int → Prop) : Ex → Int → Prop
  | lit (t : Token) : Num ρ (.int t) (atoi32 t.str).toInt
  | var (t : Token) {x : Int} : ρ t.str x → Num ρ (.var t) x
  | neg (t : Token) {e : Ex} {x : Int} : Num ρ e x → Fits (-x) → Num ρ (.un .neg t e) (-x)
  | not (t : Token) {e : Ex} {x : Int} : Num ρ e x → Num ρ (.un .not t e) (if x = 0 then 1 else 0)
  | arith (o : Arith) (t : Token) {e f : Ex} {x y : Int} : Num ρ e x → Num ρ f y → ¬ o.refused x y → Fits (o.exact x y) →
      Num ρ (.bin o.op t e f) (o.exact x y)
  | rel (r : Rel) (t : Token) {e f : Ex} {x y : Int} : Num ρ e x → Num ρ f y →
      Num ρ (.bin r.op t e f) (if r.holds x y then 1 else 0)

/-- Evaluating an expression over integers ends in an error: a division by zero, or of the least integer by -1, after
everything before it has a value. -/
inductive NumErr (ρ : Bytes → Int → Prop) : Ex → Prop
  | neg (t : Token) {e : Ex} : NumErr ρ e → NumErr ρ (.un .neg t e)
  | not (t : Token) {e : Ex} : NumErr ρ e → NumErr ρ (.un .not t e)
  | left (o : BinOp) (t : Token) {e f : Ex} : NumErr ρ e → NumErr ρ (.bin o t e f)
  | right (o : BinOp) (t : Token) {e f : Ex} {x : Int} : Num ρ e x → NumErr ρ f → NumErr ρ (.bin o t e f)
  | here (o : Arith) (t : Token) {e f : Ex} {x y : Int} : Num ρ e x → Num ρ f y → o.refused x y → NumErr ρ (.bin o.op t e f)

/-- The variable holds the integer. -/
def HoldsInt (Γ : Bytes → Option Place) (b : Nat) (l : List Value) (W : VM) (name : Bytes) (x : Int) : Prop :=
  Fits x ∧ ((∃ i, Γ name = some (.loc i) ∧ l[b + i]? = some (num x)) ∨
    (∃ i, Γ name = some (.glob i) ∧ W.statics[i]? = some (num x)))

theorem num_ev {Γ : Bytes → Option Place} {b : Nat} {l : List Value} {W : VM} (hg : Good W) {e : Ex} {x : Int}
    (h : Num (HoldsInt Γ b l W) e x) : Fits x ∧ ∀ ts, Ev F H Γ b (l ++ ts) W e (num x) (l ++ ts) W := by
  induction h with
  | lit t =>
    refine ⟨fits_toInt _, fun ts => ?_⟩
    rw [← eq_num rfl]
    exact .int t
  | @var t x hx =>
    obtain ⟨h1, ⟨i, h2, h3⟩ | ⟨i, h2, h3⟩⟩ := hx
    · refine ⟨h1, fun ts => .loc t h2 ?_⟩
      rw [List.getElem?_append_left (List.getElem?_eq_some_iff.mp h3).1]; exact h3
    · exact ⟨h1, fun ts => .glob t h2 h3⟩
  | @neg t e x _ hf ih =>
    refine ⟨hf, fun ts => .un (ih.2 ts) (does_yields (by decide) hg fun vm c h hs => ?_)⟩
    obtain ⟨vm', k, h1, h2, h3⟩ := C23_negate F H h (by rw [toInt_num ih.1]; exact hf)
    rw [toInt_num ih.1] at h3
    exact ⟨vm', h1, eq_num h3 ▸ h2⟩
  | @not t e x _ ih =>
    refine ⟨by unfold Fits; split <;> omega, fun ts => .un (ih.2 ts) (does_yields (by decide) hg fun vm c h hs => ?_)⟩
    obtain ⟨vm', h1, h2⟩ := C24_not F H (i := BitVec.ofInt 32 x) h rfl
    rw [toInt_num ih.1] at h2
    refine ⟨vm', h1, ?_⟩
    by_cases hx : x = 0 <;> simpa [truthVal, num, hx] using h2
  | @arith o t e f x y _ _ hn hf ih1 ih2 =>
    refine ⟨hf, fun ts => ?_⟩
    have h2 := ih2.2 (ts ++ [num x])
    rw [← List.append_assoc] at h2
    refine .bin (ih1.2 ts) h2 (does_yields (BinOp.code_lt _) hg fun vm c h hs => ?_)
    obtain ⟨vm', k, h1, h2, h3⟩ := C23_exact F H h o (by rw [toInt_num ih1.1, toInt_num ih2.1]; exact hn)
      (by rw [toInt_num ih1.1, toInt_num ih2.1]; exact hf)
    rw [toInt_num ih1.1, toInt_num ih2.1] at h3
    refine ⟨vm', ?_, eq_num h3 ▸ h2⟩
    cases o <;> exact h1
  | @rel o t e f x y _ _ ih1 ih2 =>
    refine ⟨by unfold Fits; split <;> omega, fun ts => ?_⟩
    have h2 := ih2.2 (ts ++ [num x])
    rw [← List.append_assoc] at h2
    refine .bin (ih1.2 ts) h2 (does_yields (BinOp.code_lt _) hg fun vm c h hs => ?_)
    obtain ⟨vm', h1, h2⟩ := C20_integers F H h o
    rw [toInt_num ih1.1, toInt_num ih2.1] at h2
    refine ⟨vm', by cases o <;> exact h1, ?_⟩
    by_cases hx : o.holds x y = true <;> simpa [truth, num, hx] using h2

/-- **C50** for expressions over integers: the code pushes exactly the integer the expression denotes, leaves the rest of
the stack and of the machine alone and ends at the instruction after the code. -/
theorem C50_integers {s s' : CS} {r : Bool} {c : CCtx} {cs : List CCtx} {e : Ex} (hw : CodeWF s) (hc : s.ctx = c :: cs)
    (hs : c.offset + e.size < 4294967296) (h : emitExpr F e.node s = .ok (r, s')) (he : s'.vm.errors = s.vm.errors) :
    ∃ ws, Emit s ws s' ∧ ∀ (b p : Nat) (l : List Value) (W vm : VM) (x : Int), Good W → Lits s'.vm W → CodeAt W p ws →
      l.length = b + c.offset → Space W (l.length + e.size) → Mach W p l vm → Num (HoldsInt (placeOf s.ctx) b l W) e x →
        ∃ vm', Runs F H vm vm' ∧ Mach W (p + ws.length) (l ++ [num x]) vm' := by
  obtain ⟨ws, h1, _, h2⟩ := C50_expression F H e hw hc hs h he
  refine ⟨ws, h1, fun b p l W vm x g1 g2 g3 g4 g5 g6 g7 => ?_⟩
  have := (num_ev (F := F) (H := H) g1 g7).2 []
  rw [List.append_nil] at this
  exact (h2 b p l W vm g1 g2 g3 g4 g5 g6).1 _ _ _ this

/-! ### An example: `2 + x * 3` with a local variable `x` -/

namespace CodeEx

/-- A token. -/
def tok (str : Bytes) : Token := { type := .invalid, str, line := 1, file := 0, actualLine := 1 }

/-- The expression `2 + x * 3`. -/
def e : Ex := .bin .add (tok (cs "+")) (.int (tok (cs "2"))) (.bin .mul (tok (cs "*")) (.var (tok (cs "x"))) (.int (tok (cs "3"))))

/-- The innermost context: a block with the variable `x`, the first thing on the stack. -/
def c : CCtx := { vars := [{ name := cs "x", isGlobal := false, noPop := false, position := 0 }], offset := 1, fnId := UINT_MAX,
                  isLoop := false, fixups := [] }

/-- A compiler inside that block. -/
def s : CS := { createCompiler VM.create with ctx := [c, { vars := [], offset := 0, fnId := UINT_MAX, isLoop := false, fixups := [] }] }

theorem wf : CodeWF s := ⟨⟨2, by decide, rfl⟩, rfl, by decide, create_strWF, by decide⟩

/-- The code: push 2, read the slot one below the top two, push 3, multiply, add. -/
theorem emitted : ∃ s', emitExpr Sample.F e.node s = .ok (true, s') ∧ s'.vm.errors = [] ∧ s'.write = 9 ∧
    s'.vm.strings = VM.create.strings ∧ s'.vm.instrs.take 9 = [7, 2, 7, 4294967294#32, 13, 7, 3, 3, 1] := by
  obtain ⟨⟨r, s'⟩, h1, h2⟩ := test_ok (r := emitExpr Sample.F e.node s)
    (p := fun x => x.1 = true ∧ x.2.vm.errors = [] ∧ x.2.write = 9 ∧
      x.2.vm.strings = VM.create.strings ∧ x.2.vm.instrs.take 9 = [7, 2, 7, 4294967294#32, 13, 7, 3, 3, 1])
    (by decide +kernel)
  obtain ⟨rfl, h2⟩ := h2
  exact ⟨s', h1, h2⟩

/-- With `x = 5` the expression denotes 17. -/
theorem denotes (W : VM) : Num (HoldsInt (placeOf s.ctx) 0 [num 5] W) e 17 := by
  have hx : HoldsInt (placeOf s.ctx) 0 [num 5] W (cs "x") 5 := ⟨by unfold Fits; omega, .inl ⟨0, by decide, rfl⟩⟩
  have h3 : (atoi32 (tok (cs "3")).str).toInt = 3 := by decide
  have h2 : (atoi32 (tok (cs "2")).str).toInt = 2 := by decide
  have := Num.arith .add (tok (cs "+")) (.lit (tok (cs "2"))) (.arith .mul (tok (cs "*")) (.var (tok (cs "x")) hx) (.lit (tok (cs "3")))
    (by simp [Arith.refused]) (by rw [h3]; show Fits (5 * 3); unfold Fits; omega)) (by simp [Arith.refused])
    (by rw [h2, h3]; show Fits (2 + 5 * 3); unfold Fits; omega)
  rw [h2, h3] at this
  exact this

/-- A machine with this code. -/
def W : VM := { VM.create with instrs := [7, 2, 7, 4294967294#32, 13, 7, 3, 3, 1, 0, 0, 0, 0, 0, 0, 0], instrMask := 15 }

theorem good : Good W := by
  have h := create_strWF
  exact ⟨rfl, ⟨4, by decide, rfl⟩, rfl, ⟨1, by decide, rfl⟩, ⟨h.tab, h.blen, h.nodup, h.mem, h.hash, h.bucket, h.inj⟩⟩

/-- And the code, run with `x = 5`, leaves 17 on top of it. -/
example : ∃ vm vm', Mach W 0 [num 5] vm ∧ Runs Sample.F Sample.H vm vm' ∧ Mach W 9 [num 5, num 17] vm' := by
  obtain ⟨s', h1, h2, h3, h4, h5⟩ := emitted
  obtain ⟨ws, g1, g2⟩ := C50_integers (H := Sample.H) wf (c := c) rfl (by decide) h1 (by rw [h2]; rfl)
  have hl : ws.length = 9 := by have := g1.write; rw [h3] at this; simpa [s, createCompiler] using this.symm
  have hm : ∃ vm, Mach W 0 [num 5] vm := ⟨_, _, { vals := [num 5], size := 1, cap := 1, mask := 0 }, rfl,
    ⟨⟨0, by decide, rfl⟩, rfl, rfl, by decide⟩, rfl, rfl⟩
  obtain ⟨vm, hm⟩ := hm
  have hw : CodeAt W 0 ws := by
    intro i w hi
    have h := g1.code i w hi
    have hlt := (List.getElem?_eq_some_iff.mp hi).1
    have e1 : s.write = 0 := rfl
    have e2 : (s'.vm.instrs.take 9)[i]? = (W.instrs.take 9)[i]? := by rw [h5]; rfl
    rw [List.getElem?_take_of_lt (by omega), List.getElem?_take_of_lt (by omega)] at e2
    rw [e1, Nat.zero_add, e2] at h
    rw [Nat.zero_add]; exact h
  obtain ⟨vm', k1, k2⟩ := g2 0 0 [num 5] W vm 17 good (fun id e he _ => ⟨e, by rw [h4] at he; exact he, rfl⟩) hw rfl
    ⟨16, by decide, by decide, by decide⟩ hm (denotes W)
  rw [hl] at k2
  exact ⟨vm, vm', hm, k1, k2⟩

/-- `1 / 0` is an error. -/
example (Γ : Bytes → Option Place) (b : Nat) (l : List Value) :
    EvErr Sample.F Sample.H Γ b l W (.bin .div (tok (cs "/")) (.int (tok (cs "1"))) (.int (tok (cs "0")))) := by
  refine .bin (.int _) (.int _) (fails_error (by decide) good fun vm c h _ => ?_)
  obtain ⟨vm', e, s, h1, _, h2, h3⟩ := C23_refused Sample.F Sample.H h .div (by simp only [Arith.refused]; decide)
  exact ⟨vm', e, s, h1, h2, h3⟩

end CodeEx

/-! ## C51: local variables and temporaries -/

variable (F H)

/-- **C51**, reading: whatever values, arguments and temporaries, are on the stack above and below it, as long as there are
as many as the compiler believes (`c.offset` above the start of the function's frame), the code for reading a local
variable pushes what is in the slot of that variable.  That the compiler's belief stays right while expressions are
evaluated is `C50_expression`.  Missing for the whole property: it is wrong after `is_finished` (`C51_violated`). -/
theorem C51_read_partial {s s' : CS} {r : Bool} {c : CCtx} {cs : List CCtx} {t : Token} {i : Nat} (hw : CodeWF s)
    (hc : s.ctx = c :: cs) (hs : c.offset + 1 < 4294967296) (hp : placeOf s.ctx t.str = some (.loc i))
    (h : emitExpr F (Ex.var t).node s = .ok (r, s')) (he : s'.vm.errors = s.vm.errors) :
    ∃ ws, Emit s ws s' ∧ ∀ (b p : Nat) (l : List Value) (W vm : VM) (v : Value), Good W → Lits s'.vm W → CodeAt W p ws →
      l.length = b + c.offset → l[b + i]? = some v → Space W (l.length + 1) → Mach W p l vm →
        ∃ vm', Runs F H vm vm' ∧ Mach W (p + ws.length) (l ++ [v]) vm' := by
  obtain ⟨ws, h1, _, h2⟩ := C50_expression F H (.var t) hw hc hs h he
  exact ⟨ws, h1, fun b p l W vm v g1 g2 g3 g4 g5 g6 g7 => (h2 b p l W vm g1 g2 g3 g4 g6 g7).1 v l W (.loc t hp g5)⟩

/-- **C51**, writing: assigning to a local variable replaces what is in its slot, and no other slot. -/
theorem C51_write_partial {s s' : CS} {r : Bool} {c : CCtx} {cs : List CCtx} {t x : Token} {e : Ex} {i : Nat} (hw : CodeWF s)
    (hc : s.ctx = c :: cs) (hs : c.offset + (e.size + 2) < 4294967296) (hp : placeOf s.ctx x.str = some (.loc i))
    (h : emitExpr F (Ex.setVar t x e).node s = .ok (r, s')) (he : s'.vm.errors = s.vm.errors) :
    ∃ ws, Emit s ws s' ∧ ∀ (b p : Nat) (l l' : List Value) (W W' vm : VM) (v : Value), Good W → Lits s'.vm W →
      CodeAt W p ws → l.length = b + c.offset → b + i < l.length → Ev F H (placeOf s.ctx) b l W e v l' W' →
      Space W (l.length + (e.size + 2)) → Mach W p l vm →
        ∃ vm', Runs F H vm vm' ∧ Mach W' (p + ws.length) (l'.set (b + i) v ++ [v]) vm' := by
  obtain ⟨ws, h1, _, h2⟩ := C50_expression F H (.setVar t x e) hw hc hs h he
  refine ⟨ws, h1, fun b p l l' W W' vm v g1 g2 g3 g4 g5 g6 g7 g8 => (h2 b p l W vm g1 g2 g3 g4 g7 g8).1 _ _ _ ?_⟩
  exact .setLoc g6 hp (by rw [(C50_frame F H g6).1]; exact g5)

/-- Compile a source text on a fresh machine and, if that gives no error, run it; the result of running and the errors.
`n` bounds the number of instructions. -/
def runSource (n : Nat) (src : String) : Res (Option (Option Bool × List String)) :=
  match (do let ok ← compileScript Sample.F 32 (fun _ => 0) (cs src ++ [0]) (cs "f"); finalize; return ok : CM Bool)
      (createCompiler VM.create) with
  | .ub k => .ub k
  | .ok (ok, s) =>
    if ok = true ∧ s.vm.errors = [] then
      match Nk.executeProgram Sample.F Sample.H n s.vm with
      | .ub k => .ub k
      | .ok (r, vm) => .ok (some (r, vm.errors))
    else .ok none

/-- A function that asks whether a coroutine is finished and then uses a local variable. -/
def finishedSource : String :=
  "function f(c) { var x = 5; var a = is_finished(c); return x; } function g() { return 1; } var r = f(coroutine(g));"

/-- Without the question, it works. -/
example : runSource 100 "function f(c) { var x = 5; var a = 1; return x; } function g() { return 1; } var r = f(coroutine(g));" =
    .ok (some (some true, [])) := by decide +kernel

/-- C51 is false as stated: the compiler believes that `is_finished` adds a value to the stack, when it replaces one by
another, so that after it every local variable is looked for in the wrong slot. -/
theorem C51_violated : runSource 100 finishedSource = .ok (some (some false, ["Stack underflow in pop."])) := by
  decide +kernel

end Nk.Props
