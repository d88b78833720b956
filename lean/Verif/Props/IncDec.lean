import Verif.Lemmas.StmtGen
import Verif.Props.Code
/-!
# C56: increments and decrements
-/
namespace Nk.Props
open Nk.Cc
variable {F : FloatOps} {H : Host}

/-- The operators `++x`, `--x`, `x++` and `x--`. -/
inductive IncDec where
  | preInc | preDec | postInc | postDec

/-- The tokens of the operator applied to a name. -/
def IncDec.toks (k : IncDec) (op x : Token) : List Token :=
  match k with
  | preInc | preDec => [op, x]
  | postInc | postDec => [x, op]

/-- The type of the operator's token. -/
def IncDec.type : IncDec → TokType
  | preInc | postInc => .increment
  | preDec | postDec => .decrement

/-- The variable afterwards. -/
def IncDec.after (k : IncDec) (n : Int) : Int :=
  match k with
  | preInc | postInc => n + 1
  | preDec | postDec => n - 1

/-- The value of the expression. -/
def IncDec.value (k : IncDec) (n : Int) : Int :=
  match k with
  | preInc | preDec => k.after n
  | postInc | postDec => n

/-- The variable `name` gets the value `v`, and nothing else happens. -/
def Assigned (Γ : Bytes → Option Place) (b : Nat) (name : Bytes) (v : Value) (l : List Value) (W : VM) (l' : List Value) (W' : VM) : Prop :=
  (∃ i, Γ name = some (.loc i) ∧ l' = l.set (b + i) v ∧ W' = W) ∨
  (∃ i, Γ name = some (.glob i) ∧ l' = l ∧ W' = { W with statics := W.statics.set i v })

/-- The operator written out as an assignment. -/
def IncDec.assign (k : IncDec) (line : Int) (x : Token) : Ex :=
  match k with
  | preInc | postInc => .setVar (made .assignment (cs "=") line) x (.bin .add (made .plus (cs "+") line) (.var x) (.int (made .integer (cs "1") line)))
  | preDec | postDec => .setVar (made .assignment (cs "=") line) x (.bin .sub (made .minus (cs "-") line) (.var x) (.int (made .integer (cs "1") line)))

/-- The operator written out. -/
def IncDec.ex (k : IncDec) (discard : Bool) (line : Int) (x : Token) : Ex :=
  match k, discard with
  | postInc, false => .bin .sub (made .minus (cs "-") line) (k.assign line x) (.int (made .integer (cs "1") line))
  | postDec, false => .bin .add (made .plus (cs "+") line) (k.assign line x) (.int (made .integer (cs "1") line))
  | _, _ => k.assign line x

theorem incDec_src (k : IncDec) (discard : Bool) {op x : Token} (hx : x.type = .identifier) (ho : op.type = k.type) :
    ExSrc F 1 discard (k.toks op x) (k.ex discard op.line x) := by
  obtain ⟨xt, xs, xl, xf, xa⟩ := x
  obtain ⟨ot, os, ol, of, oa⟩ := op
  obtain rfl : xt = .identifier := hx
  obtain rfl : ot = k.type := ho
  have atom : Postfixed (Expr 0) [⟨.identifier, xs, xl, xf, xa⟩] (leafNode ⟨.identifier, xs, xl, xf, xa⟩) := .primary (.atom _ rfl)
  cases k with
  | preInc => exact ⟨_, ⟨.leaf _ _, trivial, .cons ⟨.increment, os, ol, of, oa⟩ rfl (.none atom), rfl, rfl⟩, by cases discard <;> rfl⟩
  | preDec => exact ⟨_, ⟨.leaf _ _, trivial, .cons ⟨.decrement, os, ol, of, oa⟩ rfl (.none atom), rfl, rfl⟩, by cases discard <;> rfl⟩
  | postInc => exact ⟨_, ⟨.leaf _ _, trivial, .none (.inc atom ⟨.increment, os, ol, of, oa⟩ rfl), rfl, rfl⟩, by cases discard <;> rfl⟩
  | postDec => exact ⟨_, ⟨.leaf _ _, trivial, .none (.dec atom ⟨.decrement, os, ol, of, oa⟩ rfl), rfl, rfl⟩, by cases discard <;> rfl⟩

theorem lit_one (line : Int) : (atoi32 (made .integer (cs "1") line).str).toInt = 1 := by
  show (atoi32 (cs "1")).toInt = 1; decide

theorem does_num {W : VM} (hg : Good W) {l : List Value} {a b : Int} (o : Arith) (ha : Fits a) (hb : Fits b) (hn : ¬o.refused a b)
    (hf : Fits (o.exact a b)) : Does F H o.op.code l [num a, num b] W (num (o.exact a b)) W := by
  refine does_yields (BinOp.code_lt _) hg fun vm cc h hs => ?_
  obtain ⟨vm', k, h1, h2, h3⟩ := C23_exact F H h o (by rw [toInt_num ha, toInt_num hb]; exact hn) (by rw [toInt_num ha, toInt_num hb]; exact hf)
  rw [toInt_num ha, toInt_num hb] at h3
  exact ⟨vm', by cases o <;> exact h1, eq_num h3 ▸ h2⟩

theorem ev_assigned {Γ : Bytes → Option Place} {b : Nat} {l : List Value} {W : VM} {t x : Token} {e : Ex} {n m : Int}
    (hx : HoldsInt Γ b l W x.str n) (h : Ev F H Γ b l W e (num m) l W) :
    ∃ l' W', Assigned Γ b x.str (num m) l W l' W' ∧ Ev F H Γ b l W (.setVar t x e) (num m) l' W' := by
  obtain ⟨_, ⟨i, h1, h2⟩ | ⟨i, h1, h2⟩⟩ := hx
  · exact ⟨_, _, .inl ⟨i, h1, rfl, rfl⟩, .setLoc h h1 (List.getElem?_eq_some_iff.mp h2).1⟩
  · exact ⟨_, _, .inr ⟨i, h1, rfl, rfl⟩, .setGlob h h1 (List.getElem?_eq_some_iff.mp h2).1⟩

/-- **C56**, the meaning of the operators wherever they are in an expression: if the variable holds the integer `n`, and the
number next to it is a 32-bit integer, the operator gives the variable that number and changes nothing else, and its value is
what it should be: the number before for `x++` and `x--`, the number after for `++x` and `--x`.  (If the value is not used,
`discard`, the number after is there in any case.) -/
theorem C56_value (k : IncDec) (discard : Bool) {Γ : Bytes → Option Place} {b : Nat} {l : List Value} {W : VM} (line : Int) {x : Token} {n : Int}
    (hg : Good W) (hx : HoldsInt Γ b l W x.str n) (hf : Fits (k.after n)) :
    ∃ l' W', Assigned Γ b x.str (num (k.after n)) l W l' W' ∧
      Ev F H Γ b l W (k.ex discard line x) (num (if discard then k.after n else k.value n)) l' W' := by
  have hn : Fits n := hx.1
  have hk : ∃ l' W', Assigned Γ b x.str (num (k.after n)) l W l' W' ∧ Ev F H Γ b l W (k.assign line x) (num (k.after n)) l' W' := by
    have N : ∀ (o : Arith) (t : Token), (o = .add ∨ o = .sub) → Fits (o.exact n 1) →
        Ev F H Γ b l W (.bin o.op t (.var x) (.int (made .integer (cs "1") line))) (num (o.exact n 1)) l W := by
      intro o t ho hf
      have := (num_ev (F := F) (H := H) hg (.arith o t (.var x hx) (.lit (made .integer (cs "1") line)) (by rcases ho with rfl | rfl <;> exact id)
        (by rw [lit_one]; exact hf))).2 []
      rwa [List.append_nil, lit_one] at this
    cases k with
    | preInc => exact ev_assigned hx (N .add _ (.inl rfl) hf)
    | postInc => exact ev_assigned hx (N .add _ (.inl rfl) hf)
    | preDec => exact ev_assigned hx (N .sub _ (.inr rfl) hf)
    | postDec => exact ev_assigned hx (N .sub _ (.inr rfl) hf)
  obtain ⟨l', W', h1, h2⟩ := hk
  refine ⟨l', W', h1, ?_⟩
  have hg' : Good W' := (Ev.keep _ hg.str h2).1.good hg
  have f1 : Fits 1 := by unfold Fits; omega
  have one : Ev F H Γ b (l' ++ [num (k.after n)]) W' (.int (made .integer (cs "1") line)) (num 1) (l' ++ [num (k.after n)]) W' := by
    rw [← eq_num (lit_one line)]
    exact .int _
  cases k with
  | preInc => cases discard <;> exact h2
  | preDec => cases discard <;> exact h2
  | postInc =>
    cases discard with
    | true => exact h2
    | false =>
      have e : n = Arith.exact .sub (n + 1) 1 := by show n = n + 1 - 1; omega
      have := Ev.bin (o := .sub) (t := made .minus (cs "-") line) h2 one (does_num hg' .sub hf f1 id (e ▸ hn))
      rw [← show n = Arith.exact .sub (IncDec.after .postInc n) 1 from e] at this
      exact this
  | postDec =>
    cases discard with
    | true => exact h2
    | false =>
      have e : n = Arith.exact .add (n - 1) 1 := by show n = n - 1 + 1; omega
      have := Ev.bin (o := .add) (t := made .plus (cs "+") line) h2 one (does_num hg' .add hf f1 id (e ▸ hn))
      rw [← show n = Arith.exact .add (IncDec.after .postDec n) 1 from e] at this
      exact this

/-- **C56**, from the tokens to the running code: compiling `++x`, `--x`, `x++` or `x--` writes code that does what the operator
means. -/
theorem C56_compiled (k : IncDec) (discard : Bool) {fd : CM (Option Nat)} (hfd : CMono fd) {op x : Token} {rest : List Token} {s s' : CS} {r : Bool}
    (hx : x.type = .identifier) (ho : op.type = k.type) (ht : s.toks = k.toks op x ++ rest) (hend : isEnd rest = true) (hw : CodeWF s)
    (hd : s.depth ≤ 253) (hs : offOf s.ctx + 7 < 4294967296) (h : compileExpr F fd discard s = .ok (r, s')) (h0 : s.vm.errors = []) (he : s'.vm.errors = []) :
    ∃ ws, s'.write = s.write + ws.length ∧ (∀ i w, ws[i]? = some w → s'.vm.instrs[s.write + i]? = some w) ∧
      ∀ (b p : Nat) (l : List Value) (W vm : VM) (n : Int), Good W → Lits s'.vm W → CodeAt W p ws → l.length = b + offOf s.ctx →
        Space W (l.length + 7) → Mach W p l vm → HoldsInt (placeOf s.ctx) b l W x.str n → Fits (k.after n) →
        ∃ vm' l' W', Runs F H vm vm' ∧ Mach W' (p + ws.length) (l' ++ [num (if discard then k.after n else k.value n)]) vm' ∧
          Assigned (placeOf s.ctx) b x.str (num (k.after n)) l W l' W' := by
  have hsz : (k.ex discard op.line x).size ≤ 7 := by cases k <;> cases discard <;> simp [IncDec.ex, IncDec.assign, Ex.size]
  obtain ⟨-, -, -, -, -, -, ws, e1, e2, e3⟩ := compileExpr_inv H hfd (incDec_src k discard hx ho) ht hend (by omega) hw (by omega) h h0 he
  refine ⟨ws, e1, e2, fun b p l W vm n g1 g2 g3 g4 g5 g6 g7 g8 => ?_⟩
  obtain ⟨l', W', a1, a2⟩ := C56_value (F := F) (H := H) k discard op.line g1 g7 g8
  obtain ⟨vm', b1, b2⟩ := (e3 b W p l _ vm ⟨g1, g2, g3, g5, g6⟩ g4 (by omega)).1 _ _ _ a2
  exact ⟨vm', l', W', b1, b2, a1⟩

/-- With the local variable `x` at the start of the frame: `x++` is read x, add 1, write x, subtract 1. -/
example : Res.test (compileExpr Sample.F (functionDef (pure true) true) false
      { CodeEx.s with toks := [⟨.identifier, cs "x", 1, 0, 1⟩, ⟨.increment, cs "++", 1, 0, 1⟩, ⟨.semicolon, cs ";", 1, 0, 1⟩] })
    (fun r => r.1 = true ∧ r.2.vm.errors = [] ∧ r.2.vm.instrs.take r.2.write =
      [7, 0xffffffff, 13, 7, 1, 1, 7, 0xfffffffe, 14, 7, 1, 2]) = true := by
  decide +kernel

example : CodeWF CodeEx.s ∧ HoldsInt (placeOf CodeEx.s.ctx) 0 [num 5] CodeEx.W (cs "x") 5 ∧ Fits (IncDec.after .postInc 5) :=
  ⟨CodeEx.wf, ⟨by unfold Fits; omega, .inl ⟨0, by decide, rfl⟩⟩, by show Fits (5 + 1); unfold Fits; omega⟩

end Nk.Props
