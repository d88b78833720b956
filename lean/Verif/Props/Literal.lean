import Verif.Lemmas.Literal
import Verif.Lemmas.Repl
import Verif.Props.Api
import Verif.Props.Life
import Verif.Props.Shrink
import Verif.Props.Session
import Verif.Props.Save
/-!
# C77: string literals stay

Compiled code refers to its string literals by id.  Whatever happens to the VM later, the id goes on standing for the text.
-/
namespace Nk.Props
open Nk.Spec Nk.Cc

variable {F : FloatOps} {H : Host}

/-- **C77**: collections leave literals alone, whatever is reachable. -/
theorem C77_collect {vm vm' : VM} (h : vm.strings.WF) (e : garbageCollect H vm = .ok ((), vm')) : KeepsLiterals vm vm' :=
  ((garbageCollect_pres (lit_frame vm).gc).run vm () vm' (.refl h) e).keeps

theorem lit_iterate (hH : ∀ a cb args, Pres (Lit a) (H.call cb args)) (a : VM) : Pres (Lit a) (iterate F H) :=
  iterate_pres (lit_frame a) (hH a) (fun _ h => by unfold tick; exact h.of rfl) (fun _ h => by unfold charge; exact h.of rfl)
    (fun _ h => h.of rfl) (fun _ h => h.of rfl)

theorem run_lit (hH : HostLiterals H) {a vm vm' : VM} (h : Lit a vm) (r : Run F H vm vm') : Lit a vm' := by
  induction r with
  | refl => exact h
  | step _ _ hi ih => exact (lit_iterate (lit_host hH) a).run _ _ _ ih hi

/-- **C77**: running a program leaves literals alone. -/
theorem C77_run (hH : HostLiterals H) {vm vm' : VM} (h : vm.strings.WF) (r : Run F H vm vm') : KeepsLiterals vm vm' :=
  (run_lit hH (.refl h) r).keeps

theorem lit_api (a : VM) : ApiFrame True (Lit a) := by
  have r := lit_reg a
  exact { lit_frame a with
    hand := fun _ _ h => h.of rfl, lim := fun _ _ h => h.of rfl, left := fun _ _ _ h => h.of rfl, int := fun _ _ _ h => h.of rfl
    new := fun _ _ h => h.of rfl
    type := fun _ => r.type, native := fun _ _ => r.native, decl := fun _ _ _ _ => r.decl, value := fun _ => r.value }

/-- **C77**: what is assumed about native functions is true of those that do to the VM what the API offers. -/
theorem C77_api (mark : Nat → Option Nat → List Value) (ps : Nat → List Value → Api) (fuel depth : Nat) :
    HostLiterals (apiHost F mark ps fuel depth) := fun cb args vm r vm' e h => by
  have := (apiHost_pres F mark ps fuel depth (lit_api vm) (fun _ _ => Api.limits_true _)
    (fun H hH => iterate_pres (lit_frame vm) hH (fun _ h => by unfold tick; exact h.of rfl) (fun _ h => by unfold charge; exact h.of rfl)
      (fun _ h => h.of rfl) (fun _ h => h.of rfl)) cb args).run vm r vm' (.refl h) e
  exact ⟨this.wf, this.keeps⟩

/-- **C77**: making tables smaller moves strings, but not literals (under the conditions under which C57 holds). -/
theorem C77_shrink {vm vm' : VM} (h : HeapWF vm) (hn : NoDangling vm) (ho : OthersPinned vm) (hh : HandlesCounted vm)
    (e : shrinkVM vm = .ok vm') : vm'.strings.WF ∧ KeepsLiterals vm vm' := by
  obtain ⟨w, r, h1, h2, h3, _⟩ := C57_partial h hn ho hh
  rw [h1] at e
  cases e
  refine ⟨h3.str.tab, fun id t ⟨x, k1, k2, k3⟩ => ⟨x, ?_, k2, k3⟩⟩
  have := h2.strs id x k1
  rwa [h2.constants id x k1 k3] at this

/-- **C77**: a VM into which a saved one is loaded has its code and its literals, and no others. -/
theorem C77_save {vm v vm' v' : VM} {img : Bytes} (h : Save.Saveable vm) (ht : Save.Target vm v) (hreg : Save.Registered vm v.extFuncs)
    (hs : Save.save vm = .ok ((true, img), vm')) (hl : Save.load F img v = .ok ((some (), []), v')) :
    v'.instrs = vm.instrs ∧ KeepsLiterals vm vm' ∧ KeepsLiterals vm v' ∧ KeepsLiterals v' vm := by
  obtain ⟨img', w, h1, h2, r, _⟩ := C36_save_load_partial (F := F) h ht hreg
  rw [h1] at hs
  cases hs
  rw [h2] at hl
  cases hl
  exact ⟨r.instrs.1, fun id t k => k, fun id t ⟨x, k1, k2⟩ => ⟨x, (r.strings.1 id).trans k1, k2⟩,
    fun id t ⟨x, k1, k2⟩ => ⟨x, (r.strings.1 id).symm.trans k1, k2⟩⟩

variable (F H)

/-- What can happen to a VM with a compiler: token lists and scripts are compiled, global variables and native functions are
declared, the compiler makes the program ready or is finished, the program runs, the host does something through the API, collects
garbage, clears the errors, or makes the tables smaller. -/
inductive Used (a : CS) : CS → Prop
  | now : Used a a
  | tokens {s s' : CS} {toks : List Token} {b : Bool} (h : Used a s) (r : compileTokens F toks s = .ok (b, s')) : Used a s'
  | script {s s' : CS} {hdr : Nat} {junk : Nat → UInt8} {source file : Bytes} {b : Bool} (h : Used a s)
      (r : compileScript F hdr junk source file s = .ok (b, s')) : Used a s'
  | global {s s' : CS} {name : Bytes} {o : Option Nat} (h : Used a s) (r : createGlobal name s = .ok (o, s')) : Used a s'
  | native {s s' : CS} {name : Bytes} {cb : Option Nat} (h : Used a s) (r : createCFunction name cb s = .ok ((), s')) : Used a s'
  | ready {s s' : CS} (h : Used a s) (r : partiallyFinalize s = .ok ((), s')) : Used a s'
  | finish {s s' : CS} (h : Used a s) (r : finalize s = .ok ((), s')) : Used a s'
  | run {s : CS} {vm : VM} (h : Used a s) (r : Run F H s.vm vm) : Used a { s with vm := vm }
  | api {s : CS} {vm : VM} {p : Api} {fuel : Nat} {x : Value} (h : Used a s) (r : p.run F H fuel s.vm = .ok (x, vm)) :
      Used a { s with vm := vm }
  | collect {s : CS} {vm : VM} (h : Used a s) (r : garbageCollect H s.vm = .ok ((), vm)) : Used a { s with vm := vm }
  | clear {s s' : CS} {ip : Nat} (h : Used a s) (r : clearRepl ip s = .ok ((), s')) : Used a s'
  | shrink {s : CS} {vm : VM} (h : Used a s) (hw : HeapWF s.vm) (hn : NoDangling s.vm) (ho : OthersPinned s.vm)
      (hh : HandlesCounted s.vm) (r : shrinkVM s.vm = .ok vm) : Used a { s with vm := vm }

variable {F H}

theorem used_lit (hH : HostLiterals H) {a s : CS} (h : Used F H a s) (ha : a.vm.strings.WF) : Lit a.vm s.vm := by
  induction h with
  | now => exact .refl ha
  | tokens _ r ih => exact (compileTokens_keep F _).run _ _ _ ih r
  | script _ r ih => exact (compileScript_keep F _ _ _ _).run _ _ _ ih r
  | global _ r ih => exact (createGlobal_keep _).run _ _ _ ih r
  | native _ r ih => exact (createCFunction_keep _ _).run _ _ _ ih r
  | ready _ r ih => exact partiallyFinalize_keep.run _ _ _ ih r
  | finish _ r ih => exact finalize_keep.run _ _ _ ih r
  | run _ r ih => exact run_lit hH ih r
  | api _ r ih => exact (Api.run_pres (lit_api _) (lit_host hH _) (lit_iterate (lit_host hH) _) _ _ (Api.limits_true _)).run _ _ _ ih r
  | collect _ r ih => exact (garbageCollect_pres (lit_frame _).gc).run _ _ _ ih r
  | clear _ r ih =>
    obtain ⟨r1, r2⟩ := clearRepl_frame r
    refine ih.of ?_
    have := (clearReplErrors_frame r1).2
    rw [this]
  | shrink _ hw hn ho hh r ih =>
    obtain ⟨k1, k2⟩ := C77_shrink hw hn ho hh r
    exact ⟨k1, fun id t hl => k2 id t (ih.keeps id t hl)⟩

/-- **C77.** A string that was a literal of compiled code once is the same literal after whatever happens to the VM. -/
theorem C77_literals (hH : HostLiterals H) {a s : CS} (ha : a.vm.strings.WF) (h : Used F H a s) : KeepsLiterals a.vm s.vm :=
  (used_lit hH h ha).keeps

/-- **C77**: so what the theorems about compiled code (C50 and those after it) need about string literals stays true: the code
compiled into `a` finds the texts of its literals in `s`. -/
theorem C77_code (hH : HostLiterals H) {a s : CS} (ha : a.vm.strings.WF) (h : Used F H a s) : Lits a.vm s.vm := fun id e he hd => by
  obtain ⟨e', h1, h2, _⟩ := C77_literals hH ha h id e.str ⟨e, he, rfl, hd⟩
  exact ⟨e', h1, h2⟩

/-- **C77**: the code for a string literal pushes the string with an id that is a literal, with that text. -/
theorem C77_literal {s s' : CS} (h : CodeWF s) {adj : Bool} {t : Bytes} (e : emitStr t adj s = .ok ((), s'))
    (hne : s'.vm.errors = s.vm.errors) : ∃ id, id < 4294967296 ∧ s'.write = s.write + 2 ∧
      s'.vm.instrs[s.write]? = some 9#32 ∧ s'.vm.instrs[s.write + 1]? = some (BitVec.ofNat 32 id) ∧ Literal s'.vm id t := by
  obtain ⟨id, h1, _, h3, h4, _⟩ := emitStr_literal h e hne
  exact ⟨id, h3, h1.write, h1.code 0 _ rfl, h1.code 1 _ rfl, h4⟩

/-- Every instruction between words `m` and `n` of the program that pushes a string has the id of a literal. -/
def StringsAre (vm : VM) (m n : Nat) : Prop := ∀ i, m ≤ i → i < n → Starts vm.instrs i → vm.instrs[i]? = some 9#32 →
  ∃ v text, vm.instrs[i + 1]? = some v ∧ Literal vm v.toNat text

theorem stringsAre {s s' : CS} (i : Cc.Inv (Base.of s) (fun _ => True) s') (he : s'.vm.errors.length ≤ s.vm.errors.length) :
    StringsAre s'.vm s.write s'.write := fun j h1 h2 h3 h4 => by
  obtain ⟨v, k1, k2⟩ := i.lits.ok j h1 h2 h3 h4
  rcases k2 with k2 | ⟨x, k2, k3⟩
  · have : s.vm.errors.length < s'.vm.errors.length := k2
    omega
  · exact ⟨v, x.str, k1, x, k2, rfl, k3⟩

/-- **C77**: in the code that is added when a script is compiled, whatever the script, all strings are literals, if no error was
recorded. -/
theorem C77_script {s s' : CS} {hdr : Nat} {junk : Nat → UInt8} {source file : Bytes} {b : Bool} (h : Session F s)
    (r : compileScript F hdr junk source file s = .ok (b, s')) (he : s'.vm.errors = s.vm.errors) : StringsAre s'.vm s.write s'.write :=
  stringsAre (compileScript_inv h.idle (h.idle.any fun _ => True) r).2 (by rw [he])

/-- **C77**: the same for lists of tokens. -/
theorem C77_tokens {s s' : CS} {toks : List Token} {b : Bool} (h : Session F s) (ht : ∀ t ∈ toks, FromSource t)
    (r : compileTokens F toks s = .ok (b, s')) (he : s'.vm.errors = s.vm.errors) : StringsAre s'.vm s.write s'.write :=
  stringsAre ((compileTokens_step (B := fun _ => True) trivial trivial F (fun t h => ⟨(ht t h).1, (ht t h).2, fun _ => trivial⟩)
    (h.idle.any fun _ => True)).post r).1 (by rw [he])

/-- **C77**, put together: after whatever has happened since the script was compiled, the strings that its code pushes are literals, with
the texts they had then. -/
theorem C77_later {s s' t : CS} {hdr : Nat} {junk : Nat → UInt8} {source file : Bytes} {b : Bool} (hH : HostLiterals H) (h : Session F s)
    (r : compileScript F hdr junk source file s = .ok (b, s')) (he : s'.vm.errors = s.vm.errors) (u : Used F H s' t) :
    ∀ i, s.write ≤ i → i < s'.write → Starts s'.vm.instrs i → s'.vm.instrs[i]? = some 9#32 →
      ∃ v text, s'.vm.instrs[i + 1]? = some v ∧ Literal s'.vm v.toNat text ∧ Literal t.vm v.toNat text := fun i h1 h2 h3 h4 => by
  obtain ⟨v, text, k1, k2⟩ := C77_script h r he i h1 h2 h3 h4
  exact ⟨v, text, k1, k2, C77_literals hH (compileScript_inv h.idle (h.idle.any fun _ => True) r).1.inv.wf.str.tab u _ _ k2⟩

/-! ### An example: a literal that nothing refers to but the code -/

/-- Compile, execute `n` instructions, and collect. -/
def collected (a : String) (n : Nat) : Res CS :=
  match ready a (createCompiler VM.create) with
  | .ok s => match steps n s.vm with
    | .ok vm => match garbageCollect Sample.H vm with
      | .ok (_, vm) => .ok { s with vm := vm }
      | .ub k => .ub k
    | .ub k => .ub k
  | .ub k => .ub k

/-- The texts in the string table. -/
def texts (vm : VM) : List Bytes := (vm.strings.slots.filterMap id).map (·.str)

example : HostLiterals Sample.H := fun _ _ _ _ _ e h => by cases e; exact ⟨h, fun _ _ h => h⟩

/-- The text `xy` is computed and thrown away and `never` has not been used yet.  The collection removes the one and not the other. -/
example : Res.test (collected "var a = \"x\" + \"y\"; a = 3; if (a == 2) { a = \"never\"; }" 14)
    (fun s => s.vm.errors = [] ∧ 9#32 ∈ s.vm.instrs ∧ s.vm.statics.head? = some (.int 3) ∧ cs "never" ∈ texts s.vm ∧ cs "x" ∈ texts s.vm ∧ cs "xy" ∉ texts s.vm) = true := by
  decide +kernel

/-- Before the collection the text `xy` is there. -/
example : Res.test (match ready "var a = \"x\" + \"y\"; a = 3; if (a == 2) { a = \"never\"; }" (createCompiler VM.create) with
      | .ok s => steps 14 s.vm
      | .ub k => .ub k)
    (fun vm => cs "never" ∈ texts vm ∧ cs "xy" ∈ texts vm) = true := by
  decide +kernel

end Nk.Props
