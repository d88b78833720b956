import Verif.Props.Func
import Verif.Props.Objects
/-!
# C50: fields, method calls and `len` in expressions

What `o.k`, `o->k(..)` and `len(o)` mean in terms of the fields of the object `o`.
-/
namespace Nk.Props
open Nk.Cc
variable (F : FloatOps) (H : Host)

/-- Reading the field `kv` of the live object `id` gives `v`: the value of the field, or nil if it has no such field. -/
def FieldVal (W : VM) (id : Nat) (kv v : Value) : Prop :=
  ∃ o k, W.objects.entry id = some o ∧ OWF W o ∧ keyOf W kv = some k ∧ (Has W o k v ∨ v = .nil ∧ ∀ w, ¬ Has W o k w)

variable {F H}

/-- Like `does_yields`, for instructions that use more of the machine than its stack and strings. -/
theorem does_setC {op : Nat} {l args : List Value} {W : VM} {v : Value} (ho : op < 64 ∧ op ≠ 20) (hg : Good W)
    (h : ∀ d c, (W.setC d).Stk c (l ++ args) → ∃ vm', dispatch F H op (W.setC d) = .ok ((), vm') ∧ Yields (W.setC d) l v vm') :
    Does F H op l args W v W := by
  refine ⟨.refl hg.str, fun p vm hm hp => ?_⟩
  obtain ⟨c, s, h1, h2, h3⟩ := hm.stk
  subst h2
  obtain ⟨vm1, k1, k2⟩ := h _ _ h3
  obtain ⟨vm2, j1, j2⟩ := hm.yields F H hg ho hp k1 k2
  exact ⟨vm2, .one j1, j2⟩

/-- Looking a field up does not depend on the stack. -/
theorem lookup_field {W : VM} {id : Nat} {kv v : Value} (hg : Good W) (ho : W.objects.WF) (h : FieldVal W id kv v) (d : Ctx) :
    ∃ r, lookupField F id kv (W.setC d) = .ok (r, W.setC d) ∧ r.getD .nil = v := by
  obtain ⟨o, k, h1, h2, h3, h4⟩ := h
  have hs : StrWF (W.setC d) := ⟨hg.str.tab, hg.str.blen, hg.str.nodup, hg.str.mem, hg.str.hash, hg.str.bucket, hg.str.inj⟩
  have hk : ∀ x, keyOf (W.setC d) x = keyOf W x := keyOf_congr rfl
  have hh : ∀ k v, Has (W.setC d) o k v ↔ Has W o k v := Has.congr (fun _ _ _ _ _ => hk _)
  have hw : OWF (W.setC d) o := h2.congr (fun _ _ _ _ _ => ⟨hk _, slot_congr rfl _⟩)
  rcases lookupField_run F hs ho (vm := W.setC d) h1 hw ((hk kv).trans h3) with ⟨w, g1, g2⟩ | ⟨g1, g2⟩
  · refine ⟨_, g1, ?_⟩
    rcases h4 with h4 | ⟨_, h4⟩
    · exact Has.unique hs hw g2 ((hh _ _).mpr h4)
    · exact absurd ((hh _ _).mp g2) (h4 w)
  · refine ⟨_, g1, ?_⟩
    rcases h4 with h4 | ⟨h4, _⟩
    · exact absurd ((hh _ _).mpr h4) (g2 v)
    · exact h4.symm

/-- The instruction for `o[k]`. -/
theorem does_field {l : List Value} {W : VM} {id : Nat} {kv v : Value} (hg : Good W) (ho : W.objects.WF) (h : FieldVal W id kv v) :
    Does F H 33 l [.obj id, kv] W v W := by
  refine does_setC (by decide) hg fun d c hs => ?_
  obtain ⟨s, g1, g2, g3, _⟩ := pop2 hs (fun key o => (
    match o with
    | .obj id => do
      let ob ← getObj id
      match ob with
      | none => addError "Bad object id in nkiOpcode_objectFieldGet."
      | some _ => do
        let i ← pushSlot
        let v ← lookupField F id key
        pokeAt i (v.getD .nil)
    | _ => addError "Attempted to get a field on a value that is not an object." : M Unit))
  obtain ⟨r, q1, q2⟩ := lookup_field (F := F) hg ho h { { c with stack := s } with stack := s.pushed }
  obtain ⟨o, k, h1, _⟩ := h
  simp only [VM.setC_setC] at g1 g2 ⊢
  obtain ⟨s', p1, p2⟩ := slot_then g2 (Or.inl g3) (v := v)
    (m := do let v ← lookupField F id kv; Pure.pure (v.getD .nil))
    (vm2 := W.setC { { c with stack := s } with stack := s.pushed })
    (by rw [VM.setC_setC, M.bind_ok q1, q2]; rfl)
    (by rw [VM.setC_setC]) rfl
  refine ⟨W.setC { c with stack := s' }, ?_, c, s', hs.at_, by simp, by simpa using p2⟩
  refine Eq.trans g1 ?_
  have hgo := getObj_run (vm := W.setC { c with stack := s }) ho id
  rw [VM.setC_objects, h1] at hgo
  refine Eq.trans (M.bind_ok hgo) ?_
  rw [VM.setC_setC] at p1
  simp only [M.assoc, M.pure_bind] at p1
  exact p1

/-- The instruction that looks a method up: the object stays where it is. -/
theorem does_method_field {l : List Value} {W : VM} {id : Nat} {kv v : Value} (hg : Good W) (ho : W.objects.WF)
    (h : FieldVal W id kv v) : Does F H 35 (l ++ [.obj id]) [kv] W v W := by
  refine does_setC (by decide) hg fun d c hs => ?_
  obtain ⟨s, g1, g2, g3, _⟩ := pop1 hs (fun key => (do
    let o ← (do let s ← curStack; peek (usub s.size 1))
    match o with
    | .obj id => do
      let ob ← getObj id
      match ob with
      | none => addError "Bad object id in nkiOpcode_objectFieldGet."
      | some _ => do
        let i ← pushSlot
        let v ← lookupField F id key
        pokeAt i (v.getD .nil)
    | _ => addError "Attempted to get a field on a value that is not an object." : M Unit))
  obtain ⟨r, q1, q2⟩ := lookup_field (F := F) hg ho h { { c with stack := s } with stack := s.pushed }
  obtain ⟨o, k, h1, _⟩ := h
  simp only [VM.setC_setC] at g1 g2 ⊢
  obtain ⟨s', p1, p2⟩ := slot_then g2 (Or.inl g3) (v := v)
    (m := do let v ← lookupField F id kv; Pure.pure (v.getD .nil))
    (vm2 := W.setC { { c with stack := s } with stack := s.pushed })
    (by rw [VM.setC_setC, M.bind_ok q1, q2]; rfl)
    (by rw [VM.setC_setC]) rfl
  refine ⟨W.setC { c with stack := s' }, ?_, c, s', hs.at_, by simp, by simpa using p2⟩
  refine Eq.trans g1 ?_
  have hz : s.size = l.length + 1 := by simpa using g2.size
  have hlt : s.size < 4294967296 := by
    obtain ⟨k, hk, hp⟩ := g2.wf.pow
    have h1 := Nat.pow_le_pow_right (n := 2) (by decide) hk
    have h2 := g2.wf.size
    simp only at hp h2
    omega
  have hpk : (do let s ← curStack; peek (usub s.size 1) : M Value) (W.setC { c with stack := s }) =
      .ok (.obj id, W.setC { c with stack := s }) := by
    refine Eq.trans (M.bind_ok (curStack_at g2.at_)) ?_
    refine peek_used g2 ?_
    have : usub s.size 1 = l.length := by rw [hz]; unfold usub u32 U32; omega
    rw [this]; simp
  refine Eq.trans (M.bind_ok hpk) ?_
  have hgo := getObj_run (vm := W.setC { c with stack := s }) ho id
  rw [VM.setC_objects, h1] at hgo
  refine Eq.trans (M.bind_ok hgo) ?_
  rw [VM.setC_setC] at p1
  simp only [M.assoc, M.pure_bind] at p1
  exact p1

/-- The instruction for `len(o)`. -/
theorem does_len {l : List Value} {W : VM} {id : Nat} {o : Obj} (hg : Good W) (ho : W.objects.WF)
    (he : W.objects.entry id = some o) : Does F H 42 l [.obj id] W (.int (BitVec.ofNat 32 o.size)) W := by
  refine does_setC (by decide) hg fun d c hs => ?_
  obtain ⟨s, g1, g2, g3, _⟩ := pop1 hs (fun v => (do
    let i ← pushSlot
    match v with
    | .obj _ => do
      let n ← objectSize v
      pokeAt i (.int (BitVec.ofNat 32 n))
    | _ => addError "Non-object passed into len()." : M Unit))
  simp only [VM.setC_setC] at g1 g2 ⊢
  obtain ⟨s', p1, p2⟩ := slot_then g2 (Or.inl g3) (v := .int (BitVec.ofNat 32 o.size))
    (m := do let n ← objectSize (.obj id); Pure.pure (.int (BitVec.ofNat 32 n)))
    (vm2 := W.setC { { c with stack := s } with stack := s.pushed })
    (by
      rw [VM.setC_setC]
      have hgo := getObj_run (vm := W.setC { { c with stack := s } with stack := s.pushed }) ho id
      rw [VM.setC_objects, he] at hgo
      simp only [objectSize, objFromValue, M.bind_eq, hgo]
      rfl)
    (by rw [VM.setC_setC]) rfl
  rw [VM.setC_setC] at p1
  simp only [M.assoc, M.pure_bind] at p1
  exact ⟨W.setC { c with stack := s' }, Eq.trans g1 p1, c, s', hs.at_, by simp, by simpa using p2⟩

variable {Γ : Bytes → Option Place} {b : Nat}

/-- **C50**, reading a field: `o[k]` has the value of the field, nil if there is none. -/
theorem C50_field {l l1 l2 : List Value} {W W1 W2 : VM} {t : Token} {o k : Ex} {id : Nat} {kv v : Value}
    (ho : Ev F H Γ b l W o (.obj id) l1 W1) (hk : Ev F H Γ b (l1 ++ [.obj id]) W1 k kv (l2 ++ [.obj id]) W2)
    (hg : Good W2) (hw : W2.objects.WF) (hf : FieldVal W2 id kv v) :
    Ev F H Γ b l W (.bin .index t o k) v l2 W2 :=
  .bin ho hk (does_field hg hw hf)

/-- **C50**, the size of an object: `len(o)` has the number of fields as value. -/
theorem C50_len {l l1 : List Value} {W W1 : VM} {n t : Token} {e : Ex} {id : Nat} {o : Obj}
    (he : Ev F H Γ b l W e (.obj id) l1 W1) (hg : Good W1) (hw : W1.objects.WF) (hi : W1.objects.entry id = some o) :
    Ev F H Γ b l W (.builtin .len n t (.cons e .nil)) (.int (BitVec.ofNat 32 o.size)) l1 W1 :=
  .builtin (vs := [.obj id]) (xs := []) (.cons he .nil) rfl (does_len hg hw hi)

/-- **C50**, method calls: `o->k(args)` calls the function in the field with the object as first argument and `args` after it;
it has the value the function returns. -/
theorem C50_method {l l1 l2 l3 : List Value} {W W1 W2 W3 W4 : VM} {t u : Token} {o k : Ex} {as : Exs} {id f : Nat} {kv v : Value}
    {vs : List Value} {ps : List Bytes} {E : Env} {ss : Sts}
    (ho : Ev F H Γ b l W o (.obj id) l1 W1) (hk : Ev F H Γ b (l1 ++ [.obj id]) W1 k kv (l2 ++ [.obj id]) W2)
    (hg : Good W2) (hw : W2.objects.WF) (hf : FieldVal W2 id kv (.fn f))
    (ha : EvArgs F H Γ b (l2 ++ [.obj id, .fn f]) W2 as vs (l3 ++ [.obj id, .fn f]) W3)
    (hg3 : Good W3) (hc : CallsAs F H W3 f ps E ss) (hn : ps.length = vs.length + 1)
    (hs : Space W3 (l3.length + ps.length + ss.size + 5))
    (hx : ∀ p, ∃ l', Cc.Body F H (l3.length + 1) E ss (frame l3 (.fn f) (.obj id :: vs) p) W3 (.ret v) l' W4) :
    Ev F H Γ b l W (.method t u o k as) v l3 W4 :=
  .method ho hk (does_method_field hg hw hf) ha (C65_value hc hg3 (by rw [hn]; simp) hs hx)

/-- **C50**, method calls on something that is no object are errors. -/
theorem C50_method_error {l l1 l2 : List Value} {W W1 W2 : VM} {t u : Token} {o k : Ex} {as : Exs} {x kv : Value}
    (ho : Ev F H Γ b l W o x l1 W1) (hk : Ev F H Γ b (l1 ++ [x]) W1 k kv (l2 ++ [x]) W2) (hg : Good W2) (hx : ∀ id, x ≠ .obj id) :
    EvErr F H Γ b l W (.method t u o k as) := by
  refine .methodF ho hk (fails_error (by decide) hg fun vm c hs _ => ?_)
  obtain ⟨s, g1, g2, g3, _⟩ := pop1 hs (fun key => (do
    let o ← (do let s ← curStack; peek (usub s.size 1))
    match o with
    | .obj id => do
      let ob ← getObj id
      match ob with
      | none => addError "Bad object id in nkiOpcode_objectFieldGet."
      | some _ => do
        let i ← pushSlot
        let v ← lookupField F id key
        pokeAt i (v.getD .nil)
    | _ => addError "Attempted to get a field on a value that is not an object." : M Unit))
  have hz : s.size = l2.length + 1 := by simpa using g2.size
  have hlt : s.size < 4294967296 := by
    obtain ⟨k, hk, hp⟩ := g2.wf.pow
    have h1 := Nat.pow_le_pow_right (n := 2) (by decide) hk
    have h2 := g2.wf.size
    simp only at hp h2
    omega
  have hpk : (do let s ← curStack; peek (usub s.size 1) : M Value) (vm.setC { c with stack := s }) =
      .ok (x, vm.setC { c with stack := s }) := by
    refine Eq.trans (M.bind_ok (curStack_at g2.at_)) ?_
    refine peek_used g2 ?_
    have : usub s.size 1 = l2.length := by rw [hz]; unfold usub u32 U32; omega
    rw [this]; simp
  refine ⟨(vm.addErr "Attempted to get a field on a value that is not an object.").setC { c with stack := s }, _, s, ?_, rfl, ?_⟩
  · refine Eq.trans g1 (Eq.trans (M.bind_ok hpk) ?_)
    cases x with
    | obj id => exact absurd rfl (hx id)
    | _ => rfl
  · exact ⟨g2.at_, g2.wf, g2.used⟩

/-! ### An example: an object `x` whose field 1 is 7 and whose field 2 is the function `m` of
`function m(a, n) { return a[n]; }` -/

namespace MethodEx
open StmtEx (k)

/-- The tokens. -/
def toks : List Token :=
  (k .kwFunction "function" :: k .identifier "m" :: k .parenOpen "(" :: [k .identifier "a", k .comma ",", k .identifier "n"] ++
    k .parenClose ")" :: k .curlyOpen "{" ::
    ((k .kwReturn "return" :: ([k .identifier "a"] ++ k .bracketOpen "[" :: [k .identifier "n"] ++ [k .bracketClose "]"]) ++ [k .semicolon ";"]) ++ []) ++
    [k .curlyClose "}"]) ++ []

/-- They are what the tokenizer makes of the text. -/
example : Res.test (Tok.tokenize 32 (fun _ => 0) (cs "function m(a, n) { return a[n]; }" ++ [0]) (cs "f") VM.create)
    (fun r => r.1 = some toks) = true := by decide +kernel

/-- A name. -/
def v (x : String) : Ex := .var (k .identifier x)

/-- `a[n]` -/
def get : Ex := .bin .index (k .bracketOpen "[") (v "a") (v "n")

/-- The program. -/
def prog : List Item := [.fn (cs "m") [cs "a", cs "n"] (.cons (.ret get) .nil)]

open StmtEx (atom)

theorem src : Prog Sample.F 20 toks prog := by
  refine .cons (.fn (.mk (d := 16) rfl rfl rfl (.cons rfl rfl (.one rfl)) rfl rfl ?_ rfl)) .nil
  refine .cons (.ret (k := 2) rfl ?_ rfl (by decide)) .nil
  exact ⟨_, ⟨.leaf _ _, trivial, .none (.index (.primary (.atom _ rfl)) _ _ rfl rfl
    ⟨.leaf [k .identifier "n"] (leafNode (k .identifier "n")), trivial, atom 0 _ rfl, rfl, rfl⟩), rfl, rfl⟩, rfl⟩

/-- The compiler before. -/
def s : CS := createCompiler VM.create

/-- The function. -/
def func : Func := { argc := 2, first := 9, extId := UINT_MAX }

/-- The code. -/
def code : List (BitVec 32) := [10, 0, 7, 0, 15, 11, 7, 15, 17, 7, -4, 13, 7, -4, 13, 33, 7, 0, 19, 7, 0, 7, 0, 19]

theorem compiled : ∃ s', compileTokens Sample.F toks s = .ok (true, s') ∧ s'.vm.errors = [] ∧ s'.write = 24 ∧ s'.staticCount = 1 ∧
    s'.vm.strings = VM.create.strings ∧ s'.vm.functions = [func] ∧ s'.vm.instrs.take 24 = code := by
  obtain ⟨⟨r, s'⟩, h1, h2⟩ := test_ok (r := compileTokens Sample.F toks s)
    (p := fun x => x.1 = true ∧ x.2.vm.errors = [] ∧ x.2.write = 24 ∧ x.2.staticCount = 1 ∧
      x.2.vm.strings = VM.create.strings ∧ x.2.vm.functions = [func] ∧ x.2.vm.instrs.take 24 = code) (by decide +kernel)
  obtain ⟨rfl, h2⟩ := h2
  exact ⟨s', h1, h2⟩

/-- The object. -/
def o : Obj :=
  { buckets := ((List.replicate 16 []).set 1 [(num 1, num 7)]).set 2 [(num 2, .fn 0)], size := 2, lastGCPass := 0, handleCount := 0,
    extType := UINT_MAX, extData := none }

/-- A machine with the code and the object. -/
def W : VM :=
  { VM.create with
    instrs := code ++ List.replicate 8 0, instrMask := 31, statics := [.fn 0, .nil], staticMask := 1, functions := [func]
    objects := { slots := [some o, none], holes := [1], cap := 2 } }

theorem good : Good W := by
  have h := create_strWF
  exact ⟨rfl, ⟨5, by decide, rfl⟩, rfl, ⟨1, by decide, rfl⟩, ⟨h.tab, h.blen, h.nodup, h.mem, h.hash, h.bucket, h.inj⟩⟩

theorem objs : W.objects.WF := ⟨rfl, ⟨1, by decide, rfl⟩, by decide, fun i => by
  match i with
  | 0 => decide
  | 1 => decide
  | i + 2 => simp [W]⟩

theorem bucket {b : Nat} {es : List (Value × Value)} (h : o.buckets[b]? = some es) :
    es = [] ∨ b = 1 ∧ es = [(num 1, num 7)] ∨ b = 2 ∧ es = [(num 2, .fn 0)] := by
  match b with
  | 0 => left; simpa [o] using h.symm
  | 1 => right; left; exact ⟨rfl, by simpa [o] using h.symm⟩
  | 2 => right; right; exact ⟨rfl, by simpa [o] using h.symm⟩
  | b + 3 =>
    left
    simp only [o] at h
    rw [List.getElem?_set_ne (by omega), List.getElem?_set_ne (by omega)] at h
    rw [List.getElem?_replicate] at h
    split at h
    · cases h; rfl
    · cases h

theorem owf : OWF W o := by
  refine ⟨rfl, fun b es h e he => ?_, fun b es h => ?_, rfl, by decide⟩
  · rcases bucket h with rfl | ⟨rfl, rfl⟩ | ⟨rfl, rfl⟩
    · cases he
    · obtain rfl := List.mem_singleton.mp he
      exact ⟨⟨_, rfl⟩, by decide, by decide⟩
    · obtain rfl := List.mem_singleton.mp he
      exact ⟨⟨_, rfl⟩, by decide, by decide⟩
  · rcases bucket h with rfl | ⟨rfl, rfl⟩ | ⟨rfl, rfl⟩ <;> simp

/-- The fields. -/
theorem one : FieldVal W 0 (num 1) (num 7) := ⟨o, _, rfl, owf, rfl, .inl ⟨1, _, rfl, _, List.mem_singleton.mpr rfl, rfl, rfl⟩⟩
theorem two : FieldVal W 0 (num 2) (.fn 0) := ⟨o, _, rfl, owf, rfl, .inl ⟨2, _, rfl, _, List.mem_singleton.mpr rfl, rfl, rfl⟩⟩

/-- There is no field 3. -/
theorem three : FieldVal W 0 (num 3) .nil := by
  refine ⟨o, _, rfl, owf, rfl, .inr ⟨rfl, ?_⟩⟩
  rintro w ⟨b, es, h, e, he, h1, -⟩
  rcases bucket h with rfl | ⟨rfl, rfl⟩ | ⟨rfl, rfl⟩
  · cases he
  · obtain rfl := List.mem_singleton.mp he
    exact absurd h1 (by decide)
  · obtain rfl := List.mem_singleton.mp he
    exact absurd h1 (by decide)

/-- `x` is the first local variable. -/
def G : Bytes → Option Place := fun y => if y = cs "x" then some (.loc 0) else none

/-- `x`, and a number. -/
theorem x_is (l : List Value) : Ev Sample.F Sample.H G 0 (.obj 0 :: l) W (v "x") (.obj 0) (.obj 0 :: l) W := .loc (i := 0) _ rfl rfl
def i (x : String) : Ex := .int (k .integer x)

/-- `x[1]` is 7 and `x[3]` is nil. -/
example : Ev Sample.F Sample.H G 0 [.obj 0] W (.bin .index (k .bracketOpen "[") (v "x") (i "1")) (num 7) [.obj 0] W :=
  C50_field (l2 := [.obj 0]) (x_is []) (.int _) good objs one
example : Ev Sample.F Sample.H G 0 [.obj 0] W (.bin .index (k .bracketOpen "[") (v "x") (i "3")) .nil [.obj 0] W :=
  C50_field (l2 := [.obj 0]) (x_is []) (.int _) good objs three

/-- `len(x)` is 2. -/
example : Ev Sample.F Sample.H G 0 [.obj 0] W (.builtin .len (k .functionStyleExpression "len") (k .parenOpen "(") (.cons (v "x") .nil)) (num 2) [.obj 0] W :=
  C50_len (x_is []) good objs rfl

/-- Calling a method of 5 is an error. -/
example : EvErr Sample.F Sample.H G 0 [.obj 0] W (.method (k .parenOpen "(") (k .dot ".") (i "5") (i "1") .nil) :=
  C50_method_error (l2 := [.obj 0]) (.int _) (.int _) good (fun _ h => by cases h)

/-- Calling the method in the field 2 with 1 gives the field 1 of `x`, which is 7. -/
example : Ev Sample.F Sample.H G 0 [.obj 0] W (.method (k .parenOpen "(") (k .dot ".") (v "x") (i "2") (.cons (i "1") .nil)) (num 7) [.obj 0] W := by
  obtain ⟨s', h1, h2, h3, h4, h5, h6, h7⟩ := compiled
  obtain ⟨-, -, hf⟩ := C65_program Sample.F Sample.H src StmtEx.pre rfl rfl ⟨fun x i h => (by cases h), ⟨_, rfl⟩, fun x i g h => (by cases h), fun x y i h => (by cases h)⟩ (by
    intro i hi
    simp only [prog, List.mem_cons, List.not_mem_nil, or_false] at hi
    subst hi
    exact ⟨rfl, by decide⟩) (by decide) (by decide) h1 h2
  have hw : HasCode W s.write s' := by
    refine ⟨good, fun i _ hi => ?_, fun id e he _ => ⟨e, by rw [h5] at he; exact he, rfl⟩, by rw [h4]; exact Nat.le_succ 1⟩
    rw [h3] at hi
    have e2 : (s'.vm.instrs.take 24)[i]? = (W.instrs.take 24)[i]? := by rw [h7]; rfl
    rw [List.getElem?_take_of_lt (by omega), List.getElem?_take_of_lt (by omega)] at e2
    exact e2.symm
  obtain ⟨-, hf⟩ := hf [] (cs "m") [cs "a", cs "n"] _ _ rfl ⟨0, [], W, [], W, .mk⟩ rfl rfl
  obtain ⟨hc, -⟩ := hf W hw (fun i f hi => by rw [h6] at hi; exact hi)
  refine C50_method (f := 0) (vs := [num 1]) (W3 := W) (l3 := [.obj 0]) (l2 := [.obj 0]) (x_is []) (.int _) good objs two
    (.cons (l1 := [.obj 0, .obj 0, .fn 0]) (.int _) .nil) good hc rfl
    ⟨16, by decide, by show 2 ^ 16 ≤ VM.create.limits.maxStackSize; decide, by decide⟩ fun p => ⟨frame [.obj 0] (.fn 0) [.obj 0, num 1] p, ?_⟩
  refine .stop (.leave (.stop (.val (C50_field (l2 := frame [.obj 0] (.fn 0) [.obj 0, num 1] p) (.loc (i := 0) _ rfl rfl)
    (.loc (i := 1) _ rfl rfl) good objs one) .mk) ?_) ?_) ?_
  all_goals exact fun e => by cases e
end MethodEx

end Nk.Props
