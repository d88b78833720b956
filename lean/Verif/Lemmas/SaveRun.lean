import Verif.Lemmas.SaveRead
import Verif.Spec.Save
/-!
# Reading back what was written, section by section
-/
namespace Nk.Save
variable {α β : Type}

/-! ## Writing -/

/-- `x` succeeds, writes `b` and leaves the VM as it is. -/
def Writes (x : W) (vm : VM) (b : Bytes) : Prop := x vm = .ok ((true, b), vm)

theorem andThen_run {x y : W} {vm v1 v2 : VM} {b1 b2 : Bytes} (h1 : x vm = .ok ((true, b1), v1))
    (h2 : y v1 = .ok ((true, b2), v2)) : (x ⨟ y) vm = .ok ((true, b1 ++ b2), v2) := by
  unfold W.andThen
  rw [M.bind_ok h1]
  dsimp only
  rw [if_pos rfl, M.bind_ok h2]
  rfl

theorem Writes.andThen {x y : W} {vm : VM} {b1 b2 : Bytes} (h1 : Writes x vm b1) (h2 : Writes y vm b2) :
    Writes (x ⨟ y) vm (b1 ++ b2) := andThen_run h1 h2

theorem Writes.emit {vm : VM} {b : Bytes} : Writes (emit b) vm b := rfl

theorem Writes.all {f : α → W} {g : α → Bytes} {vm : VM} {l : List α} (h : ∀ x ∈ l, Writes (f x) vm (g x)) :
    Writes (emitAll f l) vm (l.flatMap g) := by
  induction l with
  | nil => rfl
  | cons x l ih =>
    unfold emitAll
    rw [List.flatMap_cons]
    exact (h x (by simp)).andThen (ih fun y hy => h y (by simp [hy]))

theorem Writes.string {vm : VM} {s : Bytes} (h : s.length < UINT_MAX) :
    Writes (saveString s) vm (le32 s.length ++ s) := by
  unfold saveString Writes
  rw [if_neg (by omega)]
  rfl

/-! ## Reading words, values and strings -/

theorem of32_le32 {n : Nat} (h : n < 4294967296) :
    of32 (UInt8.ofNat n) (UInt8.ofNat (n / 256)) (UInt8.ofNat (n / 65536)) (UInt8.ofNat (n / 16777216)) = n := by
  simp only [of32, UInt8.toNat_ofNat']
  omega

theorem le32_length (n : Nat) : (le32 n).length = 4 := rfl

theorem read32_run {n : Nat} (h : n < 4294967296) (r : Bytes) (v : VM) :
    read32 (le32 n ++ r) v = .ok ((some n, r), v) := by
  show Res.ok ((some (of32 _ _ _ _), r), v) = _
  rw [of32_le32 h]

theorem read8_run {n : Nat} (h : n < 256) (r : Bytes) (v : VM) :
    read8 (UInt8.ofNat n :: r) v = .ok ((some n, r), v) := by
  show Res.ok ((some ((UInt8.ofNat n).toNat), r), v) = _
  rw [UInt8.toNat_ofNat', Nat.mod_eq_of_lt (by simpa using h)]

theorem readBytes_run (s r : Bytes) (v : VM) : readBytes s.length (s ++ r) v = .ok ((some s, r), v) := by
  unfold readBytes
  rw [if_pos (by simp)]
  simp

theorem mkValue_fits {v : Value} (h : v.Fits) : mkValue v.ty v.raw = v ∧ v.ty < 4294967296 ∧ v.raw < 4294967296 := by
  cases v with
  | int i => exact ⟨by simp [Value.ty, Value.raw, mkValue], by simp [Value.ty], i.isLt⟩
  | float i => exact ⟨by simp [Value.ty, Value.raw, mkValue], by simp [Value.ty], i.isLt⟩
  | str n => exact ⟨rfl, by simp [Value.ty], h⟩
  | fn n => exact ⟨rfl, by simp [Value.ty], h⟩
  | obj n => exact ⟨rfl, by simp [Value.ty], h⟩
  | nil => exact ⟨rfl, by simp [Value.ty], by simp [Value.raw]⟩
  | bad => exact h.elim

theorem readValue_run {x : Value} (h : x.Fits) (r : Bytes) (v : VM) :
    readValue (valueBytes x ++ r) v = .ok ((some x, r), v) := by
  obtain ⟨h1, h2, h3⟩ := mkValue_fits h
  show Res.ok ((some (mkValue (of32 _ _ _ _) (of32 _ _ _ _)), r), v) = _
  rw [of32_le32 h2, of32_le32 h3, h1]

theorem valuesOf_run {l : List Value} (h : ∀ x ∈ l, x.Fits) : valuesOf (l.flatMap valueBytes) = l := by
  induction l with
  | nil => rfl
  | cons x l ih =>
    obtain ⟨h1, h2, h3⟩ := mkValue_fits (h x (by simp))
    rw [List.flatMap_cons]
    show mkValue (of32 _ _ _ _) (of32 _ _ _ _) :: valuesOf (l.flatMap valueBytes) = _
    rw [of32_le32 h2, of32_le32 h3, h1, ih fun y hy => h y (by simp [hy])]

theorem flatMap_valueBytes_length (l : List Value) : (l.flatMap valueBytes).length = 8 * l.length := by
  induction l with
  | nil => rfl
  | cons x l ih =>
    rw [List.flatMap_cons, List.length_append, ih]
    simp only [valueBytes, List.length_append, le32_length, List.length_cons]
    omega

theorem cstr_text {s : Bytes} (h : Spec.NoNul s) : cstr s = s := by
  unfold cstr
  induction s with
  | nil => rfl
  | cons x s ih =>
    have hx : x ≠ 0 := fun e => h (by rw [e]; exact List.mem_cons_self ..)
    rw [List.takeWhile_cons, if_pos (by simpa using hx), ih fun hm => h (List.mem_cons_of_mem _ hm)]

theorem loadString_run {s : Bytes} (h : Text s) (r : Bytes) (v : VM) :
    loadString (le32 s.length ++ (s ++ r)) v = .ok ((some s, r), v) := by
  have h2 := h.2
  unfold loadString
  rw [L.bind_some (read32_run (by unfold UINT_MAX at h2; omega) _ _), if_neg (by omega),
    L.bind_some (readBytes_run _ _ _), cstr_text h.1]
  rfl

theorem loadStringIn_run {s : Bytes} (h : Text s) {max : Nat} (hm : s.length < max) (r : Bytes) (v : VM) :
    loadStringIn max (le32 s.length ++ (s ++ r)) v = .ok ((some s, r), v) := by
  have h2 := h.2
  unfold loadStringIn
  rw [L.bind_some (read32_run (by unfold UINT_MAX at h2; omega) _ _), if_neg (by omega),
    L.bind_some (readBytes_run _ _ _), cstr_text h.1]
  rfl

theorem upd_run (f : VM → VM) (b : Bytes) (v : VM) : upd f b v = .ok ((some (), b), f v) := rfl

theorem mallocArray_run {size n : Nat} (h : n < UINT_MAX / size) (b : Bytes) (v : VM) :
    mallocArray size n b v = .ok ((some (), b), v) := by
  unfold mallocArray
  rw [if_neg (by omega)]
  rfl

theorem get_lift (b : Bytes) (v : VM) : lift get b v = .ok ((some v, b), v) := rfl

/-- A loop that reads one element of a list per round. -/
theorem times_run {f : Nat → L Unit} {g : α → Bytes} {St : Nat → VM} (l : List α) (i : Nat)
    (h : ∀ j x, l[j]? = some x → ∀ r, f (i + j) (g x ++ r) (St j) = .ok ((some (), r), St (j + 1))) (r : Bytes) :
    times f i l.length (l.flatMap g ++ r) (St 0) = .ok ((some (), r), St l.length) := by
  induction l generalizing i St with
  | nil => rfl
  | cons x l ih =>
    rw [List.flatMap_cons, List.append_assoc]
    show times f i (l.length + 1) _ _ = _
    unfold times
    rw [L.bind_some (m := f i) (h 0 x rfl _)]
    have := ih (St := fun j => St (j + 1)) (i + 1) (fun j y hy r => by
      have := h (j + 1) y hy r
      rw [show i + (j + 1) = i + 1 + j from by omega] at this
      exact this)
    exact this

theorem take_succ_getElem? {l : List α} {j : Nat} {x : α} (h : l[j]? = some x) : l.take (j + 1) = l.take j ++ [x] := by
  rw [List.take_add_one, h]; rfl

theorem isPow2_iff {n : Nat} : isPow2 n = true ↔ n = 0 ∨ n &&& (n - 1) = 0 := by
  unfold isPow2
  by_cases h : n = 0
  · simp [h]
  · simp [h]

theorem isPow2_pow (k : Nat) : isPow2 (2 ^ k) = true := by
  rw [isPow2_iff]
  right
  have : 0 < 2 ^ k := Nat.two_pow_pos k
  rw [Nat.and_two_pow_sub_one_eq_mod, Nat.mod_self]

/-! ## Header -/

theorem loadHeader_run (r : Bytes) (v : VM) : loadHeader (header ++ r) v = .ok ((some (), r), v) := by
  unfold loadHeader header
  rw [List.append_assoc, L.bind_some (m := readBytes 5) (readBytes_run [0, 78, 75, 86, 77] _ _), if_neg (by simp),
    L.bind_some (read32_run (by omega) _ _)]
  rfl

/-! ## Instructions -/

/-- The bytes of the instruction section. -/
def instrImage (vm : VM) : Bytes :=
  (le32 (lastWord vm.instrs vm.instrMask) ++ le32 vm.instrMask) ++
    (vm.instrs.take (lastWord vm.instrs vm.instrMask + 1)).flatMap fun w => le32 w.toNat

theorem lastWord_le (ws : List (BitVec 32)) (n : Nat) : lastWord ws n ≤ n := by
  induction n with
  | zero => simp [lastWord]
  | succ n ih =>
    unfold lastWord
    split
    · omega
    · omega

theorem lastWord_zero (ws : List (BitVec 32)) (n i : Nat) (h1 : lastWord ws n < i) (h2 : i ≤ n) : ws[i]? = some 0 := by
  induction n with
  | zero => omega
  | succ n ih =>
    unfold lastWord at h1
    split at h1
    · next h0 =>
      by_cases hi : i = n + 1
      · rw [hi]; exact h0
      · exact ih h1 (by omega)
    · omega

theorem saveInstrs_writes {vm : VM} (hl : vm.instrs.length = vm.instrMask + 1)
    (hp : ∃ k, k ≤ 29 ∧ vm.instrMask + 1 = 2 ^ k) : Writes saveInstrs vm (instrImage vm) := by
  obtain ⟨k, hk, hm⟩ := hp
  have hb : vm.instrMask + 1 ≤ 2 ^ 29 := by rw [hm]; exact Nat.pow_le_pow_right (by omega) hk
  have := lastWord_le vm.instrs vm.instrMask
  unfold saveInstrs Writes
  rw [M.bind_ok (get_run _), if_neg (by omega)]
  refine Writes.andThen .emit ?_
  rw [if_neg (by unfold UINT_MAX; omega), if_neg (by rw [hm, isPow2_pow]; simp), if_neg (by omega)]
  exact .emit

theorem loadInstrs_run {vm : VM} (hl : vm.instrs.length = vm.instrMask + 1)
    (hp : ∃ k, k ≤ 29 ∧ vm.instrMask + 1 = 2 ^ k) (r : Bytes) (v : VM) :
    loadInstrs (instrImage vm ++ r) v = .ok ((some (), r), { v with instrMask := vm.instrMask, instrs := vm.instrs }) := by
  obtain ⟨k, hk, hm⟩ := hp
  have hb : vm.instrMask + 1 ≤ 2 ^ 29 := by rw [hm]; exact Nat.pow_le_pow_right (by omega) hk
  have hle := lastWord_le vm.instrs vm.instrMask
  unfold loadInstrs instrImage
  generalize hlim : lastWord vm.instrs vm.instrMask = lim at *
  simp only [List.append_assoc]
  rw [L.bind_some (read32_run (by omega) _ _), L.bind_some (read32_run (by omega) _ _),
    L.bind_some (upd_run _ _ _), if_neg (by unfold UINT_MAX; omega), if_neg (by rw [hm, isPow2_pow]; simp),
    if_neg (by omega), L.bind_some (mallocArray_run (by unfold UINT_MAX; omega) _ _), L.bind_some (upd_run _ _ _)]
  have hlen : (vm.instrs.take (lim + 1)).length = lim + 1 := by simp; omega
  have key := times_run (f := fun i => do
      let w ← read32
      upd fun vm => { vm with instrs := vm.instrs.set i (BitVec.ofNat 32 w) })
    (g := fun w : BitVec 32 => le32 w.toNat)
    (St := fun j => { v with instrMask := vm.instrMask, instrs := vm.instrs.take j ++ List.replicate (vm.instrMask + 1 - j) 0 })
    (vm.instrs.take (lim + 1)) 0 (by
      intro j x hx r
      rw [L.bind_some (read32_run x.isLt _ _)]
      have hj : j < lim + 1 := by
        have := (List.getElem?_eq_some_iff.mp hx).1
        rw [hlen] at this; exact this
      have hx' : vm.instrs[j]? = some x := by
        rw [List.getElem?_take] at hx
        rwa [if_pos hj] at hx
      have : BitVec.ofNat 32 x.toNat = x := by simp
      rw [this, upd_run]
      dsimp only
      congr 4
      rw [take_succ_getElem? hx', show vm.instrMask + 1 - j = (vm.instrMask + 1 - (j + 1)) + 1 from by omega,
        List.replicate_succ, List.set_append, if_neg (by simp), List.length_take, List.append_assoc]
      have : 0 + j - min j vm.instrs.length = 0 := by omega
      rw [this]
      rfl) r
  rw [hlen] at key
  simp only [List.take_zero, List.nil_append, Nat.sub_zero] at key
  rw [key]
  congr 4
  apply List.ext_getElem?
  intro i
  rw [List.getElem?_append]
  split
  · next h =>
    rw [List.length_take] at h
    rw [List.getElem?_take, if_pos (by omega)]
  · next h =>
    rw [List.length_take] at h
    rw [List.getElem?_replicate, List.length_take]
    split
    · rw [lastWord_zero vm.instrs vm.instrMask i (by omega) (by omega)]
    · rw [List.getElem?_eq_none (by omega)]

/-! ## Errors -/

theorem errText_cs {e : String} (h : ErrText e) : errText (cs e) = e := by
  unfold errText cs
  rw [List.map_map]
  have : e.toList.map ((fun c : UInt8 => Char.ofNat c.toNat) ∘ fun c => UInt8.ofNat c.toNat) = e.toList := by
    conv_rhs => rw [← List.map_id e.toList]
    apply List.map_congr_left
    intro c hc
    have := (h.1 c hc).2
    simp only [Function.comp, id, UInt8.toNat_ofNat']
    rw [Nat.mod_eq_of_lt (by simpa using this), Char.ofNat_toNat]
  rw [this]
  simp

theorem cs_text {e : String} (h : ErrText e) : Text (cs e) := by
  constructor
  · unfold Spec.NoNul cs
    rw [List.mem_map]
    rintro ⟨c, hc, he⟩
    have := h.1 c hc
    have := congrArg UInt8.toNat he
    rw [UInt8.toNat_ofNat', Nat.mod_eq_of_lt (by simp; omega)] at this
    simp at this
    omega
  · have := h.2
    unfold cs
    rw [List.length_map, String.length_toList]
    exact this

/-- The bytes of the error section. -/
def errImage (vm : VM) : Bytes :=
  le32 vm.errors.length ++ vm.errors.flatMap fun e => le32 (cs e).length ++ cs e

theorem saveErrors_writes {vm : VM} (h : ∀ e ∈ vm.errors, ErrText e) : Writes saveErrors vm (errImage vm) := by
  unfold saveErrors Writes
  rw [M.bind_ok (get_run _)]
  exact Writes.andThen .emit (.all fun e he => .string (cs_text (h e he)).2)

theorem loadErrors_run {vm : VM} (h : ∀ e ∈ vm.errors, ErrText e) (hn : vm.errors.length < 4294967296) (r : Bytes)
    (v : VM) (hv : v.errors = []) :
    loadErrors (errImage vm ++ r) v = .ok ((some (), r), { v with errors := vm.errors }) := by
  unfold loadErrors errImage
  rw [List.append_assoc, L.bind_some (read32_run hn _ _)]
  have key := times_run (f := fun i => do
      let s ← loadString
      upd fun vm => { vm with errors := if i = 0 then [errText s] else vm.errors ++ [errText s] })
    (g := fun e : String => le32 (cs e).length ++ cs e)
    (St := fun j => { v with errors := vm.errors.take j }) vm.errors 0 (by
      intro j x hx r
      have hx1 := h x (List.mem_of_getElem? hx)
      rw [List.append_assoc, L.bind_some (loadString_run (cs_text hx1) _ _), upd_run, errText_cs hx1]
      dsimp only
      congr 4
      rw [take_succ_getElem? hx]
      by_cases hj : j = 0
      · subst hj; rfl
      · rw [if_neg (by omega)]) r
  simp only [List.take_zero, List.take_length] at key
  rw [← key]
  congr 1
  rw [← hv]

/-! ## Statics -/

/-- The bytes of the statics. -/
def staticImage (vm : VM) : Bytes :=
  le32 vm.staticMask ++ (vm.statics.take (vm.staticMask + 1)).flatMap valueBytes

theorem saveStatics_writes {vm : VM} (hl : vm.statics.length = vm.staticMask + 1)
    (hp : ∃ k, k ≤ 28 ∧ vm.staticMask + 1 = 2 ^ k) : Writes saveStatics vm (staticImage vm) := by
  obtain ⟨k, hk, hm⟩ := hp
  have hb : vm.staticMask + 1 ≤ 2 ^ 28 := by rw [hm]; exact Nat.pow_le_pow_right (by omega) hk
  unfold saveStatics Writes
  rw [M.bind_ok (get_run _)]
  refine Writes.andThen .emit ?_
  rw [if_neg (by rw [show u32 (vm.staticMask + 1) = vm.staticMask + 1 from Nat.mod_eq_of_lt (by unfold U32; omega), hm, isPow2_pow]; simp),
    if_neg (by unfold UINT_MAX; omega), if_neg (by omega)]
  exact .emit

theorem loadStatics_run {vm : VM} (hl : vm.statics.length = vm.staticMask + 1)
    (hp : ∃ k, k ≤ 28 ∧ vm.staticMask + 1 = 2 ^ k) (hf : ∀ x ∈ vm.statics, x.Fits) (r : Bytes) (v : VM) :
    loadStatics (staticImage vm ++ r) v =
      .ok ((some (), r), { v with staticMask := vm.staticMask, statics := vm.statics }) := by
  obtain ⟨k, hk, hm⟩ := hp
  have hb : vm.staticMask + 1 ≤ 2 ^ 28 := by rw [hm]; exact Nat.pow_le_pow_right (by omega) hk
  unfold loadStatics staticImage
  rw [List.append_assoc, L.bind_some (read32_run (by omega) _ _),
    if_neg (by rw [show u32 (vm.staticMask + 1) = vm.staticMask + 1 from Nat.mod_eq_of_lt (by unfold U32; omega), hm, isPow2_pow]; simp),
    if_neg (by unfold UINT_MAX; omega), L.bind_some (upd_run _ _ _),
    L.bind_some (mallocArray_run (by unfold UINT_MAX; omega) _ _), L.bind_some (upd_run _ _ _)]
  have ht : vm.statics.take (vm.staticMask + 1) = vm.statics := List.take_of_length_le (by omega)
  rw [ht]
  have := flatMap_valueBytes_length vm.statics
  rw [hl] at this
  rw [← this, L.bind_some (readBytes_run _ _ _), upd_run, valuesOf_run hf]

/-! ## Contexts -/

/-- The bytes of a stack. -/
def stackImage (s : Stack) : Bytes := (le32 s.size ++ le32 s.cap) ++ (s.vals.take s.size).flatMap valueBytes

/-- The bytes of a context. -/
def ctxImage (c : Ctx) (coroutine : Bool) : Bytes :=
  le32 c.ip ++ (stackImage c.stack ++ (if coroutine then le32 (stateCode c.state) else []))

theorem ctx_lift {vm v : VM} {i : Nat} {c : Ctx} (h : ctxAt vm i = .ok c) : liftR (ctxAt vm i) v = .ok (c, v) := by
  rw [h]; rfl

theorem saveStack_writes {vm : VM} {i : Nat} {c : Ctx} (hc : vm.ctxs[i]? = some (some c)) (h : CtxOK vm c) :
    Writes (saveStack i) vm (stackImage c.stack) := by
  obtain ⟨k, -, hk⟩ := h.wf.pow
  have hpos := Nat.two_pow_pos k
  have hm := h.wf.mask
  have hs := h.wf.size
  have hlim := h.limit
  have hlen := h.wf.len
  have hat : ctxAt vm i = .ok c := by simp [ctxAt, hc]
  unfold saveStack Writes
  rw [M.bind_ok (get_run _), M.bind_ok (ctx_lift hat)]
  refine Writes.andThen .emit ?_
  rw [if_neg (by rw [hk, isPow2_pow]; simp), if_neg (by omega), if_neg (by omega)]
  have hset : setCtx i { c with stack := { c.stack with mask := c.stack.cap - 1 } } vm = .ok ((), vm) := by
    unfold setCtx
    rw [hat]
    dsimp only
    have : c.stack.cap - 1 = c.stack.mask := by omega
    rw [this, set_same hc]
  unfold Writes
  rw [M.bind_ok hset, if_neg (by omega), if_neg (by omega)]
  rfl

theorem saveContext_writes {vm : VM} {i : Nat} {c : Ctx} (hc : vm.ctxs[i]? = some (some c)) (h : CtxOK vm c)
    (co : Bool) : Writes (saveContext i co) vm (ctxImage c co) := by
  have hat : ctxAt vm i = .ok c := by simp [ctxAt, hc]
  unfold saveContext Writes
  rw [M.bind_ok (get_run _), M.bind_ok (ctx_lift hat)]
  refine Writes.andThen .emit (Writes.andThen (saveStack_writes hc h) ?_)
  cases co
  · exact .emit
  · exact .emit

/-- Replace a context. -/
def setAt (v : VM) (i : Nat) (c : Ctx) : VM := { v with ctxs := v.ctxs.set i (some c) }

theorem updCtx_run {v : VM} {i : Nat} {c : Ctx} (hc : v.ctxs[i]? = some (some c)) (f : Ctx → Ctx) (b : Bytes) :
    updCtx i f b v = .ok ((some (), b), setAt v i (f c)) := by
  have hat : ctxAt v i = .ok c := by simp [ctxAt, hc]
  have : (do let vm ← get
             let c ← liftR (ctxAt vm i)
             setCtx i (f c) : M Unit) v = .ok ((), setAt v i (f c)) := by
    rw [M.bind_ok (get_run _), M.bind_ok (ctx_lift hat)]
    unfold setCtx
    rw [hat]
    rfl
  unfold updCtx
  rw [lift_run this]

theorem setAt_get {v : VM} {i : Nat} {c d : Ctx} (hc : v.ctxs[i]? = some (some c)) :
    (setAt v i d).ctxs[i]? = some (some d) := by
  have := (List.getElem?_eq_some_iff.mp hc).1
  simp [setAt, this]

theorem setAt_setAt (v : VM) (i : Nat) (c d : Ctx) : setAt (setAt v i c) i d = setAt v i d := by
  simp [setAt]

/-- A stack as it is after loading. -/
def loadedStack (s : Stack) : Stack :=
  { vals := s.used ++ List.replicate (s.cap - s.size) Value.zero, size := s.size, cap := s.cap, mask := s.cap - 1 }

theorem clearStack_run {v : VM} {i : Nat} {c : Ctx} (hc : v.ctxs[i]? = some (some c)) (h : c.stack.cap ≤ c.stack.vals.length)
    (b : Bytes) : clearStack i b v = .ok ((some (), b), setAt v i
      { c with stack := { vals := List.replicate 2 Value.zero, size := 0, cap := 2, mask := 1 } }) := by
  have hat : ctxAt v i = .ok c := by simp [ctxAt, hc]
  unfold clearStack
  have : (do let vm ← get
             let c ← liftR (ctxAt vm i)
             if c.stack.cap ≤ c.stack.vals.length then
               setCtx i { c with stack := { vals := List.replicate 2 Value.zero, size := 0, cap := 2, mask := 1 } }
             else liftR (.ub .oob) : M Unit) v = .ok ((), setAt v i
      { c with stack := { vals := List.replicate 2 Value.zero, size := 0, cap := 2, mask := 1 } }) := by
    rw [M.bind_ok (get_run _), M.bind_ok (ctx_lift hat), if_pos h]
    unfold setCtx
    rw [hat]
    rfl
  rw [lift_run this]

theorem maskClear_run {v : VM} {i : Nat} {d : Ctx} (hd : v.ctxs[i]? = some (some d))
    (hw : d.stack.cap ≤ d.stack.vals.length) (m : Stack → Nat) (k : L Unit) (b : Bytes) :
    (do updCtx i fun c => { c with stack := { c.stack with mask := m c.stack } }
        clearStack i
        k : L Unit) b v = k b (setAt v i
      { d with stack := { vals := List.replicate 2 Value.zero, size := 0, cap := 2, mask := 1 } }) := by
  rw [L.bind_some (updCtx_run hd _ _),
    L.bind_some (clearStack_run (c := { d with stack := { d.stack with mask := m d.stack } }) (setAt_get hd) hw _),
    setAt_setAt]

theorem loadStack_run {vm : VM} {c : Ctx} (h : CtxOK vm c) {v : VM} (hlim : v.limits = vm.limits) {i : Nat} {d : Ctx}
    (hd : v.ctxs[i]? = some (some d)) (hw : d.stack.cap ≤ d.stack.vals.length) (r : Bytes) :
    loadStack i (stackImage c.stack ++ r) v = .ok ((some (), r), setAt v i { d with stack := loadedStack c.stack }) := by
  obtain ⟨k, hk31, hk⟩ := h.wf.pow
  have hpos := Nat.two_pow_pos k
  have hs := h.wf.size
  have hl := h.limit
  have hlen := h.wf.len
  have ha := h.alloc
  have hcap : c.stack.cap < 4294967296 := by unfold UINT_MAX at ha; omega
  unfold loadStack stackImage
  simp only [List.append_assoc]
  rw [L.bind_some (read32_run (by omega) _ _), L.bind_some (read32_run hcap _ _), L.bind_some (get_lift _ _),
    if_neg (by rw [hk, isPow2_pow]; simp), if_neg (by rw [hlim]; omega), if_neg (by omega),
    maskClear_run hd hw (fun s => usub s.cap 1),
    L.bind_some (mallocArray_run ha _ _), L.bind_some (updCtx_run (setAt_get hd) _ _), if_neg (by omega),
    setAt_setAt]
  have hul : c.stack.used.length = c.stack.size := by simp [Stack.used]; omega
  have := flatMap_valueBytes_length (c.stack.vals.take c.stack.size)
  rw [show (c.stack.vals.take c.stack.size).length = c.stack.size from hul] at this
  have hv : valuesOf ((c.stack.vals.take c.stack.size).flatMap valueBytes) = c.stack.used := valuesOf_run h.fits
  rw [← this, L.bind_some (readBytes_run _ _ _), hv]
  refine (updCtx_run (setAt_get hd) _ _).trans ?_
  rw [setAt_setAt]
  have hr : (List.replicate c.stack.cap Value.zero).drop c.stack.size =
      List.replicate (c.stack.cap - c.stack.size) Value.zero := List.drop_replicate ..
  dsimp only
  rw [hr]
  rfl

theorem loadContext_run {vm : VM} {c : Ctx} (h : CtxOK vm c) {v : VM} (hlim : v.limits = vm.limits) {i : Nat} {d : Ctx}
    (hd : v.ctxs[i]? = some (some d)) (hw : d.stack.cap ≤ d.stack.vals.length) (co : Bool) (r : Bytes) :
    loadContext i co (ctxImage c co ++ r) v = .ok ((some (), r), setAt v i
      { d with ip := c.ip, stack := loadedStack c.stack, state := if co then c.state else d.state }) := by
  unfold loadContext ctxImage
  simp only [List.append_assoc]
  rw [L.bind_some (read32_run h.ip _ _), L.bind_some (updCtx_run hd _ _),
    L.bind_some (loadStack_run h (v := setAt v i { d with ip := c.ip }) hlim (setAt_get hd) hw _), setAt_setAt]
  cases co
  · rfl
  · rw [if_pos rfl, if_pos rfl, L.bind_some (read32_run (by cases c.state <;> simp [stateCode]) _ _),
      updCtx_run (setAt_get hd), setAt_setAt]
    have : stateOf (stateCode c.state) = c.state := by cases c.state <;> rfl
    rw [this]
    rfl

end Nk.Save
