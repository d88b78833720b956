import Verif.Lemmas.SaveHost
import Verif.Spec.SaveSink
/-!
# What the writer gets
-/
namespace Nk.Save
variable {σ α : Type} {K : Sink σ}

/-- Offer pieces until one is refused. -/
def Sink.putAll (K : Sink σ) : σ → List Bytes → Bool × σ
  | s, [] => (true, s)
  | s, b :: bs => if (K.put s b).1 then putAll K (K.put s b).2 bs else (false, (K.put s b).2)

theorem putAll_append (s : σ) (as bs : List Bytes) :
    K.putAll s (as ++ bs) = if (K.putAll s as).1 then K.putAll (K.putAll s as).2 bs else K.putAll s as := by
  induction as generalizing s with
  | nil => rfl
  | cons a as ih =>
    simp only [List.cons_append, Sink.putAll]
    by_cases h : (K.put s a).1 = true
    · simp only [if_pos h]; exact ih _
    · simp only [if_neg h]; rfl

theorem putAll_log {log : σ → Bytes} (h : Logs K log) {s : σ} {bs : List Bytes} (e : (K.putAll s bs).1 = true) :
    log (K.putAll s bs).2 = log s ++ bs.flatten := by
  induction bs generalizing s with
  | nil => simp [Sink.putAll]
  | cons b bs ih =>
    unfold Sink.putAll at e ⊢
    by_cases hb : (K.put s b).1 = true
    · rw [if_pos hb] at e ⊢
      rw [ih e, h s b hb]
      simp
    · rw [if_neg hb] at e; cases e

theorem putAll_accepts (h : ∀ s b, (K.put s b).1 = true) (s : σ) (bs : List Bytes) : (K.putAll s bs).1 = true := by
  induction bs generalizing s with
  | nil => rfl
  | cons b bs ih => unfold Sink.putAll; rw [if_pos (h s b)]; exact ih _

theorem putAll_dead {dead : σ → Prop} (h1 : ∀ s b, (K.put s b).1 = false → dead (K.put s b).2)
    {s : σ} {bs : List Bytes} (e : (K.putAll s bs).1 = false) : dead (K.putAll s bs).2 := by
  induction bs generalizing s with
  | nil => cases e
  | cons b bs ih =>
    unfold Sink.putAll at e ⊢
    by_cases hb : (K.put s b).1 = true
    · rw [if_pos hb] at e ⊢; exact ih e
    · rw [if_neg hb]; exact h1 s b (by simpa using hb)

/-- `x` offers these pieces and leaves the VM as it is. -/
def Sends (K : Sink σ) (x : T σ) (vm : VM) (bs : List Bytes) : Prop := ∀ s, x s vm = .ok (K.putAll s bs, vm)

theorem Sends.put {vm : VM} {b : Bytes} : Sends K (put K b) vm [b] := by
  intro s
  show Res.ok (K.put s b, vm) = _
  unfold Sink.putAll
  cases h : K.put s b with
  | mk r s' => cases r <;> simp [Sink.putAll]

theorem Sends.done {vm : VM} : Sends K T.done vm [] := fun _ => rfl

/-- One after the other. -/
theorem then_run {x y : T σ} {s : σ} {vm v1 : VM} {r : Bool × σ} (h : x s vm = .ok (r, v1)) :
    (x ⨾ y) s vm = if r.1 then y r.2 v1 else .ok (r, v1) := by
  unfold T.andThen
  rw [M.bind_ok h]
  split <;> rfl

theorem Sends.andThen {x y : T σ} {vm : VM} {as bs : List Bytes} (h1 : Sends K x vm as) (h2 : Sends K y vm bs) :
    Sends K (x ⨾ y) vm (as ++ bs) := by
  intro s
  rw [then_run (h1 s), putAll_append]
  split
  · exact h2 _
  · rfl

theorem Sends.cons {b : Bytes} {y : T σ} {vm : VM} {bs : List Bytes} (h : Sends K y vm bs) :
    Sends K (Save.put K b ⨾ y) vm (b :: bs) := Sends.andThen (as := [b]) .put h

theorem Sends.each {f : α → T σ} {g : α → List Bytes} {vm : VM} {l : List α} (h : ∀ x ∈ l, Sends K (f x) vm (g x)) :
    Sends K (putEach f l) vm (l.flatMap g) := by
  induction l with
  | nil => exact .done
  | cons x l ih =>
    unfold putEach
    rw [List.flatMap_cons]
    exact (h x (by simp)).andThen (ih fun y hy => h y (by simp [hy]))

theorem Sends.string {vm : VM} {s : Bytes} (h : s.length < UINT_MAX) : Sends K (stringTo K s) vm [le32 s.length, s] := by
  unfold stringTo
  rw [if_neg (by omega)]
  exact .cons .put

theorem Sends.get {f : VM → T σ} {vm : VM} {bs : List Bytes} (h : Sends K (f vm) vm bs) :
    Sends K (fun s => do let vm ← get; f vm s) vm bs := by
  intro s
  dsimp only
  rw [M.bind_ok (get_run _)]
  exact h s

theorem flatten_flatMap {f : α → List Bytes} (l : List α) : (l.flatMap f).flatten = l.flatMap fun x => (f x).flatten := by
  induction l with
  | nil => rfl
  | cons x l ih => simp [List.flatMap_cons, ih]

/-! ## Section by section -/

/-- The pieces of the instructions. -/
def instrParts (vm : VM) : List Bytes :=
  le32 (lastWord vm.instrs vm.instrMask) :: le32 vm.instrMask ::
    (vm.instrs.take (lastWord vm.instrs vm.instrMask + 1)).flatMap fun w => [le32 w.toNat]

theorem instrParts_eq (vm : VM) : (instrParts vm).flatten = instrImage vm := by
  simp [instrParts, instrImage, flatten_flatMap]

theorem instrsTo_sends {vm : VM} (hl : vm.instrs.length = vm.instrMask + 1)
    (hp : ∃ k, k ≤ 29 ∧ vm.instrMask + 1 = 2 ^ k) : Sends K (instrsTo K) vm (instrParts vm) := by
  obtain ⟨k, hk, hm⟩ := hp
  have hb : vm.instrMask + 1 ≤ 2 ^ 29 := by rw [hm]; exact Nat.pow_le_pow_right (by omega) hk
  have := lastWord_le vm.instrs vm.instrMask
  intro s
  unfold instrsTo
  rw [M.bind_ok (get_run _), if_neg (by omega)]
  refine Sends.cons (Sends.cons ?_) s
  rw [if_neg (by unfold UINT_MAX; omega), if_neg (by rw [hm, isPow2_pow]; simp), if_neg (by omega)]
  exact .each fun w _ => .put

/-- The pieces of the errors. -/
def errParts (vm : VM) : List Bytes := le32 vm.errors.length :: vm.errors.flatMap fun e => [le32 (cs e).length, cs e]

theorem errParts_eq (vm : VM) : (errParts vm).flatten = errImage vm := by
  simp [errParts, errImage, flatten_flatMap]

theorem errorsTo_sends {vm : VM} (h : ∀ e ∈ vm.errors, ErrText e) : Sends K (errorsTo K) vm (errParts vm) :=
  Sends.get (f := fun vm => Save.put K (le32 vm.errors.length) ⨾ putEach (fun e => stringTo K (cs e)) vm.errors)
    (.cons (.each fun e he => .string (cs_text (h e he)).2))

/-- The pieces of the statics. -/
def staticParts (vm : VM) : List Bytes :=
  [le32 vm.staticMask, (vm.statics.take (vm.staticMask + 1)).flatMap valueBytes]

theorem staticParts_eq (vm : VM) : (staticParts vm).flatten = staticImage vm := by simp [staticParts, staticImage]

theorem staticsTo_sends {vm : VM} (hl : vm.statics.length = vm.staticMask + 1)
    (hp : ∃ k, k ≤ 28 ∧ vm.staticMask + 1 = 2 ^ k) : Sends K (staticsTo K) vm (staticParts vm) := by
  obtain ⟨k, hk, hm⟩ := hp
  have hb : vm.staticMask + 1 ≤ 2 ^ 28 := by rw [hm]; exact Nat.pow_le_pow_right (by omega) hk
  intro s
  unfold staticsTo
  rw [M.bind_ok (get_run _)]
  refine Sends.cons ?_ s
  rw [if_neg (by rw [show u32 (vm.staticMask + 1) = vm.staticMask + 1 from Nat.mod_eq_of_lt (by unfold U32; omega), hm, isPow2_pow]; simp),
    if_neg (by unfold UINT_MAX; omega), if_neg (by omega)]
  exact .put

/-- The pieces of a stack. -/
def stackParts (s : Stack) : List Bytes := [le32 s.size, le32 s.cap, (s.vals.take s.size).flatMap valueBytes]

/-- The pieces of a context. -/
def ctxParts (c : Ctx) (coroutine : Bool) : List Bytes :=
  le32 c.ip :: (stackParts c.stack ++ (if coroutine then [le32 (stateCode c.state)] else []))

theorem ctxParts_eq (c : Ctx) (co : Bool) : (ctxParts c co).flatten = ctxImage c co := by
  cases co <;> simp [ctxParts, ctxImage, stackParts, stackImage]

theorem stackTo_sends {vm : VM} {i : Nat} {c : Ctx} (hc : vm.ctxs[i]? = some (some c)) (h : CtxOK vm c) :
    Sends K (stackTo K i) vm (stackParts c.stack) := by
  obtain ⟨k, -, hk⟩ := h.wf.pow
  have hpos := Nat.two_pow_pos k
  have hm := h.wf.mask
  have hs := h.wf.size
  have hlim := h.limit
  have hlen := h.wf.len
  have hat : ctxAt vm i = .ok c := by simp [ctxAt, hc]
  intro s
  unfold stackTo
  rw [M.bind_ok (get_run _), M.bind_ok (ctx_lift hat)]
  refine Sends.cons (Sends.cons ?_) s
  rw [if_neg (by rw [hk, isPow2_pow]; simp), if_neg (by omega), if_neg (by omega)]
  have hset : setCtx i { c with stack := { c.stack with mask := c.stack.cap - 1 } } vm = .ok ((), vm) := by
    unfold setCtx
    rw [hat]
    dsimp only
    have : c.stack.cap - 1 = c.stack.mask := by omega
    rw [this, set_same hc]
  intro s
  dsimp only
  rw [M.bind_ok hset, if_neg (by omega), if_neg (by omega)]
  exact Sends.put s

theorem contextTo_sends {vm : VM} {i : Nat} {c : Ctx} (hc : vm.ctxs[i]? = some (some c)) (h : CtxOK vm c) (co : Bool) :
    Sends K (contextTo K i co) vm (ctxParts c co) := by
  have hat : ctxAt vm i = .ok c := by simp [ctxAt, hc]
  intro s
  unfold contextTo
  rw [M.bind_ok (get_run _), M.bind_ok (ctx_lift hat)]
  refine Sends.cons (Sends.andThen (stackTo_sends hc h) ?_) s
  cases co
  · exact .done
  · exact .put

/-- The pieces of a string. -/
def strParts (e : Nat × Str) : List Bytes :=
  [le32 e.1, le32 e.2.str.length, e.2.str, le32 e.2.lastGCPass, [if e.2.dontGC then 1 else 0]]

/-- The pieces of the string table. -/
def strsParts (vm : VM) : List Bytes :=
  le32 vm.strings.cap :: le32 (entriesFrom 0 vm.strings.slots).length :: (entriesFrom 0 vm.strings.slots).flatMap strParts

theorem strsParts_eq (vm : VM) : (strsParts vm).flatten = strImage vm := by
  have : ∀ e, (strParts e).flatten = strBytes e := fun e => by simp [strParts, strBytes]
  simp [strsParts, strImage, flatten_flatMap, this]

theorem stringsTo_sends {vm : VM} (hl : vm.strings.slots.length = vm.strings.cap)
    (hp : ∃ k, vm.strings.cap = 2 ^ k) (hs : ∀ e, some e ∈ vm.strings.slots → StrOK e) :
    Sends K (stringsTo K) vm (strsParts vm) := by
  obtain ⟨k, hk⟩ := hp
  intro s
  unfold stringsTo
  rw [M.bind_ok (get_run _)]
  refine Sends.cons ?_ s
  rw [if_neg (by rw [hk, isPow2_pow]; simp)]
  have : liftR (entries vm.strings) vm = .ok (entriesFrom 0 vm.strings.slots, vm) := by rw [entries_run hl]; rfl
  intro s
  dsimp only
  rw [M.bind_ok this]
  refine Sends.cons (.each ?_) s
  rintro ⟨i, e⟩ he
  rw [mem_entriesFrom] at he
  exact .cons (.andThen (as := [_, _]) (.string (hs e (List.mem_of_getElem? he.2)).text.2) (.cons .put))

/-- The pieces of the collector's settings before and after the cap. -/
def gcParts1 (g : GCInfo) : List Bytes := [le32 g.lastGCPass, le32 g.interval]
def gcParts2 (g : GCInfo) : List Bytes := [le32 g.countdown, le32 g.newObjInterval, le32 g.newObjCountdown]

theorem gcParts_eq (g : GCInfo) : (gcParts1 g).flatten ++ (gcParts2 g).flatten = gcImage g := by
  simp [gcParts1, gcParts2, gcImage]

theorem gcTo_run (s : σ) (vm : VM) : gcTo K s vm =
    if (K.putAll s (gcParts1 vm.gc)).1 then
      .ok (K.putAll (K.putAll s (gcParts1 vm.gc)).2 (gcParts2 vm.gc), { vm with gc := capGc vm.gc })
    else .ok (K.putAll s (gcParts1 vm.gc), vm) := by
  unfold gcTo
  rw [M.bind_ok (get_run _)]
  have h2 : Sends K (put K (le32 vm.gc.countdown) ⨾ put K (le32 vm.gc.newObjInterval) ⨾ put K (le32 vm.gc.newObjCountdown))
      { vm with gc := capGc vm.gc } (gcParts2 vm.gc) := .cons (.cons .put)
  have h1 : ∀ y : T σ, (put K (le32 vm.gc.lastGCPass) ⨾ put K (le32 vm.gc.interval) ⨾ y) s vm =
      if (K.putAll s (gcParts1 vm.gc)).1 then y (K.putAll s (gcParts1 vm.gc)).2 vm
      else .ok (K.putAll s (gcParts1 vm.gc), vm) := by
    intro y
    rw [then_run (Sends.put s)]
    unfold gcParts1
    rw [show [le32 vm.gc.lastGCPass, le32 vm.gc.interval] = [le32 vm.gc.lastGCPass] ++ [le32 vm.gc.interval] from rfl,
      putAll_append]
    by_cases h : (K.putAll s [le32 vm.gc.lastGCPass]).1 = true
    · simp only [if_pos h]
      rw [then_run (Sends.put _)]
    · simp only [if_neg h]
  rw [h1]
  split
  · rw [then_run (r := (true, _)) (v1 := { vm with gc := capGc vm.gc }) rfl, if_pos rfl]
    exact h2 _
  · rfl

/-- The pieces of the functions. -/
def funcParts (vm : VM) : List Bytes :=
  le32 vm.extFuncs.length :: ((vm.extFuncs.flatMap fun f => [le32 f.internalId, le32 f.name.length, f.name]) ++
    (le32 vm.functions.length :: vm.functions.flatMap fun f => [le32 f.argc, le32 f.first, le32 f.extId]))

theorem funcParts_eq (vm : VM) : (funcParts vm).flatten = funcImage vm := by
  have h1 : ∀ f : ExtFunc, le32 f.internalId ++ (le32 f.name.length ++ f.name) = nativeBytes f := fun f => rfl
  have h2 : ∀ f : Func, le32 f.argc ++ (le32 f.first ++ le32 f.extId) = funcBytes f := fun f => by simp [funcBytes]
  simp [funcParts, funcImage, flatten_flatMap, h1, h2]

theorem functionsTo_sends {vm : VM} (h : FuncsOK vm) : Sends K (functionsTo K) vm (funcParts vm) := by
  intro s
  unfold functionsTo
  rw [M.bind_ok (get_run _)]
  exact Sends.cons (.andThen (.each fun f hf => .cons (.string (h.name f hf).2))
    (.cons (.each fun f _ => .cons (.cons .put)))) s

/-- The pieces of an object. -/
def objParts (e : Nat × Obj) : List Bytes :=
  le32 e.1 :: le32 e.2.size :: le32 e.2.handleCount :: le32 e.2.lastGCPass :: le32 e.2.extType ::
    e.2.buckets.flatten.flatMap fun p => [valueBytes p.1, valueBytes p.2]

/-- The pieces of the object table. -/
def objsParts (vm : VM) : List Bytes :=
  le32 vm.objects.cap :: le32 (entriesFrom 0 vm.objects.slots).length :: (entriesFrom 0 vm.objects.slots).flatMap objParts

theorem objsParts_eq (vm : VM) : (objsParts vm).flatten = objImage vm := by
  have : ∀ e, (objParts e).flatten = objBytes e := fun e => by simp [objParts, objBytes, flatten_flatMap]
  simp [objsParts, objImage, flatten_flatMap, this]

theorem objectsTo_sends {vm : VM} (hl : vm.objects.slots.length = vm.objects.cap)
    (hp : ∃ k, vm.objects.cap = 2 ^ k) : Sends K (objectsTo K) vm (objsParts vm) := by
  obtain ⟨k, hk⟩ := hp
  intro s
  unfold objectsTo
  rw [M.bind_ok (get_run _)]
  refine Sends.cons ?_ s
  rw [if_neg (by rw [hk, isPow2_pow]; simp)]
  have : liftR (entries vm.objects) vm = .ok (entriesFrom 0 vm.objects.slots, vm) := by rw [entries_run hl]; rfl
  have hle := entriesFrom_length_le (xs := vm.objects.slots) (i := 0)
  intro s
  dsimp only
  rw [M.bind_ok this]
  refine Sends.cons ?_ s
  rw [if_neg (by omega)]
  exact .each fun e _ => .cons (.cons (.cons (.cons (.cons (.each fun p _ => .cons .put)))))

/-- The pieces of the globals. -/
def globalParts (vm : VM) : List Bytes :=
  le32 vm.globals.length :: vm.globals.flatMap fun g => [le32 g.1.length, g.1, le32 g.2]

theorem globalParts_eq (vm : VM) : (globalParts vm).flatten = globalImage vm := by
  simp [globalParts, globalImage, textBytes, flatten_flatMap]

theorem globalsTo_sends {vm : VM} (h : ∀ g ∈ vm.globals, Text g.1) : Sends K (globalsTo K) vm (globalParts vm) := by
  intro s
  unfold globalsTo
  rw [M.bind_ok (get_run _)]
  exact Sends.cons (.each fun e he => .andThen (as := [_, _]) (.string (h e he).2) .put) s

/-- The pieces of the external types. -/
def typeParts (vm : VM) : List Bytes := le32 vm.extTypes.length :: vm.extTypes.flatMap fun t => [le32 t.name.length, t.name]

theorem typeParts_eq (vm : VM) : (typeParts vm).flatten = typeImage vm := by
  simp [typeParts, typeImage, textBytes, flatten_flatMap]

theorem typesTo_sends {vm : VM} (h : TypesOK vm) : Sends K (typesTo K) vm (typeParts vm) := by
  intro s
  unfold typesTo
  rw [M.bind_ok (get_run _)]
  exact Sends.cons (.each fun e he => .string (h.text e he).2) s

/-- The pieces of the subsystems. -/
def subParts (vm : VM) : List Bytes :=
  le32 vm.subsystems.flatten.length :: vm.subsystems.flatten.flatMap fun s => [le32 s.name.length, s.name]

theorem subParts_eq (vm : VM) : (subParts vm).flatten = subImage vm := by
  simp only [subParts, subImage, textBytes, List.flatten_cons, flatten_flatMap, List.flatten_nil, List.append_nil]

theorem subsystemsTo_sends {vm : VM} (h : ∀ s ∈ vm.subsystems.flatten, Text s.name) :
    Sends K (subsystemsTo K) vm (subParts vm) := by
  intro s
  unfold subsystemsTo
  rw [M.bind_ok (get_run _)]
  exact Sends.cons (.each fun e he => .string (h e he).2) s

/-- The pieces of the source files. -/
def fileParts (vm : VM) : List Bytes := le32 vm.sourceFiles.length :: vm.sourceFiles.flatMap fun s => [le32 s.length, s]

theorem fileParts_eq (vm : VM) : (fileParts vm).flatten = fileImage vm := by
  have : ∀ s : Bytes, le32 s.length ++ s = textBytes s := fun _ => rfl
  simp [fileParts, fileImage, flatten_flatMap, this]

theorem filesTo_sends {vm : VM} (h : ∀ s ∈ vm.sourceFiles, Text s) : Sends K (filesTo K) vm (fileParts vm) := by
  intro s
  unfold filesTo
  rw [M.bind_ok (get_run _)]
  exact Sends.cons (.each fun e he => .string (h e he).2) s

/-- The pieces of the position markers. -/
def markerParts (vm : VM) : List Bytes := le32 vm.markers.length :: vm.markers.flatMap fun m => [markerBytes m]

theorem markerParts_eq (vm : VM) : (markerParts vm).flatten = markerImage vm := by
  simp [markerParts, markerImage, flatten_flatMap]

theorem markersTo_sends (vm : VM) : Sends K (markersTo K) vm (markerParts vm) := by
  intro s
  unfold markersTo
  rw [M.bind_ok (get_run _)]
  exact Sends.cons (.each fun m _ => .put) s

/-- The pieces of the chain of running coroutines. -/
def chainParts (vm : VM) (l : List Nat) : List Bytes := l.flatMap fun i => [valueBytes (objOf vm i)]

theorem chainParts_eq (vm : VM) (l : List Nat) : (chainParts vm l).flatten = chainImage vm l := by
  simp [chainParts, chainImage, flatten_flatMap]

theorem chainTo_sends {vm : VM} {l : List Nat} (h : Path vm l) {i : Nat} (hi : l.head? = some i) {n : Nat}
    (hn : l.length ≤ n) : Sends K (chainTo K n i) vm (chainParts vm l) := by
  unfold chainParts
  induction h generalizing n i with
  | @root c h hp ho =>
    simp only [List.head?_cons, Option.some.injEq] at hi
    subst hi
    cases n with
    | zero => simp at hn
    | succ n =>
      have hat : ctxAt vm 0 = .ok c := by simp [ctxAt, h]
      intro s
      unfold chainTo
      rw [M.bind_ok (get_run _), M.bind_ok (ctx_lift hat), hp]
      simp only [List.flatMap_cons, objOf_eq h]
      exact Sends.cons .done s
  | @next i' j l c h hp t ih =>
    simp only [List.head?_cons, Option.some.injEq] at hi
    subst hi
    cases n with
    | zero => simp at hn
    | succ n =>
      have hat : ctxAt vm i' = .ok c := by simp [ctxAt, h]
      intro s
      unfold chainTo
      rw [M.bind_ok (get_run _), M.bind_ok (ctx_lift hat), hp, List.flatMap_cons, objOf_eq h]
      exact Sends.cons (ih rfl (by simpa using hn)) s

theorem activeTo_sends {vm : VM} {l : List Nat} (h : Path vm (vm.cur :: l)) (hn : (vm.cur :: l).Nodup) :
    Sends K (activeTo K) vm (chainParts vm (vm.cur :: l)) := by
  intro s
  unfold activeTo
  rw [M.bind_ok (get_run _)]
  exact chainTo_sends h rfl (h.length_le hn) s

/-! ## External data -/

/-- The error of a coroutine that could not be written. -/
def coMsg : String := "Coroutine serialization failed."

/-- The pieces of the external data of an object. -/
def extParts (vm : VM) (e : Nat × Obj) : List Bytes :=
  if e.2.extType = vm.coType then ctxParts (ctxOf vm e.2) true else []

theorem extParts_eq (vm : VM) (e : Nat × Obj) : (extParts vm e).flatten = extBytes vm e := by
  unfold extParts extBytes
  split
  · exact ctxParts_eq _ _
  · rfl

/-- Offer several lists of pieces, each until one of it is refused: how many lists failed, and the state of the writer. -/
def Sink.groups (K : Sink σ) : σ → List (List Bytes) → Nat × σ
  | s, [] => (0, s)
  | s, g :: gs =>
    ((if (K.putAll s g).1 then 0 else 1) + (groups K (K.putAll s g).2 gs).1, (groups K (K.putAll s g).2 gs).2)

theorem extObjectTo_run {vm : VM} (h : CoOK vm) {id : Nat} {o : Obj} (he : vm.objects.entry id = some o) (s : σ) :
    extObjectTo K (id, o) s vm = .ok ((true, (K.putAll s (extParts vm (id, o))).2),
      if (K.putAll s (extParts vm (id, o))).1 then vm else { vm with errors := vm.errors ++ [coMsg] }) := by
  unfold extObjectTo extParts
  rw [M.bind_ok (get_run _)]
  dsimp only
  obtain ⟨t, ht, hs⟩ := h.serialize
  obtain ⟨t', -, -, -, hu⟩ := h.wf.type
  by_cases hc : o.extType = vm.coType
  · rw [if_pos (by rw [hc]; exact hu), if_pos hc, hc, ht]
    dsimp only
    rw [if_pos ⟨hs, rfl⟩]
    obtain ⟨i, c, hd, -, hi, ho⟩ := h.wf.own id o he hc
    have hctx : ctxOf vm o = c := by unfold ctxOf; rw [hd]; dsimp only; rw [hi]
    unfold coroutineTo coContext
    rw [hd]
    dsimp only
    rw [M.pure_bind, M.bind_ok (contextTo_sends hi (h.ctx i c hi) true s), hctx]
    by_cases hr : (K.putAll s (ctxParts c true)).1 = true
    · simp only [if_pos hr]
      rw [M.bind_ok (coOwner_run hi)]
      unfold setAt
      rw [← ho, set_same hi]
      rfl
    · simp only [if_neg hr]
      have ha : addError "Coroutine serialization failed." vm = .ok ((), { vm with errors := vm.errors ++ [coMsg] }) := rfl
      rw [M.bind_ok ha, M.bind_ok (coOwner_run (v := { vm with errors := vm.errors ++ [coMsg] }) hi)]
      unfold setAt
      dsimp only
      rw [← ho, set_same hi]
      rfl
  · rw [if_neg hc]
    split
    · cases hn : vm.extTypes[o.extType]? with
      | some t =>
        dsimp only
        rw [if_neg (by simp [hc])]; rfl
      | none =>
        rcases h.types id o he with h1 | h1
        · contradiction
        · rw [List.getElem?_eq_none_iff] at hn; omega
    · rfl

theorem CoOK.errors {vm : VM} (h : CoOK vm) (e : List String) : CoOK { vm with errors := e } := by
  refine ⟨⟨h.wf.root, h.wf.stack, h.wf.own, h.wf.owned, h.wf.chain, h.wf.type⟩, ?_, h.serialize, h.types, ?_⟩
  · intro i c hc
    have := h.ctx i c hc
    exact ⟨this.wf, this.limit, this.alloc, this.fits, this.ip⟩
  · intro i c hi ha hc
    refine h.running i c hi ?_ hc
    clear hi hc
    induction ha with
    | cur => exact .cur
    | resumer _ h1 h2 ih => exact .resumer ih h1 h2

theorem extLoop_run {vm : VM} (h : CoOK vm) (l : List (Nat × Obj)) (hl : ∀ e ∈ l, vm.objects.entry e.1 = some e.2)
    (e : List String) (s : σ) :
    putEach (extObjectTo K) l s { vm with errors := e } = .ok ((true, (K.groups s (l.map (extParts vm))).2),
      { vm with errors := e ++ List.replicate (K.groups s (l.map (extParts vm))).1 coMsg }) := by
  induction l generalizing e s with
  | nil => simp [putEach, Sink.groups, T.done]
  | cons x l ih =>
    obtain ⟨id, o⟩ := x
    unfold putEach
    have h1 := extObjectTo_run (K := K) (CoOK.errors h e) (hl (id, o) (.head _)) s
    rw [then_run h1, if_pos rfl]
    have hp : extParts { vm with errors := e } (id, o) = extParts vm (id, o) := rfl
    rw [hp]
    have hg : K.groups s (((id, o) :: l).map (extParts vm)) =
      ((if (K.putAll s (extParts vm (id, o))).1 then 0 else 1) +
        (K.groups (K.putAll s (extParts vm (id, o))).2 (l.map (extParts vm))).1,
        (K.groups (K.putAll s (extParts vm (id, o))).2 (l.map (extParts vm))).2) := rfl
    rw [hg]
    by_cases hr : (K.putAll s (extParts vm (id, o))).1 = true
    · simp only [if_pos hr]
      rw [ih (fun y hy => hl y (.tail _ hy)), Nat.zero_add]
    · simp only [if_neg hr]
      rw [ih (fun y hy => hl y (.tail _ hy)), Nat.add_comm 1, List.replicate_succ, List.append_assoc]
      rfl

theorem extObjectsTo_run {vm : VM} (h : CoOK vm) (hl : vm.objects.slots.length = vm.objects.cap) (s : σ) :
    extObjectsTo K s vm =
      .ok ((true, (K.groups s ((entriesFrom 0 vm.objects.slots).map (extParts vm))).2),
        { vm with errors := vm.errors ++
            List.replicate (K.groups s ((entriesFrom 0 vm.objects.slots).map (extParts vm))).1 coMsg }) := by
  unfold extObjectsTo
  have : liftR (entries vm.objects) vm = .ok (entriesFrom 0 vm.objects.slots, vm) := by rw [entries_run hl]; rfl
  rw [M.bind_ok (get_run _), M.bind_ok this]
  refine extLoop_run h _ ?_ vm.errors s
  rintro ⟨id, o⟩ he
  rw [mem_entriesFrom] at he
  simpa [Table.entry] using congrArg Option.join he.2

theorem groups_log {log : σ → Bytes} (h : Logs K log) {s : σ} {gs : List (List Bytes)} (e : (K.groups s gs).1 = 0) :
    log (K.groups s gs).2 = log s ++ gs.flatten.flatten := by
  induction gs generalizing s with
  | nil => simp [Sink.groups]
  | cons g gs ih =>
    unfold Sink.groups at e ⊢
    dsimp only at e ⊢
    by_cases hg : (K.putAll s g).1 = true
    · rw [ih (by omega), putAll_log h hg]
      simp
    · rw [if_neg hg] at e; omega

theorem groups_accepts (h : ∀ s b, (K.put s b).1 = true) (s : σ) (gs : List (List Bytes)) : (K.groups s gs).1 = 0 := by
  induction gs generalizing s with
  | nil => rfl
  | cons g gs ih => unfold Sink.groups; dsimp only; rw [if_pos (putAll_accepts h _ _), ih]

/-- A dead writer stays dead. -/
theorem putAll_stays {dead : σ → Prop} (h : ∀ s b, dead s → dead (K.put s b).2) {s : σ} (hs : dead s) (bs : List Bytes) :
    dead (K.putAll s bs).2 := by
  induction bs generalizing s with
  | nil => exact hs
  | cons b bs ih =>
    unfold Sink.putAll
    split
    · exact ih (h s b hs)
    · exact h s b hs

theorem groups_stays {dead : σ → Prop} (h : ∀ s b, dead s → dead (K.put s b).2) {s : σ} (hs : dead s)
    (gs : List (List Bytes)) : dead (K.groups s gs).2 := by
  induction gs generalizing s with
  | nil => exact hs
  | cons g gs ih => exact ih (putAll_stays h hs g)

theorem groups_dead {dead : σ → Prop} (h1 : ∀ s b, (K.put s b).1 = false → dead (K.put s b).2)
    (h2 : ∀ s b, dead s → dead (K.put s b).2) {s : σ} {gs : List (List Bytes)} (e : (K.groups s gs).1 ≠ 0) :
    dead (K.groups s gs).2 := by
  induction gs generalizing s with
  | nil => exact (e rfl).elim
  | cons g gs ih =>
    unfold Sink.groups at e ⊢
    dsimp only at e ⊢
    by_cases hg : (K.putAll s g).1 = true
    · rw [if_pos hg] at e; exact ih (by omega)
    · exact groups_stays h2 (putAll_dead h1 (by simpa using hg)) gs

/-! ## The whole -/

/-- The pieces up to the cap of the collection interval. -/
def partsA (vm : VM) : List Bytes :=
  [0, 78, 75, 86, 77] :: le32 5 :: (instrParts vm ++ (errParts vm ++ (staticParts vm ++
    (ctxParts (imageA.ctxAt0 vm) false ++ (strsParts vm ++ gcParts1 vm.gc)))))

/-- The pieces from there up to the external data. -/
def partsB (vm : VM) : List Bytes :=
  gcParts2 vm.gc ++ (funcParts vm ++ (objsParts vm ++ (globalParts vm ++ (typeParts vm ++ subParts vm))))

/-- The pieces after the external data. -/
def partsC (vm : VM) (l : List Nat) : List Bytes := fileParts vm ++ (markerParts vm ++ chainParts vm l)

/-- The external data. -/
def extGroups (vm : VM) : List (List Bytes) := (entriesFrom 0 vm.objects.slots).map (extParts vm)

theorem extGroups_eq (vm : VM) : (extGroups vm).flatten.flatten = extImage vm := by
  unfold extGroups extImage
  rw [← List.flatMap_def, flatten_flatMap]
  simp only [extParts_eq]

theorem parts_eq (vm : VM) (l : List Nat) :
    (partsA vm).flatten ++ ((partsB vm).flatten ++ ((extGroups vm).flatten.flatten ++ (partsC vm l).flatten)) =
      imageA vm ++ imageC vm l := by
  unfold partsA partsB partsC imageA imageB imageC header
  rw [← gcParts_eq]
  simp only [List.flatten_cons, List.flatten_append, instrParts_eq, errParts_eq, staticParts_eq, ctxParts_eq, strsParts_eq,
    funcParts_eq, objsParts_eq, globalParts_eq, typeParts_eq, subParts_eq, fileParts_eq, markerParts_eq, chainParts_eq,
    extGroups_eq, List.append_assoc]

/-- Offer pieces, and go on unless one was refused. -/
def go (K : Sink σ) (as : List Bytes) (y : T σ) : T σ := fun s vm =>
  if (K.putAll s as).1 then y (K.putAll s as).2 vm else .ok (K.putAll s as, vm)

theorem go_then {x y : T σ} {vm : VM} {as : List Bytes} (h : Sends K x vm as) (s : σ) :
    (x ⨾ y) s vm = go K as y s vm := then_run (h s)

theorem go_go (as bs : List Bytes) (y : T σ) : go K as (go K bs y) = go K (as ++ bs) y := by
  funext s vm
  unfold go
  rw [putAll_append]
  by_cases h : (K.putAll s as).1 = true
  · simp only [if_pos h]
  · simp only [if_neg h]

theorem go_congr {as : List Bytes} {y z : T σ} {vm : VM} (h : ∀ s, y s vm = z s vm) (s : σ) :
    go K as y s vm = go K as z s vm := by
  unfold go
  rw [h]

/-- The next section. -/
theorem go_next {x y z : T σ} {vm : VM} {as bs : List Bytes} (h : Sends K x vm as) (hy : ∀ s, y s vm = go K bs z s vm) (s : σ) :
    (x ⨾ y) s vm = go K (as ++ bs) z s vm := by
  rw [go_then h, ← go_go]
  exact go_congr hy s

theorem gcTo_then (y : T σ) (s : σ) (vm : VM) : (gcTo K ⨾ y) s vm =
    go K (gcParts1 vm.gc) (fun s _ => go K (gcParts2 vm.gc) y s { vm with gc := capGc vm.gc }) s vm := by
  have := gcTo_run (K := K) s vm
  unfold go
  by_cases h : (K.putAll s (gcParts1 vm.gc)).1 = true
  · rw [if_pos h] at this ⊢
    rw [then_run this]
  · rw [if_neg h] at this ⊢
    rw [then_run this, if_neg h]

/-- What saving does after the external data. -/
def saveEnd (K : Sink σ) (vm : VM) (l : List Nat) : T σ := fun s _ =>
  .ok (K.putAll (K.groups s (extGroups vm)).2 (partsC vm l),
    { vm with
      gc := capGc vm.gc
      errors := vm.errors ++ List.replicate (K.groups s (extGroups vm)).1 coMsg })

theorem saveTo_run {vm : VM} (h : Saveable vm) {l : List Nat} (hp : Path vm (vm.cur :: l)) (hn : (vm.cur :: l).Nodup)
    (s : σ) : saveTo K s vm =
      go K (partsA vm) (fun s _ => go K (partsB vm) (saveEnd K vm (vm.cur :: l)) s { vm with gc := capGc vm.gc }) s vm := by
  obtain ⟨c, hc, -⟩ := h.heap.co.root
  have hc0 : imageA.ctxAt0 vm = c := by unfold imageA.ctxAt0; rw [hc]
  obtain ⟨ks, -, hks⟩ := h.heap.str.tab.pow
  obtain ⟨ko, -, hko⟩ := h.heap.tab.pow
  have hlate : ∀ e : List String, ∀ {l}, Path vm l → Path { vm with gc := capGc vm.gc, errors := e } l := by
    intro e l hl
    induction hl with
    | root h hp ho => exact .root h hp ho
    | next h hp t ih => exact .next h hp ih
  have hco : CoOK { vm with gc := capGc vm.gc } := by
    refine ⟨⟨h.co.wf.root, h.co.wf.stack, h.co.wf.own, h.co.wf.owned, h.co.wf.chain, h.co.wf.type⟩, ?_, h.co.serialize,
      h.co.types, ?_⟩
    · intro i c hc
      have := h.co.ctx i c hc
      exact ⟨this.wf, this.limit, this.alloc, this.fits, this.ip⟩
    · intro i c hi ha hc
      refine h.co.running i c hi ?_ hc
      clear hi hc
      induction ha with
      | cur => exact .cur
      | resumer _ h1 h2 ih => exact .resumer ih h1 h2
  have hf := h.funcs
  have ht := h.types
  -- the sections after the external data
  have hend : ∀ s, (extObjectsTo K ⨾ filesTo K ⨾ markersTo K ⨾ activeTo K) s { vm with gc := capGc vm.gc } =
      saveEnd K vm (vm.cur :: l) s { vm with gc := capGc vm.gc } := by
    intro s
    rw [then_run (extObjectsTo_run (vm := { vm with gc := capGc vm.gc }) hco h.heap.tab.len s), if_pos rfl]
    exact Sends.andThen (filesTo_sends (vm := { vm with gc := capGc vm.gc, errors := _ }) h.files)
      (Sends.andThen (markersTo_sends _)
        (activeTo_sends (vm := { vm with gc := capGc vm.gc, errors := _ }) (hlate _ hp) hn)) _
  have hB : ∀ s, go K (gcParts2 vm.gc) (functionsTo K ⨾ objectsTo K ⨾ globalsTo K ⨾ typesTo K ⨾ subsystemsTo K ⨾
      extObjectsTo K ⨾ filesTo K ⨾ markersTo K ⨾ activeTo K) s { vm with gc := capGc vm.gc } =
      go K (partsB vm) (saveEnd K vm (vm.cur :: l)) s { vm with gc := capGc vm.gc } := by
    intro s
    unfold partsB
    rw [← go_go]
    refine go_congr ?_ s
    refine go_next (functionsTo_sends (vm := { vm with gc := capGc vm.gc })
      ⟨hf.natives, hf.name, hf.internal, hf.count, hf.some, hf.argc, hf.first, hf.ext⟩) ?_
    refine go_next (objectsTo_sends (vm := { vm with gc := capGc vm.gc }) h.heap.tab.len ⟨ko, hko⟩) ?_
    refine go_next (globalsTo_sends (vm := { vm with gc := capGc vm.gc }) fun g hg => (h.globals g hg).1) ?_
    refine go_next (typesTo_sends (vm := { vm with gc := capGc vm.gc })
      ⟨ht.text, ht.names, ht.count, ht.length, ht.objs⟩) ?_
    intro s
    rw [go_then (subsystemsTo_sends (vm := { vm with gc := capGc vm.gc }) h.subs)]
    exact go_congr hend s
  unfold saveTo partsA
  rw [hc0]
  refine go_next (as := [[0, 78, 75, 86, 77]]) .put (go_next (as := [le32 5]) .put (go_next (instrsTo_sends h.instrLen h.instrPow)
    (go_next (errorsTo_sends h.errors) (go_next (staticsTo_sends h.heap.statics h.staticPow)
    (go_next (contextTo_sends hc (h.co.ctx 0 c hc) false)
    (go_next (stringsTo_sends h.heap.str.tab.len ⟨ks, hks⟩ h.strs) ?_)))))) s
  intro s
  rw [gcTo_then]
  refine go_congr (fun s => ?_) s
  exact hB s

end Nk.Save
