import Verif.Lemmas.SaveLists
/-!
# Reading back coroutines
-/
namespace Nk.Save
variable {α β : Type} {F : FloatOps}

/-- The context of a coroutine object. -/
def ctxOf (vm : VM) (o : Obj) : Ctx :=
  match o.extData with
  | some i => match vm.ctxs[i]? with
    | some (some c) => c
    | _ => Ctx.init
  | none => Ctx.init

/-- The bytes an object adds to the section of external data. -/
def extBytes (vm : VM) (e : Nat × Obj) : Bytes := if e.2.extType = vm.coType then ctxImage (ctxOf vm e.2) true else []

/-- The bytes of the section of external data. -/
def extImage (vm : VM) : Bytes := (entriesFrom 0 vm.objects.slots).flatMap (extBytes vm)

theorem coOwner_run {v : VM} {id i : Nat} {c : Ctx} (h : v.ctxs[i]? = some (some c)) :
    coOwner id i v = .ok ((), setAt v i { c with coObj := .obj id }) := by
  have hat : ctxAt v i = .ok c := by simp [ctxAt, h]
  unfold coOwner
  rw [M.bind_ok (get_run _), M.bind_ok (ctx_lift hat)]
  unfold setCtx
  rw [hat]
  rfl

theorem saveExtObject_writes {vm : VM} (h : CoOK vm) {id : Nat} {o : Obj} (he : vm.objects.entry id = some o) :
    Writes (saveExtObject (id, o)) vm (extBytes vm (id, o)) := by
  unfold saveExtObject Writes extBytes
  rw [M.bind_ok (get_run _)]
  dsimp only
  obtain ⟨t, ht, hs⟩ := h.serialize
  obtain ⟨t', -, -, -, hu⟩ := h.wf.type
  by_cases hc : o.extType = vm.coType
  · rw [if_pos (by rw [hc]; exact hu), if_pos hc, hc, ht]
    dsimp only
    rw [if_pos ⟨hs, rfl⟩]
    obtain ⟨i, c, hd, -, hi, ho⟩ := h.wf.own id o he hc
    have hctx : ctxOf vm o = c := by unfold ctxOf; rw [hd]; dsimp only; rw [hi]
    unfold saveCoroutine coContext
    rw [hd]
    dsimp only
    rw [M.pure_bind, M.bind_ok (saveContext_writes hi (h.ctx i c hi) true), if_pos rfl,
      M.bind_ok (coOwner_run hi), hctx]
    unfold setAt
    rw [← ho, set_same hi]
    rfl
  · rw [if_neg hc]
    split
    · cases hn : vm.extTypes[o.extType]? with
      | some t =>
        dsimp only
        rw [if_neg (by simp [hc])]; rfl
      | none =>
        rcases h.types id o he with h1 | h1
        · contradiction
        · rw [List.getElem?_eq_none_iff] at hn; omega
    · rfl

theorem saveExtObjects_writes {vm : VM} (h : CoOK vm) (hl : vm.objects.slots.length = vm.objects.cap) :
    Writes saveExtObjects vm (extImage vm) := by
  unfold saveExtObjects Writes
  have : liftR (entries vm.objects) vm = .ok (entriesFrom 0 vm.objects.slots, vm) := by rw [entries_run hl]; rfl
  rw [M.bind_ok (get_run _), M.bind_ok this]
  refine Writes.all fun e he => ?_
  obtain ⟨id, o⟩ := e
  rw [mem_entriesFrom] at he
  exact saveExtObject_writes h (by simpa [Table.entry] using congrArg Option.join he.2)

/-! ## Loading the contexts -/

/-- A context as it is after loading. -/
def loadedCtx (id : Nat) (c : Ctx) : Ctx :=
  { stack := loadedStack c.stack, ip := c.ip, parent := none, coObj := .obj id, state := c.state }

/-- The contexts that loading makes for objects. -/
def newCtxs (vm : VM) (i : Nat) : List (Option Obj) → List (Option Ctx)
  | [] => []
  | none :: xs => newCtxs vm (i + 1) xs
  | some o :: xs =>
    if o.extType = vm.coType then some (loadedCtx i (ctxOf vm o)) :: newCtxs vm (i + 1) xs else newCtxs vm (i + 1) xs

/-- The objects that loading makes, with their contexts, of objects without. -/
def place (T n : Nat) : List (Option Obj) → List (Option Obj)
  | [] => []
  | none :: xs => none :: place T n xs
  | some o :: xs =>
    if o.extType = T then some { o with extData := some n } :: place T (n + 1) xs else some o :: place T n xs

/-- The state while external data are loaded. -/
def extState (v : VM) (slots : List (Option Obj)) (cs : List (Option Ctx)) : VM :=
  { v with objects := { v.objects with slots := slots }, ctxs := cs }

theorem setObj_state {v : VM} {pre post : List (Option Obj)} {cs : List (Option Ctx)} {o o' : Obj} :
    setObj pre.length o' (extState v (pre ++ some o :: post) cs) = .ok ((), extState v (pre ++ some o' :: post) cs) := by
  unfold setObj Table.write extState
  dsimp only
  rw [if_pos (by simp)]
  simp

theorem getObj_state {v : VM} {pre post : List (Option Obj)} {cs : List (Option Ctx)} {o : Obj}
    (h : pre.length < v.objects.cap) :
    objFromValue (.obj pre.length) (extState v (pre ++ some o :: post) cs) =
      .ok (some (pre.length, o), extState v (pre ++ some o :: post) cs) := by
  have : getObj pre.length (extState v (pre ++ some o :: post) cs) =
      .ok (some o, extState v (pre ++ some o :: post) cs) := by
    unfold getObj Table.get Table.read extState
    dsimp only
    rw [if_neg (by omega)]
    simp
  unfold objFromValue
  exact (M.bind_ok this).trans rfl

theorem coContext_state {v : VM} {pre post : List (Option Obj)} {cs : List (Option Ctx)} {o : Obj}
    (h : pre.length < v.objects.cap) (ht : o.extType = v.coType) :
    coContext pre.length none (extState v (pre ++ some o :: post) cs) =
      .ok (cs.length, extState v (pre ++ some { o with extData := some cs.length } :: post) (cs ++ [some Ctx.init])) := by
  unfold coContext
  dsimp only
  rw [M.bind_ok (get_run _), M.bind_ok (modify_run _ _)]
  have h1 : setExtData (.obj pre.length) cs.length (extState v (pre ++ some o :: post) (cs ++ [some Ctx.init])) =
      .ok (true, extState v (pre ++ some { o with extData := some cs.length } :: post) (cs ++ [some Ctx.init])) := by
    unfold setExtData
    rw [M.bind_ok (getObj_state h)]
    dsimp only
    rw [M.bind_ok setObj_state]
    rfl
  have h2 : setExtType (.obj pre.length) v.coType (extState v (pre ++ some { o with extData := some cs.length } :: post)
        (cs ++ [some Ctx.init])) =
      .ok (true, extState v (pre ++ some { o with extData := some cs.length } :: post) (cs ++ [some Ctx.init])) := by
    unfold setExtType
    rw [M.bind_ok (getObj_state h)]
    dsimp only
    rw [M.bind_ok setObj_state, ← ht]
    rfl
  refine (M.bind_ok h1).trans ?_
  refine (M.bind_ok h2).trans ?_
  rfl

theorem loadExtObject_run {vm v : VM} {pre post : List (Option Obj)} {cs : List (Option Ctx)} {o : Obj} (h : CoOK vm)
    (he : v.extTypes = vm.extTypes) (hT : v.coType = vm.coType) (hlim : v.limits = vm.limits)
    (hi : pre.length < v.objects.cap) (ho : vm.objects.entry pre.length = some o) (r : Bytes) :
    loadExtObject pre.length (extBytes vm (pre.length, o) ++ r) (extState v (pre ++ some (loadedObj v o) :: post) cs) =
      .ok ((some (), r), extState v
        (pre ++ (place vm.coType cs.length [some (loadedObj v o)]) ++ post) (cs ++ newCtxs vm pre.length [some o])) := by
  obtain ⟨t, ht, hs⟩ := h.serialize
  obtain ⟨t', -, -, -, hu⟩ := h.wf.type
  have hread : ∀ (b : Bytes) (w : VM),
      lift (liftR ((extState v (pre ++ some (loadedObj v o) :: post) cs).objects.read pre.length)) b w =
        .ok ((some (some (loadedObj v o)), b), w) := by
    intro b w
    have : (extState v (pre ++ some (loadedObj v o) :: post) cs).objects.read pre.length = .ok (some (loadedObj v o)) := by
      simp [Table.read, extState]
    rw [this]; rfl
  have hty : (loadedObj v o).extType = o.extType := rfl
  unfold loadExtObject
  rw [L.bind_some (get_lift _ _), L.bind_some (hread _ _)]
  dsimp only
  simp only [place, newCtxs, hty]
  have hex : (extState v (pre ++ some (loadedObj v o) :: post) cs).extTypes = vm.extTypes := he
  have hco : (extState v (pre ++ some (loadedObj v o) :: post) cs).coType = vm.coType := hT
  rw [hex, hco]
  unfold extBytes
  dsimp only
  by_cases hc : o.extType = vm.coType
  · rw [if_pos (by rw [hc]; exact hu), if_pos hc, if_pos hc, if_pos hc, hc, ht]
    dsimp only
    rw [if_pos ⟨hs, rfl⟩]
    obtain ⟨i, c, hd, -, hic, -⟩ := h.wf.own pre.length o ho hc
    have hctx : ctxOf vm o = c := by unfold ctxOf; rw [hd]; dsimp only; rw [hic]
    rw [hctx]
    unfold loadCoroutine
    have hnone : (loadedObj v o).extData = none := rfl
    rw [hnone, L.bind_some (lift_run (coContext_state hi (hty.trans (hc.trans hT.symm))))]
    have hget : (extState v (pre ++ some { loadedObj v o with extData := some cs.length } :: post)
        (cs ++ [some Ctx.init])).ctxs[cs.length]? = some (some Ctx.init) := by simp [extState]
    have key := loadContext_run (h.ctx i c hic) (v := extState v
        (pre ++ some { loadedObj v o with extData := some cs.length } :: post) (cs ++ [some Ctx.init])) hlim
      hget (by decide) true r
    rw [L.bind_some (attempt_run key)]
    dsimp only [Option.isSome]
    rw [if_pos rfl]
    rw [lift_run (coOwner_run (setAt_get hget)), setAt_setAt]
    congr 2
    unfold setAt extState loadedCtx
    simp [Ctx.init, hty, hc]
  · rw [if_neg hc, if_neg hc, if_neg hc]
    simp only [List.nil_append, List.append_nil, List.append_assoc, List.singleton_append]
    split
    · cases hn : vm.extTypes[o.extType]? with
      | some t =>
        dsimp only
        rw [if_neg (by simp [hc])]; rfl
      | none =>
        rcases h.types pre.length o ho with h1 | h1
        · contradiction
        · rw [List.getElem?_eq_none_iff] at hn; omega
    · rfl

theorem place_append (T n : Nat) (xs : List (Option Obj)) (o : Option Obj) :
    place T n (o :: xs) = place T n [o] ++
      place T (n + (if ∃ x, o = some x ∧ x.extType = T then 1 else 0)) xs := by
  cases o with
  | none => simp [place]
  | some o => by_cases h : o.extType = T <;> simp [place, h]

theorem newCtxs_append (vm : VM) (i : Nat) (xs : List (Option Obj)) (o : Option Obj) :
    newCtxs vm i (o :: xs) = newCtxs vm i [o] ++ newCtxs vm (i + 1) xs := by
  cases o with
  | none => simp [newCtxs]
  | some o => by_cases h : o.extType = vm.coType <;> simp [newCtxs, h]

theorem newCtxs_length (vm : VM) (i : Nat) (o : Option Obj) :
    (newCtxs vm i [o]).length = if ∃ x, o = some x ∧ x.extType = vm.coType then 1 else 0 := by
  cases o with
  | none => simp [newCtxs]
  | some o => by_cases h : o.extType = vm.coType <;> simp [newCtxs, h]

theorem loadExtLoop_run {vm v : VM} (h : CoOK vm) (he : v.extTypes = vm.extTypes) (hT : v.coType = vm.coType)
    (hlim : v.limits = vm.limits) (r : Bytes) (xs : List (Option Obj)) :
    ∀ (pre : List (Option Obj)) (cs : List (Option Ctx)), pre.length + xs.length ≤ v.objects.cap →
    (∀ k o, xs[k]? = some (some o) → vm.objects.entry (pre.length + k) = some o) →
    times loadExtObject pre.length xs.length ((entriesFrom pre.length xs).flatMap (extBytes vm) ++ r)
      (extState v (pre ++ xs.map (·.map (loadedObj v))) cs) =
      .ok ((some (), r), extState v (pre ++ place vm.coType cs.length (xs.map (·.map (loadedObj v))))
        (cs ++ newCtxs vm pre.length xs)) := by
  induction xs with
  | nil => intro pre cs _ _; simp [entriesFrom, times, place, newCtxs]; rfl
  | cons o xs ih =>
    intro pre cs hlen hx
    have hlen' : pre.length + (xs.length + 1) ≤ v.objects.cap := hlen
    have hrest : ∀ (o' : Option Obj), ∀ k o, xs[k]? = some (some o) →
        vm.objects.entry ((pre ++ [o']).length + k) = some o := by
      intro o' k o hk
      have := hx (k + 1) o hk
      rw [List.length_append, List.length_singleton, Nat.add_assoc, Nat.add_comm 1 k]
      exact this
    rw [List.length_cons]
    unfold times
    cases o with
    | none =>
      rw [entriesFrom]
      have hstep : loadExtObject pre.length ((entriesFrom (pre.length + 1) xs).flatMap (extBytes vm) ++ r)
          (extState v (pre ++ (none :: xs).map (·.map (loadedObj v))) cs) =
          .ok ((some (), (entriesFrom (pre.length + 1) xs).flatMap (extBytes vm) ++ r),
            extState v (pre ++ (none :: xs).map (·.map (loadedObj v))) cs) := by
        unfold loadExtObject
        have hread : ∀ (b : Bytes) (w : VM),
            lift (liftR ((extState v (pre ++ (none :: xs).map (·.map (loadedObj v))) cs).objects.read pre.length)) b w =
              .ok ((some none, b), w) := by
          intro b w
          have : (extState v (pre ++ (none :: xs).map (·.map (loadedObj v))) cs).objects.read pre.length = .ok none := by
            simp [Table.read, extState]
          rw [this]; rfl
        rw [L.bind_some (get_lift _ _), L.bind_some (hread _ _)]
        rfl
      rw [L.bind_some hstep]
      have := ih (pre ++ [none]) cs (by simp; omega) (hrest none)
      simp only [List.length_append, List.length_cons, List.length_nil, List.append_assoc, List.singleton_append,
        Nat.zero_add] at this
      exact this
    | some o =>
      rw [entriesFrom, List.flatMap_cons, List.append_assoc]
      have ho := hx 0 o rfl
      rw [Nat.add_zero] at ho
      have step := loadExtObject_run (v := v) (post := xs.map (·.map (loadedObj v))) (cs := cs) h he hT hlim (by omega) ho
        ((entriesFrom (pre.length + 1) xs).flatMap (extBytes vm) ++ r)
      refine (L.bind_some step).trans ?_
      obtain ⟨y, hy⟩ : ∃ y, place vm.coType cs.length [some (loadedObj v o)] = [y] := by
        by_cases hc : o.extType = vm.coType
        · exact ⟨_, by simp [place, loadedObj, hc]; rfl⟩
        · exact ⟨_, by simp [place, loadedObj, hc]; rfl⟩
      have := ih (pre ++ [y]) (cs ++ newCtxs vm pre.length [some o]) (by simp; omega) (hrest y)
      rw [hy]
      rw [List.length_append, List.length_singleton] at this
      refine this.trans ?_
      rw [List.map_cons, place_append, newCtxs_append vm pre.length xs, List.length_append, newCtxs_length]
      simp only [Option.map_some, hy, List.append_assoc]
      have : (∃ x, some (loadedObj v o) = some x ∧ x.extType = vm.coType) ↔ ∃ x, some o = some x ∧ x.extType = vm.coType := by
        constructor
        · rintro ⟨x, h1, h⟩; cases h1; exact ⟨o, rfl, h⟩
        · rintro ⟨x, h1, h⟩; cases h1; exact ⟨_, rfl, h⟩
      simp only [this]

/-- The VM after its external data were loaded. -/
def extLoaded (vm v : VM) : VM :=
  { v with
    objects := { v.objects with slots := place vm.coType v.ctxs.length v.objects.slots }
    ctxs := v.ctxs ++ newCtxs vm 0 vm.objects.slots }

theorem loadExtObjects_run {vm v w : VM} (h : CoOK vm) (he : v.extTypes = vm.extTypes) (hT : v.coType = vm.coType)
    (hlim : v.limits = vm.limits) (hl : vm.objects.slots.length = vm.objects.cap)
    (hs : v.objects.slots = vm.objects.slots.map (·.map (loadedObj w))) (hw : w.strings = v.strings)
    (hc : v.objects.cap = vm.objects.cap) (r : Bytes) :
    loadExtObjects (extImage vm ++ r) v = .ok ((some (), r), extLoaded vm v) := by
  unfold loadExtObjects extImage
  rw [L.bind_some (get_lift _ _), hc, ← hl]
  have hlo : loadedObj w = loadedObj v := by
    funext o
    unfold loadedObj
    have : (fun p : Value × Value => slot w p.1) = fun p => slot v p.1 := funext fun p => slot_congr hw _
    rw [this]
  rw [hlo] at hs
  have key := loadExtLoop_run (v := v) h he hT hlim r vm.objects.slots [] v.ctxs (by simp; omega)
    (fun k o hk => by simp [Table.entry, hk])
  simp only [List.nil_append, List.length_nil] at key
  rw [← hs] at key
  exact key

/-! ## Where things are -/

/-- How many coroutines there are in a list. -/
def count (T : Nat) : List (Option Obj) → Nat
  | [] => 0
  | none :: xs => count T xs
  | some o :: xs => (if o.extType = T then 1 else 0) + count T xs

theorem place_length (T n : Nat) (xs : List (Option Obj)) : (place T n xs).length = xs.length := by
  induction xs generalizing n with
  | nil => rfl
  | cons o xs ih =>
    cases o with
    | none => simp [place, ih]
    | some o => by_cases h : o.extType = T <;> simp [place, h, ih]

theorem place_get (T n : Nat) (xs : List (Option Obj)) (k : Nat) :
    (place T n xs)[k]? = xs[k]?.map (·.map fun o =>
      if o.extType = T then { o with extData := some (n + count T (xs.take k)) } else o) := by
  induction xs generalizing n k with
  | nil => rfl
  | cons o xs ih =>
    cases k with
    | zero =>
      cases o with
      | none => rfl
      | some o => by_cases h : o.extType = T <;> simp [place, h, count]
    | succ k =>
      cases o with
      | none => simp [place, ih, count]
      | some o =>
        by_cases h : o.extType = T
        · simp [place, h, ih, count, Nat.add_assoc]
        · simp [place, h, ih, count]

theorem newCtxs_get {vm : VM} {xs : List (Option Obj)} {i k : Nat} {o : Obj} (h : xs[k]? = some (some o))
    (hT : o.extType = vm.coType) :
    (newCtxs vm i xs)[count vm.coType (xs.take k)]? = some (some (loadedCtx (i + k) (ctxOf vm o))) := by
  induction xs generalizing i k with
  | nil => simp at h
  | cons x xs ih =>
    cases k with
    | zero => cases h; simp [newCtxs, hT, count]
    | succ k =>
      have h' : xs[k]? = some (some o) := h
      have := ih (i := i + 1) h'
      cases x with
      | none => simpa [newCtxs, count, Nat.add_comm 1 k, Nat.add_assoc] using this
      | some x =>
        by_cases hx : x.extType = vm.coType
        · simpa [newCtxs, count, hx, Nat.add_comm 1 k, Nat.add_assoc, Nat.add_comm 1 (count _ _)] using this
        · simpa [newCtxs, count, hx, Nat.add_comm 1 k, Nat.add_assoc] using this

/-- Every new context belongs to a coroutine. -/
theorem newCtxs_inv {vm : VM} {xs : List (Option Obj)} {i n : Nat} {c : Option Ctx} (h : (newCtxs vm i xs)[n]? = some c) :
    ∃ k o, xs[k]? = some (some o) ∧ o.extType = vm.coType ∧ n = count vm.coType (xs.take k) ∧
      c = some (loadedCtx (i + k) (ctxOf vm o)) := by
  induction xs generalizing i n with
  | nil => simp [newCtxs] at h
  | cons x xs ih =>
    cases x with
    | none =>
      obtain ⟨k, o, h1, h2, h3, h4⟩ := ih (i := i + 1) (n := n) h
      exact ⟨k + 1, o, h1, h2, by simpa [count] using h3, by rw [h4, Nat.add_assoc, Nat.add_comm 1 k]⟩
    | some x =>
      by_cases hx : x.extType = vm.coType
      · rw [newCtxs, if_pos hx] at h
        cases n with
        | zero => exact ⟨0, x, rfl, hx, rfl, by simpa using h.symm⟩
        | succ n =>
          obtain ⟨k, o, h1, h2, h3, h4⟩ := ih (i := i + 1) (n := n) h
          exact ⟨k + 1, o, h1, h2, by simp [count, hx]; omega, by rw [h4, Nat.add_assoc, Nat.add_comm 1 k]⟩
      · rw [newCtxs, if_neg hx] at h
        obtain ⟨k, o, h1, h2, h3, h4⟩ := ih (i := i + 1) (n := n) h
        exact ⟨k + 1, o, h1, h2, by simpa [count, hx] using h3, by rw [h4, Nat.add_assoc, Nat.add_comm 1 k]⟩

theorem count_lt {T : Nat} {xs : List (Option Obj)} {j k : Nat} {o : Obj} (h : xs[j]? = some (some o)) (hT : o.extType = T)
    (hjk : j < k) : count T (xs.take j) < count T (xs.take k) := by
  induction xs generalizing j k with
  | nil => simp at h
  | cons x xs ih =>
    cases k with
    | zero => omega
    | succ k =>
      cases j with
      | zero => cases h; simp [count, hT]
      | succ j =>
        have := ih (j := j) (k := k) h (by omega)
        cases x with
        | none => simpa [count] using this
        | some x => simpa [count] using this

end Nk.Save
