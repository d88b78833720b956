import Verif.Lemmas.Exec
import Verif.Spec.Calls
/-!
# Lemmas about calls and returns
-/
namespace Nk

variable (F : FloatOps) (H : Host)

theorem usub_eq {a b : Nat} (h : b ≤ a) (ha : a < 4294967296) : usub a b = a - b := by
  unfold usub u32 U32; omega

theorem u32_id {a : Nat} (h : a < 4294967296) : u32 a = a := Nat.mod_eq_of_lt h

theorem VM.Stk.small {vm : VM} {c : Ctx} {l : List Value} (h : vm.Stk c l) : l.length ≤ 2147483648 := by
  have := h.size; have := h.wf.size; have := h.wf.capLe; omega

theorem popN_app {vm : VM} {c : Ctx} {l xs : List Value} (h : vm.Stk c (l ++ xs)) :
    ∃ s', popN xs.length vm = .ok ((), vm.setC { c with stack := s' }) ∧
      (vm.setC { c with stack := s' }).Stk { c with stack := s' } l := by
  obtain ⟨h1, h2⟩ := popN_ok h (n := xs.length) (by simp)
  refine ⟨_, h1, ?_⟩
  have : (l ++ xs).take ((l ++ xs).length - xs.length) = l := by simp
  rwa [this] at h2

/-- The start of a call of a function value: the operands are read and nothing is changed. -/
theorem opCall_fn {vm : VM} {c : Ctx} {l args : List Value} {id : Nat} {n : BitVec 32}
    (hs : vm.Stk c (l ++ [.fn id] ++ args ++ [.int n])) (hn : n.toNat = args.length) :
    opCall F H vm = (match vm.functions[id]? with
    | none => addError "Bad function id."
    | some f =>
      if f.argc ≠ UINT_MAX ∧ f.argc ≠ args.length then
        addError "Incorrect argument count for function call."
      else if f.extId ≠ UINT_MAX then callNative H f.extId args.length
      else do
        let c ← curCtx
        pushInt (BitVec.ofNat 32 c.ip)
        modCur fun c => { c with ip := usub f.first 1 }) vm := by
  have hlen := hs.size
  have hsm := hs.small
  simp only [List.length_append, List.length_cons, List.length_nil] at hlen hsm
  unfold opCall
  have e1 : usub c.stack.size 1 = l.length + 1 + args.length := by rw [usub_eq (by omega) (by omega)]; omega
  have e2 : usub c.stack.size (u32 (n.toNat + 2)) = l.length := by
    rw [u32_id (by omega), usub_eq (by omega) (by omega)]; omega
  have p1 : peek (usub c.stack.size 1) vm = .ok (.int n, vm) := by
    refine peek_used hs ?_
    rw [e1, show l.length + 1 + args.length = (l ++ [Value.fn id] ++ args).length by simp; omega,
      List.getElem?_append_right (Nat.le_refl _), Nat.sub_self]
    rfl
  have p2 : peek (usub c.stack.size (u32 (n.toNat + 2))) vm = .ok (.fn id, vm) := by
    refine peek_used hs ?_
    rw [e2]; simp
  rw [M.bind_ok (curStack_at hs.at_), M.bind_ok p1]
  have hv : valueToInt (.int n) vm = .ok (n, vm) := rfl
  rw [M.bind_ok hv, M.bind_ok p2]
  have hr : resolveCallable F 10 n.toNat (.fn id) vm = .ok (some (some (.fn id), n.toNat), vm) := rfl
  rw [M.bind_ok hr]
  dsimp only
  rw [M.bind_ok (get_run vm), hn]
  cases vm.functions[id]? <;> rfl

/-- Calling a script function pushes the return address and goes to its first instruction. -/
theorem call_script {vm : VM} {c : Ctx} {l args : List Value} {id : Nat} {n : BitVec 32} {f : Func}
    (hs : vm.Stk c (l ++ [.fn id] ++ args ++ [.int n])) (hn : n.toNat = args.length)
    (hf : vm.functions[id]? = some f) (he : f.extId = UINT_MAX) (ha : f.argc = UINT_MAX ∨ f.argc = args.length)
    (hr : Room vm c.stack) (hfi : f.first < 4294967296) :
    ∃ s', execute F H 18 vm = .ok ((), vm.setC { c with stack := s', ip := f.first }) ∧
      (vm.setC { c with stack := s', ip := f.first }).Stk { c with stack := s', ip := f.first }
        (l ++ [.fn id] ++ args ++ [.int n, .int (BitVec.ofNat 32 c.ip)]) := by
  obtain ⟨s', h1, h2, _⟩ := push_room hs hr (.int (BitVec.ofNat 32 c.ip))
  have hop : dispatch F H 18 vm = .ok ((), vm.setC { c with stack := s', ip := usub f.first 1 }) := by
    show opCall F H vm = _
    rw [opCall_fn F H hs hn, hf]
    dsimp only
    rw [if_neg (by rintro ⟨h1, h2⟩; rcases ha with h | h <;> contradiction), if_neg (fun h => h he)]
    rw [M.bind_ok (curCtx_at hs.at_)]
    have : pushInt (BitVec.ofNat 32 c.ip) vm = .ok ((), vm.setC { c with stack := s' }) := h1
    rw [M.bind_ok this, modCur_at h2.at_, VM.setC_setC]
  refine ⟨s', ?_, (hs.at_).setC _, h2.wf, ?_⟩
  · unfold execute
    rw [M.bind_ok hop, modCur_at (hs.at_.setC _), VM.setC_setC]
    dsimp only
    rw [u32_usub_one hfi]
  · have := h2.used
    simpa using this

/-- Popping the frame of a call. -/
theorem opReturn_frame {vm : VM} {c : Ctx} {l args locals : List Value} {fv rv : Value} {n k ra : BitVec 32}
    (hs : vm.Stk c (l ++ [fv] ++ args ++ [.int n, .int ra] ++ locals ++ [rv, .int k]))
    (hn : n.toNat = args.length) (hk : k.toNat = locals.length) :
    ∃ s, opReturn vm = (if ra.toNat = UINT_MAX then do
        modCur fun c => { c with state := .finished, ip := UINT_MAX }
        popContext
        push rv
      else do
        push rv
        modCur fun c => { c with ip := ra.toNat }) (vm.setC { c with stack := s }) ∧
      (vm.setC { c with stack := s }).Stk { c with stack := s } l ∧ s.size < s.cap := by
  have hs' : vm.Stk c (((l ++ [fv] ++ args ++ [.int n] ++ [.int ra] ++ locals) ++ [rv]) ++ [.int k]) := by
    simpa using hs
  obtain ⟨s1, a1, a2, -⟩ := pop_cons hs'
  obtain ⟨s2, b1, b2, -⟩ := pop_cons a2
  obtain ⟨s3, c1, c2⟩ := popN_app b2
  obtain ⟨s4, d1, d2, -⟩ := pop_cons c2
  obtain ⟨s5, e1, e2, -⟩ := pop_cons d2
  obtain ⟨s6, f1, f2⟩ := popN_app e2
  obtain ⟨s7, g1, g2, g3⟩ := pop_cons f2
  have hv : ∀ (i : BitVec 32) (v : VM), valueToInt (.int i) v = .ok (i, v) := fun _ _ => rfl
  simp only [VM.setC_setC] at b1 b2 c1 c2 d1 d2 e1 e2 f1 f2 g1 g2
  refine ⟨s7, ?_, g2, ?_⟩
  · unfold opReturn
    rw [M.bind_ok a1, M.bind_ok b1, M.bind_ok (hv _ _), hk, M.bind_ok c1, M.bind_ok d1, M.bind_ok (hv _ _),
      M.bind_ok e1, M.bind_ok (hv _ _), hn, M.bind_ok f1, M.bind_ok g1]
  · have h1 := f2.size
    have h2 := f2.wf.size
    rw [g3]
    simp at h1 h2 ⊢
    omega

/-! ## Native functions -/

theorem peek_same {i : Nat} {vm vm' : VM} {v : Value} (e : peek i vm = .ok (v, vm')) : vm' = vm := by
  have : Pres (fun w => w = vm) (peek i) :=
    Pres.bind (Pres.bind .curStack fun _ => .pure) fun _ => Pres.bind .curStack fun s => by
      split
      · exact .pure
      · exact .lift
  exact this.run vm v vm' rfl e

theorem copyArgs_run {vm : VM} {c : Ctx} {l args r : List Value} (base : Nat) :
    ∀ (args pre : List Value) (i : Nat), vm.Stk c (pre ++ args ++ r) → pre.length = base + i →
    copyArgs base i args.length vm = .ok (args, vm)
  | [], _, _, _, _ => rfl
  | a :: as, pre, i, hs, hi => by
    have hsm := hs.small
    simp only [List.length_append, List.length_cons] at hsm
    have hp : peek (u32 (base + i)) vm = .ok (a, vm) := by
      refine peek_used hs ?_
      rw [u32_id (by omega), ← hi]
      simp
    rw [List.length_cons, copyArgs, M.bind_ok hp]
    have ih := copyArgs_run (l := l) (args := args) base as (pre ++ [a]) (i + 1) (by simpa using hs) (by simp; omega)
    rw [M.bind_ok ih]
    rfl

theorem M.congr {α β : Type} (m : M α) {f g : α → M β} (h : ∀ a v, f a v = g a v) {vm : VM} : (m >>= f) vm = (m >>= g) vm := by
  rw [M.bind_eq, M.bind_eq]
  cases m vm with
  | ub k => rfl
  | ok p => exact h p.1 p.2

theorem copyArgs_same {base : Nat} {vm vm' : VM} : ∀ {n i : Nat} {args : List Value},
    copyArgs base i n vm = .ok (args, vm') → vm' = vm ∧ args.length = n
  | 0, _, _, e => by cases e; exact ⟨rfl, rfl⟩
  | n + 1, i, args, e => by
    rw [copyArgs, M.bind_eq] at e
    cases hp : peek (u32 (base + i)) vm with
    | ub k => rw [hp] at e; cases e
    | ok p =>
      obtain ⟨v, w⟩ := p
      rw [hp] at e
      dsimp only at e
      have hw := peek_same hp
      subst hw
      rw [M.bind_eq] at e
      cases hc : copyArgs base (i + 1) n w with
      | ub k => rw [hc] at e; cases e
      | ok q =>
        obtain ⟨as, w'⟩ := q
        rw [hc] at e
        cases e
        obtain ⟨h1, h2⟩ := copyArgs_same hc
        exact ⟨h1, by rw [List.length_cons, h2]⟩

/-- The type checks succeed only if the arguments fit. -/
theorem checkArgs_true {f : ExtFunc} {vm vm' : VM} : ∀ {args : List Value} {i : Nat},
    checkArgs f i args vm = .ok (true, vm') → vm' = vm ∧ ∀ j v, args[j]? = some v → Fits vm f (i + j) v
  | [], i, e => by cases e; exact ⟨rfl, nofun⟩
  | a :: as, i, e => by
    have step : ∀ {vm'}, Fits vm f i a → checkArgs f (i + 1) as vm = .ok (true, vm') →
        vm' = vm ∧ ∀ j v, (a :: as)[j]? = some v → Fits vm f (i + j) v := by
      intro vm' hf e
      obtain ⟨h1, h2⟩ := checkArgs_true e
      refine ⟨h1, fun j v hj => ?_⟩
      cases j with
      | zero => cases hj; exact hf
      | succ j => have := h2 j v hj; rwa [show i + 1 + j = i + (j + 1) by omega] at this
    rw [checkArgs] at e
    cases ht : f.argTypes[i]? with
    | none => rw [ht] at e; cases e
    | some t =>
      simp only [ht] at e
      by_cases h5 : t = 5
      · rw [if_pos h5] at e
        exact step ⟨t, ht, .inl h5⟩ e
      rw [if_neg h5] at e
      by_cases hty : t = a.ty
      · rw [if_neg (fun h => h hty)] at e
        by_cases h4 : t = 4
        · rw [if_pos h4] at e
          cases hx : f.argExtTypes[i]? with
          | none => rw [hx] at e; cases e
          | some x =>
            simp only [hx] at e
            cases ho : getObj a.raw vm with
            | ub k => rw [M.bind_ub ho] at e; cases e
            | ok p =>
              obtain ⟨o, v⟩ := p
              rw [M.bind_ok ho] at e
              have hv : v = vm ∧ vm.objects.get a.raw = .ok o := by
                unfold getObj at ho
                split at ho <;> cases ho
                exact ⟨rfl, by assumption⟩
              obtain ⟨rfl, hg⟩ := hv
              cases o with
              | none => dsimp only at e; rw [M.bind_ok (addError_run _ _)] at e; cases e
              | some o =>
                dsimp only at e
                by_cases hc : x ≠ UINT_MAX ∧ x ≠ o.extType
                · rw [if_pos hc, M.bind_ok (addError_run _ _)] at e; cases e
                · rw [if_neg hc] at e
                  refine step ⟨t, ht, .inr ⟨hty.symm, fun _ => ⟨x, o, hx, ?_, ?_⟩⟩⟩ e
                  · unfold Table.get Table.read at hg
                    split at hg
                    · cases hg
                    · unfold Table.entry
                      split at hg <;> cases hg
                      rename_i h; rw [h]; rfl
                  · by_cases h : x = UINT_MAX
                    · exact .inl h
                    · exact .inr (by by_contra hne; exact hc ⟨h, hne⟩)
        · rw [if_neg h4] at e
          exact step ⟨t, ht, .inr ⟨hty.symm, fun h => absurd h h4⟩⟩ e
      · rw [if_pos hty, M.bind_ok (addError_run _ _)] at e; cases e

/-- The type checks decide whether the arguments fit, and record an error if they do not. -/
theorem checkArgs_run {f : ExtFunc} {vm : VM} (hw : vm.objects.WF) : ∀ {args : List Value} {i : Nat},
    i + args.length ≤ f.argTypes.length → i + args.length ≤ f.argExtTypes.length →
    ((∀ j v, args[j]? = some v → Fits vm f (i + j) v) ∧ checkArgs f i args vm = .ok (true, vm)) ∨
    ((¬ ∀ j v, args[j]? = some v → Fits vm f (i + j) v) ∧
      ∃ e, checkArgs f i args vm = .ok (false, vm.addErr e))
  | [], i, _, _ => .inl ⟨nofun, rfl⟩
  | a :: as, i, h1, h2 => by
    simp only [List.length_cons] at h1 h2
    have bad : ∀ {e : String}, ¬ Fits vm f i a → checkArgs f i (a :: as) vm = .ok (false, vm.addErr e) →
        (¬ ∀ j v, (a :: as)[j]? = some v → Fits vm f (i + j) v) ∧
          ∃ e, checkArgs f i (a :: as) vm = .ok (false, vm.addErr e) :=
      fun hf e => ⟨fun h => hf (h 0 a rfl), _, e⟩
    have step : Fits vm f i a → checkArgs f i (a :: as) vm = checkArgs f (i + 1) as vm →
        ((∀ j v, (a :: as)[j]? = some v → Fits vm f (i + j) v) ∧ checkArgs f i (a :: as) vm = .ok (true, vm)) ∨
        ((¬ ∀ j v, (a :: as)[j]? = some v → Fits vm f (i + j) v) ∧
          ∃ e, checkArgs f i (a :: as) vm = .ok (false, vm.addErr e)) := by
      intro hf he
      rcases checkArgs_run hw (f := f) (args := as) (i := i + 1) (by omega) (by omega) with ⟨g1, g2⟩ | ⟨g1, e, g2⟩
      · refine .inl ⟨fun j v hj => ?_, he.trans g2⟩
        cases j with
        | zero => cases hj; exact hf
        | succ j => have := g1 j v hj; rwa [show i + 1 + j = i + (j + 1) by omega] at this
      · refine .inr ⟨fun h => g1 fun j v hj => ?_, e, he.trans g2⟩
        have := h (j + 1) v hj
        rwa [show i + (j + 1) = i + 1 + j by omega] at this
    have ht : f.argTypes[i]? = some f.argTypes[i] := List.getElem?_eq_getElem (by omega)
    have hx : f.argExtTypes[i]? = some f.argExtTypes[i] := List.getElem?_eq_getElem (by omega)
    have hfit : ∀ {P : Prop}, Fits vm f i a → (∀ t, f.argTypes[i]? = some t → (t = 5 ∨ (a.ty = t ∧ (t = 4 →
        ∃ e o, f.argExtTypes[i]? = some e ∧ vm.objects.entry a.raw = some o ∧ (e = UINT_MAX ∨ e = o.extType)))) → P) → P :=
      fun ⟨t, a1, a2⟩ h => h t a1 a2
    generalize f.argTypes[i] = t at ht
    generalize f.argExtTypes[i] = x at hx
    by_cases h5 : t = 5
    · refine step ⟨t, ht, .inl h5⟩ ?_
      rw [checkArgs, ht]; dsimp only; rw [if_pos h5]
    by_cases hty : t = a.ty
    · by_cases h4 : t = 4
      · have hg := getObj_run hw a.raw
        cases ho : vm.objects.entry a.raw with
        | none =>
          rw [ho] at hg
          refine .inr (bad (e := "Bad object ID passed to external function.") ?_ ?_)
          · intro hf
            refine hfit hf fun t' e1 e2 => ?_
            rw [ht] at e1; cases e1
            rcases e2 with e2 | ⟨_, e2⟩
            · exact h5 e2
            · obtain ⟨_, o, _, e3, _⟩ := e2 h4
              rw [ho] at e3; cases e3
          · rw [checkArgs, ht]; dsimp only
            rw [if_neg h5, if_neg (fun h => h hty), if_pos h4, hx]
            dsimp only
            rw [M.bind_ok hg]
            rfl
        | some o =>
          rw [ho] at hg
          by_cases hc : x ≠ UINT_MAX ∧ x ≠ o.extType
          · refine .inr (bad (e := "Bad external object type passed to external function.") ?_ ?_)
            · intro hf
              refine hfit hf fun t' e1 e2 => ?_
              rw [ht] at e1; cases e1
              rcases e2 with e2 | ⟨_, e2⟩
              · exact h5 e2
              · obtain ⟨y, o', e3, e4, e5⟩ := e2 h4
                rw [hx] at e3; cases e3
                rw [ho] at e4; cases e4
                rcases e5 with e5 | e5
                · exact hc.1 e5
                · exact hc.2 e5
            · rw [checkArgs, ht]; dsimp only
              rw [if_neg h5, if_neg (fun h => h hty), if_pos h4, hx]
              dsimp only
              rw [M.bind_ok hg]
              dsimp only
              rw [if_pos hc]
              rfl
          · refine step ⟨t, ht, .inr ⟨hty.symm, fun _ => ⟨x, o, hx, ho, ?_⟩⟩⟩ ?_
            · by_cases h : x = UINT_MAX
              · exact .inl h
              · exact .inr (by by_contra hne; exact hc ⟨h, hne⟩)
            · rw [checkArgs, ht]; dsimp only
              rw [if_neg h5, if_neg (fun h => h hty), if_pos h4, hx]
              dsimp only
              rw [M.bind_ok hg]
              dsimp only
              rw [if_neg hc]
      · refine step ⟨t, ht, .inr ⟨hty.symm, fun h => absurd h h4⟩⟩ ?_
        rw [checkArgs, ht]; dsimp only
        rw [if_neg h5, if_neg (fun h => h hty), if_neg h4]
    · refine .inr (bad (e := "Incorrect argument type in call to external function.") ?_ ?_)
      · intro hf
        refine hfit hf fun t' e1 e2 => ?_
        rw [ht] at e1; cases e1
        rcases e2 with e2 | ⟨e2, _⟩
        · exact h5 e2
        · exact hty e2.symm
      · rw [checkArgs, ht]; dsimp only
        rw [if_neg h5, if_pos hty]
        rfl

/-- The native half of a call, when the arguments are on the stack. -/
theorem callNative_run {vm : VM} {c : Ctx} {l args : List Value} {fv : Value} {n : BitVec 32} {x cb : Nat} {f : ExtFunc}
    (hs : vm.Stk c (l ++ [fv] ++ args ++ [.int n])) (hf : vm.extFuncs[x]? = some f) (hcb : f.callback = some cb) :
    callNative H x args.length vm = ((do
      let okArgs ←
        (if f.argc ≠ UINT_MAX then
          if f.argc ≠ args.length then do
            addError "Tried to call an external function with an incorrect number of arguments."
            return false
          else checkArgs f 0 args
        else return true)
      if okArgs then do
        let r ← H.call cb args
        popN (u32 (args.length + 2))
        push r
      else return () : M Unit)) vm := by
  have hlen := hs.size
  have hsm := hs.small
  simp only [List.length_append, List.length_cons, List.length_nil] at hlen hsm
  have hb : usub c.stack.size (u32 (args.length + 1)) = l.length + 1 := by
    rw [u32_id (by omega), usub_eq (by omega) (by omega)]; omega
  have hcp := copyArgs_run (l := l) (args := args) (r := [.int n]) (l.length + 1) args (l ++ [fv]) 0 hs (by simp)
  unfold callNative
  rw [M.bind_ok (get_run vm), hf]
  dsimp only
  rw [hcb]
  dsimp only
  rw [M.bind_ok (curStack_at hs.at_), hb, M.bind_ok hcp]

/-! ## Independence of the host -/

/-- The two hosts differ at most in what native functions do when called with arguments they did not declare. -/
structure Agree (H H' : Host) : Prop where
  call : ∀ cb args vm, Admissible vm cb args → H.call cb args vm = H'.call cb args vm
  mark : H.mark = H'.mark

variable {H} {H' : Host}

theorem callNative_agree (h : Agree H H') (x n : Nat) (vm : VM) : callNative H x n vm = callNative H' x n vm := by
  unfold callNative
  rw [M.bind_ok (get_run vm), M.bind_ok (get_run vm)]
  cases hf : vm.extFuncs[x]? with
  | none => rfl
  | some f =>
    dsimp only
    cases hcb : f.callback with
    | none => rfl
    | some cb =>
      dsimp only
      cases hc : curStack vm with
      | ub k => rw [M.bind_ub hc, M.bind_ub hc]
      | ok p =>
        obtain ⟨s, v⟩ := p
        have hv : v = vm := by
          exact (Pres.curStack (P := fun w => w = vm)).run vm s v rfl hc
        subst hv
        rw [M.bind_ok hc, M.bind_ok hc]
        cases ha : copyArgs (usub s.size (u32 (n + 1))) 0 n v with
        | ub k => rw [M.bind_ub ha, M.bind_ub ha]
        | ok p =>
          obtain ⟨args, v'⟩ := p
          obtain ⟨hv, hl⟩ := copyArgs_same ha
          subst hv
          rw [M.bind_ok ha, M.bind_ok ha]
          have fin : ∀ b v1, (b = true → v1 = v' ∧ ArgsFit v' f args) →
              (if b = true then do let r ← H.call cb args; popN (u32 (n + 2)); push r else pure () : M Unit) v1 =
              (if b = true then do let r ← H'.call cb args; popN (u32 (n + 2)); push r else pure () : M Unit) v1 := by
            intro b v1 hb
            cases b with
            | false => rfl
            | true =>
              obtain ⟨rfl, hfit⟩ := hb rfl
              have := h.call cb args v1 ⟨f, List.mem_of_getElem? hf, hcb, hfit⟩
              rw [if_pos rfl, if_pos rfl, M.bind_eq, M.bind_eq, this]
          by_cases hac : f.argc ≠ UINT_MAX
          · rw [if_pos hac]
            by_cases han : f.argc ≠ n
            · rw [if_pos han, M.assoc, M.assoc]; rfl
            · rw [if_neg han]
              cases hk : checkArgs f 0 args v' with
              | ub k => rw [M.bind_ub hk, M.bind_ub hk]
              | ok p =>
                obtain ⟨b, v1⟩ := p
                rw [M.bind_ok hk, M.bind_ok hk]
                refine fin b v1 fun hb => ?_
                subst hb
                obtain ⟨h1, h2⟩ := checkArgs_true hk
                refine ⟨h1, .inr ⟨by rw [hl]; exact (not_not.mp han).symm, fun i v hi => ?_⟩⟩
                have := h2 i v hi
                rwa [Nat.zero_add] at this
          · rw [if_neg hac]
            exact fin true v' fun _ => ⟨rfl, .inl (not_not.mp hac)⟩

theorem opCall_agree (h : Agree H H') (vm : VM) : opCall F H vm = opCall F H' vm := by
  unfold opCall
  refine M.congr _ fun s v1 => M.congr _ fun t v2 => M.congr _ fun n v3 => M.congr _ fun fv v4 => M.congr _ fun r v5 => ?_
  match r with
  | none => rfl
  | some (some (.fn id), argc) =>
    dsimp only
    refine M.congr _ fun w v6 => ?_
    cases w.functions[id]? with
    | none => rfl
    | some f =>
      dsimp only
      split
      · rfl
      · split
        · exact callNative_agree h _ _ _
        · rfl
  | some (none, _) => rfl
  | some (some (.int _), _) => rfl
  | some (some (.float _), _) => rfl
  | some (some (.str _), _) => rfl
  | some (some (.obj _), _) => rfl
  | some (some .nil, _) => rfl
  | some (some (.bad _ _), _) => rfl

theorem dispatch_agree (h : Agree H H') (op : Nat) (vm : VM) : dispatch F H op vm = dispatch F H' op vm := by
  have e1 : opCall F H = opCall F H' := funext fun v => opCall_agree F h v
  have e2 : opCoroutineCreate F H = opCoroutineCreate F H' := by unfold opCoroutineCreate; rw [e1]
  unfold dispatch
  rw [e1, e2]

theorem garbageCollect_agree (h : Agree H H') : garbageCollect H = garbageCollect H' := by
  have h1 : objectRefs H = objectRefs H' := by
    unfold objectRefs externalMarks; rw [h.mark]
  have h2 : markObject H = markObject H' := by unfold markObject; rw [h1]
  have h3 : ∀ n p, markReferenced H p n = markReferenced H' p n := by
    intro n p
    induction n with
    | zero => funext l; cases l <;> rfl
    | succ n ih =>
      funext l
      cases l with
      | nil => rfl
      | cons a l => rw [markReferenced, markReferenced, h2, ih]
  have h4 : ∀ p l o, markHandles H p o l = markHandles H' p o l := by
    intro p l
    induction l with
    | nil => intro o; rfl
    | cons a l ih => intro o; rw [markHandles, markHandles, h2]; simp only [ih]
  have h5 : gcFuel H = gcFuel H' := by unfold gcFuel refWeight; rw [h1]
  have h6 : gcMark H = gcMark H' := by
    unfold gcMark; simp only [h4, h3, h5]
  unfold garbageCollect; rw [h6]

theorem iterate_agree (h : Agree H H') (vm : VM) : iterate F H vm = iterate F H' vm := by
  have h1 : dispatch F H = dispatch F H' := funext fun op => funext fun v => dispatch_agree F h op v
  have h2 := garbageCollect_agree h
  unfold iterate iterateOp execute collectIfDue
  rw [h1, h2]

end Nk
