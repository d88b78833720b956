import Verif.Lemmas.SaveRead
import Verif.Spec.Load
import Verif.Lemmas.SaveFuncs
import Verif.Lemmas.Compare
import Verif.Lemmas.SaveTables
import Verif.Lemmas.SaveLists
/-!
# Loading arbitrary bytes

`Ld m vm Q E`: whatever bytes are there, `m` started in `vm` does nothing undefined (allocations may fail); if it
succeeds `Q` holds of result and VM, if it reports failure `E` holds of the VM.
-/
namespace Nk.Save
variable {α β : Type}

/-- What is required of an outcome. -/
def Out (Q : α → VM → Prop) (E : VM → Prop) : Res ((Option α × Bytes) × VM) → Prop
  | .ub k => k = .longjmp
  | .ok ((some a, _), v) => Q a v
  | .ok ((none, _), v) => E v

/-- See above. -/
def Ld (m : L α) (vm : VM) (Q : α → VM → Prop) (E : VM → Prop) : Prop := ∀ b, Out Q E (m b vm)

namespace Ld
variable {vm : VM} {Q : α → VM → Prop} {E : VM → Prop}

theorem mono {m : L α} {Q' : α → VM → Prop} {E' : VM → Prop} (h : Ld m vm Q E) (hq : ∀ a v, Q a v → Q' a v)
    (he : ∀ v, E v → E' v) : Ld m vm Q' E' := by
  intro b
  have := h b
  cases hm : m b vm with
  | ub k => rw [hm] at this; exact this
  | ok p =>
    obtain ⟨⟨r, b'⟩, v⟩ := p
    rw [hm] at this
    cases r with
    | none => exact he v this
    | some a => exact hq a v this

theorem pure {a : α} (h : Q a vm) : Ld (Pure.pure a : L α) vm Q E := fun _ => h
theorem stop (h : E vm) : Ld (Save.stop : L α) vm Q E := fun _ => h
theorem reject {e : String} (h : E (vm.addErr e)) : Ld (Save.reject e : L α) vm Q E := fun _ => h

theorem bind {m : L α} {f : α → L β} {Q : β → VM → Prop} (h : Ld m vm (fun a v => Ld (f a) v Q E) E) :
    Ld (m >>= f) vm Q E := by
  intro b
  rw [L.bind_eq]
  have := h b
  cases hm : m b vm with
  | ub k => rw [hm] at this; exact this
  | ok p =>
    obtain ⟨⟨r, b'⟩, v⟩ := p
    rw [hm] at this
    cases r with
    | none => exact this
    | some a => exact this b'

theorem lift {m : M α} {a : α} {v : VM} (h : m vm = .ok (a, v)) (hq : Q a v) : Ld (Save.lift m) vm Q E := by
  intro b
  rw [lift_run h]
  exact hq

theorem get {Q : VM → VM → Prop} (h : Q vm vm) : Ld (Save.lift Nk.get) vm Q E := lift rfl h
theorem upd {f : VM → VM} {Q : Unit → VM → Prop} (h : Q () (f vm)) : Ld (Save.upd f) vm Q E := lift rfl h
theorem mallocArray {s n : Nat} {Q : Unit → VM → Prop} (h : n < UINT_MAX / s → Q () vm) : Ld (Save.mallocArray s n) vm Q E := by
  unfold Save.mallocArray
  split
  · intro b; rfl
  · next hn => exact pure (h (by omega))
theorem readBytes {n : Nat} {Q : Bytes → VM → Prop} (h : ∀ b, b.length = n → Q b vm) (he : E vm) : Ld (Save.readBytes n) vm Q E := by
  intro b
  unfold Save.readBytes
  split
  · next hn => exact h _ (by simp; omega)
  · exact he
theorem read32 {Q : Nat → VM → Prop} (h : ∀ n, n < 4294967296 → Q n vm) (he : E vm) : Ld Save.read32 vm Q E := by
  intro b
  unfold Save.read32
  split
  · next x y z w r =>
    refine h _ ?_
    unfold of32
    have := x.toNat_lt; have := y.toNat_lt; have := z.toNat_lt; have := w.toNat_lt
    omega
  · exact he
theorem read8 {Q : Nat → VM → Prop} (h : ∀ n, n < 256 → Q n vm) (he : E vm) : Ld Save.read8 vm Q E := by
  intro b
  unfold Save.read8
  split
  · next x r => exact h _ x.toNat_lt
  · exact he
theorem readValue {Q : Value → VM → Prop} (h : ∀ n, Q n vm) (he : E vm) : Ld Save.readValue vm Q E := by
  intro b
  unfold Save.readValue
  split
  · exact h _
  · exact he

/-- A loop with an invariant. -/
theorem times {f : Nat → L Unit} {J : Nat → VM → Prop}
    (hf : ∀ i v, J i v → Ld (f i) v (fun _ v' => J (i + 1) v') E) : ∀ (n i : Nat) {vm : VM}, J i vm →
    Ld (times f i n) vm (fun _ v => J (i + n) v) E
  | 0, i, vm, h => pure h
  | n + 1, i, vm, h => by
    refine bind ((hf i vm h).mono (fun _ v hv => ?_) fun _ h => h)
    have := times hf n (i + 1) hv
    rw [show i + 1 + n = i + (n + 1) by omega] at this
    exact this

/-- The same with a bound on the round. -/
theorem timesTo {f : Nat → L Unit} {J : Nat → VM → Prop} {N : Nat}
    (hf : ∀ i v, i < N → J i v → Ld (f i) v (fun _ v' => J (i + 1) v') E) : ∀ (n i : Nat) {vm : VM}, i + n ≤ N → J i vm →
    Ld (Save.times f i n) vm (fun _ v => J (i + n) v) E
  | 0, i, vm, _, h => pure h
  | n + 1, i, vm, hN, h => by
    refine bind ((hf i vm (by omega) h).mono (fun _ v hv => ?_) fun _ h => h)
    have := timesTo hf n (i + 1) (by omega) hv
    rw [show i + 1 + n = i + (n + 1) by omega] at this
    exact this

theorem of_run {m : L α} (h : Ld m vm Q E) {b b' : Bytes} {a : α} {v : VM} (he : m b vm = .ok ((some a, b'), v)) : Q a v := by
  have := h b
  rw [he] at this
  exact this

end Ld

/-- Any. -/
abbrev any : VM → Prop := fun _ => True

theorem loadString_any {vm : VM} {Q : Bytes → VM → Prop} {E : VM → Prop} (h : ∀ s, Spec.NoNul s → Q s vm) (he : E vm)
    (hr : ∀ e, E (vm.addErr e)) : Ld loadString vm Q E := by
  unfold loadString
  refine .bind (.read32 (fun n hn => ?_) he)
  split
  · exact .reject (hr _)
  · refine .bind (.readBytes (fun b hb => .pure (h _ ?_)) he)
    intro hc
    unfold cstr at hc
    have := List.all_eq_true.mp List.all_takeWhile 0 hc
    simp at this

theorem loadStringIn_any {vm : VM} {n : Nat} {Q : Bytes → VM → Prop} {E : VM → Prop} (h : ∀ s, Q s vm) (he : E vm)
    (hr : ∀ e, E (vm.addErr e)) : Ld (loadStringIn n) vm Q E := by
  unfold loadStringIn
  refine .bind (.read32 (fun n hn => ?_) he)
  split
  · exact .reject (hr _)
  · exact .bind (.readBytes (fun b hb => .pure (h _)) he)

theorem isPow2_true {x : Nat} (h : isPow2 x = true) (hx : x ≠ 0) (hlt : x < 4294967296) : ∃ k, k ≤ 31 ∧ x = 2 ^ k := by
  rw [isPow2_iff] at h
  obtain ⟨k, hk⟩ := (Nat.and_sub_one_eq_zero_iff_isPowerOfTwo hx).mp (h.resolve_left hx)
  refine ⟨k, ?_, hk⟩
  by_contra hc
  have : 2 ^ 32 ≤ 2 ^ k := Nat.pow_le_pow_right (by omega) (by omega)
  omega

theorem loadHeader_any {vm : VM} : Ld loadHeader vm (fun _ v => v = vm) any := by
  unfold loadHeader
  refine .bind (.readBytes (fun b hb => ?_) trivial)
  split
  · exact .reject trivial
  · refine .bind (.read32 (fun n hn => ?_) trivial)
    split
    · exact .reject trivial
    · exact .pure rfl

theorem loadInstrs_any {vm : VM} : Ld loadInstrs vm (fun _ v => ∃ is m, v = { vm with instrs := is, instrMask := m } ∧
    Masked is.length m) any := by
  unfold loadInstrs
  refine .bind (.read32 (fun lim hlim => .bind (.read32 (fun mask hmask => .bind (.upd ?_)) trivial)) trivial)
  split
  · exact .reject trivial
  · split
    · exact .reject trivial
    · next h1 h2 =>
      split
      · exact .reject trivial
      · refine .bind (.mallocArray fun hs => .bind (.upd ?_))
        have hp := isPow2_true (x := mask + 1) (by simpa using h2) (by omega) (by unfold UINT_MAX at h1; omega)
        refine (Ld.times (J := fun _ v => ∃ is, v = { vm with instrs := is, instrMask := mask } ∧ is.length = mask + 1)
          (fun i v hv => ?_) _ 0 ⟨List.replicate (mask + 1) 0, rfl, by simp⟩).mono ?_ fun _ h => h
        · obtain ⟨is, rfl, hl⟩ := hv
          exact .bind (.read32 (fun w _ => .upd ⟨is.set i (BitVec.ofNat 32 w), rfl, by simpa using hl⟩) trivial)
        · rintro - v ⟨is, rfl, hl⟩
          exact ⟨is, mask, rfl, hl, by rw [hl]; exact hp⟩

theorem loadErrors_any {vm : VM} : Ld loadErrors vm (fun _ v => ∃ es, v = { vm with errors := es }) any := by
  unfold loadErrors
  refine .bind (.read32 (fun n hn => ?_) trivial)
  refine Ld.times (J := fun _ v => ∃ es, v = { vm with errors := es }) (fun i v hv => ?_) n 0 ⟨vm.errors, rfl⟩
  obtain ⟨es, rfl⟩ := hv
  exact .bind (loadString_any (fun s _ => .upd ⟨_, rfl⟩) trivial fun _ => trivial)

theorem valuesOf_length : ∀ (n : Nat) (b : Bytes), b.length = 8 * n → (valuesOf b).length = n := by
  intro n
  induction n with
  | zero => intro b hb; rw [List.length_eq_zero_iff.mp (by omega : b.length = 0)]; rfl
  | succ n ih =>
    intro b hb
    match b, hb with
    | x :: y :: z :: w :: x' :: y' :: z' :: w' :: rest, hb =>
      simp only [List.length_cons] at hb
      rw [valuesOf, List.length_cons, ih rest (by omega)]

theorem loadStatics_any {vm : VM} : Ld loadStatics vm (fun _ v => ∃ xs m, v = { vm with statics := xs, staticMask := m } ∧
    Masked xs.length m) any := by
  unfold loadStatics
  refine .bind (.read32 (fun mask hmask => ?_) trivial)
  split
  · exact .reject trivial
  · next h1 =>
    split
    · exact .reject trivial
    · next h2 =>
      refine .bind (.upd (.bind (.mallocArray fun hs => .bind (.upd (.bind (.readBytes (fun b hb => ?_) trivial))))))
      have e : u32 (mask + 1) = mask + 1 := by unfold u32 U32; unfold UINT_MAX at h2; omega
      rw [e] at h1
      have hp := isPow2_true (x := mask + 1) (by simpa using h1) (by omega) (by unfold UINT_MAX at h2; omega)
      have hl := valuesOf_length (mask + 1) b hb
      exact .upd ⟨valuesOf b, mask, rfl, hl, by rw [hl]; exact hp⟩

theorem ctxAt_eq {vm : VM} {i : Nat} {c : Ctx} (h : vm.ctxs[i]? = some (some c)) : ctxAt vm i = .ok c := by
  simp [ctxAt, h]

theorem updCtx_any {vm : VM} {i : Nat} {c : Ctx} (h : vm.ctxs[i]? = some (some c)) {f : Ctx → Ctx}
    {Q : Unit → VM → Prop} {E : VM → Prop} (hq : Q () (setAt vm i (f c))) : Ld (updCtx i f) vm Q E := by
  intro b
  rw [updCtx_run h]
  exact hq

theorem maskClear_any {vm : VM} {i : Nat} {c : Ctx} (h : vm.ctxs[i]? = some (some c)) (hc : c.stack.cap ≤ c.stack.vals.length)
    (m : Stack → Nat) {k : L Unit} {Q : Unit → VM → Prop} {E : VM → Prop}
    (hq : Ld k (setAt vm i { c with stack := { vals := List.replicate 2 Value.zero, size := 0, cap := 2, mask := 1 } }) Q E) :
    Ld (do updCtx i fun c => { c with stack := { c.stack with mask := m c.stack } }
           clearStack i
           k) vm Q E := by
  intro b
  rw [maskClear_run h hc m]
  exact hq b

/-- Context `i` and the errors are replaced. -/
def setE (vm : VM) (i : Nat) (c : Ctx) (es : List String) : VM := { setAt vm i c with errors := es }

theorem setE_same {vm : VM} {i : Nat} {c : Ctx} (h : vm.ctxs[i]? = some (some c)) (es : List String) :
    { vm with errors := es } = setE vm i c es := by
  unfold setE setAt
  have : vm.ctxs.set i (some c) = vm.ctxs := by
    apply List.ext_getElem?
    intro j
    rw [List.getElem?_set]
    split
    · next e => subst e; split
                · exact h.symm
                · next hl => rw [List.getElem?_eq_none (by omega)]
    · rfl
  dsimp only
  rw [this]

/-- The stack of context `i`. -/
theorem loadStack_any {vm : VM} {i : Nat} {c : Ctx} (h : vm.ctxs[i]? = some (some c)) (hc : c.stack.cap ≤ c.stack.vals.length) :
    Ld (loadStack i) vm
      (fun _ v => ∃ s, v = setAt vm i { c with stack := s } ∧ StackShape vm.limits.maxStackSize s ∧ s.size ≤ s.cap)
      (fun v => ∃ s es, v = setE vm i { c with stack := s } es ∧ vm.errors <+: es ∧
        (s = c.stack ∨ StackShape vm.limits.maxStackSize s)) := by
  have hsame : ∀ es, { vm with errors := es } = setE vm i { c with stack := c.stack } es := fun es => setE_same h es
  have hfail : ∃ s es, vm = setE vm i { c with stack := s } es ∧ vm.errors <+: es ∧
        (s = c.stack ∨ StackShape vm.limits.maxStackSize s) := ⟨c.stack, vm.errors, hsame vm.errors, List.prefix_rfl, .inl rfl⟩
  have hrej : ∀ e, ∃ s es, vm.addErr e = setE vm i { c with stack := s } es ∧ vm.errors <+: es ∧
        (s = c.stack ∨ StackShape vm.limits.maxStackSize s) := by
    intro e
    exact ⟨c.stack, vm.errors ++ [e], hsame _, List.prefix_append .., .inl rfl⟩
  unfold loadStack
  refine .bind (.read32 (fun size hs => .bind (.read32 (fun cap hcap => .bind (.get ?_)) hfail)) hfail)
  split
  · exact .reject (hrej _)
  · next h1 =>
    split
    · exact .reject (hrej _)
    · next h2 =>
      split
      · exact .reject (hrej _)
      · next h3 =>
        have hp := isPow2_true (x := cap) (by simpa using h1) (by omega) hcap
        refine maskClear_any h hc (fun s => usub s.cap 1) ?_
        refine .bind (.mallocArray fun hs => .bind (updCtx_any (setAt_get h) ?_))
        rw [setAt_setAt]
        have hsh : StackShape vm.limits.maxStackSize
            { vals := List.replicate cap Value.zero, size := size, cap := cap, mask := cap - 1 } :=
          ⟨hp, by simp, by dsimp only; omega, by dsimp only; omega⟩
        split
        · exact .stop ⟨_, vm.errors, rfl, List.prefix_rfl, .inr hsh⟩
        · next h4 =>
          refine .bind (.readBytes (fun b hb => ?_) ⟨_, vm.errors, rfl, List.prefix_rfl, .inr hsh⟩)
          refine updCtx_any (setAt_get h) ?_
          rw [setAt_setAt]
          refine ⟨_, rfl, ⟨hp, ?_, by dsimp only; omega, by dsimp only; omega⟩, by dsimp only; omega⟩
          simp only [List.length_append, valuesOf_length size b hb, List.length_drop, List.length_replicate]
          omega

/-- Context `i`. -/
theorem loadContext_any {vm : VM} {i : Nat} {c : Ctx} (h : vm.ctxs[i]? = some (some c)) (hc : c.stack.cap ≤ c.stack.vals.length)
    (co : Bool) : Ld (loadContext i co) vm
      (fun _ v => ∃ d, v = setAt vm i d ∧ StackShape vm.limits.maxStackSize d.stack ∧ d.stack.size ≤ d.stack.cap ∧
        d.parent = c.parent ∧ d.coObj = c.coObj ∧ (co = false → d.state = c.state))
      (fun v => ∃ d es, v = setE vm i d es ∧ vm.errors <+: es ∧ d.parent = c.parent ∧ d.coObj = c.coObj ∧
        (d.stack = c.stack ∨ StackShape vm.limits.maxStackSize d.stack)) := by
  unfold loadContext
  refine .bind (.read32 (fun ip _ => .bind (updCtx_any h ?_)) ⟨c, vm.errors, setE_same h vm.errors,
    List.prefix_rfl, rfl, rfl, .inl rfl⟩)
  refine .bind ((loadStack_any (setAt_get h) (by exact hc)).mono ?_ ?_)
  · rintro - v ⟨s, rfl, h1, h2⟩
    rw [setAt_setAt]
    cases co with
    | false => exact .pure ⟨_, rfl, h1, h2, rfl, rfl, fun _ => rfl⟩
    | true =>
      rw [if_pos rfl]
      refine .bind (.read32 (fun st _ => updCtx_any (setAt_get h) ?_) ⟨_, vm.errors, rfl, List.prefix_rfl, rfl, rfl, .inr h1⟩)
      rw [setAt_setAt]
      exact ⟨_, rfl, h1, h2, rfl, rfl, fun h => by cases h⟩
  · rintro v ⟨s, es, rfl, h0, h1⟩
    unfold setE
    rw [setAt_setAt]
    exact ⟨_, es, rfl, h0, rfl, rfl, h1⟩

/-! ## The tables -/

theorem tabShape_rebuilt {α : Type} {slots : List (Option α)} {cap : Nat} (hl : slots.length = cap)
    (hp : cap = 0 ∨ ∃ k, k ≤ 31 ∧ cap = 2 ^ k) : TabShape (⟨slots, cap, holesFrom 0 [] slots⟩ : Table α) where
  len := hl
  pow := hp
  nodup := holesFrom_nodup (by simp) (by simp)
  holes i := by simp [mem_holesFrom]

theorem pow_or_zero {cap : Nat} (h : isPow2 cap = true) (hc : cap < 4294967296) : cap = 0 ∨ ∃ k, k ≤ 31 ∧ cap = 2 ^ k := by
  by_cases h0 : cap = 0
  · exact .inl h0
  · exact .inr (isPow2_true h h0 hc)

theorem StrSlots.add {slots : List (Option Str)} {bs : List (List Nat)} (h : StrSlots slots bs) {i : Nat}
    (hi : slots[i]? = some none) {e : Str} (he : e.hash = stringHash e.str) (hn : Spec.NoNul e.str) {ids : List Nat}
    (hb : bs[e.hash &&& 255]? = some ids) :
    StrSlots (slots.set i (some e)) (bs.set (e.hash &&& 255) (i :: ids)) := by
  have hlt := (List.getElem?_eq_some_iff.mp hi).1
  have hblt := (List.getElem?_eq_some_iff.mp hb).1
  have hnot : ∀ (b : Nat) (ids : List Nat), bs[b]? = some ids → i ∉ ids := by
    intro b ids hb hm
    obtain ⟨e, he, -⟩ := h.mem b ids hb i hm
    rw [hi] at he
    cases he
  have hother : ∀ j, j ≠ i → (slots.set i (some e))[j]? = slots[j]? := by
    intro j hj
    rw [List.getElem?_set, if_neg (Ne.symm hj)]
  constructor
  · rw [List.length_set]; exact h.len
  · intro b ids' hb'
    rw [List.getElem?_set] at hb'
    split at hb'
    · cases hb'
      exact List.nodup_cons.mpr ⟨hnot _ _ hb, h.nodup _ _ hb⟩
    · exact h.nodup _ _ hb'
  · intro b ids' hb' j hj
    rw [List.getElem?_set] at hb'
    split at hb'
    · next eb =>
      cases hb'
      rcases List.mem_cons.mp hj with rfl | hj
      · exact ⟨e, by rw [List.getElem?_set_self hlt], eb⟩
      · obtain ⟨e', h1, h2⟩ := h.mem _ _ hb j hj
        exact ⟨e', by rw [hother j fun c => hnot _ _ hb (c ▸ hj)]; exact h1, by rw [h2, eb]⟩
    · obtain ⟨e', h1, h2⟩ := h.mem _ _ hb' j hj
      exact ⟨e', by rw [hother j fun c => hnot _ _ hb' (c ▸ hj)]; exact h1, h2⟩
  · intro j e' he'
    by_cases hj : j = i
    · subst hj
      rw [List.getElem?_set_self hlt] at he'
      cases he'
      exact ⟨he, hn, _, List.getElem?_set_self hblt, List.mem_cons_self⟩
    · rw [hother j hj] at he'
      obtain ⟨h1, h2, ids', h3, h4⟩ := h.bucket j e' he'
      refine ⟨h1, h2, ?_⟩
      by_cases eb : e.hash &&& 255 = e'.hash &&& 255
      · rw [← eb, List.getElem?_set_self hblt]
        rw [← eb, hb] at h3
        cases h3
        exact ⟨_, rfl, List.mem_cons_of_mem _ h4⟩
      · exact ⟨ids', by rw [List.getElem?_set, if_neg eb]; exact h3, h4⟩

/-- The VM with strings being loaded. -/
def withStrs (vm : VM) (cap : Nat) (slots : List (Option Str)) (bs : List (List Nat)) : VM :=
  { vm with strings := { slots, cap, holes := [] }, sbuckets := bs }

theorem loadStr_any {vm : VM} {cap : Nat} {slots : List (Option Str)} {bs : List (List Nat)} (hl : slots.length = cap)
    (h : StrSlots slots bs) : Ld loadStr (withStrs vm cap slots bs)
      (fun _ v => ∃ slots' bs', v = withStrs vm cap slots' bs' ∧ slots'.length = cap ∧ StrSlots slots' bs') any := by
  unfold loadStr
  refine .bind (.read32 (fun index _ => .bind (.get ?_)) trivial)
  split
  · exact .reject trivial
  · next hi =>
    have hi : index < cap := Nat.not_le.mp hi
    refine .bind (loadString_any (fun s hs => ?_) trivial fun _ => trivial)
    obtain ⟨x, hx⟩ : ∃ x, slots[index]? = some x := ⟨slots[index], List.getElem?_eq_getElem (by omega)⟩
    refine .bind (.lift (a := x) (v := withStrs vm cap slots bs) ?_ ?_)
    · have : (withStrs vm cap slots bs).strings.read index = .ok x := by simp [Table.read, withStrs, hx]
      rw [this]; rfl
    · cases x with
      | some _ => exact .reject trivial
      | none =>
        dsimp only
        refine .bind (.upd (.bind (.read32 (fun pass _ => .bind (.read8 (fun dont _ => .bind (.get ?_)) trivial)) trivial)))
        have hlt : stringHash s &&& 255 < 256 := Nat.lt_of_le_of_lt Nat.and_le_right (by omega)
        obtain ⟨ids, hids⟩ : ∃ ids, bs[stringHash s &&& 255]? = some ids :=
          ⟨_, List.getElem?_eq_getElem (by rw [h.len]; exact hlt)⟩
        dsimp only [withStrs]
        rw [hids]
        dsimp only
        refine .upd ⟨slots.set index (some { str := s, hash := stringHash s, lastGCPass := pass, dontGC := dont ≠ 0 }),
          bs.set (stringHash s &&& 255) (index :: ids), ?_, by rw [List.length_set, hl], ?_⟩
        · dsimp only
          rw [List.set_set]
        · exact h.add hx rfl hs hids

theorem loadStrings_any {vm : VM} : Ld loadStrings vm (fun _ v => ∃ t bs, v = { vm with strings := t, sbuckets := bs } ∧
    TabShape t ∧ StrSlots t.slots bs) any := by
  unfold loadStrings
  refine .bind (.read32 (fun cap hcap => .bind (.upd ?_)) trivial)
  split
  · exact .reject trivial
  · refine .bind (.mallocArray fun _ => .bind (.upd ?_))
    split
    · exact .reject trivial
    · next hp =>
      refine .bind (.read32 (fun count _ => .bind ?_) trivial)
      refine (Ld.times (J := fun _ v => ∃ slots bs, v = withStrs vm cap slots bs ∧ slots.length = cap ∧ StrSlots slots bs)
        (fun i v hv => ?_) count 0 ⟨List.replicate cap none, List.replicate 256 [], rfl, by simp, ?_⟩).mono ?_ fun _ h => h
      · obtain ⟨slots, bs, rfl, hl, hs⟩ := hv
        exact loadStr_any hl hs
      · refine ⟨List.length_replicate .., ?_, ?_, ?_⟩
        · intro b ids hb
          rw [List.getElem?_replicate] at hb
          split at hb <;> cases hb
          exact List.nodup_nil
        · intro b ids hb id hid
          rw [List.getElem?_replicate] at hb
          split at hb <;> cases hb
          cases hid
        · intro id e he
          rw [List.getElem?_replicate] at he
          split at he <;> cases he
      · rintro - v ⟨slots, bs, rfl, hl, hs⟩
        refine .upd ⟨{ slots, cap, holes := holesFrom 0 [] slots }, bs, rfl, tabShape_rebuilt hl (pow_or_zero (by simpa using hp) hcap), hs⟩

theorem loadGc_any {vm : VM} : Ld loadGc vm (fun _ v => ∃ g, v = { vm with gc := g } ∧ g.interval ≤ 65536) any := by
  unfold loadGc
  exact .bind (.read32 (fun _ _ => .bind (.read32 (fun _ _ => .bind (.read32 (fun _ _ => .bind (.read32 (fun _ _ =>
    .bind (.read32 (fun _ _ => .upd ⟨_, rfl, Nat.min_le_right ..⟩) trivial)) trivial)) trivial)) trivial)) trivial)

theorem rebind_lt {name : Bytes} {id n : Nat} {fs : List ExtFunc} {i : Nat} (h : (rebind name id n fs).2 = some i) :
    i < n + fs.length := by
  induction fs generalizing n with
  | nil => cases h
  | cons f fs ih =>
    unfold rebind at h
    split at h
    · cases h; simp
    · have := ih h
      rw [List.length_cons]; omega

theorem loadNatives_any {vm : VM} (n : Nat) : ∀ (fs : List ExtFunc) (map : List Nat), fs.map anon = vm.extFuncs.map anon →
    (∀ e ∈ map, e = UINT_MAX ∨ e < vm.extFuncs.length) →
    Ld (loadNatives n map) { vm with extFuncs := fs } (fun map' v => ∃ fs', v = { vm with extFuncs := fs' } ∧
      fs'.map anon = vm.extFuncs.map anon ∧ ∀ e ∈ map', e = UINT_MAX ∨ e < vm.extFuncs.length) any := by
  induction n with
  | zero => intro fs map h hm; exact .pure ⟨fs, rfl, h, hm⟩
  | succ n ih =>
    intro fs map h hm
    unfold loadNatives
    refine .bind (.read32 (fun id _ => .bind (loadString_any (fun name _ => .bind (.get (.bind (.upd ?_)))) trivial
      fun _ => trivial)) trivial)
    refine ih _ _ (by rw [rebind_anon]; exact h) ?_
    intro e he
    rcases List.mem_append.mp he with he | he
    · exact hm e he
    · rw [List.mem_singleton] at he
      cases hr : (rebind name id 0 fs).2 with
      | none => left; rw [he, hr]; rfl
      | some i =>
        right
        rw [he, hr]
        have h1 := rebind_lt hr
        have h2 := congrArg List.length h
        simp only [List.length_map] at h2
        show i < _
        omega

theorem loadFunctions_any {vm : VM} : Ld loadFunctions vm (fun _ v => ∃ fs gs, v = { vm with extFuncs := fs, functions := gs } ∧
    fs.map anon = vm.extFuncs.map anon ∧ gs ≠ [] ∧ ∀ g ∈ gs, g.extId = UINT_MAX ∨ g.extId < fs.length) any := by
  unfold loadFunctions
  refine .bind (.read32 (fun n _ => .bind (.mallocArray fun _ => .bind ?_)) trivial)
  refine (loadNatives_any n vm.extFuncs [] rfl (by simp)).mono ?_ fun _ h => h
  rintro map v ⟨fs, rfl, hfs, hm⟩
  have hlen : fs.length = vm.extFuncs.length := by simpa using congrArg List.length hfs
  refine .bind (.read32 (fun count _ => .bind (.mallocArray fun _ => ?_)) trivial)
  split
  · exact .stop trivial
  · next hc =>
    refine .bind (.upd ?_)
    refine (Ld.times (J := fun i v => ∃ gs, v = { vm with extFuncs := fs, functions := gs } ∧ gs.length = count ∧
        ∀ (j : Nat) (g : Func), j < i → gs[j]? = some g → g.extId = UINT_MAX ∨ g.extId < fs.length)
      (fun i v hv => ?_) count 0 ⟨List.replicate count { argc := 0, first := 0, extId := 0 }, rfl, by simp, ?_⟩).mono ?_
      fun _ h => h
    · obtain ⟨gs, rfl, hl, hg⟩ := hv
      have step : ∀ (a f e : Nat), e = UINT_MAX ∨ e < fs.length →
          ∀ (j : Nat) (g : Func), j < i + 1 → (gs.set i { argc := a, first := f, extId := e })[j]? = some g →
            g.extId = UINT_MAX ∨ g.extId < fs.length := by
        intro a f e he j g hj hgj
        rw [List.getElem?_set] at hgj
        split at hgj
        · split at hgj <;> cases hgj
          exact he
        · exact hg j g (by omega) hgj
      unfold loadFunction
      refine .bind (.read32 (fun argc _ => .bind (.read32 (fun first _ => .bind (.read32 (fun ext _ => .bind (.upd ?_))
        trivial)) trivial)) trivial)
      split
      · cases he : map[ext]? with
        | none => exact .reject trivial
        | some e =>
          dsimp only
          refine .bind (.upd ?_)
          split
          · exact .reject trivial
          · refine .pure ⟨_, rfl, by simp [hl], ?_⟩
            dsimp only
            rw [List.set_set]
            exact step argc first e (by rw [hlen]; exact hm e (List.mem_of_getElem? he))
      · next hx =>
        refine .pure ⟨_, rfl, by simp [hl], ?_⟩
        exact step argc first ext (.inl (by simpa using hx))
    · intro j g hj; omega
    · rintro - v ⟨gs, rfl, hl, hg⟩
      refine ⟨fs, gs, rfl, hfs, ?_, ?_⟩
      · rintro rfl
        exact hc hl.symm
      · intro g hgm
        obtain ⟨j, hj⟩ := List.getElem?_of_mem hgm
        have := (List.getElem?_eq_some_iff.mp hj).1
        exact hg j g (by omega) hj

/-! ## Objects -/

/-- A value as the loader makes them: the tag is not one of the known ones iff the value is `bad`. -/
def Canon : Value → Prop
  | .bad t _ => 6 ≤ t
  | _ => True

theorem canon_mkValue (t r : Nat) : Canon (mkValue t r) := by
  match t with
  | 0 | 1 | 2 | 3 | 4 | 5 => trivial
  | t + 6 => exact Nat.le_add_left 6 t

theorem Ld.readCanon {vm : VM} {Q : Value → VM → Prop} {E : VM → Prop} (h : ∀ n, Canon n → Q n vm) (he : E vm) :
    Ld Save.readValue vm Q E := by
  intro b
  unfold Save.readValue
  split
  · exact h _ (canon_mkValue ..)
  · exact he

theorem get_len {α : Type} {t : Table α} (h : t.slots.length = t.cap) (i : Nat) : ∃ o, t.get i = .ok o := by
  unfold Table.get
  split
  · exact ⟨_, rfl⟩
  · next hi =>
    unfold Table.read
    rw [List.getElem?_eq_getElem (by omega)]
    exact ⟨_, rfl⟩

theorem getStrEntry_any {vm : VM} (h : vm.strings.slots.length = vm.strings.cap) (id : Nat) :
    ∃ e, getStrEntry id vm = .ok (e, vm) := by
  obtain ⟨o, ho⟩ := get_len h id
  exact ⟨o, by unfold getStrEntry; rw [ho]⟩

theorem getString_any {vm : VM} (h : vm.strings.slots.length = vm.strings.cap) (id : Nat) :
    ∃ e, getString id vm = .ok (e, vm) := by
  obtain ⟨o, ho⟩ := getStrEntry_any h id
  exact ⟨_, by unfold getString; rw [M.bind_ok ho]; rfl⟩

theorem valueHash_any {vm : VM} (h : vm.strings.slots.length = vm.strings.cap) (v : Value) :
    ∃ n, valueHash v vm = .ok (n, vm) := by
  cases v with
  | str id =>
    obtain ⟨o, ho⟩ := getStrEntry_any h id
    refine ⟨(o.map (·.hash)).getD 0, ?_⟩
    show (do let e ← getStrEntry id; _) vm = _
    rw [M.bind_ok ho]
    cases o <;> rfl
  | _ => exact ⟨_, rfl⟩

theorem bucketOf_any {vm : VM} (h : vm.strings.slots.length = vm.strings.cap) (v : Value) :
    ∃ b, bucketOf v vm = .ok (b, vm) ∧ b < 16 := by
  obtain ⟨n, hn⟩ := valueHash_any h v
  refine ⟨n &&& 15, ?_, Nat.lt_of_le_of_lt Nat.and_le_right (by omega)⟩
  unfold bucketOf
  rw [M.bind_ok hn]; rfl

variable (F : FloatOps)

theorem compare_any {vm : VM} (h : vm.strings.slots.length = vm.strings.cap) {a b : Value} (ha : Canon a) (hb : Canon b) :
    ∃ c es, valueCompare F a b true vm = .ok (c, { vm with errors := es }) := by
  unfold valueCompare
  split
  · exact ⟨_, vm.errors, rfl⟩
  · split
    · exact ⟨_, vm.errors, rfl⟩
    · next h1 h2 =>
      have ht : a.ty = b.ty := by
        simp only [true_and] at h1 h2
        omega
      cases a with
      | int i =>
        cases b <;> simp [Value.ty] at ht
        · exact ⟨_, vm.errors, rfl⟩
        · subst ht; simp [Canon] at hb
      | float i =>
        cases b <;> simp [Value.ty] at ht
        · exact ⟨_, vm.errors, rfl⟩
        · subst ht; simp [Canon] at hb
      | str i =>
        cases b <;> simp [Value.ty] at ht
        · next j =>
          obtain ⟨x, hx⟩ := getString_any h i
          obtain ⟨y, hy⟩ := getString_any h j
          show ∃ c es, compareBody F (.str i) (.str j) vm = _
          rw [compareBody_str]
          rw [M.bind_ok (show valueToString F (.str j) vm = _ from hy), M.bind_ok hx]
          cases x <;> cases y <;> exact ⟨_, _, rfl⟩
        · subst ht; simp [Canon] at hb
      | fn i =>
        cases b <;> simp [Value.ty] at ht
        · exact ⟨_, vm.errors, rfl⟩
        · subst ht; simp [Canon] at hb
      | obj i =>
        cases b <;> simp [Value.ty] at ht
        · exact ⟨_, vm.errors, rfl⟩
        · subst ht; simp [Canon] at hb
      | nil =>
        cases b <;> simp [Value.ty] at ht
        · exact ⟨_, vm.errors, rfl⟩
        · subst ht; simp [Canon] at hb
      | bad t r =>
        cases b <;> simp [Value.ty] at ht
        all_goals first
          | (subst ht; simp [Canon] at ha; done)
          | exact ⟨_, _, rfl⟩

theorem findElem_any {vm : VM} (h : vm.strings.slots.length = vm.strings.cap) {key : Value} (hk : Canon key)
    {bs : List (Value × Value)} (hb : ∀ e ∈ bs, Canon e.1) (n : Nat) (es : List String) :
    ∃ r es', findElem F key bs n { vm with errors := es } = .ok (r, { vm with errors := es' }) ∧
      ∀ m, r = some m → n ≤ m ∧ m < n + bs.length := by
  induction bs generalizing n es with
  | nil => exact ⟨none, es, rfl, by simp⟩
  | cons e bs ih =>
    obtain ⟨k, w⟩ := e
    obtain ⟨c, es1, hc⟩ := compare_any F (vm := { vm with errors := es }) h hk (hb (k, w) List.mem_cons_self)
    unfold findElem
    rw [M.bind_ok hc]
    split
    · exact ⟨some n, es1, rfl, by simp⟩
    · obtain ⟨r, es2, h1, h2⟩ := ih (fun e he => hb e (List.mem_cons_of_mem _ he)) (n + 1) es1
      exact ⟨r, es2, h1, fun m hm => by have := h2 m hm; rw [List.length_cons]; omega⟩

/-- Objects being loaded. -/
structure ObjGood (o : Obj) : Prop where
  len : o.buckets.length = 16
  data : o.extData = none
  canon : ∀ es ∈ o.buckets, ∀ e ∈ es, Canon e.1

theorem ObjGood.init : ObjGood Obj.init :=
  ⟨by simp [Obj.init], rfl, fun es hes => by
    unfold Obj.init at hes
    rw [(List.mem_replicate.mp hes).2]; simp⟩

theorem ObjGood.set {o : Obj} (h : ObjGood o) {b : Nat} {es : List (Value × Value)} (he : ∀ e ∈ es, Canon e.1) (n : Nat) :
    ObjGood { o with buckets := o.buckets.set b es, size := n } :=
  ⟨by simp [h.len], h.data, fun es' hes' => by
    rcases List.mem_or_eq_of_mem_set hes' with h1 | rfl
    · exact h.canon _ h1
    · exact he⟩

/-- The VM with objects being loaded. -/
def withObjs (vm : VM) (cap : Nat) (slots : List (Option Obj)) (hs : List Nat) (es : List String) : VM :=
  { vm with objects := { slots, cap, holes := [] }, handles := hs, errors := es }

/-- The state of the table while it is loaded. -/
structure ObjSlots (cap : Nat) (slots : List (Option Obj)) (hs : List Nat) : Prop where
  len : slots.length = cap
  good : ∀ (i : Nat) (o : Obj), slots[i]? = some (some o) → ObjGood o
  handles : ∀ i ∈ hs, ∃ o, slots[i]? = some (some o)

theorem ObjSlots.set {cap : Nat} {slots : List (Option Obj)} {hs : List Nat} (h : ObjSlots cap slots hs) {i : Nat} {o : Obj}
    (hi : i < cap) (ho : ObjGood o) :
    ObjSlots cap (slots.set i (some o)) hs ∧ (slots.set i (some o))[i]? = some (some o) := by
  have hlt : i < slots.length := by rw [h.len]; exact hi
  refine ⟨⟨by simp [h.len], fun j o' hj => ?_, fun j hj => ?_⟩, List.getElem?_set_self hlt⟩
  · rw [List.getElem?_set] at hj
    split at hj
    · simp at hj
      exact hj ▸ ho
    · exact h.good j o' hj
  · rw [List.getElem?_set]
    split
    · simp_all
    · exact h.handles j hj

theorem withObjs_getObj {vm : VM} {cap : Nat} {slots : List (Option Obj)} {hs : List Nat} {es : List String}
    (h : ObjSlots cap slots hs) {i : Nat} {o : Obj} (ho : slots[i]? = some (some o)) :
    getObj i (withObjs vm cap slots hs es) = .ok (some o, withObjs vm cap slots hs es) := by
  have hi : ¬ i ≥ cap := by
    have := (List.getElem?_eq_some_iff.mp ho).1
    have := h.len
    omega
  simp [getObj, Table.get, withObjs, hi, Table.read, ho]

theorem withObjs_setObj {vm : VM} {cap : Nat} {slots : List (Option Obj)} {hs : List Nat} {es : List String}
    (h : ObjSlots cap slots hs) {i : Nat} (hi : i < cap) (o : Obj) :
    setObj i o (withObjs vm cap slots hs es) = .ok ((), withObjs vm cap (slots.set i (some o)) hs es) := by
  have : i < slots.length := by rw [h.len]; exact hi
  simp [setObj, Table.write, withObjs, this]

theorem findOrAdd_any {vm : VM} (hstr : vm.strings.slots.length = vm.strings.cap) {cap : Nat} {slots : List (Option Obj)}
    {hs : List Nat} {es : List String} (h : ObjSlots cap slots hs) {i : Nat} {o : Obj} (ho : slots[i]? = some (some o))
    {key : Value} (hk : Canon key) :
    ∃ r slots' es' o', findOrAddEntry F i key false (withObjs vm cap slots hs es) = .ok (r, withObjs vm cap slots' hs es') ∧
      ObjSlots cap slots' hs ∧ slots'[i]? = some (some o') ∧
      ∀ p, r = some p → ∃ bs e, o'.buckets[p.1]? = some bs ∧ bs[p.2]? = some e := by
  have hi : i < cap := by
    have := (List.getElem?_eq_some_iff.mp ho).1
    rw [h.len] at this; exact this
  have hg := h.good i o ho
  obtain ⟨b, hb, hb16⟩ := bucketOf_any (vm := withObjs vm cap slots hs es) hstr key
  obtain ⟨bs, hbs⟩ : ∃ bs, o.buckets[b]? = some bs := ⟨_, List.getElem?_eq_getElem (by rw [hg.len]; exact hb16)⟩
  have hcan : ∀ e ∈ bs, Canon e.1 := hg.canon bs (List.mem_of_getElem? hbs)
  obtain ⟨r, es', hf, hr⟩ := findElem_any F (vm := withObjs vm cap slots hs es) hstr hk hcan 0 es
  have hf : findElem F key bs 0 (withObjs vm cap slots hs es) = .ok (r, withObjs vm cap slots hs es') := hf
  unfold findOrAddEntry
  rw [M.bind_ok hb, M.bind_ok (withObjs_getObj h ho)]
  dsimp only
  rw [hbs]
  dsimp only
  rw [M.bind_ok hf]
  cases r with
  | some n =>
    refine ⟨some (b, n), slots, es', o, rfl, h, ho, ?_⟩
    intro p hp
    cases hp
    have := (hr n rfl).2
    exact ⟨bs, bs[n]'(by omega), hbs, List.getElem?_eq_getElem _⟩
  | none =>
    dsimp only
    rw [if_neg (by simp)]
    rw [M.bind_ok (get_run _)]
    have hcan' : ∀ e ∈ (key, Value.zero) :: bs, Canon e.1 := by
      intro e he
      rcases List.mem_cons.mp he with rfl | he
      · exact hk
      · exact hcan e he
    split
    · have hg' := hg.set (b := b) hcan' o.size
      refine ⟨none, _, es' ++ ["Reached object field count limit."], _, ?_, (h.set hi hg').1, (h.set hi hg').2, by simp⟩
      · refine (M.bind_ok (withObjs_setObj (es := es') h hi _)).trans ?_
        rfl
    · have hg' := hg.set (b := b) hcan' (u32 (o.size + 1))
      refine ⟨some (b, 0), _, es', _, ?_, (h.set hi hg').1, (h.set hi hg').2, ?_⟩
      · exact (M.bind_ok (withObjs_setObj (es := es') h hi _)).trans rfl
      · intro p hp
        cases hp
        exact ⟨_, _, List.getElem?_set_self (by rw [hg.len]; exact hb16), rfl⟩

theorem writeElem_any {vm : VM} {cap : Nat} {slots : List (Option Obj)}
    {hs : List Nat} {es : List String} (h : ObjSlots cap slots hs) {i : Nat} {o : Obj} (ho : slots[i]? = some (some o))
    {p : Nat × Nat} {bs : List (Value × Value)} {e : Value × Value} (hb : o.buckets[p.1]? = some bs) (he : bs[p.2]? = some e)
    (v : Value) : ∃ slots' o', writeElem i p v (withObjs vm cap slots hs es) = .ok ((), withObjs vm cap slots' hs es) ∧
      ObjSlots cap slots' hs ∧ slots'[i]? = some (some o') := by
  have hi : i < cap := by
    have := (List.getElem?_eq_some_iff.mp ho).1
    rw [h.len] at this; exact this
  have hg := h.good i o ho
  have hcan : ∀ e ∈ bs, Canon e.1 := hg.canon bs (List.mem_of_getElem? hb)
  have hg' : ObjGood { o with buckets := o.buckets.set p.1 (bs.set p.2 (e.1, v)) } := by
    refine hg.set (es := bs.set p.2 (e.1, v)) ?_ o.size
    intro x hx
    rcases List.mem_or_eq_of_mem_set hx with h1 | rfl
    · exact hcan x h1
    · exact hcan e (List.mem_of_getElem? he)
  refine ⟨_, _, ?_, (h.set hi hg').1, (h.set hi hg').2⟩
  unfold writeElem
  rw [M.bind_ok (withObjs_getObj h ho)]
  dsimp only
  rw [hb]
  dsimp only
  rw [he]
  exact withObjs_setObj h hi _

theorem loadField_any {vm : VM} (hstr : vm.strings.slots.length = vm.strings.cap) {cap : Nat} {slots : List (Option Obj)}
    {hs : List Nat} {es : List String} (h : ObjSlots cap slots hs) {i : Nat} {o : Obj} (ho : slots[i]? = some (some o)) :
    Ld (loadField F i) (withObjs vm cap slots hs es) (fun _ v => ∃ slots' es' o', v = withObjs vm cap slots' hs es' ∧
      ObjSlots cap slots' hs ∧ slots'[i]? = some (some o')) any := by
  unfold loadField
  refine .bind (.readCanon (fun key hk => ?_) trivial)
  obtain ⟨r, slots', es', o', h1, h2, h3, h4⟩ := findOrAdd_any F hstr (es := es) h ho hk
  refine .bind (.lift h1 ?_)
  cases r with
  | none => exact .pure ⟨slots', es', o', rfl, h2, h3⟩
  | some p =>
    obtain ⟨bs, e, hb, he⟩ := h4 p rfl
    refine .bind (.readValue (fun v => ?_) trivial)
    obtain ⟨slots'', o'', h5, h6, h7⟩ := writeElem_any (vm := vm) (es := es') h2 h3 hb he v
    exact .lift h5 ⟨slots'', es', o'', rfl, h6, h7⟩

theorem loadObject_any {vm : VM} (hstr : vm.strings.slots.length = vm.strings.cap) {cap : Nat} {slots : List (Option Obj)}
    {hs : List Nat} {es : List String} (h : ObjSlots cap slots hs) {i : Nat} {o : Obj} (ho : slots[i]? = some (some o)) :
    Ld (loadObject F i) (withObjs vm cap slots hs es) (fun _ v => ∃ slots' hs' es', v = withObjs vm cap slots' hs' es' ∧
      ObjSlots cap slots' hs') any := by
  have hi : i < cap := by
    have := (List.getElem?_eq_some_iff.mp ho).1
    rw [h.len] at this; exact this
  have main : ∀ (hs' : List Nat) (size hd : Nat), ObjSlots cap slots hs' →
      Ld (do
        let pass ← read32
        let ext ← read32
        let o ← lift (getObj i)
        match o with
        | none => lift (liftR (.ub .oob))
        | some o => do
          lift (setObj i { o with size := 0, handleCount := hd, lastGCPass := pass, extType := ext })
          times (fun _ => loadField F i) 0 size) (withObjs vm cap slots hs' es) (fun _ v => ∃ slots' hs' es',
            v = withObjs vm cap slots' hs' es' ∧ ObjSlots cap slots' hs') any := by
    intro hs' size hd h
    refine .bind (.read32 (fun pass _ => .bind (.read32 (fun ext _ => .bind (.lift (withObjs_getObj h ho) ?_)) trivial)) trivial)
    dsimp only
    refine .bind (.lift (withObjs_setObj h hi _) ?_)
    have hg := h.good i o ho
    have hg' : ObjGood { o with size := 0, handleCount := hd, lastGCPass := pass, extType := ext } := ⟨hg.len, hg.data, hg.canon⟩
    refine (Ld.times (J := fun _ v => ∃ slots' es' o', v = withObjs vm cap slots' hs' es' ∧
        ObjSlots cap slots' hs' ∧ slots'[i]? = some (some o')) (fun j v hv => ?_) size 0
        ⟨_, es, _, rfl, (h.set hi hg').1, (h.set hi hg').2⟩).mono ?_ fun _ h => h
    · obtain ⟨slots', es', o', rfl, h1, h2⟩ := hv
      exact loadField_any F hstr h1 h2
    · rintro - v ⟨slots', es', o', rfl, h1, -⟩
      exact ⟨slots', hs', es', rfl, h1⟩
  unfold loadObject
  refine .bind (.read32 (fun size _ => .bind (.read32 (fun hd _ => ?_) trivial)) trivial)
  split
  · refine .bind (.upd ?_)
    refine main (i :: hs) size hd ⟨h.len, h.good, ?_⟩
    intro j hj
    rcases List.mem_cons.mp hj with rfl | hj
    · exact ⟨o, ho⟩
    · exact h.handles j hj
  · exact main hs size hd h

theorem loadEntry_any {vm : VM} (hstr : vm.strings.slots.length = vm.strings.cap) {cap : Nat} {slots : List (Option Obj)}
    {hs : List Nat} {es : List String} (h : ObjSlots cap slots hs) :
    Ld (loadEntry F) (withObjs vm cap slots hs es) (fun _ v => ∃ slots' hs' es', v = withObjs vm cap slots' hs' es' ∧
      ObjSlots cap slots' hs') any := by
  unfold loadEntry
  refine .bind (.read32 (fun index _ => .bind (.get ?_)) trivial)
  split
  · exact .reject trivial
  · next hi =>
    have hi : index < cap := Nat.not_le.mp hi
    obtain ⟨x, hx⟩ : ∃ x, slots[index]? = some x := ⟨slots[index]'(by rw [h.len]; exact hi), List.getElem?_eq_getElem _⟩
    refine .bind (.lift (a := x) (v := withObjs vm cap slots hs es) ?_ ?_)
    · have : (withObjs vm cap slots hs es).objects.read index = .ok x := by simp [Table.read, withObjs, hx]
      rw [this]; rfl
    · cases x with
      | some _ => exact .reject trivial
      | none =>
        dsimp only
        refine .bind (.lift (withObjs_setObj h hi _) ?_)
        exact loadObject_any F hstr (h.set hi .init).1 (h.set hi .init).2

theorem loadObjects_any {vm : VM} (hstr : vm.strings.slots.length = vm.strings.cap) (hh : vm.handles = []) :
    Ld (loadObjects F) vm (fun _ v => ∃ t hs es, v = { vm with objects := t, handles := hs, errors := es } ∧ TabShape t ∧
      (∀ (i : Nat) (o : Obj), t.slots[i]? = some (some o) → ObjGood o) ∧
      ∀ i ∈ hs, ∃ o, t.slots[i]? = some (some o)) any := by
  unfold loadObjects
  refine .bind (.read32 (fun cap hcap => ?_) trivial)
  split
  · exact .reject trivial
  · next hp =>
    refine .bind (.mallocArray fun _ => .bind (.get ?_))
    rw [if_neg (by simp [hh])]
    refine .bind (.upd (.bind (.read32 (fun count _ => ?_) trivial)))
    split
    · exact .reject trivial
    · refine .bind ?_
      refine (Ld.times (J := fun _ v => ∃ slots hs es, v = withObjs vm cap slots hs es ∧ ObjSlots cap slots hs)
        (fun i v hv => ?_) count 0 ⟨List.replicate cap none, [], vm.errors, by unfold withObjs; rw [hh], by simp, ?_, by simp⟩).mono ?_
        fun _ h => h
      · obtain ⟨slots, hs, es, rfl, h⟩ := hv
        exact loadEntry_any F hstr h
      · intro i o ho
        rw [List.getElem?_replicate] at ho
        split at ho <;> cases ho
      · rintro - v ⟨slots, hs, es, rfl, h⟩
        exact .upd ⟨{ slots, cap, holes := holesFrom 0 [] slots }, hs, es, rfl,
          tabShape_rebuilt h.len (pow_or_zero (by simpa using hp) hcap), h.good, h.handles⟩

/-! ## Names -/

theorem loadGlobals_any {vm : VM} : Ld loadGlobals vm (fun _ v => ∃ gs, v = { vm with globals := gs }) any := by
  unfold loadGlobals
  refine .bind (.upd (.bind (.read32 (fun n _ => .bind (.mallocArray fun _ => ?_)) trivial)))
  refine (Ld.times (J := fun _ v => ∃ gs, v = { vm with globals := gs }) (fun i v hv => ?_) n 0 ⟨[], rfl⟩).mono
    (fun _ _ h => h) fun _ h => h
  obtain ⟨gs, rfl⟩ := hv
  exact .bind (loadString_any (fun s _ => .bind (.read32 (fun p _ => .upd ⟨gs ++ [(s, p)], rfl⟩) trivial)) trivial
    fun _ => trivial)

theorem loadFiles_any {vm : VM} : Ld loadFiles vm (fun _ v => ∃ gs, v = { vm with sourceFiles := gs }) any := by
  unfold loadFiles
  refine .bind (.read32 (fun n _ => .bind (.upd (.bind (.mallocArray fun _ => ?_)))) trivial)
  refine (Ld.times (J := fun _ v => ∃ gs, v = { vm with sourceFiles := gs }) (fun i v hv => ?_) n 0 ⟨[], rfl⟩).mono
    (fun _ _ h => h) fun _ h => h
  obtain ⟨gs, rfl⟩ := hv
  exact .bind (loadString_any (fun s _ => .upd ⟨gs ++ [s], rfl⟩) trivial fun _ => trivial)

theorem loadMarkers_any {vm : VM} : Ld loadMarkers vm (fun _ v => ∃ gs, v = { vm with markers := gs }) any := by
  unfold loadMarkers
  refine .bind (.read32 (fun n _ => .bind (.upd (.bind (.mallocArray fun _ => ?_)))) trivial)
  refine (Ld.times (J := fun _ v => ∃ gs, v = { vm with markers := gs }) (fun i v hv => ?_) n 0 ⟨[], rfl⟩).mono
    (fun _ _ h => h) fun _ h => h
  obtain ⟨gs, rfl⟩ := hv
  exact .bind (.read32 (fun a _ => .bind (.read32 (fun b _ => .bind (.read32 (fun c _ => .bind (.read32 (fun d _ =>
    .upd ⟨gs ++ [⟨a, b, c, d⟩], rfl⟩) trivial)) trivial)) trivial)) trivial)

theorem loadSubsystems_any {vm : VM} (h : vm.subsystems.length = 16) : Ld loadSubsystems vm (fun _ v => v = vm) any := by
  unfold loadSubsystems
  refine .bind (.read32 (fun n _ => ?_) trivial)
  refine (Ld.times (J := fun _ v => v = vm) (fun i v hv => ?_) n 0 rfl).mono (fun _ _ h => h) fun _ h => h
  subst hv
  refine .bind (loadString_any (fun name _ => .bind (.get ?_)) trivial fun _ => trivial)
  have : subBucket name < 16 := by
    unfold subBucket
    exact Nat.lt_of_le_of_lt Nat.and_le_right (by omega)
  rw [List.getElem?_eq_getElem (by omega)]
  dsimp only
  split
  · exact .reject trivial
  · exact .pure rfl

theorem loadTypes_any {vm : VM} (hn : (vm.extTypes.map (·.name)).Nodup) : Ld loadTypes vm (fun _ v => v = vm ∧
    ∀ (i : Nat) (o : Obj), vm.objects.slots[i]? = some (some o) → o.extType = UINT_MAX ∨ o.extType < vm.extTypes.length) any := by
  unfold loadTypes
  refine .bind (.read32 (fun n _ => .bind (.get ?_)) trivial)
  split
  · exact .reject trivial
  · next hc =>
    have hc : n = vm.extTypes.length := by simpa using hc
    split
    · exact .stop trivial
    · refine .bind ?_
      refine (Ld.times (J := fun _ v => v = vm) (fun i v hv => ?_) n 0 rfl).mono ?_ fun _ h => h
      · subst hv
        unfold loadType
        refine .bind (.get (.bind (loadStringIn_any (fun name => ?_) trivial fun _ => trivial)))
        cases ht : v.extTypes[i]? with
        | none => exact .reject trivial
        | some t =>
          dsimp only
          split
          · exact .reject trivial
          · next he =>
            rw [ne_eq, not_not, strcmp_eq] at he
            rw [if_neg (by rw [he, findTypeFrom_get hn ht 0]; simp)]
            exact .pure rfl
      · rintro - v rfl
        refine .bind (.get ?_)
        split
        · next hb =>
          refine .pure ⟨rfl, fun i o ho => ?_⟩
          have := List.all_eq_true.mp hb (some o) (List.mem_of_getElem? ho)
          simp at this
          rw [← hc]
          exact this
        · exact .stop trivial

/-! ## Coroutines -/

/-- The VM with coroutines being loaded. -/
def withExt (vm : VM) (slots : List (Option Obj)) (cs : List (Option Ctx)) (es : List String) : VM :=
  { vm with objects := { vm.objects with slots := slots }, ctxs := cs, errors := es }

/-- A coroutine's context as it was loaded. -/
structure CoCtx (max : Nat) (es : List String) (c : Ctx) : Prop where
  parent : c.parent = none
  shape : StackShape max c.stack ∧ c.stack.size ≤ c.stack.cap ∨
    coFailed ∈ es ∧ (c.stack = Stack.init ∨ StackShape max c.stack)

theorem CoCtx.errs {max : Nat} {es es' : List String} {c : Ctx} (h : CoCtx max es c) (he : es <+: es') : CoCtx max es' c :=
  ⟨h.parent, h.shape.imp_right fun h => ⟨he.subset h.1, h.2⟩⟩

/-- An object between the loads of the object table and of the coroutines. -/
structure ExtObj (vm : VM) (cs : List (Option Ctx)) (past : Prop) (o : Obj) : Prop where
  len : o.buckets.length = 16
  canon : ∀ es ∈ o.buckets, ∀ e ∈ es, Canon e.1
  type : o.extType = UINT_MAX ∨ o.extType < vm.extTypes.length
  data : o.extData = none ∨ o.extType = vm.coType ∧ ∃ j, o.extData = some j ∧ vm.ctxs.length ≤ j ∧ j < cs.length
  done : past → o.extType = vm.coType → o.extData ≠ none
  todo : ¬ past → o.extData = none

/-- The state after the slots below `i`. -/
structure ExtSt (vm : VM) (i : Nat) (slots : List (Option Obj)) (cs : List (Option Ctx)) (es : List String) : Prop where
  len : slots.length = vm.objects.cap
  holes : ∀ k : Nat, slots[k]? = some none ↔ vm.objects.slots[k]? = some none
  obj : ∀ (k : Nat) (o : Obj), slots[k]? = some (some o) → ExtObj vm cs (k < i) o
  grow : vm.ctxs.length ≤ cs.length
  old : ∀ j : Nat, j < vm.ctxs.length → cs[j]? = vm.ctxs[j]?
  new : ∀ j : Nat, vm.ctxs.length ≤ j → j < cs.length → ∃ c, cs[j]? = some (some c) ∧ CoCtx vm.limits.maxStackSize es c
  errs : vm.errors <+: es

/-- Nothing happens in slot `i`. -/
theorem ExtSt.skip {vm : VM} {i : Nat} {slots : List (Option Obj)} {cs : List (Option Ctx)} {es es' : List String}
    (h : ExtSt vm i slots cs es) (he : es <+: es')
    (hi : ∀ o, slots[i]? = some (some o) → o.extType ≠ vm.coType) : ExtSt vm (i + 1) slots cs es' where
  len := h.len
  holes := h.holes
  obj k o ho := by
    have := h.obj k o ho
    refine ⟨this.len, this.canon, this.type, this.data, fun hk ht => ?_, fun hk => this.todo fun c => hk (by omega)⟩
    by_cases hki : k = i
    · subst hki; exact absurd ht (hi o ho)
    · exact this.done (by omega) ht
  grow := h.grow
  old := h.old
  new j h1 h2 := by
    obtain ⟨c, h3, h4⟩ := h.new j h1 h2
    exact ⟨c, h3, h4.errs he⟩
  errs := h.errs.trans he

/-- The object in slot `i` gets a context. -/
theorem ExtSt.add {vm : VM} {i : Nat} {slots : List (Option Obj)} {cs : List (Option Ctx)} {es es' : List String}
    (h : ExtSt vm i slots cs es) (he : es <+: es') {o : Obj} (ho : slots[i]? = some (some o)) (ht : o.extType = vm.coType)
    {c : Ctx} (hc : CoCtx vm.limits.maxStackSize es' c) :
    ExtSt vm (i + 1) (slots.set i (some { o with extData := some cs.length, extType := vm.coType })) (cs ++ [some c]) es' := by
  have hlt := (List.getElem?_eq_some_iff.mp ho).1
  have hg := h.grow
  constructor
  · rw [List.length_set]; exact h.len
  · intro k
    rw [List.getElem?_set]
    split
    · next e =>
      subst e
      constructor
      · intro c; cases c
      · intro c
        rw [(h.holes i).mpr c] at ho
        cases ho
    · exact h.holes k
  · intro k o' ho'
    rw [List.getElem?_set] at ho'
    split at ho'
    · next e =>
      subst e
      cases ho'
      have := h.obj i o ho
      refine ⟨this.len, this.canon, ?_, .inr ⟨rfl, cs.length, rfl, hg, by simp⟩, by simp, by simp⟩
      rw [← ht]; exact this.type
    · next e =>
      have := h.obj k o' ho'
      refine ⟨this.len, this.canon, this.type, ?_, fun hk => this.done (by omega), fun hk => this.todo (by omega)⟩
      refine this.data.imp_right ?_
      rintro ⟨h1, j, h2, h3, h4⟩
      exact ⟨h1, j, h2, h3, by rw [List.length_append]; exact Nat.lt_add_right _ h4⟩
  · rw [List.length_append]; omega
  · intro j hj
    rw [List.getElem?_append_left (by omega)]
    exact h.old j hj
  · intro j h1 h2
    by_cases hj : j < cs.length
    · obtain ⟨c, h3, h4⟩ := h.new j h1 hj
      exact ⟨c, by rw [List.getElem?_append_left hj]; exact h3, h4.errs he⟩
    · have : j = cs.length := by
        rw [List.length_append] at h2
        simp at h2
        omega
      subst this
      exact ⟨c, by simp, hc⟩
  · exact h.errs.trans he

theorem Ld.attempt {vm : VM} {x : L Unit} {Q : Unit → VM → Prop} {E : VM → Prop} {Q' : Bool → VM → Prop} {E' : VM → Prop}
    (h : Ld x vm Q E) (h1 : ∀ v, Q () v → Q' true v) (h2 : ∀ v, E v → Q' false v) : Ld (Save.attempt x) vm Q' E' := by
  intro b
  have := h b
  unfold Save.attempt
  cases hx : x b vm with
  | ub k =>
    rw [hx] at this
    rw [M.bind_ub hx]
    exact this
  | ok r =>
    obtain ⟨⟨a, b'⟩, v⟩ := r
    rw [hx] at this
    rw [M.bind_ok hx]
    cases a with
    | none => exact h2 v this
    | some a => exact h1 v this

theorem coContext_any {vm : VM} {slots : List (Option Obj)} {cs : List (Option Ctx)} {es : List String}
    (hl : slots.length = vm.objects.cap) {i : Nat} {o : Obj} (ho : slots[i]? = some (some o)) :
    coContext i none (withExt vm slots cs es) = .ok (cs.length, withExt vm
      (slots.set i (some { o with extData := some cs.length, extType := vm.coType })) (cs ++ [some Ctx.init]) es) := by
  have hlt := (List.getElem?_eq_some_iff.mp ho).1
  have hg : ∀ (sl : List (Option Obj)) (cs' : List (Option Ctx)) (o : Obj), sl.length = vm.objects.cap →
      sl[i]? = some (some o) → objFromValue (.obj i) (withExt vm sl cs' es) = .ok (some (i, o), withExt vm sl cs' es) := by
    intro sl cs' o hl ho
    have hi : ¬ i ≥ vm.objects.cap := by
      have := (List.getElem?_eq_some_iff.mp ho).1
      omega
    have : getObj i (withExt vm sl cs' es) = .ok (some o, withExt vm sl cs' es) := by
      simp [getObj, Table.get, withExt, hi, Table.read, ho]
    unfold objFromValue
    dsimp only
    rw [M.bind_ok this]
    rfl
  have hs : ∀ (sl : List (Option Obj)) (cs' : List (Option Ctx)) (o : Obj), sl.length = vm.objects.cap →
      setObj i o (withExt vm sl cs' es) = .ok ((), withExt vm (sl.set i (some o)) cs' es) := by
    intro sl cs' o hl'
    have : i < sl.length := by omega
    simp [setObj, Table.write, withExt, this]
  unfold coContext
  dsimp only
  rw [M.bind_ok (get_run _)]
  refine (M.bind_ok (vm' := withExt vm slots (cs ++ [some Ctx.init]) es) (modify_run _ _)).trans ?_
  have h1 : setExtData (.obj i) (withExt vm slots cs es).ctxs.length (withExt vm slots (cs ++ [some Ctx.init]) es) =
      .ok (true, withExt vm (slots.set i (some { o with extData := some cs.length })) (cs ++ [some Ctx.init]) es) := by
    unfold setExtData
    rw [M.bind_ok (hg _ _ o hl ho)]
    dsimp only
    rw [M.bind_ok (hs _ _ _ hl)]
    rfl
  rw [M.bind_ok h1]
  have h2 : setExtType (.obj i) vm.coType (withExt vm (slots.set i (some { o with extData := some cs.length })) (cs ++ [some Ctx.init]) es) =
      .ok (true, withExt vm (slots.set i (some { o with extData := some cs.length, extType := vm.coType }))
        (cs ++ [some Ctx.init]) es) := by
    unfold setExtType
    rw [M.bind_ok (hg _ _ { o with extData := some cs.length } (by simpa using hl) (List.getElem?_set_self hlt))]
    dsimp only
    rw [M.bind_ok (hs _ _ _ (by simpa using hl)), List.set_set]
    rfl
  refine (M.bind_ok h2).trans ?_
  rfl

theorem loadCoroutine_any {vm : VM} {i : Nat} {slots : List (Option Obj)} {cs : List (Option Ctx)} {es : List String}
    (h : ExtSt vm i slots cs es) {o : Obj} (ho : slots[i]? = some (some o)) (ht : o.extType = vm.coType) :
    Ld (loadCoroutine i none) (withExt vm slots cs es) (fun _ v => ∃ slots' cs' es', v = withExt vm slots' cs' es' ∧
      ExtSt vm (i + 1) slots' cs' es') any := by
  unfold loadCoroutine
  refine .bind (.lift (coContext_any h.len ho) ?_)
  have hget : (withExt vm (slots.set i (some { o with extData := some cs.length, extType := vm.coType })) (cs ++ [some Ctx.init])
    es).ctxs[cs.length]? = some (some Ctx.init) := by simp [withExt]
  have hset : ∀ d : Ctx, (cs ++ [some Ctx.init]).set cs.length (some d) = cs ++ [some d] := by
    intro d
    simp
  have hown : ∀ (d : Ctx) (es' : List String), es <+: es' → CoCtx vm.limits.maxStackSize es' d →
      Ld (lift (coOwner i cs.length)) (withExt vm
        (slots.set i (some { o with extData := some cs.length, extType := vm.coType })) (cs ++ [some d]) es')
        (fun _ v => ∃ slots' cs' es', v = withExt vm slots' cs' es' ∧ ExtSt vm (i + 1) slots' cs' es') any := by
    intro d es' he hd
    refine .lift (a := ()) (v := withExt vm (slots.set i (some { o with extData := some cs.length, extType := vm.coType }))
      (cs ++ [some { d with coObj := .obj i }]) es') ?_ ⟨_, _, _, rfl, h.add he ho ht ⟨hd.parent, hd.shape⟩⟩
    have hat : ctxAt (withExt vm (slots.set i (some { o with extData := some cs.length, extType := vm.coType }))
      (cs ++ [some d]) es') cs.length = .ok d := ctxAt_eq (by simp [withExt])
    unfold coOwner
    rw [M.bind_ok (get_run _), hat, M.bind_ok (liftR_ok d _)]
    unfold setCtx
    rw [hat]
    simp [withExt]
  refine .bind ((loadContext_any hget (by decide) true).attempt ?_ ?_)
  · rintro v ⟨d, rfl, h1, h2, h3, h4, -⟩
    rw [if_pos rfl]
    have : setAt (withExt vm (slots.set i (some { o with extData := some cs.length, extType := vm.coType }))
        (cs ++ [some Ctx.init]) es) cs.length d = withExt vm
          (slots.set i (some { o with extData := some cs.length, extType := vm.coType })) (cs ++ [some d]) es := by
      unfold setAt withExt
      dsimp only
      rw [hset]
    rw [this]
    exact hown d es List.prefix_rfl ⟨h3, .inl ⟨h1, h2⟩⟩
  · rintro v ⟨d, es', rfl, h1, h2, h3, h4⟩
    refine .bind (.lift (addError_run _ _) ?_)
    have : (setE (withExt vm (slots.set i (some { o with extData := some cs.length, extType := vm.coType }))
        (cs ++ [some Ctx.init]) es) cs.length d es').addErr coFailed = withExt vm
          (slots.set i (some { o with extData := some cs.length, extType := vm.coType })) (cs ++ [some d]) (es' ++ [coFailed]) := by
      unfold setE setAt withExt VM.addErr
      dsimp only
      rw [hset]
    refine Eq.mpr (congrArg (fun v => Ld _ v _ _) this) ?_
    exact hown d _ (List.IsPrefix.trans h1 (List.prefix_append ..)) ⟨h2, .inr ⟨by simp, h4⟩⟩

theorem loadExtObjects_any {vm : VM} (hl : vm.objects.slots.length = vm.objects.cap)
    (hg : ∀ (i : Nat) (o : Obj), vm.objects.slots[i]? = some (some o) → ObjGood o)
    (ht : ∀ (i : Nat) (o : Obj), vm.objects.slots[i]? = some (some o) → o.extType = UINT_MAX ∨ o.extType < vm.extTypes.length)
    {t : ExtType} (hco : vm.extTypes[vm.coType]? = some t) (hser : t.hasSerialize = true) (hmax : vm.coType ≠ UINT_MAX) :
    Ld loadExtObjects vm (fun _ v => ∃ slots cs es, v = withExt vm slots cs es ∧ ExtSt vm vm.objects.cap slots cs es) any := by
  unfold loadExtObjects
  refine .bind (.get ?_)
  refine (Ld.timesTo (N := vm.objects.cap) (J := fun i v => ∃ slots cs es, v = withExt vm slots cs es ∧ ExtSt vm i slots cs es)
    (fun i v hi hv => ?_) vm.objects.cap 0 (by omega) ⟨vm.objects.slots, vm.ctxs, vm.errors, rfl, ?_⟩).mono ?_ fun _ h => h
  · obtain ⟨slots, cs, es, rfl, h⟩ := hv
    unfold loadExtObject
    refine .bind (.get ?_)
    obtain ⟨x, hx⟩ : ∃ x, slots[i]? = some x := ⟨slots[i]'(by rw [h.len]; exact hi), List.getElem?_eq_getElem _⟩
    refine .bind (.lift (a := x) (v := withExt vm slots cs es) ?_ ?_)
    · have : (withExt vm slots cs es).objects.read i = .ok x := by simp [Table.read, withExt, hx]
      rw [this]; rfl
    · cases x with
      | none => exact .pure ⟨slots, cs, es, rfl, h.skip List.prefix_rfl (by rw [hx]; simp)⟩
      | some o =>
        dsimp only
        split
        · next hne =>
          have hdata := (h.obj i o hx).todo (by omega)
          by_cases hc : o.extType = vm.coType
          · have : (withExt vm slots cs es).extTypes[o.extType]? = some t := by rw [hc]; exact hco
            rw [this]
            dsimp only
            rw [if_pos ⟨hser, hc⟩, hdata]
            exact loadCoroutine_any h hx hc
          · have hskip : ∀ es', es <+: es' → ExtSt vm (i + 1) slots cs es' := fun es' he =>
              h.skip he (by rw [hx]; rintro o' ⟨⟩; exact hc)
            cases hty : (withExt vm slots cs es).extTypes[o.extType]? with
            | none =>
              refine .lift (addError_run _ _) ⟨slots, cs, _, rfl, hskip _ (List.prefix_append ..)⟩
            | some u =>
              dsimp only
              rw [if_neg fun c => hc c.2]
              exact .pure ⟨slots, cs, es, rfl, hskip es List.prefix_rfl⟩
        · next hne =>
          refine .pure ⟨slots, cs, es, rfl, h.skip List.prefix_rfl ?_⟩
          rw [hx]
          rintro o' ⟨⟩ hc
          exact hne (by rw [hc]; exact hmax)
  · refine ⟨hl, fun _ => Iff.rfl, fun k o ho => ?_, Nat.le_refl _, fun _ _ => rfl, fun j h1 h2 => by omega, List.prefix_rfl⟩
    have := hg k o ho
    exact ⟨this.len, this.canon, ht k o ho, .inl this.data, fun c => absurd c (by omega), fun _ => this.data⟩
  · rintro - v ⟨slots, cs, es, rfl, h⟩
    exact ⟨slots, cs, es, rfl, by simpa using h⟩

/-! ## The chain of active coroutines -/

/-- Contexts of which only parents and states changed. -/
def Relinked (cs cs' : List (Option Ctx)) : Prop :=
  cs'.length = cs.length ∧ ∀ (j : Nat) (c : Ctx), cs[j]? = some (some c) →
    ∃ c', cs'[j]? = some (some c') ∧ c'.stack = c.stack ∧ c'.ip = c.ip ∧ c'.coObj = c.coObj

theorem Relinked.refl (cs : List (Option Ctx)) : Relinked cs cs := ⟨rfl, fun _ c h => ⟨c, h, rfl, rfl, rfl⟩⟩

theorem Relinked.set {cs cs' : List (Option Ctx)} (h : Relinked cs cs') {i : Nat} {c : Ctx} (hc : cs'[i]? = some (some c))
    {d : Ctx} (h1 : d.stack = c.stack) (h2 : d.ip = c.ip) (h3 : d.coObj = c.coObj) : Relinked cs (cs'.set i (some d)) := by
  have hlt := (List.getElem?_eq_some_iff.mp hc).1
  refine ⟨by rw [List.length_set]; exact h.1, fun j e he => ?_⟩
  obtain ⟨e', h4, h5, h6, h7⟩ := h.2 j e he
  rw [List.getElem?_set]
  split
  · next hij =>
    subst hij
    rw [h4] at hc
    cases hc
    exact ⟨d, rfl, h1.trans h5, h2.trans h6, h3.trans h7⟩
  · exact ⟨e', h4, h5, h6, h7⟩

/-- The VM with active coroutines being linked. -/
def withLinks (vm : VM) (cs : List (Option Ctx)) (es : List String) : VM := { vm with ctxs := cs, errors := es }

/-- Every coroutine object has a live context. -/
def CoData (vm : VM) : Prop := ∀ (k : Nat) (o : Obj), vm.objects.slots[k]? = some (some o) → o.extType = vm.coType →
  ∃ j c, o.extData = some j ∧ vm.ctxs[j]? = some (some c)

theorem chainCtx_any {vm : VM} {cs : List (Option Ctx)} {es : List String} (hl : vm.objects.slots.length = vm.objects.cap)
    (hr : ∃ c, vm.ctxs[0]? = some (some c)) (h : CoData vm) (hcs : Relinked vm.ctxs cs) (v : Value) :
    Ld (chainCtx v) (withLinks vm cs es) (fun i v' => v' = withLinks vm cs es ∧ ∃ c, cs[i]? = some (some c)) any := by
  have live : ∀ {i : Nat} {c : Ctx}, vm.ctxs[i]? = some (some c) → ∃ c, cs[i]? = some (some c) := by
    intro i c hc
    obtain ⟨c', h1, -⟩ := hcs.2 i c hc
    exact ⟨c', h1⟩
  unfold chainCtx
  refine .bind (.get ?_)
  cases v with
  | nil =>
    refine .bind (.lift rfl ?_)
    rw [if_pos rfl]
    obtain ⟨c, hc⟩ := hr
    exact .pure ⟨rfl, live hc⟩
  | obj id =>
    obtain ⟨o, ho⟩ := get_len hl id
    have hob : objFromValue (.obj id) (withLinks vm cs es) = .ok (o.map (fun o => (id, o)), withLinks vm cs es) := by
      unfold objFromValue
      dsimp only
      have : getObj id (withLinks vm cs es) = .ok (o, withLinks vm cs es) := by
        unfold getObj withLinks
        dsimp only
        rw [ho]
      rw [M.bind_ok this]
      rfl
    refine .bind (.lift hob ?_)
    rw [if_neg (by simp)]
    cases o with
    | none => exact .reject trivial
    | some o =>
      dsimp only [Option.map_some]
      split
      · next ht =>
        have hs : vm.objects.slots[id]? = some (some o) := by
          unfold Table.get at ho
          split at ho
          · cases ho
          · unfold Table.read at ho
            split at ho
            · next hx => cases ho; exact hx
            · cases ho
        obtain ⟨j, c, hj, hc⟩ := h id o hs ht
        rw [hj]
        exact .pure ⟨rfl, live hc⟩
      · exact .reject trivial
  | _ =>
    refine .bind (.lift rfl ?_)
    rw [if_neg (by simp)]
    exact .reject trivial

theorem linkCtx_any {vm : VM} {cs : List (Option Ctx)} {es : List String} (hcs : Relinked vm.ctxs cs) {last : Option Nat}
    (hlast : ∀ j, last = some j → ∃ c, cs[j]? = some (some c)) {i : Nat} {c : Ctx} (hi : cs[i]? = some (some c)) :
    Ld (linkCtx last i) (withLinks vm cs es) (fun _ v => ∃ cs' es', v = withLinks vm cs' es' ∧ Relinked vm.ctxs cs' ∧
      Relinked cs cs' ∧ es <+: es') any := by
  have fin : ∀ (cs' : List (Option Ctx)) (es' : List String), Relinked vm.ctxs cs' → Relinked cs cs' → es <+: es' →
      Ld (match last with
        | none => pure ()
        | some j => do
          let vm ← lift get
          let d ← lift (liftR (ctxAt vm j))
          if d.parent ≠ none then reject "Corrupt coroutine chain."
          else if j = 0 then reject "Corrupt coroutine chain."
          else updCtx j fun d => { d with parent := some i }) (withLinks vm cs' es') (fun _ v => ∃ cs' es', v = withLinks vm cs' es' ∧ Relinked vm.ctxs cs' ∧
      Relinked cs cs' ∧ es <+: es') any := by
    intro cs' es' h1 h2 h3
    cases last with
    | none => exact .pure ⟨cs', es', rfl, h1, h2, h3⟩
    | some j =>
      obtain ⟨d, hd⟩ := hlast j rfl
      obtain ⟨d', hd', -⟩ := h2.2 j d hd
      dsimp only
      refine .bind (.get (.bind (.lift (by rw [ctxAt_eq (vm := withLinks vm cs' es') (i := j) (c := d') hd']; exact liftR_ok _ _) ?_)))
      split
      · exact .reject trivial
      · split
        · exact .reject trivial
        · refine updCtx_any (vm := withLinks vm cs' es') (c := d') hd' ⟨_, es', rfl, h1.set hd' rfl rfl rfl, h2.set hd' rfl rfl rfl, h3⟩
  unfold linkCtx
  refine .bind (.get (.bind (.lift (by rw [ctxAt_eq (vm := withLinks vm cs es) (i := i) (c := c) hi]; exact liftR_ok _ _) ?_)))
  by_cases hrun : c.state ≠ .running
  · rw [if_pos hrun]
    refine .bind (.lift (addError_run _ _) (.bind (updCtx_any (c := c) hi ?_)))
    exact fin (cs.set i (some { c with state := .running })) (es ++ ["Dormant coroutine recorded in active coroutine chain."])
      (hcs.set hi rfl rfl rfl) ((Relinked.refl cs).set hi rfl rfl rfl) (List.prefix_append ..)
  · rw [if_neg hrun]
    exact fin cs es hcs (Relinked.refl cs) List.prefix_rfl

theorem loadChain_any {vm : VM} (hl : vm.objects.slots.length = vm.objects.cap) (hr : ∃ c, vm.ctxs[0]? = some (some c))
    (h : CoData vm) : ∀ (n : Nat) (b : Bytes), b.length ≤ n → ∀ (first last : Option Nat) (cs : List (Option Ctx)) (es : List String),
      Relinked vm.ctxs cs → (∀ j, last = some j → ∃ c, cs[j]? = some (some c)) →
      (∀ j, first = some j → ∃ c, cs[j]? = some (some c)) → vm.errors <+: es →
      Out (fun i v => ∃ cs' es', v = withLinks vm cs' es' ∧ Relinked vm.ctxs cs' ∧ (∃ c, cs'[i]? = some (some c)) ∧
        vm.errors <+: es') any (loadChain first last b (withLinks vm cs es)) := by
  intro n
  induction n with
  | zero =>
    intro b hb
    have : b = [] := List.length_eq_zero_iff.mp (by omega)
    subst this
    intros
    unfold loadChain
    trivial
  | succ n ih =>
    intro b hb first last cs es h1 h2 h3 h4
    unfold loadChain
    split
    · next x y z w x' y' z' w' rest =>
      generalize mkValue (of32 x y z w) (of32 x' y' z' w') = v
      dsimp only
      have hc := chainCtx_any (es := es) hl hr h h1 v rest
      cases hres : chainCtx v rest (withLinks vm cs es) with
      | ub k =>
        rw [hres] at hc
        rw [M.bind_ub hres]
        exact hc
      | ok r =>
        obtain ⟨⟨a, b'⟩, v'⟩ := r
        rw [hres] at hc
        rw [M.bind_ok hres]
        cases a with
        | none => trivial
        | some i =>
          obtain ⟨rfl, c, hi⟩ := hc
          dsimp only
          have hk := linkCtx_any (vm := vm) (es := es) h1 h2 hi rest
          cases hres2 : linkCtx last i rest (withLinks vm cs es) with
          | ub k =>
            rw [hres2] at hk
            rw [M.bind_ub hres2]
            exact hk
          | ok r =>
            obtain ⟨⟨a, b''⟩, v''⟩ := r
            rw [hres2] at hk
            rw [M.bind_ok hres2]
            cases a with
            | none => trivial
            | some u =>
              obtain ⟨cs', es', rfl, h5, h6, h7⟩ := hk
              have live : ∀ {j : Nat} {c : Ctx}, cs[j]? = some (some c) → ∃ c, cs'[j]? = some (some c) := by
                intro j c hc
                obtain ⟨c', h8, -⟩ := h6.2 j c hc
                exact ⟨c', h8⟩
              have hfirst : ∃ c, cs'[first.getD i]? = some (some c) := by
                cases first with
                | none => exact live hi
                | some j =>
                  obtain ⟨c, hc⟩ := h3 j rfl
                  exact live hc
              dsimp only
              split
              · exact ⟨cs', es', rfl, h5, hfirst, h4.trans h7⟩
              · refine ih rest (by simp only [List.length_cons] at hb; omega) _ _ cs' es' h5 ?_ ?_ (h4.trans h7)
                · rintro j ⟨⟩; exact live hi
                · rintro j ⟨⟩; exact hfirst
    · trivial

theorem loadActive_any {vm : VM} (hl : vm.objects.slots.length = vm.objects.cap) (hr : ∃ c, vm.ctxs[0]? = some (some c))
    (h : CoData vm) : Ld loadActive vm (fun _ v => ∃ cs es i, v = { vm with ctxs := cs, errors := es, cur := i } ∧
      Relinked vm.ctxs cs ∧ (∃ c, cs[i]? = some (some c)) ∧ vm.errors <+: es) any := by
  unfold loadActive
  have key : Ld (loadChain none none) vm (fun i v => ∃ cs' es', v = withLinks vm cs' es' ∧ Relinked vm.ctxs cs' ∧
      (∃ c, cs'[i]? = some (some c)) ∧ vm.errors <+: es') any := fun b =>
    loadChain_any hl hr h b.length b (Nat.le_refl _) none none vm.ctxs vm.errors (Relinked.refl _) (by simp) (by simp)
      List.prefix_rfl
  refine .bind (key.mono ?_ fun _ h => h)
  rintro i v ⟨cs, es, rfl, h1, h2, h3⟩
  exact .upd ⟨cs, es, i, rfl, h1, h2, h3⟩

/-! ## The whole image -/

theorem load_any {v : VM} (h : Ready v) : Ld (load F) v (fun _ v' => Accepted v v') any := by
  obtain ⟨r, hr, hrc⟩ := h.root
  have h1 := h.handles
  have h2 := h.names
  have h3 := h.subs
  obtain ⟨t, ht, hser⟩ := h.coType
  have h4 := h.coMax
  clear h
  obtain ⟨errors, ctxs, cur, statics, staticMask, instrs, instrMask, strings, sbuckets, objects, handles, functions, extFuncs,
    gc, globals, limits, extTypes, instrLeft, subsystems, sourceFiles, markers, coType, cleanupLog⟩ := v
  dsimp only at hr h1 h2 h3 ht h4
  unfold load
  refine .bind (loadHeader_any.mono ?_ fun _ h => h)
  rintro - v1 rfl
  refine .bind (loadInstrs_any.mono ?_ fun _ h => h)
  rintro - v2 ⟨is, im, rfl, hinstr⟩
  dsimp only [setAt, withExt]
  refine .bind (loadErrors_any.mono ?_ fun _ h => h)
  rintro - v3 ⟨es, rfl⟩
  dsimp only [setAt, withExt]
  refine .bind (loadStatics_any.mono ?_ fun _ h => h)
  rintro - v4 ⟨xs, xm, rfl, hstat⟩
  dsimp only [setAt, withExt]
  refine .bind ((loadContext_any (c := r) (by exact hr) hrc false).mono ?_ fun _ _ => trivial)
  rintro - v5 ⟨d, rfl, hd1, hd2, hd3, hd4, -⟩
  try dsimp only [setAt, withExt]
  refine .bind (loadStrings_any.mono ?_ fun _ h => h)
  rintro - v6 ⟨st, bs, rfl, hst, hbs⟩
  try dsimp only [setAt, withExt]
  refine .bind (loadGc_any.mono ?_ fun _ h => h)
  rintro - v7 ⟨g, rfl, hgc⟩
  try dsimp only [setAt, withExt]
  refine .bind (loadFunctions_any.mono ?_ fun _ h => h)
  rintro - v8 ⟨fs, gs, rfl, hfs, hgs, hgs'⟩
  try dsimp only [setAt, withExt]
  refine .bind ((loadObjects_any F (by exact hst.len) (by exact h1)).mono ?_ fun _ h => h)
  rintro - v9 ⟨ot, hs, es9, rfl, hot, hgood, hhs⟩
  try dsimp only [setAt, withExt]
  refine .bind (loadGlobals_any.mono ?_ fun _ h => h)
  rintro - v10 ⟨gl, rfl⟩
  try dsimp only [setAt, withExt]
  refine .bind ((loadTypes_any (by exact h2)).mono ?_ fun _ h => h)
  rintro - v11 ⟨rfl, htypes⟩
  try dsimp only [setAt, withExt]
  refine .bind ((loadSubsystems_any (by exact h3)).mono ?_ fun _ h => h)
  rintro - v12 rfl
  try dsimp only [setAt, withExt]
  refine .bind ((loadExtObjects_any (by exact hot.len) (by exact hgood) (by exact htypes) (by exact ht) hser (by exact h4)).mono ?_ fun _ h => h)
  rintro - v13 ⟨slots, cs, es13, rfl, hext⟩
  try dsimp only [setAt, withExt]
  refine .bind (loadFiles_any.mono ?_ fun _ h => h)
  rintro - v14 ⟨fl, rfl⟩
  try dsimp only [setAt, withExt]
  refine .bind (loadMarkers_any.mono ?_ fun _ h => h)
  rintro - v15 ⟨mk, rfl⟩
  try dsimp only [setAt, withExt]
  have hlen0 : 0 < ctxs.length := (List.getElem?_eq_some_iff.mp hr).1
  have hgrow : ctxs.length ≤ cs.length := by
    have := hext.grow
    simpa [setAt] using this
  have hroot : cs[0]? = some (some d) := by
    rw [hext.old 0 (by simpa [setAt] using hlen0)]
    show (ctxs.set 0 (some d))[0]? = _
    rw [List.getElem?_set_self hlen0]
  have hnew : ∀ (j : Nat), ctxs.length ≤ j → j < cs.length → ∃ c, cs[j]? = some (some c) ∧
      CoCtx limits.maxStackSize es13 c := by
    intro j h1 h2
    refine hext.new j ?_ h2
    simpa [setAt] using h1
  have hdata : ∀ (k : Nat) (o : Obj), slots[k]? = some (some o) → o.extData = none ∨ o.extType = coType ∧
      ∃ j c, o.extData = some j ∧ cs[j]? = some (some c) := by
    intro k o ho
    refine (hext.obj k o ho).data.imp_right ?_
    rintro ⟨h1, j, h2, h3, h4⟩
    obtain ⟨c, h5, -⟩ := hext.new j h3 h4
    exact ⟨h1, j, c, h2, h5⟩
  refine (loadActive_any (by exact hext.len) ⟨d, by exact hroot⟩ ?_).mono ?_ fun _ h => h
  · intro k o ho hty
    have hk : k < ot.cap := by
      have h1 := (List.getElem?_eq_some_iff.mp ho).1
      have h2 := hext.len
      exact Nat.lt_of_lt_of_eq h1 h2
    rcases hdata k o ho with h1 | ⟨-, h1⟩
    · exact absurd h1 ((hext.obj k o ho).done hk hty)
    · exact h1
  · rintro - v' ⟨cs', es', i, rfl, hlink, hcur, herr⟩
    have hlive : ∀ {j : Nat} {c}, cs[j]? = some (some c) → ∃ c', cs'[j]? = some (some c') ∧ c'.stack = c.stack := by
      intro j c hc
      obtain ⟨c', h1, h2, -⟩ := hlink.2 j c hc
      exact ⟨c', h1, h2⟩
    have hlen : cs'.length = cs.length := hlink.1
    constructor
    case instrs => exact hinstr
    case statics => exact hstat
    case root =>
      obtain ⟨c', h1, h2⟩ := hlive hroot
      exact ⟨c', h1, by rw [h2]; exact hd1, by rw [h2]; exact hd2⟩
    case coroutine =>
      intro j h1 h2
      obtain ⟨c, h3, h4⟩ := hnew j h1 (by rw [← hlen]; exact h2)
      obtain ⟨c', h5, h6⟩ := hlive h3
      refine ⟨c', h5, ?_⟩
      rw [h6]
      exact h4.shape.imp_right fun h => ⟨herr.subset h.1, h.2⟩
    case strings => exact ⟨hst, hbs⟩
    case objects =>
      refine ⟨hext.len, hot.pow, hot.nodup, fun i => ?_⟩
      rw [show _ ↔ _ from hot.holes i]
      exact (hext.holes i).symm
    case object =>
      intro k o ho
      have := hext.obj k o ho
      refine ⟨this.len, this.type, (hdata k o ho).imp_right ?_⟩
      rintro ⟨-, j, c, h1, h2⟩
      obtain ⟨c', h3, -⟩ := hlive h2
      exact ⟨j, c', h1, h3⟩
    case handles =>
      intro k hk
      obtain ⟨o, ho⟩ := hhs k hk
      have hlt : k < slots.length := by
        rw [show slots.length = ot.cap from hext.len, ← hot.len]
        exact (List.getElem?_eq_some_iff.mp ho).1
      cases hx : slots[k]'hlt with
      | none =>
        have h1 : slots[k]? = some none := by rw [List.getElem?_eq_getElem hlt, hx]
        have h2 : ot.slots[k]? = some none := (hext.holes k).mp h1
        rw [ho] at h2
        cases h2
      | some o' => exact ⟨o', by show slots[k]? = _; rw [List.getElem?_eq_getElem hlt, hx]⟩
    case functions => exact ⟨hgs, hgs'⟩
    case natives => exact hfs
    case interval => exact hgc
    case current => exact hcur
    case same => exact ⟨rfl, rfl, rfl, rfl, rfl, rfl⟩

end Nk.Save
