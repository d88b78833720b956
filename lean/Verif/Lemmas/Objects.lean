import Verif.Spec.Objects
import Verif.Lemmas.Ops
import Mathlib.Data.List.Nodup
/-!
# Objects as finite maps
-/
namespace Nk
variable (F : FloatOps)

/-! ## Keys -/

theorem keyOf_proper {vm : VM} {v : Value} {k : Key} (h : keyOf vm v = some k) : Proper vm v := by
  cases v with
  | float b =>
    show isNaN b = false
    have h : (if isNaN b = true then none else some (Key.float (fval b))) = some k := h
    cases hb : isNaN b
    · rfl
    · rw [if_pos hb] at h; cases h
  | str id => simp only [keyOf, Option.map_eq_some_iff] at h; obtain ⟨e, he, _⟩ := h; exact ⟨e, he⟩
  | bad t r => cases h
  | _ => trivial

theorem keyOf_float {vm : VM} {b : BitVec 32} {k : Key} :
    keyOf vm (.float b) = some k ↔ isNaN b = false ∧ k = .float (fval b) := by
  show (if isNaN b = true then none else some (Key.float (fval b))) = some k ↔ _
  generalize isNaN b = x
  cases x
  · simp [eq_comm]
  · simp

theorem keyOf_str {vm : VM} {id : Nat} {k : Key} :
    keyOf vm (.str id) = some k ↔ ∃ e, vm.strings.entry id = some e ∧ k = .str e.str := by
  simp [keyOf, eq_comm]

/-- Type number of a key. -/
def Key.ty : Key → Nat
  | int _ => 0 | float _ => 1 | str _ => 2 | fn _ => 3 | obj _ => 4 | nil => 5

/-- The same for values. -/
def vty : Value → Nat
  | .int _ => 0 | .float _ => 1 | .str _ => 2 | .fn _ => 3 | .obj _ => 4 | .nil => 5 | .bad _ _ => 6

theorem keyOf_ty {vm : VM} {v : Value} {k : Key} (h : keyOf vm v = some k) :
    vty v = k.ty := by
  cases v with
  | float b => obtain ⟨_, rfl⟩ := keyOf_float.mp h; rfl
  | str id => obtain ⟨e, _, rfl⟩ := keyOf_str.mp h; rfl
  | bad => cases h
  | _ => cases h; rfl

theorem cmpV_key {vm : VM} {a b : Value} {k k' : Key} (ha : keyOf vm a = some k) (hb : keyOf vm b = some k') :
    cmpV vm a b = 0 ↔ k = k' := by
  have ta := keyOf_ty ha
  have tb := keyOf_ty hb
  have diff : ∀ m n : Nat, m ≠ n → k.ty = m → k'.ty = n → ∀ x y : Int, x ≠ y →
      (icmp x y = 0 ↔ k = k') := by
    intro m n hmn h1 h2 x y hxy
    refine iff_of_false (fun h => hxy (icmp_zero.mp h)) ?_
    rintro rfl
    omega
  cases a with
  | bad => cases ha
  | int i =>
    cases b with
    | int j => cases ha; cases hb; simp [cmpV, icmp_zero, BitVec.toInt_inj]
    | bad => cases hb
    | _ => exact diff _ _ (by simp [vty]) ta.symm tb.symm _ _ (by simp [Value.ty])
  | float i =>
    cases b with
    | float j =>
      obtain ⟨_, rfl⟩ := keyOf_float.mp ha
      obtain ⟨_, rfl⟩ := keyOf_float.mp hb
      simp [cmpV, icmp_zero, fval_eq]
    | bad => cases hb
    | _ => exact diff _ _ (by simp [vty]) ta.symm tb.symm _ _ (by simp [Value.ty])
  | str i =>
    cases b with
    | str j =>
      obtain ⟨e, he, rfl⟩ := keyOf_str.mp ha
      obtain ⟨e', he', rfl⟩ := keyOf_str.mp hb
      simp [cmpV, txt, he, he', strcmp_eq]
    | bad => cases hb
    | _ => exact diff _ _ (by simp [vty]) ta.symm tb.symm _ _ (by simp [Value.ty])
  | fn i =>
    cases b with
    | fn j => cases ha; cases hb; simp [cmpV, icmp_zero]
    | bad => cases hb
    | _ => exact diff _ _ (by simp [vty]) ta.symm tb.symm _ _ (by simp [Value.ty])
  | obj i =>
    cases b with
    | obj j => cases ha; cases hb; simp [cmpV, icmp_zero]
    | bad => cases hb
    | _ => exact diff _ _ (by simp [vty]) ta.symm tb.symm _ _ (by simp [Value.ty])
  | nil =>
    cases b with
    | nil => cases ha; cases hb; simp [cmpV, icmp_zero]
    | bad => cases hb
    | _ => exact diff _ _ (by simp [vty]) ta.symm tb.symm _ _ (by simp [Value.ty])

theorem slot_lt (vm : VM) (v : Value) : slot vm v < 16 := by
  cases v <;> simp only [slot] <;> try exact and15_lt _
  · split
    · exact and15_lt _
    · omega
  · omega
  · omega

theorem bucketOf_run {vm : VM} (h : vm.strings.WF) (v : Value) : bucketOf v vm = .ok (slot vm v, vm) := by
  cases v with
  | str id =>
    simp only [bucketOf, valueHash, M.bind_eq, getStrEntry_run h, slot]
    cases vm.strings.entry id <;> rfl
  | _ => rfl

theorem slot_key {vm : VM} (hs : StrWF vm) {a b : Value} {k : Key} (ha : keyOf vm a = some k)
    (hb : keyOf vm b = some k) : slot vm a = slot vm b := by
  have ta := keyOf_ty ha
  have tb := keyOf_ty hb
  have t := ta.trans tb.symm
  cases a with
  | bad => cases ha
  | int i =>
    cases b with
    | int j => cases ha; cases hb; rfl
    | _ => simp [vty] at t
  | float i =>
    cases b with
    | float j =>
      obtain ⟨h1, rfl⟩ := keyOf_float.mp ha
      obtain ⟨h2, h⟩ := keyOf_float.mp hb
      have h := (fval_eq i j).mp (Key.float.inj h)
      have : feq i j = true := by simp [feq, h1, h2, h]
      have hm := feq_bits this
      have e : ∀ n : Nat, n &&& 15 = n % 16 := fun n => Nat.and_two_pow_sub_one_eq_mod n 4
      simp only [slot, e, hm]
    | _ => simp [vty] at t
  | str i =>
    cases b with
    | str j =>
      obtain ⟨e, he, rfl⟩ := keyOf_str.mp ha
      obtain ⟨e', he', h⟩ := keyOf_str.mp hb
      have h := Key.str.inj h
      simp only [slot, he, he']
      rw [hs.hash _ _ he, hs.hash _ _ he', h]
    | _ => simp [vty] at t
  | fn i =>
    cases b with
    | fn j => cases ha; cases hb; rfl
    | _ => simp [vty] at t
  | obj i =>
    cases b with
    | obj j => cases ha; cases hb; rfl
    | _ => simp [vty] at t
  | nil =>
    cases b with
    | nil => rfl
    | _ => simp [vty] at t

/-! ## Searching a bucket -/

/-- The element at which the search stops. -/
def isKey (vm : VM) (k : Key) (e : Value × Value) : Bool := decide (keyOf vm e.1 = some k)

theorem findElem_run {vm : VM} (hw : vm.strings.WF) {key : Value} {k : Key} (hk : keyOf vm key = some k)
    (es : List (Value × Value)) (n : Nat) (hes : ∀ e ∈ es, ∃ k', keyOf vm e.1 = some k') :
    findElem F key es n vm = .ok ((es.findIdx? (isKey vm k)).map (· + n), vm) := by
  induction es generalizing n with
  | nil => rfl
  | cons e es ih =>
    obtain ⟨x, y⟩ := e
    obtain ⟨k', hk'⟩ := hes (x, y) (by simp)
    have hc := strict_cmp F hw (keyOf_proper hk) (keyOf_proper hk')
    unfold findElem
    rw [M.bind_ok hc]
    by_cases h : k = k'
    · rw [if_pos ((cmpV_key hk hk').mpr h)]
      subst h
      have : isKey vm k (x, y) = true := by simp [isKey, hk']
      simp [List.findIdx?_cons, this]
    · rw [if_neg (fun e => h ((cmpV_key hk hk').mp e))]
      rw [ih (n + 1) (fun e he => hes e (by simp [he]))]
      have : isKey vm k (x, y) = false := by
        have : ¬ k' = k := fun e => h e.symm
        simp [isKey, hk', this]
      simp only [List.findIdx?_cons, this, Option.map_map]
      congr 2
      cases es.findIdx? (isKey vm k) with
      | none => rfl
      | some m => simp; omega

/-! ## Well-formed objects -/

theorem sum_set {l : List Nat} {i a b : Nat} (h : l[i]? = some a) : (l.set i b).sum + a = l.sum + b := by
  induction l generalizing i with
  | nil => simp at h
  | cons x l ih =>
    cases i with
    | zero => simp at h; subst h; simp; omega
    | succ i =>
      simp at h
      have := ih h
      simp; omega

theorem le_sum {l : List Nat} {i a : Nat} (h : l[i]? = some a) : a ≤ l.sum := by
  have := sum_set (b := 0) h
  omega

theorem set_same {α : Type} {l : List α} {i : Nat} {a : α} (h : l[i]? = some a) : l.set i a = l := by
  apply List.ext_getElem?
  intro j
  rw [List.getElem?_set]
  split
  · subst_vars
    rw [h, if_pos (List.getElem?_eq_some_iff.mp h).1]
  · rfl

/-- Replacing one bucket. -/
theorem OWF.replace {vm : VM} {o : Obj} (h : OWF vm o) {b : Nat} {es es' : List (Value × Value)}
    (hb : o.buckets[b]? = some es) {n : Nat}
    (hk : ∀ e ∈ es', (∃ k, keyOf vm e.1 = some k) ∧ slot vm e.1 = b ∧ e.2 ≠ .nil)
    (hn : es'.Pairwise (fun x y => keyOf vm x.1 ≠ keyOf vm y.1))
    (hs : n + es.length = o.size + es'.length) (hlt : n < 4294967296) :
    OWF vm { o with buckets := o.buckets.set b es', size := n } := by
  have hbl : b < o.buckets.length := (List.getElem?_eq_some_iff.mp hb).1
  refine ⟨by simpa using h.len, ?_, ?_, ?_, hlt⟩
  · intro b' es2 hb'
    simp only [List.getElem?_set] at hb'
    by_cases e : b = b'
    · subst e
      simp [hbl] at hb'
      subst hb'; exact hk
    · simp [e] at hb'
      exact h.key b' es2 hb'
  · intro b' es2 hb'
    simp only [List.getElem?_set] at hb'
    by_cases e : b = b'
    · subst e
      simp [hbl] at hb'
      subst hb'; exact hn
    · simp [e] at hb'
      exact h.nodup b' es2 hb'
  · have : (o.buckets.map List.length)[b]? = some es.length := by simp [hb]
    have h2 := sum_set (b := es'.length) this
    have h3 := h.size
    show n = ((o.buckets.set b es').map List.length).sum
    rw [List.map_set]
    omega

theorem Has.replace {vm : VM} {o : Obj} {b : Nat} {es es' : List (Value × Value)} {n : Nat}
    (hb : o.buckets[b]? = some es) {k : Key} {v : Value} :
    Has vm { o with buckets := o.buckets.set b es', size := n } k v ↔
      (∃ e ∈ es', keyOf vm e.1 = some k ∧ e.2 = v) ∨
      (∃ (b' : Nat) (es2 : List (Value × Value)), b' ≠ b ∧ o.buckets[b']? = some es2 ∧
        ∃ e ∈ es2, keyOf vm e.1 = some k ∧ e.2 = v) := by
  have hbl : b < o.buckets.length := (List.getElem?_eq_some_iff.mp hb).1
  constructor
  · rintro ⟨b', es2, h1, h2⟩
    simp only [List.getElem?_set] at h1
    by_cases e : b = b'
    · subst e
      simp [hbl] at h1
      subst h1; exact Or.inl h2
    · simp [e] at h1
      exact Or.inr ⟨b', es2, fun h => e h.symm, h1, h2⟩
  · rintro (h | ⟨b', es2, hne, h1, h2⟩)
    · exact ⟨b, es', by simp [hbl], h⟩
    · exact ⟨b', es2, by simp [List.getElem?_set, Ne.symm hne, h1], h2⟩

/-- Fields with key `k` are only in the bucket of `k`. -/
theorem Has.in_bucket {vm : VM} (hs : StrWF vm) {o : Obj} (h : OWF vm o) {key : Value} {k : Key}
    (hk : keyOf vm key = some k) {es : List (Value × Value)} (hb : o.buckets[slot vm key]? = some es)
    {v : Value} : Has vm o k v ↔ ∃ e ∈ es, keyOf vm e.1 = some k ∧ e.2 = v := by
  constructor
  · rintro ⟨b, es2, h1, e, he, h2, h3⟩
    have hsl := (h.key b es2 h1 e he).2.1
    have : b = slot vm key := by rw [← hsl]; exact slot_key hs h2 hk
    subst this
    rw [hb] at h1; cases h1
    exact ⟨e, he, h2, h3⟩
  · intro h2
    exact ⟨_, es, hb, h2⟩

theorem OWF.bucket {vm : VM} {o : Obj} (h : OWF vm o) (v : Value) :
    ∃ es, o.buckets[slot vm v]? = some es := by
  have := slot_lt vm v
  have := h.len
  exact ⟨o.buckets[slot vm v], List.getElem?_eq_getElem (by omega)⟩

/-- A field has one value. -/
theorem Has.unique {vm : VM} (hs : StrWF vm) {o : Obj} (h : OWF vm o) {k : Key} {v w : Value}
    (hv : Has vm o k v) (hw : Has vm o k w) : v = w := by
  obtain ⟨b, es, h1, e, he, h2, rfl⟩ := hv
  have hb := (h.key b es h1 e he).2.1
  subst hb
  obtain ⟨e', he', h3, rfl⟩ := (Has.in_bucket hs h h2 h1).mp hw
  have hp := h.nodup _ _ h1
  by_contra hne
  have hne' : e ≠ e' := fun h => hne (by rw [h])
  obtain ⟨i, hi, rfl⟩ := List.getElem_of_mem he
  obtain ⟨j, hj, rfl⟩ := List.getElem_of_mem he'
  have hp := List.pairwise_iff_getElem.mp hp
  rcases Nat.lt_trichotomy i j with hl | hl | hl
  · exact hp i j hi hj hl (h2.trans h3.symm)
  · subst hl; exact hne rfl
  · exact hp j i hj hi hl (h3.trans h2.symm)

/-! ## Updating the object table -/

@[simp] theorem VM.setO_strings (vm : VM) (id : Nat) (o : Obj) : (vm.setO id o).strings = vm.strings := rfl
@[simp] theorem VM.setO_errors (vm : VM) (id : Nat) (o : Obj) : (vm.setO id o).errors = vm.errors := rfl
@[simp] theorem VM.setO_limits (vm : VM) (id : Nat) (o : Obj) : (vm.setO id o).limits = vm.limits := rfl
@[simp] theorem VM.setO_ctxs (vm : VM) (id : Nat) (o : Obj) : (vm.setO id o).ctxs = vm.ctxs := rfl
@[simp] theorem VM.setO_cur (vm : VM) (id : Nat) (o : Obj) : (vm.setO id o).cur = vm.cur := rfl
theorem VM.setO_setC (vm : VM) (id : Nat) (o : Obj) (c : Ctx) :
    (vm.setC c).setO id o = (vm.setO id o).setC c := rfl
@[simp] theorem VM.setO_setO (vm : VM) (id : Nat) (o o' : Obj) :
    (vm.setO id o).setO id o' = vm.setO id o' := by
  simp [VM.setO]

theorem setO_wf {vm : VM} (h : vm.objects.WF) {id : Nat} {o : Obj} (he : vm.objects.entry id = some o)
    (o' : Obj) : (vm.setO id o').objects.WF := (Table.write_live h he o').2.1

theorem setO_entry {vm : VM} (h : vm.objects.WF) {id : Nat} {o : Obj} (he : vm.objects.entry id = some o)
    (o' : Obj) (j : Nat) :
    (vm.setO id o').objects.entry j = if j = id then some o' else vm.objects.entry j :=
  (Table.write_live h he o').2.2 j

theorem setO_strWF {vm : VM} (h : StrWF vm) (id : Nat) (o : Obj) : StrWF (vm.setO id o) :=
  ⟨h.tab, h.blen, h.nodup, h.mem, h.hash, h.bucket, h.inj⟩

theorem getObj_run {vm : VM} (h : vm.objects.WF) (id : Nat) :
    getObj id vm = .ok (vm.objects.entry id, vm) := by
  simp [getObj, Table.get_eq h]

theorem setObj_run {vm : VM} (h : vm.objects.WF) {id : Nat} {o : Obj} (he : vm.objects.entry id = some o)
    (o' : Obj) : setObj id o' vm = .ok ((), vm.setO id o') := by
  simp [setObj, (Table.write_live h he o').1, VM.setO]

theorem keyOf_congr {vm vm' : VM} (h : vm'.strings = vm.strings) (v : Value) : keyOf vm' v = keyOf vm v := by
  cases v <;> simp [keyOf, h]

theorem slot_congr {vm vm' : VM} (h : vm'.strings = vm.strings) (v : Value) : slot vm' v = slot vm v := by
  cases v <;> simp [slot, h]

/-- Keys that keep their meaning keep objects well formed. -/
theorem OWF.congr {vm vm' : VM} {o : Obj} (h : OWF vm o)
    (hk : ∀ (b : Nat) (es : List (Value × Value)), o.buckets[b]? = some es → ∀ e ∈ es,
      keyOf vm' e.1 = keyOf vm e.1 ∧ slot vm' e.1 = slot vm e.1) : OWF vm' o := by
  refine ⟨h.len, fun b es hb e he => ?_, fun b es hb => ?_, h.size, h.lt⟩
  · rw [(hk b es hb e he).1, (hk b es hb e he).2]
    exact h.key b es hb e he
  · refine (h.nodup b es hb).imp_of_mem ?_
    intro x y hx hy hne
    rw [(hk b es hb x hx).1, (hk b es hb y hy).1]
    exact hne

theorem Has.congr {vm vm' : VM} {o : Obj}
    (hk : ∀ (b : Nat) (es : List (Value × Value)), o.buckets[b]? = some es → ∀ e ∈ es,
      keyOf vm' e.1 = keyOf vm e.1) (k : Key) (v : Value) : Has vm' o k v ↔ Has vm o k v := by
  constructor
  · rintro ⟨b, es, h1, e, he, h2, h3⟩
    exact ⟨b, es, h1, e, he, by rw [← hk b es h1 e he]; exact h2, h3⟩
  · rintro ⟨b, es, h1, e, he, h2, h3⟩
    exact ⟨b, es, h1, e, he, by rw [hk b es h1 e he]; exact h2, h3⟩

/-! ## Field access -/

/-- Reading a field. -/
theorem lookupField_run {vm : VM} (hs : StrWF vm) (ho : vm.objects.WF) {id : Nat} {o : Obj}
    (he : vm.objects.entry id = some o) (h : OWF vm o) {key : Value} {k : Key}
    (hk : keyOf vm key = some k) :
    (∃ v, lookupField F id key vm = .ok (some v, vm) ∧ Has vm o k v) ∨
    (lookupField F id key vm = .ok (none, vm) ∧ ∀ v, ¬ Has vm o k v) := by
  obtain ⟨es, hb⟩ := h.bucket key
  have hf := findElem_run F hs.tab hk es 0 (fun e he => (h.key _ _ hb e he).1)
  simp only [Nat.add_zero, Option.map_id'] at hf
  cases hp : es.findIdx? (isKey vm k) with
  | none =>
    right
    rw [hp] at hf
    constructor
    · simp [lookupField, findOrAddEntry, M.bind_eq, bucketOf_run hs.tab, getObj_run ho, he, hb, hf]
    · intro v hv
      obtain ⟨e, hm, h1, _⟩ := (Has.in_bucket hs h hk hb).mp hv
      have := List.findIdx?_eq_none_iff.mp hp e hm
      simp [isKey, h1] at this
  | some n =>
    left
    rw [hp] at hf
    obtain ⟨hlt, h1, _⟩ := List.findIdx?_eq_some_iff_getElem.mp hp
    refine ⟨es[n].2, ?_, ?_⟩
    · simp [lookupField, findOrAddEntry, M.bind_eq, bucketOf_run hs.tab, getObj_run ho, he, hb, hf, readElem, hlt]
    · refine (Has.in_bucket hs h hk hb).mpr ⟨es[n], by simp, ?_, rfl⟩
      simpa [isKey] using h1

/-- Removing a field. -/
theorem clearEntry_run {vm : VM} (hs : StrWF vm) (ho : vm.objects.WF) {id : Nat} {o : Obj}
    (he : vm.objects.entry id = some o) (h : OWF vm o) {key : Value} {k : Key}
    (hk : keyOf vm key = some k) :
    ∃ o', clearEntry F id key vm = .ok ((), vm.setO id o') ∧ OWF vm o' ∧ o'.size ≤ o.size ∧
      (∀ k' v, Has vm o' k' v ↔ k' ≠ k ∧ Has vm o k' v) ∧
      o' = { o with buckets := o'.buckets, size := o'.size } := by
  obtain ⟨es, hb⟩ := h.bucket key
  have hf := findElem_run F hs.tab hk es 0 (fun e he => (h.key _ _ hb e he).1)
  simp only [Nat.add_zero, Option.map_id'] at hf
  cases hp : es.findIdx? (isKey vm k) with
  | none =>
    rw [hp] at hf
    have hno : ∀ v, ¬ Has vm o k v := by
      intro v hv
      obtain ⟨e, hm, h1, _⟩ := (Has.in_bucket hs h hk hb).mp hv
      have := List.findIdx?_eq_none_iff.mp hp e hm
      simp [isKey, h1] at this
    refine ⟨o, ?_, h, Nat.le_refl _, ?_, rfl⟩
    · have : vm.setO id o = vm := by
        have := Table.entry_slots he
        unfold VM.setO
        rw [set_same this]
      rw [this]
      simp [clearEntry, M.bind_eq, bucketOf_run hs.tab, getObj_run ho, he, hb, hf]
    · intro k' v
      constructor
      · intro hv; exact ⟨by rintro rfl; exact hno v hv, hv⟩
      · exact fun h => h.2
  | some n =>
    rw [hp] at hf
    obtain ⟨hlt, h1, _⟩ := List.findIdx?_eq_some_iff_getElem.mp hp
    have h1 : keyOf vm es[n].1 = some k := by simpa [isKey] using h1
    have hmem : ∀ e, e ∈ es.eraseIdx n ↔ (e ∈ es ∧ keyOf vm e.1 ≠ some k) := by
      intro e
      have hpw := h.nodup _ _ hb
      rw [List.mem_eraseIdx_iff_getElem]
      constructor
      · rintro ⟨i, hi, hne, rfl⟩
        refine ⟨by simp, fun hc => ?_⟩
        have hpw := List.pairwise_iff_getElem.mp hpw
        rcases Nat.lt_or_gt_of_ne hne with hl | hl
        · exact hpw i n hi hlt hl (hc.trans h1.symm)
        · exact hpw n i hlt hi hl (h1.trans hc.symm)
      · rintro ⟨hm, hne⟩
        obtain ⟨i, hi, rfl⟩ := List.getElem_of_mem hm
        exact ⟨i, hi, by rintro rfl; exact hne h1, rfl⟩
    have hlen : es.length ≤ o.size := by
      rw [h.size]
      have : (o.buckets.map List.length)[slot vm key]? = some es.length := by simp [hb]
      exact le_sum this
    have hsz : ¬ o.size = 0 := by omega
    refine ⟨_, ?_, OWF.replace h hb (es' := es.eraseIdx n) (n := o.size - 1) ?_ ?_ ?_ ?_, ?_, ?_, rfl⟩
    · simp [clearEntry, M.bind_eq, bucketOf_run hs.tab, getObj_run ho, he, hb, hf, hsz, setObj_run ho he]
    · exact fun e hm => h.key _ _ hb e ((hmem e).mp hm).1
    · exact (h.nodup _ _ hb).sublist (List.eraseIdx_sublist _ _)
    · rw [List.length_eraseIdx_of_lt hlt]; omega
    · have := h.lt; omega
    · simp
    · intro k' v
      rw [Has.replace hb]
      constructor
      · rintro (⟨e, hm, h2, h3⟩ | ⟨b', es2, hne, h2, e, hm, h3, h4⟩)
        · have := (hmem e).mp hm
          exact ⟨by rintro rfl; exact this.2 h2, _, es, hb, e, this.1, h2, h3⟩
        · refine ⟨?_, b', es2, h2, e, hm, h3, h4⟩
          rintro rfl
          have := (h.key _ _ h2 e hm).2.1
          exact hne (by rw [← this]; exact slot_key hs h3 hk)
      · rintro ⟨hne, b', es2, h2, e, hm, h3, h4⟩
        by_cases hbb : b' = slot vm key
        · subst hbb
          rw [hb] at h2; cases h2
          exact Or.inl ⟨e, (hmem e).mpr ⟨hm, by rw [h3]; simpa using hne⟩, h3, h4⟩
        · exact Or.inr ⟨b', es2, hbb, h2, e, hm, h3, h4⟩

/-- Assigning a value other than nil. -/
theorem assign_run {vm : VM} (hs : StrWF vm) (ho : vm.objects.WF) {id : Nat} {o : Obj}
    (he : vm.objects.entry id = some o) (h : OWF vm o) {key v : Value} {k : Key}
    (hk : keyOf vm key = some k) (hv : v ≠ .nil) :
    (((∃ w, Has vm o k w) ∨ (o.size + 1 < 4294967296 ∧ o.size + 1 ≤ vm.limits.maxFields)) →
      ∃ o', storeField F id key v vm = .ok ((), vm.setO id o') ∧ OWF vm o' ∧
        (∀ k' w, Has vm o' k' w ↔ (k' = k ∧ w = v) ∨ (k' ≠ k ∧ Has vm o k' w)) ∧
        (o'.size ≤ max o.size vm.limits.maxFields) ∧
        o' = { o with buckets := o'.buckets, size := o'.size }) ∧
    ((∀ w, ¬ Has vm o k w) → ¬ (o.size + 1 < 4294967296 ∧ o.size + 1 ≤ vm.limits.maxFields) →
      ∃ o', storeField F id key v vm = .ok ((), (vm.setO id o').addErr "Reached object field count limit.") ∧
        Has vm o' k (.int 0) ∧ o'.size = o.size) := by
  obtain ⟨es, hb⟩ := h.bucket key
  have hbl : slot vm key < o.buckets.length := (List.getElem?_eq_some_iff.mp hb).1
  have hf := findElem_run F hs.tab hk es 0 (fun e he => (h.key _ _ hb e he).1)
  simp only [Nat.add_zero, Option.map_id'] at hf
  have hother : ∀ es' : List (Value × Value), ∀ n : Nat,
      (∀ k' w, (∃ e ∈ es', keyOf vm e.1 = some k' ∧ e.2 = w) ↔
        (k' = k ∧ w = v) ∨ (k' ≠ k ∧ ∃ e ∈ es, keyOf vm e.1 = some k' ∧ e.2 = w)) →
      ∀ k' w, Has vm { o with buckets := o.buckets.set (slot vm key) es', size := n } k' w ↔
        (k' = k ∧ w = v) ∨ (k' ≠ k ∧ Has vm o k' w) := by
    intro es' n hes k' w
    rw [Has.replace hb, hes]
    constructor
    · rintro ((hh | ⟨hne, hh⟩) | ⟨b', es2, hne, h2, e, hm, h3, h4⟩)
      · exact Or.inl hh
      · exact Or.inr ⟨hne, _, es, hb, hh⟩
      · refine Or.inr ⟨?_, b', es2, h2, e, hm, h3, h4⟩
        rintro rfl
        have := (h.key _ _ h2 e hm).2.1
        exact hne (by rw [← this]; exact slot_key hs h3 hk)
    · rintro (hh | ⟨hne, b', es2, h2, e, hm, h3, h4⟩)
      · exact Or.inl (Or.inl hh)
      · by_cases hbb : b' = slot vm key
        · subst hbb
          rw [hb] at h2; cases h2
          exact Or.inl (Or.inr ⟨hne, e, hm, h3, h4⟩)
        · exact Or.inr ⟨b', es2, hbb, h2, e, hm, h3, h4⟩
  have hrun : storeField F id key v = (do
      let p ← findOrAddEntry F id key false
      match p with
      | none => Pure.pure ()
      | some p => writeElem id p v) := by
    unfold storeField; rw [if_neg hv]; rfl
  rw [hrun]
  cases hp : es.findIdx? (isKey vm k) with
  | some n =>
    rw [hp] at hf
    obtain ⟨hlt, h1, _⟩ := List.findIdx?_eq_some_iff_getElem.mp hp
    have h1 : keyOf vm es[n].1 = some k := by simpa [isKey] using h1
    have hpw := List.pairwise_iff_getElem.mp (h.nodup _ _ hb)
    have hget : ∀ i (hi : i < es.length), (es.set n (es[n].1, v))[i]? =
        some (if n = i then (es[n].1, v) else es[i]) := by
      intro i hi
      simp only [List.getElem?_set]
      by_cases e : n = i
      · subst e; simp [hlt]
      · simp [e, hi]
    have hmem : ∀ e, e ∈ es.set n (es[n].1, v) ↔ e = (es[n].1, v) ∨ (e ∈ es ∧ keyOf vm e.1 ≠ some k) := by
      intro e
      constructor
      · intro hm
        obtain ⟨i, hi, rfl⟩ := List.getElem_of_mem hm
        have hi' : i < es.length := by simpa using hi
        by_cases hni : n = i
        · left; subst hni; simp
        · right
          simp only [List.getElem_set, hni, if_false]
          refine ⟨by simp, fun hc => ?_⟩
          rcases Nat.lt_or_gt_of_ne hni with hl | hl
          · exact hpw n i hlt hi' hl (h1.trans hc.symm)
          · exact hpw i n hi' hlt hl (hc.trans h1.symm)
      · rintro (rfl | ⟨hm, hne⟩)
        · exact List.mem_of_getElem? (by rw [hget n hlt]; simp)
        · obtain ⟨i, hi, rfl⟩ := List.getElem_of_mem hm
          have hni : n ≠ i := by rintro rfl; exact hne h1
          exact List.mem_of_getElem? (by rw [hget i hi]; simp [hni])
    constructor
    · intro _
      refine ⟨_, ?_, OWF.replace h hb (es' := es.set n (es[n].1, v)) (n := o.size) ?_ ?_ ?_ h.lt,
        hother _ _ ?_, ?_, rfl⟩
      · simp [findOrAddEntry, M.bind_eq, bucketOf_run hs.tab, getObj_run ho, he, hb, hf, writeElem, hlt, setObj_run ho he]
      · intro e hm
        rcases (hmem e).mp hm with rfl | ⟨hm, _⟩
        · have := h.key _ _ hb es[n] (by simp)
          exact ⟨this.1, this.2.1, hv⟩
        · exact h.key _ _ hb e hm
      · rw [List.pairwise_iff_getElem]
        intro i j hi hj hij
        have hi' : i < es.length := by simpa using hi
        have hj' : j < es.length := by simpa using hj
        have e := hpw i j hi' hj' hij
        simp only [List.getElem_set]
        by_cases e1 : n = i
        · subst e1
          have : ¬ n = j := by omega
          simpa [this] using e
        · by_cases e2 : n = j
          · subst e2; simpa [e1] using e
          · simpa [e1, e2] using e
      · simp
      · intro k' w
        constructor
        · rintro ⟨e, hm, h2, h3⟩
          rcases (hmem e).mp hm with rfl | ⟨hm, hne⟩
          · left
            simp only at h2 h3
            rw [h1] at h2
            exact ⟨(Option.some.inj h2).symm, h3.symm⟩
          · right
            exact ⟨by rintro rfl; exact hne h2, e, hm, h2, h3⟩
        · rintro (⟨rfl, rfl⟩ | ⟨hne, e, hm, h2, h3⟩)
          · exact ⟨(es[n].1, w), (hmem _).mpr (Or.inl rfl), h1, rfl⟩
          · exact ⟨e, (hmem _).mpr (Or.inr ⟨hm, by rw [h2]; simpa using hne⟩), h2, h3⟩
      · exact Nat.le_max_left _ _
    · intro hno
      exact absurd ((Has.in_bucket hs h hk hb).mpr ⟨es[n], by simp, h1, rfl⟩) (hno _)
  | none =>
    rw [hp] at hf
    have habs : ∀ e ∈ es, keyOf vm e.1 ≠ some k := by
      intro e hm hc
      have := List.findIdx?_eq_none_iff.mp hp e hm
      simp [isKey, hc] at this
    have hno : ∀ w, ¬ Has vm o k w := by
      intro w hw
      obtain ⟨e, hm, h1, _⟩ := (Has.in_bucket hs h hk hb).mp hw
      exact habs e hm h1
    have hu : u32 (o.size + 1) = if o.size + 1 < 4294967296 then o.size + 1 else 0 := by
      have := h.lt
      unfold u32 U32
      split <;> omega
    constructor
    · rintro (⟨w, hw⟩ | ⟨hl1, hl2⟩)
      · exact absurd hw (hno w)
      · rw [if_pos hl1] at hu
        have hcond : ¬ (o.size + 1 = 0 ∨ o.size + 1 > vm.limits.maxFields) := by omega
        have hw := setO_wf ho he
          { o with buckets := o.buckets.set (slot vm key) ((key, Value.zero) :: es), size := o.size + 1 }
        have hen := setO_entry ho he
          { o with buckets := o.buckets.set (slot vm key) ((key, Value.zero) :: es), size := o.size + 1 } id
        rw [if_pos rfl] at hen
        refine ⟨_, ?_, OWF.replace h hb (es' := (key, v) :: es) (n := o.size + 1) ?_ ?_ ?_ hl1,
          hother _ _ ?_, ?_, rfl⟩
        · simp only [findOrAddEntry, M.bind_eq, bucketOf_run hs.tab, getObj_run ho, he, hb, hf, Option.map_none,
            Bool.false_eq_true, if_false, get_run, hu]
          rw [if_neg hcond]
          simp only [M.bind_eq, setObj_run ho he, M.pure_run, writeElem, getObj_run hw, hen]
          simp only [List.getElem?_set_self hbl, List.getElem?_cons_zero, List.set_set, List.set_cons_zero,
            setObj_run hw hen, VM.setO_setO]
        · intro e hm
          rcases List.mem_cons.mp hm with rfl | hm
          · exact ⟨⟨k, hk⟩, rfl, hv⟩
          · exact h.key _ _ hb e hm
        · refine List.pairwise_cons.mpr ⟨?_, h.nodup _ _ hb⟩
          intro e hm
          rw [hk]; exact fun hc => habs e hm hc.symm
        · simp; omega
        · intro k' w
          constructor
          · rintro ⟨e, hm, h2, h3⟩
            rcases List.mem_cons.mp hm with rfl | hm
            · left
              simp only at h2 h3
              rw [hk] at h2
              exact ⟨(Option.some.inj h2).symm, h3.symm⟩
            · right
              exact ⟨by rintro rfl; exact habs e hm h2, e, hm, h2, h3⟩
          · rintro (⟨rfl, rfl⟩ | ⟨hne, e, hm, h2, h3⟩)
            · exact ⟨(key, w), by simp, hk, rfl⟩
            · exact ⟨e, by simp [hm], h2, h3⟩
        · exact Nat.le_trans hl2 (Nat.le_max_right _ _)
    · intro _ hlim
      have hcond : u32 (o.size + 1) = 0 ∨ u32 (o.size + 1) > vm.limits.maxFields := by
        rw [hu]; split <;> omega
      refine ⟨{ o with buckets := o.buckets.set (slot vm key) ((key, Value.zero) :: es) }, ?_, ?_, rfl⟩
      · simp only [findOrAddEntry, M.bind_eq, bucketOf_run hs.tab, getObj_run ho, he, hb, hf, Option.map_none,
          Bool.false_eq_true, if_false, get_run]
        rw [if_pos hcond]
        simp only [M.bind_eq, setObj_run ho he, M.pure_run, addError_run]
      · exact ⟨slot vm key, _, by simp [hbl]; rfl, (key, Value.zero), by simp, hk, rfl⟩

end Nk
