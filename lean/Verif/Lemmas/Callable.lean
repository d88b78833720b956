import Verif.Lemmas.Calls
/-!
# Lemmas about callable objects
-/
namespace Nk

variable (F : FloatOps)

theorem SExt.keyOf {vm vm' : VM} (h : SExt vm vm') {v : Value} {k : Key} (hk : keyOf vm v = some k) :
    Nk.keyOf vm' v = some k := by
  cases v with
  | str id =>
    cases he : vm.strings.entry id with
    | none => simp [Nk.keyOf, he] at hk
    | some e => simpa [Nk.keyOf, he, h.keep id e he] using hk
  | _ => exact hk

theorem SExt.slot {vm vm' : VM} (h : SExt vm vm') {v : Value} {k : Key} (hk : Nk.keyOf vm v = some k) :
    Nk.slot vm' v = Nk.slot vm v := by
  cases v with
  | str id =>
    cases he : vm.strings.entry id with
    | none => simp [Nk.keyOf, he] at hk
    | some e => simp [Nk.slot, he, h.keep id e he]
  | _ => rfl

theorem SExt.owf {vm vm' : VM} (h : SExt vm vm') {o : Obj} (ho : OWF vm o) : OWF vm' o := by
  refine ho.congr fun b es hb e he => ?_
  obtain ⟨k, hk⟩ := (ho.key b es hb e he).1
  exact ⟨by rw [hk, h.keyOf hk], h.slot hk⟩

theorem SExt.has {vm vm' : VM} (h : SExt vm vm') {o : Obj} (ho : OWF vm o) (k : Key) (v : Value) :
    Has vm' o k v ↔ Has vm o k v := by
  refine Has.congr (fun b es hb e he => ?_) k v
  obtain ⟨k, hk⟩ := (ho.key b es hb e he).1
  rw [hk, h.keyOf hk]

theorem fieldIs_has {vm : VM} {id : Nat} {o : Obj} (he : vm.objects.entry id = some o) (name : Bytes) (v : Value) :
    FieldIs vm id name v ↔ Has vm o (.str name) v := by
  constructor
  · rintro ⟨o', es, e, h1, h2, h3, h4, h5⟩
    rw [he] at h1; cases h1
    obtain ⟨b, hb⟩ := List.getElem?_of_mem h2
    exact ⟨b, es, hb, e, h3, h4, h5⟩
  · rintro ⟨b, es, hb, e, h3, h4, h5⟩
    exact ⟨o, es, e, he, List.mem_of_getElem? hb, h3, h4, h5⟩

/-- Interning a name when it is possible. -/
theorem intern_run {vm : VM} (h : StrWF vm) {s : Bytes} (hc : Interned vm s ∨ ∃ i, i < 2147483648 ∧ vm.strings.entry i = none) :
    ∃ id vm', findOrAddString s vm = .ok (id, vm') ∧ SExt vm vm' ∧ vm'.errors = vm.errors ∧
      keyOf vm' (.str id) = some (.str s) ∧
      (vm' = vm ∨ ∃ i, ∀ j, vm'.strings.entry j = none ↔ (j ≠ i ∧ vm.strings.entry j = none)) := by
  obtain ⟨id', vm1, e1, e2⟩ := findOrAddString_sext h s
  rcases findOrAddString_spec h s with ⟨id, e, h1, h2, h3⟩ | ⟨id, t, b, h1, h2, h3, h4, _⟩ | ⟨h1, h2, h3⟩
  · rw [h1] at e1; cases e1
    exact ⟨_, _, h1, e2, rfl, by simp [keyOf, h2, h3], .inl rfl⟩
  · rw [h1] at e1; cases e1
    refine ⟨_, _, h1, e2, rfl, ?_, .inr ⟨id', fun j => ?_⟩⟩
    · simp [keyOf, h4, Str.mk']
    · show t.entry j = none ↔ _
      rw [h4]
      by_cases hj : j = id'
      · simp [hj]
      · simp [hj]
  · rcases hc with ⟨id, e, a1, a2⟩ | ⟨i, a1, a2⟩
    · exact absurd a2 (h3 id e a1)
    · exact absurd a2 (h2 i a1)

/-- Looking a field up by a name. -/
theorem lookup_name {vm : VM} (hs : StrWF vm) (ho : vm.objects.WF) {id x : Nat} {o : Obj} {s : Bytes}
    (he : vm.objects.entry id = some o) (hw : OWF vm o) (hk : keyOf vm (.str x) = some (.str s)) :
    (∃ v, lookupPublic F (.obj id) (.str x) vm = .ok (some v, vm) ∧ FieldIs vm id s v) ∨
    (lookupPublic F (.obj id) (.str x) vm = .ok (none, vm) ∧ NoField vm id s) := by
  have e1 : lookupPublic F (.obj id) (.str x) vm = lookupField F id (.str x) vm := by
    unfold lookupPublic
    rw [M.bind_ok (objFromValue_obj ho id), he]
    rfl
  rw [e1]
  rcases lookupField_run F hs ho he hw hk with ⟨v, h1, h2⟩ | ⟨h1, h2⟩
  · exact .inl ⟨v, h1, (fieldIs_has he s v).mpr h2⟩
  · exact .inr ⟨h1, ⟨o, he⟩, fun v hv => h2 v ((fieldIs_has he s v).mp hv)⟩

theorem fieldIs_unique {vm : VM} (hs : StrWF vm) {id : Nat} {o : Obj} {s : Bytes} (he : vm.objects.entry id = some o)
    (hw : OWF vm o) {v w : Value} (hv : FieldIs vm id s v) (hw' : FieldIs vm id s w) : v = w :=
  Has.unique hs hw ((fieldIs_has he s v).mp hv) ((fieldIs_has he s w).mp hw')

/-! ## Moving the arguments -/

theorem poke_mid {vm : VM} {c : Ctx} {a b : List Value} {z : Value} (h : vm.Stk c (a ++ [z] ++ b)) (v : Value)
    {i : Nat} (hi : i = a.length) :
    ∃ s', poke i v vm = .ok ((), vm.setC { c with stack := s' }) ∧
      (vm.setC { c with stack := s' }).Stk { c with stack := s' } (a ++ [v] ++ b) ∧ s'.size = c.stack.size ∧
      s'.cap = c.stack.cap := by
  subst hi
  obtain ⟨s, h1, h2, h3⟩ := poke_used h (i := a.length) (by simp) v
  refine ⟨s, h1, ?_, by rw [h3], by rw [h3]⟩
  have : (a ++ [z] ++ b).set a.length v = a ++ [v] ++ b := by simp
  rwa [this] at h2

theorem shiftArgs_run (base : Nat) (pre : List Value) (hp : pre.length = base + 1) :
    ∀ (n : Nat) (vm : VM) (c : Ctx) (mid post : List Value) (z : Value), mid.length = n →
    vm.Stk c (pre ++ mid ++ [z] ++ post) → (n = 0 → True) →
    ∃ s' q, shiftArgs base n vm = .ok ((), vm.setC { c with stack := s' }) ∧
      (vm.setC { c with stack := s' }).Stk { c with stack := s' } (pre ++ [q] ++ mid ++ post) ∧
      s'.size = c.stack.size ∧ s'.cap = c.stack.cap := by
  intro n
  induction n with
  | zero =>
    intro vm c mid post z hm hs _
    cases mid with
    | cons a b => simp at hm
    | nil =>
      refine ⟨c.stack, z, ?_, ?_, rfl, rfl⟩
      · show Res.ok ((), vm) = _
        rw [show ({ c with stack := c.stack } : Ctx) = c from rfl, hs.at_.setC_self]
      · rw [show ({ c with stack := c.stack } : Ctx) = c from rfl, hs.at_.setC_self]
        simpa using hs
  | succ n ih =>
    intro vm c mid post z hm hs _
    obtain ⟨mid', y, rfl⟩ : ∃ m y, mid = m ++ [y] := by
      rcases List.eq_nil_or_concat mid with h | ⟨m, y, h⟩
      · rw [h] at hm; simp at hm
      · exact ⟨m, y, by simpa using h⟩
    have hsm := hs.small
    simp only [List.length_append, List.length_cons, List.length_nil] at hsm hm
    have hn : mid'.length = n := by omega
    have p1 : peek (u32 (base + (n + 1))) vm = .ok (y, vm) := by
      refine peek_used hs ?_
      rw [u32_id (by omega)]
      have : base + (n + 1) = (pre ++ mid').length := by simp; omega
      rw [this]
      simp
    obtain ⟨s1, q1, q2, q3, q4⟩ := poke_mid hs y (i := u32 (base + (n + 2))) (by
      rw [u32_id (by omega)]; simp; omega)
    have q2' : (vm.setC { c with stack := s1 }).Stk { c with stack := s1 } (pre ++ mid' ++ [y] ++ ([y] ++ post)) := by
      simpa using q2
    obtain ⟨s2, q, r1, r2, r3, r4⟩ := ih _ _ mid' ([y] ++ post) y hn q2' (fun _ => trivial)
    simp only [VM.setC_setC] at r1 r2
    refine ⟨s2, q, ?_, by simpa using r2, by rw [r3, q3], by rw [r4, q4]⟩
    rw [shiftArgs, M.bind_ok p1, M.bind_ok q1, r1]

theorem pushSlot_stk {vm : VM} {c : Ctx} {l : List Value} (h : vm.Stk c l) (hr : Room vm c.stack) :
    ∃ s' x, pushSlot vm = .ok (c.stack.size, vm.setC { c with stack := s' }) ∧
      (vm.setC { c with stack := s' }).Stk { c with stack := s' } (l ++ [x]) ∧ s' = c.stack.pushed := by
  obtain ⟨h1, h2, h3⟩ := Stack.pushed_wf h.wf hr
  have hl : c.stack.pushed.used.length = c.stack.size + 1 := by
    unfold Stack.used
    rw [List.length_take, h1.len, h2]
    have := h1.size; omega
  refine ⟨_, c.stack.pushed.used[c.stack.size], pushSlot_room h.at_ h.wf hr, ⟨h.at_.setC _, h1, ?_⟩, rfl⟩
  show c.stack.pushed.used = _
  rw [← h.used, ← h3]
  refine List.ext_getElem (by simp; omega) fun i h1 h2 => ?_
  by_cases hi : i < c.stack.size
  · rw [List.getElem_append_left (by simp; omega)]; simp
  · have : i = c.stack.size := by omega
    subst this
    rw [List.getElem_append_right (by simp)]; simp

theorem RoomFor.room {vm : VM} {s : Stack} {k : Nat} (h : RoomFor vm s (k + 1)) (hw : s.WF) : Room vm s := by
  have := hw.size
  rcases h with h | ⟨h1, h2⟩
  · exact .inl (by omega)
  · by_cases hc : s.size < s.cap
    · exact .inl hc
    · exact .inr ⟨by omega, by omega⟩

theorem RoomFor.pushed {vm : VM} {s : Stack} {k : Nat} (h : RoomFor vm s (k + 1)) (hw : s.WF) :
    RoomFor vm s.pushed k := by
  have h1 := (Stack.pushed_wf hw (h.room hw)).2.1
  unfold RoomFor at *
  rw [h1]
  rcases h with h | ⟨h2, h3⟩
  · left
    have : s.pushed.cap = s.cap := by
      unfold Stack.pushed
      rw [if_neg (by omega)]
    omega
  · right; omega

/-! ## Redirections -/

/-- `v` differs from `w` by added strings and the stack of the current context `c`, which now is `s`. -/
structure After (w : VM) (c : Ctx) (s : Stack) (v : VM) : Prop where
  ext : SExt (w.setC { c with stack := s }) v
  errs : v.errors = w.errors

theorem After.stk {w v : VM} {c : Ctx} {s : Stack} {l : List Value} (h : After w c s v)
    (hs : (w.setC { c with stack := s }).Stk { c with stack := s } l) : v.Stk { c with stack := s } l :=
  ⟨h.ext.at hs.at_, hs.wf, hs.used⟩

theorem Interned.ext {vm vm' : VM} {s : Bytes} (h : SExt vm vm') (hi : Interned vm s) : Interned vm' s := by
  obtain ⟨id, e, h1, h2⟩ := hi
  exact ⟨id, e, h.keep id e h1, h2⟩

/-- The two names are looked up and nothing is lost. -/
theorem names_run {vm : VM} (hs : StrWF vm) (ho : vm.objects.WF) (hn : NamesFit vm) {id : Nat} {o : Obj}
    (he : vm.objects.entry id = some o) (hw : OWF vm o) {α : Type} (k : Option Value → Option Value → M α) :
    ∃ vm' f d, (do
        let kx ← findOrAddString (cs "_exec")
        let f ← lookupPublic F (.obj id) (.str kx)
        let kd ← findOrAddString (cs "_data")
        let d ← lookupPublic F (.obj id) (.str kd)
        k f d : M α) vm = k f d vm' ∧ SExt vm vm' ∧ vm'.errors = vm.errors ∧ NamesFit vm' ∧
      (match f with | some f => FieldIs vm id (cs "_exec") f | none => NoField vm id (cs "_exec")) ∧
      (match d with | some d => FieldIs vm id (cs "_data") d | none => NoField vm id (cs "_data")) := by
  have c1 : Interned vm (cs "_exec") ∨ ∃ i, i < 2147483648 ∧ vm.strings.entry i = none := by
    rcases hn with h | ⟨i, _, _, h1, _, h2, _⟩
    · exact .inl h.1
    · exact .inr ⟨i, h1, h2⟩
  obtain ⟨x, v1, a1, a2, a3, a4, a5⟩ := intern_run hs c1
  have c2 : Interned v1 (cs "_data") ∨ ∃ i, i < 2147483648 ∧ v1.strings.entry i = none := by
    rcases hn with h | ⟨i, j, hij, h1, h2, h3, h4⟩
    · exact .inl (h.2.ext a2)
    · rcases a5 with a5 | ⟨m, a5⟩
      · subst a5; exact .inr ⟨i, h1, h3⟩
      · by_cases hm : i = m
        · exact .inr ⟨j, h2, (a5 j).mpr ⟨fun e => hij (hm.trans e.symm), h4⟩⟩
        · exact .inr ⟨i, h1, (a5 i).mpr ⟨hm, h3⟩⟩
  have o1 : v1.objects.WF := by rw [a2.objects]; exact ho
  have he1 : v1.objects.entry id = some o := by rw [a2.objects]; exact he
  have hw1 := a2.owf hw
  have back : ∀ {v' : VM} (e : SExt vm v') (he' : v'.objects.entry id = some o) (s : Bytes) (v : Value),
      FieldIs v' id s v ↔ FieldIs vm id s v := by
    intro v' e he' s v
    rw [fieldIs_has he', fieldIs_has he]
    exact e.has hw _ _
  have backN : ∀ {v' : VM} (e : SExt vm v') (he' : v'.objects.entry id = some o) (s : Bytes),
      NoField v' id s → NoField vm id s := by
    intro v' e he' s h
    exact ⟨⟨o, he⟩, fun v hv => h.2 v ((back e he' s v).mpr hv)⟩
  obtain ⟨y, v2, b1, b2, b3, b4, b5⟩ := intern_run a2.wf c2
  have o2 : v2.objects.WF := by rw [b2.objects]; exact o1
  have he2 : v2.objects.entry id = some o := by rw [b2.objects]; exact he1
  have hw2 := b2.owf hw1
  have e2 := a2.trans b2
  have hn2 : NamesFit v2 := by
    refine .inl ⟨Interned.ext b2 ?_, ?_⟩
    · cases h : v1.strings.entry x with
      | none => simp [keyOf, h] at a4
      | some e => exact ⟨x, e, h, by simpa [keyOf, h] using a4⟩
    · cases h : v2.strings.entry y with
      | none => simp [keyOf, h] at b4
      | some e => exact ⟨y, e, h, by simpa [keyOf, h] using b4⟩
  have r1 : ∃ f, lookupPublic F (.obj id) (.str x) v1 = .ok (f, v1) ∧
      (match f with | some f => FieldIs vm id (cs "_exec") f | none => NoField vm id (cs "_exec")) := by
    rcases lookup_name F a2.wf o1 he1 hw1 a4 with ⟨v, h1, h2⟩ | ⟨h1, h2⟩
    · exact ⟨some v, h1, (back a2 he1 _ _).mp h2⟩
    · exact ⟨none, h1, backN a2 he1 _ h2⟩
  have r2 : ∃ d, lookupPublic F (.obj id) (.str y) v2 = .ok (d, v2) ∧
      (match d with | some d => FieldIs vm id (cs "_data") d | none => NoField vm id (cs "_data")) := by
    rcases lookup_name F b2.wf o2 he2 hw2 b4 with ⟨v, h1, h2⟩ | ⟨h1, h2⟩
    · exact ⟨some v, h1, (back e2 he2 _ _).mp h2⟩
    · exact ⟨none, h1, backN e2 he2 _ h2⟩
  obtain ⟨f, f1, f2⟩ := r1
  obtain ⟨d, d1, d2⟩ := r2
  refine ⟨v2, f, d, ?_, e2, by rw [b3, a3], hn2, f2, d2⟩
  rw [M.bind_ok a1, M.bind_ok f1, M.bind_ok b1, M.bind_ok d1]

/-- Putting one value before the arguments. -/
theorem prepend_run {vm : VM} {c : Ctx} {l args : List Value} {fv : Value} {n : BitVec 32} {k : Nat} {α : Type} (d : Value)
    (hs : vm.Stk c (l ++ [fv] ++ args ++ [.int n])) (hr : RoomFor vm c.stack (k + 1)) (g : M α) :
    ∃ s, (do
        let _ ← pushSlot
        let s ← curStack
        shiftArgs (usub s.size (u32 (args.length + 1 + 2))) (args.length + 1)
        poke (usub s.size (u32 (args.length + 1 + 1))) d
        poke (usub s.size 1) (.int (BitVec.ofNat 32 (args.length + 1)))
        g : M α) vm = g (vm.setC { c with stack := s }) ∧
      (vm.setC { c with stack := s }).Stk { c with stack := s }
        (l ++ [fv] ++ (d :: args) ++ [.int (BitVec.ofNat 32 (args.length + 1))]) ∧
      RoomFor vm s k := by
  have hlen := hs.size
  have hsm := hs.small
  simp only [List.length_append, List.length_cons, List.length_nil] at hlen hsm
  obtain ⟨s1, x, a1, a2, a3⟩ := pushSlot_stk hs (hr.room hs.wf)
  have hsz : s1.size = c.stack.size + 1 := by rw [a3]; exact (Stack.pushed_wf hs.wf (hr.room hs.wf)).2.1
  have hbase : usub s1.size (u32 (args.length + 1 + 2)) = l.length := by
    rw [u32_id (by omega), usub_eq (by omega) (by omega)]; omega
  have hfirst : usub s1.size (u32 (args.length + 1 + 1)) = l.length + 1 := by
    rw [u32_id (by omega), usub_eq (by omega) (by omega)]; omega
  have htop : usub s1.size 1 = l.length + 1 + args.length + 1 := by
    rw [usub_eq (by omega) (by omega)]; omega
  have a2' : (vm.setC { c with stack := s1 }).Stk { c with stack := s1 }
      ((l ++ [fv]) ++ (args ++ [.int n]) ++ [x] ++ []) := by simpa using a2
  obtain ⟨s2, q, b1, b2, b3, b4⟩ := shiftArgs_run l.length (l ++ [fv]) (by simp) (args.length + 1) _ _
    (args ++ [.int n]) [] x (by simp) a2' (fun _ => trivial)
  simp only [VM.setC_setC] at b1 b2
  have b2' : (vm.setC { c with stack := s2 }).Stk { c with stack := s2 } ((l ++ [fv]) ++ [q] ++ (args ++ [.int n])) := by
    simpa using b2
  obtain ⟨s3, c1, c2, c3, c4⟩ := poke_mid b2' d (i := l.length + 1) (by simp)
  simp only [VM.setC_setC] at c1 c2
  have c2' : (vm.setC { c with stack := s3 }).Stk { c with stack := s3 }
      ((l ++ [fv] ++ [d] ++ args) ++ [.int n] ++ []) := by simpa using c2
  obtain ⟨s4, d1, d2, d3, d4⟩ := poke_mid c2' (.int (BitVec.ofNat 32 (args.length + 1)))
    (i := l.length + 1 + args.length + 1) (by simp; omega)
  simp only [VM.setC_setC] at d1 d2
  refine ⟨s4, ?_, by simpa using d2, ?_⟩
  · rw [M.bind_ok a1, M.bind_ok (curStack_at a2.at_)]
    dsimp only
    rw [hbase, hfirst, htop, M.bind_ok b1, M.bind_ok c1, M.bind_ok d1]
  · have := hr.pushed hs.wf
    rw [← a3] at this
    unfold RoomFor at this ⊢
    rw [d3, d4, c3, c4, b3, b4]
    exact this

theorem After.refl {w : VM} {c : Ctx} (h : w.At c) (hs : StrWF w) : After w c c.stack w := by
  refine ⟨?_, rfl⟩
  rw [show ({ c with stack := c.stack } : Ctx) = c from rfl, h.setC_self]
  exact SExt.refl hs

theorem RoomFor.mono {vm : VM} {s : Stack} {k j : Nat} (h : RoomFor vm s k) (hj : j ≤ k) : RoomFor vm s j := by
  unfold RoomFor at *; omega

theorem FieldIs.ext {vm vm' : VM} (h : SExt vm vm') (ho : ∀ id o, vm.objects.entry id = some o → OWF vm o) {id : Nat}
    {s : Bytes} {v : Value} : FieldIs vm' id s v ↔ FieldIs vm id s v := by
  cases he : vm.objects.entry id with
  | none =>
    have he' : vm'.objects.entry id = none := by rw [h.objects]; exact he
    constructor
    · rintro ⟨o, _, _, h1, _⟩; rw [he'] at h1; cases h1
    · rintro ⟨o, _, _, h1, _⟩; rw [he] at h1; cases h1
  | some o =>
    have he' : vm'.objects.entry id = some o := by rw [h.objects]; exact he
    rw [fieldIs_has he', fieldIs_has he]
    exact h.has (ho id o he) _ _

theorem Leads.ext {vm vm' : VM} (ho : vm'.objects = vm.objects) (h : ∀ id s v, FieldIs vm' id s v ↔ FieldIs vm id s v)
    {m : Nat} {v w : Value} {ds : List Value} (hl : Leads vm m v w ds) : Leads vm' m v w ds := by
  have keyN : ∀ {id : Nat} {s : Bytes}, NoField vm id s → NoField vm' id s := by
    rintro id s ⟨⟨o, h1⟩, h2⟩
    exact ⟨⟨o, by rw [ho]; exact h1⟩, fun v hv => h2 v ((h id s v).mp hv)⟩
  induction hl with
  | here v => exact .here v
  | plain h1 h2 _ ih => exact .plain ((h _ _ _).mpr h1) (keyN h2) ih
  | data h1 h2 _ ih => exact .data ((h _ _ _).mpr h1) ((h _ _ _).mpr h2) ih

/-- What following redirections needs. -/
structure Ready (vm : VM) : Prop where
  strs : StrWF vm
  objs : vm.objects.WF
  owf : ∀ id o, vm.objects.entry id = some o → OWF vm o
  names : NamesFit vm

theorem Ready.setC {vm : VM} (h : Ready vm) (c : Ctx) : Ready (vm.setC c) :=
  ⟨VM.setC_strWF h.strs c, h.objs, fun id o ho => (h.owf id o ho).congr fun _ _ _ _ _ => ⟨rfl, rfl⟩, h.names⟩

theorem Ready.ext {vm vm' : VM} (h : Ready vm) (he : SExt vm vm') (hn : NamesFit vm') : Ready vm' := by
  refine ⟨he.wf, by rw [he.objects]; exact h.objs, fun id o ho => ?_, hn⟩
  rw [he.objects] at ho
  exact he.owf (h.owf id o ho)

theorem RoomFor.limits {vm vm' : VM} {s : Stack} {k : Nat} (h : RoomFor vm s k) (hl : vm'.limits = vm.limits) :
    RoomFor vm' s k := by
  unfold RoomFor at *; rw [hl]; exact h

theorem After.trans {w v x : VM} {c : Ctx} {s t : Stack} (h1 : After w c s v) (h2 : After v { c with stack := s } t x) :
    After w c t x := by
  refine ⟨?_, by rw [h2.errs, h1.errs]⟩
  have := h1.ext.setC { c with stack := t }
  rw [VM.setC_setC] at this
  exact this.trans h2.ext

/-- Following the redirections. -/
theorem resolve_room : ∀ (m : Nat) {v w : Value} {ds : List Value} {vm : VM} {c : Ctx} {l args : List Value} {fv : Value}
    {n : BitVec 32} {r q : Nat}, Leads vm m v w ds → Ready vm → m ≤ r →
    vm.Stk c (l ++ [fv] ++ args ++ [.int n]) → n.toNat = args.length → RoomFor vm c.stack (ds.length + q) →
    ∃ s vm' n', resolveCallable F r args.length v vm = resolveCallable F (r - m) (ds ++ args).length w vm' ∧
      After vm c s vm' ∧ vm'.Stk { c with stack := s } (l ++ [fv] ++ (ds ++ args) ++ [.int n']) ∧
      n'.toNat = (ds ++ args).length ∧ Ready vm' ∧ RoomFor vm' s q := by
  intro m
  induction m with
  | zero =>
    intro v w ds vm c l args fv n r q hl hR hm hs hn hr
    cases hl
    exact ⟨c.stack, vm, n, rfl, After.refl hs.at_ hR.strs, hs, hn, hR, by simpa using hr⟩
  | succ m ih =>
    intro v w ds vm c l args fv n r q hl hR hm hs hn hr
    obtain ⟨r, rfl⟩ : ∃ r', r = r' + 1 := ⟨r - 1, by omega⟩
    have hsub : r + 1 - (m + 1) = r - m := by omega
    rw [hsub]
    have hsm := hs.small
    simp only [List.length_append, List.length_cons, List.length_nil] at hsm
    cases hl with
    | @plain id _ f _ _ hx hd hl =>
      obtain ⟨o, he⟩ := hd.1
      obtain ⟨v1, f', d', a1, a2, a3, a4, a5, a6⟩ := names_run F hR.strs hR.objs hR.names he (hR.owf id o he)
        (fun f d => match d with
          | none => match f with
            | none => return some (none, args.length)
            | some f => resolveCallable F r args.length f
          | some d =>
            if args.length = UINT_MAX then do
              addError "Argument count overflow."
              return none
            else do
              let argc := args.length + 1
              let _ ← pushSlot
              let s ← curStack
              shiftArgs (usub s.size (u32 (argc + 2))) argc
              poke (usub s.size (u32 (argc + 1))) d
              poke (usub s.size 1) (.int (BitVec.ofNat 32 argc))
              match f with
              | none => return some (none, argc)
              | some f => resolveCallable F r argc f)
      have hd' : d' = none := by
        cases d' with
        | none => rfl
        | some d => exact absurd a6 (hd.2 d)
      subst hd'
      have hf' : f' = some f := by
        cases f' with
        | none => exact absurd hx (a5.2 f)
        | some g => rw [fieldIs_unique hR.strs he (hR.owf id o he) a5 hx]
      subst hf'
      have hk := fun id s v => FieldIs.ext (id := id) (s := s) (v := v) a2 hR.owf
      obtain ⟨s, v2, n', b1, b2, b3, b4, b5⟩ := ih (r := r) (hl.ext a2.objects hk) (hR.ext a2 a4) (by omega)
        ⟨a2.at hs.at_, hs.wf, hs.used⟩ hn (hr.limits a2.limits)
      refine ⟨s, v2, n', ?_, ?_, b3, b4, b5⟩
      · rw [resolveCallable]
        exact a1.trans b1
      · refine ⟨(a2.setC _).trans b2.ext, by rw [b2.errs, a3]⟩
    | @data id _ f _ d ds hx hd hl =>
      obtain ⟨o, es, e, he, hfx⟩ := hx
      have hx : FieldIs vm id (cs "_exec") f := ⟨o, es, e, he, hfx⟩
      obtain ⟨v1, f', d', a1, a2, a3, a4, a5, a6⟩ := names_run F hR.strs hR.objs hR.names he (hR.owf id o he)
        (fun f d => match d with
          | none => match f with
            | none => return some (none, args.length)
            | some f => resolveCallable F r args.length f
          | some d =>
            if args.length = UINT_MAX then do
              addError "Argument count overflow."
              return none
            else do
              let argc := args.length + 1
              let _ ← pushSlot
              let s ← curStack
              shiftArgs (usub s.size (u32 (argc + 2))) argc
              poke (usub s.size (u32 (argc + 1))) d
              poke (usub s.size 1) (.int (BitVec.ofNat 32 argc))
              match f with
              | none => return some (none, argc)
              | some f => resolveCallable F r argc f)
      have hd' : d' = some d := by
        cases d' with
        | none => exact absurd hd (a6.2 d)
        | some g => rw [fieldIs_unique hR.strs he (hR.owf id o he) a6 hd]
      subst hd'
      have hf' : f' = some f := by
        cases f' with
        | none => exact absurd hx (a5.2 f)
        | some g => rw [fieldIs_unique hR.strs he (hR.owf id o he) a5 hx]
      subst hf'
      have hk := fun id s v => FieldIs.ext (id := id) (s := s) (v := v) a2 hR.owf
      have hs1 : v1.Stk c (l ++ [fv] ++ args ++ [.int n]) := ⟨a2.at hs.at_, hs.wf, hs.used⟩
      have hr1 := hr.limits a2.limits
      rw [List.length_append, List.length_singleton, Nat.add_right_comm] at hr1
      obtain ⟨t, p1, p2, p3⟩ := prepend_run d hs1 hr1 (resolveCallable F r (args.length + 1) f)
      have hlen : (BitVec.ofNat 32 (args.length + 1)).toNat = (d :: args).length := by
        simp only [BitVec.toNat_ofNat, List.length_cons]
        exact Nat.mod_eq_of_lt (by omega)
      obtain ⟨s, v2, n', b1, b2, b3, b4, b5⟩ := ih (r := r) (vm := v1.setC { c with stack := t })
        (Leads.ext (vm := v1) (vm' := v1.setC { c with stack := t }) rfl (fun _ _ _ => Iff.rfl) (hl.ext a2.objects hk)) ((hR.ext a2 a4).setC _) (by omega) p2 hlen p3
      refine ⟨s, v2, n', ?_, ?_, by simpa using b3, by simpa using b4, b5⟩
      · rw [resolveCallable]
        refine a1.trans ?_
        dsimp only
        rw [if_neg (by unfold UINT_MAX; omega)]
        refine p1.trans ?_
        simpa using b1
      · refine ⟨?_, ?_⟩
        · have := b2.ext
          rw [VM.setC_setC] at this
          exact (a2.setC _).trans this
        · rw [b2.errs]; exact a3

variable (H : Host)

/-- What follows once it is known what is to be called. -/
def callTarget (r : Option (Option Value × Nat)) : M Unit :=
  match r with
  | none => return ()
  | some (some (.fn id), argc) => do
    let vm ← get
    match vm.functions[id]? with
    | none => addError "Bad function id."
    | some f =>
      if f.argc ≠ UINT_MAX ∧ f.argc ≠ argc then
        addError "Incorrect argument count for function call."
      else if f.extId ≠ UINT_MAX then callNative H f.extId argc
      else do
        let c ← curCtx
        pushInt (BitVec.ofNat 32 c.ip)
        modCur fun c => { c with ip := usub f.first 1 }
  | some _ =>
    addError "Tried to call something that is not a function id or a callable object."

theorem opCall_resolve {vm : VM} {c : Ctx} {l args : List Value} {fv : Value} {n : BitVec 32}
    (hs : vm.Stk c (l ++ [fv] ++ args ++ [.int n])) (hn : n.toNat = args.length) :
    opCall F H vm = (do let r ← resolveCallable F 10 args.length fv; callTarget H r : M Unit) vm := by
  have hlen := hs.size
  have hsm := hs.small
  simp only [List.length_append, List.length_cons, List.length_nil] at hlen hsm
  unfold opCall
  have e1 : usub c.stack.size 1 = l.length + 1 + args.length := by rw [usub_eq (by omega) (by omega)]; omega
  have e2 : usub c.stack.size (u32 (n.toNat + 2)) = l.length := by
    rw [u32_id (by omega), usub_eq (by omega) (by omega)]; omega
  have p1 : peek (usub c.stack.size 1) vm = .ok (.int n, vm) := by
    refine peek_used hs ?_
    rw [e1, show l.length + 1 + args.length = (l ++ [fv] ++ args).length by simp; omega,
      List.getElem?_append_right (Nat.le_refl _), Nat.sub_self]
    rfl
  have p2 : peek (usub c.stack.size (u32 (n.toNat + 2))) vm = .ok (fv, vm) := by
    refine peek_used hs ?_
    rw [e2]; simp
  rw [M.bind_ok (curStack_at hs.at_), M.bind_ok p1]
  have hv : valueToInt (.int n) vm = .ok (n, vm) := rfl
  rw [M.bind_ok hv, M.bind_ok p2, hn]
  rfl

/-- The end of a chain at an object from which nothing is called. -/
theorem resolve_stuck {vm : VM} {c : Ctx} {l args : List Value} {fv : Value} {n : BitVec 32} {r id : Nat} (hR : Ready vm)
    (hs : vm.Stk c (l ++ [fv] ++ args ++ [.int n])) (hr : RoomFor vm c.stack 1) (hx : ∀ f, ¬ FieldIs vm id (cs "_exec") f) :
    ∃ k vm' es, resolveCallable F (r + 1) args.length (.obj id) vm = .ok (some (none, k), vm') ∧
      vm'.errors = vm.errors ++ es ∧ ∃ s, vm'.At { c with stack := s } := by
  have hsm := hs.small
  simp only [List.length_append, List.length_cons, List.length_nil] at hsm
  cases he : vm.objects.entry id with
  | none =>
    have hn := hR.names
    have c1 : Interned vm (cs "_exec") ∨ ∃ i, i < 2147483648 ∧ vm.strings.entry i = none := by
      rcases hn with h | ⟨i, _, _, h1, _, h2, _⟩
      · exact .inl h.1
      · exact .inr ⟨i, h1, h2⟩
    obtain ⟨x, v1, a1, a2, a3, a4, a5⟩ := intern_run hR.strs c1
    have c2 : Interned v1 (cs "_data") ∨ ∃ i, i < 2147483648 ∧ v1.strings.entry i = none := by
      rcases hn with h | ⟨i, j, hij, h1, h2, h3, h4⟩
      · exact .inl (h.2.ext a2)
      · rcases a5 with a5 | ⟨m, a5⟩
        · subst a5; exact .inr ⟨i, h1, h3⟩
        · by_cases hm : i = m
          · exact .inr ⟨j, h2, (a5 j).mpr ⟨fun e => hij (hm.trans e.symm), h4⟩⟩
          · exact .inr ⟨i, h1, (a5 i).mpr ⟨hm, h3⟩⟩
    have look : ∀ {v : VM} (kv : Value), v.objects = vm.objects →
        lookupPublic F (.obj id) kv v = .ok (none, v.addErr "Bad object ID in nkiVmObjectFindOrAddEntry.") := by
      intro v kv hv
      have hw : v.objects.WF := by rw [hv]; exact hR.objs
      have he' : v.objects.entry id = none := by rw [hv]; exact he
      unfold lookupPublic
      rw [M.bind_ok (objFromValue_obj hw id), he']
      dsimp only [Option.map]
      rw [M.bind_ok (addError_run _ _)]
      rfl
    have hw1 : StrWF (v1.addErr "Bad object ID in nkiVmObjectFindOrAddEntry.") :=
      ⟨a2.wf.tab, a2.wf.blen, a2.wf.nodup, a2.wf.mem, a2.wf.hash, a2.wf.bucket, a2.wf.inj⟩
    obtain ⟨y, v2, b1, b2, b3, b4, b5⟩ := intern_run (vm := v1.addErr "Bad object ID in nkiVmObjectFindOrAddEntry.") hw1 c2
    refine ⟨args.length, v2.addErr "Bad object ID in nkiVmObjectFindOrAddEntry.",
      ["Bad object ID in nkiVmObjectFindOrAddEntry.", "Bad object ID in nkiVmObjectFindOrAddEntry."], ?_, ?_, c.stack, ?_⟩
    · rw [resolveCallable, M.bind_ok a1, M.bind_ok (look _ a2.objects), M.bind_ok b1,
        M.bind_ok (look _ (b2.objects.trans a2.objects))]
      rfl
    · show v2.errors ++ _ = _
      rw [b3]
      show (v1.errors ++ _) ++ _ = _
      rw [a3]; simp
    · exact b2.at (vm := v1.addErr _) (a2.at hs.at_)
  | some o =>
    obtain ⟨v1, f', d', a1, a2, a3, a4, a5, a6⟩ := names_run F hR.strs hR.objs hR.names he (hR.owf id o he)
      (fun f d => match d with
        | none => match f with
          | none => return some (none, args.length)
          | some f => resolveCallable F r args.length f
        | some d =>
          if args.length = UINT_MAX then do
            addError "Argument count overflow."
            return none
          else do
            let argc := args.length + 1
            let _ ← pushSlot
            let s ← curStack
            shiftArgs (usub s.size (u32 (argc + 2))) argc
            poke (usub s.size (u32 (argc + 1))) d
            poke (usub s.size 1) (.int (BitVec.ofNat 32 argc))
            match f with
            | none => return some (none, argc)
            | some f => resolveCallable F r argc f)
    have hf' : f' = none := by
      cases f' with
      | none => rfl
      | some g => exact absurd a5 (hx g)
    subst hf'
    rw [resolveCallable]
    cases d' with
    | none => exact ⟨args.length, v1, [], a1, by simp [a3], c.stack, a2.at hs.at_⟩
    | some d =>
      have hs1 : v1.Stk c (l ++ [fv] ++ args ++ [.int n]) := ⟨a2.at hs.at_, hs.wf, hs.used⟩
      obtain ⟨t, p1, p2, p3⟩ := prepend_run (k := 0) d hs1 (hr.limits a2.limits)
        (pure (some (none, args.length + 1)) : M (Option (Option Value × Nat)))
      refine ⟨args.length + 1, v1.setC { c with stack := t }, [], a1.trans ?_, by simpa using a3, t, p2.at_⟩
      dsimp only
      rw [if_neg (by unfold UINT_MAX; omega)]
      exact p1

/-- Every chain ends, or has at least `k` objects. -/
theorem leads_total (vm : VM) : ∀ (k : Nat) (v : Value), ∃ m w ds, Leads vm m v w ds ∧ m ≤ k ∧ ds.length ≤ m ∧
    ((∀ id, w ≠ .obj id) ∨ (∃ id, w = .obj id ∧ (m = k ∨ ∀ f, ¬ FieldIs vm id (cs "_exec") f))) := by
  intro k
  induction k with
  | zero =>
    intro v
    refine ⟨0, v, [], .here v, Nat.le_refl _, Nat.le_refl _, ?_⟩
    cases v with
    | obj id => exact .inr ⟨id, rfl, .inl rfl⟩
    | _ => left; intro id h; cases h
  | succ k ih =>
    intro v
    cases v with
    | obj id =>
      by_cases hx : ∃ f, FieldIs vm id (cs "_exec") f
      · obtain ⟨f, hf⟩ := hx
        obtain ⟨m, w, ds, h1, h2, h3, h4⟩ := ih f
        have h4' : (∀ id, w ≠ .obj id) ∨ ∃ id, w = .obj id ∧ (m + 1 = k + 1 ∨ ∀ f, ¬ FieldIs vm id (cs "_exec") f) := by
          rcases h4 with h4 | ⟨j, e, h4⟩
          · exact .inl h4
          · exact .inr ⟨j, e, h4.imp (congrArg (· + 1)) fun h => h⟩
        by_cases hd : ∃ d, FieldIs vm id (cs "_data") d
        · obtain ⟨d, hd⟩ := hd
          exact ⟨m + 1, w, ds ++ [d], .data hf hd h1, by omega, by simp; omega, h4'⟩
        · have ⟨o, es, e, he, _⟩ := hf
          exact ⟨m + 1, w, ds, .plain hf ⟨⟨o, he⟩, fun v hv => hd ⟨v, hv⟩⟩ h1, by omega, by omega, h4'⟩
      · exact ⟨0, _, [], .here _, by omega, Nat.le_refl _, .inr ⟨id, rfl, .inr fun f hf => hx ⟨f, hf⟩⟩⟩
    | _ => exact ⟨0, _, [], .here _, by omega, Nat.le_refl _, .inl (by intro id h; cases h)⟩

/-- A native function whose arguments are as declared is called with them. -/
theorem native_run {vm : VM} (ho : vm.objects.WF) {c : Ctx} {l args : List Value} {fv : Value} {n : BitVec 32} {i cb : Nat}
    {x : ExtFunc} (hs : vm.Stk c (l ++ [fv] ++ args ++ [.int n])) (hx : vm.extFuncs[i]? = some x)
    (hcb : x.callback = some cb) (hnat : x.argc ≠ UINT_MAX → x.argTypes.length = x.argc ∧ x.argExtTypes.length = x.argc)
    (hfit : ArgsFit vm x args) :
    callNative H i args.length vm = (do
        let r ← H.call cb args
        popN (u32 (args.length + 2))
        push r : M Unit) vm := by
  rw [callNative_run H hs hx hcb]
  by_cases hx1 : x.argc ≠ UINT_MAX
  · rcases hfit with h1 | ⟨h1, h2⟩
    · exact absurd h1 hx1
    · obtain ⟨n1, n2⟩ := hnat hx1
      rw [if_pos hx1, if_neg (fun h => h h1.symm)]
      rcases checkArgs_run ho (f := x) (args := args) (i := 0) (by omega) (by omega) with ⟨_, g2⟩ | ⟨g1, _⟩
      · rw [M.bind_ok g2, if_pos rfl]
      · exact absurd (fun j v hj => by have := h2 j v hj; rwa [Nat.zero_add]) g1
  · rw [if_neg hx1]
    rfl

/-- What remains after a native function has returned `r`. -/
theorem native_return {vm1 : VM} {d : Ctx} {l args : List Value} {fv : Value} {n : BitVec 32}
    (hd : vm1.Stk d (l ++ [fv] ++ args ++ [.int n])) (r : Value) :
    ∃ s, (do popN (u32 (args.length + 2)); push r : M Unit) vm1 = .ok ((), vm1.setC { d with stack := s }) ∧
        (vm1.setC { d with stack := s }).Stk { d with stack := s } (l ++ [r]) := by
  have hsm := hd.small
  simp only [List.length_append, List.length_cons, List.length_nil] at hsm
  have hd' : vm1.Stk d (l ++ ([fv] ++ args ++ [.int n])) := by simpa using hd
  have hlen : ([fv] ++ args ++ [Value.int n]).length = u32 (args.length + 2) := by
    rw [u32_id (by omega)]; simp
  obtain ⟨s, p1, p2⟩ := popN_app hd'
  rw [hlen] at p1
  have hroom : s.size < s.cap ∨ (s.cap ≤ 65535 ∧ s.cap * 2 ≤ (vm1.setC { d with stack := s }).limits.maxStackSize) := by
    left
    have e1 := (popN_ok hd' (n := u32 (args.length + 2)) (by rw [← hlen]; simp)).1
    rw [p1] at e1
    have e2 : s = { d.stack with size := d.stack.size - u32 (args.length + 2) } := by
      have := congrArg (fun r : Res (Unit × VM) => match r with
        | .ok (_, v) => (v.ctxs[vm1.cur]?).join.map (fun d : Ctx => d.stack)
        | .ub _ => none) e1
      simp only [VM.setC, List.getElem?_set_self hd.at_.lt, Option.join] at this
      simpa using this
    have e3 := hd.size
    have e4 := hd.wf.size
    rw [e2]
    simp only [List.length_append, List.length_cons, List.length_nil] at e3
    show d.stack.size - _ < d.stack.cap
    rw [u32_id (by omega)]
    omega
  obtain ⟨s2, q1, q2, -⟩ := push_room p2 hroom r
  simp only [VM.setC_setC] at q1 q2
  refine ⟨s2, ?_, q2⟩
  rw [M.bind_ok p1, q1]

end Nk
