import Verif.Lemmas.Strings
import Mathlib.Tactic.Ring
/-!
# Lemmas about conversions and comparison of values
-/
namespace Nk

theorem SExt.refl {vm : VM} (h : StrWF vm) : SExt vm vm :=
  ⟨rfl, h, fun _ _ h => h, List.prefix_rfl, fun _ _ h => .inl h⟩

theorem SExt.trans {a b c : VM} (h1 : SExt a b) (h2 : SExt b c) : SExt a c := by
  refine ⟨?_, h2.wf, fun j e h => h2.keep j e (h1.keep j e h), h1.errs.trans h2.errs,
    fun j e h => (h2.fresh j e h).elim (h1.fresh j e) .inr⟩
  have e1 := h1.frame
  have e2 := h2.frame
  rw [e1] at e2
  exact e2

theorem SExt.addErr {vm : VM} (h : StrWF vm) (e : String) : SExt vm (vm.addErr e) :=
  ⟨rfl, h.addErr e, fun _ _ h => h, by simp, fun _ _ h => .inl h⟩

theorem SExt.ctxs {vm vm' : VM} (h : SExt vm vm') : vm'.ctxs = vm.ctxs := by
  have := congrArg VM.ctxs h.frame; exact this
theorem SExt.cur {vm vm' : VM} (h : SExt vm vm') : vm'.cur = vm.cur := by
  have := congrArg VM.cur h.frame; exact this
theorem SExt.objects {vm vm' : VM} (h : SExt vm vm') : vm'.objects = vm.objects := by
  have := congrArg VM.objects h.frame; exact this
theorem SExt.limits {vm vm' : VM} (h : SExt vm vm') : vm'.limits = vm.limits := by
  have := congrArg VM.limits h.frame; exact this

theorem SExt.at {vm vm' : VM} (h : SExt vm vm') {c : Ctx} (ha : vm.At c) : vm'.At c := by
  unfold VM.At at *
  rw [h.ctxs, h.cur]; exact ha

theorem findOrAddString_sext {vm : VM} (h : StrWF vm) (s : Bytes) :
    ∃ id vm', findOrAddString s vm = .ok (id, vm') ∧ SExt vm vm' := by
  rcases findOrAddString_spec h s with ⟨id, e, h1, _⟩ | ⟨id, t, b, h1, h2, h3, h4, _⟩ | ⟨h1, _⟩
  · exact ⟨id, vm, h1, SExt.refl h⟩
  · refine ⟨id, _, h1, rfl, h2, fun j e he => ?_, List.prefix_rfl, fun j e he => ?_⟩
    · have : j ≠ id := by rintro rfl; rw [h3] at he; cases he
      simp [h4, this, he]
    · have he : t.entry j = some e := he
      rw [h4] at he
      by_cases hj : j = id
      · rw [if_pos hj] at he
        cases he
        exact .inr rfl
      · rw [if_neg hj] at he
        exact .inl he
  · exact ⟨_, _, h1, SExt.addErr h _⟩

variable (F : FloatOps)

/-! Equations by constructor. -/

theorem valueToInt_int (i : BitVec 32) : valueToInt (.int i) = Pure.pure i := rfl
theorem valueToInt_float (b : BitVec 32) : valueToInt (.float b) = liftR (f2i b) := rfl
theorem valueToInt_obj (n : Nat) : valueToInt (.obj n) = Pure.pure 1 := rfl
theorem valueToInt_nil : valueToInt .nil = Pure.pure 0 := rfl
theorem valueToInt_str (id : Nat) : valueToInt (.str id) = (do
    let s ← getString id
    match s with
    | some s => Pure.pure (atoi32 s)
    | none => Pure.pure 0) := rfl
theorem valueToFloat_int (i : BitVec 32) : valueToFloat F (.int i) = Pure.pure (F.ofInt i) := rfl
theorem valueToFloat_float (b : BitVec 32) : valueToFloat F (.float b) = Pure.pure b := rfl
theorem valueToFloat_str (id : Nat) : valueToFloat F (.str id) = (do
    let s ← getString id
    match s with
    | some s => Pure.pure (F.atof s)
    | none => Pure.pure 0) := rfl
theorem valueToString_str (id : Nat) : valueToString F (.str id) = getString id := rfl
theorem valueToString_int (i : BitVec 32) : valueToString F (.int i) = (do
    let id ← findOrAddString (itoa i)
    getString id) := rfl
theorem compareBody_int (i : BitVec 32) (b : Value) : compareBody F (.int i) b = (do
    let o ← valueToInt b
    Pure.pure (if i.toInt > o.toInt then 1 else if i.toInt = o.toInt then 0 else -1)) := rfl
theorem compareBody_float (x : BitVec 32) (b : Value) : compareBody F (.float x) b = (do
    let o ← valueToFloat F b
    Pure.pure (if fgt x o then 1 else if feq x o then 0 else -1)) := rfl
theorem compareBody_str (id : Nat) (b : Value) : compareBody F (.str id) b = (do
    let other ← valueToString F b
    let this ← getString id
    match other, this with
    | some other, some this => Pure.pure (strcmp this other)
    | _, _ => do
      addError "Bad string comparison."
      Pure.pure 1) := rfl
theorem compareBody_fn (x y : Nat) : compareBody F (.fn x) (.fn y) =
    Pure.pure (if y = x then 0 else if x < y then -1 else 1) := rfl
theorem compareBody_obj (x y : Nat) : compareBody F (.obj x) (.obj y) =
    Pure.pure (if y = x then 0 else if x < y then -1 else 1) := rfl

/-- The float conversion is undefined in only one way. -/
theorem f2i_ub {b : BitVec 32} {k : UB} (h : f2i b = .ub k) : k = .cast := by
  unfold f2i at h
  have key : ∀ (c d : Prop) [Decidable c] [Decidable d] (x : BitVec 32),
      (if c then Res.ub UB.cast else if d then Res.ok x else .ub .cast) = .ub k → k = .cast := by
    intro c d _ _ x hx
    split at hx
    · cases hx; rfl
    · split at hx
      · cases hx
      · cases hx; rfl
  exact key _ _ _ h

theorem valueHash_run {vm : VM} (h : vm.strings.WF) (v : Value) :
    ∃ n, valueHash v vm = .ok (n, vm) := by
  cases v with
  | str id =>
    simp only [valueHash, M.bind_eq, getStrEntry_run h]
    cases vm.strings.entry id <;> exact ⟨_, rfl⟩
  | _ => exact ⟨_, rfl⟩

theorem valueToString_sext {vm : VM} (h : StrWF vm) (v : Value) :
    ∃ s vm', valueToString F v vm = .ok (s, vm') ∧ SExt vm vm' := by
  have key : ∀ s : Bytes, ∃ r vm', (do let id ← findOrAddString s; getString id : M (Option Bytes)) vm
      = .ok (r, vm') ∧ SExt vm vm' := by
    intro s
    obtain ⟨id, vm', h1, h2⟩ := findOrAddString_sext h s
    exact ⟨_, vm', by rw [M.bind_ok h1, getString_run h2.wf.tab], h2⟩
  have key2 : ∀ (v : Value), ∃ r vm', (do
      let h ← valueHash v
      let id ← findOrAddString
        (cs "<" ++ cs (typeName v.ty) ++ cs ":" ++ itoa (BitVec.ofNat 32 h) ++ cs ">")
      getString id : M (Option Bytes)) vm = .ok (r, vm') ∧ SExt vm vm' := by
    intro v
    obtain ⟨n, hn⟩ := valueHash_run h.tab v
    rw [M.bind_ok hn]; exact key _
  cases v with
  | str id => exact ⟨_, vm, getString_run h.tab id, SExt.refl h⟩
  | int i => exact key _
  | float b => exact key _
  | fn n => exact key2 _
  | obj n => exact key2 _
  | nil => exact key2 _
  | bad t r => exact key2 _

/-- `nkiValueToInt` either completes or hits an undefined float conversion. -/
theorem valueToInt_sext {vm : VM} (h : StrWF vm) (v : Value) :
    (∃ i vm', valueToInt v vm = .ok (i, vm') ∧ SExt vm vm') ∨ valueToInt v vm = .ub .cast := by
  cases v with
  | int i => exact Or.inl ⟨_, vm, rfl, SExt.refl h⟩
  | float b =>
    rw [valueToInt_float]
    cases hf : f2i b with
    | ok i => exact Or.inl ⟨i, vm, rfl, SExt.refl h⟩
    | ub k => right; rw [f2i_ub hf]; rfl
  | str id =>
    left
    rw [valueToInt_str, M.bind_ok (getString_run h.tab id)]
    cases vm.strings.entry id <;> exact ⟨_, vm, rfl, SExt.refl h⟩
  | fn n => exact Or.inl ⟨_, _, rfl, SExt.addErr h _⟩
  | obj n => exact Or.inl ⟨_, _, rfl, SExt.refl h⟩
  | nil => exact Or.inl ⟨_, _, rfl, SExt.refl h⟩
  | bad t r => exact Or.inl ⟨_, _, rfl, SExt.addErr h _⟩

theorem valueToFloat_sext {vm : VM} (h : StrWF vm) (v : Value) :
    ∃ i vm', valueToFloat F v vm = .ok (i, vm') ∧ SExt vm vm' := by
  cases v with
  | int i => exact ⟨_, vm, rfl, SExt.refl h⟩
  | float b => exact ⟨_, vm, rfl, SExt.refl h⟩
  | str id =>
    rw [valueToFloat_str, M.bind_ok (getString_run h.tab id)]
    cases vm.strings.entry id <;> exact ⟨_, vm, rfl, SExt.refl h⟩
  | fn n => exact ⟨_, _, rfl, SExt.addErr h _⟩
  | obj n => exact ⟨_, _, rfl, SExt.addErr h _⟩
  | nil => exact ⟨_, _, rfl, SExt.refl h⟩
  | bad t r => exact ⟨_, _, rfl, SExt.addErr h _⟩

/-- A comparison result. -/
def IsCmp (c : Int) : Prop := c = -1 ∨ c = 0 ∨ c = 1

theorem compareBody_sext {vm : VM} (h : StrWF vm) (a b : Value) :
    (∃ c vm', compareBody F a b vm = .ok (c, vm') ∧ IsCmp c ∧ SExt vm vm') ∨
      compareBody F a b vm = .ub .cast := by
  cases a with
  | int i =>
    rcases valueToInt_sext h b with ⟨j, vm', h1, h2⟩ | h1
    · left
      rw [compareBody_int, M.bind_ok h1]
      refine ⟨_, vm', rfl, ?_, h2⟩
      unfold IsCmp; split
      · simp
      · split <;> simp
    · right; rw [compareBody_int, M.bind_ub h1]
  | float x =>
    left
    obtain ⟨j, vm', h1, h2⟩ := valueToFloat_sext F h b
    rw [compareBody_float, M.bind_ok h1]
    refine ⟨_, vm', rfl, ?_, h2⟩
    unfold IsCmp; split
    · simp
    · split <;> simp
  | str id =>
    left
    obtain ⟨o, vm', h1, h2⟩ := valueToString_sext F h b
    obtain ⟨t, vm'', h3, h4⟩ := valueToString_sext F h2.wf (.str id)
    have h5 := h2.trans h4
    rw [valueToString_str] at h3
    rw [compareBody_str, M.bind_ok h1, M.bind_ok h3]
    cases o with
    | none => exact ⟨_, _, rfl, by simp [IsCmp], h5.trans (SExt.addErr h4.wf _)⟩
    | some o =>
      cases t with
      | none => exact ⟨_, _, rfl, by simp [IsCmp], h5.trans (SExt.addErr h4.wf _)⟩
      | some t => exact ⟨_, _, rfl, strcmp_range _ _, h5⟩
  | fn x =>
    left
    cases b with
    | fn y =>
      refine ⟨_, vm, rfl, ?_, SExt.refl h⟩
      unfold IsCmp; split
      · simp
      · split <;> simp
    | _ => refine ⟨_, vm, rfl, ?_, SExt.refl h⟩; unfold IsCmp; split <;> simp
  | obj x =>
    left
    cases b with
    | obj y =>
      refine ⟨_, vm, rfl, ?_, SExt.refl h⟩
      unfold IsCmp; split
      · simp
      · split <;> simp
    | _ => refine ⟨_, vm, rfl, ?_, SExt.refl h⟩; unfold IsCmp; split <;> simp
  | nil => exact Or.inl ⟨_, _, rfl, by simp [IsCmp], SExt.addErr h _⟩
  | bad t r => exact Or.inl ⟨_, _, rfl, by simp [IsCmp], SExt.addErr h _⟩

/-- Every comparison returns -1, 0 or 1 and changes nothing but strings and errors. -/
theorem valueCompare_sext {vm : VM} (h : StrWF vm) (a b : Value) (strict : Bool) :
    (∃ c vm', valueCompare F a b strict vm = .ok (c, vm') ∧ IsCmp c ∧ SExt vm vm') ∨
      valueCompare F a b strict vm = .ub .cast := by
  unfold valueCompare
  split
  · exact Or.inl ⟨_, _, rfl, by simp [IsCmp], SExt.refl h⟩
  · split
    · exact Or.inl ⟨_, _, rfl, by simp [IsCmp], SExt.refl h⟩
    · split
      · exact Or.inl ⟨_, _, rfl, by simp [IsCmp], SExt.refl h⟩
      · exact Or.inl ⟨_, _, rfl, by simp [IsCmp], SExt.refl h⟩
      · exact Or.inl ⟨_, _, rfl, by simp [IsCmp], SExt.refl h⟩
      · exact compareBody_sext F h a b

/-! ## Strict comparison of proper values -/

def icmp (a b : Int) : Int := if a > b then 1 else if a = b then 0 else -1

/-- Text of a string id (empty if there is none; only used for live ids). -/
def txt (vm : VM) (id : Nat) : Bytes := match vm.strings.entry id with
  | some e => e.str
  | none => []

/-- The result of a strict comparison. -/
def cmpV (vm : VM) (a b : Value) : Int :=
  match a, b with
  | .int i, .int j => icmp i.toInt j.toInt
  | .float x, .float y => icmp (fkey x) (fkey y)
  | .str i, .str j => strcmp (txt vm i) (txt vm j)
  | .fn x, .fn y => icmp x y
  | .obj x, .obj y => icmp x y
  | a, b => icmp a.ty b.ty

theorem strict_cmp {vm : VM} (hw : vm.strings.WF) {a b : Value} (ha : Proper vm a) (hb : Proper vm b) :
    valueCompare F a b true vm = .ok (cmpV vm a b, vm) := by
  cases a with
  | bad t r => exact ha.elim
  | int i =>
    cases b with
    | bad t r => exact hb.elim
    | int j => simp [valueCompare, Value.ty, compareBody_int, valueToInt_int, M.bind_eq, cmpV, icmp]
    | _ => simp [valueCompare, Value.ty, cmpV, icmp]
  | float x =>
    cases b with
    | bad t r => exact hb.elim
    | float y =>
      have hx : isNaN x = false := ha
      have hy : isNaN y = false := hb
      simp [valueCompare, Value.ty, compareBody_float, valueToFloat_float, M.bind_eq, cmpV, icmp, fgt, feq, hx, hy]
    | _ => simp [valueCompare, Value.ty, cmpV, icmp]
  | str i =>
    cases b with
    | bad t r => exact hb.elim
    | str j =>
      obtain ⟨e, he⟩ := ha
      obtain ⟨e', he'⟩ := hb
      simp [valueCompare, Value.ty, compareBody_str, valueToString_str, M.bind_eq, cmpV, getString_run hw,
        he, he', txt]
    | _ => simp [valueCompare, Value.ty, cmpV, icmp]
  | fn x =>
    cases b with
    | bad t r => exact hb.elim
    | fn y =>
      simp only [valueCompare, Value.ty, compareBody_fn, cmpV, icmp, M.pure_run]
      rcases Nat.lt_trichotomy x y with h | h | h
      · have h1 : ¬ y = x := by omega
        have h2 : ¬ (x : Int) > y := by omega
        have h3 : ¬ (x : Int) = y := by omega
        simp [h1, h, h2, h3]
      · subst h; simp
      · have h1 : ¬ y = x := by omega
        have h2 : (x : Int) > y := by omega
        have h3 : ¬ x < y := by omega
        simp [h1, h2, h3]
    | _ => simp [valueCompare, Value.ty, cmpV, icmp]
  | obj x =>
    cases b with
    | bad t r => exact hb.elim
    | obj y =>
      simp only [valueCompare, Value.ty, compareBody_obj, cmpV, icmp, M.pure_run]
      rcases Nat.lt_trichotomy x y with h | h | h
      · have h1 : ¬ y = x := by omega
        have h2 : ¬ (x : Int) > y := by omega
        have h3 : ¬ (x : Int) = y := by omega
        simp [h1, h, h2, h3]
      · subst h; simp
      · have h1 : ¬ y = x := by omega
        have h2 : (x : Int) > y := by omega
        have h3 : ¬ x < y := by omega
        simp [h1, h2, h3]
    | _ => simp [valueCompare, Value.ty, cmpV, icmp]
  | nil =>
    cases b with
    | bad t r => exact hb.elim
    | nil => simp [valueCompare, Value.ty, cmpV, icmp]
    | _ => simp [valueCompare, Value.ty, cmpV, icmp]

theorem icmp_neg (a b : Int) : icmp b a = -icmp a b := by
  unfold icmp
  rcases Int.lt_trichotomy a b with h | h | h
  · have h1 : ¬ a > b := by omega
    have h2 : ¬ a = b := by omega
    simp [h, h1, h2]
  · subst h; simp
  · have h1 : ¬ b > a := by omega
    have h2 : ¬ b = a := by omega
    simp [h, h1, h2]

theorem icmp_zero {a b : Int} : icmp a b = 0 ↔ a = b := by
  unfold icmp
  split
  · constructor
    · intro h; omega
    · intro h; omega
  · split
    · simp [*]
    · constructor
      · intro h; omega
      · intro h; omega

theorem icmp_le {a b : Int} : icmp a b ≤ 0 ↔ a ≤ b := by
  unfold icmp
  split
  · constructor
    · intro h; omega
    · intro h; omega
  · split
    · simp [*]
    · constructor
      · intro h; omega
      · intro h; omega

theorem icmp_range (a b : Int) : IsCmp (icmp a b) := by
  unfold icmp IsCmp
  split
  · simp
  · split <;> simp

theorem cmpV_range (vm : VM) (a b : Value) : IsCmp (cmpV vm a b) := by
  unfold cmpV
  split <;> first | exact icmp_range _ _ | exact strcmp_range _ _

theorem cmpV_neg (vm : VM) (a b : Value) : cmpV vm b a = -cmpV vm a b := by
  cases a <;> cases b <;> simp only [cmpV] <;> first | exact icmp_neg _ _ | exact strcmp_neg _ _

theorem cmpV_ty {vm : VM} {a b : Value} (ha : Proper vm a) (hb : Proper vm b) (h : cmpV vm a b ≤ 0) :
    a.ty ≤ b.ty := by
  cases a <;> cases b <;> first | exact ha.elim | exact hb.elim | (simp [Value.ty]; done) | skip
  all_goals (simp only [cmpV, icmp_le, Value.ty] at h ⊢; omega)

theorem cmpV_trans {vm : VM} {a b c : Value} (ha : Proper vm a) (hb : Proper vm b) (hc : Proper vm c)
    (h1 : cmpV vm a b ≤ 0) (h2 : cmpV vm b c ≤ 0) : cmpV vm a c ≤ 0 := by
  have t1 := cmpV_ty ha hb h1
  have t2 := cmpV_ty hb hc h2
  by_cases he : a.ty = c.ty
  · have e1 : a.ty = b.ty := by omega
    cases a with
    | bad => exact ha.elim
    | int i =>
      cases b <;> first | exact hb.elim | (simp [Value.ty] at e1; done) | skip
      cases c <;> first | exact hc.elim | (simp [Value.ty] at he; done) | skip
      simp only [cmpV, icmp_le] at *; omega
    | float i =>
      cases b <;> first | exact hb.elim | (simp [Value.ty] at e1; done) | skip
      cases c <;> first | exact hc.elim | (simp [Value.ty] at he; done) | skip
      simp only [cmpV, icmp_le] at *; omega
    | str i =>
      cases b <;> first | exact hb.elim | (simp [Value.ty] at e1; done) | skip
      cases c <;> first | exact hc.elim | (simp [Value.ty] at he; done) | skip
      exact strcmp_trans h1 h2
    | fn i =>
      cases b <;> first | exact hb.elim | (simp [Value.ty] at e1; done) | skip
      cases c <;> first | exact hc.elim | (simp [Value.ty] at he; done) | skip
      simp only [cmpV, icmp_le] at *; omega
    | obj i =>
      cases b <;> first | exact hb.elim | (simp [Value.ty] at e1; done) | skip
      cases c <;> first | exact hc.elim | (simp [Value.ty] at he; done) | skip
      simp only [cmpV, icmp_le] at *; omega
    | nil =>
      cases c <;> first | exact hc.elim | (simp [Value.ty] at he; done) | skip
      simp [cmpV, icmp]
  · have hlt : a.ty < c.ty := by omega
    have : cmpV vm a c = icmp a.ty c.ty := by
      cases a <;> cases c <;> first | exact ha.elim | exact hc.elim | rfl | (simp [Value.ty] at hlt; done)
    rw [this, icmp_le]; omega

/-! ## Float keys and float values -/

theorem fmag_lt {n n' : Nat} (h : n < n') : fmag n < fmag n' := by
  unfold fmag
  have d1 := Nat.div_add_mod n 8388608
  have d2 := Nat.div_add_mod n' 8388608
  have m1 := Nat.mod_lt n (show 8388608 > 0 by omega)
  have m2 := Nat.mod_lt n' (show 8388608 > 0 by omega)
  have hle : n / 8388608 ≤ n' / 8388608 := Nat.div_le_div_right (by omega)
  generalize n / 8388608 = e at *
  generalize n' / 8388608 = e' at *
  generalize n % 8388608 = m at *
  generalize n' % 8388608 = m' at *
  rcases Nat.lt_or_ge e e' with hlt | hge
  · have he' : ¬ e' = 0 := by omega
    simp only [he', if_false]
    have hp : 1 ≤ 2 ^ (e' - 1) := Nat.one_le_two_pow
    split
    · calc m < 8388608 := m1
        _ ≤ (8388608 + m') * 1 := by omega
        _ ≤ _ := Nat.mul_le_mul_left _ hp
    · have : 2 ^ e ≤ 2 ^ (e' - 1) := Nat.pow_le_pow_right (by omega) (by omega)
      have e2 : 2 ^ e = 2 * 2 ^ (e - 1) := by
        rw [← Nat.pow_succ']; congr 1; omega
      have hp1 : 1 ≤ 2 ^ (e - 1) := Nat.one_le_two_pow
      calc (8388608 + m) * 2 ^ (e - 1) < (8388608 + 8388608) * 2 ^ (e - 1) :=
            Nat.mul_lt_mul_of_pos_right (by omega) (by omega)
        _ = 8388608 * 2 ^ e := by rw [e2]; ring
        _ ≤ 8388608 * 2 ^ (e' - 1) := Nat.mul_le_mul_left _ this
        _ ≤ _ := Nat.mul_le_mul_right _ (by omega)
  · have : e' = e := by omega
    subst this
    have hm : m < m' := by omega
    split
    · exact hm
    · exact Nat.mul_lt_mul_of_pos_right (by omega) (Nat.two_pow_pos _)

theorem fmag_inj {n n' : Nat} : fmag n < fmag n' ↔ n < n' := by
  constructor
  · intro h
    rcases Nat.lt_trichotomy n n' with h1 | h1 | h1
    · exact h1
    · subst h1; omega
    · have := fmag_lt h1; omega
  · exact fmag_lt

theorem fmag_zero : fmag 0 = 0 := rfl

theorem fval_lt (a b : BitVec 32) : fval a < fval b ↔ fkey a < fkey b := by
  have ha : a.toNat < 2147483648 → a.toNat % 2147483648 = a.toNat := Nat.mod_eq_of_lt
  have hb : b.toNat < 2147483648 → b.toNat % 2147483648 = b.toNat := Nat.mod_eq_of_lt
  unfold fval fkey
  generalize a.toNat % 2147483648 = x at *
  generalize b.toNat % 2147483648 = y at *
  have h1 := @fmag_inj x y
  have h2 := @fmag_inj y x
  have h3 := @fmag_inj 0 x
  have h4 := @fmag_inj 0 y
  have z := fmag_zero
  split <;> split
  · rw [← ha ‹_›, ← hb ‹_›]; omega
  · rw [← ha ‹_›]; omega
  · rw [← hb ‹_›]; omega
  · omega

theorem fval_eq (a b : BitVec 32) : fval a = fval b ↔ fkey a = fkey b := by
  have h1 := fval_lt a b
  have h2 := fval_lt b a
  omega

end Nk
