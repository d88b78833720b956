import Verif.Lemmas.Ops
/-!
# C19, C20, C21, C22: comparison, hashing and conversion of values
-/
namespace Nk.Props
variable (F : FloatOps) (H : Host)

/-! ## C19: identity -/

theorem cmpV_same {vm : VM} {a b : Value} (ha : Proper vm a) (hb : Proper vm b) :
    cmpV vm a b = 0 ↔ Same vm a b := by
  constructor
  · intro h
    cases a with
    | bad => exact ha.elim
    | int i =>
      cases b <;> first | exact hb.elim | (exfalso; have := icmp_zero.mp h; revert this; simp [Value.ty]; done) | skip
      rename_i j
      have := BitVec.eq_of_toInt_eq (icmp_zero.mp h)
      subst this; exact .int i
    | float x =>
      cases b <;> first | exact hb.elim | (exfalso; have := icmp_zero.mp h; revert this; simp [Value.ty]; done) | skip
      exact .float ha hb ((fval_eq _ _).mpr (icmp_zero.mp h))
    | str i =>
      cases b <;> first | exact hb.elim | (exfalso; have := icmp_zero.mp h; revert this; simp [Value.ty]; done) | skip
      rename_i j
      obtain ⟨e, he⟩ := ha
      obtain ⟨e', he'⟩ := hb
      have : e.str = e'.str := by
        have := strcmp_eq.mp h
        simpa [txt, he, he'] using this
      exact .str ⟨e, he, rfl⟩ ⟨e', he', this.symm⟩
    | fn x =>
      cases b <;> first | exact hb.elim | (exfalso; have := icmp_zero.mp h; revert this; simp [Value.ty]; done) | skip
      rename_i y
      have : x = y := by have := icmp_zero.mp h; omega
      subst this; exact .fn x
    | obj x =>
      cases b <;> first | exact hb.elim | (exfalso; have := icmp_zero.mp h; revert this; simp [Value.ty]; done) | skip
      rename_i y
      have : x = y := by have := icmp_zero.mp h; omega
      subst this; exact .obj x
    | nil =>
      cases b <;> first | exact hb.elim | (exfalso; have := icmp_zero.mp h; revert this; simp [Value.ty]; done) | skip
      exact .nil
  · intro h
    cases h with
    | int i => exact icmp_zero.mpr rfl
    | float _ _ h => exact icmp_zero.mpr ((fval_eq _ _).mp h)
    | str h1 h2 =>
      obtain ⟨e, he, hs⟩ := h1
      obtain ⟨e', he', hs'⟩ := h2
      exact strcmp_eq.mpr (by simp [txt, he, he', hs, hs'])
    | fn n => exact icmp_zero.mpr rfl
    | obj n => exact icmp_zero.mpr rfl
    | nil => exact icmp_zero.mpr rfl

/-- **C19**: comparing two values for identity completes without changing the VM; the result is -1, 0 or
1, it is 0 exactly when the values are identical, and swapping the operands negates it. -/
theorem C19_identity {vm : VM} (h : StrWF vm) {a b : Value} (ha : Proper vm a) (hb : Proper vm b) :
    ∃ c, (c = -1 ∨ c = 0 ∨ c = 1) ∧ valueCompare F a b true vm = .ok (c, vm) ∧
      valueCompare F b a true vm = .ok (-c, vm) ∧ (c = 0 ↔ Same vm a b) := by
  refine ⟨cmpV vm a b, cmpV_range vm a b, strict_cmp F h.tab ha hb, ?_, cmpV_same ha hb⟩
  rw [strict_cmp F h.tab hb ha, cmpV_neg]

/-- **C19**: the order is transitive (with `C19_identity`: a total order on identity classes). -/
theorem C19_transitive {vm : VM} (h : StrWF vm) {a b c : Value} (ha : Proper vm a) (hb : Proper vm b)
    (hc : Proper vm c) {x y z : Int} (h1 : valueCompare F a b true vm = .ok (x, vm))
    (h2 : valueCompare F b c true vm = .ok (y, vm)) (h3 : valueCompare F a c true vm = .ok (z, vm))
    (hx : x ≤ 0) (hy : y ≤ 0) : z ≤ 0 := by
  rw [strict_cmp F h.tab ha hb] at h1
  rw [strict_cmp F h.tab hb hc] at h2
  rw [strict_cmp F h.tab ha hc] at h3
  cases h1; cases h2; cases h3
  exact cmpV_trans ha hb hc hx hy

/-- **C19**: identity is reflexive, symmetric and transitive on proper values, and relates only values of
the same type. -/
theorem C19_equivalence (vm : VM) :
    (∀ a, Proper vm a → Same vm a a) ∧ (∀ a b, Same vm a b → Same vm b a) ∧
    (∀ a b c, Same vm a b → Same vm b c → Same vm a c) ∧ (∀ a b, Same vm a b → a.ty = b.ty) := by
  refine ⟨?_, ?_, ?_, ?_⟩
  · intro a ha
    cases a with
    | bad => exact ha.elim
    | int i => exact .int i
    | float x => exact .float ha ha rfl
    | str i => obtain ⟨e, he⟩ := ha; exact .str ⟨e, he, rfl⟩ ⟨e, he, rfl⟩
    | fn n => exact .fn n
    | obj n => exact .obj n
    | nil => exact .nil
  · intro a b h
    cases h with
    | int i => exact .int i
    | float h1 h2 h => exact .float h2 h1 h.symm
    | str h1 h2 => exact .str h2 h1
    | fn n => exact .fn n
    | obj n => exact .obj n
    | nil => exact .nil
  · intro a b c h g
    cases h with
    | int i => exact g
    | float h1 h2 h => cases g with | float _ g2 g => exact .float h1 g2 (h.trans g)
    | str h1 h2 =>
      cases g with
      | str g1 g2 =>
        obtain ⟨e, he, hs⟩ := h2
        obtain ⟨e', he', hs'⟩ := g1
        rw [he] at he'; cases he'
        exact .str h1 (by rw [← hs, hs']; exact g2)
    | fn n => exact g
    | obj n => exact g
    | nil => exact g
  · intro a b h
    cases h <;> rfl

/-- Without the type check both comparisons agree on values of equal type. -/
theorem compare_same_ty {vm : VM} {a b : Value} (ht : a.ty = b.ty) :
    valueCompare F a b false vm = valueCompare F a b true vm := by
  unfold valueCompare
  simp [ht]

/-- Strictness only matters through the string table. -/
theorem proper_setC {vm : VM} {c : Ctx} {v : Value} : Proper (vm.setC c) v ↔ Proper vm v := by
  cases v <;> rfl

theorem cmpV_setC {vm : VM} {c : Ctx} {a b : Value} : cmpV (vm.setC c) a b = cmpV vm a b := by
  cases a <;> cases b <;> rfl

/-- **C19**: the instruction behind `===` replaces its two operands by 1 if they are identical and by 0
otherwise, and changes nothing else. -/
theorem C19_operator {vm : VM} (hs : StrWF vm) {c : Ctx} {l : List Value} {a b : Value}
    (h : vm.Stk c (l ++ [a, b])) (ha : Proper vm a) (hb : Proper vm b) :
    ∃ vm' r, dispatch F H 28 vm = .ok ((), vm') ∧ Yields vm l (.int r) vm' ∧
      (Same vm a b → r = 1) ∧ (¬ Same vm a b → r = 0) := by
  show ∃ vm' r, opEqSameType F vm = _ ∧ _
  have hsz := h.size
  have hcap := h.wf.capLe
  have hsz2 := h.wf.size
  simp at hsz
  have u1 : usub c.stack.size 1 = l.length + 1 := by unfold usub u32 U32; omega
  have u2 : usub c.stack.size 2 = l.length := by unfold usub u32 U32; omega
  have p1 : peek (usub c.stack.size 1) vm = .ok (b, vm) := peek_used h (by rw [u1]; simp)
  have p2 : peek (usub c.stack.size 2) vm = .ok (a, vm) := peek_used h (by rw [u2]; simp)
  unfold opEqSameType
  rw [M.bind_ok (curStack_at h.at_), M.bind_ok p1, M.bind_ok p2]
  by_cases ht : b.ty = a.ty
  · rw [if_pos ht]
    have e : (do let c ← popCompare F; pushInt (b2i (c = 0)) : M Unit) vm =
        (do let y ← pop; let x ← pop; (do let c ← valueCompare F x y false; pushInt (b2i (c = 0)) : M Unit)
          : M Unit) vm := by
      simp only [popCompare, M.bind_eq]
      cases pop vm with
      | ub k => rfl
      | ok p =>
        simp only
        cases pop p.2 with
        | ub k => rfl
        | ok q => rfl
    rw [e]
    obtain ⟨s, g1, g2, g3, g4⟩ := pop2 h (fun y x =>
      (do let c ← valueCompare F x y false; pushInt (b2i (c = 0)) : M Unit))
    rw [g1, M.bind_ok (by
      rw [compare_same_ty F ht.symm, strict_cmp F (VM.setC_strWF hs _).tab (proper_setC.mpr ha) (proper_setC.mpr hb)])]
    obtain ⟨vm', k1, k2⟩ := push_yields h.at_ g2 g3 (.int (b2i (cmpV vm a b = 0)))
    refine ⟨vm', _, by rw [cmpV_setC]; exact k1, k2, ?_, ?_⟩
    · intro hh; simp [b2i, (cmpV_same ha hb).mpr hh]
    · intro hh
      have : ¬ cmpV vm a b = 0 := fun e => hh ((cmpV_same ha hb).mp e)
      simp [b2i, this]
  · rw [if_neg ht]
    obtain ⟨g1, g2⟩ := popN_ok h (n := 2) (by simp)
    rw [M.bind_ok g1]
    have g2' : (vm.setC { c with stack := { c.stack with size := c.stack.size - 2 } }).Stk
        { c with stack := { c.stack with size := c.stack.size - 2 } } l := by simpa using g2
    obtain ⟨vm', k1, k2⟩ := push_yields h.at_ g2' (by simp; omega) (.int 0)
    refine ⟨vm', 0, k1, k2, ?_, fun _ => rfl⟩
    intro hh
    exact absurd ((C19_equivalence vm).2.2.2 a b hh).symm ht

/-! ## C20: the comparison instructions -/

/-- The six comparisons. -/
inductive Rel | gt | lt | ge | le | eq | ne

/-- Their numbers in `enum NKOpcode`, `src/nkenums.h`. -/
def Rel.opcode : Rel → Nat
  | gt => 22 | lt => 23 | ge => 24 | le => 25 | eq => 26 | ne => 27

/-- What they mean on numbers. -/
def Rel.holds : Rel → Int → Int → Bool
  | gt, a, b => a > b
  | lt, a, b => a < b
  | ge, a, b => a ≥ b
  | le, a, b => a ≤ b
  | eq, a, b => a = b
  | ne, a, b => a ≠ b

/-- The opposite comparison. -/
def Rel.opposite : Rel → Rel
  | gt => le | lt => ge | ge => lt | le => gt | eq => ne | ne => eq

/-- Truth values of the language. -/
def truth (b : Bool) : Value := .int (if b then 1 else 0)

theorem rel_dispatch (r : Rel) : ∃ p : Int → Bool, dispatch F H r.opcode = opCompare F p ∧
    ∀ c, IsCmp c → p c = r.holds c 0 := by
  cases r
  · exact ⟨_, rfl, by rintro c (rfl | rfl | rfl) <;> decide⟩
  · exact ⟨_, rfl, by rintro c (rfl | rfl | rfl) <;> decide⟩
  · exact ⟨_, rfl, by rintro c (rfl | rfl | rfl) <;> decide⟩
  · exact ⟨_, rfl, by rintro c (rfl | rfl | rfl) <;> decide⟩
  · exact ⟨_, rfl, by rintro c (rfl | rfl | rfl) <;> decide⟩
  · exact ⟨_, rfl, by rintro c (rfl | rfl | rfl) <;> decide⟩

theorem opCompare_pop2 (p : Int → Bool) {vm : VM} : opCompare F p vm =
    (do let y ← pop; let x ← pop; (do let c ← valueCompare F x y false; pushInt (b2i (p c)) : M Unit)
      : M Unit) vm := by
  simp only [opCompare, popCompare, M.bind_eq]
  cases pop vm with
  | ub k => rfl
  | ok q =>
    simp only
    cases pop q.2 with
    | ub k => rfl
    | ok q => rfl

/-- A comparison whose operands compare as `k` without side effects. -/
theorem rel_run {vm : VM} {c : Ctx} {l : List Value} {a b : Value} (h : vm.Stk c (l ++ [a, b])) {k : Int}
    (hk : IsCmp k) (hc : ∀ c', valueCompare F a b false (vm.setC c') = .ok (k, vm.setC c')) (r : Rel) :
    ∃ vm', dispatch F H r.opcode vm = .ok ((), vm') ∧ Yields vm l (truth (r.holds k 0)) vm' := by
  obtain ⟨p, hp, hq⟩ := rel_dispatch F H r
  rw [hp, opCompare_pop2]
  obtain ⟨s, g1, g2, g3, g4⟩ := pop2 h (fun y x =>
    (do let c ← valueCompare F x y false; pushInt (b2i (p c)) : M Unit))
  rw [g1, M.bind_ok (hc _)]
  obtain ⟨vm', k1, k2⟩ := push_yields h.at_ g2 g3 (.int (b2i (p k)))
  refine ⟨vm', k1, ?_⟩
  rw [hq k hk] at k2; exact k2

/-- **C20**: on two integers each comparison instruction replaces the operands by the truth value of the
mathematical comparison and changes nothing else. -/
theorem C20_integers {vm : VM} {c : Ctx} {l : List Value} {i j : BitVec 32}
    (h : vm.Stk c (l ++ [.int i, .int j])) (r : Rel) :
    ∃ vm', dispatch F H r.opcode vm = .ok ((), vm') ∧
      Yields vm l (truth (r.holds i.toInt j.toInt)) vm' := by
  obtain ⟨vm', h1, h2⟩ := rel_run F H h (k := icmp i.toInt j.toInt) (icmp_range _ _) (by
    intro c'
    simp [valueCompare, compareBody_int, valueToInt_int, M.bind_eq, icmp]) r
  refine ⟨vm', h1, ?_⟩
  have : r.holds (icmp i.toInt j.toInt) 0 = r.holds i.toInt j.toInt := by
    unfold icmp
    rcases Int.lt_trichotomy i.toInt j.toInt with h | h | h
    · have e1 : ¬ i.toInt > j.toInt := by omega
      have e2 : ¬ i.toInt = j.toInt := by omega
      have e3 : i.toInt ≤ j.toInt := by omega
      have e4 : ¬ i.toInt ≥ j.toInt := by omega
      cases r <;> simp [Rel.holds, h, e1, e2, e3, e4]
    · rw [h]; cases r <;> simp [Rel.holds]
    · have e1 : ¬ i.toInt < j.toInt := by omega
      have e2 : ¬ i.toInt = j.toInt := by omega
      have e3 : i.toInt ≥ j.toInt := by omega
      have e4 : ¬ i.toInt ≤ j.toInt := by omega
      cases r <;> simp [Rel.holds, h, e1, e2, e3, e4]
  rw [this] at h2; exact h2

/-- **C20**, negation laws for all values whatsoever: if a comparison completes, so does its opposite,
from the same state; both leave the same VM (`base`, which is `vm` with at most strings and errors
added) except for the result, and the results are opposite. -/
theorem C20_negation {vm : VM} (hs : StrWF vm) {c : Ctx} {l : List Value} {a b : Value}
    (h : vm.Stk c (l ++ [a, b])) (r : Rel) {vm1 : VM} (h1 : dispatch F H r.opcode vm = .ok ((), vm1)) :
    ∃ vm2 base x, dispatch F H r.opposite.opcode vm = .ok ((), vm2) ∧ SExt vm base ∧
      Yields base l (truth x) vm1 ∧ Yields base l (truth (!x)) vm2 := by
  obtain ⟨p, hp, hq⟩ := rel_dispatch F H r
  obtain ⟨p', hp', hq'⟩ := rel_dispatch F H r.opposite
  rw [hp, opCompare_pop2] at h1
  rw [hp', opCompare_pop2]
  obtain ⟨s, g1, g2, g3, g4⟩ := pop2 h (fun y x =>
    (do let c ← valueCompare F x y false; pushInt (b2i (p c)) : M Unit))
  obtain ⟨s', g1', g2', g3', g4'⟩ := pop2 h (fun y x =>
    (do let c ← valueCompare F x y false; pushInt (b2i (p' c)) : M Unit))
  have hst : s' = s := by rw [g4, g4']
  subst hst
  rw [g1] at h1
  rw [g1']
  rcases valueCompare_sext F (VM.setC_strWF hs { c with stack := s' }) a b false with
    ⟨k, w, k1, k2, k3⟩ | k1
  · rw [M.bind_ok k1] at h1
    rw [M.bind_ok k1]
    -- the state without the operands, but with the operands' context put back
    have hb : SExt vm (w.setC c) := by
      have := k3.setC_left c
      rwa [h.at_.setC_self] at this
    have hw : w = (w.setC c).setC { c with stack := s' } := by
      have : w.At { c with stack := s' } := k3.at (h.at_.setC _)
      simp [this.setC_self]
    have hat : (w.setC c).At c := by
      have : w.At { c with stack := s' } := k3.at (h.at_.setC _)
      exact this.setC c
    have hst : ((w.setC c).setC { c with stack := s' }).Stk { c with stack := s' } l := by
      rw [← hw]
      exact ⟨k3.at (h.at_.setC _), g2.wf, g2.used⟩
    obtain ⟨v1, p1, p2⟩ := push_yields hat hst g3 (.int (b2i (p k)))
    obtain ⟨v2, p3, p4⟩ := push_yields hat hst g3 (.int (b2i (p' k)))
    rw [← hw] at p1 p3
    have e1 : v1 = vm1 := by
      have : push (.int (b2i (p k))) w = .ok ((), vm1) := h1
      rw [p1] at this; cases this; rfl
    subst e1
    refine ⟨v2, w.setC c, r.holds k 0, p3, hb, ?_, ?_⟩
    · rw [hq k k2] at p2; exact p2
    · rw [hq' k k2] at p4
      have : r.opposite.holds k 0 = !r.holds k 0 := by
        rcases k2 with rfl | rfl | rfl <;> cases r <;> decide
      rw [this] at p4; exact p4
  · rw [M.bind_ub k1] at h1; cases h1

/-- **C20**, symmetry: two proper values of the same type have a fixed order, expressed by a number `k`
compared with 0; every comparison of `a` with `b`, in either order and in any state of the VM with these
strings, gives the answer for `k` and 0 in that order.  Hence `a < b` iff `b > a`, and exactly one of
`<`, `==`, `>` holds. -/
theorem C20_symmetry {vm : VM} (hs : StrWF vm) {a b : Value} (ha : Proper vm a) (hb : Proper vm b)
    (ht : a.ty = b.ty) : ∃ k : Int, ∀ (c : Ctx) (l : List Value) (c₀ : Ctx) (r : Rel),
      ((vm.setC c₀).Stk c (l ++ [a, b]) → ∃ vm', dispatch F H r.opcode (vm.setC c₀) = .ok ((), vm') ∧
        Yields (vm.setC c₀) l (truth (r.holds k 0)) vm') ∧
      ((vm.setC c₀).Stk c (l ++ [b, a]) → ∃ vm', dispatch F H r.opcode (vm.setC c₀) = .ok ((), vm') ∧
        Yields (vm.setC c₀) l (truth (r.holds 0 k)) vm') := by
  refine ⟨cmpV vm a b, fun c l c₀ r => ⟨fun h => ?_, fun h => ?_⟩⟩
  · refine rel_run F H h (cmpV_range vm a b) ?_ r
    intro c'
    rw [VM.setC_setC, compare_same_ty F ht,
      strict_cmp F (VM.setC_strWF hs _).tab (proper_setC.mpr ha) (proper_setC.mpr hb), cmpV_setC]
  · obtain ⟨vm', h1, h2⟩ := rel_run F H h (k := -cmpV vm a b) (by
        rcases cmpV_range vm a b with e | e | e <;> rw [e] <;> simp [IsCmp]) (by
        intro c'
        rw [VM.setC_setC, compare_same_ty F ht.symm,
          strict_cmp F (VM.setC_strWF hs _).tab (proper_setC.mpr hb) (proper_setC.mpr ha), cmpV_setC, cmpV_neg]) r
    refine ⟨vm', h1, ?_⟩
    have : r.holds (-cmpV vm a b) 0 = r.holds 0 (cmpV vm a b) := by
      rcases cmpV_range vm a b with e | e | e <;> rw [e] <;> cases r <;> decide
    rw [this] at h2; exact h2

/-! ## C21: hashing -/

/-- **C21**: identical values land in the same bucket of an object. -/
theorem C21_bucket {vm : VM} (hs : StrWF vm) {a b : Value} (h : Same vm a b) :
    ∃ n, n < 16 ∧ bucketOf a vm = .ok (n, vm) ∧ bucketOf b vm = .ok (n, vm) := by
  cases h with
  | int i => exact ⟨i.toNat &&& 15, and15_lt _, rfl, rfl⟩
  | @float x y h1 h2 h =>
    have : feq x y = true := by
      simp [feq, h1, h2, (fval_eq x y).mp h]
    have hm := feq_bits this
    have e : ∀ n : Nat, n &&& 15 = n % 16 := fun n => Nat.and_two_pow_sub_one_eq_mod n 4
    refine ⟨x.toNat &&& 15, and15_lt _, rfl, ?_⟩
    rw [e, hm, ← e]; rfl
  | @str i j s h1 h2 =>
    obtain ⟨e, he, hs1⟩ := h1
    obtain ⟨e', he', hs2⟩ := h2
    refine ⟨e.hash &&& 15, and15_lt _, ?_, ?_⟩
    · simp [bucketOf, valueHash, M.bind_eq, getStrEntry_run hs.tab, he]
    · have : e'.hash = e.hash := by rw [hs.hash _ _ he, hs.hash _ _ he', hs1, hs2]
      simp [bucketOf, valueHash, M.bind_eq, getStrEntry_run hs.tab, he', this]
  | fn n => exact ⟨n &&& 15, and15_lt _, rfl, rfl⟩
  | obj n => exact ⟨n &&& 15, and15_lt _, rfl, rfl⟩
  | nil => exact ⟨0, by omega, rfl, rfl⟩

/-! ## C22: integers and strings -/

/-- **C22**: converting an integer to a string completes; it yields a text (unless all 2^31 string ids
are in use, which is reported), and in every state any string with that text converts back to the same
integer. -/
theorem C22_roundtrip {vm : VM} (hs : StrWF vm) (i : BitVec 32) :
    ∃ o vm', valueToString F (.int i) vm = .ok (o, vm') ∧
      (o = none → vm'.errors ≠ vm.errors) ∧
      ∀ s, o = some s → ∀ (vm2 : VM) (id : Nat), StrWF vm2 → TextIs vm2 id s →
        valueToInt (.str id) vm2 = .ok (i, vm2) := by
  have back : ∀ (vm2 : VM) (id : Nat), StrWF vm2 → TextIs vm2 id (itoa i) →
      valueToInt (.str id) vm2 = .ok (i, vm2) := by
    rintro vm2 id h2 ⟨e, he, ht⟩
    rw [valueToInt_str, M.bind_ok (getString_run h2.tab id), he]
    simp [ht, atoi32_itoa]
  rw [valueToString_int]
  rcases findOrAddString_spec hs (itoa i) with ⟨id, e, h1, h2, h3⟩ | ⟨id, t, b, h1, h2, h3, h4, h5⟩ | ⟨h1, _, _⟩
  · refine ⟨some (itoa i), vm, ?_, by simp, fun s hs' => ?_⟩
    · rw [M.bind_ok h1, getString_run hs.tab, h2]; simp [h3]
    · cases hs'; exact back
  · refine ⟨some (itoa i), vm.setStr t b, ?_, by simp, fun s hs' => ?_⟩
    · rw [M.bind_ok h1, getString_run h2.tab, VM.setStr_strings, h4]; simp [Str.mk']
    · cases hs'; exact back
  · cases he : vm.strings.entry UINT_MAX with
    | none =>
      refine ⟨none, vm.addErr "Address space exhaustion when adding item to table.", ?_, ?_, by simp⟩
      · rw [M.bind_ok h1, getString_run (hs.addErr _).tab]
        simp [he]
      · simp
    | some e =>
      have := Table.entry_lt_cap hs.tab he
      have := hs.tab.capLe
      exact absurd this (by unfold UINT_MAX at *; omega)

/-! ## Concrete cases -/

/-- A VM with the strings "12" (id 0) and "ab" (id 1) and with -0.0, a string, an integer and an object
on its stack. -/
def sampleSetup : M Unit := do
  let a ← findOrAddString (cs "12")
  let b ← findOrAddString (cs "ab")
  push (.float 0x80000000#32)
  push (.str b)
  push (.int (-7))
  push (.str a)

/-- `===` on a sample: different types give 0; then comparing "ab" with 0 gives 0. -/
example : ((do sampleSetup; dispatch F H 28; let v ← pop; return v : M Value) VM.create).test
    (fun p => decide (p.1 = .int 0)) := by rfl

/-- -0.0 and +0.0 are identical, differ in their bits, and share a bucket. -/
example : Same VM.create (.float 0x80000000#32) (.float 0) ∧
    Proper VM.create (.float 0x80000000#32) ∧ bucketOf (.float 0x80000000#32) VM.create = .ok (0, VM.create) :=
  ⟨.float rfl rfl rfl, rfl, rfl⟩

example : itoa (-2147483648) = cs "-2147483648" := by decide +kernel

end Nk.Props
