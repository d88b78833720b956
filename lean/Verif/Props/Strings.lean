import Verif.Lemmas.Strings
/-!
# C10: string interning

`SReach vm`: the string table of `vm` is the result of any sequence of string creations over any byte
strings, collector marks, protections of literals and collector sweeps, starting from a new VM.
-/
namespace Nk.Props

/-- Setting the protection of a literal, as `nkiCompilerEmitPushLiteralString` does
(`src/nkcompil.c:249-261`). -/
def protect (id : Nat) : M Unit := do
  let e ← getStrEntry id
  match e with
  | some e => fun vm => match vm.strings.write id (some { e with dontGC := true }) with
    | .ok t => .ok ((), { vm with strings := t })
    | .ub k => .ub k
  | none => return ()

inductive SReach : VM → Prop
  | create : SReach VM.create
  | intern {vm vm' : VM} {s : Bytes} {id : Nat} :
      SReach vm → findOrAddString s vm = .ok (id, vm') → SReach vm'
  | mark {vm vm' : VM} {pass id : Nat} :
      SReach vm → markString pass id vm = .ok ((), vm') → SReach vm'
  | protect {vm vm' : VM} {id : Nat} :
      SReach vm → protect id vm = .ok ((), vm') → SReach vm'
  | sweep {vm vm' : VM} {pass : Nat} :
      SReach vm → cleanOldStrings pass 0 256 vm = .ok ((), vm') → SReach vm'

theorem sreach_inv {vm : VM} (r : SReach vm) : StrWF vm := by
  induction r with
  | create => exact create_strWF
  | @intern vm vm' s id _ h ih =>
    obtain ⟨id', vm'', h1, h2, _⟩ := findOrAddString_ok ih s
    rw [h] at h1; cases h1; exact h2
  | @mark vm vm' pass id _ h ih =>
    cases he : vm.strings.entry id with
    | none =>
      rw [markString_dead ih pass he] at h
      cases h; exact ih.addErr _
    | some e =>
      obtain ⟨t, h1, h2, _⟩ := markString_live ih pass he
      rw [h] at h1; cases h1; exact h2
  | @protect vm vm' id _ h ih =>
    cases he : vm.strings.entry id with
    | none =>
      simp only [Props.protect, M.bind_eq, getStrEntry_run ih.tab, he, M.pure_run] at h
      cases h; exact ih
    | some e =>
      obtain ⟨t, a, b, c⟩ := ih.retag1 (e' := { e with dontGC := true }) he rfl rfl
      simp only [Props.protect, M.bind_eq, getStrEntry_run ih.tab, he, a] at h
      cases h; exact b
  | @sweep vm vm' pass _ h ih =>
    obtain ⟨t, b, h1, h2, _⟩ := cleanOldStrings_ok pass 256 0 rfl vm ih
    rw [h] at h1; cases h1; exact h2

/-- **C10**: two ids that name strings are equal exactly when the texts are equal. -/
theorem C10_ids {vm : VM} (r : SReach vm) {i j : Nat} {a b : Bytes}
    (hi : getString i vm = .ok (some a, vm)) (hj : getString j vm = .ok (some b, vm)) :
    i = j ↔ a = b := by
  have h := sreach_inv r
  rw [getString_run h.tab] at hi hj
  cases hx : vm.strings.entry i with
  | none => rw [hx] at hi; cases hi
  | some x =>
    cases hy : vm.strings.entry j with
    | none => rw [hy] at hj; cases hj
    | some y =>
      rw [hx] at hi; rw [hy] at hj
      have ha : x.str = a := by cases hi; rfl
      have hb : y.str = b := by cases hj; rfl
      constructor
      · rintro rfl
        rw [hx] at hy; cases hy
        rw [← ha, ← hb]
      · intro e
        exact h.inj i j x y hx hy (by rw [ha, hb, e])

/-- **C10**: looking up a text that is present returns its id and changes nothing. -/
theorem C10_no_copy {vm : VM} (r : SReach vm) {i : Nat} {s : Bytes}
    (hi : getString i vm = .ok (some s, vm)) : findOrAddString s vm = .ok (i, vm) := by
  have h := sreach_inv r
  rw [getString_run h.tab] at hi
  cases hx : vm.strings.entry i with
  | none => rw [hx] at hi; cases hi
  | some x =>
    rw [hx] at hi
    have ha : x.str = s := by cases hi; rfl
    rcases findOrAddString_spec h s with ⟨id, e, h1, h2, h3⟩ | ⟨id, t, b, _, _, _, _, h5⟩ | ⟨_, _, h5⟩
    · rw [h1, h.inj i id x e hx h2 (by rw [ha, h3])]
    · exact absurd ha (h5 i x hx)
    · exact absurd ha (h5 i x hx)

/-- **C10**: creating a string always completes; the id it returns names exactly that text (unless all
2^31 ids are in use, which is reported), and every other string keeps its id and text. -/
theorem C10_intern {vm : VM} (r : SReach vm) (s : Bytes) :
    ∃ id vm', findOrAddString s vm = .ok (id, vm') ∧
      (getString id vm' = .ok (some s, vm') ∨
        (vm'.errors ≠ vm.errors ∧ ∀ j, j < 2147483648 → ∃ t, getString j vm = .ok (some t, vm))) ∧
      (∀ j t, getString j vm = .ok (some t, vm) → getString j vm' = .ok (some t, vm')) := by
  have h := sreach_inv r
  obtain ⟨id, vm', g1, g2, g3⟩ := findOrAddString_ok h s
  refine ⟨id, vm', g1, ?_, ?_⟩
  · rcases findOrAddString_spec h s with ⟨i, e, h1, h2, h3⟩ | ⟨i, t, b, h1, _, _, h4, _⟩ | ⟨h1, h2, _⟩
    · rw [g1] at h1; cases h1
      left; rw [getString_run h.tab, h2]; simp [h3]
    · rw [g1] at h1; cases h1
      left; rw [getString_run g2.tab]; simp [h4, Str.mk']
    · rw [g1] at h1; cases h1
      right
      refine ⟨by simp, fun j hj => ?_⟩
      obtain ⟨e, he⟩ := Option.ne_none_iff_exists'.mp (h2 j hj)
      exact ⟨e.str, by rw [getString_run h.tab, he]; rfl⟩
  · intro j t hj
    rw [getString_run h.tab] at hj
    cases hx : vm.strings.entry j with
    | none => rw [hx] at hj; cases hj
    | some x =>
      rw [hx] at hj
      have ht : x.str = t := by cases hj; rfl
      rw [getString_run g2.tab, g3 j x hx, ← ht]; rfl

/-- **C10**: a sweep always completes, removes exactly the strings that are neither marked in this pass
nor protected, and leaves id and text of the others alone. -/
theorem C10_sweep {vm : VM} (r : SReach vm) (pass : Nat) :
    ∃ vm', cleanOldStrings pass 0 256 vm = .ok ((), vm') ∧
      ∀ j, vm'.strings.get j = .ok (match vm.strings.get j with
        | .ok (some e) => if e.lastGCPass = pass ∨ e.dontGC = true then some e else none
        | _ => none) := by
  have h := sreach_inv r
  obtain ⟨t, b, h1, h2, h3⟩ := cleanOldStrings_ok pass 256 0 rfl vm h
  refine ⟨_, h1, fun j => ?_⟩
  rw [Table.get_eq h2.tab, Table.get_eq h.tab, VM.setStr_strings, h3 j]
  cases vm.strings.entry j with
  | none => rfl
  | some e =>
    simp only [Nat.zero_le, true_and, Str.survives, Bool.or_eq_false_iff, beq_eq_false_iff_ne]
    by_cases h1 : e.lastGCPass = pass <;> cases h2 : e.dontGC <;> simp [h1]

/-- The two byte strings `"zyz"` and `"{w{"`: a hash collision. -/
def collide1 : Bytes := [122, 121, 122]
def collide2 : Bytes := [123, 119, 123]

example : stringHash collide1 = stringHash collide2 := by decide +kernel

/-- A concrete history: two strings with the same hash get different ids and are both found again; a
sweep with one marked and one protected keeps these two and drops a third. -/
def stringHistory : M (List Nat × List (Option Bytes)) := do
  let a ← findOrAddString collide1
  let b ← findOrAddString collide2
  let c ← findOrAddString [65]
  markString 7 a
  protect b
  cleanOldStrings 7 0 256
  let a' ← findOrAddString collide1
  let b' ← findOrAddString collide2
  let sa ← getString a
  let sb ← getString b
  let sc ← getString c
  return ([a, b, c, a', b'], [sa, sb, sc])

example : (stringHistory VM.create).test (fun p =>
    decide (p.1 = ([0, 1, 2, 0, 1], [some collide1, some collide2, none]))) := by decide +kernel

end Nk.Props
