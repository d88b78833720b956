import Verif.Lemmas.Table
import Verif.Spec.Table
/-!
# C09: ids of strings and objects

`Reach t h`: the table `t` is what some sequence of creations, in-place updates, releases of live
entries and compactions (of any length, over any entry type) makes of a fresh table; `h` is the record
of what happened.
-/
namespace Nk.Props
open Nk.TableSpec

variable {α : Type}

inductive TReach : Table α → List (Ev α) → Prop
  | init : TReach Table.init []
  | add {t t' : Table α} {h : List (Ev α)} {x : α} {i : Nat} :
      TReach t h → t.add x = .ok (some i, t') → TReach t' (h ++ [.created i x])
  | update {t t' : Table α} {h : List (Ev α)} {x : α} {i : Nat} :
      TReach t h → holds h i ≠ none → t.write i (some x) = .ok t' → TReach t' (h ++ [.updated i x])
  | erase {t t' : Table α} {h : List (Ev α)} {i : Nat} :
      TReach t h → holds h i ≠ none → t.erase i = .ok t' → TReach t' (h ++ [.released i])
  | shrink {t t' : Table α} {h : List (Ev α)} :
      TReach t h → t.shrink = .ok t' → TReach t' (h ++ [.compacted])

theorem holds_snoc (h : List (Ev α)) (e : Ev α) : holds (h ++ [e]) = apply (holds h) e := by
  simp [holds]

theorem treach_inv {t : Table α} {h : List (Ev α)} (r : TReach t h) :
    t.WF ∧ ∀ i, t.entry i = holds h i := by
  induction r with
  | init => exact ⟨Table.init_wf, fun i => by simp [holds]⟩
  | @add t t' h x i _ ha ih =>
    rcases Table.add_spec ih.1 x with ⟨i', t'', h1, h2, _, _, h3, _⟩ | ⟨h1, _⟩
    · rw [ha] at h1; cases h1
      refine ⟨h2, fun j => ?_⟩
      rw [h3, holds_snoc, ih.2]; rfl
    · rw [ha] at h1; cases h1
  | @update t t' h x i _ hl hw ih =>
    obtain ⟨y, hy⟩ := Option.ne_none_iff_exists'.mp hl
    obtain ⟨h1, h2, h3⟩ := Table.write_live ih.1 ((ih.2 i).trans hy) x
    rw [hw] at h1; cases h1
    refine ⟨h2, fun j => ?_⟩
    rw [h3, holds_snoc, ih.2]; rfl
  | @erase t t' h i _ hl he ih =>
    obtain ⟨y, hy⟩ := Option.ne_none_iff_exists'.mp hl
    obtain ⟨h1, h2, h3⟩ := Table.erase_live ih.1 ((ih.2 i).trans hy)
    rw [he] at h1; cases h1
    refine ⟨h2, fun j => ?_⟩
    rw [h3, holds_snoc, ih.2]; rfl
  | @shrink t t' h _ hs ih =>
    obtain ⟨t'', h1, h2, h3, _⟩ := Table.shrink_spec ih.1
    rw [hs] at h1; cases h1
    refine ⟨h2, fun j => ?_⟩
    rw [h3, holds_snoc, ih.2]; rfl

/-- **C09**, stability: after any history, looking up any id gives what was last stored under it,
and nothing if it was released or never handed out. -/
theorem C09_lookup {t : Table α} {h : List (Ev α)} (r : TReach t h) (i : Nat) :
    t.get i = .ok (holds h i) := by
  rw [Table.get_eq (treach_inv r).1, (treach_inv r).2]

/-- **C09**, uniqueness: an id handed out for a new entry is not in use. -/
theorem C09_fresh {t t' : Table α} {h : List (Ev α)} (r : TReach t h) {x : α} {i : Nat}
    (ha : t.add x = .ok (some i, t')) : holds h i = none := by
  rcases Table.add_spec (treach_inv r).1 x with ⟨i', t'', h1, _, h2, _⟩ | ⟨h1, _⟩
  · rw [ha] at h1; cases h1
    rw [← (treach_inv r).2]; exact h2
  · rw [ha] at h1; cases h1

/-- **C09**, reuse: as long as some id below the capacity is unused, a creation is served from the
unused ids below the capacity, and the table does not grow. -/
theorem C09_reused {t : Table α} {h : List (Ev α)} (r : TReach t h) (x : α) {j : Nat}
    (hj : j < t.cap) (hn : holds h j = none) :
    ∃ i t', t.add x = .ok (some i, t') ∧ i < t.cap ∧ t'.cap = t.cap := by
  obtain ⟨hw, he⟩ := treach_inv r
  rcases Table.add_spec hw x with ⟨i, t', h1, _, _, h4, _, h6, _⟩ | ⟨_, _, h3⟩
  · have := h6 ⟨j, hj, by rw [he]; exact hn⟩
    exact ⟨i, t', h1, by omega, this⟩
  · exact absurd ((he j).trans hn) (h3 j hj)

/-- **C09**: creation is refused only when 2^31 entries are in use, and then changes nothing. -/
theorem C09_refused_only_when_full {t t' : Table α} {h : List (Ev α)} (r : TReach t h) {x : α}
    (ha : t.add x = .ok (none, t')) : t' = t ∧ ∀ j, j < 2147483648 → holds h j ≠ none := by
  obtain ⟨hw, he⟩ := treach_inv r
  rcases Table.add_spec hw x with ⟨i, t', h1, _⟩ | ⟨h1, h2, h3⟩
  · rw [ha] at h1; cases h1
  · rw [ha] at h1; cases h1
    refine ⟨rfl, fun j hj => ?_⟩
    rw [← he]; exact h3 j (by omega)

/-- **C09**, no undefined behaviour: creations and compactions always complete, releases and updates
of ids in use always complete. -/
theorem C09_defined {t : Table α} {h : List (Ev α)} (r : TReach t h) (x : α) :
    (∃ p, t.add x = .ok p) ∧ (∃ t', t.shrink = .ok t') ∧
      ∀ i, holds h i ≠ none → (∃ t', t.erase i = .ok t') ∧ (∃ t', t.write i (some x) = .ok t') := by
  obtain ⟨hw, he⟩ := treach_inv r
  refine ⟨?_, ?_, ?_⟩
  · rcases Table.add_spec hw x with ⟨i, t', h1, _⟩ | ⟨h1, _⟩ <;> exact ⟨_, h1⟩
  · obtain ⟨t', h1, _⟩ := Table.shrink_spec hw
    exact ⟨t', h1⟩
  · intro i hi
    obtain ⟨y, hy⟩ := Option.ne_none_iff_exists'.mp hi
    exact ⟨⟨_, (Table.erase_live hw ((he i).trans hy)).1⟩, ⟨_, (Table.write_live hw ((he i).trans hy) x).1⟩⟩

/-- A concrete history: three entries, the first released and its id given out again, then the last
released and the table compacted. -/
example : ∃ t : Table Nat, TReach t
    [.created 0 10, .created 1 11, .created 2 12, .released 0, .created 0 13, .released 2, .compacted] ∧
    t.cap = 2 ∧ t.get 0 = .ok (some 13) ∧ t.get 2 = .ok none := by
  refine ⟨{ slots := [some 13, some 11], cap := 2, holes := [] }, ?_, rfl, rfl, rfl⟩
  have h1 : TReach (α := Nat) ⟨[some 10], 1, []⟩ _ := .add (i := 0) (x := 10) .init rfl
  have h2 : TReach (α := Nat) ⟨[some 10, some 11], 2, []⟩ _ := .add (i := 1) (x := 11) h1 rfl
  have h3 : TReach (α := Nat) ⟨[some 10, some 11, some 12, none], 4, [3]⟩ _ :=
    .add (i := 2) (x := 12) h2 rfl
  have h4 : TReach (α := Nat) ⟨[none, some 11, some 12, none], 4, [0, 3]⟩ _ :=
    .erase (i := 0) h3 (by simp [holds, apply]) rfl
  have h5 : TReach (α := Nat) ⟨[some 13, some 11, some 12, none], 4, [3]⟩ _ :=
    .add (i := 0) (x := 13) h4 rfl
  have h6 : TReach (α := Nat) ⟨[some 13, some 11, none, none], 4, [2, 3]⟩ _ :=
    .erase (i := 2) h5 (by simp [holds, apply]) rfl
  refine TReach.shrink h6 ?_
  simp [Table.shrink, Table.highest, Table.halve, Table.resetHoles, Table.resetLoop, Table.read]

end Nk.Props
