import Verif.Lemmas.Parse
import Verif.Spec.Machine
import Verif.Lemmas.Ops
import Verif.Model.Compile
/-!
# The parser on arbitrary tokens
-/
namespace Nk.Cc

/-- A step of the compiler ends with `Q`, or with an undefined behaviour of a kind in `B`. -/
def CSafe {α : Type} (B : UB → Prop) (m : CM α) (s : CS) (Q : α → CS → Prop) : Prop :=
  match m s with
  | .ok (a, s') => Q a s'
  | .ub k => B k

variable {α β : Type} {B : UB → Prop}

theorem CSafe.ok {m : CM α} {s s' : CS} {a : α} {Q : α → CS → Prop} (h : m s = .ok (a, s')) (q : Q a s') : CSafe B m s Q := by
  unfold CSafe; rw [h]; exact q

theorem CSafe.pure {s : CS} {a : α} {Q : α → CS → Prop} (q : Q a s) : CSafe B (Pure.pure a) s Q := q

theorem CSafe.ub {m : CM α} {s : CS} {k : UB} {Q : α → CS → Prop} (h : m s = .ub k) (q : B k) : CSafe B m s Q := by
  unfold CSafe; rw [h]; exact q

theorem CSafe.bind {m : CM α} {f : α → CM β} {s : CS} {Q : β → CS → Prop} {P : α → CS → Prop} (h : CSafe B m s P)
    (hf : ∀ a s', P a s' → CSafe B (f a) s' Q) : CSafe B (m >>= f) s Q := by
  unfold CSafe at h ⊢
  show match (CM.bind m f) s with | .ok (a, s') => Q a s' | .ub k => B k
  unfold CM.bind
  cases hm : m s with
  | ub k => rw [hm] at h; exact h
  | ok p => rw [hm] at h; exact hf p.1 p.2 h

theorem CSafe.mono {m : CM α} {s : CS} {P Q : α → CS → Prop} (h : CSafe B m s P) (hq : ∀ a s', P a s' → Q a s') :
    CSafe B m s Q := by
  unfold CSafe at h ⊢
  cases hm : m s with
  | ub k => rw [hm] at h; exact h
  | ok p => rw [hm] at h; exact hq _ _ h

theorem CSafe.cget {f : CS → CM β} {s : CS} {Q : β → CS → Prop} (h : CSafe B (f s) s Q) : CSafe B (cget >>= f) s Q := h

theorem CSafe.cmod {g : CS → CS} {f : Unit → CM β} {s : CS} {Q : β → CS → Prop} (h : CSafe B (f ()) (g s) Q) :
    CSafe B (cmod g >>= f) s Q := h

theorem CSafe.next {f : Unit → CM β} {s : CS} {Q : β → CS → Prop} (h : CSafe B (f ()) (advance s) Q) :
    CSafe B (nextTok >>= f) s Q := h

theorem CSafe.curType {f : TokType → CM β} {s : CS} {Q : β → CS → Prop} (h : CSafe B (f (typeOf s.toks)) s Q) :
    CSafe B (curType >>= f) s Q := h

/-- A state with one more error. -/
def CS.addErr (s : CS) (e : String) : CS := { s with vm := s.vm.addErr e }

theorem CSafe.err {e : String} {f : Unit → CM β} {s : CS} {Q : β → CS → Prop} (h : CSafe B (f ()) (s.addErr e) Q) :
    CSafe B (Cc.err e >>= f) s Q := h

/-- What the parser keeps: closed under reading tokens, recording errors and counting depth. -/
structure Closed (B : UB → Prop) (J : CS → Prop) : Prop where
  adv : ∀ {s}, J s → J (advance s)
  err : ∀ {s} e, J s → J (s.addErr e)
  dep : ∀ {s} d, J s → J { s with depth := d }
  good : ∀ {s}, J s → ∀ t ∈ s.toks, t.type ≠ .postIncrement ∧ t.type ≠ .postDecrement ∧
    (t.type = .functionStyleExpression → B .assert)

/-- Every increment or decrement has a left child and no right one. -/
def NodeOK : Node → Prop
  | .nil => True
  | .mk t _ l r => NodeOK l ∧ NodeOK r ∧ (isIncDec t.type = true → l ≠ .nil ∧ r = .nil)

/-- The type of a node's token. -/
def rootType : Node → TokType
  | .nil => .invalid
  | .mk t _ _ _ => t.type

/-- A node that can be a value: present, well formed, and made from a function-style expression only if the assertion
on those is allowed to fail. -/
def ValOK (B : UB → Prop) (v : Node) : Prop := v ≠ .nil ∧ NodeOK v ∧ (rootType v = .functionStyleExpression → B .assert)

/-- How the state may change while reading. -/
structure Go (J : CS → Prop) (s s' : CS) : Prop where
  keep : J s'
  depth : s.depth ≤ s'.depth
  toks : s'.toks <:+ s.toks
  errs : s.vm.errors.length ≤ s'.vm.errors.length

theorem Go.refl {J : CS → Prop} {s : CS} (h : J s) : Go J s s := ⟨h, Nat.le_refl _, List.suffix_refl _, Nat.le_refl _⟩
theorem Go.trans {J : CS → Prop} {a b c : CS} (h : Go J a b) (h' : Go J b c) : Go J a c :=
  ⟨h'.keep, Nat.le_trans h.depth h'.depth, h'.toks.trans h.toks, Nat.le_trans h.errs h'.errs⟩
theorem Go.len {J : CS → Prop} {a b : CS} (h : Go J a b) : b.toks.length ≤ a.toks.length := h.toks.length_le

variable {J : CS → Prop}

theorem advance_errs (s : CS) : (advance s).vm.errors = s.vm.errors := by unfold advance; split <;> rfl

theorem Go.adv (C : Closed B J) {s : CS} (h : J s) : Go J s (advance s) :=
  ⟨C.adv h, Nat.le_of_eq (advance_depth_eq s).symm, by rw [advance_toks]; exact List.tail_suffix _,
    Nat.le_of_eq (by rw [advance_errs])⟩

theorem Go.err (C : Closed B J) {s : CS} (h : J s) (e : String) : Go J s (s.addErr e) :=
  ⟨C.err e h, Nat.le_refl _, List.suffix_refl _, by simp [CS.addErr, VM.addErr]⟩

theorem addErr_len (s : CS) (e : String) : (s.addErr e).vm.errors.length = s.vm.errors.length + 1 := by
  simp [CS.addErr, VM.addErr]

/-- An error has been recorded. -/
def Failed (s s' : CS) : Prop := s.vm.errors.length < s'.vm.errors.length

theorem advance_lt {s : CS} {t : Token} {ts : List Token} (h : s.toks = t :: ts) : (advance s).toks.length < s.toks.length := by
  rw [advance_toks, h]; simp

/-- What the recursive call of the parser does. -/
def PE (B : UB → Prop) (J : CS → Prop) (D : Nat) (pe : CM Node) : Prop :=
  ∀ s, J s → D ≤ s.depth → CSafe B pe s fun v s' => Go J s s' ∧
    ((ValOK B v ∧ s'.toks.length < s.toks.length) ∨ (v = .nil ∧ Failed s s'))

/-- What compiling an anonymous function does. -/
def FD (B : UB → Prop) (J : CS → Prop) (D : Nat) (fd : CM (Option Nat)) : Prop :=
  ∀ s, J s → D ≤ s.depth → CSafe B fd s fun o s' => Go J s s' ∧ (o.isSome → s'.toks.length < s.toks.length)

theorem expectSkip_safe (C : Closed B J) (t : TokType) {s : CS} (h : J s) :
    CSafe B (expectSkip t) s fun ok s' => Go J s s' ∧ (ok = false → Failed s s') ∧
      (ok = true → t ≠ .invalid → s'.toks.length < s.toks.length) := by
  unfold expectSkip
  refine CSafe.curType ?_
  by_cases hc : typeOf s.toks ≠ t
  · rw [if_pos hc]
    exact CSafe.err ⟨Go.err C h _, fun _ => by unfold Failed; rw [addErr_len]; omega, (fun h => nomatch h)⟩
  · rw [if_neg hc]
    refine CSafe.next ⟨Go.adv C h, (fun h => nomatch h), fun _ ht => ?_⟩
    cases hs : s.toks with
    | nil => rw [hs] at hc; exact absurd (Decidable.not_not.1 hc).symm ht
    | cons a as => rw [← hs]; exact advance_lt hs

theorem prefixLoop_safe (C : Closed B J) (n : Nat) (s : CS) (acc : List Token) (h : J s) (hn : s.toks.length < n)
    (ha : ∀ t ∈ acc, isPrefix t.type = true) :
    CSafe B (prefixLoop n acc) s fun pre s' => Go J s s' ∧ (∀ t ∈ pre, isPrefix t.type = true) ∧
      ∀ t ts, s'.toks = t :: ts → isPrefix t.type = false := by
  induction n generalizing s acc with
  | zero => omega
  | succ n ih =>
    unfold prefixLoop
    refine CSafe.cget ?_
    cases hs : s.toks with
    | nil => exact CSafe.pure ⟨Go.refl h, ha, fun t ts h' => by rw [hs] at h'; cases h'⟩
    | cons t ts =>
      dsimp only
      by_cases hp : isPrefix t.type = true
      · rw [if_pos hp]
        refine CSafe.next ?_
        have := advance_lt hs
        refine (ih (advance s) _ (C.adv h) (by omega) ?_).mono ?_
        · intro u hu
          simp only [List.mem_append, List.mem_singleton] at hu
          rcases hu with hu | rfl
          · exact ha u hu
          · exact hp
        · intro pre s' hq
          exact ⟨(Go.adv C h).trans hq.1, hq.2⟩
      · rw [if_neg hp]
        refine CSafe.pure ⟨Go.refl h, ha, fun u us h' => ?_⟩
        rw [hs] at h'; injection h' with h1 h2
        rw [← h1]; exact eq_false_of_ne_true hp

theorem argLoop_safe (C : Closed B J) {D : Nat} {pe : CM Node} (P : PE B J D pe) (n : Nat) (s : CS) (acc : List Node) (h : J s)
    (hd : D ≤ s.depth) (hn : s.toks.length < n) (ha : ∀ v ∈ acc, NodeOK v) :
    CSafe B (argLoop pe n acc) s fun r s' => Go J s s' ∧ match r with
      | none => Failed s s'
      | some vs => ∀ v ∈ vs, NodeOK v := by
  induction n generalizing s acc with
  | zero => omega
  | succ n ih =>
    unfold argLoop
    refine CSafe.curType ?_
    by_cases hc : typeOf s.toks ≠ .invalid ∧ typeOf s.toks ≠ .parenClose
    · rw [if_pos hc]
      refine CSafe.bind (P s h hd) ?_
      rintro v s1 ⟨g1, hv⟩
      have k1 := g1.depth
      have k2 := g1.errs
      rcases hv with ⟨⟨h1, h2, _⟩, h3⟩ | ⟨h1, h2⟩
      · rw [if_neg h1]
        refine CSafe.curType ?_
        have haa : ∀ u ∈ acc ++ [v], NodeOK u := by
          intro u hu
          simp only [List.mem_append, List.mem_singleton] at hu
          rcases hu with hu | rfl
          · exact ha u hu
          · exact h2
        by_cases hcm : typeOf s1.toks = .comma
        · rw [if_pos hcm]
          refine CSafe.next ?_
          have g2 := Go.adv C g1.keep
          have k3 := g2.len
          have k4 := g2.depth
          have k5 := g2.errs
          refine (ih (advance s1) _ g2.keep (by omega) (by omega) haa).mono ?_
          rintro r s' ⟨g3, hr⟩
          refine ⟨(g1.trans g2).trans g3, ?_⟩
          cases r with
          | none => unfold Failed at *; dsimp only at *; omega
          | some vs => exact hr
        · rw [if_neg hcm]
          by_cases hpc : typeOf s1.toks = .parenClose
          · rw [if_pos hpc]
            refine (ih s1 _ g1.keep (by omega) (by omega) haa).mono ?_
            rintro r s' ⟨g3, hr⟩
            refine ⟨g1.trans g3, ?_⟩
            cases r with
            | none => unfold Failed at *; dsimp only at *; omega
            | some vs => exact hr
          · rw [if_neg hpc]
            refine CSafe.err ⟨g1.trans (Go.err C g1.keep _), ?_⟩
            show Failed _ _
            unfold Failed; rw [addErr_len]; omega
      · rw [if_pos h1]
        refine CSafe.err ⟨g1.trans (Go.err C g1.keep _), ?_⟩
        show Failed _ _
        unfold Failed; rw [addErr_len]; omega
    · rw [if_neg hc]
      exact CSafe.pure ⟨Go.refl h, ha⟩

theorem pushRec_safe (C : Closed B J) {s : CS} (h : J s) : CSafe B pushRec s fun ok s' =>
    if ok then s' = { s with depth := s.depth + 1 } ∧ J s' ∧ s.depth ≤ 256 else Go J s s' ∧ Failed s s' ∧ 256 < s.depth := by
  unfold pushRec
  refine CSafe.cget ?_
  by_cases hd : s.depth > 256
  · rw [if_pos hd]
    refine CSafe.err ⟨Go.err C h _, ?_, hd⟩
    unfold Failed; rw [addErr_len]; omega
  · rw [if_neg hd]
    exact ⟨rfl, C.dep _ h, by omega⟩

theorem popRec_safe (C : Closed B J) {s : CS} (h : J s) (hd : 0 < s.depth) {f : Unit → CM β} {Q : β → CS → Prop}
    (hf : J { s with depth := s.depth - 1 } → CSafe B (f ()) { s with depth := s.depth - 1 } Q) :
    CSafe B (popRec >>= f) s Q := by
  have hr : popRec s = .ok ((), { s with depth := s.depth - 1 }) := popRec_run (by omega)
  exact CSafe.bind (P := fun _ s' => s' = { s with depth := s.depth - 1 }) (CSafe.ok hr rfl)
    (fun _ _ h' => by subst h'; exact hf (C.dep _ h))

theorem Go.pushed {s s' : CS} (h : Go J { s with depth := s.depth + 1 } s') (C : Closed B J) :
    Go J s { s' with depth := s'.depth - 1 } := by
  have := h.depth
  exact ⟨C.dep _ h.keep, by show s.depth ≤ s'.depth - 1; dsimp only at this; omega, h.toks, h.errs⟩

theorem parseCall_safe (C : Closed B J) {D : Nat} {pe : CM Node} (P : PE B J D pe) {s : CS} (h : J s) (hd : D ≤ s.depth) :
    CSafe B (parseCall pe) s fun r s' => Go J s s' ∧ match r with
      | none => Failed s s'
      | some vs => (∀ v ∈ vs, NodeOK v) ∧ s'.toks.length < s.toks.length := by
  unfold parseCall
  refine CSafe.bind (pushRec_safe C h) ?_
  intro ok s1 hs1
  cases ok with
  | false =>
    simp only [Bool.false_eq_true, if_false] at hs1 ⊢
    exact CSafe.pure ⟨hs1.1, hs1.2.1⟩
  | true =>
    simp only [if_true] at hs1 ⊢
    obtain ⟨rfl, hJ, _⟩ := hs1
    refine CSafe.next ?_
    refine CSafe.cget ?_
    have g1 := Go.adv C hJ
    have k1 := g1.depth
    dsimp only at k1
    refine CSafe.bind (argLoop_safe C P _ _ [] g1.keep (by omega) (Nat.lt_succ_self _) (by simp)) ?_
    rintro r s2 ⟨g2, hr⟩
    have g12 := g1.trans g2
    have k2 := g12.depth
    dsimp only at k2
    cases r with
    | none =>
      dsimp only at hr ⊢
      refine popRec_safe C g12.keep (by omega) fun hJ' => CSafe.pure ⟨g12.pushed C, ?_⟩
      unfold Failed at *
      have := g1.errs
      show s.vm.errors.length < s2.vm.errors.length
      dsimp only at this
      omega
    | some vs =>
      dsimp only at hr ⊢
      refine CSafe.bind (expectSkip_safe C .parenClose g12.keep) ?_
      rintro ok s3 ⟨g3, h4, h5⟩
      have g13 := g12.trans g3
      have k3 := g13.depth
      have k6 := g12.errs
      have k7 := g12.len
      dsimp only at k3 k6 k7
      refine popRec_safe C g13.keep (by omega) fun hJ' => CSafe.pure ⟨g13.pushed C, ?_⟩
      cases ok with
      | false =>
        have := h4 rfl
        unfold Failed at *
        show s.vm.errors.length < s3.vm.errors.length
        omega
      | true =>
        refine ⟨hr, ?_⟩
        have := h5 rfl (by decide)
        show s3.toks.length < s.toks.length
        omega

/-- A postfix operator as the parser makes them. -/
def PostOK (p : Post) : Prop :=
  NodeOK p.arg ∧ (isIncDec p.tok.type = true → p.arg = .nil) ∧ p.tok.type ≠ .functionStyleExpression

theorem argChain_ok (t : Token) (ht : isIncDec t.type = false) (vs : List Node) (h : ∀ v ∈ vs, NodeOK v) : NodeOK (argChain t vs) := by
  induction vs with
  | nil => trivial
  | cons v vs ih =>
    exact ⟨h v (by simp), ih fun u hu => h u (by simp [hu]), fun h' => by rw [ht] at h'; cases h'⟩

/-- What a postfix parser does. -/
def PostR (J : CS → Prop) (s : CS) (r : Option (List Post)) (s' : CS) : Prop :=
  Go J s s' ∧ match r with
    | none => Failed s s'
    | some ps => (∀ p ∈ ps, PostOK p) ∧ s'.toks.length < s.toks.length

theorem PostR.after {J : CS → Prop} {s s1 s' : CS} {r : Option (List Post)} (g : Go J s s1) (h : PostR J s1 r s') : PostR J s r s' := by
  refine ⟨g.trans h.1, ?_⟩
  have := h.2
  have k1 := g.errs
  have k2 := g.len
  cases r with
  | none => unfold Failed at *; dsimp only at *; omega
  | some ps => exact ⟨this.1, by have := this.2; omega⟩

theorem PostR.fail {J : CS → Prop} {s s1 : CS} (C : Closed B J) (g : Go J s s1) (e : String) : PostR J s none (s1.addErr e) := by
  refine ⟨g.trans (Go.err C g.keep _), ?_⟩
  have k1 := g.errs
  show Failed _ _
  unfold Failed; rw [addErr_len]; omega

theorem parseDot_safe (C : Closed B J) {D : Nat} {pe : CM Node} (P : PE B J D pe) (ind : Bool) {s : CS} (h : J s) (hd : D ≤ s.depth)
    {t0 : Token} {ts0 : List Token} (hs0 : s.toks = t0 :: ts0) : CSafe B (parseDot pe ind) s (PostR J s) := by
  unfold parseDot
  refine CSafe.next ?_
  refine CSafe.cget ?_
  have g1 := Go.adv C h
  have k0 := advance_lt hs0
  have k1 := g1.depth
  cases hs : (advance s).toks with
  | nil => exact CSafe.err (PostR.fail C g1 _)
  | cons t ts =>
    dsimp only
    by_cases ht : t.type = .identifier
    · rw [if_pos ht]
      refine CSafe.next ?_
      have g2 := g1.trans (Go.adv C g1.keep)
      have k2 := g2.depth
      have k3 := advance_lt hs
      have hn : NodeOK (Node.mk (made .string t.str t.line) false .nil .nil) := ⟨trivial, trivial, fun h' => by cases h'⟩
      cases ind with
      | false =>
        simp only [Bool.false_eq_true, if_false]
        refine CSafe.pure ⟨g2, ?_, by omega⟩
        intro p hp
        rw [List.mem_singleton] at hp
        subst hp
        exact ⟨hn, (fun h' => by cases h'), by simp [made]⟩
      | true =>
        simp only [if_true]
        refine CSafe.cget ?_
        cases hs2 : (advance (advance s)).toks with
        | nil => exact CSafe.err (PostR.fail C g2 _)
        | cons u us =>
          dsimp only
          by_cases hu : u.type = .parenOpen
          · rw [if_pos hu]
            refine CSafe.bind (parseCall_safe C P g2.keep (by omega)) ?_
            rintro r s' ⟨g3, hr⟩
            have k4 := g2.errs
            cases r with
            | none =>
              refine CSafe.pure ⟨g2.trans g3, ?_⟩
              show Failed _ _
              unfold Failed at *
              dsimp only at hr
              omega
            | some vs =>
              refine CSafe.pure ⟨g2.trans g3, ?_, by have := hr.2; omega⟩
              intro p hp
              simp only [List.mem_cons, List.not_mem_nil, or_false] at hp
              rcases hp with rfl | rfl
              · exact ⟨hn, (fun h' => by cases h'), by simp [made]⟩
              · exact ⟨argChain_ok _ rfl _ hr.1, (fun h' => by cases h'), by simp [made]⟩
          · rw [if_neg hu]
            exact CSafe.err (PostR.fail C g2 _)
    · rw [if_neg ht]
      exact CSafe.err (PostR.fail C g1 _)

theorem parsePost_safe (C : Closed B J) {D : Nat} {pe : CM Node} (P : PE B J D pe) {s : CS} (h : J s) (hd : D ≤ s.depth)
    {t : Token} {ts : List Token} (hs : s.toks = t :: ts) : CSafe B (parsePost pe t) s (PostR J s) := by
  unfold parsePost
  have g1 := Go.adv C h
  have k0 := advance_lt hs
  have k1 := g1.depth
  by_cases h1 : t.type = .dot
  · rw [if_pos h1]; exact parseDot_safe C P _ h hd hs
  rw [if_neg h1]
  by_cases h2 : t.type = .cIndirection
  · rw [if_pos h2]; exact parseDot_safe C P _ h hd hs
  rw [if_neg h2]
  by_cases h3 : t.type = .bracketOpen
  · rw [if_pos h3]
    refine CSafe.next ?_
    refine CSafe.bind (P _ g1.keep (by omega)) ?_
    rintro v s2 ⟨g2, hv⟩
    rcases hv with ⟨⟨a1, a2, a4⟩, a3⟩ | ⟨a1, a2⟩
    · rw [if_neg a1]
      refine CSafe.bind (expectSkip_safe C .bracketClose g2.keep) ?_
      rintro ok s3 ⟨g3, b1, b2⟩
      have k2 := (g1.trans g2).errs
      cases ok with
      | false =>
        simp only [Bool.false_eq_true, if_false]
        refine CSafe.pure ⟨(g1.trans g2).trans g3, ?_⟩
        have := b1 rfl
        show Failed _ _
        unfold Failed at *
        omega
      | true =>
        simp only [if_true]
        refine CSafe.pure ⟨(g1.trans g2).trans g3, ?_, ?_⟩
        · intro p hp
          rw [List.mem_singleton] at hp
          subst hp
          exact ⟨a2, (fun h' => by rw [h3] at h'; cases h'), by rw [h3]; decide⟩
        · have := b2 rfl (by decide); omega
    · rw [if_pos a1]
      exact CSafe.err (PostR.fail C (g1.trans g2) _)
  rw [if_neg h3]
  by_cases h4 : t.type = .parenOpen
  · rw [if_pos h4]
    refine CSafe.bind (parseCall_safe C P h hd) ?_
    rintro r s' ⟨g, hr⟩
    cases r with
    | none => exact CSafe.pure ⟨g, hr⟩
    | some vs =>
      refine CSafe.pure ⟨g, ?_, hr.2⟩
      intro p hp
      rw [List.mem_singleton] at hp
      subst hp
      exact ⟨argChain_ok _ (by rw [h4]; rfl) _ hr.1, (fun h' => by rw [h4] at h'; cases h'), by rw [h4]; decide⟩
  rw [if_neg h4]
  by_cases h5 : t.type = .increment
  · rw [if_pos h5]
    refine CSafe.next (CSafe.pure ⟨g1, ?_, k0⟩)
    intro p hp
    rw [List.mem_singleton] at hp
    subst hp
    exact ⟨trivial, (fun _ => rfl), by simp [made]⟩
  rw [if_neg h5]
  by_cases h6 : t.type = .decrement
  · rw [if_pos h6]
    refine CSafe.next (CSafe.pure ⟨g1, ?_, k0⟩)
    intro p hp
    rw [List.mem_singleton] at hp
    subst hp
    exact ⟨trivial, (fun _ => rfl), by simp [made]⟩
  rw [if_neg h6]
  exact CSafe.err (PostR.fail C (Go.refl h) _)

theorem postLoop_safe (C : Closed B J) {D : Nat} {pe : CM Node} (P : PE B J D pe) (n : Nat) (s : CS) (acc : List Post) (h : J s)
    (hd : D ≤ s.depth) (hn : s.toks.length < n) (ha : ∀ p ∈ acc, PostOK p) :
    CSafe B (postLoop pe n acc) s fun r s' => Go J s s' ∧ match r with
      | none => Failed s s'
      | some ps => ∀ p ∈ ps, PostOK p := by
  induction n generalizing s acc with
  | zero => omega
  | succ n ih =>
    unfold postLoop
    refine CSafe.cget ?_
    cases hs : s.toks with
    | nil => exact CSafe.pure ⟨Go.refl h, ha⟩
    | cons t ts =>
      dsimp only
      by_cases hp : isPostfix t.type = true
      · rw [if_pos hp]
        refine CSafe.bind (parsePost_safe C P h hd hs) ?_
        rintro r s1 ⟨g1, hr⟩
        have k1 := g1.depth
        have k2 := g1.errs
        cases r with
        | none => exact CSafe.pure ⟨g1, hr⟩
        | some ps =>
          have k3 := hr.2
          refine (ih s1 _ g1.keep (by omega) (by omega) ?_).mono ?_
          · intro p hp
            rcases List.mem_append.1 hp with hp | hp
            · exact ha p hp
            · exact hr.1 p hp
          · rintro r s' ⟨g2, hr2⟩
            refine ⟨g1.trans g2, ?_⟩
            cases r with
            | none => unfold Failed at *; dsimp only at *; omega
            | some ps => exact hr2
      · rw [if_neg hp]
        exact CSafe.pure ⟨Go.refl h, ha⟩

/-- The result of an operand. -/
def ValR (B : UB → Prop) (J : CS → Prop) (s : CS) (r : Option Node) (s' : CS) : Prop :=
  Go J s s' ∧ match r with
    | none => Failed s s'
    | some v => ValOK B v ∧ s'.toks.length < s.toks.length

theorem ValR.fail {J : CS → Prop} {s s1 : CS} (C : Closed B J) (g : Go J s s1) (e : String) : ValR B J s none (s1.addErr e) := by
  refine ⟨g.trans (Go.err C g.keep _), ?_⟩
  have k1 := g.errs
  show Failed _ _
  unfold Failed; rw [addErr_len]; omega

theorem ValR.after {J : CS → Prop} {s s1 s' : CS} {r : Option Node} (g : Go J s s1) (h : ValR B J s1 r s') : ValR B J s r s' := by
  refine ⟨g.trans h.1, ?_⟩
  have := h.2
  have k1 := g.errs
  have k2 := g.len
  cases r with
  | none => unfold Failed at *; dsimp only at *; omega
  | some ps => exact ⟨this.1, by have := this.2; omega⟩

theorem parseValue_safe (C : Closed B J) {D : Nat} {pe : CM Node} (P : PE B J D pe) {fd : CM (Option Nat)} (hfd : FD B J D fd) {s : CS}
    (h : J s) (hd : D ≤ s.depth) (hpre : ∀ t ts, s.toks = t :: ts → isPrefix t.type = false) :
    CSafe B (parseValue pe fd) s (ValR B J s) := by
  unfold parseValue
  refine CSafe.cget ?_
  cases hs : s.toks with
  | nil => exact CSafe.err (ValR.fail C (Go.refl h) _)
  | cons t ts =>
    dsimp only
    have g1 := Go.adv C h
    have k0 := advance_lt hs
    have k1 := g1.depth
    by_cases h1 : t.type = .parenOpen
    · rw [if_pos h1]
      refine CSafe.next ?_
      refine CSafe.bind (P _ g1.keep (by omega)) ?_
      rintro v s2 ⟨g2, hv⟩
      have g12 := g1.trans g2
      rcases hv with ⟨⟨a1, a2, a4⟩, a3⟩ | ⟨a1, a2⟩
      · rw [if_neg a1]
        refine CSafe.cget ?_
        cases hs2 : s2.toks with
        | nil => exact CSafe.err (ValR.fail C g12 _)
        | cons u us =>
          dsimp only
          by_cases hu : isSubEnd u.type = true
          · rw [if_pos hu]
            refine CSafe.next (CSafe.pure ⟨g12.trans (Go.adv C g12.keep), ⟨a1, a2, a4⟩, ?_⟩)
            have := advance_lt hs2
            omega
          · rw [if_neg hu]; exact CSafe.err (ValR.fail C g12 _)
      · rw [if_pos a1]; exact CSafe.err (ValR.fail C g12 _)
    rw [if_neg h1]
    by_cases h2 : isEnd (t :: ts) = true
    · rw [if_pos h2]; exact CSafe.err (ValR.fail C (Go.refl h) _)
    rw [if_neg h2]
    by_cases h3 : t.type = .kwFunction
    · rw [if_pos h3]
      refine CSafe.bind (hfd s h hd) ?_
      rintro o s' ⟨g2, ho⟩
      cases o with
      | none => exact CSafe.err (ValR.fail C g2 _)
      | some id =>
        refine CSafe.cget (CSafe.pure ⟨g2, ⟨by simp, ⟨trivial, trivial, fun h' => by cases h'⟩, fun h' => by cases h'⟩, ho rfl⟩)
    rw [if_neg h3]
    have p1 := hpre t ts hs
    have p2 := C.good h t (by rw [hs]; simp)
    refine CSafe.next (CSafe.pure ⟨g1, ⟨by simp, ⟨trivial, trivial, fun h' => ?_⟩, p2.2.2⟩, k0⟩)
    exfalso
    revert h' p1
    have q1 := p2.1
    have q2 := p2.2.1
    cases ht : t.type <;> simp_all [isIncDec, isPrefix]

theorem chain_ok (ps : List Post) (v : Node) (hv : ValOK B v) (h : ∀ p ∈ ps, PostOK p) : ValOK B (chain v ps) := by
  induction ps generalizing v with
  | nil => exact hv
  | cons p ps ih =>
    obtain ⟨p1, p2, p3⟩ := h p (by simp)
    exact ih _ ⟨by simp, ⟨hv.2.1, p1, fun hi => ⟨hv.1, p2 hi⟩⟩, fun h' => absurd h' p3⟩ fun q hq => h q (by simp [hq])

theorem attachPost_ok (v : Node) (ps : List Post) (hv : ValOK B v) (h : ∀ p ∈ ps, PostOK p) :
    match attachPost v ps with
    | .ok w => ValOK B w
    | .ub k => B k := by
  unfold attachPost
  cases ps with
  | nil => exact hv
  | cons p qs =>
    cases v with
    | nil => exact absurd rfl hv.1
    | mk t root l r =>
      dsimp only
      by_cases hc : t.type = .functionStyleExpression ∧ p.tok.type = .parenOpen
      · rw [if_pos hc]
        by_cases hlr : l = .nil ∧ r = .nil
        · rw [if_pos hlr]
          refine chain_ok _ _ ⟨by simp, ⟨trivial, (h p (by simp)).1, fun hi => ?_⟩, fun _ => hv.2.2 hc.1⟩
            fun q hq => h q (by simp [hq])
          exfalso
          simp [made, hc.1, isIncDec] at hi
        · rw [if_neg hlr]
          exact hv.2.2 hc.1
      · rw [if_neg hc]; exact chain_ok _ _ hv h

theorem attachPre_ok (pre : List Token) (v : Node) (hv : ValOK B v) (h : ∀ t ∈ pre, isPrefix t.type = true) :
    ValOK B (attachPre pre v) := by
  induction pre with
  | nil => exact hv
  | cons t pre ih =>
    have := ih fun u hu => h u (by simp [hu])
    refine ⟨by simp [attachPre], ⟨this.2.1, trivial, fun _ => ⟨this.1, rfl⟩⟩, fun h' => ?_⟩
    have ht := h t (by simp)
    have h'' : t.type = .functionStyleExpression := h'
    rw [h''] at ht
    cases ht

theorem operand_safe (C : Closed B J) {D : Nat} {pe : CM Node} (P : PE B J D pe) {fd : CM (Option Nat)} (hfd : FD B J D fd) {s : CS}
    (h : J s) (hd : D ≤ s.depth) : CSafe B (operand pe fd) s (ValR B J s) := by
  unfold operand
  refine CSafe.cget ?_
  refine CSafe.bind (prefixLoop_safe C _ s [] h (Nat.lt_succ_self _) (by simp)) ?_
  rintro pre s1 ⟨g1, hpre, hno⟩
  have k1 := g1.depth
  refine CSafe.bind (parseValue_safe C P hfd g1.keep (by omega) hno) ?_
  intro r s2 hr
  have hr2 := ValR.after g1 hr
  cases r with
  | none => exact CSafe.pure hr2
  | some v =>
    refine CSafe.cget ?_
    have k2 := hr2.1.depth
    refine CSafe.bind (postLoop_safe C P _ s2 [] hr2.1.keep (by omega) (Nat.lt_succ_self _) (by simp)) ?_
    rintro r s3 ⟨g3, hr3⟩
    have k3 := hr2.1.errs
    cases r with
    | none =>
      refine CSafe.pure ⟨hr2.1.trans g3, ?_⟩
      show Failed _ _
      unfold Failed at *
      dsimp only at hr3
      omega
    | some ps =>
      have hp := attachPost_ok v ps hr2.2.1 hr3
      unfold CSafe
      cases ha : attachPost v ps with
      | ub k =>
        rw [ha] at hp
        simp only [ha]
        exact hp
      | ok w =>
        rw [ha] at hp
        simp only [ha]
        refine ⟨hr2.1.trans g3, attachPre_ok pre w hp hpre, ?_⟩
        have := hr2.2.2
        have := g3.len
        omega

/-! ## The stacks -/

/-- Operators with a precedence. -/
def OpsOK (ops : List Token) : Prop := ∀ t ∈ ops, prec t.type ≠ -1

theorem opNode_ok {op : Token} (hp : prec op.type ≠ -1) {v1 v2 : Node} (h1 : ValOK B v1) (h2 : ValOK B v2) :
    ValOK B (.mk op false v1 v2) := by
  refine ⟨by simp, ⟨h1.2.1, h2.2.1, fun hi => ?_⟩, fun h' => ?_⟩
  · exfalso; revert hp hi; cases op.type <;> simp [prec, isIncDec]
  · exfalso; have h'' : op.type = .functionStyleExpression := h'; rw [h''] at hp; exact hp rfl

theorem reduceWhile_ok (t : TokType) (ops : List Token) (vals : List Node) (hl : vals.length = ops.length + 1) (ho : OpsOK ops)
    (hv : ∀ v ∈ vals, ValOK B v) :
    ∃ ops' vals', reduceWhile t ops vals = .ok (some (ops', vals')) ∧ vals'.length = ops'.length + 1 ∧ OpsOK ops' ∧
      ∀ v ∈ vals', ValOK B v := by
  induction ops generalizing vals with
  | nil => exact ⟨[], vals, rfl, hl, ho, hv⟩
  | cons op ops ih =>
    unfold reduceWhile
    by_cases hp : prec t ≥ prec op.type
    · rw [if_pos hp]
      match vals, hl with
      | v2 :: v1 :: vs, hl =>
        refine ih (.mk op false v1 v2 :: vs) (by simpa using hl) (fun u hu => ho u (by simp [hu])) ?_
        intro v hm
        rcases List.mem_cons.1 hm with rfl | hm
        · exact opNode_ok (ho op (by simp)) (hv _ (by simp)) (hv _ (by simp))
        · exact hv v (by simp [hm])
    · rw [if_neg hp]
      exact ⟨_, _, rfl, hl, ho, hv⟩

theorem reduceAll_ok (ops : List Token) (vals : List Node) (hl : vals.length = ops.length + 1) (ho : OpsOK ops)
    (hv : ∀ v ∈ vals, ValOK B v) : ∃ v, reduceAll ops vals = .ok (some [v]) ∧ ValOK B v := by
  induction ops generalizing vals with
  | nil =>
    match vals, hl with
    | [v], _ => exact ⟨v, rfl, hv v (by simp)⟩
  | cons op ops ih =>
    match vals, hl with
    | v2 :: v1 :: vs, hl =>
      refine ih (.mk op false v1 v2 :: vs) (by simpa using hl) (fun u hu => ho u (by simp [hu])) ?_
      intro v hm
      rcases List.mem_cons.1 hm with rfl | hm
      · exact opNode_ok (ho op (by simp)) (hv _ (by simp)) (hv _ (by simp))
      · exact hv v (by simp [hm])

theorem reduceAll_short (ops : List Token) (vals : List Node) (hl : vals.length = ops.length) (hn : ops ≠ []) :
    reduceAll ops vals = .ok none := by
  induction ops generalizing vals with
  | nil => exact absurd rfl hn
  | cons op ops ih =>
    match vals, hl with
    | [v], _ => rfl
    | v2 :: v1 :: vs, hl =>
      refine ih (.mk op false v1 v2 :: vs) (by simpa using hl) ?_
      rintro rfl
      simp at hl

/-- The stacks at the end of the loop. -/
def Ends (B : UB → Prop) (J : CS → Prop) (s : CS) (r : Option (List Token × List Node)) (s' : CS) : Prop :=
  Go J s s' ∧ match r with
    | none => Failed s s'
    | some (ops, vals) => OpsOK ops ∧ (∀ v ∈ vals, ValOK B v) ∧
      (vals.length = ops.length ∨ (vals.length = ops.length + 1 ∧ s'.toks.length < s.toks.length))

theorem Ends.after {J : CS → Prop} {s s1 s' : CS} {r : Option (List Token × List Node)} (g : Go J s s1) (h : Ends B J s1 r s') :
    Ends B J s r s' := by
  refine ⟨g.trans h.1, ?_⟩
  have := h.2
  have k1 := g.errs
  have k2 := g.len
  match r with
  | none => unfold Failed at *; dsimp only at *; omega
  | some (ops, vals) =>
    refine ⟨this.1, this.2.1, ?_⟩
    rcases this.2.2 with h | h
    · exact Or.inl h
    · exact Or.inr ⟨h.1, by omega⟩

theorem exprLoop_safe (C : Closed B J) {D : Nat} {pe : CM Node} (P : PE B J D pe) {fd : CM (Option Nat)} (hfd : FD B J D fd) (n : Nat)
    (s : CS) (ops : List Token) (vals : List Node) (h : J s) (hd : D ≤ s.depth) (hn : s.toks.length < n)
    (hl : vals.length = ops.length) (ho : OpsOK ops) (hv : ∀ v ∈ vals, ValOK B v) :
    CSafe B (exprLoop pe fd n ops vals) s (Ends B J s) := by
  induction n generalizing s ops vals with
  | zero => omega
  | succ n ih =>
    unfold exprLoop
    refine CSafe.cget ?_
    by_cases he : isEnd s.toks = true
    · rw [if_pos he]; exact CSafe.pure ⟨Go.refl h, ho, hv, Or.inl hl⟩
    rw [if_neg he]
    refine CSafe.bind (operand_safe C P hfd h hd) ?_
    rintro r s1 ⟨g1, hr⟩
    cases r with
    | none => exact CSafe.pure ⟨g1, hr⟩
    | some v =>
      have hvv : ∀ u ∈ v :: vals, ValOK B u := by
        intro u hu
        rcases List.mem_cons.1 hu with rfl | hu
        · exact hr.1
        · exact hv u hu
      have k1 := hr.2
      have k2 := g1.depth
      refine CSafe.cget ?_
      by_cases he1 : isEnd s1.toks = true
      · rw [if_pos he1]
        exact CSafe.pure ⟨g1, ho, hvv, Or.inr ⟨by simp [hl], k1⟩⟩
      rw [if_neg he1]
      cases hs1 : s1.toks with
      | nil => rw [hs1] at he1; exact absurd rfl he1
      | cons t ts =>
        dsimp only
        by_cases hp : prec t.type = -1
        · rw [if_pos hp]
          refine CSafe.err ⟨g1.trans (Go.err C g1.keep _), ?_⟩
          show Failed _ _
          have := g1.errs
          unfold Failed; rw [addErr_len]; omega
        rw [if_neg hp]
        obtain ⟨ops', vals', e1, e2, e3, e4⟩ := reduceWhile_ok (B := B) t.type ops (v :: vals) (by simp [hl]) ho hvv
        rw [e1]
        dsimp only
        refine CSafe.next ?_
        have g2 := Go.adv C g1.keep
        have k3 := g2.len
        have k4 := g2.depth
        have k5 := advance_lt hs1
        refine (ih (advance s1) (t :: ops') vals' g2.keep (by omega) (by omega) (by simp [e2]) ?_ e4).mono ?_
        · intro u hu
          rcases List.mem_cons.1 hu with rfl | hu
          · exact hp
          · exact e3 u hu
        · intro r s' hq
          exact Ends.after (g1.trans g2) hq

theorem parseEnd_safe (C : Closed B J) {s : CS} (h : J s) {ops : List Token} {vals : List Node} (ho : OpsOK ops)
    (hv : ∀ v ∈ vals, ValOK B v) (hl : vals.length = ops.length ∨ vals.length = ops.length + 1) :
    CSafe B (parseEnd ops vals) s fun v s' => Go J s s' ∧ s'.toks = s.toks ∧
      ((ValOK B v ∧ vals.length = ops.length + 1) ∨ (v = .nil ∧ Failed s s')) := by
  unfold parseEnd
  rcases hl with hl | hl
  · by_cases hn : ops = []
    · subst hn
      have : vals = [] := List.length_eq_zero_iff.1 hl
      subst this
      refine CSafe.err ⟨Go.err C h _, rfl, Or.inr ⟨rfl, ?_⟩⟩
      unfold Failed; rw [addErr_len]; omega
    · rw [reduceAll_short ops vals hl hn]
      refine CSafe.err ⟨Go.err C h _, rfl, Or.inr ⟨rfl, ?_⟩⟩
      unfold Failed; rw [addErr_len]; omega
  · obtain ⟨v, e1, e2⟩ := reduceAll_ok (B := B) ops vals hl ho hv
    rw [e1]
    exact CSafe.pure ⟨Go.refl h, rfl, Or.inl ⟨e2, hl⟩⟩

theorem parseBody_safe (C : Closed B J) {D : Nat} {pe : CM Node} (P : PE B J (D + 1) pe) {fd : CM (Option Nat)}
    (hfd : FD B J (D + 1) fd) : PE B J D (parseExprBody fd pe) := by
  intro s h hd
  unfold parseExprBody
  refine CSafe.bind (pushRec_safe C h) ?_
  intro ok s1 hs1
  cases ok with
  | false =>
    simp only [Bool.false_eq_true, if_false] at hs1 ⊢
    exact CSafe.pure ⟨hs1.1, Or.inr ⟨rfl, hs1.2.1⟩⟩
  | true =>
    simp only [if_true] at hs1 ⊢
    obtain ⟨rfl, hJ, _⟩ := hs1
    refine CSafe.cget ?_
    refine CSafe.bind (exprLoop_safe C P hfd _ _ [] [] hJ (by dsimp only; omega) (Nat.lt_succ_self _) rfl (by simp [OpsOK]) (by simp)) ?_
    rintro r s2 ⟨g, hr⟩
    have k1 := g.depth
    dsimp only at k1
    match r with
    | none =>
      refine popRec_safe C g.keep (by omega) fun hJ' => CSafe.pure ⟨g.pushed C, Or.inr ⟨rfl, hr⟩⟩
    | some (ops, vals) =>
      obtain ⟨ho, hv, hl⟩ := hr
      dsimp only
      refine CSafe.bind (parseEnd_safe C g.keep ho hv (hl.imp id (·.1))) ?_
      rintro v s3 ⟨g3, ht3, hv3⟩
      have g13 := g.trans g3
      have k2 := g13.depth
      have k3 := g.errs
      dsimp only at k2 k3
      refine popRec_safe C g13.keep (by omega) fun hJ' => CSafe.pure ⟨g13.pushed C, ?_⟩
      rcases hv3 with ⟨a1, a2⟩ | ⟨a1, a2⟩
      · rcases hl with hl | hl
        · omega
        · refine Or.inl ⟨a1, ?_⟩
          show s3.toks.length < s.toks.length
          rw [ht3]; exact hl.2
      · refine Or.inr ⟨a1, ?_⟩
        unfold Failed at *
        show s.vm.errors.length < s3.vm.errors.length
        omega

theorem PE.deep (C : Closed B J) (fd : CM (Option Nat)) (pe : CM Node) {D : Nat} (hD : 257 ≤ D) : PE B J D (parseExprBody fd pe) := by
  intro s h hd
  unfold parseExprBody
  refine CSafe.bind (pushRec_safe C h) ?_
  intro ok s1 hs1
  cases ok with
  | false =>
    simp only [Bool.false_eq_true, if_false] at hs1 ⊢
    exact CSafe.pure ⟨hs1.1, Or.inr ⟨rfl, hs1.2.1⟩⟩
  | true =>
    simp only [if_true] at hs1
    omega

/-- The parser, at any depth: with enough bound on the recursion it never runs out of it. -/
theorem parseExpr_safe (C : Closed B J) {fd : CM (Option Nat)} {D0 : Nat} (hfd : FD B J D0 fd) (n : Nat) :
    ∀ D, D0 ≤ D + 1 → 258 ≤ D + n → 1 ≤ n → PE B J D (parseExpr fd n) := by
  induction n with
  | zero => intro D h0 hD h1; omega
  | succ n ih =>
    intro D h0 hD _
    show PE B J D (parseExprBody fd (parseExpr fd n))
    by_cases h : 257 ≤ D
    · exact PE.deep C fd _ h
    · exact parseBody_safe C (ih (D + 1) (by omega) (by omega) (by omega)) fun s hs hd => hfd s hs (by omega)

end Nk.Cc
