import Verif.Spec.Func
import Verif.Lemmas.CodeExpr
/-!
# What statements leave alone on the stack
-/
namespace Nk.Cc
open Nk.Props

section
variable {F : FloatOps} {H : Host} {Γ : Bytes → Option Place} {b j : Nat}

mutual
/-- An expression changes only the variables it assigns to. -/
theorem Ev.intact : ∀ (e : Ex) {l : List Value} {W : VM} {v : Value} {l' : List Value} {W' : VM},
    Ev F H Γ b l W e v l' W' → (∀ x i, e.sets x = true → Γ x = some (.loc i) → b + i ≠ j) → j < l.length → l'[j]? = l[j]?
  | .int _, _, _, _, _, _, .int _ => fun _ _ => rfl
  | .float _, _, _, _, _, _, .float _ => fun _ _ => rfl
  | .str _, _, _, _, _, _, .str _ _ => fun _ _ => rfl
  | .fn _, _, _, _, _, _, .fn _ => fun _ _ => rfl
  | .nil _, _, _, _, _, _, .nil _ => fun _ _ => rfl
  | .newObj _, _, _, _, _, _, .newObj _ _ => fun _ _ => rfl
  | .var _, _, _, _, _, _, .loc _ _ _ => fun _ _ => rfl
  | .var _, _, _, _, _, _, .glob _ _ _ => fun _ _ => rfl
  | .un _ _ e, _, _, _, _, _, .un he _ => fun hj hl => Ev.intact e he (fun x i hx => hj x i (by simpa [Ex.sets] using hx)) hl
  | .bin _ _ e f, _, _, _, _, _, .bin he hf hd => fun hj hl => by
    have h1 := (Ev.frame e he).1
    have h2 := Ev.intact e he (fun x i hx => hj x i (by simp [Ex.sets, hx])) hl
    have g1 := (Ev.frame f hf).1
    have g2 := Ev.intact f hf (fun x i hx => hj x i (by simp [Ex.sets, hx])) (by simp; omega)
    simp only [List.length_append, List.length_singleton] at g1
    rw [get_app (by omega), get_app (by omega)] at g2
    rw [g2, h2]
  | .setVar _ x e, _, _, _, _, _, .setLoc he hg _ => fun hj hl => by
    have h2 := Ev.intact e he (fun x i hx => hj x i (by simp [Ex.sets, hx])) hl
    rw [List.getElem?_set_ne (hj x.str _ (by simp [Ex.sets]) hg), h2]
  | .setVar _ _ e, _, _, _, _, _, .setGlob he _ _ => fun hj hl => Ev.intact e he (fun x i hx => hj x i (by simp [Ex.sets, hx])) hl
  | .setField _ _ o k e, _, _, _, _, _, .setField he ho hk hd => fun hj hl => by
    have h1 := (Ev.frame e he).1
    have h2 := Ev.intact e he (fun x i hx => hj x i (by simp [Ex.sets, hx])) hl
    have g1 := (Ev.frame o ho).1
    have g2 := Ev.intact o ho (fun x i hx => hj x i (by simp [Ex.sets, hx])) (by simp; omega)
    have k1 := (Ev.frame k hk).1
    simp only [List.length_append, List.length_singleton, List.length_cons, List.length_nil] at g1 k1
    have k2 := Ev.intact k hk (fun x i hx => hj x i (by simp [Ex.sets, hx])) (by simp; omega)
    rw [get_app (by omega), get_app (by omega)] at g2 k2
    rw [k2, g2, h2]
  | .call _ f as, _, _, _, _, _, .call hf ha hd => fun hj hl => by
    have h1 := (Ev.frame f hf).1
    have h2 := Ev.intact f hf (fun x i hx => hj x i (by simp [Ex.sets, hx])) hl
    have g1 := (EvArgs.frame as ha).1
    have g2 := EvArgs.intact as ha (fun x i hx => hj x i (by simp [Ex.sets, hx])) (by simp; omega)
    simp only [List.length_append, List.length_singleton] at g1
    rw [get_app (by omega), get_app (by omega)] at g2
    rw [g2, h2]
  | .method _ _ o k as, _, _, _, _, _, .method ho hk hf ha hd => fun hj hl => by
    have h1 := (Ev.frame o ho).1
    have h2 := Ev.intact o ho (fun x i hx => hj x i (by simp [Ex.sets, hx])) hl
    have g1 := (Ev.frame k hk).1
    have g2 := Ev.intact k hk (fun x i hx => hj x i (by simp [Ex.sets, hx])) (by simp; omega)
    have k1 := (EvArgs.frame as ha).1
    simp only [List.length_append, List.length_singleton, List.length_cons, List.length_nil] at g1 k1
    have k2 := EvArgs.intact as ha (fun x i hx => hj x i (by simp [Ex.sets, hx])) (by simp; omega)
    rw [get_app (by omega), get_app (by omega)] at g2 k2
    rw [k2, g2, h2]
  | .builtin _ _ _ as, _, _, _, _, _, .builtin ha _ _ => fun hj hl =>
    EvArgs.intact as ha (fun x i hx => hj x i (by simpa [Ex.sets] using hx)) hl
theorem EvArgs.intact : ∀ (e : Exs) {l : List Value} {W : VM} {v : List Value} {l' : List Value} {W' : VM},
    EvArgs F H Γ b l W e v l' W' → (∀ x i, e.sets x = true → Γ x = some (.loc i) → b + i ≠ j) → j < l.length → l'[j]? = l[j]?
  | .nil, _, _, _, _, _, .nil => fun _ _ => rfl
  | .cons a as, _, _, _, _, _, .cons he ha => fun hj hl => by
    have h1 := (Ev.frame a he).1
    have h2 := Ev.intact a he (fun x i hx => hj x i (by simp [Exs.sets, hx])) hl
    have g1 := (EvArgs.frame as ha).1
    have g2 := EvArgs.intact as ha (fun x i hx => hj x i (by simp [Exs.sets, hx])) (by simp; omega)
    simp only [List.length_append, List.length_singleton] at g1
    rw [get_app (by omega), get_app (by omega)] at g2
    rw [g2, h2]
end

/-- `P` leaves the value at `j` alone, when it begins with `h` values on the stack; and it ends with `h'`. -/
def Safe (j h h' : Nat) (P : Rel) : Prop :=
  ∀ l W o l' W', P l W o l' W' → l.length = h → l'[j]? = l[j]? ∧ (o = .normal → l'.length = h') ∧ h ≤ l'.length

theorem safe_done {h : Nat} : Safe j h h Done := by
  intro l W o l' W' hP hl; cases hP; exact ⟨rfl, fun _ => hl, by omega⟩

theorem safe_stop {h h' : Nat} : Safe j h h' Stop := by
  intro l W o l' W' hP hl; cases hP; exact ⟨rfl, fun h => by (cases h), by omega⟩

theorem safe_break {h h' : Nat} : Safe j h h' Break := by
  intro l W o l' W' hP hl; cases hP; exact ⟨rfl, fun h => by (cases h), by omega⟩

theorem safe_return {h h' : Nat} (v : Value) : Safe j h h' (Return v) := by
  intro l W o l' W' hP hl; cases hP; exact ⟨rfl, fun h => by (cases h), by omega⟩

theorem safe_declare {E : Env} {h : Nat} {v : Value} (hj : j < h) (hE : h = b + E.h) (x : Bytes) : Safe j h (b + (E.bind x).h) (Declare E v) := by
  intro l W o l' W' hP hl
  cases hP with
  | loc hg => exact ⟨get_app (by omega), fun _ => by simp [Env.bind, hg]; omega, by simp; omega⟩
  | glob hg _ => exact ⟨rfl, fun _ => by simp [Env.bind, hg]; omega, by omega⟩

theorem safe_seq {P Q : Rel} {h h1 h2 : Nat} (hh : h ≤ h1) (a : Safe j h h1 P) (c : Safe j h1 h2 Q) : Safe j h h2 (Seq P Q) := by
  intro l W o l' W' hP hl
  cases hP with
  | next x y =>
    obtain ⟨a1, a2, a3⟩ := a _ _ _ _ _ x hl
    obtain ⟨b1, b2, b3⟩ := c _ _ _ _ _ y (a2 rfl)
    exact ⟨b1.trans a1, b2, by omega⟩
  | stop x y =>
    obtain ⟨a1, a2, a3⟩ := a _ _ _ _ _ x hl
    exact ⟨a1, fun h => absurd h y, a3⟩

theorem safe_eval {e : Ex} {k : Value → Rel} {h h' : Nat} (hj : j < h) (he : ∀ x i, e.sets x = true → Γ x = some (.loc i) → b + i ≠ j)
    (a : ∀ v, Safe j h h' (k v)) : Safe j h h' (Eval F H b Γ e k) := by
  intro l W o l' W' hP hl
  cases hP with
  | part => exact ⟨rfl, fun h => by (cases h), by omega⟩
  | err _ => exact ⟨rfl, fun h => by (cases h), by omega⟩
  | val x y =>
    obtain ⟨a1, a2, a3⟩ := a _ _ _ _ _ _ y (by rw [(Ev.frame e x).1]; exact hl)
    exact ⟨a1.trans (Ev.intact e x he (by omega)), a2, a3⟩

theorem safe_test {P Q : Rel} {h h' : Nat} (a : Safe j h h' P) (c : Safe j h h' Q) (v : Value) : Safe j h h' (Test P Q v) := by
  intro l W o l' W' hP hl
  cases hP with
  | yes _ _ x => exact a _ _ _ _ _ x hl
  | no _ x => exact c _ _ _ _ _ x hl

theorem take_get {l : List Value} {n : Nat} (h : j < n) : (l.take n)[j]? = l[j]? := by
  rw [List.getElem?_take]; simp [h]

theorem safe_scope {P : Rel} {h h' : Nat} (hj : j < h) (a : Safe j h h' P) : Safe j h h (Scope P) := by
  intro l W o l' W' hP hl
  cases hP with
  | done x =>
    obtain ⟨a1, a2, a3⟩ := a _ _ _ _ _ x hl
    exact ⟨(take_get (by omega)).trans a1, fun _ => by rw [List.length_take]; omega, by rw [List.length_take]; omega⟩
  | leave x y =>
    obtain ⟨a1, a2, a3⟩ := a _ _ _ _ _ x hl
    exact ⟨a1, fun h => absurd h y, a3⟩

theorem safe_catch {P : Rel} {h : Nat} (hj : j < h) (a : Safe j h h P) : Safe j h h (Catch P) := by
  intro l W o l' W' hP hl
  cases hP with
  | brk x =>
    obtain ⟨a1, a2, a3⟩ := a _ _ _ _ _ x hl
    exact ⟨(take_get (by omega)).trans a1, fun _ => by rw [List.length_take]; omega, by rw [List.length_take]; omega⟩
  | other x y => exact a _ _ _ _ _ x hl

theorem safe_loop {step : Rel → Rel} {h h' : Nat} (a : ∀ X, Safe j h h' X → Safe j h h' (step X)) : Safe j h h' (Loop step) := by
  have key : ∀ n, Safe j h h' (rounds step n) := by
    intro n
    induction n with
    | zero => exact safe_stop
    | succ n ih => exact a _ ih
  rintro l W o l' W' ⟨n, hP⟩ hl
  exact key n _ _ _ _ _ hP hl

end

section
variable {F : FloatOps} {H : Host} {b j : Nat}

theorem Env.bind_le (E : Env) (x : Bytes) : E.h ≤ (E.bind x).h := by
  unfold Env.bind; split <;> simp

theorem St.bind_le (E : Env) (S : St) : E.h ≤ (S.bind E).h := by
  cases S <;> first | exact Nat.le_refl _ | exact Env.bind_le _ _

theorem Sts.bind_le (E : Env) : ∀ ss : Sts, E.h ≤ (ss.bind E).h
  | .nil => Nat.le_refl _
  | .cons a as => Nat.le_trans (St.bind_le E a) (Sts.bind_le _ as)

/-- No name in `sets` is at `j`. -/
def Clear (b j : Nat) (E : Env) (sets : Bytes → Bool) : Prop := ∀ x i, sets x = true → E.Γ x = some (.loc i) → b + i ≠ j

theorem Clear.bind {E : Env} {f : Bytes → Bool} (h : Clear b j E f) (hj : j < b + E.h) (x : Bytes) : Clear b j (E.bind x) f := by
  intro y i hy hg
  unfold Env.bind at hg
  split at hg
  · dsimp only at hg
    split at hg
    · cases hg
    · exact h y i hy hg
  · dsimp only at hg
    split at hg
    · cases hg; omega
    · exact h y i hy hg

theorem Clear.stmt {E : Env} {f : Bytes → Bool} (h : Clear b j E f) (hj : j < b + E.h) (S : St) : Clear b j (S.bind E) f := by
  cases S <;> first | exact h | exact h.bind hj _

theorem Clear.sub {E : Env} {f g : Bytes → Bool} (h : Clear b j E f) (hs : ∀ x, g x = true → f x = true) : Clear b j E g :=
  fun x i hx => h x i (hs x hx)

mutual
/-- A statement changes only the variables it assigns to. -/
theorem safe_stmt : ∀ (S : St) (E : Env), j < b + E.h → Clear b j E (fun x => S.sets x) →
    Safe j (b + E.h) (b + (S.bind E).h) (S.exec F H b E)
  | .expr e, E, hj, hc => safe_eval hj hc fun _ => safe_done
  | .decl x e, E, hj, hc => safe_eval hj hc fun _ => safe_declare hj rfl x
  | .decl0 x, E, hj, hc => safe_declare hj rfl x
  | .block ss, E, hj, hc => safe_scope hj (safe_stmts ss E.inner hj hc)
  | .ifThen c a, E, hj, hc => safe_eval hj (hc.sub (by intro x hx; simp [St.sets, hx])) (safe_test
      (safe_scope hj (safe_stmt a E.inner hj (hc.sub (by intro x hx; simp [St.sets, hx])))) safe_done)
  | .ifElse c a d, E, hj, hc => safe_eval hj (hc.sub (by intro x hx; simp [St.sets, hx])) (safe_test
      (safe_scope hj (safe_stmt a E.inner hj (hc.sub (by intro x hx; simp [St.sets, hx]))))
      (safe_scope hj (safe_stmt d E.inner hj (hc.sub (by intro x hx; simp [St.sets, hx])))))
  | .while c a, E, hj, hc => safe_catch hj (safe_loop fun X hX =>
      safe_eval hj (hc.sub (by intro x hx; simp [St.sets, hx])) (safe_test
        (safe_seq (Nat.le_refl _) (safe_scope hj (safe_stmt a E.inner hj (hc.sub (by intro x hx; simp [St.sets, hx])))) hX) safe_done))
  | .doWhile a c, E, hj, hc => safe_catch hj (safe_loop fun X hX =>
      safe_seq (Nat.le_refl _) (safe_scope hj (safe_stmt a E.inner hj (hc.sub (by intro x hx; simp [St.sets, hx]))))
        (safe_eval hj (hc.sub (by intro x hx; simp [St.sets, hx])) (safe_test hX safe_done)))
  | .for i c n a, E, hj, hc => by
    have hle : b + E.h ≤ b + (i.bind E.inner).h := Nat.add_le_add_left (St.bind_le E.inner i) b
    have hj' : j < b + (i.bind E.inner).h := Nat.lt_of_lt_of_le hj hle
    have hi : Clear b j E.inner (fun x => (St.for i c n a).sets x) := hc
    have hc' := hi.stmt hj i
    refine safe_catch hj (safe_scope (h' := b + (i.bind E.inner).h) hj (safe_seq hle
      (safe_stmt i E.inner hj (hi.sub (by intro x hx; simp [St.sets, hx]))) (safe_loop fun X hX => ?_)))
    refine safe_eval hj' (hc'.sub (by intro x hx; simp [St.sets, hx])) (safe_test ?_ safe_done)
    refine safe_seq (Nat.le_refl _) (safe_scope hj' (safe_stmt a _ hj' (hc'.sub (by intro x hx; simp [St.sets, hx])))) ?_
    exact safe_seq (Nat.le_refl _) (safe_eval hj' (hc'.sub (by intro x hx; simp [St.sets, hx])) fun _ => safe_done) hX
  | .brk, E, hj, hc => safe_break
  | .ret e, E, hj, hc => safe_eval hj hc safe_return
theorem safe_stmts : ∀ (ss : Sts) (E : Env), j < b + E.h → Clear b j E (fun x => ss.sets x) →
    Safe j (b + E.h) (b + (ss.bind E).h) (ss.exec F H b E)
  | .nil, E, hj, hc => safe_done
  | .cons a as, E, hj, hc => by
    have hle : b + E.h ≤ b + (a.bind E).h := Nat.add_le_add_left (St.bind_le E a) b
    exact safe_seq hle (safe_stmt a E hj (hc.sub (by intro x hx; simp [Sts.sets, hx])))
      (safe_stmts as (a.bind E) (Nat.lt_of_lt_of_le hj hle) ((hc.stmt hj a).sub (by intro x hx; simp [Sts.sets, hx])))
end
end

/-! ## What statements leave alone in the machine -/

section
variable {F : FloatOps} {H : Host} {b : Nat}

/-- `P` keeps the code, the limits, the texts, the functions and the errors. -/
def Kept (P : Rel) : Prop := ∀ l W o l' W', StrWF W → P l W o l' W' → Keep W W'

theorem kept_done : Kept Done := by intro l W o l' W' h hP; cases hP; exact .refl h
theorem kept_stop : Kept Stop := by intro l W o l' W' h hP; cases hP; exact .refl h
theorem kept_break : Kept Break := by intro l W o l' W' h hP; cases hP; exact .refl h
theorem kept_return (v : Value) : Kept (Return v) := by intro l W o l' W' h hP; cases hP; exact .refl h
theorem kept_declare {E : Env} (v : Value) : Kept (Declare E v) := by
  intro l W o l' W' h hP
  cases hP with
  | loc _ => exact .refl h
  | glob _ _ => exact .setStatic h _ _

theorem kept_seq {P Q : Rel} (a : Kept P) (c : Kept Q) : Kept (Seq P Q) := by
  intro l W o l' W' h hP
  cases hP with
  | next x y => have k := a _ _ _ _ _ h x; exact k.trans (c _ _ _ _ _ k.str y)
  | stop x y => exact a _ _ _ _ _ h x

theorem kept_eval {Γ : Bytes → Option Place} {e : Ex} {k : Value → Rel} (a : ∀ v, Kept (k v)) : Kept (Eval F H b Γ e k) := by
  intro l W o l' W' h hP
  cases hP with
  | part => exact .refl h
  | err _ => exact .refl h
  | val x y => have k := (Ev.keep e h x).1; exact k.trans (a _ _ _ _ _ _ k.str y)

theorem kept_test {P Q : Rel} (a : Kept P) (c : Kept Q) (v : Value) : Kept (Test P Q v) := by
  intro l W o l' W' h hP
  cases hP with
  | yes _ _ x => exact a _ _ _ _ _ h x
  | no _ x => exact c _ _ _ _ _ h x

theorem kept_scope {P : Rel} (a : Kept P) : Kept (Scope P) := by
  intro l W o l' W' h hP
  cases hP with
  | done x => exact a _ _ _ _ _ h x
  | leave x _ => exact a _ _ _ _ _ h x

theorem kept_catch {P : Rel} (a : Kept P) : Kept (Catch P) := by
  intro l W o l' W' h hP
  cases hP with
  | brk x => exact a _ _ _ _ _ h x
  | other x _ => exact a _ _ _ _ _ h x

theorem kept_loop {step : Rel → Rel} (a : ∀ X, Kept X → Kept (step X)) : Kept (Loop step) := by
  have key : ∀ n, Kept (rounds step n) := by
    intro n
    induction n with
    | zero => exact kept_stop
    | succ n ih => exact a _ ih
  rintro l W o l' W' h ⟨n, hP⟩
  exact key n _ _ _ _ _ h hP

mutual
theorem kept_stmt : ∀ (S : St) (E : Env), Kept (S.exec F H b E)
  | .expr e, E => kept_eval fun _ => kept_done
  | .decl x e, E => kept_eval kept_declare
  | .decl0 x, E => kept_declare _
  | .block ss, E => kept_scope (kept_stmts ss _)
  | .ifThen c a, E => kept_eval (kept_test (kept_scope (kept_stmt a _)) kept_done)
  | .ifElse c a d, E => kept_eval (kept_test (kept_scope (kept_stmt a _)) (kept_scope (kept_stmt d _)))
  | .while c a, E => kept_catch (kept_loop fun _ hX => kept_eval (kept_test (kept_seq (kept_scope (kept_stmt a _)) hX) kept_done))
  | .doWhile a c, E => kept_catch (kept_loop fun _ hX => kept_seq (kept_scope (kept_stmt a _)) (kept_eval (kept_test hX kept_done)))
  | .for i c n a, E => kept_catch (kept_scope (kept_seq (kept_stmt i _) (kept_loop fun _ hX =>
      kept_eval (kept_test (kept_seq (kept_scope (kept_stmt a _)) (kept_seq (kept_eval fun _ => kept_done) hX)) kept_done))))
  | .brk, E => kept_break
  | .ret e, E => kept_eval kept_return
theorem kept_stmts : ∀ (ss : Sts) (E : Env), Kept (ss.exec F H b E)
  | .nil, E => kept_done
  | .cons a as, E => kept_seq (kept_stmt a E) (kept_stmts as _)
end

theorem kept_body (E : Env) (ss : Sts) : Kept (Body F H b E ss) := kept_seq (kept_stmt _ _) (kept_return _)
end

end Nk.Cc
