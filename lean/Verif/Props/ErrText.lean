import Verif.Spec.ErrText
import Verif.Lemmas.CStr
import Verif.Lemmas.Value
/-!
# C71: reading errors
-/
namespace Nk.Props
open Nk.CStr Nk.Spec Nk.ErrText

theorem cstr_ok : ∀ (s r : Bytes), NoNul s → cstr (s ++ 0 :: r) = .ok s
  | [], r, _ => by unfold cstr; rfl
  | c :: s, r, h => by
    have hc := h.cons
    show cstr (c :: (s ++ 0 :: r)) = _
    unfold cstr
    rw [if_neg hc.1, cstr_ok s r hc.2]
    rfl

theorem put_ok : ∀ (s a e : Bytes), s.length < e.length → put (a ++ e) a.length s = .ok (a ++ s ++ 0 :: e.drop (s.length + 1))
  | [], a, e, h => by
    cases e with
    | nil => simp at h
    | cons x e => unfold put; rw [wr_at a e x 0 _ rfl]; simp
  | c :: s, a, e, h => by
    cases e with
    | nil => simp at h
    | cons x e =>
      unfold put
      rw [wr_at a e x c _ rfl, Res.ok_bind]
      have := put_ok s (a ++ [c]) e (by simpa using h)
      simp only [List.append_assoc, List.cons_append, List.nil_append, List.length_append, List.length_cons, List.length_nil] at this
      rw [this]
      simp

theorem natDec_length : ∀ (k n : Nat), n < 10 ^ (k + 1) → (natDec n).length ≤ k + 1
  | 0, n, h => by
    unfold natDec
    rw [if_pos (by simpa using h)]
    simp
  | k + 1, n, h => by
    unfold natDec
    split
    · simp
    · have := natDec_length k (n / 10) (by rw [Nat.pow_succ] at h; omega)
      simp
      exact this

theorem natDec_noNul (n : Nat) : NoNul (natDec n) := fun h => by
  have := natDec_digits n 0 h
  simp [isDigit] at this

theorem _root_.Nk.Spec.NoNul.append {a b : Bytes} (h : NoNul a) (g : NoNul b) : NoNul (a ++ b) := fun m => by
  rcases List.mem_append.mp m with m | m
  · exact h m
  · exact g m

theorem s1 {s : Bytes} (h : s.contains 0 = false) : NoNul s := fun m => by simp_all [List.contains_iff_mem]

theorem report_noNul {f m : Bytes} {n : Nat} (hf : NoNul f) (hm : NoNul m) : NoNul (report f n m) :=
  (((hf.append (s1 (by decide))).append (natDec_noNul n)).append (s1 (by decide))).append hm

theorem report_length {f m : Bytes} {n : Nat} (hn : n < 4294967296) : (report f n m).length ≤ f.length + m.length + 13 := by
  have := natDec_length 9 n (by omega)
  have h1 : (cs ":").length = 1 := by decide
  have h2 : (cs ": ").length = 2 := by decide
  unfold report
  simp only [List.length_append, h1, h2]
  omega

/-- Building the text. -/
theorem errorText_core (hdr : Nat) (junk : Nat → UInt8) {f m : Bytes} {line : Nat} (hf : NoNul f) (hm : NoNul m)
    (hl : line < 4294967296) (h : 28 + m.length + f.length ≤ UINT_MAX - hdr) :
    ∃ b, (do
        let buf ← malloc hdr junk (28 + m.length + f.length)
        let buf ← wr buf 0 0
        put buf 0 (report f line m) : Res Bytes) = .ok b ∧ Holds (some b) (report f line m) ∧ b.length = 28 + m.length + f.length := by
  have hr := report_length (f := f) (m := m) hl
  have hm : malloc hdr junk (28 + m.length + f.length) = .ok (fresh junk (28 + m.length + f.length)) := by
    unfold malloc
    rw [if_neg (by omega)]
  rw [hm, Res.ok_bind]
  have hw : wr (fresh junk (28 + m.length + f.length)) 0 0 = .ok ((fresh junk (28 + m.length + f.length)).set 0 0) := by
    unfold wr
    rw [if_pos (by simp; omega)]
  rw [hw, Res.ok_bind]
  generalize hb : (fresh junk (28 + m.length + f.length)).set 0 0 = buf
  have hlen : buf.length = 28 + m.length + f.length := by rw [← hb]; simp
  have := put_ok (report f line m) [] buf (by omega)
  refine ⟨_, by simpa using this, ⟨report_noNul hf ‹_›, _, rfl⟩, ?_⟩
  simp
  omega

/-- The text of an error, if there is address space for it. -/
theorem errorText_ok (hdr : Nat) (junk : Nat → UInt8) {f m r r' : Bytes} {line : Nat} (hf : NoNul f) (hm : NoNul m)
    (hl : line < 4294967296) (h : 28 + m.length + f.length ≤ UINT_MAX - hdr) :
    ∃ b, errorText hdr junk (f ++ 0 :: r) (m ++ 0 :: r') line = .ok b ∧
      Holds (some b) (report f (if line ≠ UINT_MAX then line else 0) m) ∧ b.length = 28 + m.length + f.length := by
  have hU : UINT_MAX = 4294967295 := rfl
  obtain ⟨b, h1, h2⟩ := errorText_core hdr junk (line := if line ≠ UINT_MAX then line else 0) hf hm (by split <;> omega) h
  refine ⟨b, ?_, h2⟩
  unfold errorText
  rw [strlen_ok m r' hm (by omega), Res.ok_bind, strlen_ok f r hf (by omega), Res.ok_bind]
  dsimp only
  have e1 : u32 (11 + 16 + 1 + m.length) = 28 + m.length := u32_fit (by omega)
  have e2 : u32 (28 + m.length + f.length) = 28 + m.length + f.length := u32_fit (by omega)
  rw [e1, e2, decide_eq_false (by omega), decide_eq_false (by omega)]
  rw [if_neg (by decide), Res.ok_bind]
  rw [← h1]
  dsimp only
  unfold malloc
  rw [if_neg (by omega), Res.ok_bind, Res.ok_bind]
  cases hw : wr (fresh junk (28 + m.length + f.length)) 0 0 with
  | ub k => rfl
  | ok buf =>
    rw [Res.ok_bind, Res.ok_bind, cstr_ok f r hf, Res.ok_bind, cstr_ok m r' hm, Res.ok_bind]
    rfl

/-! ### Reading -/

theorem lines_cons (t : Bytes) (ts : List Bytes) : lines (t :: ts) = t ++ cs "\n" ++ lines ts := rfl
theorem nl : cs "\n" = [10] := by decide

theorem lengthLoop_ok : ∀ (bs : List (Option Bytes)) (ts : List Bytes) (n : Nat), Each bs ts → n + (lines ts).length ≤ UINT_MAX →
    lengthLoop n bs = .ok (n + (lines ts).length)
  | [], [], n, _, _ => rfl
  | [], _ :: _, _, h, _ => h.elim
  | _ :: _, [], _, h, _ => h.elim
  | b :: bs, t :: ts, n, h, hl => by
    obtain ⟨⟨h1, r, rfl⟩, h2⟩ := h
    rw [lines_cons, nl] at hl ⊢
    simp only [List.length_append, List.length_cons, List.length_nil] at hl ⊢
    unfold lengthLoop
    rw [strlen_ok t r h1 (by omega), Res.ok_bind, u32_fit (n := t.length + 1) (by omega), u32_fit (by omega)]
    rw [lengthLoop_ok bs ts _ h2 (by omega)]
    congr 1
    omega

theorem textLoop_ok : ∀ (bs : List (Option Bytes)) (ts : List Bytes) (a e : Bytes), NoNul a → Each bs ts → a.length + (lines ts).length < UINT_MAX →
    (lines ts).length ≤ e.length → textLoop (a ++ 0 :: e) bs = .ok (a ++ lines ts ++ 0 :: e.drop (lines ts).length)
  | [], [], a, e, _, _, _, _ => by simp [textLoop, lines]
  | [], _ :: _, _, _, _, h, _, _ => h.elim
  | _ :: _, [], _, _, _, h, _, _ => h.elim
  | b :: bs, t :: ts, a, e, ha, h, hl, he => by
    obtain ⟨⟨h1, r, rfl⟩, h2⟩ := h
    rw [lines_cons, nl] at hl he ⊢
    simp only [List.length_append, List.length_cons, List.length_nil] at hl he
    unfold textLoop
    rw [strcat_eq a e t r ha h1 (by omega), if_pos (by omega), Res.ok_bind]
    rw [nl]
    have := strcat_eq (a ++ t) (e.drop t.length) [10] [] (ha.append h1) (s1 (by decide)) (by simp; omega)
    rw [if_pos (by simp; omega)] at this
    have e1 : ([10] : Bytes) ++ [0] = [10] ++ 0 :: [] := rfl
    rw [e1, this, Res.ok_bind]
    have h3 := textLoop_ok bs ts (a ++ t ++ [10]) ((e.drop t.length).drop 1) ((ha.append h1).append (s1 (by decide))) h2 (by simp; omega) (by simp; omega)
    rw [show ([10] : Bytes).length = 1 from rfl, h3]
    have e2 : t.length + 1 + (lines ts).length = (t ++ [10] ++ lines ts).length := by simp; omega
    rw [List.drop_drop, List.drop_drop, ← Nat.add_assoc, e2]
    simp only [List.append_assoc]

theorem each_mem : ∀ {bs : List (Option Bytes)} {ts : List Bytes}, Each bs ts → ∀ {b t}, Holds b t → Each (bs ++ [b]) (ts ++ [t])
  | [], [], _, _, _, h => ⟨h, trivial⟩
  | [], _ :: _, h, _, _, _ => h.elim
  | _ :: _, [], h, _, _, _ => h.elim
  | _ :: _, _ :: _, h, _, _, g => ⟨h.1, each_mem h.2 g⟩

theorem found_mem {ms : List Marker} {idx : Nat} {k : Marker} (h : findSourceMarker ms idx = some k) : k ∈ ms := by
  have loop : ∀ (ms : List Marker) (k : Marker), markerLoop idx k ms ∈ k :: ms := by
    intro ms
    induction ms with
    | nil => intro k; simp [markerLoop]
    | cons a as ih =>
      intro k
      unfold markerLoop
      split
      · simp
      · exact List.mem_cons_of_mem _ (ih a)
  unfold findSourceMarker at h
  cases ms with
  | nil => cases h
  | cons a as => cases h; exact loop as a

theorem line_lt {ms : List Marker} {idx line : Nat} (hms : ∀ k ∈ ms, k.line < 4294967296) (hl : line < 4294967296) :
    (if line = UINT_MAX then ((findSourceMarker ms idx).map fun k => k.line).getD UINT_MAX else line) < 4294967296 := by
  split
  · cases hf : findSourceMarker ms idx with
    | none => decide
    | some k => exact hms k (found_mem hf)
  · exact hl

/-! ### The theorems -/

/-- **C71**: an error is recorded behind those there are, with the text `file:line: message`.  File and line are those given, or
else those of the instruction the VM is at, or else `<unknown>` and 0.  (`UINT_MAX` is no line and no file.)  If the text does not fit in
the address space, the call fails like any allocation that does not. -/
theorem C71_add (hdr : Nat) (junk : Nat → UInt8) {files : List Bytes} {ms : List Marker} {idx line file : Nat} {m r : Bytes} {e : State} {ts : List Bytes}
    (hfs : ∀ f ∈ files, NoNul f) (hms : ∀ k ∈ ms, k.line < 4294967296) (hl : line < 4294967296) (hm : NoNul m) (he : Texts e ts) {L N : Nat}
    (hL : L = if line = UINT_MAX then ((findSourceMarker ms idx).map fun k => k.line).getD UINT_MAX else line)
    (hN : N = if file = UINT_MAX then ((findSourceMarker ms idx).map fun k => k.file).getD UINT_MAX else file)
    (hs : 28 + m.length + (nameOf files N).length ≤ UINT_MAX - hdr) :
    ∃ e', addErrorEx hdr junk files ms idx line file (m ++ 0 :: r) e = .ok e' ∧ e'.failed = e.failed ∧
      Texts e' (ts ++ [report (nameOf files N) (if L = UINT_MAX then 0 else L) m]) ∧
      memory e' = memory e + (28 + m.length + (nameOf files N).length) := by
  have hp : position ms idx line file = (L, N) := by
    unfold position
    subst hL hN
    cases hf : findSourceMarker ms idx with
    | none => by_cases h1 : line = UINT_MAX <;> by_cases h2 : file = UINT_MAX <;> simp [h1, h2]
    | some k => by_cases h1 : line = UINT_MAX <;> by_cases h2 : file = UINT_MAX <;> simp [h1, h2]
  have hL' : L < 4294967296 := hL ▸ line_lt hms hl
  have hn : NoNul (nameOf files N) ∧ fileName files N = nameOf files N ++ [0] := by
    unfold nameOf fileName
    cases hf : files[N]? with
    | none => exact ⟨s1 (by decide), rfl⟩
    | some f => exact ⟨hfs f (List.mem_of_getElem? hf), rfl⟩
  obtain ⟨b, h1, h2, h3⟩ := errorText_ok hdr junk (r := []) (r' := r) hn.1 hm hL' hs
  refine ⟨{ e with texts := e.texts ++ [some b] }, ?_, rfl, ?_, ?_⟩
  · unfold addErrorEx
    rw [hp]
    dsimp only
    rw [hn.2, h1, Res.ok_bind]
  · have : (if L = UINT_MAX then 0 else L) = if L ≠ UINT_MAX then L else 0 := by
      by_cases h : L = UINT_MAX
      · rw [if_pos h, if_neg (fun k => k h)]
      · rw [if_neg h, if_pos h]
    rw [this]
    exact each_mem he h2
  · unfold memory
    simp [h3]

/-- **C71**: the length reported is exactly that of all texts, each on a line, with a terminator. -/
theorem C71_length {e : State} {ts : List Bytes} (he : Texts e ts) (hf : e.failed = false) (hl : (lines ts).length < UINT_MAX) :
    ErrText.length e = .ok ((lines ts).length + 1) := by
  unfold ErrText.length
  rw [hf, if_neg (by decide), lengthLoop_ok e.texts ts 1 he (by omega)]
  congr 1
  omega

/-- **C71**: in a buffer of that length, or a longer one, the host gets all texts, first to last, each on a line.  Nothing is written behind
the terminator. -/
theorem C71_text {e : State} {ts : List Bytes} {buffer : Bytes} (he : Texts e ts) (hf : e.failed = false) (hl : (lines ts).length < UINT_MAX)
    (hb : (lines ts).length + 1 ≤ buffer.length) :
    ErrText.text e buffer = .ok (lines ts ++ 0 :: buffer.drop ((lines ts).length + 1)) := by
  cases buffer with
  | nil => simp at hb
  | cons c b =>
    unfold ErrText.text
    rw [show wr (c :: b) 0 0 = .ok (0 :: b) from rfl, Res.ok_bind, hf, if_neg (by decide)]
    have := textLoop_ok e.texts ts [] b (s1 rfl) he (by simpa using hl) (by simpa using hb)
    simpa using this

/-- **C71**: after memory has run out, the host gets one line that says so. -/
theorem C71_failed {e : State} {buffer : Bytes} (hf : e.failed = true) (hb : 21 ≤ buffer.length) :
    ErrText.length e = .ok 21 ∧ ErrText.text e buffer = .ok (cs "Allocation failure.\n" ++ 0 :: buffer.drop 21) := by
  constructor
  · unfold ErrText.length
    rw [hf, if_pos rfl]
    decide
  · cases buffer with
    | nil => simp at hb
    | cons c b =>
      unfold ErrText.text
      rw [show wr (c :: b) 0 0 = .ok (0 :: b) from rfl, Res.ok_bind, hf, if_pos rfl]
      have hb : 20 ≤ b.length := by simpa using hb
      have e1 : failureText = cs "Allocation failure." ++ 0 :: [] := rfl
      have l1 : (cs "Allocation failure.").length = 19 := by decide
      have h1 := strcat_eq [] b (cs "Allocation failure.") [] (s1 rfl) (s1 (by decide)) (by rw [l1]; decide)
      rw [l1, if_pos (by omega)] at h1
      have h2 := strcat_eq (cs "Allocation failure.") (b.drop 19) (cs "\n") [] (s1 (by decide)) (s1 (by decide)) (by rw [l1]; decide)
      rw [if_pos (by rw [nl]; simp; omega)] at h2
      rw [e1]
      have h1 : strcat (0 :: b) (cs "Allocation failure." ++ [0]) = .ok (cs "Allocation failure." ++ 0 :: b.drop 19) := h1
      rw [h1, Res.ok_bind]
      show strcat _ (cs "\n" ++ 0 :: []) = _
      rw [h2, nl]
      simp only [List.length_cons, List.length_nil, List.drop_drop, List.drop_succ_cons]
      rfl

theorem textLoop_short : ∀ (bs : List (Option Bytes)) (ts : List Bytes) (a e : Bytes), NoNul a → Each bs ts → a.length + (lines ts).length < UINT_MAX →
    e.length < (lines ts).length → textLoop (a ++ 0 :: e) bs = .ub .oob
  | [], [], a, e, _, _, _, h => by simp [lines] at h
  | [], _ :: _, _, _, _, h, _, _ => h.elim
  | _ :: _, [], _, _, _, h, _, _ => h.elim
  | b :: bs, t :: ts, a, e, ha, h, hl, he => by
    obtain ⟨⟨h1, r, rfl⟩, h2⟩ := h
    rw [lines_cons, nl] at hl he
    simp only [List.length_append, List.length_cons, List.length_nil] at hl he
    unfold textLoop
    rw [strcat_eq a e t r ha h1 (by omega)]
    by_cases hc : t.length < e.length + 1
    · rw [if_pos hc, Res.ok_bind, nl]
      have := strcat_eq (a ++ t) (e.drop t.length) [10] [] (ha.append h1) (s1 (by decide)) (by simp; omega)
      have e1 : ([10] : Bytes) ++ [0] = [10] ++ 0 :: [] := rfl
      rw [e1, this]
      by_cases hd : t.length < e.length
      · rw [if_pos (by simp; omega), Res.ok_bind]
        exact textLoop_short bs ts (a ++ t ++ [10]) ((e.drop t.length).drop 1) ((ha.append h1).append (s1 (by decide))) h2 (by simp; omega) (by simp; omega)
      · rw [if_neg (by simp; omega)]; rfl
    · rw [if_neg hc]; rfl

/-- **C71**: the length is no more than needed: reading the errors into a shorter buffer writes behind it. -/
theorem C71_tight {e : State} {ts : List Bytes} {buffer : Bytes} (he : Texts e ts) (hf : e.failed = false) (hl : (lines ts).length < UINT_MAX)
    (hb : buffer.length < (lines ts).length + 1) : ErrText.text e buffer = .ub .oob := by
  cases buffer with
  | nil => rfl
  | cons c b =>
    unfold ErrText.text
    rw [show wr (c :: b) 0 0 = .ok (0 :: b) from rfl, Res.ok_bind, hf, if_neg (by decide)]
    exact textLoop_short e.texts ts [] b (s1 rfl) he (by simpa using hl) (by simpa using hb)

/-- **C71**: an error whose text would be too long for the address space is recorded with another one. -/
theorem C71_too_long (hdr : Nat) (junk : Nat → UInt8) {f m r r' : Bytes} {line : Nat} (hf : NoNul f) (hm : NoNul m) (hl : line < 4294967296)
    (h1 : m.length < UINT_MAX) (h2 : f.length < UINT_MAX) (h : UINT_MAX < 28 + m.length + f.length) (hd : hdr < 4294967000) :
    ∃ b, errorText hdr junk (f ++ 0 :: r) (m ++ 0 :: r') line = .ok b ∧
      Holds (some b) (report (cs "<unknown>") (if line ≠ UINT_MAX then line else 0)
        (cs "Unknown error. Address space exhaustion in error reporting. Cannot report error.")) := by
  have hU : UINT_MAX = 4294967295 := rfl
  have n1 : NoNul (cs "<unknown>") := s1 (by decide)
  have n2 : NoNul (cs "Unknown error. Address space exhaustion in error reporting. Cannot report error.") := s1 (by decide)
  have l1 : (cs "<unknown>").length = 9 := by decide
  have l2 : (cs "Unknown error. Address space exhaustion in error reporting. Cannot report error.").length = 80 := by decide
  obtain ⟨b, k1, k2, -⟩ := errorText_core hdr junk (line := if line ≠ UINT_MAX then line else 0) n1 n2 (by split <;> omega) (by rw [l1, l2]; omega)
  refine ⟨b, ?_, k2⟩
  have q1 : strlen unknown = .ok 9 := by have := strlen_ok _ [] n1 (by rw [l1]; decide); rwa [l1] at this
  have q2 : strlen exhausted = .ok 80 := by have := strlen_ok _ [] n2 (by rw [l2]; decide); rwa [l2] at this
  have c1 : cstr unknown = .ok (cs "<unknown>") := cstr_ok _ [] n1
  have c2 : cstr exhausted = .ok (cs "Unknown error. Address space exhaustion in error reporting. Cannot report error.") := cstr_ok _ [] n2
  unfold errorText
  rw [strlen_ok m r' hm h1, Res.ok_bind, strlen_ok f r hf h2, Res.ok_bind]
  dsimp only
  have over : (decide (11 + 16 + 1 > UINT_MAX - m.length) || decide (u32 (11 + 16 + 1 + m.length) > UINT_MAX - f.length)) = true := by
    by_cases c : 28 > UINT_MAX - m.length
    · rw [decide_eq_true (by omega)]; rfl
    · rw [u32_fit (n := 11 + 16 + 1 + m.length) (by omega), decide_eq_true (p := 11 + 16 + 1 + m.length > _) (by omega), Bool.or_true]
  rw [over, if_pos rfl, q1, Res.ok_bind, q2, Res.ok_bind, Res.ok_bind]
  dsimp only
  rw [show u32 (11 + 16 + 1 + 9 + 80) = 28 + 80 + 9 by decide, c1, c2, ← k1, l1, l2]
  cases malloc hdr junk (28 + 80 + 9) with
  | ub k => rfl
  | ok b0 =>
    rw [Res.ok_bind, Res.ok_bind]
    cases wr b0 0 0 with
    | ub k => rfl
    | ok buf =>
      rw [Res.ok_bind, Res.ok_bind, Res.ok_bind, Res.ok_bind]
      rfl

/-- The errors that have been recorded since the VM was created. -/
inductive Recorded (hdr : Nat) (junk : Nat → UInt8) : State → List Bytes → Prop
  | none : Recorded hdr junk .init []
  | add {e e' ts files ms idx line file m r L N} : Recorded hdr junk e ts → (∀ f ∈ files, NoNul f) → (∀ k ∈ ms, k.line < 4294967296) →
      line < 4294967296 → NoNul m →
      (L = if line = UINT_MAX then ((findSourceMarker ms idx).map fun k => k.line).getD UINT_MAX else line) →
      (N = if file = UINT_MAX then ((findSourceMarker ms idx).map fun k => k.file).getD UINT_MAX else file) →
      28 + m.length + (nameOf files N).length ≤ UINT_MAX - hdr →
      addErrorEx hdr junk files ms idx line file (m ++ 0 :: r) e = .ok e' →
      Recorded hdr junk e' (ts ++ [report (nameOf files N) (if L = UINT_MAX then 0 else L) m])

theorem lines_append (a b : List Bytes) : lines (a ++ b) = lines a ++ lines b := by simp [lines]

theorem Recorded.sound {hdr : Nat} {junk : Nat → UInt8} {e : State} {ts : List Bytes} (h : Recorded hdr junk e ts) :
    Texts e ts ∧ e.failed = false ∧ (lines ts).length ≤ memory e := by
  induction h with
  | none => exact ⟨trivial, rfl, Nat.le_refl _⟩
  | @add e e' ts files ms idx line file m r L N h h1 h2 h3 h4 h5 h6 h7 h8 ih =>
    obtain ⟨i1, i2, i3⟩ := ih
    obtain ⟨e'', k1, k2, k3, k4⟩ := C71_add hdr junk (r := r) h1 h2 h3 h4 i1 h5 h6 h7
    rw [h8] at k1
    cases k1
    refine ⟨k3, k2.trans i2, ?_⟩
    have hL : (if L = UINT_MAX then 0 else L) < 4294967296 := by
      have : L < 4294967296 := h5 ▸ line_lt h2 h3
      split <;> omega
    have := report_length (f := nameOf files N) (m := m) hL
    have one : ∀ x : Bytes, (lines [x]).length = x.length + 1 := fun x => by rw [lines_cons, nl]; simp [lines]
    rw [lines_append, k4, List.length_append, one]
    omega

/-- **C71**, together: whatever errors have been recorded, as long as their texts take less than 4 GiB (which all memory of a VM does,
C01), the host gets all of them, first to last, in a buffer of the length it has been told. -/
theorem C71_all {hdr : Nat} {junk : Nat → UInt8} {e : State} {ts : List Bytes} (h : Recorded hdr junk e ts) (hm : memory e < UINT_MAX) :
    ∃ n, ErrText.length e = .ok n ∧ ∀ buffer : Bytes, buffer.length = n → ErrText.text e buffer = .ok (lines ts ++ [0]) := by
  obtain ⟨h1, h2, h3⟩ := h.sound
  refine ⟨_, C71_length h1 h2 (by omega), fun buffer hb => ?_⟩
  rw [C71_text h1 h2 (by omega) (by omega), ← hb, List.drop_length]

/-! ### An example: two errors, one while compiling line 3 of `a.nk` and one while executing line 7 -/

namespace ErrEx

def both : Res State := do
  let e ← ErrText.addErrorEx 48 (fun _ => 170) [cs "a.nk"] [] 0 3 0 (cs "Unexpected token." ++ [0]) .init
  ErrText.addError 48 (fun _ => 170) [cs "a.nk"] [⟨0, 0, 1, 1⟩, ⟨5, 0, 7, 7⟩, ⟨9, 0, 8, 8⟩] 6 (cs "Bad value." ++ [0]) e

example : Res.test both (fun e => ErrText.length e = .ok 46 ∧ ErrText.text e (List.replicate 48 255) =
    .ok (cs "a.nk:3: Unexpected token.\na.nk:7: Bad value.\n" ++ [0, 255, 255])) = true := by decide +kernel

example : ∃ e, Recorded 48 (fun _ => 170) e [report (cs "a.nk") 3 (cs "Unexpected token."), report (cs "a.nk") 7 (cs "Bad value.")] ∧ memory e < UINT_MAX := by
  have hfs : ∀ f ∈ [cs "a.nk"], NoNul f := fun f h => by rw [List.mem_singleton.mp h]; exact s1 (by decide)
  have hms : ∀ k ∈ [(⟨0, 0, 1, 1⟩ : Marker), ⟨5, 0, 7, 7⟩, ⟨9, 0, 8, 8⟩], k.line < 4294967296 := by decide
  obtain ⟨e1, a1, a2, a3, a4⟩ := C71_add 48 (fun _ => 170) (ms := []) (idx := 0) (line := 3) (file := 0) (r := []) hfs (by decide) (by decide)
    (s1 (by decide) : NoNul (cs "Unexpected token.")) (show Texts .init [] from trivial) (L := 3) (N := 0) (by decide) (by decide) (by decide)
  obtain ⟨e2, b1, b2, b3, b4⟩ := C71_add 48 (fun _ => 170) (idx := 6) (line := UINT_MAX) (file := UINT_MAX) (r := []) hfs hms (by decide)
    (s1 (by decide) : NoNul (cs "Bad value.")) a3 (L := 7) (N := 0) (by decide) (by decide) (by decide)
  refine ⟨e2, Recorded.add (L := 7) (N := 0) (Recorded.add (L := 3) (N := 0) .none hfs (by decide) (by decide) (s1 (by decide)) (by decide) (by decide) (by decide) a1)
    hfs hms (by decide) (s1 (by decide)) (by decide) (by decide) (by decide) b1, ?_⟩
  rw [b4, a4]
  decide

end ErrEx
end Nk.Props
