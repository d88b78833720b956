import Verif.Lemmas.FuncCall
/-!
# Programs with functions
-/
namespace Nk.Cc
open Nk.Props
variable {F : FloatOps} {H : Host}

/-- A compiled function is called as its source says. -/
theorem FnPost.calls {s s' : CS} {f : Bytes} {ps : List Bytes} {ss : Sts} (h : FnPost F H s s' f ps ss) (hΓ : ∀ x i, ((envOf s).bind f).Γ x ≠ some (.loc i))
    (h1 : ss.sets (cs "_argumentCount") = false) (h2 : ss.sets (cs "_returnPointer") = false) {W : VM} (hw : HasCode W s.write s')
    (hf : ∀ g, s'.vm.functions[s.vm.functions.length]? = some g → W.functions[s.vm.functions.length]? = some g) :
    CallsAs F H W s.vm.functions.length ps (fnEnv ps ((envOf s).bind f).Γ) ss := by
  obtain ⟨first, b1, b2, b3, b4⟩ := h.body
  have sm := h.pre.wf.write
  have sml := h.pre.wf.small
  have key : ∀ l args p vm o l' W', args.length = ps.length → Space W (l.length + ps.length + ss.size + 5) → W.instrs[p]? = some 18 →
      Mach W p (l ++ (.fn s.vm.functions.length :: args ++ [.int (BitVec.ofNat 32 args.length)])) vm →
      Body F H (l.length + 1) (fnEnv ps ((envOf s).bind f).Γ) ss (frame l (.fn s.vm.functions.length) args p) W o l' W' →
      ∃ vm1 K, Runs F H vm vm1 ∧ Fit K W ∧ K.F = F ∧ K.H = H ∧ K.rb = l.length + 1 + ps.length + 2 ∧ Reached K s'.write (ps.length + 3) W vm1 o l' W' := by
    intro l args p vm o l' W' ha hs hp m hx
    obtain ⟨vm1, r1, m1⟩ := m.call (F := F) (H := H) hw.good hp (by rw [ha]; exact hf _ (by rw [b3]; simp)) (first := first) (by omega) hs (by omega)
    let K : Cfg := { F, H, cvm := s'.vm, I := W.instrs, n := l.length + ps.length + ss.size + 5, sc := s'.staticCount, b := l.length + 1, T := 0, hb := l.length + 1,
                     rb := l.length + 1 + ps.length + 2 }
    have fit : Fit K W := ⟨rfl, hw.good, hw.lits, hs, hw.statics⟩
    have x := b4 K rfl rfl (by show 0 < 4294967296; omega) rfl rfl ⟨fun _ h => h, Nat.le_refl _⟩ ⟨fun i h1 h2 _ => hw.code i h1 h2, by simp⟩
      (by show l.length + 1 + _ + _ ≤ l.length + ps.length + ss.size + 5; omega)
    exact ⟨vm1, K, r1, fit, rfl, rfl, rfl, x W _ vm1 o l' W' fit (by rw [(frame_count).2.2, ha]) m1 hx⟩
  refine ⟨?_, ?_, ?_⟩
  · intro l args p vm v l' W' ha hs hp m hx
    have hsm := hs.small
    obtain ⟨vm1, K, r1, fit, kf, kh, krb, k, vm2, r, n, r2, x1, x2, x3⟩ := key _ _ _ _ _ _ _ ha hs hp m hx
    subst kf kh
    obtain ⟨f1, f2, f3⟩ := body_frame hΓ h1 h2 (by unfold UINT_MAX; omega) (by rw [(frame_count).2.2, ha]) hx
    rw [← ha] at f2 f3
    rw [(frame_count).1] at f2
    rw [(frame_count).2.1] at f3
    obtain ⟨args', locals, e1, rfl⟩ := frame_split (fun j hj => (f1 j hj).trans (frame_low hj)) f2 f3
    have g' := k.good hw.good
    obtain ⟨vm3, r3, m3⟩ := x2.ret (F := K.F) (H := K.H) g' x1 (by rw [BitVec.toNat_ofNat, e1]; omega) (by
      rw [krb] at x3; simp at x3; omega) (by have := (hw.good.ip hp).1; unfold UINT_MAX; omega)
    exact ⟨vm3, (r1.trans r2).trans r3, m3⟩
  · intro l args p vm l' W' ha hs hp m hx
    obtain ⟨vm1, K, r1, fit, kf, kh, krb, vm2, r2, x⟩ := key _ _ _ _ _ _ _ ha hs hp m hx
    subst kf kh
    exact ⟨vm2, r1.trans r2, x⟩
  · intro l args p vm l' W' ha hs hp m hx
    obtain ⟨vm1, K, r1, fit, kf, kh, krb, k, vm2, r, r2, x⟩ := key _ _ _ _ _ _ _ ha hs hp m hx
    subst kf kh
    exact ⟨vm2, r, r1.trans r2, x⟩

theorem Extends.refl {s : CS} : Extends s s := ⟨Nat.le_refl _, fun _ _ => rfl, fun _ h => h, Nat.le_refl _, [], by simp⟩

/-- The function `f` of a program, compiled between `s1` and `s2`. -/
structure FnIn (F : FloatOps) (H : Host) (s s' : CS) (E : Env) (k : Nat) (f : Bytes) (ps : List Bytes) (ss : Sts) : Prop where
  ex : ∃ s1 s2, Extends s s1 ∧ FnPost F H s1 s2 f ps ss ∧ Extends s2 s' ∧ envOf s1 = E ∧ s1.vm.functions.length = k

/-- A program has been compiled. -/
structure ProgPost (F : FloatOps) (H : Host) (s s' : CS) (is : List Item) : Prop where
  pre : Pre s'
  grew : Extends s s'
  ctx : ∃ c c', s.ctx = [c] ∧ s'.ctx = [c'] ∧ c'.fnId = UINT_MAX ∧ c.offset ≤ c'.offset ∧ c'.offset ≤ c.offset + Items.size is
  env : envOf s' = Items.bind (envOf s) is ∨ Dead fun b => Items.exec F H b (envOf s) s.vm.functions.length is
  sim : ∀ K, At F H K s → Has K s' → Loaded K.I s.write s'.write s'.vm.instrs [] → K.b + offOf s.ctx + Items.size is ≤ K.n →
    Sim K (Items.exec F H K.b (envOf s) s.vm.functions.length is) s.write s'.write (offOf s.ctx) (offOf s'.ctx)
  fns : ∀ pre f ps ss post, is = pre ++ .fn f ps ss :: post → (¬Dead fun b => Items.exec F H b (envOf s) s.vm.functions.length pre) →
    FnIn F H s s' (Items.bind (envOf s) pre) (s.vm.functions.length + Items.count pre) f ps ss

/-- An item has been compiled. -/
structure ItemPost (F : FloatOps) (H : Host) (s s' : CS) (i : Item) : Prop where
  pre : Pre s'
  grew : Extends s s'
  ctx : ∃ c c', s.ctx = [c] ∧ s'.ctx = [c'] ∧ c'.fnId = UINT_MAX ∧ c.offset ≤ c'.offset ∧ c'.offset ≤ c.offset + i.size
  env : envOf s' = i.bind (envOf s) ∨ Dead fun b => i.exec F H b (envOf s) s.vm.functions.length
  count : s'.vm.functions.length = s.vm.functions.length + i.count
  sim : ∀ K, At F H K s → Has K s' → Loaded K.I s.write s'.write s'.vm.instrs [] → K.b + offOf s.ctx + i.size ≤ K.n →
    Sim K (i.exec F H K.b (envOf s) s.vm.functions.length) s.write s'.write (offOf s.ctx) (offOf s'.ctx)
  fn : ∀ f ps ss, i = .fn f ps ss → FnPost F H s s' f ps ss

theorem item_inv {i : Item} {n d : Nat} {ts rest : List Token} {s s' : CS} {root : CCtx} {r : Bool} (p : Pre s) (hc : s.ctx = [root]) (hr : root.fnId = UINT_MAX)
    (src : ItemSrc F d ts i) (fine : i.Fine) (ho : offOf s.ctx + i.size + 2 < 4294967296) (ht : s.toks = ts ++ rest) (hopen : typeOf rest ≠ .kwElse) (hd : s.depth + d ≤ 257)
    (h : statement F (n + 2) s = .ok (r, s')) (he : s'.vm.errors = []) :
    r = true ∧ s'.toks = rest ∧ s'.depth = s.depth + i.leak ∧ ItemPost F H s s' i := by
  cases src with
  | @st S src =>
    have fine : S.breaks = false := fine
    have ho : offOf s.ctx + S.size + 2 < 4294967296 := ho
    obtain ⟨k1, k2, k3, fx, k4, post⟩ := works (H := H) S (n + 2) d ts rest s s' r p (by omega) src ht (fun _ => hopen) hd h he
    obtain rfl := k4 fine
    refine ⟨k1, k2, k3, post.pre p he, post.grow.grew, ?_, ?_, by rw [post.grow.fns]; rfl, post.sim, fun f ps ss e => by cases e⟩
    · obtain ⟨c, c', cs, a1, a2, a3, a4, a5, a6, a7, a8⟩ := post.ctx
      rw [hc] at a1
      injection a1 with a1 a9
      subst a1 a9
      exact ⟨root, c', hc, a2, a4.trans hr, a6, a7⟩
    · obtain ⟨c, c', cs, a1, a2, a3, a4, a5, a6, a7, a8 | a8⟩ := post.ctx
      · exact .inl a8.2
      · exact .inr a8
  | @fn f ps ss src =>
    have ho : offOf s.ctx + 2 + 2 < 4294967296 := ho
    obtain ⟨k1, k2, k3, post⟩ := fnStmt_inv (H := H) p hc hr src fine.1 (by omega) fine.2 ht hd h he
    obtain ⟨c, c', a1, a2, a3, a4, a5, a6⟩ := post.ctx
    have ec : c = root := by rw [hc] at a1; injection a1 with a1; exact a1.symm
    subst ec
    have o' : offOf s'.ctx = offOf s.ctx := by rw [a1, a2]; exact a6
    obtain ⟨first, b1, b2, b3, b4⟩ := post.body
    refine ⟨k1, k2, k3, post.pre, post.grew, ⟨c, c', a1, a2, a3.trans hr, by omega, by rw [a6]; exact Nat.le_add_right _ _⟩, .inl post.env, by rw [b3]; simp [Item.count], ?_, fun f ps ss e => by cases e; exact post⟩
    rw [o']
    exact post.sim

theorem item_start {d : Nat} {ts : List Token} {i : Item} (h : ItemSrc F d ts i) :
    ∃ t us, ts = t :: us ∧ t.type ≠ .curlyClose ∧ t.type ≠ .invalid ∧ t.type ≠ .kwElse := by
  cases h with
  | st h => exact src_start h
  | fn h =>
    cases h with
    | mk h => exact ⟨_, _, rfl, by rw [h]; decide, by rw [h]; decide, by rw [h]; decide⟩

theorem item_leak {d : Nat} {ts : List Token} {i : Item} (h : ItemSrc F d ts i) : i.leak ≤ d := by
  cases h with
  | st h => exact src_leak h
  | fn h =>
    cases h with
    | mk _ _ _ _ _ _ h _ => have := srcs_leak h; show Sts.leak _ ≤ _; omega

theorem progLoop_inv {n : Nat} : ∀ (is : List Item) {m d : Nat} {ts : List Token} {s s' : CS} {root : CCtx} {r : Bool}, Pre s → s.ctx = [root] → root.fnId = UINT_MAX →
    (∀ i ∈ is, i.Fine) → offOf s.ctx + Items.size is + 2 < 4294967296 → Prog F d ts is → s.toks = ts → s.depth + d ≤ 257 →
    blockLoop (statement F (n + 2)) m s = .ok (r, s') → s'.vm.errors = [] →
    r = true ∧ s'.toks = [] ∧ ProgPost F H s s' is
  | [], m, d, ts, s, s', root, r, p, hc, hr, _, ho, src, ht, hd, h, he => by
    cases src
    cases m with
    | zero => cases h
    | succ m =>
    rw [blockLoop, curType_bind, if_neg (by rw [ht]; decide)] at h
    obtain ⟨rfl, rfl⟩ := pure_inv h
    refine ⟨rfl, ht, p, Extends.refl, ⟨root, root, hc, hc, hr, by omega, by omega⟩, .inl rfl, fun K _ _ _ _ => sim_done, ?_⟩
    intro pre f ps ss post e
    simp at e
  | i :: is, m, d, ts, s, s', root, r, p, hc, hr, fine, ho, src, ht, hd, h, he => by
    cases src with
    | @cons _ ts1 _ us _ s1 s2 =>
    have hlk := item_leak s1
    cases m with
    | zero => cases h
    | succ m =>
    obtain ⟨t, us', e1, e2, e3, e4⟩ := item_start s1
    rw [blockLoop, curType_bind, if_pos (by rw [ht, e1]; exact ⟨e2, e3⟩)] at h
    have mb := @blockLoop_mono
    have ms := statement_mono F (n + 2)
    obtain ⟨r1, sa, h1, h2, ea⟩ := CM.bind_nil h (by intro a; cmono) he
    simp only [Items.size] at ho
    obtain ⟨rfl, t1, d1, post1⟩ := item_inv (H := H) p hc hr s1 (fine i (by simp)) (by omega) ht (by
      cases s2 with
      | nil => decide
      | cons s2 _ =>
        obtain ⟨t, us', e1, e2, e3, e4⟩ := item_start s2
        rw [e1]; exact e4) hd h1 ea
    rw [if_pos rfl] at h2
    obtain ⟨c, c', a1, a2, a3, a4, a5⟩ := post1.ctx
    have oc : offOf s.ctx = c.offset := by rw [a1]; rfl
    have oc' : offOf sa.ctx = c'.offset := by rw [a2]; rfl
    obtain ⟨rfl, t2, post2⟩ := progLoop_inv is post1.pre a2 a3 (fun j hj => fine j (by simp [hj])) (by omega) s2 t1 (by omega) h2 he
    obtain ⟨c2, c3, b1, b2, b3, b4, b5⟩ := post2.ctx
    have ec : c2 = c' := by rw [a2] at b1; injection b1 with b1; exact b1.symm
    subst ec
    refine ⟨rfl, t2, post2.pre, post1.grew.trans post2.grew, ⟨c, c3, a1, b2, b3, by omega, by simp only [Items.size]; omega⟩, ?_, ?_, ?_⟩
    · rcases post1.env with e | dd
      · rcases post2.env with e' | dd'
        · left; rw [e', e]; rfl
        · right
          intro b l W l' W' hx
          cases hx with
          | next x y => exact dd' b _ _ _ _ (by rw [e, post1.count]; exact y)
          | stop x y => exact y rfl
      · right
        intro b l W l' W' hx
        cases hx with
        | next x y => exact dd b _ _ _ _ x
        | stop x y => exact y rfl
    · intro K at' hh hl hn
      simp only [Items.size] at hn
      have y1 := post1.sim K at' (hh.grew post2.grew) (hl.sub (Nat.le_refl _) post2.grew.le (fun i _ hi => post2.grew.below i hi) (by simp) (by simp)) (by omega)
      have at2 : At F H K sa := ⟨at'.f, at'.h, at'.T, by
        have := at'.hb
        have h1 : loopOff s.ctx = loopOff sa.ctx := by
          rw [a1, a2]
          unfold loopOff
          rw [p.head c [] a1, post1.pre.head c2 [] a2]
          rfl
        rw [← h1]; exact this, fun a ha => by rw [a2, fnArgs_root a3] at ha; cases ha⟩
      have y2 := post2.sim K at2 hh (hl.sub post1.grew.le (Nat.le_refl _) (fun i _ hi => rfl) (by simp) (by simp)) (by omega)
      show Sim K (Seq _ _) _ _ _ _
      rcases post1.env with e | dd
      · rw [e, post1.count] at y2
        exact sim_seq y1 y2
      · intro W l vm o l' W' f hl m hP
        cases hP with
        | next x y => exact absurd x (dd _ _ _ _ _)
        | stop x y =>
          have := y1 W l vm o l' W' f hl m x
          cases o with
          | normal => exact absurd rfl y
          | brk => exact this
          | ret v => exact this
          | err => exact this
          | part => exact this
    · intro pre f ps ss post e nd
      cases pre with
      | nil =>
        injection e with e1 e2
        subst e1
        exact ⟨s, sa, Extends.refl, post1.fn f ps ss rfl, post2.grew, rfl, rfl⟩
      | cons j pre =>
        injection e with e1 e2
        subst e1
        rcases post1.env with e | dd
        · have nd' : ¬Dead fun b => Items.exec F H b (envOf sa) sa.vm.functions.length pre := by
            intro dd
            refine nd fun b l W l' W' hx => ?_
            cases hx with
            | next x y => exact dd b _ _ _ _ (by rw [e, post1.count]; exact y)
            | stop x y => exact y rfl
          obtain ⟨sx, sy, z1, z2, z3, z4, z5⟩ := post2.fns pre f ps ss post e2 nd'
          refine ⟨sx, sy, post1.grew.trans z1, z2, z3, by rw [z4, e]; rfl, by rw [z5, post1.count]; simp only [Items.count]; omega⟩
        · refine absurd (fun b l W l' W' hx => ?_) nd
          cases hx with
          | next x y => exact dd b _ _ _ _ x
          | stop x y => exact y rfl

end Nk.Cc
