import Verif.Spec.Index
import Verif.Proofs.HashSet
import Mathlib.Data.List.Perm.Basic
import Mathlib.Data.List.Nodup
import Mathlib.Data.List.Count
import Mathlib.Tactic.Tauto

/-! Lemmas about the trees: boxes, leaves, paths, visits. -/

namespace CP
open GoFloat
variable {F : Type} [GoFloat F]

/-! ### Box lemmas -/

theorem BB.merge_comm (a b : BB F) : a.merge b = b.merge a := by
  simp [BB.merge, min_comm, max_comm]

theorem BB.merge_assoc (a b c : BB F) : (a.merge b).merge c = a.merge (b.merge c) := by
  simp [BB.merge, min_assoc, max_assoc]

theorem BB.intersects_comm (a b : BB F) : a.intersects b = b.intersects a := by
  rw [Bool.eq_iff_iff]
  simp only [BB.intersects, Bool.and_eq_true, decide_eq_true_eq]
  tauto

/-- `a` inside `b` (order form of `Contains`). -/
def BB.Le (a b : BB F) : Prop := b.l ≤ a.l ∧ a.r ≤ b.r ∧ b.b ≤ a.b ∧ a.t ≤ b.t

theorem BB.Le.refl (a : BB F) : a.Le a := ⟨le_refl _, le_refl _, le_refl _, le_refl _⟩
theorem BB.Le.trans {a b c : BB F} (h : a.Le b) (k : b.Le c) : a.Le c :=
  ⟨k.1.trans h.1, h.2.1.trans k.2.1, k.2.2.1.trans h.2.2.1, h.2.2.2.trans k.2.2.2⟩
theorem BB.le_merge_left (a b : BB F) : a.Le (a.merge b) :=
  ⟨min_le_left _ _, le_max_left _ _, min_le_left _ _, le_max_left _ _⟩
theorem BB.le_merge_right (a b : BB F) : b.Le (a.merge b) :=
  ⟨min_le_right _ _, le_max_right _ _, min_le_right _ _, le_max_right _ _⟩

theorem BB.contains_iff_le (a b : BB F) : b.contains a = true ↔ a.Le b := by
  simp [BB.contains, BB.Le, and_assoc]

theorem BB.Le.intersects {a b c : BB F} (h : a.Le b) (k : c.intersects a = true) : c.intersects b = true := by
  simp only [BB.intersects, Bool.and_eq_true, decide_eq_true_eq] at *
  obtain ⟨⟨⟨k1, k2⟩, k3⟩, k4⟩ := k
  exact ⟨⟨⟨k1.trans h.2.1, h.1.trans k2⟩, k3.trans h.2.2.2⟩, h.2.2.1.trans k4⟩

/-! ### Trees -/

namespace Tree

/-- Every inner box is the merge of its children's boxes. -/
def WF : Tree F → Prop
  | leaf _ => True
  | node bb a b => bb = a.bb.merge b.bb ∧ a.WF ∧ b.WF

def objs (t : Tree F) : List Obj := t.leaves.map Leaf.obj

theorem ins_bb (t : Tree F) (l : Leaf F) : (t.ins l).bb = t.bb.merge l.bb := by
  cases t with
  | leaf m => exact BB.merge_comm _ _
  | node bb a b => unfold ins; split <;> rfl

theorem ins_WF (t : Tree F) (l : Leaf F) (h : t.WF) : (t.ins l).WF := by
  induction t with
  | leaf m => exact ⟨rfl, trivial, trivial⟩
  | node bb a b iha ihb =>
    obtain ⟨h1, h2, h3⟩ := h
    unfold ins
    split
    · refine ⟨?_, h2, ihb h3⟩
      rw [h1, ins_bb, BB.merge_assoc]
    · refine ⟨?_, iha h2, h3⟩
      rw [h1, ins_bb, BB.merge_assoc, BB.merge_assoc, BB.merge_comm b.bb]

theorem ins_leaves (t : Tree F) (l : Leaf F) : (t.ins l).leaves.Perm (l :: t.leaves) := by
  induction t with
  | leaf m => exact List.Perm.refl _
  | node bb a b iha ihb =>
    unfold ins
    split
    · simp only [leaves]
      exact (ihb.append_left a.leaves).trans List.perm_middle
    · simp only [leaves]
      exact iha.append_right b.leaves

theorem has_iff (t : Tree F) (o : Obj) : t.has o = true ↔ o ∈ t.objs := by
  induction t with
  | leaf m => simp [has, objs, leaves, eq_comm]
  | node bb a b iha ihb =>
    simp only [has, Bool.or_eq_true, iha, ihb, objs, leaves, List.map_append, List.mem_append]

theorem le_bb (t : Tree F) (h : t.WF) : ∀ l ∈ t.leaves, l.bb.Le t.bb := by
  induction t with
  | leaf m => intro l hl; simp [leaves] at hl; subst hl; exact BB.Le.refl _
  | node bb a b iha ihb =>
    obtain ⟨h1, h2, h3⟩ := h
    intro l hl
    simp only [leaves, List.mem_append] at hl
    show l.bb.Le bb
    rw [h1]
    rcases hl with hl | hl
    · exact (iha h2 l hl).trans (BB.le_merge_left _ _)
    · exact (ihb h3 l hl).trans (BB.le_merge_right _ _)

theorem filter_ne_of_not_mem {ls : List (Leaf F)} {o : Obj} (h : o ∉ ls.map Leaf.obj) :
    ls.filter (fun l => !decide (l.obj = o)) = ls := by
  rw [List.filter_eq_self]
  intro l hl
  simp only [Bool.not_eq_true', decide_eq_false_iff_not]
  intro he
  exact h (List.mem_map.mpr ⟨l, hl, he⟩)

theorem rem_spec (t : Tree F) (o : Obj) (hn : t.objs.Nodup) (h : t.WF) :
    leavesOf (t.rem o) = t.leaves.filter (fun l => !decide (l.obj = o)) ∧
    ∀ t', t.rem o = some t' → t'.WF := by
  induction t with
  | leaf m =>
    unfold rem
    split
    · rename_i he; simp [leavesOf, leaves, he]
    · rename_i he; refine ⟨by simp [leavesOf, leaves, he], ?_⟩
      intro t' ht; cases ht; trivial
  | node bb a b iha ihb =>
    obtain ⟨h1, h2, h3⟩ := h
    simp only [objs, leaves, List.map_append, List.nodup_append] at hn
    obtain ⟨na, nb, hd⟩ := hn
    obtain ⟨ia1, ia2⟩ := iha na h2
    obtain ⟨ib1, ib2⟩ := ihb nb h3
    unfold rem
    by_cases ha : a.has o = true
    · have hb : o ∉ b.leaves.map Leaf.obj := by
        intro hb
        exact hd o ((has_iff a o).mp ha) o hb rfl
      rw [if_pos ha]
      cases hr : a.rem o with
      | none =>
        rw [hr] at ia1
        refine ⟨?_, ?_⟩
        · simp only [leavesOf, leaves, List.filter_append, ← ia1, filter_ne_of_not_mem hb]; rfl
        · intro t' ht; cases ht; exact h3
      | some a' =>
        rw [hr] at ia1
        refine ⟨?_, ?_⟩
        · simp only [leavesOf, leaves, List.filter_append, ← ia1, filter_ne_of_not_mem hb]
        · intro t' ht; cases ht; exact ⟨rfl, ia2 a' hr, h3⟩
    · have ha' : o ∉ a.leaves.map Leaf.obj := fun hc => ha ((has_iff a o).mpr hc)
      rw [if_neg ha]
      by_cases hb : b.has o = true
      · rw [if_pos hb]
        cases hr : b.rem o with
        | none =>
          rw [hr] at ib1
          refine ⟨?_, ?_⟩
          · simp only [leavesOf, leaves, List.filter_append, ← ib1, filter_ne_of_not_mem ha']
            simp [leavesOf]
          · intro t' ht; cases ht; exact h2
        | some b' =>
          rw [hr] at ib1
          refine ⟨?_, ?_⟩
          · simp only [leavesOf, leaves, List.filter_append, ← ib1, filter_ne_of_not_mem ha']
          · intro t' ht; cases ht; exact ⟨rfl, h2, ib2 b' hr⟩
      · have hb' : o ∉ b.leaves.map Leaf.obj := fun hc => hb ((has_iff b o).mpr hc)
        rw [if_neg hb]
        refine ⟨?_, ?_⟩
        · simp only [leavesOf, leaves, List.filter_append, filter_ne_of_not_mem ha',
            filter_ne_of_not_mem hb']
        · intro t' ht; cases ht; exact ⟨h1, h2, h3⟩

theorem query_eq (t : Tree F) (h : t.WF) (q : BB F) :
    t.query q = (t.leaves.filter (fun l => l.bb.intersects q)).map Leaf.obj := by
  induction t with
  | leaf m => unfold query; by_cases hh : m.bb.intersects q = true <;> simp [leaves, hh]
  | node bb a b iha ihb =>
    have hwf := h
    obtain ⟨h1, h2, h3⟩ := h
    unfold query
    simp only [leaves, List.filter_append, List.map_append, ← iha h2, ← ihb h3]
    split
    · rfl
    · rename_i hh
      have : ∀ l ∈ (node bb a b).leaves, l.bb.intersects q = false := by
        intro l hl
        by_contra hc
        apply hh
        rw [BB.intersects_comm]
        apply ((node bb a b).le_bb hwf l hl).intersects
        rw [BB.intersects_comm]
        simpa using hc
      rw [iha h2, ihb h3, ← List.map_append, ← List.filter_append]
      symm
      rw [List.map_eq_nil_iff, List.filter_eq_nil_iff]
      intro l hl
      rw [this l hl]; simp

end Tree

/-! ### Visits -/

/-- One visited leaf with its side. -/
def vis (l : Leaf F) (m : Mark) (v : Bool × Leaf F) : Mark :=
  if l.bb.intersects v.2.bb then visit l v.1 m v.2 else m

theorem foldl_vis_skip (l : Leaf F) (V : List (Bool × Leaf F)) (m : Mark)
    (h : ∀ v ∈ V, l.bb.intersects v.2.bb = false) : V.foldl (vis l) m = m := by
  induction V generalizing m with
  | nil => rfl
  | cons v V ih =>
    simp only [List.foldl_cons]
    have : vis l m v = m := by unfold vis; rw [h v (by simp)]; simp
    rw [this]
    exact ih m (fun w hw => h w (by simp [hw]))

theorem markLeafQuery_eq (l : Leaf F) (left : Bool) (t : Tree F) (h : t.WF) (m : Mark) :
    markLeafQuery l left t m = (t.leaves.map (fun s => (left, s))).foldl (vis l) m := by
  induction t generalizing m with
  | leaf s => rfl
  | node bb a b iha ihb =>
    have hwf := h
    obtain ⟨h1, h2, h3⟩ := h
    unfold markLeafQuery
    split
    · simp only [Tree.leaves, List.map_append, List.foldl_append]
      rw [iha h2, ihb h3]
    · rename_i hh
      rw [foldl_vis_skip]
      intro v hv
      obtain ⟨s, hs, rfl⟩ := List.mem_map.mp hv
      by_contra hc
      apply hh
      exact ((Tree.node bb a b).le_bb hwf s hs).intersects (by simpa using hc)

/-- The leaves visited for a path and a static tree. -/
def visits (stat : Option (Tree F)) (path : Path F) : List (Bool × Leaf F) :=
  (leavesOf stat).map (fun s => (false, s)) ++
    path.flatMap (fun s => s.2.leaves.map (fun x => (s.1, x)))

def WFo (t : Option (Tree F)) : Prop := ∀ t', t = some t' → t'.WF
def WFp (p : Path F) : Prop := ∀ s ∈ p, s.2.WF

theorem markLeafQueryRoot_eq (l : Leaf F) (left : Bool) (t : Option (Tree F)) (h : WFo t) (m : Mark) :
    markLeafQueryRoot l left t m = ((leavesOf t).map (fun s => (left, s))).foldl (vis l) m := by
  cases t with
  | none => rfl
  | some t => exact markLeafQuery_eq l left t (h t rfl) m

theorem markLeaf_cur (stamp : Nat) (stat : Option (Tree F)) (f : PairFn) (l : Leaf F) (path : Path F) (m : Mark)
    (hs : WFo stat) (hp : WFp path) (hc : l.stamp = stamp) :
    markLeaf stamp stat f l path m = (visits stat path).foldl (vis l) m := by
  unfold markLeaf
  rw [if_pos hc, markLeafQueryRoot_eq l false stat hs]
  unfold visits
  rw [List.foldl_append]
  generalize ((leavesOf stat).map (fun s => (false, s))).foldl (vis l) m = m
  induction path generalizing m with
  | nil => rfl
  | cons s path ih =>
    simp only [List.foldl_cons, List.flatMap_cons, List.foldl_append]
    rw [markLeafQuery_eq l s.1 s.2 (hp s (by simp))]
    exact ih (fun x hx => hp x (by simp [hx])) _

/-! ### Paths -/

def pathR (p : Path F) : List (Leaf F) := p.flatMap (fun s => if s.1 then s.2.leaves else [])
def pathL (p : Path F) : List (Leaf F) := p.flatMap (fun s => if s.1 then [] else s.2.leaves)

theorem visits_perm (stat : Option (Tree F)) (p : Path F) :
    (visits stat p).Perm ((leavesOf stat).map (fun s => (false, s)) ++
      ((pathR p).map (fun s => (true, s)) ++ (pathL p).map (fun s => (false, s)))) := by
  unfold visits
  apply List.Perm.append_left
  induction p with
  | nil => exact List.Perm.refl _
  | cons s p ih =>
    obtain ⟨b, t⟩ := s
    cases b with
    | true =>
      simp only [List.flatMap_cons, pathR, pathL, if_true, List.nil_append, List.map_append,
        List.append_assoc]
      exact ih.append_left _
    | false =>
      simp only [List.flatMap_cons, pathR, pathL, if_true, List.nil_append, List.map_append, if_false,
        Bool.false_eq_true]
      refine (ih.append_left _).trans ?_
      simp only [pathR, pathL, ← List.append_assoc]
      exact (List.perm_append_comm).append_right _

theorem path_spec (t : Tree F) (o : Obj) (p : Path F) (ho : o ∈ t.objs) (h : t.WF) (hp : WFp p) :
    ∃ l q, t.path o p = some (l, q) ∧ l.obj = o ∧ WFp q ∧ ∃ A B, t.leaves = A ++ l :: B ∧
      (pathR q).Perm (B ++ pathR p) ∧ (pathL q).Perm (A ++ pathL p) := by
  induction t generalizing p with
  | leaf m =>
    simp only [Tree.objs, Tree.leaves, List.map_cons, List.map_nil, List.mem_singleton] at ho
    exact ⟨m, p, by simp [Tree.path, ho], ho.symm, hp, [], [], rfl, List.Perm.refl _, List.Perm.refl _⟩
  | node bb a b iha ihb =>
    obtain ⟨h1, h2, h3⟩ := h
    unfold Tree.path
    by_cases ha : a.has o = true
    · rw [if_pos ha]
      obtain ⟨l, q, e, hl, hq, A, B, e1, r1, r2⟩ := iha ((true, b) :: p) ((Tree.has_iff a o).mp ha) h2
        (by intro s hs; rcases List.mem_cons.mp hs with rfl | hs; exact h3; exact hp s hs)
      refine ⟨l, q, e, hl, hq, A, B ++ b.leaves, ?_, ?_, ?_⟩
      · simp [Tree.leaves, e1]
      · simpa [pathR] using r1
      · simpa [pathL] using r2
    · rw [if_neg ha]
      have hb : o ∈ b.objs := by
        simp only [Tree.objs, Tree.leaves, List.map_append, List.mem_append] at ho
        rcases ho with ho | ho
        · exact absurd ((Tree.has_iff a o).mpr ho) ha
        · exact ho
      obtain ⟨l, q, e, hl, hq, A, B, e1, r1, r2⟩ := ihb ((false, a) :: p) hb h3
        (by intro s hs; rcases List.mem_cons.mp hs with rfl | hs; exact h2; exact hp s hs)
      refine ⟨l, q, e, hl, hq, a.leaves ++ A, B, ?_, ?_, ?_⟩
      · simp [Tree.leaves, e1]
      · simpa [pathR] using r1
      · have : (pathL ((false, a) :: p)) = a.leaves ++ pathL p := by simp [pathL]
        rw [this] at r2
        refine r2.trans ?_
        rw [← List.append_assoc]
        exact (List.perm_append_comm).append_right _

theorem path_none (t : Tree F) (o : Obj) (p : Path F) (ho : o ∉ t.objs) : t.path o p = none := by
  induction t generalizing p with
  | leaf m =>
    simp only [Tree.objs, Tree.leaves, List.map_cons, List.map_nil, List.mem_singleton] at ho
    unfold Tree.path
    rw [if_neg (fun h => ho h.symm)]
  | node bb a b iha ihb =>
    simp only [Tree.objs, Tree.leaves, List.map_append, List.mem_append, not_or] at ho
    unfold Tree.path
    split
    · exact iha _ ho.1
    · exact ihb _ ho.2

/-- All leaves with their paths, from left to right. -/
def ctxs : Tree F → Path F → List (Leaf F × Path F)
  | .leaf l, p => [(l, p)]
  | .node _ a b, p => ctxs a ((true, b) :: p) ++ ctxs b ((false, a) :: p)

theorem markSubtree_eq (stamp : Nat) (stat : Option (Tree F)) (f : PairFn) (t : Tree F) (p : Path F) (m : Mark) :
    markSubtree stamp stat f t p m =
      (ctxs t p).foldl (fun m c => markLeaf stamp stat f c.1 c.2 m) m := by
  induction t generalizing p m with
  | leaf l => rfl
  | node bb a b iha ihb =>
    simp only [markSubtree, ctxs, List.foldl_append]
    rw [iha, ihb]

theorem ctxs_fst (t : Tree F) (p : Path F) : (ctxs t p).map Prod.fst = t.leaves := by
  induction t generalizing p with
  | leaf l => rfl
  | node bb a b iha ihb => simp [ctxs, Tree.leaves, iha, ihb]

theorem ctxs_wf (t : Tree F) (p : Path F) (h : t.WF) (hp : WFp p) : ∀ c ∈ ctxs t p, WFp c.2 := by
  induction t generalizing p with
  | leaf l => intro c hc; simp [ctxs] at hc; subst hc; exact hp
  | node bb a b iha ihb =>
    obtain ⟨h1, h2, h3⟩ := h
    intro c hc
    simp only [ctxs, List.mem_append] at hc
    rcases hc with hc | hc
    · exact iha _ h2 (by intro s hs; rcases List.mem_cons.mp hs with rfl | hs; exact h3; exact hp s hs) c hc
    · exact ihb _ h3 (by intro s hs; rcases List.mem_cons.mp hs with rfl | hs; exact h2; exact hp s hs) c hc

theorem ctxs_split (t : Tree F) (p : Path F) (A B : List (Leaf F × Path F)) (l : Leaf F) (q : Path F)
    (h : ctxs t p = A ++ (l, q) :: B) :
    (pathR q).Perm (B.map Prod.fst ++ pathR p) ∧ (pathL q).Perm (A.map Prod.fst ++ pathL p) := by
  induction t generalizing p A B with
  | leaf m =>
    simp only [ctxs] at h
    cases A with
    | nil => simp at h; obtain ⟨⟨_, rfl⟩, rfl⟩ := h; simp
    | cons x A => simp at h
  | node bb a b iha ihb =>
    simp only [ctxs] at h
    rw [List.append_eq_append_iff] at h
    rcases h with ⟨D, h1, h2⟩ | ⟨D, h1, h2⟩
    · -- A = ctxs a ++ D, ctxs b = D ++ (l,q) :: B
      obtain ⟨r1, r2⟩ := ihb _ D B h2
      refine ⟨by simpa [pathR] using r1, ?_⟩
      rw [h1, List.map_append, ctxs_fst]
      have : (pathL ((false, a) :: p)) = a.leaves ++ pathL p := by simp [pathL]
      rw [this] at r2
      refine r2.trans ?_
      rw [← List.append_assoc]
      exact (List.perm_append_comm).append_right _
    · -- ctxs a = A ++ D, (l,q)::B = D ++ ctxs b
      cases D with
      | nil =>
        simp only [List.nil_append, List.append_nil] at h1 h2
        obtain ⟨r1, r2⟩ := ihb ((false, a) :: p) [] B (by simp [h2])
        refine ⟨by simpa [pathR] using r1, ?_⟩
        rw [← h1, ctxs_fst]
        have : (pathL ((false, a) :: p)) = a.leaves ++ pathL p := by simp [pathL]
        rw [this] at r2
        simpa using r2
      | cons x D =>
        simp only [List.cons_append, List.cons.injEq] at h2
        obtain ⟨rfl, rfl⟩ := h2
        obtain ⟨r1, r2⟩ := iha ((true, b) :: p) A D h1
        refine ⟨?_, by simpa [pathL] using r2⟩
        rw [List.map_append, ctxs_fst]
        simpa [pathR] using r1

/-! ### Counting -/

/-- Number of pairs from `x` to `y`. -/
def cntP (ps : List Pair) (x y : Obj) : Nat := ps.countP (fun p => decide (p.a = x) && decide (p.b = y))

theorem foldl_vis_cntP (l : Leaf F) (V : List (Bool × Leaf F)) (m : Mark) (x y : Obj) :
    cntP (V.foldl (vis l) m).pairs x y = cntP m.pairs x y +
      V.countP (fun v => l.bb.intersects v.2.bb &&
        ((v.1 && decide (l.obj = x) && decide (v.2.obj = y)) ||
         (!v.1 && decide (v.2.stamp < l.stamp) && decide (v.2.obj = x) && decide (l.obj = y)))) := by
  induction V generalizing m with
  | nil => simp
  | cons v V ih =>
    rw [List.foldl_cons, ih, List.countP_cons]
    obtain ⟨b, s⟩ := v
    have : cntP (vis l m (b, s)).pairs x y = cntP m.pairs x y +
        (if (l.bb.intersects s.bb &&
        ((b && decide (l.obj = x) && decide (s.obj = y)) ||
         (!b && decide (s.stamp < l.stamp) && decide (s.obj = x) && decide (l.obj = y)))) = true then 1 else 0) := by
      unfold vis
      by_cases hi : l.bb.intersects s.bb = true
      · rw [if_pos hi]
        unfold visit
        cases b with
        | true =>
          simp only [if_true, Mark.pairInsert, cntP, List.countP_cons, hi]
          simp
        | false =>
          by_cases hst : s.stamp < l.stamp
          · simp [Mark.pairInsert, Mark.call, cntP, List.countP_cons, hi, hst]
          · simp [Mark.call, hi, hst]
      · simp [hi]
    rw [this]
    simp only
    omega

theorem foldl_vis_cntL (l : Leaf F) (V : List (Bool × Leaf F)) (m : Mark) (x y : Obj) :
    cntL (V.foldl (vis l) m).log x y = cntL m.log x y +
      V.countP (fun v => l.bb.intersects v.2.bb &&
        (!v.1 && decide (l.obj = x) && decide (v.2.obj = y))) := by
  induction V generalizing m with
  | nil => simp
  | cons v V ih =>
    rw [List.foldl_cons, ih, List.countP_cons]
    obtain ⟨b, s⟩ := v
    have : cntL (vis l m (b, s)).log x y = cntL m.log x y +
        (if (l.bb.intersects s.bb &&
        (!b && decide (l.obj = x) && decide (s.obj = y))) = true then 1 else 0) := by
      unfold vis
      by_cases hi : l.bb.intersects s.bb = true
      · rw [if_pos hi]
        unfold visit
        cases b with
        | true => simp [Mark.pairInsert]
        | false =>
          by_cases hst : s.stamp < l.stamp
          · simp [Mark.pairInsert, Mark.call, cntL, List.countP_append, List.countP_cons, hi, hst]
          · simp [Mark.call, cntL, List.countP_append, List.countP_cons, hi, hst]
      · simp [hi]
    rw [this]
    simp only
    omega

theorem countP_obj_zero (Ls : List (Leaf F)) (y : Obj) (Q : Leaf F → Bool) (h : y ∉ Ls.map Leaf.obj) :
    Ls.countP (fun s => decide (s.obj = y) && Q s) = 0 := by
  rw [List.countP_eq_zero]
  intro s hs hc
  simp only [Bool.and_eq_true, decide_eq_true_eq] at hc
  exact h (List.mem_map.mpr ⟨s, hs, hc.1⟩)

theorem countP_obj (Ls : List (Leaf F)) (s : Leaf F) (Q : Leaf F → Bool) (hn : (Ls.map Leaf.obj).Nodup)
    (hs : s ∈ Ls) : Ls.countP (fun t => decide (t.obj = s.obj) && Q t) = if Q s = true then 1 else 0 := by
  obtain ⟨A, B, rfl⟩ := List.append_of_mem hs
  simp only [List.map_append, List.map_cons, List.nodup_append, List.nodup_cons] at hn
  obtain ⟨h1, ⟨h2, h3⟩, h4⟩ := hn
  rw [List.countP_append, List.countP_cons, countP_obj_zero A s.obj Q, countP_obj_zero B s.obj Q h2]
  · simp
  · intro hc
    exact h4 _ hc s.obj (by simp) rfl

/-- Splitting a count over the visits of a leaf. -/
theorem countP_visits (S R L : List (Leaf F)) (V : List (Bool × Leaf F)) (P : Bool × Leaf F → Bool)
    (h : V.Perm (S.map (fun s => (false, s)) ++ (R.map (fun s => (true, s)) ++ L.map (fun s => (false, s))))) :
    V.countP P = S.countP (fun s => P (false, s)) + (R.countP (fun s => P (true, s)) +
      L.countP (fun s => P (false, s))) := by
  rw [h.countP_eq, List.countP_append, List.countP_append, List.countP_map, List.countP_map, List.countP_map]
  rfl

end CP
