import Verif.Spec.Float
import Verif.Proofs.BBTree6
import Verif.Props.Geometry

/-!
# C06-C09: the bounding-box tree indexes

All theorems except the ray-cast corollaries hold for every `GoFloat F`: whatever the arithmetic behind the insertion
cost and the fattening of boxes does, only the order matters. `Hist h s w` (in `Verif.Spec.Index`) says that `w`
is reached from the empty indexes by some legal history of calls and motions and that `s : Spec` is what the
specification `Spec.step` says about that history: which shape is in which index and under which box.
-/

namespace CP
open GoFloat
variable {F : Type} [GoFloat F]

/-! ### C06 -/

/-- **C06**: after any history, `Query(q)` calls its function exactly once for every shape of the index whose indexed
box intersects `q` and never for another one. -/
theorem C06_query (h : Obj → Nat) (s : Spec F) (w : World F) (hh : Hist h s w) (st : Bool) (q : BB F) (o : Obj) :
    (queryRoot (w.tree st) q).count o =
      match s.idx st o with
      | some B => if B.intersects q then 1 else 0
      | none => 0 := by
  have r := hist_ref h s w hh
  have hwf : WFo (w.tree st) := by cases st; exact r.inv.mid.wd; exact r.inv.mid.ws
  have hnd : ((leavesOf (w.tree st)).map Leaf.obj).Nodup := by
    have := r.inv.mid.nodup
    rw [List.map_append, List.nodup_append] at this
    cases st; exact this.2.1; exact this.1
  have hq : queryRoot (w.tree st) q =
      ((leavesOf (w.tree st)).filter (fun l => l.bb.intersects q)).map Leaf.obj := by
    cases ht : w.tree st with
    | none => rfl
    | some t => exact t.query_eq (hwf t ht) q
  have hcount : (queryRoot (w.tree st) q).count o =
      (leavesOf (w.tree st)).countP (fun l => decide (l.obj = o) && l.bb.intersects q) := by
    rw [hq, List.count, List.countP_map, List.countP_filter]
    congr 1
  rw [hcount, r.idx st o]
  cases hb : bbOf (leavesOf (w.tree st)) o with
  | none => exact countP_obj_zero _ _ _ (bbOf_none.mp hb)
  | some B =>
    obtain ⟨l, hl, rfl, rfl⟩ := (bbOf_some hnd).mp hb
    exact countP_obj _ l (fun x => x.bb.intersects q) hnd hl

/-- **C06**, consequence: a shape whose current box is inside its indexed box and intersects `q` is never missed. -/
theorem C06_no_miss (h : Obj → Nat) (s : Spec F) (w : World F) (hh : Hist h s w) (st : Bool) (q : BB F) (o : Obj)
    (B : BB F) (hB : s.idx st o = some B) (hin : B.contains (s.box o) = true)
    (hq : (s.box o).intersects q = true) : o ∈ queryRoot (w.tree st) q := by
  have hc := C06_query h s w hh st q o
  rw [hB] at hc
  have : B.intersects q = true := by
    rw [BB.intersects_comm]
    exact ((BB.contains_iff_le _ _).mp hin).intersects (by rw [BB.intersects_comm]; exact hq)
  simp only [this, if_true] at hc
  rw [← List.count_pos_iff, hc]
  exact Nat.one_pos

/-! ### C07 -/

/-- **C07**: `Contains` is membership in the abstract index and never panics. -/
theorem C07_contains (h : Obj → Nat) (s : Spec F) (w : World F) (hh : Hist h s w) (st : Bool) (o : Obj) :
    w.contains h st o = some (s.idx st o).isSome := by
  have r := hist_ref h s w hh
  have hs := setOK_of_ref r st
  unfold World.contains
  rw [hs.find o, r.idx st o]
  by_cases ho : o ∈ (leavesOf (w.tree st)).map Leaf.obj
  · have : bbOf (leavesOf (w.tree st)) o ≠ none := fun hc => bbOf_none.mp hc ho
    rw [if_pos ho]
    simp [Option.isSome_iff_ne_none.mpr this]
  · rw [if_neg ho, bbOf_none.mpr ho]; rfl

/-- **C07**: `Each` visits exactly the shapes of the index, each once, and `Count` is their number. -/
theorem C07_each (h : Obj → Nat) (s : Spec F) (w : World F) (hh : Hist h s w) (st : Bool) :
    (w.each st).Nodup ∧ (∀ o, o ∈ w.each st ↔ s.idx st o ≠ none) ∧ w.count st = (w.each st).length := by
  have r := hist_ref h s w hh
  have hs := setOK_of_ref r st
  have hnd : ((leavesOf (w.tree st)).map Leaf.obj).Nodup := by
    have := r.inv.mid.nodup
    rw [List.map_append, List.nodup_append] at this
    cases st; exact this.2.1; exact this.1
  refine ⟨hs.perm.nodup_iff.mpr hnd, ?_, ?_⟩
  · intro o
    have : o ∈ w.each st ↔ o ∈ (leavesOf (w.tree st)).map Leaf.obj := hs.perm.mem_iff
    rw [this, r.idx st o, ne_eq, bbOf_none, not_not]
  · rw [count_eq r, World.each, hs.perm.length_eq, List.length_map]

/-- **C07**: the leaves of the tree are exactly the shapes of the index, each once, with their indexed boxes. -/
theorem C07_leaves (h : Obj → Nat) (s : Spec F) (w : World F) (hh : Hist h s w) (st : Bool) :
    ((leavesOf (w.tree st)).map Leaf.obj).Nodup ∧
    ∀ o B, s.idx st o = some B ↔ ∃ l ∈ leavesOf (w.tree st), l.obj = o ∧ l.bb = B := by
  have r := hist_ref h s w hh
  have hnd : ((leavesOf (w.tree st)).map Leaf.obj).Nodup := by
    have := r.inv.mid.nodup
    rw [List.map_append, List.nodup_append] at this
    cases st; exact this.2.1; exact this.1
  refine ⟨hnd, ?_⟩
  intro o B
  rw [r.idx st o, bbOf_some hnd]

/-- **C07**: no legal call panics, except inserting when the index already holds 1610612740 shapes, which always does. -/
theorem C07_no_panic (h : Obj → Nat) (s : Spec F) (w : World F) (hh : Hist h s w) (op : WOp F) (hok : s.ok op) :
    w.step h op = none ↔ ∃ st o, op = .insert st o ∧ w.count st = 1610612740 := by
  have r := hist_ref h s w hh
  constructor
  · intro hn
    by_contra hc
    push Not at hc
    obtain ⟨w', e, _⟩ := step_ref h w s r op hok hc
    rw [hn] at e; cases e
  · rintro ⟨st, o, rfl, hc⟩
    exact insert_full h w s r st o hok hc

/-! ### C08 -/

/-- **C08**: `ReindexQuery` never panics; it calls its function for two different shapes of the indexes, not both
static, exactly once if their indexed boxes (after the call) intersect and never otherwise, and for nothing else. -/
theorem C08_reindexQuery (h : Obj → Nat) (s : Spec F) (w : World F) (hh : Hist h s w) (f : PairFn) :
    ∃ w' log, w.reindexQuery f = some (w', log) ∧ Hist h (s.step (.reindexQuery f)) w' ∧
      Reports (s.step (.reindexQuery f)) log := by
  have r := hist_ref h s w hh
  obtain ⟨w', log, e, r', hr⟩ := reindexQuery_ref h w s r f
  exact ⟨w', log, e, Hist.step s w w' _ hh trivial (by simp [World.step, e]), hr⟩

theorem fatBB_contains [FloatLaws F] (bb : BB F) (v : Vec F) (hp : bb.Proper) :
    (fatBB bb v).contains bb = true := by
  have h10 : (0 : F) ≤ lit (1 / 10) := FloatLaws.lit_nonneg _ (by norm_num)
  have hx : (0 : F) ≤ (bb.r - bb.l) * lit (1 / 10) := FloatLaws.mul_nonneg _ _ (FloatLaws.sub_nonneg _ _ hp.1) h10
  have hy : (0 : F) ≤ (bb.t - bb.b) * lit (1 / 10) := FloatLaws.mul_nonneg _ _ (FloatLaws.sub_nonneg _ _ hp.2) h10
  rw [BB.contains_iff_le]
  refine ⟨?_, ?_, ?_, ?_⟩
  · exact FloatLaws.add_le _ _ ((min_le_left _ _).trans (FloatLaws.neg_nonpos _ hx))
  · exact FloatLaws.le_add _ _ (hx.trans (le_max_left _ _))
  · exact FloatLaws.add_le _ _ ((min_le_left _ _).trans (FloatLaws.neg_nonpos _ hy))
  · exact FloatLaws.le_add _ _ (hy.trans (le_max_left _ _))

/-- After `ReindexQuery` every dynamic shape with a proper box is inside its indexed box. -/
theorem C08_fits [FloatLaws F] (s : Spec F) (f : PairFn) (o : Obj) (B : BB F) (hp : (s.box o).Proper)
    (hB : (s.step (.reindexQuery f)).idx false o = some B) : B.contains (s.box o) = true := by
  simp only [Spec.step, if_true, Spec.refit] at hB
  cases hi : s.idx false o with
  | none => rw [hi] at hB; cases hB
  | some B0 =>
    rw [hi] at hB
    simp only [Option.map_some, Option.some.injEq] at hB
    split at hB
    · rename_i hc; rw [← hB]; exact hc
    · rw [← hB]
      simp only [Spec.fresh, Bool.false_eq_true, if_false]
      exact fatBB_contains _ _ hp

/-- **C08**, user level: in one `ReindexQuery` (one step), two different shapes of which one is dynamic, whose current
boxes overlap, get exactly one collision check. For a static shape the box must still be inside the indexed one (it is
after `Insert` or `ReindexObject` until the shape moves). -/
theorem C08_overlap_once [FloatLaws F] (h : Obj → Nat) (s : Spec F) (w : World F) (hh : Hist h s w) (f : PairFn)
    (st : Bool) (x y : Obj) (hxy : x ≠ y) (hx : s.idx st x ≠ none) (hy : s.idx false y ≠ none)
    (px : (s.box x).Proper) (py : (s.box y).Proper)
    (hstat : st = true → ∀ B, s.idx true x = some B → B.contains (s.box x) = true)
    (hov : (s.box x).intersects (s.box y) = true) :
    ∃ w' log, w.reindexQuery f = some (w', log) ∧ cntL log x y + cntL log y x = 1 := by
  obtain ⟨w', log, e, _, hr⟩ := C08_reindexQuery h s w hh f
  refine ⟨w', log, e, ?_⟩
  have hY : ∃ Y, (s.step (.reindexQuery f)).idx false y = some Y := by
    obtain ⟨B, hB⟩ := Option.ne_none_iff_exists'.mp hy
    exact ⟨_, by simp only [Spec.step, if_true, Spec.refit, hB, Option.map_some]; rfl⟩
  obtain ⟨Y, hY⟩ := hY
  have cy := C08_fits s f y Y py hY
  have hX : ∃ X, (s.step (.reindexQuery f)).idx st x = some X ∧ X.contains (s.box x) = true := by
    obtain ⟨B, hB⟩ := Option.ne_none_iff_exists'.mp hx
    cases st with
    | true => exact ⟨B, by simpa [Spec.step] using hB, hstat rfl B hB⟩
    | false =>
      have : ∃ X, (s.step (.reindexQuery f)).idx false x = some X :=
        ⟨_, by simp only [Spec.step, if_true, Spec.refit, hB, Option.map_some]; rfl⟩
      obtain ⟨X, hX⟩ := this
      exact ⟨X, hX, C08_fits s f x X px hX⟩
  obtain ⟨X, hX, cx⟩ := hX
  rw [hr.exact st x y X Y hxy hX hY, if_pos]
  rw [BB.contains_iff_le] at cx cy
  refine cy.intersects ?_
  rw [BB.intersects_comm]
  exact cx.intersects (by rw [BB.intersects_comm]; exact hov)

/-! ### C09 -/

/-- `hit` respects a box: the box test never says "later" than the hit. -/
def Respects (p q : Vec F) (hit : Obj → Option (SegInfo F)) (l : Leaf F) : Prop :=
  ∀ i, hit l.obj = some i → ∀ B : BB F, l.bb.Le B → B.segmentQuery p q ≤ i.alpha

/-- `r` is the best of `s` and of the hits of the shapes `os`. -/
def Best (hit : Obj → Option (SegInfo F)) (s : SegInfo F) (os : List Obj) (r : SegInfo F) : Prop :=
  r.alpha ≤ s.alpha ∧ (∀ o ∈ os, ∀ i, hit o = some i → r.alpha ≤ i.alpha) ∧
  (r = s ∨ ∃ o ∈ os, hit o = some r ∧ r.alpha < s.alpha)

theorem Best.append {hit : Obj → Option (SegInfo F)} {s r t : SegInfo F} {xs ys : List Obj}
    (h1 : Best hit s xs r) (h2 : Best hit r ys t) : Best hit s (xs ++ ys) t := by
  obtain ⟨a1, a2, a3⟩ := h1
  obtain ⟨b1, b2, b3⟩ := h2
  refine ⟨b1.trans a1, ?_, ?_⟩
  · intro o ho i hi
    rcases List.mem_append.mp ho with ho | ho
    · exact b1.trans (a2 o ho i hi)
    · exact b2 o ho i hi
  · rcases b3 with rfl | ⟨o, ho, e, hlt⟩
    · rcases a3 with rfl | ⟨o, ho, e, hlt⟩
      · exact Or.inl rfl
      · exact Or.inr ⟨o, List.mem_append_left _ ho, e, hlt⟩
    · exact Or.inr ⟨o, List.mem_append_right _ ho, e, lt_of_lt_of_le hlt a1⟩

theorem Best.skip {hit : Obj → Option (SegInfo F)} {s : SegInfo F} {xs : List Obj}
    (h : ∀ o ∈ xs, ∀ i, hit o = some i → s.alpha ≤ i.alpha) : Best hit s xs s :=
  ⟨le_refl _, h, Or.inl rfl⟩

theorem Best.perm {hit : Obj → Option (SegInfo F)} {s r : SegInfo F} {xs ys : List Obj} (hp : xs.Perm ys)
    (h : Best hit s xs r) : Best hit s ys r := by
  refine ⟨h.1, fun o ho => h.2.1 o (hp.mem_iff.mpr ho), ?_⟩
  rcases h.2.2 with e | ⟨o, ho, e⟩
  · exact Or.inl e
  · exact Or.inr ⟨o, hp.mem_iff.mp ho, e⟩

theorem segQuery_best (p q : Vec F) (hit : Obj → Option (SegInfo F)) (t : Tree F) (hwf : t.WF)
    (hr : ∀ l ∈ t.leaves, Respects p q hit l) (s : SegInfo F) :
    Best hit s t.objs (t.segQuery p q (queryFirst hit) s.alpha s).1 ∧
    (t.segQuery p q (queryFirst hit) s.alpha s).2 = (t.segQuery p q (queryFirst hit) s.alpha s).1.alpha := by
  induction t generalizing s with
  | leaf l =>
    simp only [Tree.segQuery, queryFirst, Tree.objs, Tree.leaves, List.map_cons, List.map_nil]
    cases hh : hit l.obj with
    | none =>
      refine ⟨Best.skip ?_, rfl⟩
      intro o ho i hi
      rw [List.mem_singleton] at ho
      rw [ho, hh] at hi; cases hi
    | some i =>
      simp only []
      split
      · rename_i hlt
        refine ⟨⟨le_of_lt hlt, ?_, Or.inr ⟨l.obj, by simp, hh, hlt⟩⟩, rfl⟩
        intro o ho j hj
        rw [List.mem_singleton] at ho
        rw [ho, hh] at hj; cases hj; exact le_refl _
      · rename_i hlt
        refine ⟨Best.skip ?_, rfl⟩
        intro o ho j hj
        rw [List.mem_singleton] at ho
        rw [ho, hh] at hj; cases hj; exact not_lt.mp hlt
  | node bb x y ihx ihy =>
    obtain ⟨_, h2, h3⟩ := hwf
    have hrx : ∀ l ∈ x.leaves, Respects p q hit l := fun l hl => hr l (by simp [Tree.leaves, hl])
    have hry : ∀ l ∈ y.leaves, Respects p q hit l := fun l hl => hr l (by simp [Tree.leaves, hl])
    -- one guarded child
    have child : ∀ (c : Tree F), c.WF → (∀ l ∈ c.leaves, Respects p q hit l) →
        (∀ s : SegInfo F, Best hit s c.objs (c.segQuery p q (queryFirst hit) s.alpha s).1 ∧
          (c.segQuery p q (queryFirst hit) s.alpha s).2 = (c.segQuery p q (queryFirst hit) s.alpha s).1.alpha) →
        ∀ s : SegInfo F,
          let r := if c.bb.segmentQuery p q < s.alpha then
              ((c.segQuery p q (queryFirst hit) s.alpha s).1, min s.alpha (c.segQuery p q (queryFirst hit) s.alpha s).2)
            else (s, s.alpha)
          Best hit s c.objs r.1 ∧ r.2 = r.1.alpha := by
      intro c hc hrc ih s
      simp only []
      split
      · obtain ⟨i1, i2⟩ := ih s
        refine ⟨i1, ?_⟩
        simp only [i2]
        exact min_eq_right i1.1
      · rename_i hlt
        refine ⟨Best.skip ?_, rfl⟩
        intro o ho i hi
        obtain ⟨l, hl, rfl⟩ := List.mem_map.mp ho
        exact (not_lt.mp hlt).trans (hrc l hl i hi c.bb (c.le_bb hc l hl))
    have cx := child x h2 hrx (ihx h2 hrx)
    have cy := child y h3 hry (ihy h3 hry)
    have hobj : (Tree.node bb x y).objs = x.objs ++ y.objs := by simp [Tree.objs, Tree.leaves]
    rw [hobj]
    simp only [Tree.segQuery]
    split
    · have c1 := cx s
      simp only [] at c1
      generalize (if x.bb.segmentQuery p q < s.alpha then
        ((x.segQuery p q (queryFirst hit) s.alpha s).1, min s.alpha (x.segQuery p q (queryFirst hit) s.alpha s).2)
        else (s, s.alpha)) = r1 at c1 ⊢
      obtain ⟨r1, t1⟩ := r1
      obtain ⟨c11, c12⟩ := c1
      simp only [] at c11 c12 ⊢
      subst c12
      have c2 := cy r1
      simp only [] at c2
      exact ⟨c11.append c2.1, c2.2⟩
    · have c1 := cy s
      simp only [] at c1
      generalize (if y.bb.segmentQuery p q < s.alpha then
        ((y.segQuery p q (queryFirst hit) s.alpha s).1, min s.alpha (y.segQuery p q (queryFirst hit) s.alpha s).2)
        else (s, s.alpha)) = r1 at c1 ⊢
      obtain ⟨r1, t1⟩ := r1
      obtain ⟨c11, c12⟩ := c1
      simp only [] at c11 c12 ⊢
      subst c12
      have c2 := cx r1
      simp only [] at c2
      exact ⟨(c11.append c2.1).perm List.perm_append_comm, c2.2⟩

theorem segQueryRoot_best (p q : Vec F) (hit : Obj → Option (SegInfo F)) (t : Option (Tree F)) (hwf : WFo t)
    (hr : ∀ l ∈ leavesOf t, Respects p q hit l) (s : SegInfo F) :
    Best hit s ((leavesOf t).map Leaf.obj) (segQueryRoot p q (queryFirst hit) t s.alpha s) := by
  cases t with
  | none => exact ⟨le_refl _, (by intro o ho; cases ho), Or.inl rfl⟩
  | some t => exact (segQuery_best p q hit t (hwf t rfl) hr s).1

/-- **C09**: after any history, `SegmentQueryFirst` returns the hit with the smallest fraction over all shapes of both
indexes (a shape counts only below 1), whatever the tree shapes, provided the box test does not contradict the hits. -/
theorem C09_first (h : Obj → Nat) (s : Spec F) (w : World F) (hh : Hist h s w) (p q : Vec F)
    (hit : Obj → Option (SegInfo F))
    (hr : ∀ st o B i, s.idx st o = some B → hit o = some i → ∀ B' : BB F, B'.contains B = true →
      B'.segmentQuery p q ≤ i.alpha) :
    let r := w.segmentQueryFirst p q hit
    (∀ st o i, s.idx st o ≠ none → hit o = some i → r.alpha ≤ i.alpha) ∧
    ((r = ⟨none, q, ⟨0, 0⟩, 1⟩) ∨ ∃ st o, s.idx st o ≠ none ∧ hit o = some r ∧ r.alpha < 1) := by
  have rf := hist_ref h s w hh
  have nd := rf.inv.mid.nodup
  rw [List.map_append, List.nodup_append] at nd
  have hrS : ∀ l ∈ w.S, Respects p q hit l := by
    intro l hl i hi B hB
    exact hr true l.obj l.bb i (by rw [rf.idx]; exact bbOf_of_mem nd.1 hl) hi B ((BB.contains_iff_le _ _).mpr hB)
  have hrD : ∀ l ∈ w.D, Respects p q hit l := by
    intro l hl i hi B hB
    exact hr false l.obj l.bb i (by rw [rf.idx]; exact bbOf_of_mem nd.2.1 hl) hi B ((BB.contains_iff_le _ _).mpr hB)
  have b1 := segQueryRoot_best p q hit w.stat rf.inv.mid.ws hrS ⟨none, q, ⟨0, 0⟩, 1⟩
  have b2 := segQueryRoot_best p q hit w.dyn rf.inv.mid.wd hrD (segQueryRoot p q (queryFirst hit) w.stat 1 ⟨none, q, ⟨0, 0⟩, 1⟩)
  have b := b1.append b2
  simp only []
  have mem : ∀ st o, s.idx st o ≠ none ↔ o ∈ (leavesOf (w.tree st)).map Leaf.obj := by
    intro st o; rw [rf.idx, ne_eq, bbOf_none, not_not]
  refine ⟨?_, ?_⟩
  · intro st o i ho hi
    have := (mem st o).mp ho
    refine b.2.1 o ?_ i hi
    rw [List.mem_append]
    cases st
    · exact Or.inr this
    · exact Or.inl this
  · rcases b.2.2 with e | ⟨o, ho, e, hlt⟩
    · exact Or.inl e
    · right
      rcases List.mem_append.mp ho with ho | ho
      · exact ⟨true, o, (mem true o).mpr ho, e, hlt⟩
      · exact ⟨false, o, (mem false o).mpr ho, e, hlt⟩

/-- In exact arithmetic the box test does not contradict a hit whose point is in the indexed box. -/
theorem segmentQuery_le_hit (B B' : BB ℝ) (p q : Vec ℝ) (α : ℝ) (hc : B'.contains B = true)
    (h0 : 0 ≤ α) (h1 : α ≤ 1) (hm : B.Mem (p.add ((q.sub p).mult α))) : B'.segmentQuery p q ≤ α := by
  rw [BB.contains_iff_le] at hc
  obtain ⟨c1, c2, c3, c4⟩ := hc
  simp only [BB.Mem] at hm
  obtain ⟨m1, m2, m3, m4⟩ := hm
  have hp : B'.Proper := ⟨c1.trans (m1.trans (m2.trans c2)), c3.trans (m3.trans (m4.trans c4))⟩
  have hα : α ∈ B'.hits p q := by
    refine ⟨h0, h1, ?_⟩
    simp only [Vec.add, Vec.sub, Vec.mult] at m1 m2 m3 m4
    simp only [BB.Mem]
    refine ⟨?_, ?_, ?_, ?_⟩ <;> nlinarith
  exact ((C10_segmentQuery B' hp p q).1 ⟨α, hα⟩).2 hα

/-- **C09**, exact arithmetic: if every hit lies on the segment inside the indexed box of its shape,
`SegmentQueryFirst` returns the first hit over all shapes of the space. -/
theorem C09_first_real (h : Obj → Nat) (s : Spec ℝ) (w : World ℝ) (hh : Hist h s w) (p q : Vec ℝ)
    (hit : Obj → Option (SegInfo ℝ))
    (hr : ∀ st o B i, s.idx st o = some B → hit o = some i →
      0 ≤ i.alpha ∧ i.alpha ≤ 1 ∧ B.Mem (p.add ((q.sub p).mult i.alpha))) :
    let r := w.segmentQueryFirst p q hit
    (∀ st o i, s.idx st o ≠ none → hit o = some i → r.alpha ≤ i.alpha) ∧
    ((r = ⟨none, q, ⟨0, 0⟩, 1⟩) ∨ ∃ st o, s.idx st o ≠ none ∧ hit o = some r ∧ r.alpha < 1) :=
  C09_first h s w hh p q hit (fun st o B i hB hi B' hc =>
    segmentQuery_le_hit B B' p q i.alpha hc (hr st o B i hB hi).1 (hr st o B i hB hi).2.1 (hr st o B i hB hi).2.2)

/-- What a leaf contributes to the calls of `SegmentQuery`. -/
def callsOf (hit : Obj → Option (SegInfo F)) (os : List Obj) : List (Obj × SegInfo F) :=
  os.filterMap (fun o => (hit o).map (fun i => (o, i)))

/-- `SegmentQuery` over a tree: the visited shapes `vs` are some of the leaves, each at most once, among them every
leaf whose box (and so every larger one) is entered before the end. -/
theorem segQuery_all (p q : Vec F) (hit : Obj → Option (SegInfo F)) (t : Tree F) (hwf : t.WF)
    (log : List (Obj × SegInfo F)) :
    (t.segQuery p q (segmentQueryCb hit) 1 log).2 = 1 ∧
    ∃ vs, (t.segQuery p q (segmentQueryCb hit) 1 log).1 = log ++ callsOf hit vs ∧
      (∃ ws : List (Leaf F), ws.Sublist t.leaves ∧ vs.Perm (ws.map Leaf.obj) ∧
        ∀ l ∈ t.leaves, (∀ B : BB F, l.bb.Le B → B.segmentQuery p q < 1) → l ∈ ws) := by
  induction t generalizing log with
  | leaf l =>
    simp only [Tree.segQuery, segmentQueryCb, Tree.leaves]
    refine ⟨by cases hit l.obj <;> rfl, [l.obj], ?_, [l], List.Sublist.refl _, List.Perm.refl _, fun x hx _ => hx⟩
    simp only [callsOf, List.filterMap_cons, List.filterMap_nil]
    cases hit l.obj <;> simp
  | node bb x y ihx ihy =>
    obtain ⟨_, h2, h3⟩ := hwf
    have child : ∀ (c : Tree F), c.WF →
        (∀ log : List (Obj × SegInfo F), (c.segQuery p q (segmentQueryCb hit) 1 log).2 = 1 ∧
          ∃ vs, (c.segQuery p q (segmentQueryCb hit) 1 log).1 = log ++ callsOf hit vs ∧
            (∃ ws : List (Leaf F), ws.Sublist c.leaves ∧ vs.Perm (ws.map Leaf.obj) ∧
              ∀ l ∈ c.leaves, (∀ B : BB F, l.bb.Le B → B.segmentQuery p q < 1) → l ∈ ws)) →
        ∀ log : List (Obj × SegInfo F),
          let r := if c.bb.segmentQuery p q < (1 : F) then
              ((c.segQuery p q (segmentQueryCb hit) 1 log).1, min 1 (c.segQuery p q (segmentQueryCb hit) 1 log).2)
            else (log, 1)
          r.2 = 1 ∧ ∃ vs, r.1 = log ++ callsOf hit vs ∧
            (∃ ws : List (Leaf F), ws.Sublist c.leaves ∧ vs.Perm (ws.map Leaf.obj) ∧
              ∀ l ∈ c.leaves, (∀ B : BB F, l.bb.Le B → B.segmentQuery p q < 1) → l ∈ ws) := by
      intro c hc ih log
      simp only []
      split
      · obtain ⟨i1, i2⟩ := ih log
        exact ⟨by simp only [i1, min_self], i2⟩
      · rename_i hlt
        refine ⟨rfl, [], by simp [callsOf], [], List.nil_sublist _, List.Perm.refl _, ?_⟩
        intro l hl hB
        exact absurd (hB c.bb (c.le_bb hc l hl)) hlt
    have cx := child x h2 (ihx h2)
    have cy := child y h3 (ihy h3)
    simp only [Tree.segQuery, Tree.leaves]
    split
    · have c1 := cx log
      simp only [] at c1
      generalize (if x.bb.segmentQuery p q < (1 : F) then
        ((x.segQuery p q (segmentQueryCb hit) 1 log).1, min 1 (x.segQuery p q (segmentQueryCb hit) 1 log).2)
        else (log, 1)) = r1 at c1 ⊢
      obtain ⟨r1, t1⟩ := r1
      obtain ⟨c11, vs1, e1, ws1, s1, p1, a1⟩ := c1
      simp only [] at c11 e1 ⊢
      subst c11 e1
      have c2 := cy (log ++ callsOf hit vs1)
      simp only [] at c2
      obtain ⟨c21, vs2, e2, ws2, s2, p2, a2⟩ := c2
      refine ⟨c21, vs1 ++ vs2, ?_, ws1 ++ ws2, s1.append s2, ?_, ?_⟩
      · rw [e2]; simp [callsOf]
      · rw [List.map_append]; exact p1.append p2
      · intro l hl hB
        rcases List.mem_append.mp hl with hl | hl
        · exact List.mem_append_left _ (a1 l hl hB)
        · exact List.mem_append_right _ (a2 l hl hB)
    · have c1 := cy log
      simp only [] at c1
      generalize (if y.bb.segmentQuery p q < (1 : F) then
        ((y.segQuery p q (segmentQueryCb hit) 1 log).1, min 1 (y.segQuery p q (segmentQueryCb hit) 1 log).2)
        else (log, 1)) = r1 at c1 ⊢
      obtain ⟨r1, t1⟩ := r1
      obtain ⟨c11, vs1, e1, ws1, s1, p1, a1⟩ := c1
      simp only [] at c11 e1 ⊢
      subst c11 e1
      have c2 := cx (log ++ callsOf hit vs1)
      simp only [] at c2
      obtain ⟨c21, vs2, e2, ws2, s2, p2, a2⟩ := c2
      refine ⟨c21, vs1 ++ vs2, ?_, ws2 ++ ws1, s2.append s1, ?_, ?_⟩
      · rw [e2]; simp [callsOf]
      · rw [List.map_append]; exact (p1.append p2).trans List.perm_append_comm
      · intro l hl hB
        rcases List.mem_append.mp hl with hl | hl
        · exact List.mem_append_left _ (a2 l hl hB)
        · exact List.mem_append_right _ (a1 l hl hB)

theorem segQueryRoot_all (p q : Vec F) (hit : Obj → Option (SegInfo F)) (t : Option (Tree F)) (hwf : WFo t)
    (log : List (Obj × SegInfo F)) :
    ∃ vs, segQueryRoot p q (segmentQueryCb hit) t 1 log = log ++ callsOf hit vs ∧
      (∃ ws : List (Leaf F), ws.Sublist (leavesOf t) ∧ vs.Perm (ws.map Leaf.obj) ∧
        ∀ l ∈ leavesOf t, (∀ B : BB F, l.bb.Le B → B.segmentQuery p q < 1) → l ∈ ws) := by
  cases t with
  | none => exact ⟨[], by simp [segQueryRoot, callsOf], [], by simp, by simp, by intro l hl; cases hl⟩
  | some t => exact (segQuery_all p q hit t (hwf t rfl) log).2

/-- **C09**: after any history, `SegmentQuery` calls the callback only with real hits of indexed shapes, at most once
per shape, and misses no hit whose indexed box is entered before the end of the segment. -/
theorem C09_all (h : Obj → Nat) (s : Spec F) (w : World F) (hh : Hist h s w) (p q : Vec F)
    (hit : Obj → Option (SegInfo F)) :
    let calls := w.segmentQuery p q hit
    (calls.map Prod.fst).Nodup ∧
    (∀ c ∈ calls, hit c.1 = some c.2 ∧ ∃ st, s.idx st c.1 ≠ none) ∧
    (∀ st o B i, s.idx st o = some B → hit o = some i →
      (∀ B' : BB F, B'.contains B = true → B'.segmentQuery p q < 1) → (o, i) ∈ calls) := by
  have rf := hist_ref h s w hh
  have nd := rf.inv.mid.nodup
  obtain ⟨v1, e1, w1, s1, p1, a1⟩ := segQueryRoot_all p q hit w.stat rf.inv.mid.ws []
  obtain ⟨v2, e2, w2, s2, p2, a2⟩ := segQueryRoot_all p q hit w.dyn rf.inv.mid.wd
    (segQueryRoot p q (segmentQueryCb hit) w.stat 1 [])
  have hcalls : w.segmentQuery p q hit = callsOf hit (v1 ++ v2) := by
    simp only [World.segmentQuery]
    rw [e2, e1]
    simp [callsOf]
  simp only []
  rw [hcalls]
  have hv : (v1 ++ v2).Nodup := by
    rw [((p1.append p2)).nodup_iff, ← List.map_append]
    exact nd.sublist ((s1.append s2).map _)
  have hsub : ∀ o ∈ v1 ++ v2, ∃ st, s.idx st o ≠ none := by
    intro o ho
    have mem : ∀ st o, s.idx st o ≠ none ↔ o ∈ (leavesOf (w.tree st)).map Leaf.obj := by
      intro st o; rw [rf.idx, ne_eq, bbOf_none, not_not]
    rcases List.mem_append.mp ho with ho | ho
    · exact ⟨true, (mem true o).mpr ((s1.map _).subset (p1.mem_iff.mp ho))⟩
    · exact ⟨false, (mem false o).mpr ((s2.map _).subset (p2.mem_iff.mp ho))⟩
  have hmem : ∀ c, c ∈ callsOf hit (v1 ++ v2) ↔ c.1 ∈ v1 ++ v2 ∧ hit c.1 = some c.2 := by
    intro c
    simp only [callsOf, List.mem_filterMap, Option.map_eq_some_iff]
    constructor
    · rintro ⟨o, ho, i, hi, rfl⟩; exact ⟨ho, hi⟩
    · rintro ⟨ho, hi⟩; exact ⟨c.1, ho, c.2, hi, rfl⟩
  refine ⟨?_, ?_, ?_⟩
  · have : (callsOf hit (v1 ++ v2)).map Prod.fst = (v1 ++ v2).filter (fun o => (hit o).isSome) := by
      generalize v1 ++ v2 = v
      induction v with
      | nil => rfl
      | cons o v ih =>
        simp only [callsOf, List.filterMap_cons, List.filter_cons] at ih ⊢
        cases hit o with
        | none => simpa using ih
        | some i => simp [ih]
    rw [this]
    exact hv.filter _
  · intro c hc
    obtain ⟨h1, h2⟩ := (hmem c).mp hc
    exact ⟨h2, hsub _ h1⟩
  · intro st o B i hB hi hlt
    rw [hmem]
    refine ⟨?_, hi⟩
    obtain ⟨l, hl, rfl, rfl⟩ := ((C07_leaves h s w hh st).2 o B).mp hB
    have hlt' : ∀ B' : BB F, l.bb.Le B' → B'.segmentQuery p q < 1 :=
      fun B' hB' => hlt B' ((BB.contains_iff_le _ _).mpr hB')
    rw [List.mem_append]
    cases st with
    | true => exact Or.inl (p1.mem_iff.mpr (List.mem_map.mpr ⟨l, a1 l hl hlt', rfl⟩))
    | false => exact Or.inr (p2.mem_iff.mpr (List.mem_map.mpr ⟨l, a2 l hl hlt', rfl⟩))

/-! ### Non-vacuity: a concrete history -/

section examples

/-- Boxes for the examples: shape 1 is a static ground, 2 and 3 are overlapping boxes standing on it, 4 is far away. -/
def exBox : Obj → BB Rat
  | 1 => ⟨-10, -1, 10, 0⟩
  | 2 => ⟨0, 0, 2, 2⟩
  | 3 => ⟨1, 0, 3, 2⟩
  | _ => ⟨50, 50, 51, 51⟩

def exBox2 : Obj → BB Rat
  | 4 => ⟨2, 1, 4, 3⟩
  | o => exBox o

def exOps : List (WOp Rat) :=
  [.insert true 1, .insert false 2, .insert false 3, .insert false 4, .reindexQuery (fun _ _ c => c),
   .move exBox2 (fun _ => ⟨0, 0⟩), .reindexQuery (fun _ _ c => c), .remove false 3]

def exRun : Option (World Rat) :=
  (World.init exBox (fun _ => ⟨0, 0⟩)).bind fun w => exOps.foldlM (fun w op => w.step id op) w

/-- Running the model on that history: it does not panic, and the next `ReindexQuery` reports exactly the two
overlapping pairs left. -/
example : exRun.bind (fun w => (w.reindexQuery (fun _ _ c => c)).map (fun r => r.2.map (fun e => (e.1, e.2.1)))) =
    some [(4, 2), (1, 2)] := by decide +kernel

example : exRun.map (fun w => (w.each false, queryRoot w.dyn ⟨0, 0, 1, 1⟩)) = some ([2, 4], [2]) := by
  decide +kernel

/-- All calls of a list are legal in sequence. -/
def Legal (s : Spec F) : List (WOp F) → Prop
  | [] => True
  | op :: ops => s.ok op ∧ Legal (s.step op) ops

theorem hist_run (h : Obj → Nat) (ops : List (WOp F)) (s : Spec F) (w w' : World F) (hh : Hist h s w)
    (hl : Legal s ops) (he : ops.foldlM (fun w op => w.step h op) w = some w') :
    Hist h (ops.foldl Spec.step s) w' := by
  induction ops generalizing s w with
  | nil => cases he; exact hh
  | cons op ops ih =>
    rw [List.foldlM_cons] at he
    cases h1 : w.step h op with
    | none => rw [h1] at he; cases he
    | some w1 =>
      rw [h1] at he
      exact ih (s.step op) w1 (Hist.step s w w1 op hh hl.1 h1) hl.2 he

/-- The example history is legal and reached: the hypotheses of C06-C09 are met by a state with a static and two
dynamic shapes. -/
example : ∃ (s : Spec Rat) (w : World Rat), Hist id s w ∧ s.idx true 1 ≠ none ∧ s.idx false 2 ≠ none ∧
    s.idx false 4 ≠ none ∧ s.idx false 3 = none := by
  have hrun : exRun.isSome = true := by decide +kernel
  obtain ⟨w', hw'⟩ := Option.isSome_iff_exists.mp hrun
  unfold exRun at hw'
  cases hi : World.init exBox (fun _ => (⟨0, 0⟩ : Vec Rat)) with
  | none => rw [hi] at hw'; cases hw'
  | some w0 =>
    rw [hi] at hw'
    refine ⟨_, w', hist_run id exOps _ w0 w' (Hist.init _ _ w0 hi) ?_ hw', ?_, ?_, ?_, ?_⟩
    · simp [Legal, exOps, Spec.ok, Spec.step, Spec.refit]
    · simp [exOps, Spec.step, Spec.refit]
    · simp [exOps, Spec.step, Spec.refit]
    · simp [exOps, Spec.step, Spec.refit]
    · simp [exOps, Spec.step, Spec.refit]

/-- A ray cast meeting the hypotheses of `C09_first_real`: one box from 1 to 2, hit at a quarter of a segment of
length 4. -/
example : 0 ≤ (1/4 : ℝ) ∧ (1/4 : ℝ) ≤ 1 ∧
    (⟨1, -1, 2, 1⟩ : BB ℝ).Mem ((⟨0, 0⟩ : Vec ℝ).add (((⟨4, 0⟩ : Vec ℝ).sub ⟨0, 0⟩).mult (1/4))) := by
  simp only [BB.Mem, Vec.add, Vec.sub, Vec.mult]; norm_num

end examples

end CP
