import Verif.Proofs.Scene

/-! # C53: which pairs of shapes a step tests

`Scene.Reach h sc`: the scene `sc` (space, indexes, geometry, constraint flags) can be reached from a new space by any
sequence of allowed operations. `Scene.MustTest` (Verif/Spec/Scene.lean) says which pairs must be tested. -/

namespace CP
open GoFloat
variable {F : Type} [GoFloat F]

theorem scene_step [FloatSigns F] {h : Obj → Nat} {sc : Scene F} {s : Spec F} (k : sc.Ok h s) (shapes : Nat → QShape F)
    (vel : Nat → Vec F) (answer : Nat → Nat → Sp.CollideIn) (i : Sp.StepIn F) (again : Nat → Bool)
    (ok : (SceneOp.step shapes vel answer i again).Allowed sc) (hdt : i.dt ≠ 0) :
    ∃ w l log, (sc.moved shapes vel).broadPhase answer = some (w, l) ∧
      Hist h ((s.step (.move (fun o => (shapes o).shp.bb) vel)).step (.reindexQuery (sc.moved shapes vel).nextId)) w ∧
      Reports ((s.step (.move (fun o => (shapes o).shp.bb) vel)).step (.reindexQuery (sc.moved shapes vel).nextId)) log ∧
      Tests (sc.moved shapes vel) answer log l ∧ Sp.StepOk sc.sp { i with pairs := l } ∧
      sc.run h (.step shapes vel answer i again) =
        (Scene.follow h again sc.sp (sc.sp.after (.step { i with pairs := l })) w).map fun w' =>
          { sc.moved shapes vel with sp := sc.sp.after (.step { i with pairs := l }), index := w' } := by
  obtain ⟨o1, o2, o3⟩ := ok
  have km := k.moved shapes vel
  obtain ⟨w, l, log, e, hw, hr, ht⟩ := broadPhase_spec km answer o1
  have so : Sp.StepOk sc.sp { i with pairs := l } := tests_stepOk km _ hr ht i o2 o3
  refine ⟨w, l, log, e, hw, hr, ht, so, ?_⟩
  have he := (C44_no_panic k.sp (.step { i with pairs := l }) so).1
  have he' : sc.sp.step { i with pairs := l } = some (sc.sp.after (.step { i with pairs := l })) := he
  simp only [Scene.run, if_neg hdt, e, Option.bind_eq_bind, Option.bind_some]
  have : (sc.moved shapes vel).sp = sc.sp := rfl
  rw [this, he']
  simp only [Option.bind_some]
  cases Scene.follow h again sc.sp (sc.sp.after (.step { i with pairs := l })) w <;> rfl

theorem ok_follow {h : Obj → Nat} {sc : Scene F} {t : Sp F} {s : Spec F} {w w' : World F} (hs : Sp.Reach sc.sp) (ht : Sp.Reach t)
    (hh : Hist h s w) (y : Sync s sc) {again : Nat → Bool} (he : Scene.follow h again sc.sp t w = some w') :
    ∃ s', Followed again sc.sp t s s' ∧ ({ sc with sp := t, index := w' } : Scene F).Ok h s' := by
  obtain ⟨s', hs', f⟩ := (follow_spec again hs ht hh y.dyn y.stat).1 w' he
  exact ⟨s', f, ht, hs', ⟨by rw [f.box, y.box], fun o => f.dyn_iff y.dyn o, fun o => f.stat_iff y.stat o⟩⟩

theorem step_sync {s : Spec F} {sc : Scene F} (y : Sync s sc) (f : PairFn) : Sync (s.step (.reindexQuery f)) sc :=
  ⟨y.box, fun o => by rw [reindexQuery_none]; exact y.dyn o, fun o => by rw [reindexQuery_none]; exact y.stat o⟩

theorem reindexObject_none {s : Spec F} (st i : Bool) (o x : Obj) :
    (s.step (.reindexObject st o)).idx i x ≠ none ↔ s.idx i x ≠ none := by
  simp only [Spec.step]
  by_cases h : i = st ∧ x = o
  · obtain ⟨rfl, rfl⟩ := h; simp [Spec.refit]
  · simp [h]

theorem reindex_ok {h : Obj → Nat} {sc : Scene F} {s : Spec F} (k : sc.Ok h s) (sh : Nat) :
    ∃ w, sc.run h (.reindex sh) = some { sc with index := w } ∧
      ({ sc with index := w } : Scene F).Ok h ((s.step (.reindexObject false sh)).step (.reindexObject true sh)) := by
  have np : ∀ (s : Spec F) (w : World F) (st : Bool), Hist h s w → ∃ w', w.reindexObject h st sh = some w' := by
    intro s w st hh
    cases e : w.step h (.reindexObject st sh) with
    | none => obtain ⟨_, _, q, _⟩ := (C07_no_panic h s w hh (.reindexObject st sh) trivial).1 e; cases q
    | some w' => exact ⟨w', e⟩
  obtain ⟨w1, e1⟩ := np s sc.index false k.hist
  have h1 := Hist.step s sc.index w1 (.reindexObject false sh) k.hist trivial e1
  obtain ⟨w2, e2⟩ := np _ w1 true h1
  have h2 := Hist.step _ w1 w2 (.reindexObject true sh) h1 trivial e2
  refine ⟨w2, by simp [Scene.run, e1, e2], k.sp, h2, k.sync.box, fun o => ?_, fun o => ?_⟩
  · rw [reindexObject_none, reindexObject_none]; exact k.sync.dyn o
  · rw [reindexObject_none, reindexObject_none]; exact k.sync.stat o

theorem reach_ok [FloatSigns F] {h : Obj → Nat} {sc : Scene F} (hr : sc.Reach h) : ∃ s, sc.Ok h s := by
  induction hr with
  | new n m type shape con shapes vel flags w hw =>
    refine ⟨_, .new .., Hist.init _ _ w hw, rfl, fun o => ?_, fun o => ?_⟩
    · simp [Sp.newSpace]
    · simp [Sp.newSpace]
  | @step sc sc' o hr ok e ih =>
    obtain ⟨s, k⟩ := ih
    cases o with
    | move shapes vel =>
      simp only [Scene.run, Option.some.injEq] at e
      subst e
      exact ⟨_, k.moved shapes vel⟩
    | collideBodies c on =>
      simp only [Scene.run, Option.some.injEq] at e
      subst e
      exact ⟨s, k.sp, k.hist, k.sync.box, k.sync.dyn, k.sync.stat⟩
    | reindex sh =>
      obtain ⟨w, e', k'⟩ := reindex_ok k sh
      rw [e'] at e
      cases e
      exact ⟨_, k'⟩
    | op o again =>
      obtain ⟨-, oa⟩ := ok
      obtain ⟨e1, r1⟩ := C44_no_panic k.sp o oa
      simp only [Scene.run, e1, Option.bind_eq_bind, Option.bind_some] at e
      obtain ⟨w, e2, e3⟩ := Option.bind_eq_some_iff.1 e
      cases e3
      obtain ⟨s', -, k'⟩ := ok_follow k.sp r1 k.hist k.sync e2
      exact ⟨s', k'⟩
    | step shapes vel answer i again =>
      by_cases hdt : i.dt = 0
      · simp only [Scene.run, if_pos hdt, Option.some.injEq] at e
        subst e
        exact ⟨s, k⟩
      obtain ⟨w, l, log, e1, hw, hrp, ht, so, e2⟩ := scene_step k shapes vel answer i again ok hdt
      rw [e2] at e
      obtain ⟨w', e3, e4⟩ := Option.map_eq_some_iff.1 e
      subst e4
      have km := k.moved shapes vel
      obtain ⟨s', -, k'⟩ := ok_follow (sc := sc.moved shapes vel) km.sp (C44_no_panic k.sp (.step { i with pairs := l }) so).2 hw
        (step_sync km.sync _) e3
      exact ⟨s', k'⟩

/-- The number of shapes in the space. -/
def Scene.size (sc : Scene F) : Nat := (sc.sp.dynamicShapes ++ sc.sp.staticShapes).length

theorem size_after {s : Sp F} (hs : Sp.Reach s) (o : Sp.Op F) (ok : o.Allowed s) :
    ((s.after o).dynamicShapes ++ (s.after o).staticShapes).length ≤ (s.dynamicShapes ++ s.staticShapes).length + 1 := by
  obtain ⟨-, -, m1, m2⟩ := shape_lists hs
  obtain ⟨n1, n2, k1, k2⟩ := shape_lists (C44_no_panic hs o ok).2
  have hn : ((s.after o).dynamicShapes ++ (s.after o).staticShapes).Nodup := by
    rw [List.nodup_append]
    exact ⟨n1, n2, fun x hx y hy e => lists_disjoint (C44_no_panic hs o ok).2 x hx (e ▸ hy)⟩
  have hin : ∀ x, (s.shapes x).inSpace = true → x ∈ s.dynamicShapes ++ s.staticShapes := by
    intro x hx
    rw [List.mem_append, m1, m2]; tauto
  have hin' : ∀ x ∈ (s.after o).dynamicShapes ++ (s.after o).staticShapes, ((s.after o).shapes x).inSpace = true := by
    intro x hx
    rw [List.mem_append, k1, k2] at hx; tauto
  have f := C44_effect hs o ok
  have cnt : ∀ S : List Nat, (∀ x ∈ (s.after o).dynamicShapes ++ (s.after o).staticShapes, x ∈ S) →
      ((s.after o).dynamicShapes ++ (s.after o).staticShapes).length ≤ S.length :=
    fun S hS => (List.subperm_of_subset hn hS).length_le
  by_cases hadd : ∃ sh, o = .addShape sh
  · obtain ⟨sh, rfl⟩ := hadd
    refine cnt (sh :: (s.dynamicShapes ++ s.staticShapes)) fun x hx => ?_
    have := hin' x hx
    rw [f.shapeIn] at this
    simp only [Sp.Op.shapeIn, Function.update_apply] at this
    by_cases q : x = sh
    · simp [q]
    · rw [if_neg q] at this; exact List.mem_cons_of_mem _ (hin x this)
  · refine (cnt (s.dynamicShapes ++ s.staticShapes) fun x hx => ?_).trans (Nat.le_succ _)
    have := hin' x hx
    rw [f.shapeIn] at this
    cases o with
    | addShape sh => exact absurd ⟨sh, rfl⟩ hadd
    | removeShape sh acts =>
      simp only [Sp.Op.shapeIn, Function.update_apply] at this
      by_cases q : x = sh
      · rw [if_pos q] at this; cases this
      · rw [if_neg q] at this; exact hin x this
    | _ => exact hin x this

/-- **C53**: no allowed operation on a scene panics, in any reachable scene with fewer than 1610612739 shapes: the broad phase
hands the rest of the step only pairs it can work with. -/
theorem C53_no_panic [FloatSigns F] {h : Obj → Nat} {sc : Scene F} (hr : sc.Reach h) (o : SceneOp F) (ok : o.Allowed sc)
    (room : sc.size + 1 < 1610612740) : ∃ sc', sc.run h o = some sc' ∧ sc'.Reach h := by
  suffices ∃ sc', sc.run h o = some sc' by
    obtain ⟨sc', e⟩ := this
    exact ⟨sc', e, .step o hr ok e⟩
  obtain ⟨s, k⟩ := reach_ok hr
  cases o with
  | move shapes vel => exact ⟨_, rfl⟩
  | collideBodies c on => exact ⟨_, rfl⟩
  | reindex sh =>
    obtain ⟨w, e', -⟩ := reindex_ok k sh
    exact ⟨_, e'⟩
  | op o again =>
    obtain ⟨-, oa⟩ := ok
    obtain ⟨e1, r1⟩ := C44_no_panic k.sp o oa
    have hs := size_after k.sp o oa
    obtain ⟨w', e2⟩ := (follow_spec again k.sp r1 k.hist k.sync.dyn k.sync.stat).2 (by rw [Scene.size] at room; omega)
    exact ⟨{ sc with sp := sc.sp.after o, index := w' }, by simp [Scene.run, e1, e2]⟩
  | step shapes vel answer i again =>
    by_cases hdt : i.dt = 0
    · exact ⟨sc, by simp [Scene.run, hdt]⟩
    obtain ⟨w, l, log, e1, hw, hrp, ht, so, e2⟩ := scene_step k shapes vel answer i again ok hdt
    have hs := size_after k.sp (.step { i with pairs := l }) so
    have y := step_sync (k.moved shapes vel).sync (sc.moved shapes vel).nextId
    obtain ⟨w', e3⟩ := (follow_spec again k.sp (C44_no_panic k.sp (.step { i with pairs := l }) so).2 hw y.dyn y.stat).2
      (by rw [Scene.size] at room; omega)
    rw [e2, e3]
    exact ⟨_, rfl⟩

/-- **C53**: what a step does: its collision phase yields a list of tested pairs, and the rest of the step is the bookkeeping
of C20-C28 on exactly those pairs, which are as that bookkeeping needs them. -/
theorem C53_step [FloatSigns F] {h : Obj → Nat} {sc sc' : Scene F} (hr : sc.Reach h) (shapes : Nat → QShape F)
    (vel : Nat → Vec F) (answer : Nat → Nat → Sp.CollideIn) (i : Sp.StepIn F) (again : Nat → Bool)
    (ok : (SceneOp.step shapes vel answer i again).Allowed sc) (hdt : i.dt ≠ 0)
    (he : sc.run h (.step shapes vel answer i again) = some sc') :
    ∃ w l, (sc.moved shapes vel).broadPhase answer = some (w, l) ∧ Sp.StepOk sc.sp { i with pairs := l } ∧
      sc'.sp = sc.sp.after (.step { i with pairs := l }) := by
  obtain ⟨s, k⟩ := reach_ok hr
  obtain ⟨w, l, log, e1, hw, hrp, ht, so, e2⟩ := scene_step k shapes vel answer i again ok hdt
  refine ⟨w, l, e1, so, ?_⟩
  rw [e2] at he
  obtain ⟨w', -, e4⟩ := Option.map_eq_some_iff.1 he
  subst e4
  rfl

/-- **C53**: a step tests no other pairs than those that must be tested, none of them twice, and the contacts it counts are
those that the narrow phase finds for the two shapes. -/
theorem C53_only [FloatSigns F] {h : Obj → Nat} {sc : Scene F} (hr : sc.Reach h) (shapes : Nat → QShape F)
    (vel : Nat → Vec F) (answer : Nat → Nat → Sp.CollideIn)
    (ok : ∀ sh, (sc.sp.shapes sh).inSpace = true → (shapes sh).shp.cls.nonempty = true) :
    ∃ w l, (sc.moved shapes vel).broadPhase answer = some (w, l) ∧
      (∀ x y, testCount l x y ≤ 1 ∧ (testCount l x y ≠ 0 → (sc.moved shapes vel).MustTest x y)) ∧
      ∀ e ∈ l, ∃ x y id res, Coll.collide (shapes x).shp (shapes y).shp id = some res ∧ e.count = res.2.contacts.length ∧
        ((e.a = x ∧ e.b = y) ∨ (e.a = y ∧ e.b = x)) := by
  obtain ⟨s, k⟩ := reach_ok hr
  have km := k.moved shapes vel
  obtain ⟨w, l, log, e, hw, hrp, ht⟩ := broadPhase_spec km answer ok
  refine ⟨w, l, e, tests_sound km _ hrp ht, fun e he => ?_⟩
  obtain ⟨c, hc, ac, res, h1, h2, -, h4, -⟩ := ht.mem e he
  exact ⟨_, _, _, res, h1, h2, h4⟩

/-- **C53**: a step tests every pair that must be tested exactly once, if the boxes of the two shapes are proper and those of
static (or sleeping) shapes have not left their indexed boxes since the shape was added, put to sleep or reindexed. -/
theorem C53_all [FloatSigns F] [FloatLaws F] {h : Obj → Nat} {sc : Scene F} (hr : sc.Reach h) (shapes : Nat → QShape F)
    (vel : Nat → Vec F) (answer : Nat → Nat → Sp.CollideIn)
    (ok : ∀ sh, (sc.sp.shapes sh).inSpace = true → (shapes sh).shp.cls.nonempty = true) :
    ∃ w l, (sc.moved shapes vel).broadPhase answer = some (w, l) ∧ ∀ x y, (sc.moved shapes vel).MustTest x y →
      (shapes x).shp.bb.Proper → (shapes y).shp.bb.Proper → (sc.moved shapes vel).Fits x → (sc.moved shapes vel).Fits y →
      testCount l x y = 1 := by
  obtain ⟨s, k⟩ := reach_ok hr
  have km := k.moved shapes vel
  obtain ⟨w, l, log, e, hw, hrp, ht⟩ := broadPhase_spec km answer ok
  refine ⟨w, l, e, fun x y hm px py fx fy => ?_⟩
  obtain ⟨ac, ix, iy, id⟩ := (mustTest_iff km x y).1 hm
  have hxy : x ≠ y := fun q => hm.bodies (by rw [q])
  rw [(ht.count x y hxy).1 ac]
  -- a box of the index after the call that contains the current one
  have box : ∀ z, (shapes z).shp.bb.Proper → (sc.moved shapes vel).Fits z → ∀ st,
      (s.step (.move (fun o => (shapes o).shp.bb) vel)).idx st z ≠ none →
      ∃ Z, ((s.step (.move (fun o => (shapes o).shp.bb) vel)).step (.reindexQuery (sc.moved shapes vel).nextId)).idx st z = some Z ∧
        Z.contains (shapes z).shp.bb = true := by
    intro z pz fz st hz
    cases st with
    | false =>
      rw [← reindexQuery_none (sc.moved shapes vel).nextId] at hz
      obtain ⟨Z, hZ⟩ := Option.ne_none_iff_exists'.1 hz
      exact ⟨Z, hZ, C08_fits _ _ z Z pz hZ⟩
    | true =>
      obtain ⟨Z, hZ⟩ := Option.ne_none_iff_exists'.1 hz
      refine ⟨Z, by simpa [Spec.step] using hZ, ?_⟩
      obtain ⟨lf, h1, h2, h3⟩ := ((C07_leaves h _ _ km.hist true).2 z Z).1 hZ
      rw [← h3]
      exact fz lf h1 h2
  have key : ∀ u v, u ≠ v → (shapes u).shp.bb.intersects (shapes v).shp.bb = true → (shapes u).shp.bb.Proper → (shapes v).shp.bb.Proper →
      (sc.moved shapes vel).Fits u → (sc.moved shapes vel).Fits v →
      ((s.step (.move (fun o => (shapes o).shp.bb) vel)).idx true u ≠ none ∨ (s.step (.move (fun o => (shapes o).shp.bb) vel)).idx false u ≠ none) →
      (s.step (.move (fun o => (shapes o).shp.bb) vel)).idx false v ≠ none → cntL log u v + cntL log v u = 1 := by
    intro u v huv hov pu pv fu fv hu hv
    obtain ⟨V, eV, cV⟩ := box v pv fv false hv
    obtain ⟨st, U, eU, cU⟩ : ∃ st U, ((s.step (.move (fun o => (shapes o).shp.bb) vel)).step (.reindexQuery (sc.moved shapes vel).nextId)).idx st u = some U ∧
        U.contains (shapes u).shp.bb = true := by
      rcases hu with hu | hu
      · obtain ⟨U, q⟩ := box u pu fu true hu; exact ⟨true, U, q⟩
      · obtain ⟨U, q⟩ := box u pu fu false hu; exact ⟨false, U, q⟩
    rw [hrp.exact st u v U V huv eU eV, if_pos]
    rw [BB.contains_iff_le] at cU cV
    refine cV.intersects ?_
    rw [BB.intersects_comm]
    exact cU.intersects (by rw [BB.intersects_comm]; exact hov)
  have hov : (shapes x).shp.bb.intersects (shapes y).shp.bb = true := ac.boxes
  rcases id with id | id
  · rw [Nat.add_comm]
    exact key y x hxy.symm (by rw [BB.intersects_comm]; exact hov) py px fy fx iy id
  · exact key x y hxy hov px py fx fy ix id

theorem fits_iff {h : Obj → Nat} {sc : Scene F} {s : Spec F} (k : sc.Ok h s) (x : Nat) :
    sc.Fits x ↔ ∀ B, s.idx true x = some B → B.contains (sc.shapes x).shp.bb = true := by
  have m := (C07_leaves h s sc.index k.hist true).2 x
  constructor
  · intro f B hB
    obtain ⟨l, h1, h2, h3⟩ := (m B).1 hB
    rw [← h3]; exact f l h1 h2
  · intro f l h1 h2
    exact f l.bb ((m l.bb).2 ⟨l, h1, h2, rfl⟩)

theorem BB.contains_self (b : BB F) : b.contains b = true := by
  rw [BB.contains_iff_le]; exact ⟨le_refl _, le_refl _, le_refl _, le_refl _⟩

theorem followed_fits {h : Obj → Nat} {sc sc' : Scene F} {s s' : Spec F} (k : sc.Ok h s) (k' : sc'.Ok h s') {again : Nat → Bool} {t : Sp F}
    (f : Followed again sc.sp t s s') (hsh : sc'.shapes = sc.shapes) (x : Nat) (hx : sc.Fits x ∨ x ∉ sc.sp.staticShapes) : sc'.Fits x := by
  rw [fits_iff k']
  intro B hB
  rw [f.stat] at hB
  rw [hsh]
  split_ifs at hB with h1 h2
  · rcases hx with hx | hx
    · exact (fits_iff k x).1 hx B hB
    · exact absurd h2.1 hx
  · cases hB
    simp only [Spec.fresh, if_true, k.sync.box]
    exact BB.contains_self _

/-- **C53**: when the condition on static shapes in `C53_all` holds: `ReindexShape` establishes it, adding a shape and putting
its body to sleep establish it, and it lasts as long as the box of the shape does not change. -/
theorem C53_fits [FloatSigns F] {h : Obj → Nat} {sc sc' : Scene F} (hr : sc.Reach h) (o : SceneOp F) (ok : o.Allowed sc)
    (he : sc.run h o = some sc') (x : Nat) (hx : o = .reindex x ∨ ¬ ((sc.sp.shapes x).inSpace = true ∧ ¬ sc.Mobile x) ∨
      (sc.Fits x ∧ (sc'.shapes x).shp.bb = (sc.shapes x).shp.bb)) : sc'.Fits x := by
  obtain ⟨s, k⟩ := reach_ok hr
  obtain ⟨-, -, -, m2⟩ := shape_lists k.sp
  have hst : x ∉ sc.sp.staticShapes ↔ ¬ ((sc.sp.shapes x).inSpace = true ∧ ¬ sc.Mobile x) := not_congr (m2 x)
  -- moving the geometry
  have hmv : ∀ shapes vel, (¬ ((sc.sp.shapes x).inSpace = true ∧ ¬ sc.Mobile x) ∨
      (sc.Fits x ∧ (shapes x : QShape F).shp.bb = (sc.shapes x).shp.bb)) → (sc.moved shapes vel).Fits x := by
    intro shapes vel q
    rw [fits_iff (k.moved shapes vel)]
    intro B hB
    have hB' : s.idx true x = some B := hB
    rcases q with q | ⟨q1, q2⟩
    · exact absurd ((k.sync.stat x).1 (by rw [hB']; simp)) (hst.2 q)
    · show B.contains (shapes x).shp.bb = true
      rw [q2]
      exact (fits_iff k x).1 q1 B hB'
  cases o with
  | move shapes vel =>
    simp only [Scene.run, Option.some.injEq] at he
    subst he
    rcases hx with hx | hx
    · cases hx
    · exact hmv shapes vel hx
  | collideBodies c on =>
    simp only [Scene.run, Option.some.injEq] at he
    subst he
    rcases hx with hx | hx | ⟨hx, -⟩
    · cases hx
    · intro l h1 h2
      have := (fits_iff k x).2 (fun B hB => absurd ((k.sync.stat x).1 (by rw [hB]; simp)) (hst.2 hx))
      exact this l h1 h2
    · exact hx
  | reindex sh =>
    obtain ⟨w, e', k'⟩ := reindex_ok k sh
    rw [e'] at he
    cases he
    rw [fits_iff k']
    intro B hB
    show B.contains (sc.shapes x).shp.bb = true
    by_cases q : x = sh
    · subst q
      simp only [Spec.step, and_self, if_true, Spec.refit, Bool.true_eq_false, false_and, if_false] at hB
      cases hi : s.idx true x with
      | none => rw [hi] at hB; cases hB
      | some B0 =>
        rw [hi] at hB
        simp only [Option.map_some, Option.some.injEq, k.sync.box, Spec.fresh, if_true] at hB
        split_ifs at hB with hc
        · rw [← hB]; exact hc
        · rw [← hB]; exact BB.contains_self _
    · simp only [Spec.step, q, and_false, if_false] at hB
      rcases hx with hx | hx | ⟨hx, -⟩
      · simp only [SceneOp.reindex.injEq] at hx; exact absurd hx.symm q
      · exact absurd ((k.sync.stat x).1 (by rw [hB]; simp)) (hst.2 hx)
      · exact (fits_iff k x).1 hx B hB
  | op o again =>
    obtain ⟨-, oa⟩ := ok
    obtain ⟨e1, r1⟩ := C44_no_panic k.sp o oa
    simp only [Scene.run, e1, Option.bind_eq_bind, Option.bind_some] at he
    obtain ⟨w, e2, e3⟩ := Option.bind_eq_some_iff.1 he
    cases e3
    obtain ⟨s', f, k'⟩ := ok_follow k.sp r1 k.hist k.sync e2
    refine followed_fits k k' f rfl x ?_
    rcases hx with hx | hx | ⟨hx, -⟩
    · cases hx
    · exact .inr (hst.2 hx)
    · exact .inl hx
  | step shapes vel answer i again =>
    rcases hx with hx | hx
    · cases hx
    by_cases hdt : i.dt = 0
    · simp only [Scene.run, if_pos hdt, Option.some.injEq] at he
      subst he
      rcases hx with hx | ⟨hx, -⟩
      · exact (fits_iff k x).2 (fun B hB => absurd ((k.sync.stat x).1 (by rw [hB]; simp)) (hst.2 hx))
      · exact hx
    obtain ⟨w, l, log, e1, hw, hrp, ht, so, e2⟩ := scene_step k shapes vel answer i again ok hdt
    rw [e2] at he
    obtain ⟨w', e3, e4⟩ := Option.map_eq_some_iff.1 he
    subst e4
    have km := k.moved shapes vel
    have y := step_sync km.sync (sc.moved shapes vel).nextId
    obtain ⟨s', f, k'⟩ := ok_follow (sc := { sc.moved shapes vel with index := w }) km.sp (C44_no_panic k.sp (.step { i with pairs := l }) so).2 hw
      ⟨y.box, y.dyn, y.stat⟩ e3
    have kw : ({ sc.moved shapes vel with index := w } : Scene F).Ok h
        ((s.step (.move (fun o => (shapes o).shp.bb) vel)).step (.reindexQuery (sc.moved shapes vel).nextId)) :=
      ⟨km.sp, hw, y.box, y.dyn, y.stat⟩
    refine followed_fits kw k' f rfl x ?_
    rcases hx with hx | hx
    · exact .inr (hst.2 hx)
    · refine .inl ?_
      have := hmv shapes vel (.inr hx)
      rw [fits_iff km] at this
      rw [fits_iff kw]
      intro B hB
      exact this B (by simpa [Spec.step] using hB)

/-! ### From the geometry to the callbacks -/

theorem proto_swap (p q : Nat) (tr : List Ev) : proto p q tr = proto q p tr := by
  have : protoStep p q = protoStep q p := by
    funext st e
    have : e.about p q = e.about q p := by
      simp only [Ev.about]
      rw [Bool.eq_iff_iff]
      simp only [Bool.or_eq_true]
      tauto
    simp only [protoStep, this]
  simp only [proto, this]

/-- **C53**: after a step, a pair that must be tested and has contacts has seen Begin and no Separate since. -/
theorem C53_touching [FloatSigns F] [FloatLaws F] {h : Obj → Nat} {sc sc' : Scene F} (hr : sc.Reach h) (shapes : Nat → QShape F)
    (vel : Nat → Vec F) (answer : Nat → Nat → Sp.CollideIn) (i : Sp.StepIn F) (again : Nat → Bool)
    (ok : (SceneOp.step shapes vel answer i again).Allowed sc) (hdt : i.dt ≠ 0)
    (he : sc.run h (.step shapes vel answer i again) = some sc') (x y : Nat) (hm : (sc.moved shapes vel).MustTest x y)
    (px : (shapes x).shp.bb.Proper) (py : (shapes y).shp.bb.Proper) (fx : (sc.moved shapes vel).Fits x)
    (fy : (sc.moved shapes vel).Fits y) (hc : Meets (shapes x) (shapes y)) : proto x y sc'.sp.trace = some true := by
  obtain ⟨w, l, e1, so, e2⟩ := C53_step hr shapes vel answer i again ok hdt he
  obtain ⟨w2, l2, e3, only, cnt⟩ := C53_only hr shapes vel answer ok.1
  obtain ⟨w3, l3, e4, all⟩ := C53_all hr shapes vel answer ok.1
  rw [e1] at e3 e4
  cases e3; cases e4
  obtain ⟨s, k⟩ := reach_ok hr
  have h1 := all x y hm px py fx fy
  obtain ⟨e, he, hp⟩ : ∃ e ∈ l, (e.a = x ∧ e.b = y) ∨ (e.a = y ∧ e.b = x) := by
    by_contra hne
    push Not at hne
    have : testCount l x y = 0 := by
      rw [testCount, List.countP_eq_zero]
      intro e he
      simp only [decide_eq_true_eq]
      rintro (q | q)
      · exact (hne e he).1 q.1 q.2
      · exact (hne e he).2 q.1 q.2
    omega
  obtain ⟨u, v, id, res, hcol, hcount, huv⟩ := cnt e he
  have hne : res.2.contacts ≠ [] := by
    have : (u = x ∧ v = y) ∨ (u = y ∧ v = x) := by
      rcases hp with ⟨p1, p2⟩ | ⟨p1, p2⟩ <;> rcases huv with ⟨q1, q2⟩ | ⟨q1, q2⟩ <;> omega
    rcases this with ⟨rfl, rfl⟩ | ⟨rfl, rfl⟩
    · exact hc id res (.inl hcol)
    · exact hc id res (.inr hcol)
  have hcn : e.count ≠ 0 := by rw [hcount]; simpa using hne
  have := C23_touching k.sp (i := { i with pairs := l }) hdt so e he hcn
  rw [e2]
  rcases hp with ⟨rfl, rfl⟩ | ⟨rfl, rfl⟩
  · exact this
  · rw [proto_swap]; exact this

/-- **C53**: after a step, a pair that need not be tested or has no contacts is apart: it has seen Separate if it ever began.
The body of one of the shapes must be able to move, before and after the step, and the callbacks of the second half of the step
wake nobody. -/
theorem C53_apart [FloatSigns F] {h : Obj → Nat} {sc sc' : Scene F} (hr : sc.Reach h) (shapes : Nat → QShape F)
    (vel : Nat → Vec F) (answer : Nat → Nat → Sp.CollideIn) (i : Sp.StepIn F) (again : Nat → Bool)
    (ok : (SceneOp.step shapes vel answer i again).Allowed sc) (hdt : i.dt ≠ 0)
    (he : sc.run h (.step shapes vel answer i again) = some sc') (q1 : ∀ y, i.sepActs y = []) (q2 : i.lateActs = [])
    (x y : Nat) (mx : sc.Mobile x) (mx' : sc'.sp.isSleeping (sc.sp.shapes x).body = false)
    (hc : ¬ (sc.moved shapes vel).MustTest x y ∨ Misses (shapes x) (shapes y)) : proto x y sc'.sp.trace = some false := by
  obtain ⟨w, l, e1, so, e2⟩ := C53_step hr shapes vel answer i again ok hdt he
  obtain ⟨w2, l2, e3, only, cnt⟩ := C53_only hr shapes vel answer ok.1
  rw [e1] at e3
  cases e3
  obtain ⟨s, k⟩ := reach_ok hr
  rw [e2] at mx' ⊢
  refine C23_apart k.sp (i := { i with pairs := l }) hdt so q1 q2 x y mx.1 mx.2 mx' ?_
  intro d hd hdc hp
  have htc : testCount l x y ≠ 0 := by
    rw [testCount, ne_eq, List.countP_eq_zero]
    push Not
    exact ⟨d, hd, by simpa using hp⟩
  rcases hc with hc | hc
  · exact hc ((only x y).2 htc)
  · obtain ⟨u, v, id, res, hcol, hcount, huv⟩ := cnt d hd
    apply hdc
    rw [hcount]
    have : (u = x ∧ v = y) ∨ (u = y ∧ v = x) := by
      rcases hp with ⟨p1, p2⟩ | ⟨p1, p2⟩ <;> rcases huv with ⟨q1, q2⟩ | ⟨q1, q2⟩ <;> omega
    rcases this with ⟨rfl, rfl⟩ | ⟨rfl, rfl⟩
    · rw [hc id res (.inl hcol)]; rfl
    · rw [hc id res (.inr hcol)]; rfl

/-! ### Two circles -/

theorem circles_meet (a b : Coll.Shp ℝ) (c1 c2 : Circle ℝ) (ha : a.cls = .circle c1) (hb : b.cls = .circle c2) (h0 : 0 < c1.r + c2.r)
    (id : Nat) (res : Bool × Coll.Info ℝ) (h : Coll.collide a b id = some res) :
    res.2.contacts = [] ↔ ¬ c1.tc.distance c2.tc < c1.r + c2.r := by
  have hd : (c2.tc.sub c1.tc).lengthSq < (c1.r + c2.r) * (c1.r + c2.r) ↔ c1.tc.distance c2.tc < c1.r + c2.r := by
    have e : c1.tc.distance c2.tc = Real.sqrt ((c2.tc.sub c1.tc).lengthSq) := by
      simp only [Vec.distance, Vec.length, sqrt_real, Vec.lengthSq, Vec.dot, Vec.sub]
      congr 1; ring
    rw [e, Real.sqrt_lt' h0, sq]
  simp only [Coll.collide, ha, hb, Coll.Cls.order, lt_irrefl, if_false, Coll.collideSorted, Coll.circleToCircle] at h
  rw [← hd]
  by_cases hlt : (c2.tc.sub c1.tc).lengthSq < (c1.r + c2.r) * (c1.r + c2.r)
  · rw [if_pos hlt] at h
    simp only [Coll.Info.push, List.length_nil, Nat.ofNat_pos, if_true, Option.map_some, Option.some.injEq] at h
    subst h
    simp [hlt]
  · rw [if_neg hlt] at h
    simp only [Option.map_some, Option.some.injEq] at h
    subst h
    simp [hlt]

/-- **C53**, from end to end for two circles: after a step the pair is touching (Begin has been called and no Separate since)
exactly if the circles overlap. Both are in the space, on different bodies, with filters that accept each other and without a
joint that forbids it, their boxes are those computed from the circles and, for a circle that cannot move, not outside its indexed box; the first
can move, before and after the step; the callbacks of the second half of the step wake nobody. -/
theorem C53_circles {h : Obj → Nat} {sc sc' : Scene ℝ} (hr : sc.Reach h) (shapes : Nat → QShape ℝ)
    (vel : Nat → Vec ℝ) (answer : Nat → Nat → Sp.CollideIn) (i : Sp.StepIn ℝ) (again : Nat → Bool)
    (ok : (SceneOp.step shapes vel answer i again).Allowed sc) (hdt : i.dt ≠ 0)
    (he : sc.run h (.step shapes vel answer i again) = some sc') (q1 : ∀ y, i.sepActs y = []) (q2 : i.lateActs = [])
    (x y : Nat) (cx cy : Circle ℝ) (hcx : (shapes x).shp.cls = .circle cx) (hcy : (shapes y).shp.cls = .circle cy)
    (bx : (shapes x).shp.bb = BB.forCircle cx.tc cx.r) (yb : (shapes y).shp.bb = BB.forCircle cy.tc cy.r)
    (rx : 0 ≤ cx.r) (ry : 0 ≤ cy.r) (hpos : 0 < cx.r + cy.r)
    (ix : (sc.sp.shapes x).inSpace = true) (iy : (sc.sp.shapes y).inSpace = true)
    (hb : (sc.sp.shapes x).body ≠ (sc.sp.shapes y).body) (hf : (shapes x).filter.reject (shapes y).filter = false)
    (hj : ∀ c, (sc.sp.cons c).inSpace = true → sc.sp.joins c (sc.sp.shapes x).body = true →
      sc.sp.joins c (sc.sp.shapes y).body = true → sc.collideBodies c = true)
    (fx : (sc.moved shapes vel).Fits x) (fy : (sc.moved shapes vel).Fits y)
    (mx : sc.Mobile x) (mx' : sc'.sp.isSleeping (sc.sp.shapes x).body = false) :
    (proto x y sc'.sp.trace = some true ↔ cx.tc.distance cy.tc < cx.r + cy.r) ∧
    (proto x y sc'.sp.trace = some false ↔ ¬ cx.tc.distance cy.tc < cx.r + cy.r) := by
  have hsym : cy.tc.distance cx.tc = cx.tc.distance cy.tc := by
    simp only [Vec.distance, Vec.length, sqrt_real, Vec.dot, Vec.sub]; congr 1; ring
  have meet : cx.tc.distance cy.tc < cx.r + cy.r → Meets (shapes x) (shapes y) := by
    intro hlt id res hcol
    rcases hcol with hcol | hcol
    · intro e; exact ((circles_meet _ _ cx cy hcx hcy hpos id res hcol).1 e) hlt
    · intro e
      exact ((circles_meet _ _ cy cx hcy hcx (by linarith) id res hcol).1 e) (by rw [hsym]; linarith)
  have miss : ¬ cx.tc.distance cy.tc < cx.r + cy.r → Misses (shapes x) (shapes y) := by
    intro hlt id res hcol
    rcases hcol with hcol | hcol
    · exact (circles_meet _ _ cx cy hcx hcy hpos id res hcol).2 hlt
    · exact (circles_meet _ _ cy cx hcy hcx (by linarith) id res hcol).2 (by rw [hsym, add_comm cy.r]; exact hlt)
  have hbox : cx.tc.distance cy.tc < cx.r + cy.r → (shapes x).shp.bb.intersects (shapes y).shp.bb = true := by
    intro hlt
    have hx : |cx.tc.x - cy.tc.x| ≤ cx.tc.distance cy.tc := by
      simp only [Vec.distance, Vec.length, sqrt_real, Vec.dot, Vec.sub]
      apply Real.abs_le_sqrt
      nlinarith [mul_self_nonneg (cx.tc.y - cy.tc.y)]
    have hy : |cx.tc.y - cy.tc.y| ≤ cx.tc.distance cy.tc := by
      simp only [Vec.distance, Vec.length, sqrt_real, Vec.dot, Vec.sub]
      apply Real.abs_le_sqrt
      nlinarith [mul_self_nonneg (cx.tc.x - cy.tc.x)]
    obtain ⟨x1, x2⟩ := abs_le.1 hx
    obtain ⟨y1, y2⟩ := abs_le.1 hy
    rw [bx, yb]
    simp only [BB.intersects, BB.forCircle, BB.forExtents, Bool.and_eq_true, decide_eq_true_eq]
    refine ⟨⟨⟨?_, ?_⟩, ?_⟩, ?_⟩ <;> apply decide_eq_true <;> linarith
  have px : (shapes x).shp.bb.Proper := by
    rw [bx]; simp only [BB.Proper, BB.forCircle, BB.forExtents]; constructor <;> linarith
  have py : (shapes y).shp.bb.Proper := by
    rw [yb]; simp only [BB.Proper, BB.forCircle, BB.forExtents]; constructor <;> linarith
  have t1 : cx.tc.distance cy.tc < cx.r + cy.r → proto x y sc'.sp.trace = some true := fun hlt =>
    C53_touching hr shapes vel answer i again ok hdt he x y ⟨ix, iy, .inl mx, hb, hf, hbox hlt, hj⟩ px py fx fy (meet hlt)
  have t2 : ¬ cx.tc.distance cy.tc < cx.r + cy.r → proto x y sc'.sp.trace = some false := fun hlt =>
    C53_apart hr shapes vel answer i again ok hdt he q1 q2 x y mx mx' (.inr (miss hlt))
  constructor
  · refine ⟨fun q => ?_, t1⟩
    by_contra hlt
    rw [t2 hlt] at q; cases q
  · refine ⟨fun q hlt => ?_, t2⟩
    rw [t1 hlt] at q; cases q

/-! ### Non-vacuity -/

section examples

/-- An operation on the space, as an operation on the scene. -/
theorem scene_op [FloatSigns F] {h : Obj → Nat} {sc : Scene F} (hr : sc.Reach h) (o : Sp.Op F) (hs : ∀ i, o ≠ .step i) (ok : o.Allowed sc.sp)
    (room : sc.size + 1 < 1610612740) :
    ∃ sc', Scene.Reach h sc' ∧ sc'.sp = sc.sp.after o ∧ sc'.shapes = sc.shapes ∧ sc'.collideBodies = sc.collideBodies ∧ sc'.size ≤ sc.size + 1 ∧
      Sp.Effect o sc.sp sc'.sp := by
  obtain ⟨s, k⟩ := reach_ok hr
  obtain ⟨sc', e, hr'⟩ := C53_no_panic hr (.op o fun _ => false) ⟨hs, ok⟩ room
  refine ⟨sc', hr', ?_⟩
  obtain ⟨e1, r1⟩ := C44_no_panic k.sp o ok
  simp only [Scene.run, e1, Option.bind_eq_bind, Option.bind_some] at e
  obtain ⟨w, e2, e3⟩ := Option.bind_eq_some_iff.1 e
  cases e3
  exact ⟨rfl, rfl, rfl, size_after k.sp o ok, C44_effect k.sp o ok⟩

/-- Circles of radius 1 with centres at `(d * o, 0)`; shape `o` belongs to body `o`. -/
noncomputable def rowShapes (d : ℝ) (o : Nat) : QShape ℝ :=
  ⟨⟨.circle { c := ⟨0, 0⟩, tc := ⟨d * o, 0⟩, r := 1 }, BB.forCircle ⟨d * o, 0⟩ 1, ⟨1, 0⟩, 0#64⟩, ShapeFilter.all, false⟩

/-- Two kinematic bodies in a space, each with a circle. -/
theorem twoCircles (d : ℝ) : ∃ sc : Scene ℝ, sc.Reach id ∧ (∀ o, o = 1 ∨ o = 2 → (sc.sp.shapes o).inSpace = true ∧ (sc.sp.shapes o).body = o) ∧
    sc.sp.typ 1 = .kinematic ∧ sc.sp.typ 2 = .kinematic ∧ sc.shapes = rowShapes d ∧
    (∀ c, (sc.sp.cons c).inSpace = false) ∧ sc.size + 1 < 1610612740 := by
  have hw : ∃ w, World.init (fun o => (rowShapes d o).shp.bb) (fun _ => ⟨0, 0⟩) = some w := by
    have : (HashSet.new : Option (HashSet Obj)).isSome = true := by decide +kernel
    obtain ⟨t, ht⟩ := Option.isSome_iff_exists.1 this
    simp only [World.init, ht]
    exact ⟨_, rfl⟩
  obtain ⟨w, hw⟩ := hw
  have r0 := Scene.Reach.new (h := id) 2 0 (fun _ => .kinematic) (fun o => (o, false)) (fun _ => (0, 0))
    (rowShapes d) (fun _ => ⟨0, 0⟩) (fun _ => true) w hw
  have z0 : Scene.size (F := ℝ) ⟨Sp.newSpace 2 0 (fun _ => .kinematic) (fun o => (o, false)) (fun _ => (0, 0)), w,
    rowShapes d, fun _ => true⟩ = 0 := rfl
  obtain ⟨s1, r1, e1, g1, -, z1, f1⟩ := scene_op r0 (.addBody 1) (by simp) ⟨rfl, by show 1 < 3; omega⟩ (by omega)
  obtain ⟨s2, r2, e2, g2, -, z2, f2⟩ := scene_op r1 (.addBody 2) (by simp) (by
    refine ⟨by rw [f1.bodyIn]; rfl, ?_⟩
    rw [e1]; show 2 < 3; omega) (by omega)
  have k1 : s2.sp.typ 1 = .kinematic := by rw [f2.types]; show s1.sp.typ 1 = _; rw [f1.types]; rfl
  have k2 : s2.sp.typ 2 = .kinematic := by rw [f2.types]; show s1.sp.typ 2 = _; rw [f1.types]; rfl
  have body2 : ∀ o, (s2.sp.shapes o).body = o := fun o => by rw [f2.shapeBody, f1.shapeBody]; rfl
  have out2 : ∀ o, (s2.sp.shapes o).inSpace = false := fun o => by
    rw [f2.shapeIn]; show (s1.sp.shapes o).inSpace = false; rw [f1.shapeIn]; rfl
  obtain ⟨s3, r3, e3, g3, -, z3, f3⟩ := scene_op r2 (.addShape 1) (by simp) ⟨out2 1, fun q => by rw [body2, k1] at q; cases q⟩ (by omega)
  have body3 : ∀ o, (s3.sp.shapes o).body = o := fun o => by rw [f3.shapeBody, body2]
  have k3 : ∀ b, s3.sp.typ b = s2.sp.typ b := fun b => by rw [f3.types]; rfl
  obtain ⟨s4, r4, e4, g4, -, z4, f4⟩ := scene_op r3 (.addShape 2) (by simp)
    ⟨by rw [f3.shapeIn]; exact out2 2, fun q => by rw [body3, k3, k2] at q; cases q⟩ (by omega)
  have k4 : ∀ b, s4.sp.typ b = s2.sp.typ b := fun b => by rw [f4.types]; exact k3 b
  refine ⟨s4, r4, ?_, by rw [k4, k1], by rw [k4, k2], by rw [g4, g3, g2, g1], ?_, by omega⟩
  · rintro o (rfl | rfl)
    · exact ⟨by rw [f4.shapeIn]; show (s3.sp.shapes 1).inSpace = true; rw [f3.shapeIn]; rfl, by rw [f4.shapeBody, body3]⟩
    · exact ⟨by rw [f4.shapeIn]; rfl, by rw [f4.shapeBody, body3]⟩
  · intro c
    rw [f4.conIn]; show (s3.sp.cons c).inSpace = false
    rw [f3.conIn]; show (s2.sp.cons c).inSpace = false
    rw [f2.conIn]; show (s1.sp.cons c).inSpace = false
    rw [f1.conIn]; rfl

/-- The hypotheses of `C53_no_panic`, `C53_step`, `C53_only`, `C53_all`, `C53_touching`, `C53_apart` and `C53_circles` are met: two circles one apart touch
after a step, two circles three apart do not. -/
example (d : ℝ) (hd : 0 ≤ d) : ∃ sc sc' : Scene ℝ, sc.Reach id ∧
    (∀ dt : ℝ, dt = 1 → sc.run id (.step (rowShapes d) (fun _ => ⟨0, 0⟩) (fun a b => { a := a, b := b, count := 0 })
      { dt := dt, moving := fun _ => true, pairs := [] } fun _ => false) = some sc') ∧
    (proto 1 2 sc'.sp.trace = some true ↔ d < 2) ∧ (proto 1 2 sc'.sp.trace = some false ↔ ¬ d < 2) := by
  obtain ⟨sc, hr, hin, t1, t2, hsh, hcons, hsz⟩ := twoCircles d
  have ok : (SceneOp.step (rowShapes d) (fun _ => ⟨0, 0⟩) (fun a b => { a := a, b := b, count := 0 })
      { dt := (1 : ℝ), moving := fun _ => true, pairs := [] } fun _ => false).Allowed sc :=
    ⟨fun _ _ => rfl, by simp, by simp⟩
  obtain ⟨sc', e, hr'⟩ := C53_no_panic hr _ ok hsz
  refine ⟨sc, sc', hr, fun dt q => by rw [q]; exact e, ?_⟩
  obtain ⟨s, k⟩ := reach_ok hr
  obtain ⟨s', k'⟩ := reach_ok hr'
  have b1 := (hin 1 (.inl rfl)).2
  have b2 := (hin 2 (.inr rfl)).2
  have wake : ∀ (u : Sp ℝ) (b : Nat), Sp.Reach u → u.typ b = .kinematic → u.isSleeping b = false := by
    intro u b hu ht
    by_contra hc
    have := ((C20_lists hu).2.2.2.2.2 b (by simpa using hc)).2
    rw [ht] at this; cases this
  have m1 : sc.Mobile 1 := ⟨by rw [b1, t1]; simp, by rw [b1]; exact wake _ _ k.sp t1⟩
  have m2 : sc.Mobile 2 := ⟨by rw [b2, t2]; simp, by rw [b2]; exact wake _ _ k.sp t2⟩
  have km := k.moved (rowShapes d) (fun _ => ⟨0, 0⟩)
  have fits : ∀ o, sc.Mobile o → (sc.moved (rowShapes d) (fun _ => ⟨0, 0⟩)).Fits o := by
    intro o mo
    rw [fits_iff km]
    intro B hB
    have : o ∈ sc.sp.staticShapes := (k.sync.stat o).1 (by
      have hB' : s.idx true o = some B := hB
      rw [hB']; simp)
    exact absurd mo (((shape_lists k.sp).2.2.2 o).1 this).2
  obtain ⟨w, l, -, so, e2⟩ := C53_step hr _ _ _ _ _ ok one_ne_zero e
  have t1' : sc'.sp.typ 1 = .kinematic := by
    rw [e2, (C44_effect k.sp (.step _) so).types]; exact t1
  have := C53_circles hr (rowShapes d) (fun _ => ⟨0, 0⟩) _ _ _ ok one_ne_zero e (fun _ => rfl) rfl 1 2 _ _ rfl rfl rfl rfl
    (by simp) (by simp) (by norm_num) (hin 1 (.inl rfl)).1 (hin 2 (.inr rfl)).1 (by rw [b1, b2]; simp) (by simp [rowShapes]; decide)
    (fun c hc => by rw [hcons c] at hc; cases hc) (fits 1 m1) (fits 2 m2) m1 (by rw [b1]; exact wake _ _ k'.sp t1')
  have hdist : (⟨d * (1 : Nat), 0⟩ : Vec ℝ).distance ⟨d * (2 : Nat), 0⟩ = d := by
    simp only [Vec.distance, Vec.length, sqrt_real, Vec.dot, Vec.sub]
    rw [show (d * ((1 : Nat) : ℝ) - d * ((2 : Nat) : ℝ)) * (d * ((1 : Nat) : ℝ) - d * ((2 : Nat) : ℝ)) + (0 - 0) * (0 - 0) = d ^ 2 by push_cast; ring]
    exact Real.sqrt_sq hd
  simp only [hdist] at this
  norm_num at this
  simpa using this

/-- Shape 1 is a big circle on the static body, shapes 2 to 5 are circles of radius 1 on bodies 2 to 5 resting on each other;
bodies 2 and 3 are joined by constraint 7, shapes 4 and 5 are in the same group. -/
def heapShapes (o : Nat) : QShape Rat :=
  let at' : Vec Rat := if o = 1 then ⟨0, -10⟩ else ⟨(o : Rat) - 3, 0⟩
  let r : Rat := if o = 1 then 10 else 1
  ⟨⟨.circle { c := ⟨0, 0⟩, tc := at', r := r }, BB.forCircle at' r, ⟨1, 0⟩, 0#64⟩,
    if 4 ≤ o then { ShapeFilter.all with group := 9#64 } else ShapeFilter.all, false⟩

def heapScene (flag : Bool) : Option (Scene Rat) := do
  let w ← World.init (fun o => (heapShapes o).shp.bb) (fun _ => ⟨0, 0⟩)
  let sc : Scene Rat := ⟨Sp.newSpace 5 8 (fun _ => .dynamic) (fun o => (if o = 1 then 0 else o, false)) (fun _ => (3, 2)), w, heapShapes, fun _ => true⟩
  let ops : List (SceneOp Rat) := [.op (.addShape 1) fun _ => false, .op (.addBody 2) fun _ => false, .op (.addBody 3) fun _ => false,
    .op (.addBody 4) fun _ => false, .op (.addBody 5) fun _ => false, .op (.addShape 2) fun _ => false, .op (.addShape 3) fun _ => false,
    .op (.addShape 4) fun _ => false, .op (.addShape 5) fun _ => false, .op (.addConstraint 7) fun _ => false, .collideBodies 7 flag]
  ops.foldlM (fun sc o => sc.run id o) sc

/-- The pairs a step would test, in order, with the number of contacts. -/
def heapTests (flag : Bool) : Option (List (Nat × Nat × Nat)) := do
  let sc ← heapScene flag
  let r ← sc.broadPhase fun a b => { a := a, b := b, count := 0 }
  some (r.2.map fun e => (e.a, e.b, e.count))

/-- The joint that forbids it (`flag = false`) takes out the pair 2, 3; the group takes out 4, 5; 2 and 5 are too far apart. -/
example : heapTests true = some [(1, 5, 1), (1, 4, 1), (5, 3, 0), (4, 3, 1), (1, 3, 1), (4, 2, 0), (3, 2, 1), (1, 2, 1)] ∧
    heapTests false = some [(1, 5, 1), (1, 4, 1), (5, 3, 0), (4, 3, 1), (1, 3, 1), (4, 2, 0), (1, 2, 1)] := by decide +kernel

end examples

end CP
