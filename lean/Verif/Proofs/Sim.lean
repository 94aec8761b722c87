import Verif.Spec.Sim
import Verif.Props.Scene
import Verif.Props.Engine

/-! # Proofs: a whole simulation is a scene and an engine running together -/

namespace CP
variable {F : Type} [GoFloat F]

theorem mapM_map_comm {α β γ : Type} (f : α → Option β) (g : β → γ) (l : List α) :
    l.mapM (fun a => (f a).map g) = (l.mapM f).map (List.map g) := by
  induction l with
  | nil => rfl
  | cons a l ih =>
    simp only [List.mapM_cons, ih]
    cases f a with
    | none => rfl
    | some b => cases l.mapM f <;> rfl

theorem filterMap_fst {α β : Type} (l : List (Option (α × β))) :
    (l.map (Option.map Prod.fst)).filterMap id = (l.filterMap id).map Prod.fst := by
  induction l with
  | nil => rfl
  | cons a l ih => cases a <;> simp_all

theorem Scene.test_find (sc : Scene F) (answer : Nat → Nat → Sp.CollideIn) (c : Obj × Obj × Cid) :
    sc.test answer c = (sc.find answer c).map (Option.map Prod.fst) := by
  simp only [Scene.test, Scene.find]
  cases sc.queryReject c.1 c.2.1 with
  | none => rfl
  | some r =>
    cases r with
    | true => rfl
    | false =>
      simp only [Option.bind_some, Bool.false_eq_true, if_false]
      cases Coll.collide (sc.shapes c.1).shp (sc.shapes c.2.1).shp c.2.2.toNat <;> rfl

theorem Scene.broadPhase_search (sc : Scene F) (answer : Nat → Nat → Sp.CollideIn) :
    sc.broadPhase answer = (sc.search answer).map fun r => (r.1, r.2.map Prod.fst) := by
  simp only [Scene.broadPhase, Scene.search]
  cases sc.index.reindexQuery sc.nextId with
  | none => rfl
  | some r =>
    have : sc.test answer = fun c => (sc.find answer c).map (Option.map Prod.fst) := funext (sc.test_find answer)
    simp only [Option.bind_some, this, mapM_map_comm]
    cases r.2.mapM (sc.find answer) with
    | none => rfl
    | some l => simp only [Option.map_some, filterMap_fst]

theorem Sp.half_opening (s : Sp F) (i : Sp.StepIn F) : s.half i = (s.opening i.posActs).bind fun s =>
    (i.pairs.foldlM Sp.collide s).bind fun s => s.unlock.bind fun s => s.processComponents i.dt i.moving := by
  simp only [Sp.half, Sp.opening, Option.bind_eq_bind, Option.bind_assoc, Option.bind_some]

namespace Sim

theorem touch_fst {surf : Nat → Surface F} {adjust : Nat → Nat → Arb F → Arb F} {h : Bodies F} {st : Sp F × (Nat → Arb F)}
    {d : Sp.CollideIn × Coll.Info F} {t : Sp F} (e : st.1.collide d.1 = some t) :
    ∃ arbs, touch surf adjust h st d = some (t, arbs) := by
  simp only [touch, e, Option.bind_eq_bind, Option.bind_some]
  split <;> exact ⟨_, rfl⟩

theorem touches_fst {surf : Nat → Surface F} {adjust : Nat → Nat → Arb F → Arb F} {h : Bodies F}
    (l : List (Sp.CollideIn × Coll.Info F)) {s t : Sp F} (arbs : Nat → Arb F) (e : (l.map Prod.fst).foldlM Sp.collide s = some t) :
    ∃ arbs', l.foldlM (touch surf adjust h) (s, arbs) = some (t, arbs') := by
  induction l generalizing s arbs with
  | nil => simp only [List.map_nil, List.foldlM_nil, Option.pure_def, Option.some.injEq] at e; subst e; exact ⟨arbs, rfl⟩
  | cons d l ih =>
    simp only [List.map_cons, List.foldlM_cons, Option.bind_eq_bind] at e
    obtain ⟨u, e1, e2⟩ := Option.bind_eq_some_iff.1 e
    obtain ⟨arbs1, e3⟩ := touch_fst (surf := surf) (adjust := adjust) (h := h) (st := (s, arbs)) e1
    obtain ⟨arbs2, e4⟩ := ih arbs1 e2
    exact ⟨arbs2, by rw [List.foldlM_cons, e3]; exact e4⟩

theorem solid_nonempty {c : Coll.Cls F} (h : c.Solid) : c.nonempty = true := by
  cases c with
  | poly s => 
    have := h.2
    simp only [Coll.Cls.nonempty]
    revert this
    cases s.dst <;> simp
  | _ => rfl

theorem solid_cacheData {c : Coll.Cls F} (h : c.Solid) (t : Transform F) : (c.cacheData t).1.Solid := by
  cases c with
  | poly s =>
    refine ⟨h.1, ?_⟩
    show s.src.map _ ≠ []
    simpa using h.1
  | _ => trivial

/-- What holds of every reachable simulation. -/
structure Ok (hash : Obj → Nat) (s : Sim F) : Prop where
  scene : s.sc.Reach hash
  eng : s.engine.Reach
  solid : ∀ x, (s.sc.shapes x).shp.cls.Solid
  rot : ∀ x, (s.sc.shapes x).shp.rot = (s.mo.bodies (s.sc.sp.shapes x).body).rotation

theorem Ok.settle {hash : Obj → Nat} {s : Sim F} (h1 : s.sc.Reach hash) (h2 : s.engine.Reach)
    (h3 : ∀ x, (s.sc.shapes x).shp.cls.Solid) : Ok hash s.settle :=
  ⟨.step (.move _ _) h1 trivial rfl, h2, h3, fun _ => rfl⟩

/-- What the bookkeeping of a step sees. -/
def scIn (s : Sim F) (i : SimIn F) : Sp.StepIn F :=
  (SimIn.engine i [] s.arbs).acts (Motion.move s.mo.bodies i.dt s.sc.sp.dynamicBodies)

/-- The parts of a step. -/
structure Took (hash : Obj → Nat) (s : Sim F) (i : SimIn F) (found : List (Sp.CollideIn × Coll.Info F)) (arbs : Nat → Arb F)
    (w : World F) (start mid sp : Sp F) : Prop where
  search : (s.ready i.dt).search i.answer = some (w, found)
  stepOk : Sp.StepOk s.sc.sp ((SimIn.engine i (found.map Prod.fst) arbs).acts s.mo.bodies)
  opening : s.sc.sp.opening i.posActs = some start
  touch : ∃ t, found.foldlM (touch s.surf i.adjust (Motion.move s.mo.bodies i.dt s.sc.sp.dynamicBodies)) (start, s.arbs) = some (t, arbs)
  half : s.sc.sp.half ((SimIn.engine i (found.map Prod.fst) arbs).acts (Motion.move s.mo.bodies i.dt s.sc.sp.dynamicBodies)) = some mid
  finish : mid.finish ((SimIn.engine i (found.map Prod.fst) arbs).acts (Motion.move s.mo.bodies i.dt s.sc.sp.dynamicBodies)) = some sp
  engine : s.engine.step (SimIn.engine i (found.map Prod.fst) arbs) =
    some ⟨sp, s.mo.tick ((SimIn.engine i (found.map Prod.fst) arbs).tick s.sc.sp mid)⟩
  scene : s.sc.run hash (.step (s.placed (Motion.move s.mo.bodies i.dt s.sc.sp.dynamicBodies))
      (Sim.vel s.sc.sp (Motion.move s.mo.bodies i.dt s.sc.sp.dynamicBodies)) i.answer (s.scIn i) i.again) =
    (Scene.follow hash i.again s.sc.sp sp w).map fun w' => { s.ready i.dt with sp := sp, index := w' }
  step : s.step hash i = (Scene.follow hash i.again s.sc.sp sp w).map fun w' => settle { s with
      sc := { s.ready i.dt with sp := sp, index := w' }
      mo := s.mo.tick ((SimIn.engine i (found.map Prod.fst) arbs).tick s.sc.sp mid)
      arbs := solved s.mo ((SimIn.engine i (found.map Prod.fst) arbs).tick s.sc.sp mid) }

theorem placed_solid {s : Sim F} (h : ∀ x, (s.sc.shapes x).shp.cls.Solid) (b : Bodies F) (x : Nat) : (s.placed b x).shp.cls.Solid := by
  simp only [placed]
  split
  · exact solid_cacheData (h x) _
  · exact h x

theorem took [FloatSigns F] {hash : Obj → Nat} {s : Sim F} (k : s.Ok hash) {i : SimIn F} (hdt : i.dt ≠ 0) (ok : (Call.step i).Allowed s) :
    ∃ found arbs w start mid sp, Took hash s i found arbs w start mid sp := by
  obtain ⟨sp0, ks⟩ := reach_ok k.scene
  have oks : (SceneOp.step (s.placed (Motion.move s.mo.bodies i.dt s.sc.sp.dynamicBodies))
      (Sim.vel s.sc.sp (Motion.move s.mo.bodies i.dt s.sc.sp.dynamicBodies)) i.answer (s.scIn i) i.again).Allowed s.sc :=
    ⟨fun x _ => solid_nonempty (placed_solid k.solid _ x), ok.1, ok.2⟩
  obtain ⟨w, l, log, e1, hw, hrp, ht, so, e2⟩ := scene_step ks _ _ _ _ i.again oks hdt
  obtain ⟨⟨w', found⟩, f1, f2⟩ : ∃ r, (s.ready i.dt).search i.answer = some r ∧ (w, l) = (r.1, r.2.map Prod.fst) := by
    have := Scene.broadPhase_search (s.ready i.dt) i.answer
    rw [show (s.ready i.dt).broadPhase i.answer = some (w, l) from e1] at this
    obtain ⟨r, h1, h2⟩ := Option.map_eq_some_iff.1 this.symm
    exact ⟨r, h1, h2.symm⟩
  obtain ⟨rfl, rfl⟩ := Prod.mk.inj f2
  have hst : ∀ arbs, { s.scIn i with pairs := found.map Prod.fst } =
      (SimIn.engine i (found.map Prod.fst) arbs).acts (Motion.move s.mo.bodies i.dt s.sc.sp.dynamicBodies) := fun _ => rfl
  obtain ⟨r, fit⟩ := k.eng.good
  obtain ⟨L, wd⟩ := r.world
  obtain ⟨mid, sp, H⟩ := Sp.halves wd so
  have hhalf := H.half
  rw [Sp.half_opening] at hhalf
  obtain ⟨start, o1, o2⟩ := Option.bind_eq_some_iff.1 hhalf
  obtain ⟨t, o3, o4⟩ := Option.bind_eq_some_iff.1 o2
  obtain ⟨arbs, o5⟩ := touches_fst (surf := s.surf) (adjust := i.adjust) (h := Motion.move s.mo.bodies i.dt s.sc.sp.dynamicBodies) found s.arbs o3
  have hafter : s.sc.sp.after (.step { s.scIn i with pairs := found.map Prod.fst }) = sp := by
    have h1 := (C44_no_panic r (.step { s.scIn i with pairs := found.map Prod.fst }) so).1
    have h2 : s.sc.sp.step { s.scIn i with pairs := found.map Prod.fst } = some sp := by
      rw [Sp.half_finish _ _ hdt]
      exact Option.bind_eq_some_iff.2 ⟨mid, H.half, H.finish⟩
    exact Option.some.inj (h1.symm.trans h2)
  refine ⟨found, arbs, w, start, mid, sp, f1, ⟨so.pos, so.pairs, so.once⟩, o1, ⟨t, o5⟩, H.half, H.finish, ?_, ?_, ?_⟩
  · have h1 := H.half
    have h2 := H.finish
    rw [hst arbs] at h1 h2
    have hd : (SimIn.engine i (found.map Prod.fst) arbs).dt ≠ 0 := hdt
    have h1' : s.engine.sp.half ((SimIn.engine i (found.map Prod.fst) arbs).acts (Motion.move s.engine.mo.bodies (SimIn.engine i (found.map Prod.fst) arbs).dt s.engine.sp.dynamicBodies)) = some mid := h1
    have h2' : mid.finish ((SimIn.engine i (found.map Prod.fst) arbs).acts (Motion.move s.engine.mo.bodies (SimIn.engine i (found.map Prod.fst) arbs).dt s.engine.sp.dynamicBodies)) = some sp := h2
    simp only [Engine.step, if_neg hd, h1', h2', Option.bind_eq_bind, Option.bind_some]
    rfl
  · rw [e2, hafter]; rfl
  · have h1 := H.half
    have h2 := H.finish
    have h1 : s.sc.sp.half ((SimIn.engine i (found.map Prod.fst) arbs).acts (Motion.move s.mo.bodies i.dt s.sc.sp.dynamicBodies)) = some mid := h1
    have h2 : mid.finish ((SimIn.engine i (found.map Prod.fst) arbs).acts (Motion.move s.mo.bodies i.dt s.sc.sp.dynamicBodies)) = some sp := h2
    have o1' : s.sc.sp.opening i.posActs = some start := o1
    simp only [step, if_neg hdt, f1, o1', o5, h1, h2, Option.bind_eq_bind, Option.bind_some]
    cases Scene.follow hash i.again s.sc.sp sp w <;> rfl

theorem fetch_move (hash : Obj → Nat) (s : Sim F) (x : Nat) (h : s.sc.Reach hash) : (s.fetch x).Reach hash :=
  .step (.move _ _) h trivial rfl

theorem before_reach (hash : Obj → Nat) (s : Sim F) (o : Sp.Op F) (h : s.sc.Reach hash) : (s.before o).Reach hash := by
  cases o <;> first | exact fetch_move hash s _ h | exact h

theorem before_sp (s : Sim F) (o : Sp.Op F) : (s.before o).sp = s.sc.sp := by cases o <;> rfl

theorem before_vel (s : Sim F) (o : Sp.Op F) : (s.before o).index.vel = s.sc.index.vel := by cases o <;> rfl

theorem fetch_shape (s : Sim F) (x y : Nat) : (s.fetch x).shapes y =
    if y = x then (s.sc.shapes x).update (s.mo.bodies (s.sc.sp.shapes x).body).transform else s.sc.shapes y := by
  show Function.update _ _ _ y = _
  rw [Function.update_apply]

theorem fetch_ok {s : Sim F} (x y : Nat) : ((s.sc.shapes y).shp.cls.Solid → ((s.fetch x).shapes y).shp.cls.Solid) ∧
    ((s.fetch x).shapes y).shp.rot = (s.sc.shapes y).shp.rot := by
  rw [fetch_shape]
  split
  · subst_vars; exact ⟨fun h => solid_cacheData h _, rfl⟩
  · exact ⟨id, rfl⟩

theorem before_ok {s : Sim F} (o : Sp.Op F) (y : Nat) : ((s.sc.shapes y).shp.cls.Solid → ((s.before o).shapes y).shp.cls.Solid) ∧
    ((s.before o).shapes y).shp.rot = (s.sc.shapes y).shp.rot := by
  cases o <;> first | exact fetch_ok _ y | exact ⟨id, rfl⟩

theorem step_ok [FloatSigns F] {hash : Obj → Nat} {s s' : Sim F} (k : s.Ok hash) {i : SimIn F} (hdt : i.dt ≠ 0)
    (ok : (Call.step i).Allowed s) (run : s.step hash i = some s') :
    ∃ found arbs w start mid sp w', Took hash s i found arbs w start mid sp ∧ Scene.follow hash i.again s.sc.sp sp w = some w' ∧
      s' = settle { s with
        sc := { s.ready i.dt with sp := sp, index := w' }
        mo := s.mo.tick ((SimIn.engine i (found.map Prod.fst) arbs).tick s.sc.sp mid)
        arbs := solved s.mo ((SimIn.engine i (found.map Prod.fst) arbs).tick s.sc.sp mid) } ∧
      s.engine.call (.step (SimIn.engine i (found.map Prod.fst) arbs)) = some s'.engine ∧
      (Engine.Call.step (SimIn.engine i (found.map Prod.fst) arbs)).Allowed s.engine ∧
      (SceneOp.step (s.placed (Motion.move s.mo.bodies i.dt s.sc.sp.dynamicBodies))
        (Sim.vel s.sc.sp (Motion.move s.mo.bodies i.dt s.sc.sp.dynamicBodies)) i.answer (s.scIn i) i.again).Allowed s.sc ∧
      s.sc.run hash (.step (s.placed (Motion.move s.mo.bodies i.dt s.sc.sp.dynamicBodies))
        (Sim.vel s.sc.sp (Motion.move s.mo.bodies i.dt s.sc.sp.dynamicBodies)) i.answer (s.scIn i) i.again) =
        some { s.ready i.dt with sp := sp, index := w' } := by
  obtain ⟨found, arbs, w, start, mid, sp, T⟩ := took k hdt ok
  have hr := run
  rw [T.step] at hr
  obtain ⟨w', f1, f2⟩ := Option.map_eq_some_iff.1 hr
  refine ⟨found, arbs, w, start, mid, sp, w', T, f1, f2.symm, ?_, T.stepOk, ?_, ?_⟩
  · rw [← f2]; exact T.engine
  · exact ⟨fun x _ => solid_nonempty (placed_solid k.solid _ x), ok.1, ok.2⟩
  · rw [T.scene, f1]; rfl

theorem run_op {hash : Obj → Nat} {sc sc' : Scene F} {o : Sp.Op F} {again : Nat → Bool} (h : sc.run hash (.op o again) = some sc') :
    ∃ t w, o.run sc.sp = some t ∧ sc' = { sc with sp := t, index := w } := by
  simp only [Scene.run, Option.bind_eq_bind] at h
  obtain ⟨t, h1, h2⟩ := Option.bind_eq_some_iff.1 h
  obtain ⟨w, -, h3⟩ := Option.bind_eq_some_iff.1 h2
  exact ⟨t, w, h1, (Option.some.inj h3).symm⟩

theorem run_reindex {hash : Obj → Nat} {sc sc' : Scene F} {x : Nat} (h : sc.run hash (.reindex x) = some sc') :
    ∃ w, sc' = { sc with index := w } := by
  simp only [Scene.run, Option.bind_eq_bind] at h
  obtain ⟨t, h1, h2⟩ := Option.bind_eq_some_iff.1 h
  obtain ⟨w, -, h3⟩ := Option.bind_eq_some_iff.1 h2
  exact ⟨w, (Option.some.inj h3).symm⟩

theorem op_body {s t : Sp F} (r : Sp.Reach s) {o : Sp.Op F} (ok : o.Allowed s) (h : o.run s = some t) (x : Nat) :
    (t.shapes x).body = (s.shapes x).body := by
  obtain ⟨L, w⟩ := r.world
  obtain ⟨t', L', et, -, eff⟩ := Sp.op_good w o ok
  rw [et] at h
  obtain rfl := Option.some.inj h
  exact eff.shapeBody x

theorem Reach.ok [FloatSigns F] {hash : Obj → Nat} {s : Sim F} (h : s.Reach hash) : s.Ok hash := by
  induction h with
  | new n m type shape con mo shapes surf flags arbs w ends solid rot hw =>
    exact ⟨.new n m type shape con shapes _ flags w hw, .new n m type shape con mo ends, solid, rot⟩
  | @call s s' c _ ok run ih => 
    have k := ih
    cases c with
    | op o again =>
      obtain ⟨sc, h1, rfl⟩ := Option.map_eq_some_iff.1 run
      have hs : sc.Reach hash := .step (.op o again) (before_reach hash s o k.scene) ⟨ok.2, by rw [before_sp]; exact ok.1⟩ h1
      obtain ⟨t, w, h2, rfl⟩ := run_op h1
      rw [before_sp] at h2
      refine ⟨hs, .call (.op o) k.eng ⟨ok.1, ok.2⟩ (by simp only [Engine.call, engine, h2, Option.map_some]),
        fun x => (before_ok o x).1 (k.solid x), fun x => ?_⟩
      show _ = (s.mo.bodies (t.shapes x).body).rotation
      rw [op_body k.eng.good.1 ok.1 h2]; exact (before_ok o x).2.trans (k.rot x)
    | poke b new again =>
      obtain ⟨sc, h1, rfl⟩ := Option.map_eq_some_iff.1 run
      have hs : sc.Reach hash := .step (.op (.activate b) again) k.scene ⟨by simp, trivial⟩ h1
      obtain ⟨t, w, h2, rfl⟩ := run_op h1
      refine .settle hs (.call (.poke b new) k.eng trivial ?_) k.solid
      have h2' : (Sp.Op.activate b).run s.engine.sp = some t := h2
      simp only [Engine.call, h2', Option.map_some, Option.some.injEq]
      rfl
    | tune c j =>
      obtain rfl := Option.some.inj run
      exact ⟨k.scene, .call (.tune c j) k.eng ok rfl, k.solid, k.rot⟩
    | flag c on =>
      obtain rfl := Option.some.inj run
      exact ⟨.step (.collideBodies c on) k.scene trivial rfl, k.eng, k.solid, k.rot⟩
    | reshape x q m =>
      obtain rfl := Option.some.inj run
      refine .settle (.step (.move _ _) k.scene trivial rfl) k.eng fun y => ?_
      show (Function.update s.sc.shapes x q y).shp.cls.Solid
      rw [Function.update_apply]
      split
      · exact ok
      · exact k.solid y
    | reindex x =>
      obtain ⟨sc, h1, rfl⟩ := Option.map_eq_some_iff.1 run
      have hs : sc.Reach hash := .step (.reindex x) (fetch_move hash s x k.scene) trivial h1
      obtain ⟨w, rfl⟩ := run_reindex h1
      exact ⟨hs, k.eng, fun y => (fetch_ok x y).1 (k.solid y), fun y => (fetch_ok x y).2.trans (k.rot y)⟩
    | step i =>
      by_cases hdt : i.dt = 0
      · simp only [Sim.call, step, if_pos hdt, Option.some.injEq] at run
        subst run; exact k
      · obtain ⟨found, arbs, w, start, mid, sp, w', T, f1, rfl, e1, e2, e3, e4⟩ := step_ok k hdt ok run
        exact .settle (.step _ k.scene e3 e4) (.call _ k.eng e2 e1) fun x => placed_solid k.solid _ x

end Sim
end CP
