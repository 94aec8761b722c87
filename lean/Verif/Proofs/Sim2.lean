import Verif.Proofs.Sim

/-! # Proofs: shapes follow their bodies -/

namespace CP
variable {F : Type} [GoFloat F]

theorem Coll.Cls.cacheData_cacheData (c : Coll.Cls F) (t t' : Transform F) : (c.cacheData t).1.cacheData t' = c.cacheData t' := by
  cases c <;> rfl

theorem QShape.update_update (q : QShape F) (t t' : Transform F) : (q.update t).update t' = q.update t' := by
  simp only [QShape.update, Coll.Cls.cacheData_cacheData]

theorem QShape.turned_update (q : QShape F) (b : Body F) (t : Transform F) : (q.turned b).update t = (q.update t).turned b := rfl

theorem QShape.turned_turned (q : QShape F) (b c : Body F) : (q.turned b).turned c = q.turned c := rfl

namespace Sim

theorem settle_shape (s : Sim F) (x : Nat) : s.settle.sc.shapes x = (s.sc.shapes x).turned (s.mo.bodies (s.sc.sp.shapes x).body) := rfl

theorem settle_synced (s : Sim F) (x : Nat) : s.Synced x → s.settle.Synced x := by
  intro h
  show ((s.sc.shapes x).turned _).update _ = (s.sc.shapes x).turned _
  rw [QShape.turned_update]
  exact congrArg (fun q => QShape.turned q _) h

/-- Moving the geometry without changing boxes keeps shapes where they are filed. -/
theorem fits_moved [FloatSigns F] {hash : Obj → Nat} {sc : Scene F} (h : sc.Reach hash) (shapes : Nat → QShape F) (vel : Nat → Vec F) (x : Nat)
    (hx : ¬ ((sc.sp.shapes x).inSpace = true ∧ ¬ sc.Mobile x) ∨ (sc.Fits x ∧ (shapes x).shp.bb = (sc.shapes x).shp.bb)) :
    (sc.moved shapes vel).Fits x :=
  C53_fits h (.move shapes vel) trivial rfl x (.inr hx)

theorem settle_fits [FloatSigns F] {hash : Obj → Nat} {s : Sim F} (h : s.sc.Reach hash) {x : Nat} (hx : s.sc.Fits x) : s.settle.sc.Fits x :=
  fits_moved h _ _ x (.inr ⟨hx, rfl⟩)

theorem mobile_iff {s : Sim F} (h : s.engine.Reach) (x : Nat) :
    x ∈ s.sc.sp.dynamicShapes ↔ (s.sc.sp.shapes x).inSpace = true ∧ s.sc.Mobile x := (shape_lists h.good.1).2.2.1 x

open Classical in
/-- The transform of a body after a step is the one it had in the collision phase. -/
theorem step_transform {hash : Obj → Nat} {s : Sim F} (k : s.Ok hash) {i : SimIn F} (hdt : i.dt ≠ 0)
    {e : EngineIn F} {e' : Engine F} (he : e.dt = i.dt) (ok : (Engine.Call.step e).Allowed s.engine) (run : s.engine.call (.step e) = some e') (b : Nat) :
    (e'.mo.bodies b).transform = (s.movedPos i.dt b).transform ∧
    (¬ s.engine.awake b → (e'.mo.bodies b).transform = (s.mo.bodies b).transform) := by
  obtain ⟨r, fit⟩ := k.eng.good
  obtain ⟨L, w⟩ := r.world
  obtain ⟨e1, mid, h1, h2, h3, h4, h5, h6⟩ := Engine.step_took w fit e (by rw [he]; exact hdt) ok
  simp only [Engine.call, h1, Option.some.injEq] at run
  subst run
  have h := h5 b
  unfold Rigid at h
  have hm : s.movedPos i.dt b = if s.engine.awake b then (s.mo.bodies b).updatePosition e.dt else s.mo.bodies b := by
    show Motion.move s.engine.mo.bodies i.dt s.engine.sp.dynamicBodies b = _
    rw [moved_at _ _ h3.lists.dynNodup, he]
    have : b ∈ s.sc.sp.dynamicBodies ↔ s.engine.awake b := by
      rw [show s.sc.sp.dynamicBodies = s.engine.sp.dynamicBodies from rfl, h3.lists.dyn, Engine.awake_iff]
    have : b ∈ s.engine.sp.dynamicBodies ↔ s.engine.awake b := this
    simp only [this]; rfl
  rw [hm]
  constructor
  · rw [h]
    split <;> rfl
  · intro ha
    rw [h, if_neg ha]; rfl

/-- An awake body is moved with its velocity. -/
theorem movedPos_awake {s : Sim F} (r : s.engine.Reach) (dt : F) {b : Nat} (h : s.engine.awake b) :
    s.movedPos dt b = (s.mo.bodies b).updatePosition dt := by
  obtain ⟨L, w⟩ := r.good.1.world
  have l : s.sc.sp.Lists := w.good.lists w.unlocked
  show Motion.move s.mo.bodies dt s.sc.sp.dynamicBodies b = _
  rw [moved_at _ _ l.dynNodup, if_pos ((l.dyn b).2 (Engine.awake_iff.1 h))]

/-- The geometry after a step is that of its collision phase. -/
theorem step_shapes [FloatSigns F] {hash : Obj → Nat} {s s' : Sim F} (k : s.Ok hash) {i : SimIn F} (hdt : i.dt ≠ 0)
    (ok : (Call.step i).Allowed s) (run : s.step hash i = some s') (x : Nat) :
    s'.sc.shapes x = s.placed (Motion.move s.mo.bodies i.dt s.sc.sp.dynamicBodies) x ∧
    (s'.sc.sp.shapes x).body = (s.sc.sp.shapes x).body ∧ (s'.sc.sp.shapes x).inSpace = (s.sc.sp.shapes x).inSpace ∧
    ∀ b, (s'.mo.bodies b).transform = (s.movedPos i.dt b).transform ∧
      (¬ s.engine.awake b → (s'.mo.bodies b).transform = (s.mo.bodies b).transform) := by
  obtain ⟨found, arbs, w, start, mid, sp, w', T, f1, rfl, e1, e2, e3, e4⟩ := step_ok k hdt ok run
  have hstep : (Sp.Op.step ((SimIn.engine i (found.map Prod.fst) arbs).acts (Motion.move s.mo.bodies i.dt s.sc.sp.dynamicBodies))).run s.sc.sp = some sp := by
    show s.sc.sp.step _ = some sp
    rw [Sp.half_finish _ _ hdt]
    exact Option.bind_eq_some_iff.2 ⟨mid, T.half, T.finish⟩
  have oks : (Sp.Op.step ((SimIn.engine i (found.map Prod.fst) arbs).acts (Motion.move s.mo.bodies i.dt s.sc.sp.dynamicBodies))).Allowed s.sc.sp :=
    ⟨T.stepOk.pos, T.stepOk.pairs, T.stepOk.once⟩
  have hbody : (sp.shapes x).body = (s.sc.sp.shapes x).body := op_body k.eng.good.1 oks hstep x
  have hin : (sp.shapes x).inSpace = (s.sc.sp.shapes x).inSpace := by
    obtain ⟨L, w⟩ := k.eng.good.1.world
    obtain ⟨t', L', et, -, eff⟩ := Sp.op_good w _ oks
    have : t' = sp := Option.some.inj (et.symm.trans hstep)
    rw [← this]
    exact eff.shapeIn x
  have htr := fun b => step_transform k hdt (e := SimIn.engine i (found.map Prod.fst) arbs) rfl e2 e1 b
  refine ⟨?_, hbody, hin, htr⟩
  show (s.placed _ x).turned ((s.mo.tick _).bodies (sp.shapes x).body) = s.placed _ x
  have hrot : ((s.mo.tick ((SimIn.engine i (found.map Prod.fst) arbs).tick s.sc.sp mid)).bodies (sp.shapes x).body).rotation =
      (Motion.move s.mo.bodies i.dt s.sc.sp.dynamicBodies (s.sc.sp.shapes x).body).rotation := by
    rw [hbody]
    have := (htr (s.sc.sp.shapes x).body).1
    have : ((s.mo.tick ((SimIn.engine i (found.map Prod.fst) arbs).tick s.sc.sp mid)).bodies (s.sc.sp.shapes x).body).transform =
      (Motion.move s.mo.bodies i.dt s.sc.sp.dynamicBodies (s.sc.sp.shapes x).body).transform := this
    simp only [Body.rotation, this]
  simp only [QShape.turned, hrot, placed]
  split <;> rfl

/-- A shape that is in its place, or is put there by the step, is in the collision phase where its body is. -/
theorem placed_spec [FloatSigns F] {hash : Obj → Nat} {s s' : Sim F} (k : s.Ok hash) {i : SimIn F} (hdt : i.dt ≠ 0)
    (ok : (Call.step i).Allowed s) (run : s.step hash i = some s') {x : Nat} (hin : (s.sc.sp.shapes x).inSpace = true)
    (hx : s.sc.Mobile x ∨ s.InPlace x) : ∃ rot,
    s'.sc.shapes x = { (s.sc.shapes x).update (s'.mo.bodies (s.sc.sp.shapes x).body).transform with
      shp := { ((s.sc.shapes x).update (s'.mo.bodies (s.sc.sp.shapes x).body).transform).shp with rot := rot } } := by
  obtain ⟨h1, -, -, htr⟩ := step_shapes k hdt ok run x
  rw [h1]
  by_cases hm : x ∈ s.sc.sp.dynamicShapes
  · simp only [placed, if_pos hm]
    rw [(htr _).1]
    exact ⟨_, rfl⟩
  · have hmob : ¬ s.sc.Mobile x := fun q => hm ((mobile_iff k.eng x).2 ⟨hin, q⟩)
    have hna : ¬ s.engine.awake (s.sc.sp.shapes x).body := by
      intro ha
      refine hmob ⟨ha.2.1, ?_⟩
      have := (Engine.awake_iff.1 ha).2.2
      simp only [Sp.isSleeping]
      rw [show (s.sc.sp.bodies (s.sc.sp.shapes x).body).root = none from this]; rfl
    simp only [placed, if_neg hm]
    rw [(htr _).2 hna, (hx.resolve_left hmob).synced]
    exact ⟨_, rfl⟩

end Sim
end CP
