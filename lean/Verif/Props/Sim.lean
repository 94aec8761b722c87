import Verif.Proofs.Sim2

/-! # C64: the whole engine runs together: shapes are where their bodies are, and what is tested, reported and pushed apart is what
is there

The theorems are about whole programs (`Sim.Reach`, Spec/Sim.lean): any calls in any order, from `NewSpace`, with nothing of a step given
as data but the arguments and what callbacks do. -/

namespace CP
variable {F : Type} [GoFloat F]
open Sim

/-- **C64.** A whole program is at the same time a program on a scene (what C07-C15 and C53 are about) and a program on moving bodies
(what C20-C28, C44 and C63 are about), so all of these hold of it. -/
theorem C64_parts [FloatSigns F] {hash : Obj → Nat} {s : Sim F} (h : s.Reach hash) :
    s.sc.Reach hash ∧ s.engine.Reach ∧ Sp.Reach s.sc.sp :=
  ⟨h.ok.scene, h.ok.eng, h.ok.eng.good.1⟩

/-- **C64.** No allowed call ever panics, in any reachable state with fewer than 1610612739 shapes: all the lists, trees, hash sets,
buffers and pairs of indices that a step goes through are as it needs them. -/
theorem C64_no_panic [FloatSigns F] {hash : Obj → Nat} {s : Sim F} (h : s.Reach hash) (c : Sim.Call F) (ok : c.Allowed s)
    (room : s.sc.size + 1 < 1610612740) : ∃ s', s.call hash c = some s' ∧ s'.Reach hash := by
  suffices ∃ s', s.call hash c = some s' by
    obtain ⟨s', e⟩ := this
    exact ⟨s', e, .call c h ok e⟩
  have k := h.ok
  cases c with
  | op o again =>
    obtain ⟨sc', e, -⟩ := C53_no_panic (before_reach hash s o k.scene) (.op o again) ⟨ok.2, by rw [before_sp]; exact ok.1⟩
      (by rw [Scene.size, before_sp]; exact room)
    exact ⟨_, by simp only [Sim.call, e, Option.map_some]; rfl⟩
  | poke b new again =>
    obtain ⟨sc', e, -⟩ := C53_no_panic k.scene (.op (.activate b) again) ⟨by simp, trivial⟩ room
    exact ⟨_, by simp only [Sim.call, e, Option.map_some]; rfl⟩
  | tune c j => exact ⟨_, rfl⟩
  | flag c on => exact ⟨_, rfl⟩
  | reshape x q m => exact ⟨_, rfl⟩
  | reindex x =>
    obtain ⟨sc', e, -⟩ := C53_no_panic (fetch_move hash s x k.scene) (.reindex x) trivial room
    exact ⟨_, by simp only [Sim.call, e, Option.map_some]; rfl⟩
  | step i =>
    by_cases hdt : i.dt = 0
    · exact ⟨s, by simp only [Sim.call, Sim.step, if_pos hdt]⟩
    obtain ⟨found, arbs, w, start, mid, sp, T⟩ := took k hdt ok
    obtain ⟨sc', e, -⟩ := C53_no_panic k.scene _ (show (SceneOp.step (s.placed (Motion.move s.mo.bodies i.dt s.sc.sp.dynamicBodies))
      (Sim.vel s.sc.sp (Motion.move s.mo.bodies i.dt s.sc.sp.dynamicBodies)) i.answer (s.scIn i) i.again).Allowed s.sc from
      ⟨fun x _ => solid_nonempty (placed_solid k.solid _ x), ok.1, ok.2⟩) room
    rw [T.scene] at e
    obtain ⟨w', e1, -⟩ := Option.map_eq_some_iff.1 e
    exact ⟨_, by simp only [Sim.call, T.step, e1, Option.map_some]; rfl⟩

/-- **C64.** Which calls keep shapes in their places: `AddShape`, `ReindexShape` and `Step` put the shape where its body is (`Step` if the
body is neither static nor asleep), and every other call leaves it there unless it moves the body or changes the shape itself. -/
theorem C64_inPlace [FloatSigns F] {hash : Obj → Nat} {s s' : Sim F} (h : s.Reach hash) (c : Sim.Call F) (ok : c.Allowed s)
    (run : s.call hash c = some s') (x : Nat) (hx : c.places s x ∨ (s.InPlace x ∧ ¬ c.displaces s x)) : s'.InPlace x := by
  have k := h.ok
  cases c with
  | op o again =>
    obtain ⟨sc', e, rfl⟩ := Option.map_eq_some_iff.1 run
    have okS : (SceneOp.op o again).Allowed (s.before o) := ⟨ok.2, by rw [before_sp]; exact ok.1⟩
    obtain ⟨t, w, e2, hsc⟩ := run_op e
    rw [before_sp] at e2
    have hb := op_body k.eng.good.1 ok.1 e2 x
    have hbox : (sc'.shapes x).shp.bb = ((s.before o).shapes x).shp.bb := by rw [hsc]
    -- where the shape is before the operation proper
    have key : ((s.before o).shapes x).update (s.mo.bodies (s.sc.sp.shapes x).body).transform = (s.before o).shapes x ∧
        (((s.before o).sp.shapes x).inSpace = false ∨ (s.before o).Fits x) := by
      by_cases ha : ∃ y, o = .addShape y
      · obtain ⟨y, rfl⟩ := ha
        have e3 : (s.before (.addShape y)).shapes x = if x = y then (s.sc.shapes y).update (s.mo.bodies (s.sc.sp.shapes y).body).transform else s.sc.shapes x :=
          fetch_shape s y x
        by_cases hxy : x = y
        · subst hxy
          rw [e3, if_pos rfl, QShape.update_update]
          exact ⟨rfl, .inl (ok.1 : _ ∧ _).1⟩
        · rcases hx with hx | ⟨hx, -⟩
          · exact absurd hx.symm hxy
          · rw [e3, if_neg hxy]
            exact ⟨hx.synced, .inr (fits_moved k.scene _ _ x (.inr ⟨hx.fits, by rw [Function.update_of_ne hxy]⟩))⟩
      · have e3 : s.before o = s.sc := by
          cases o <;> first | rfl | exact absurd ⟨_, rfl⟩ ha
        rcases hx with hx | ⟨hx, -⟩
        · exfalso
          revert hx
          cases o <;> first | exact id | exact fun _ => ha ⟨_, rfl⟩
        · rw [e3]; exact ⟨hx.synced, .inr hx.fits⟩
    constructor
    · show (sc'.shapes x).update (s.mo.bodies (sc'.sp.shapes x).body).transform = sc'.shapes x
      rw [hsc]
      show ((s.before o).shapes x).update (s.mo.bodies (t.shapes x).body).transform = (s.before o).shapes x
      rw [hb]; exact key.1
    · refine C53_fits (before_reach hash s o k.scene) _ okS e x (.inr ?_)
      rcases key.2 with q | q
      · exact .inl fun r => by rw [q] at r; exact absurd r.1 (by simp)
      · exact .inr ⟨q, hbox⟩
  | poke b new again =>
    obtain ⟨sc', e, rfl⟩ := Option.map_eq_some_iff.1 run
    rcases hx with hx | ⟨hx, hd⟩
    · exact hx.elim
    have hs : sc'.Reach hash := .step (.op (.activate b) again) k.scene ⟨by simp, trivial⟩ e
    have hf : sc'.Fits x := C53_fits k.scene (.op (.activate b) again) ⟨by simp, trivial⟩ e x (.inr (.inr ⟨hx.fits, by
      obtain ⟨t, w, -, hsc⟩ := run_op e; rw [hsc]⟩))
    obtain ⟨t, w, e2, rfl⟩ := run_op e
    refine ⟨settle_synced _ x ?_, settle_fits hs hf⟩
    show (s.sc.shapes x).update ((s.mo.bodies.set b new) (t.shapes x).body).transform = s.sc.shapes x
    have hbb : (t.shapes x).body = (s.sc.sp.shapes x).body := op_body k.eng.good.1 (o := .activate b) trivial e2 x
    rw [hbb]
    have : ((s.mo.bodies.set b new) (s.sc.sp.shapes x).body).transform = (s.mo.bodies (s.sc.sp.shapes x).body).transform := by
      unfold Bodies.set
      split
      · rename_i q
        by_contra hne
        exact hd ⟨q.symm, by rw [← q]; exact hne⟩
      · rfl
    rw [this]; exact hx.synced
  | tune c j =>
    obtain rfl := Option.some.inj run
    rcases hx with hx | ⟨hx, -⟩
    · exact hx.elim
    exact ⟨hx.synced, hx.fits⟩
  | flag c on =>
    obtain rfl := Option.some.inj run
    rcases hx with hx | ⟨hx, -⟩
    · exact hx.elim
    exact ⟨hx.synced, hx.fits⟩
  | reshape y q m =>
    obtain rfl := Option.some.inj run
    rcases hx with hx | ⟨hx, hd⟩
    · exact hx.elim
    have hxy : x ≠ y := fun e => hd e.symm
    refine ⟨settle_synced _ x ?_, settle_fits (.step (.move _ _) k.scene trivial rfl) (fits_moved k.scene _ _ x (.inr ⟨hx.fits, by rw [Function.update_of_ne hxy]⟩))⟩
    show (Function.update s.sc.shapes y q x).update _ = Function.update s.sc.shapes y q x
    rw [Function.update_of_ne hxy]; exact hx.synced
  | reindex y =>
    obtain ⟨sc', e, rfl⟩ := Option.map_eq_some_iff.1 run
    have e3 := fetch_shape s y x
    have key : ((s.fetch y).shapes x).update (s.mo.bodies (s.sc.sp.shapes x).body).transform = (s.fetch y).shapes x := by
      rw [e3]
      by_cases hxy : x = y
      · subst hxy; rw [if_pos rfl, QShape.update_update]
      · rcases hx with hx | ⟨hx, -⟩
        · exact absurd hx.symm hxy
        · rw [if_neg hxy]; exact hx.synced
    have hf : sc'.Fits x := by
      refine C53_fits (fetch_move hash s y k.scene) (.reindex y) trivial e x ?_
      by_cases hxy : x = y
      · exact .inl (by rw [hxy])
      · rcases hx with hx | ⟨hx, -⟩
        · exact absurd hx.symm hxy
        · refine .inr (.inr ⟨fits_moved k.scene _ _ x (.inr ⟨hx.fits, by rw [Function.update_of_ne hxy]⟩), ?_⟩)
          obtain ⟨w, hsc⟩ := run_reindex e
          rw [hsc]
    refine ⟨?_, hf⟩
    obtain ⟨w, rfl⟩ := run_reindex e
    exact key
  | step i =>
    by_cases hdt : i.dt = 0
    · simp only [Sim.call, Sim.step, if_pos hdt, Option.some.injEq] at run
      subst run
      rcases hx with hx | ⟨hx, -⟩
      · exact absurd hdt hx.1
      · exact hx
    obtain ⟨found, arbs, w, start, mid, sp, w', T, f1, rfl, e1, e2, e3, e4⟩ := step_ok k hdt ok run
    have hin : (s.sc.sp.shapes x).inSpace = true := by
      rcases hx with hx | ⟨-, hd⟩
      · exact hx.2.1
      · simpa using (show ¬ (s.sc.sp.shapes x).inSpace = false from hd)
    have hs : ({ s.ready i.dt with sp := sp, index := w' } : Scene F).Reach hash := .step _ k.scene e3 e4
    have hstep : (Sp.Op.step ((SimIn.engine i (found.map Prod.fst) arbs).acts (Motion.move s.mo.bodies i.dt s.sc.sp.dynamicBodies))).run s.sc.sp = some sp := by
      show s.sc.sp.step _ = some sp
      rw [Sp.half_finish _ _ hdt]
      exact Option.bind_eq_some_iff.2 ⟨mid, T.half, T.finish⟩
    have hbody : (sp.shapes x).body = (s.sc.sp.shapes x).body :=
      op_body k.eng.good.1 (o := .step ((SimIn.engine i (found.map Prod.fst) arbs).acts (Motion.move s.mo.bodies i.dt s.sc.sp.dynamicBodies))) ⟨T.stepOk.pos, T.stepOk.pairs, T.stepOk.once⟩ hstep x
    have htr := step_transform k hdt (e := SimIn.engine i (found.map Prod.fst) arbs) rfl e2 e1 (s.sc.sp.shapes x).body
    refine ⟨settle_synced _ x ?_, settle_fits hs ?_⟩
    · show (s.placed (Motion.move s.mo.bodies i.dt s.sc.sp.dynamicBodies) x).update ((s.mo.tick _).bodies (sp.shapes x).body).transform =
        s.placed (Motion.move s.mo.bodies i.dt s.sc.sp.dynamicBodies) x
      rw [hbody]
      by_cases hm : x ∈ s.sc.sp.dynamicShapes
      · simp only [placed, if_pos hm, QShape.update_update]
        rw [show ((s.mo.tick ((SimIn.engine i (found.map Prod.fst) arbs).tick s.sc.sp mid)).bodies (s.sc.sp.shapes x).body).transform = _ from htr.1]
        rfl
      · have hmob : ¬ s.sc.Mobile x := fun q => hm ((mobile_iff k.eng x).2 ⟨hin, q⟩)
        have hna : ¬ s.engine.awake (s.sc.sp.shapes x).body := by
          intro ha
          refine hmob ⟨ha.2.1, ?_⟩
          have := (Engine.awake_iff.1 ha).2.2
          simp only [Sp.isSleeping]
          rw [show (s.sc.sp.bodies (s.sc.sp.shapes x).body).root = none from this]; rfl
        have hp : s.InPlace x := by
          rcases hx with hx | ⟨hx, -⟩
          · exact absurd hx.2.2 hmob
          · exact hx
        simp only [placed, if_neg hm]
        rw [show ((s.mo.tick ((SimIn.engine i (found.map Prod.fst) arbs).tick s.sc.sp mid)).bodies (s.sc.sp.shapes x).body).transform = _ from htr.2 hna,
          QShape.turned_update]
        exact congrArg (fun q => QShape.turned q _) hp.synced
    · refine C53_fits k.scene _ e3 e4 x (.inr ?_)
      by_cases hm : s.sc.Mobile x
      · exact .inl fun q => q.2 hm
      · have hp : s.InPlace x := by
          rcases hx with hx | ⟨hx, -⟩
          · exact absurd hx.2.2 hm
          · exact hx
        refine .inr ⟨hp.fits, ?_⟩
        show (s.placed _ x).shp.bb = _
        simp only [placed, if_neg fun q => hm ((mobile_iff k.eng x).1 q).2]
        rfl

/-- **C64.** After a step every shape of the space is where its body is (so queries answer for the positions the bodies have), if
before it the shapes of static and sleeping bodies were. -/
theorem C64_after_step [FloatSigns F] {hash : Obj → Nat} {s s' : Sim F} (h : s.Reach hash) {i : SimIn F} (hdt : i.dt ≠ 0)
    (ok : (Sim.Call.step i).Allowed s) (run : s.call hash (.step i) = some s')
    (rest : ∀ x, (s.sc.sp.shapes x).inSpace = true → ¬ s.sc.Mobile x → s.InPlace x) :
    ∀ x, (s'.sc.sp.shapes x).inSpace = true → s'.InPlace x := by
  intro x hx
  rw [(step_shapes h.ok hdt ok run x).2.2.1] at hx
  refine C64_inPlace h (.step i) ok run x ?_
  by_cases hm : s.sc.Mobile x
  · exact .inl ⟨hdt, hx, hm⟩
  · exact .inr ⟨rest x hx hm, by simp [Sim.Call.displaces, hx]⟩

/-- **C64.** Which pairs a step tests, for the positions the bodies really have: `s'` is the state after the step, whose shapes are those
the collision phase saw. The step is the bookkeeping and the solver of C63 on a list of pairs that contains no pair but those that must be
tested at these positions, none of them twice; and all of them, if their boxes are proper and shapes of static and sleeping bodies
are in their places. -/
theorem C64_tests [FloatSigns F] [FloatLaws F] {hash : Obj → Nat} {s s' : Sim F} (h : s.Reach hash) {i : SimIn F} (hdt : i.dt ≠ 0)
    (ok : (Sim.Call.step i).Allowed s) (run : s.call hash (.step i) = some s') :
    ∃ e : EngineIn F, e.dt = i.dt ∧ e.gravity = i.gravity ∧ e.damping = i.damping ∧ e.iterations = i.iterations ∧
      e.slop = i.slop ∧ e.collisionBias = i.collisionBias ∧ e.idleSpeed = i.idleSpeed ∧ e.sepActs = i.sepActs ∧ e.lateActs = i.lateActs ∧
      (Engine.Call.step e).Allowed s.engine ∧ s.engine.call (.step e) = some s'.engine ∧
      (∀ x y, testCount e.pairs x y ≤ 1 ∧ (testCount e.pairs x y ≠ 0 → ({ s.sc with shapes := s'.sc.shapes } : Scene F).MustTest x y)) ∧
      (∀ x y, ({ s.sc with shapes := s'.sc.shapes } : Scene F).MustTest x y →
        (s'.sc.shapes x).shp.bb.Proper → (s'.sc.shapes y).shp.bb.Proper → (s.sc.Mobile x ∨ s.InPlace x) → (s.sc.Mobile y ∨ s.InPlace y) →
        testCount e.pairs x y = 1) ∧
      (∀ d ∈ e.pairs, ∃ x y id res, Coll.collide (s'.sc.shapes x).shp (s'.sc.shapes y).shp id = some res ∧
        d.count = res.2.contacts.length ∧ ((d.a = x ∧ d.b = y) ∨ (d.a = y ∧ d.b = x))) := by
  have k := h.ok
  obtain ⟨found, arbs, w, start, mid, sp, w', T, f1, hs', e1, e2, e3, e4⟩ := step_ok k hdt ok run
  have hsh : s'.sc.shapes = s.placed (Motion.move s.mo.bodies i.dt s.sc.sp.dynamicBodies) := funext fun x => (step_shapes k hdt ok run x).1
  refine ⟨SimIn.engine i (found.map Prod.fst) arbs, rfl, rfl, rfl, rfl, rfl, rfl, rfl, rfl, rfl, e2, e1, ?_⟩
  have hbp : (s.ready i.dt).broadPhase i.answer = some (w, found.map Prod.fst) := by
    rw [Scene.broadPhase_search, T.search]; rfl
  have conv : ∀ x y, (s.ready i.dt).MustTest x y ↔ ({ s.sc with shapes := s'.sc.shapes } : Scene F).MustTest x y := by
    intro x y
    rw [hsh]
    exact ⟨fun q => ⟨q.1, q.2, q.3, q.4, q.5, q.6, q.7⟩, fun q => ⟨q.1, q.2, q.3, q.4, q.5, q.6, q.7⟩⟩
  obtain ⟨w2, l2, b2, only, cnt⟩ := C53_only k.scene (s.placed (Motion.move s.mo.bodies i.dt s.sc.sp.dynamicBodies)) _ i.answer e3.1
  obtain ⟨w3, l3, b3, all⟩ := C53_all k.scene (s.placed (Motion.move s.mo.bodies i.dt s.sc.sp.dynamicBodies)) _ i.answer e3.1
  have b2' := hbp.symm.trans b2
  have b3' := hbp.symm.trans b3
  cases b2'; cases b3'
  refine ⟨fun x y => ⟨(only x y).1, fun q => (conv x y).1 ((only x y).2 q)⟩, fun x y hm px py ix iy => ?_, fun d hd => ?_⟩
  · have hfit : ∀ z, (s.sc.sp.shapes z).inSpace = true → (s.sc.Mobile z ∨ s.InPlace z) → (s.ready i.dt).Fits z := by
      intro z hz hiz
      refine fits_moved k.scene _ _ z ?_
      by_cases hmz : s.sc.Mobile z
      · exact .inl fun q => q.2 hmz
      · refine .inr ⟨(hiz.resolve_left hmz).fits, ?_⟩
        simp only [placed, if_neg fun q => hmz ((mobile_iff k.eng z).1 q).2]
        rfl
    rw [hsh] at px py
    exact all x y ((conv x y).2 hm) px py (hfit x hm.inX ix) (hfit y hm.inY iy)
  · rw [hsh]; exact cnt d hd

/-- **C64.** A free body, from end to end: an awake body without joints that, where the step has moved it, touches nothing (its shapes and the
acceptable shapes of other bodies have disjoint boxes, or the narrow phase finds no contact) is moved with its velocity and then
accelerated by gravity, its forces and the damping, exactly once; if it falls asleep it is only moved. (The Separate, PostSolve and joint callbacks
wake nobody in this step.) -/
theorem C64_free [FloatSigns F] [FloatLaws F] {hash : Obj → Nat} {s s' : Sim F} (h : s.Reach hash) {i : SimIn F} (hdt : i.dt ≠ 0)
    (ok : (Sim.Call.step i).Allowed s) (quiet : (∀ y, i.sepActs y = []) ∧ i.lateActs = []) (run : s.call hash (.step i) = some s') {b : Nat}
    (before : s.engine.awake b) (free : ¬ s.engine.joined b)
    (apart : ∀ x y, (s.sc.sp.shapes x).inSpace = true → (s.sc.sp.shapes y).inSpace = true → (s.sc.sp.shapes x).body = b → (s.sc.sp.shapes y).body ≠ b →
      (s.sc.shapes x).filter.reject (s.sc.shapes y).filter = true ∨ (s'.sc.shapes x).shp.bb.intersects (s'.sc.shapes y).shp.bb = false ∨
      Misses (s'.sc.shapes x) (s'.sc.shapes y)) [Decidable (s'.engine.asleep b)] :
    s'.mo.bodies b =
      if s'.engine.asleep b then (s.mo.bodies b).updatePosition i.dt
      else ((s.mo.bodies b).updatePosition i.dt).updateVelocity i.gravity (GoFloat.pow i.damping i.dt) i.dt := by
  obtain ⟨e, h1, h2, h3, -, -, -, -, h4, h5, h6, h7, only, -, cnt⟩ := C64_tests h hdt ok run
  have k := h.ok
  have hfil : ∀ x, (s'.sc.shapes x).filter = (s.sc.shapes x).filter := by
    intro x
    rw [(step_shapes k hdt ok run x).1]
    simp only [placed]
    split <;> rfl
  have := C63_free k.eng (i := e) (by rw [h1]; exact hdt) h6 (by rw [h4, h5]; exact quiet) h7 before ⟨?_, free⟩
  · rw [h1, h2, h3] at this
    have e' : s'.engine.mo.bodies b = s'.mo.bodies b := rfl
    rw [← e', this]
    congr!
  · rintro ⟨d, hd, hc, hb⟩
    obtain ⟨x, y, id, res, hcol, hcount, hxy⟩ := cnt d hd
    have htc : testCount e.pairs x y ≠ 0 := by
      rw [testCount, ne_eq, List.countP_eq_zero]
      push Not
      exact ⟨d, hd, by simpa using hxy⟩
    have hm := (only x y).2 htc
    have hf : (s.sc.shapes x).filter.reject (s.sc.shapes y).filter = false := by rw [← hfil, ← hfil]; exact hm.filters
    have hne : (s.sc.sp.shapes x).body ≠ (s.sc.sp.shapes y).body := hm.bodies
    have hend : (s.sc.sp.shapes x).body = b ∨ (s.sc.sp.shapes y).body = b := by
      rcases hxy with ⟨p, q⟩ | ⟨p, q⟩ <;> rw [p, q] at hb
      · exact hb
      · exact hb.symm
    have hcz : res.2.contacts ≠ [] := fun q => hc (by rw [hcount, q]; rfl)
    rcases hend with hb | hb
    · rcases apart x y hm.inX hm.inY hb (fun q => hne (hb.trans q.symm)) with q | q | q
      · rw [hf] at q; cases q
      · rw [hm.boxes] at q; cases q
      · exact hcz (q id res (.inl hcol))
    · rcases apart y x hm.inY hm.inX hb (fun q => hne (q.trans hb.symm)) with q | q | q
      · rw [C05_symm, hf] at q; cases q
      · have := hm.boxes
        rw [BB.intersects_comm] at this
        rw [this] at q; cases q
      · exact hcz (q id res (.inr hcol))

/-- **C64.** A group of awake bodies, from end to end (in exact arithmetic): if, where the step has moved them, its shapes touch no shape
of other bodies and no joint leads out of it, then whatever happens between the bodies of the group, the group moves like one point mass: its total momentum
is changed by gravity, forces and damping alone, and its centre of mass moves with the momentum it had. -/
theorem C64_group {hash : Obj → Nat} {s s' : Sim ℝ} (h : s.Reach hash) {i : SimIn ℝ} (hdt : i.dt ≠ 0)
    (ok : (Sim.Call.step i).Allowed s) (quiet : (∀ y, i.sepActs y = []) ∧ i.lateActs = []) (run : s.call hash (.step i) = some s')
    (S : Finset Nat) (M : ℝ) (group : Group S M s.mo) (before : ∀ b ∈ S, s.engine.awake b) (after : ∀ b ∈ S, ¬ s'.engine.asleep b)
    (apart : ∀ x y, (s.sc.sp.shapes x).inSpace = true → (s.sc.sp.shapes y).inSpace = true → (s.sc.sp.shapes x).body ∈ S → (s.sc.sp.shapes y).body ∉ S →
      (s.sc.shapes x).filter.reject (s.sc.shapes y).filter = true ∨ (s'.sc.shapes x).shp.bb.intersects (s'.sc.shapes y).shp.bb = false ∨
      Misses (s'.sc.shapes x) (s'.sc.shapes y)) :
    Group S M s'.mo ∧
    (whole S s'.mo.bodies).moment = (whole S s.mo.bodies).moment.add ((whole S s.mo.bodies).momentum.mult i.dt) ∧
    (whole S s'.mo.bodies).momentum = ((whole S s.mo.bodies).momentum.mult (i.damping ^ i.dt)).add
      (((i.gravity.mult M).add (whole S s.mo.bodies).force).mult i.dt) ∧
    (whole S s'.mo.bodies).force = ⟨0, 0⟩ := by
  obtain ⟨e, h1, h2, h3, -, -, -, -, h4, h5, h6, h7, only, -, cnt⟩ := C64_tests h hdt ok run
  have k := h.ok
  have hfil : ∀ x, (s'.sc.shapes x).filter = (s.sc.shapes x).filter := by
    intro x
    rw [(step_shapes k hdt ok run x).1]
    simp only [placed]
    split <;> rfl
  have := C63_group k.eng (i := e) (by rw [h1]; exact hdt) h6 h7 S M group before after (by rw [h4, h5]; exact quiet) ?_
  · rw [h1, h2, h3] at this
    exact this
  · intro d hd hc
    obtain ⟨x, y, id, res, hcol, hcount, hxy⟩ := cnt d hd
    have htc : testCount e.pairs x y ≠ 0 := by
      rw [testCount, ne_eq, List.countP_eq_zero]
      push Not
      exact ⟨d, hd, by simpa using hxy⟩
    have hm := (only x y).2 htc
    have hf : (s.sc.shapes x).filter.reject (s.sc.shapes y).filter = false := by rw [← hfil, ← hfil]; exact hm.filters
    have hcz : res.2.contacts ≠ [] := fun q => hc (by rw [hcount, q]; rfl)
    have key : Isolates S (s.sc.sp.shapes x).body (s.sc.sp.shapes y).body := by
      constructor
      · intro hx
        by_contra hy
        rcases apart x y hm.inX hm.inY hx hy with q | q | q
        · rw [hf] at q; cases q
        · rw [hm.boxes] at q; cases q
        · exact hcz (q id res (.inl hcol))
      · intro hy
        by_contra hx
        rcases apart y x hm.inY hm.inX hy hx with q | q | q
        · rw [C05_symm, hf] at q; cases q
        · have := hm.boxes
          rw [BB.intersects_comm] at this
          rw [this] at q; cases q
        · exact hcz (q id res (.inr hcol))
    rcases hxy with ⟨p, q⟩ | ⟨p, q⟩ <;> rw [p, q]
    · exact key
    · exact key.symm

/-- **C64**, from end to end for two circles: after a step the pair is touching (Begin has been called and no Separate since) exactly if the
distance of their centres, where the bodies are after the step, is less than the sum of the radii. Both are in the space, on
different bodies, with filters that accept each other and without a joint that forbids it; the body of the first is neither static nor asleep,
before and after the step; the second is in its place if its body is static or asleep; the callbacks of the second half of the step
wake nobody. -/
theorem C64_circles {hash : Obj → Nat} {s s' : Sim ℝ} (h : s.Reach hash) {i : SimIn ℝ} (hdt : i.dt ≠ 0)
    (ok : (Sim.Call.step i).Allowed s) (quiet : (∀ y, i.sepActs y = []) ∧ i.lateActs = []) (run : s.call hash (.step i) = some s')
    (x y : Nat) (cx cy : Circle ℝ) (hcx : (s.sc.shapes x).shp.cls = .circle cx) (hcy : (s.sc.shapes y).shp.cls = .circle cy)
    (rx : 0 ≤ cx.r) (ry : 0 ≤ cy.r) (hpos : 0 < cx.r + cy.r)
    (ix : (s.sc.sp.shapes x).inSpace = true) (iy : (s.sc.sp.shapes y).inSpace = true)
    (hb : (s.sc.sp.shapes x).body ≠ (s.sc.sp.shapes y).body) (hf : (s.sc.shapes x).filter.reject (s.sc.shapes y).filter = false)
    (hj : ∀ c, (s.sc.sp.cons c).inSpace = true → s.sc.sp.joins c (s.sc.sp.shapes x).body = true →
      s.sc.sp.joins c (s.sc.sp.shapes y).body = true → s.sc.collideBodies c = true)
    (mx : s.sc.Mobile x) (mx' : ¬ s'.engine.asleep (s.sc.sp.shapes x).body) (my : s.sc.Mobile y ∨ s.InPlace y) :
    (proto x y s'.sc.sp.trace = some true ↔
      (s'.worldPoint (s.sc.sp.shapes x).body cx.c).distance (s'.worldPoint (s.sc.sp.shapes y).body cy.c) < cx.r + cy.r) ∧
    (proto x y s'.sc.sp.trace = some false ↔
      ¬ (s'.worldPoint (s.sc.sp.shapes x).body cx.c).distance (s'.worldPoint (s.sc.sp.shapes y).body cy.c) < cx.r + cy.r) := by
  have k := h.ok
  obtain ⟨found, arbs, w, start, mid, sp, w', T, f1, hs', e1, e2, e3, e4⟩ := step_ok k hdt ok run
  have hsp : s'.sc.sp = sp := by rw [hs']; rfl
  have key : ∀ z cz, (s.sc.shapes z).shp.cls = .circle cz → (s.sc.sp.shapes z).inSpace = true → (s.sc.Mobile z ∨ s.InPlace z) →
      (s.placed (Motion.move s.mo.bodies i.dt s.sc.sp.dynamicBodies) z).shp.cls = .circle { cz with tc := s'.worldPoint (s.sc.sp.shapes z).body cz.c } ∧
      (s.placed (Motion.move s.mo.bodies i.dt s.sc.sp.dynamicBodies) z).shp.bb = BB.forCircle (s'.worldPoint (s.sc.sp.shapes z).body cz.c) cz.r ∧
      (s.placed (Motion.move s.mo.bodies i.dt s.sc.sp.dynamicBodies) z).filter = (s.sc.shapes z).filter ∧ (s.ready i.dt).Fits z := by
    intro z cz hz iz mz
    obtain ⟨rot, e⟩ := placed_spec k hdt ok run iz mz
    rw [(step_shapes k hdt ok run z).1] at e
    refine ⟨?_, ?_, ?_, ?_⟩
    · rw [e]
      show (Coll.Cls.cacheData (s.sc.shapes z).shp.cls _).1 = _
      rw [hz]; rfl
    · rw [e]
      show (Coll.Cls.cacheData (s.sc.shapes z).shp.cls _).2 = _
      rw [hz]; rfl
    · rw [e]; rfl
    · refine fits_moved k.scene _ _ z ?_
      by_cases hmz : s.sc.Mobile z
      · exact .inl fun q => q.2 hmz
      · refine .inr ⟨(mz.resolve_left hmz).fits, ?_⟩
        simp only [placed, if_neg fun q => hmz ((mobile_iff k.eng z).1 q).2]
        rfl
  obtain ⟨x1, x2, x3, x4⟩ := key x cx hcx ix (.inl mx)
  obtain ⟨y1, y2, y3, y4⟩ := key y cy hcy iy my
  have hroot : (sp.bodies (s.sc.sp.shapes x).body).root = none := by
    have := mx'
    simp only [Engine.asleep, not_not] at this
    rw [← hsp]; exact this
  have := C53_circles k.scene _ _ i.answer (s.scIn i) i.again e3 hdt e4 quiet.1 quiet.2 x y _ _ x1 y1 x2 y2 rx ry hpos ix iy hb
    (by rw [x3, y3]; exact hf) hj x4 y4 mx (by
      show sp.isSleeping _ = false
      simp only [Sp.isSleeping, hroot]; rfl)
  rw [hsp]
  exact this

end CP
