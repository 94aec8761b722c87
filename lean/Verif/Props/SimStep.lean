import Verif.Proofs.Sim3
import Verif.Props.Sim
import Verif.Props.Events

/-! # C64: everything the solver is given in a step -/

namespace CP
variable {F : Type} [GoFloat F]
open Sim

/-- Merging with remembered contacts keeps the geometry; impulses are zero or those of a remembered contact with the same hash. -/
theorem merge_fold (old : List (Contact F)) (l : List (Contact F)) (hl : ∀ o ∈ l, o ∈ old) (c : Contact F)
    (hc : (c.jnAcc = 0 ∧ c.jtAcc = 0) ∨ ∃ o ∈ old, o.hash = c.hash ∧ c.jnAcc = o.jnAcc ∧ c.jtAcc = o.jtAcc) :
    let c' := l.foldl (fun con old => if con.hash = old.hash then { con with jnAcc := old.jnAcc, jtAcc := old.jtAcc } else con) c
    c'.r1 = c.r1 ∧ c'.r2 = c.r2 ∧ c'.hash = c.hash ∧
      ((c'.jnAcc = 0 ∧ c'.jtAcc = 0) ∨ ∃ o ∈ old, o.hash = c'.hash ∧ c'.jnAcc = o.jnAcc ∧ c'.jtAcc = o.jtAcc) := by
  induction l generalizing c with
  | nil => exact ⟨rfl, rfl, rfl, hc⟩
  | cons o l ih =>
    simp only [List.foldl_cons]
    by_cases h : c.hash = o.hash
    · rw [if_pos h]
      exact ih (fun o' h' => hl o' (List.mem_cons_of_mem _ h')) { c with jnAcc := o.jnAcc, jtAcc := o.jtAcc }
        (.inr ⟨o, hl o List.mem_cons_self, h.symm, rfl, rfl⟩)
    · rw [if_neg h]
      exact ih (fun o' h' => hl o' (List.mem_cons_of_mem _ h')) c hc

theorem merge_map (h : Bodies F) (a b : Nat) (old fresh : List (Contact F)) :
    (Arb.updateContacts h a b old fresh).map (fun c => (c.r1, c.r2, c.hash)) =
      fresh.map (fun c => (c.r1.sub (h a).p, c.r2.sub (h b).p, c.hash)) := by
  simp only [Arb.updateContacts, List.map_map]
  refine List.map_congr_left fun c _ => ?_
  obtain ⟨h1, h2, h3, -⟩ := merge_fold old old (fun _ h => h) ({ c with r1 := c.r1.sub (h a).p, r2 := c.r2.sub (h b).p, jnAcc := 0, jtAcc := 0 } : Contact F)
    (.inl ⟨rfl, rfl⟩)
  simp only [Function.comp]
  rw [h1, h2, h3]

theorem merge_impulse (h : Bodies F) (a b : Nat) (old fresh : List (Contact F)) :
    ∀ c ∈ Arb.updateContacts h a b old fresh, (c.jnAcc = 0 ∧ c.jtAcc = 0) ∨
      ∃ o ∈ old, o.hash = c.hash ∧ c.jnAcc = o.jnAcc ∧ c.jtAcc = o.jtAcc := by
  intro c hc
  obtain ⟨c0, -, rfl⟩ := List.mem_map.1 hc
  exact (merge_fold old old (fun _ h => h) ({ c0 with r1 := c0.r1.sub (h a).p, r2 := c0.r2.sub (h b).p, jnAcc := 0, jtAcc := 0 } : Contact F)
    (.inl ⟨rfl, rfl⟩)).2.2.2

theorem pairSt_comm (s : Sp F) (p q : Nat) : s.pairSt p q = s.pairSt q p := by
  simp only [Sp.pairSt, Sp.arbOf, Sp.samePair_comm s p q]

/-- What is found comes from a pair of shapes. -/
theorem search_mem {sc : Scene F} {answer : Nat → Nat → Sp.CollideIn} {w : World F} {found : List (Sp.CollideIn × Coll.Info F)}
    (h : sc.search answer = some (w, found)) (d : Sp.CollideIn × Coll.Info F) (hd : d ∈ found) :
    ∃ id x y, d.1 = { answer x y with a := x, b := y, count := d.2.contacts.length } ∧
      (Coll.collide (sc.shapes x).shp (sc.shapes y).shp id = some (false, d.2) ∨
        Coll.collide (sc.shapes y).shp (sc.shapes x).shp id = some (true, d.2)) := by
  simp only [Scene.search] at h
  obtain ⟨r, -, h2⟩ := Option.bind_eq_some_iff.1 h
  obtain ⟨l, h3, h4⟩ := Option.map_eq_some_iff.1 h2
  obtain ⟨-, rfl⟩ := Prod.mk.inj h4
  obtain ⟨o, ho, hod⟩ := List.mem_filterMap.1 hd
  have hod : o = some d := hod
  subst hod
  have hmem : ∃ c ∈ r.2, sc.find answer c = some (some d) := by
    clear h h2 h4 hd
    generalize r.2 = cs at h3
    induction cs generalizing l with
    | nil => simp only [List.mapM_nil, Option.pure_def, Option.some.injEq] at h3; subst h3; cases ho
    | cons c cs ih =>
      simp only [List.mapM_cons, Option.bind_eq_bind] at h3
      obtain ⟨a, e1, h3⟩ := Option.bind_eq_some_iff.1 h3
      obtain ⟨l', e2, h3⟩ := Option.bind_eq_some_iff.1 h3
      obtain rfl := Option.some.inj h3
      rcases List.mem_cons.1 ho with q | q
      · exact ⟨c, List.mem_cons_self, by rw [e1, q]⟩
      · obtain ⟨c', m, e⟩ := ih l' q e2
        exact ⟨c', List.mem_cons_of_mem _ m, e⟩
  obtain ⟨c, -, hf⟩ := hmem
  simp only [Scene.find] at hf
  obtain ⟨b, -, hf⟩ := Option.bind_eq_some_iff.1 hf
  cases b with
  | true => simp at hf
  | false =>
    simp only [Bool.false_eq_true, if_false] at hf
    obtain ⟨res, hc, he⟩ := Option.map_eq_some_iff.1 hf
    obtain rfl := Option.some.inj he
    obtain ⟨sw, info⟩ := res
    cases sw with
    | false => exact ⟨c.2.2.toNat, c.1, c.2.1, rfl, .inl hc⟩
    | true => exact ⟨c.2.2.toNat, c.2.1, c.1, rfl, .inr hc⟩

open Classical in
/-- The centre of gravity of a body after a step is where it was in the collision phase. -/
theorem step_centre {hash : Obj → Nat} {s : Sim F} (k : s.Ok hash) {i : SimIn F} (hdt : i.dt ≠ 0)
    {e : EngineIn F} {e' : Engine F} (he : e.dt = i.dt) (ok : (Engine.Call.step e).Allowed s.engine) (run : s.engine.call (.step e) = some e') (b : Nat) :
    (e'.mo.bodies b).p = (Motion.move s.mo.bodies i.dt s.sc.sp.dynamicBodies b).p := by
  obtain ⟨r, fit⟩ := k.eng.good
  obtain ⟨L, w⟩ := r.world
  obtain ⟨e1, mid, h1, h2, h3, h4, h5, h6⟩ := Engine.step_took w fit e (by rw [he]; exact hdt) ok
  simp only [Engine.call, h1, Option.some.injEq] at run
  subst run
  have h := h5 b
  unfold Rigid at h
  have hm : Motion.move s.mo.bodies i.dt s.sc.sp.dynamicBodies b = if s.engine.awake b then (s.mo.bodies b).updatePosition e.dt else s.mo.bodies b := by
    show Motion.move s.engine.mo.bodies i.dt s.engine.sp.dynamicBodies b = _
    rw [moved_at _ _ h3.lists.dynNodup, he]
    have : b ∈ s.sc.sp.dynamicBodies ↔ s.engine.awake b := by
      rw [show s.sc.sp.dynamicBodies = s.engine.sp.dynamicBodies from rfl, h3.lists.dyn, Engine.awake_iff]
    have : b ∈ s.engine.sp.dynamicBodies ↔ s.engine.awake b := this
    simp only [this]; rfl
  rw [hm, h]
  split <;> rfl

set_option maxHeartbeats 1000000 in
/-- **C64.** All of a step (whose Separate, PostSolve and joint callbacks wake nobody): it is the work of the solver on these data. Moved are exactly
the bodies awake before the step, and accelerated those awake after it, each once; the joints are those in the space whose ends are both not asleep
after it; the contacts of a body that was neither static nor asleep are those of pairs of shapes that had to be tested and have contacts where the bodies are after the
step, in the form the narrow phase gives them (`ContactOf`), once for every pair; and all such contacts are there, if the boxes of the shapes are proper, shapes of static and sleeping
bodies are in their places, nothing keeps them from the solver and a body of the pair is neither static nor asleep after the step. -/
theorem C64_step [FloatSigns F] [FloatLaws F] {hash : Obj → Nat} {s s' : Sim F} (h : s.Reach hash) {i : SimIn F} (hdt : i.dt ≠ 0)
    (ok : (Sim.Call.step i).Allowed s) (quiet : (∀ y, i.sepActs y = []) ∧ i.lateActs = []) (run : s.call hash (.step i) = some s') :
    ∃ t : Tick F, s'.mo = s.mo.tick t ∧ s'.arbs = solved s.mo t ∧
      t.dt = i.dt ∧ t.gravity = i.gravity ∧ t.damping = i.damping ∧ t.iterations = i.iterations ∧ t.slop = i.slop ∧ t.collisionBias = i.collisionBias ∧
      t.movers.Nodup ∧ (∀ b, b ∈ t.movers ↔ s.engine.awake b) ∧
      t.dyn.Nodup ∧ (∀ b, b ∈ t.dyn ↔ s'.engine.awake b) ∧
      t.joints.Nodup ∧ (∀ c, c ∈ t.joints ↔ (s.sc.sp.cons c).inSpace = true ∧ ¬ s'.engine.asleep (s.sc.sp.cons c).a ∧ ¬ s'.engine.asleep (s.sc.sp.cons c).b) ∧
      t.arbs.Nodup ∧ ∃ of : Nat → Nat × Nat,
      (∀ k ∈ t.arbs, s.mobile (t.contact k).a ∨ s.mobile (t.contact k).b →
        ({ s.sc with shapes := s'.sc.shapes } : Scene F).MustTest (of k).1 (of k).2 ∧ Given s s' i t k (of k).1 (of k).2) ∧
      (∀ k ∈ t.arbs, ∀ j ∈ t.arbs, (of k = of j ∨ of k = (of j).swap) → k = j) ∧
      (∀ x y, ({ s.sc with shapes := s'.sc.shapes } : Scene F).MustTest x y →
        (s'.sc.shapes x).shp.bb.Proper → (s'.sc.shapes y).shp.bb.Proper → (s.sc.Mobile x ∨ s.InPlace x) → (s.sc.Mobile y ∨ s.InPlace y) →
        Meets (s'.sc.shapes x) (s'.sc.shapes y) → Admitted s i x y →
        (s'.mobile (s.sc.sp.shapes x).body ∨ s'.mobile (s.sc.sp.shapes y).body) →
        ∃ k ∈ t.arbs, (of k = (x, y) ∧ Given s s' i t k x y) ∨ (of k = (y, x) ∧ Given s s' i t k y x)) := by
  have k := h.ok
  obtain ⟨found, arbs, w, start, mid, sp, w', T, f1, hs', e1, e2, e3, e4⟩ := step_ok k hdt ok run
  have hsh : s'.sc.shapes = s.placed (Motion.move s.mo.bodies i.dt s.sc.sp.dynamicBodies) := funext fun x => (step_shapes k hdt ok run x).1
  have hsp : s'.sc.sp = sp := by rw [hs']; rfl
  obtain ⟨r, fit⟩ := k.eng.good
  have r : Sp.Reach s.sc.sp := r
  obtain ⟨L, wd⟩ := r.world
  obtain ⟨mid', sp', H⟩ := Sp.halves wd (i := (SimIn.engine i (found.map Prod.fst) arbs).acts (Motion.move s.mo.bodies i.dt s.sc.sp.dynamicBodies))
    ⟨T.stepOk.pos, T.stepOk.pairs, T.stepOk.once⟩
  obtain rfl : mid' = mid := Option.some.inj (H.half.symm.trans T.half)
  obtain rfl : sp' = sp := Option.some.inj (H.finish.symm.trans T.finish)
  have hroot := H.quiet quiet.1 quiet.2
  obtain ⟨hand, full, uniq⟩ := handed k T
  obtain ⟨t, ht⟩ : ∃ t, t = (SimIn.engine i (found.map Prod.fst) arbs).tick s.sc.sp mid' := ⟨_, rfl⟩
  have hbp : (s.ready i.dt).broadPhase i.answer = some (w, found.map Prod.fst) := by
    rw [Scene.broadPhase_search, T.search]; rfl
  have conv : ∀ x y, (s.ready i.dt).MustTest x y ↔ ({ s.sc with shapes := s'.sc.shapes } : Scene F).MustTest x y := by
    intro x y
    rw [hsh]
    exact ⟨fun q => ⟨q.1, q.2, q.3, q.4, q.5, q.6, q.7⟩, fun q => ⟨q.1, q.2, q.3, q.4, q.5, q.6, q.7⟩⟩
  obtain ⟨w2, l2, b2, only, cnt⟩ := C53_only k.scene (s.placed (Motion.move s.mo.bodies i.dt s.sc.sp.dynamicBodies)) _ i.answer e3.1
  obtain ⟨w3, l3, b3, all⟩ := C53_all k.scene (s.placed (Motion.move s.mo.bodies i.dt s.sc.sp.dynamicBodies)) _ i.answer e3.1
  have b2' := hbp.symm.trans b2
  have b3' := hbp.symm.trans b3
  cases b2'; cases b3'
  have hawake : ∀ b, s'.engine.awake b ↔ (s.sc.sp.bodies b).inSpace = true ∧ s.sc.sp.typ b ≠ .static ∧ (mid'.bodies b).root = none := by
    intro b
    rw [Engine.awake_iff]
    show (s'.sc.sp.bodies b).inSpace = true ∧ s'.sc.sp.typ b ≠ .static ∧ (s'.sc.sp.bodies b).root = none ↔ _
    rw [hsp, hroot, H.keep.inSpace, H.keep.typ]
  -- what the solver is given for one arbiter
  have given : ∀ x ∈ mid'.arbiters, (s.mobile (mid'.arbs x).bodyA ∨ s.mobile (mid'.arbs x).bodyB) →
      ∃ d ∈ found, (mid'.arbs x).a = d.1.a ∧ (mid'.arbs x).b = d.1.b ∧ Given s s' i t x d.1.a d.1.b := by
    intro x hx hend
    obtain ⟨d, q1, q2, q3, q4, q5, q6, q7, old, q8, q9⟩ := hand x hx hend
    refine ⟨d, q1, q3, q4, ?_⟩
    obtain ⟨id, x1, y1, hd, hcol⟩ := search_mem T.search d q1
    have ha : d.1.a = x1 := by rw [hd]
    have hb : d.1.b = y1 := by rw [hd]
    have hcnt : d.1.count = d.2.contacts.length := by rw [hd]
    have hpos : ∀ b, (s'.mo.bodies b).p = (Motion.move s.mo.bodies i.dt s.sc.sp.dynamicBodies b).p := fun b =>
      step_centre k hdt (e := SimIn.engine i (found.map Prod.fst) arbs) rfl e2 e1 b
    refine ⟨old.update (Motion.move s.mo.bodies i.dt s.sc.sp.dynamicBodies) (s.sc.sp.shapes d.1.a).body (s.sc.sp.shapes d.1.b).body d.2.n (d.2.contacts.map freshContact)
      (s.surf d.1.a).e (s.surf d.1.b).e (s.surf d.1.a).u (s.surf d.1.b).u (s.surf d.1.a).v (s.surf d.1.b).v false, ⟨?_, rfl, rfl, rfl, ?_⟩, ?_⟩
    · refine ⟨id, d.2, ?_, fun q => q2 (by rw [hcnt, q]; rfl), rfl, ?_⟩
      · rw [ha, hb, hsh]; exact hcol
      · simp only [Arb.update, merge_map, List.map_map, hpos]
        rfl
    · intro c hc
      rcases merge_impulse _ _ _ _ _ c hc with q | ⟨o, m, q⟩
      · exact .inl q
      · rcases q8 with ⟨rfl, q8⟩ | rfl
        · exact .inr ⟨q8.1, q8.2, o, m, q⟩
        · cases m
    · rw [ht]
      show ({ arbs x with a := (mid'.arbs x).bodyA, b := (mid'.arbs x).bodyB, first := _ } : Arb F) = _
      rw [q9, q5, q6]
      have hf : decide ((mid'.arbs x).state = .first) = decide (proto d.1.a d.1.b s.sc.sp.trace ≠ some true) := by
        rw [decide_eq_decide, q7, C23_state r]
        simp
      rw [hf]
      rfl
  refine ⟨t, by rw [hs', ht]; rfl, by rw [hs', ht]; rfl, by rw [ht]; rfl, by rw [ht]; rfl, by rw [ht]; rfl, by rw [ht]; rfl, by rw [ht]; rfl, by rw [ht]; rfl,
    by rw [ht]; exact H.lists.dynNodup, fun b => ?_, by rw [ht]; exact H.listsMid.dynNodup, fun b => ?_, by rw [ht]; exact H.listsMid.conNodup, fun c => ?_,
    by rw [ht]; exact H.listsMid.arbNodup, fun k => ((mid'.arbs k).a, (mid'.arbs k).b), ?_, ?_, ?_⟩
  · rw [ht, Engine.awake_iff]; exact H.lists.dyn b
  · rw [hawake, ht]
    refine (H.listsMid.dyn b).trans ?_
    rw [H.keepMid.inSpace, H.keepMid.typ]
  · rw [ht]
    refine (H.listsMid.con c).trans ?_
    have hc : mid'.cons = s.sc.sp.cons := H.keepMid.cons
    have : ∀ b, s'.engine.asleep b ↔ (mid'.bodies b).root ≠ none := by
      intro b
      show (s'.sc.sp.bodies b).root ≠ none ↔ _
      rw [hsp, hroot]
    rw [hc, this, this, not_not, not_not]
  · intro x hx hend
    have hx : x ∈ mid'.arbiters := by rw [ht] at hx; exact hx
    have hend : s.mobile (mid'.arbs x).bodyA ∨ s.mobile (mid'.arbs x).bodyB := by rw [ht] at hend; exact hend
    obtain ⟨d, q1, e1, e2, q2⟩ := given x hx hend
    dsimp only
    rw [e1, e2]
    refine ⟨(conv _ _).1 ((only _ _).2 ?_), q2⟩
    rw [testCount, ne_eq, List.countP_eq_zero]
    push Not
    exact ⟨d.1, List.mem_map_of_mem q1, by simp⟩
  · intro x hx y hy hxy
    rw [ht] at hx hy
    refine uniq x hx y hy ((Sp.samePair_iff ..).2 ?_)
    simpa [Prod.ext_iff] using hxy
  · intro x y hm px py ix iy hmeet adm hend
    have hfit : ∀ z, (s.sc.sp.shapes z).inSpace = true → (s.sc.Mobile z ∨ s.InPlace z) → (s.ready i.dt).Fits z := by
      intro z hz hiz
      refine fits_moved k.scene _ _ z ?_
      by_cases hmz : s.sc.Mobile z
      · exact .inl fun q => q.2 hmz
      · refine .inr ⟨(hiz.resolve_left hmz).fits, ?_⟩
        simp only [placed, if_neg fun q => hmz ((mobile_iff k.eng z).1 q).2]
        rfl
    have h1 : testCount (found.map Prod.fst) x y = 1 := by
      rw [hsh] at px py
      exact all x y ((conv x y).2 hm) px py (hfit x hm.inX ix) (hfit y hm.inY iy)
    have h2 : ∃ d ∈ found, (d.1.a = x ∧ d.1.b = y) ∨ (d.1.a = y ∧ d.1.b = x) := by
      have h3 : testCount (found.map Prod.fst) x y ≠ 0 := by rw [h1]; simp
      rw [testCount, ne_eq, List.countP_eq_zero] at h3
      push Not at h3
      obtain ⟨d, hd, hxy⟩ := h3
      obtain ⟨d', m, rfl⟩ := List.mem_map.1 hd
      exact ⟨d', m, by simpa using hxy⟩
    obtain ⟨d, hd, hxy⟩ := h2
    obtain ⟨id, x1, y1, hdd, hcol⟩ := search_mem T.search d hd
    have ha : d.1.a = x1 := by rw [hdd]
    have hb : d.1.b = y1 := by rw [hdd]
    have hcol : Coll.collide (s'.sc.shapes d.1.a).shp (s'.sc.shapes d.1.b).shp id = some (false, d.2) ∨
        Coll.collide (s'.sc.shapes d.1.b).shp (s'.sc.shapes d.1.a).shp id = some (true, d.2) := by rw [ha, hb, hsh]; exact hcol
    have hc : d.1.count ≠ 0 := by
      have : d.2.contacts ≠ [] := by
        rcases hxy with ⟨p, q⟩ | ⟨p, q⟩ <;> rw [p, q] at hcol
        · rcases hcol with z | z
          · exact hmeet id _ (.inl z)
          · exact hmeet id _ (.inr z)
        · rcases hcol with z | z
          · exact hmeet id _ (.inr z)
          · exact hmeet id _ (.inl z)
      have hcnt : d.1.count = d.2.contacts.length := by rw [hdd]
      rw [hcnt]
      simpa using this
    have hpst : s.sc.sp.pairSt d.1.a d.1.b ≠ .ignored := by
      rcases hxy with ⟨p, q⟩ | ⟨p, q⟩ <;> rw [p, q]
      · exact adm.before
      · rw [pairSt_comm]; exact adm.before
    have hin : s.sc.sp.inert d.1.a d.1.b = false := by
      rcases hxy with ⟨p, q⟩ | ⟨p, q⟩ <;> rw [p, q]
      · exact adm.inert
      · rw [Sp.inert_comm]; exact adm.inert
    have hans := adm.answer d.1.a d.1.b (by rcases hxy with ⟨p, q⟩ | ⟨p, q⟩ <;> rw [p, q] <;> simp)
    have hact : ((s.sc.sp.pairSt d.1.a d.1.b).onContact d.1 (s.sc.sp.inert d.1.a d.1.b) true).2 = .active := by
      have a1 : d.1.beginRet = true := by rw [hdd, ← ha, ← hb]; exact hans.1
      have a2 : d.1.beginIgnore = false := by rw [hdd, ← ha, ← hb]; exact hans.2.1
      have a3 : d.1.preRet = true := by rw [hdd, ← ha, ← hb]; exact hans.2.2.1
      have a4 : d.1.preIgnore = false := by rw [hdd, ← ha, ← hb]; exact hans.2.2.2
      rw [hin]
      simp [PairSt.onContact, a1, a2, a3, a4, hpst]
    obtain ⟨z, hz, hpair, hzA, hzB⟩ := full d hd hc hact (by
      have key : ∀ b, s'.mobile b → s.sc.sp.typ b ≠ .static ∧ (mid'.bodies b).root = none := by
        intro b hb
        obtain ⟨m1, m2⟩ := hb
        rw [hsp, H.keep.typ] at m1
        have m2 : (s'.sc.sp.bodies b).root = none := not_not.1 m2
        rw [hsp, hroot] at m2
        exact ⟨m1, m2⟩
      rcases hxy with ⟨p, q⟩ | ⟨p, q⟩ <;> rw [p, q] <;> rcases hend with e | e
      · exact ⟨_, .inl rfl, key _ e⟩
      · exact ⟨_, .inr rfl, key _ e⟩
      · exact ⟨_, .inr rfl, key _ e⟩
      · exact ⟨_, .inl rfl, key _ e⟩)
    have hmob : ∀ z, s.sc.Mobile z → s.mobile (s.sc.sp.shapes z).body := fun z hz => ⟨hz.1, by
      have h2 := hz.2
      simp only [Sp.isSleeping, Option.isSome_eq_false_iff, Option.isNone_iff_eq_none] at h2
      exact not_not.2 h2⟩
    have hzend : s.mobile (mid'.arbs z).bodyA ∨ s.mobile (mid'.arbs z).bodyB := by
      rw [hzA, hzB]
      rw [Sp.samePair_iff] at hpair
      have hor : ((mid'.arbs z).a = x ∧ (mid'.arbs z).b = y) ∨ ((mid'.arbs z).a = y ∧ (mid'.arbs z).b = x) := by omega
      have hmm : s.sc.Mobile x ∨ s.sc.Mobile y := hm.mobile
      rcases hor with ⟨p, q⟩ | ⟨p, q⟩ <;> rw [p, q]
      · exact hmm.imp (hmob x) (hmob y)
      · exact (hmm.imp (hmob x) (hmob y)).symm
    obtain ⟨d', m', a', b', g'⟩ := given z hz hzend
    refine ⟨z, by rw [ht]; exact hz, ?_⟩
    rw [Sp.samePair_iff, a', b'] at hpair
    have hor : (d'.1.a = x ∧ d'.1.b = y) ∨ (d'.1.a = y ∧ d'.1.b = x) := by omega
    rcases hor with ⟨p, q⟩ | ⟨p, q⟩ <;> rw [p, q] at g'
    · exact .inl ⟨by dsimp only; rw [a', b', p, q], g'⟩
    · exact .inr ⟨by dsimp only; rw [a', b', p, q], g'⟩

end CP
