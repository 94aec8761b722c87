import Verif.Model.Draw
import Verif.Model.ArbView
import Verif.Props.Scene
import Verif.Props.SimExamples

/-! # C70: drawing shows what is there -/

namespace CP
open GoFloat Coll

section
variable {F : Type} [GoFloat F]

/-- **C70**: `DrawSpace` draws the shapes that are in the space, awake, asleep or static, each once, and no others. -/
theorem C70_shapes [FloatSigns F] {hash : Obj → Nat} {s : Sim F} (h : s.Reach hash) :
    (s.draw.1.map Prod.fst).Nodup ∧ ∀ x, x ∈ s.draw.1.map Prod.fst ↔ (s.sc.sp.shapes x).inSpace = true := by
  obtain ⟨spec, k⟩ := reach_ok h.ok.scene
  have e : s.draw.1.map Prod.fst = s.drawn := by
    simp only [Sim.draw, List.map_map]; exact List.map_id _
  rw [e]
  obtain ⟨n1, m1, -⟩ := C07_each hash spec s.sc.index k.hist false
  obtain ⟨n2, m2, -⟩ := C07_each hash spec s.sc.index k.hist true
  obtain ⟨-, -, l1, l2⟩ := shape_lists k.sp
  have q1 : ∀ x, x ∈ s.sc.index.each false ↔ x ∈ s.sc.sp.dynamicShapes := fun x => (m1 x).trans (k.sync.dyn x)
  have q2 : ∀ x, x ∈ s.sc.index.each true ↔ x ∈ s.sc.sp.staticShapes := fun x => (m2 x).trans (k.sync.stat x)
  refine ⟨List.nodup_append.2 ⟨n1, n2, fun x hx y hy e => lists_disjoint k.sp x ((q1 x).1 hx) ((q2 x).1 (e ▸ hy))⟩, fun x => ?_⟩
  rw [Sim.drawn, List.mem_append, q1, q2, l1, l2]
  tauto

/-- **C70**: `DrawSpace` draws each constraint of the space whose two bodies are not asleep once, and no others. -/
theorem C70_joints [FloatSigns F] {hash : Obj → Nat} {s : Sim F} (h : s.Reach hash) :
    (s.draw.2.1.map Prod.fst).Nodup ∧ ∀ c, c ∈ s.draw.2.1.map Prod.fst ↔
      (s.sc.sp.cons c).inSpace = true ∧ s.sc.sp.isSleeping (s.sc.sp.cons c).a = false ∧ s.sc.sp.isSleeping (s.sc.sp.cons c).b = false := by
  obtain ⟨spec, k⟩ := reach_ok h.ok.scene
  have e : s.draw.2.1.map Prod.fst = s.sc.sp.constraints := by
    simp only [Sim.draw, List.map_map]; exact List.map_id _
  rw [e]
  exact C26_space k.sp

/-- What a shape looks like, with its body at the transform `t`: the corners of a polygon are the stored ones, moved by `t`. -/
def seen (t : Transform F) (angle : F) : Cls F → DrawCall F
  | .circle c => .circle (t.point c.c) angle c.r
  | .seg g => .fatSegment (t.point g.a) (t.point g.b) g.r
  | .poly p => .polygon (p.src.map fun pl => t.point pl.v0) p.r

/-- **C70**: a shape that is in its place is drawn where its body is: a circle round the place of its centre, with the angle of the body and its radius; a segment between the places of
its ends; a polygon with its corners at their places, in order, with its rounding. -/
theorem C70_geometry {s : Sim F} {x : Nat} (sy : s.Synced x) (call : DrawCall F) (hc : (x, call) ∈ s.draw.1) :
    call = seen (s.mo.bodies (s.sc.sp.shapes x).body).transform (s.mo.bodies (s.sc.sp.shapes x).body).a (s.sc.shapes x).shp.cls := by
  simp only [Sim.draw, List.mem_map, Prod.mk.injEq] at hc
  obtain ⟨y, -, rfl, rfl⟩ := hc
  have e := congrArg (fun q : QShape F => q.shp.cls) sy
  generalize (s.mo.bodies (s.sc.sp.shapes y).body).transform = t at *
  generalize (s.mo.bodies (s.sc.sp.shapes y).body).a = ang at *
  generalize s.sc.shapes y = q at *
  obtain ⟨⟨cls, bb, rot, hid⟩, fl, se⟩ := q
  cases cls with
  | circle c =>
    simp only [QShape.update, Cls.cacheData, Circle.cacheData, Cls.circle.injEq] at e
    simp only [drawShape, seen, DrawCall.circle.injEq]
    exact ⟨(congrArg Circle.tc e).symm, trivial, trivial⟩
  | seg c =>
    simp only [QShape.update, Cls.cacheData, Segment.cacheData, Cls.seg.injEq] at e
    simp only [drawShape, seen, DrawCall.fatSegment.injEq]
    exact ⟨(congrArg Segment.ta e).symm, (congrArg Segment.tb e).symm, trivial⟩
  | poly c =>
    simp only [QShape.update, Cls.cacheData, Poly.cacheData, Cls.poly.injEq] at e
    simp only [drawShape, seen, DrawCall.polygon.injEq]
    refine ⟨?_, trivial⟩
    rw [← (congrArg Poly.dst e), List.map_map]
    rfl

/-- **C70**: after a `Step`, every shape of the space is drawn where its body is, if the shapes of static and sleeping bodies were in their places before. -/
theorem C70_after_step [FloatSigns F] {hash : Obj → Nat} {s s' : Sim F} (h : s.Reach hash) {i : SimIn F} (hdt : i.dt ≠ 0)
    (ok : (Sim.Call.step i).Allowed s) (run : s.call hash (.step i) = some s')
    (rest : ∀ x, (s.sc.sp.shapes x).inSpace = true → ¬ s.sc.Mobile x → s.InPlace x) (x : Nat) (hx : (s'.sc.sp.shapes x).inSpace = true) :
    ∃ call, (x, call) ∈ s'.draw.1 ∧ (∀ c', (x, c') ∈ s'.draw.1 → c' = call) ∧
      call = seen (s'.mo.bodies (s'.sc.sp.shapes x).body).transform (s'.mo.bodies (s'.sc.sp.shapes x).body).a (s'.sc.shapes x).shp.cls := by
  have sy := (C64_after_step h hdt ok run rest x hx).synced
  have h' : s'.Reach hash := .call _ h ok run
  have hm := ((C70_shapes h').2 x).2 hx
  obtain ⟨⟨y, call⟩, hmm, rfl⟩ := List.mem_map.1 hm
  refine ⟨call, hmm, fun c' hc => ?_, C70_geometry sy call hmm⟩
  rw [C70_geometry sy c' hc, C70_geometry sy call hmm]

/-- **C70**: the marks of a joint: dots at the anchors, where their bodies are now, and a line between them (pin and slide joint); the two anchors (pivot joint); the groove as a line and the
anchor on it (groove joint). Joints that only concern angles are not drawn. -/
theorem C70_marks [FloatSigns F] {hash : Obj → Nat} {s : Sim F} (h : s.Reach hash) (c : Nat) (calls : List (DrawCall F)) (hc : (c, calls) ∈ s.draw.2.1) :
    let A := fun p => s.worldPoint (s.sc.sp.cons c).a p
    let B := fun p => s.worldPoint (s.sc.sp.cons c).b p
    match s.mo.joints c with
    | .pin j => calls = [.dot (lit 5) (A j.anchorA), .dot (lit 5) (B j.anchorB), .segment (A j.anchorA) (B j.anchorB)]
    | .slide j => calls = [.dot (lit 5) (A j.anchorA), .dot (lit 5) (B j.anchorB), .segment (A j.anchorA) (B j.anchorB)]
    | .pivot j => calls = [.dot (lit 5) (A j.anchorA), .dot (lit 5) (B j.anchorB)]
    | .groove j => calls = [.dot (lit 5) (B j.anchorB), .segment (A j.grooveA) (A j.grooveB)]
    | .spring j => calls =
        [.dot (lit 5) (A j.anchorA), .dot (lit 5) (B j.anchorB)] ++ polyline (springLine (A j.anchorA) (B j.anchorB))
    | _ => calls = [] := by
  simp only [Sim.draw, List.mem_map, Prod.mk.injEq] at hc
  obtain ⟨c, -, rfl, rfl⟩ := hc
  have e : (s.mo.joints c).con.a = (s.sc.sp.cons c).a ∧ (s.mo.joints c).con.b = (s.sc.sp.cons c).b := h.ok.eng.good.2 c
  generalize hj : s.mo.joints c = j at *
  have e1 : (s.sc.sp.cons c).a = j.con.a := e.1.symm
  have e2 : (s.sc.sp.cons c).b = j.con.b := e.2.symm
  cases j <;> simp only [e1, e2] <;> rfl

end

/-- The lines of a polygonal path: one for each two corners that follow one another. -/
theorem polyline_get {F : Type} (l : List (Vec F)) :
    (polyline l).length = l.length - 1 ∧ ∀ n a b, l[n]? = some a → l[n + 1]? = some b → (polyline l)[n]? = some (.segment a b) := by
  induction l with
  | nil => simp [polyline]
  | cons x l ih =>
    cases l with
    | nil => simp [polyline]
    | cons y l =>
      refine ⟨by simp only [polyline, List.length_cons] at *; omega, fun n a b ha hb => ?_⟩
      cases n with
      | zero => simp at ha hb; subst ha hb; simp [polyline]
      | succ n => simpa [polyline] using ih.2 n a b (by simpa using ha) (by simpa using hb)

/-- **C70**: a spring between two different places is drawn as an unbroken line of 14 pieces from the one to the other: its `n`-th corner is the fraction `v.x` of the way, `v.y` aside, for the
`n`-th entry `v` of a fixed table, which starts at the fraction 0 and ends at 1, is never more than 6 aside and never goes back. -/
theorem C70_spring (a b : Vec ℝ) (hab : a ≠ b) :
    (polyline (springLine a b)).length = 14 ∧
    (∀ n p q, (springLine a b)[n]? = some p → (springLine a b)[n + 1]? = some q → (polyline (springLine a b))[n]? = some (.segment p q)) ∧
    (springLine a b).head? = some a ∧ (springLine a b).getLast? = some b ∧
    springLine a b = springVerts.map (fun v => (a.lerp b v.x).add ((((b.sub a).mult (1 / (b.sub a).length)).perp).mult v.y)) ∧
    (∀ v ∈ (springVerts : List (Vec ℝ)), 0 ≤ v.x ∧ v.x ≤ 1 ∧ |v.y| ≤ 6) ∧ (springVerts : List (Vec ℝ)).Pairwise fun v w => v.x < w.x := by
  have hl : (b.sub a).length ≠ 0 := by
    intro h
    apply hab
    have h0 : (b.x - a.x) * (b.x - a.x) + (b.y - a.y) * (b.y - a.y) = 0 := by
      have h1 : Real.sqrt ((b.x - a.x) * (b.x - a.x) + (b.y - a.y) * (b.y - a.y)) = 0 := h
      exact (Real.sqrt_eq_zero (add_nonneg (mul_self_nonneg _) (mul_self_nonneg _))).1 h1
    ext <;> nlinarith [mul_self_nonneg (b.x - a.x), mul_self_nonneg (b.y - a.y)]
  have e : springLine a b = springVerts.map (fun v => (a.lerp b v.x).add ((((b.sub a).mult (1 / (b.sub a).length)).perp).mult v.y)) := by
    simp only [springLine]
    refine List.map_congr_left fun v _ => ?_
    ext <;> simp only [Vec.dot, Vec.lerp, Vec.mult, Vec.add, Vec.sub, Vec.perp] <;> ring
  refine ⟨?_, fun n p q hp hq => (polyline_get _).2 n p q hp hq, ?_, ?_, e, ?_, ?_⟩
  · rw [(polyline_get _).1]; rfl
  · rw [e]
    simp [springVerts, Vec.lerp, Vec.mult, Vec.add]
  · rw [e]
    simp [springVerts, Vec.lerp, Vec.mult, Vec.add]
  · intro v hv
    simp only [springVerts, List.map_cons, List.map_nil, List.mem_cons, List.not_mem_nil, or_false, lit_real] at hv
    rcases hv with rfl | rfl | rfl | rfl | rfl | rfl | rfl | rfl | rfl | rfl | rfl | rfl | rfl | rfl | rfl <;> norm_num [abs_le]
  · simp only [springVerts, List.map_cons, List.map_nil, lit_real]
    norm_num

/-- **C70**: `DrawSpace` marks every contact of the arbiters of the space with a dash along the normal, from 2 outside the contact point on the one shape to 2 outside that on the other: `set` is what
`ContactPointSet` of the arbiter reports. -/
theorem C70_contacts {F : Type} [GoFloat F] (s : Sim F) :
    s.draw.2.2.map Prod.fst = s.sc.sp.arbiters ∧ ∀ k calls, (k, calls) ∈ s.draw.2.2 →
      let set := (s.arbs k).contactPointSet s.mo.bodies false true
      calls = set.points.map fun q => .segment (q.pointA.add (set.normal.mult (lit (-2)))) (q.pointB.add (set.normal.mult (lit 2))) := by
  refine ⟨by simp only [Sim.draw, List.map_map]; exact List.map_id _, fun k calls hc => ?_⟩
  simp only [Sim.draw, List.mem_map, Prod.mk.injEq] at hc
  obtain ⟨k, -, rfl, rfl⟩ := hc
  simp only [drawContacts, Arb.contactPointSet, Arb.shown, if_true, List.map_map]
  rfl

/-- The space with two circles of radius 1 and `d` apart: both are drawn, once, at their places, and nothing else. -/
theorem C70_example (d v : ℝ) : ∃ s : Sim ℝ, s.Reach id ∧ (s.draw.1.map Prod.fst).Perm [1, 2] ∧ (1, DrawCall.circle ⟨0, 0⟩ 0 1) ∈ s.draw.1 ∧ (2, DrawCall.circle ⟨d, 0⟩ 0 1) ∈ s.draw.1 ∧
    s.draw.2.1 = [] := by
  obtain ⟨s, hr, hs, only, hm, hcls, -, hc, -⟩ := chaseWith d v ⟨0, 0, ⟨0, 0⟩⟩
  obtain ⟨n, m⟩ := C70_shapes hr
  have on : ∀ o, o = 1 ∨ o = 2 → (o, DrawCall.circle ((chaseMotion d v).bodies o).p 0 1) ∈ s.draw.1 := by
    intro o ho
    obtain ⟨h1, h2, h3, -⟩ := hs o ho
    obtain ⟨⟨y, call⟩, hmm, rfl⟩ := List.mem_map.1 ((m o).2 h1)
    have g := C70_geometry h3.synced call hmm
    obtain ⟨tc, ht⟩ := hcls y
    simp only [] at ho h2 ht g hmm
    rw [h2, ht, hm] at g
    have : call = DrawCall.circle ((chaseMotion d v).bodies y).p 0 1 := by
      rw [g]
      rcases ho with rfl | rfl <;> simp [seen, chaseMotion, chaseBody, Transform.point]
    rw [← this]; exact hmm
  refine ⟨s, hr, (List.perm_ext_iff_of_nodup n (by decide)).2 fun x => ?_, by simpa [chaseMotion, chaseBody] using on 1 (.inl rfl),
    by simpa [chaseMotion, chaseBody] using on 2 (.inr rfl), ?_⟩
  · rw [m]
    simp only [List.mem_cons, List.not_mem_nil, or_false]
    exact ⟨only x, fun h => (hs x h).1⟩
  · have j := (C70_joints hr).2
    refine (List.map_eq_nil_iff (f := Prod.fst)).1 (List.eq_nil_iff_forall_not_mem.2 fun c h => ?_)
    have := ((j c).1 h).1
    rw [hc c] at this
    cases this

end CP
