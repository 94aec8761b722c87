import Verif.Props.SimPress
import Verif.Props.Collide

/-! # C66: a ball on a floor, from end to end -/

namespace CP
open Sim GoFloat

/-- The nearest point of a segment is the only one. -/
theorem nearest_unique {a b p z z' : Vec ℝ} (h1 : OnSegment a b z) (h2 : OnSegment a b z') (n1 : ∀ w, OnSegment a b w → p.distance z ≤ p.distance w)
    (n2 : ∀ w, OnSegment a b w → p.distance z' ≤ p.distance w) : z = z' := by
  obtain ⟨s, s0, s1, rfl⟩ := h1
  obtain ⟨t, t0, t1, rfl⟩ := h2
  have hm := n1 ⟨a.x + (s + t) / 2 * (b.x - a.x), a.y + (s + t) / 2 * (b.y - a.y)⟩ ⟨(s + t) / 2, by linarith, by linarith, rfl⟩
  have he := le_antisymm (n1 _ ⟨t, t0, t1, rfl⟩) (n2 _ ⟨s, s0, s1, rfl⟩)
  have sq : ∀ q : Vec ℝ, p.distance q * p.distance q = (p.x - q.x) * (p.x - q.x) + (p.y - q.y) * (p.y - q.y) := by
    intro q
    simp only [Vec.distance, Vec.length, sqrt_real, Vec.dot, Vec.sub]
    exact Real.mul_self_sqrt (by nlinarith [mul_self_nonneg (p.x - q.x), mul_self_nonneg (p.y - q.y)])
  have g1 := mul_self_le_mul_self (Vec.distance_nonneg _ _) hm
  have g2 := congrArg (fun z => z * z) he
  simp only [sq] at g1 g2
  have h0 : (s - t) * (s - t) * ((b.x - a.x) * (b.x - a.x) + (b.y - a.y) * (b.y - a.y)) ≤ 0 := by linear_combination 4 * g1 - 2 * g2
  have hx : ((s - t) * (b.x - a.x)) * ((s - t) * (b.x - a.x)) = 0 := by nlinarith [mul_self_nonneg ((s - t) * (b.x - a.x)), mul_self_nonneg ((s - t) * (b.y - a.y))]
  have hy : ((s - t) * (b.y - a.y)) * ((s - t) * (b.y - a.y)) = 0 := by nlinarith [mul_self_nonneg ((s - t) * (b.x - a.x)), mul_self_nonneg ((s - t) * (b.y - a.y))]
  rw [mul_self_eq_zero] at hx hy
  ext <;> simp only <;> linarith

theorem away_pos {p z : Vec ℝ} (hne : p ≠ z) : 0 < (z.sub p).lengthSq := by
  simp only [Vec.lengthSq, Vec.dot, Vec.sub]
  by_contra hle
  have h1 : (z.x - p.x) * (z.x - p.x) = 0 := by nlinarith [mul_self_nonneg (z.x - p.x), mul_self_nonneg (z.y - p.y)]
  have h2 : (z.y - p.y) * (z.y - p.y) = 0 := by nlinarith [mul_self_nonneg (z.x - p.x), mul_self_nonneg (z.y - p.y)]
  rw [mul_self_eq_zero, sub_eq_zero] at h1 h2
  exact hne (by ext; exacts [h1.symm, h2.symm])

theorem distance_sqrt (p z : Vec ℝ) : p.distance z = sqrt (z.sub p).lengthSq := by
  simp only [Vec.distance, Vec.length, Vec.lengthSq]
  congr 1
  simp only [Vec.dot, Vec.sub]; ring

theorem toward_unit {p z : Vec ℝ} (hne : p ≠ z) : ((z.sub p).mult (1 / p.distance z)).dot ((z.sub p).mult (1 / p.distance z)) = 1 ∧ 0 < p.distance z ∧
    p.distance z * p.distance z = (z.sub p).dot (z.sub p) := by
  have hpos := away_pos hne
  have hd := distance_sqrt p z
  have hsq := Real.mul_self_sqrt hpos.le
  have h0 : 0 < p.distance z := by rw [hd]; exact Real.sqrt_pos.2 hpos
  have e : p.distance z * p.distance z = (z.sub p).dot (z.sub p) := by rw [hd]; exact hsq
  refine ⟨?_, h0, e⟩
  generalize p.distance z = d at *
  simp only [Vec.dot, Vec.mult, Vec.sub] at e ⊢
  field_simp
  rw [sq, sq, sq, e]

/-- What the narrow phase finds for a circle and a segment. -/
theorem floor_contact (c : Circle ℝ) (g : Segment ℝ) (rot : Vec ℝ) (id : Nat) (z : Vec ℝ) (hab : g.ta ≠ g.tb) (on : OnSegment g.ta g.tb z)
    (near : ∀ w, OnSegment g.ta g.tb w → c.tc.distance z ≤ c.tc.distance w) (close : c.tc.distance z < c.r + g.r) (apart : c.tc ≠ z)
    (free : (g.aTangent = ⟨0, 0⟩ ∧ g.bTangent = ⟨0, 0⟩) ∨ (z ≠ g.ta ∧ z ≠ g.tb)) :
    Coll.circleToSegment c g rot ⟨⟨0, 0⟩, id, []⟩ = some ⟨(z.sub c.tc).mult (1 / c.tc.distance z), id,
      [⟨c.tc.add (((z.sub c.tc).mult (1 / c.tc.distance z)).mult c.r), z.add (((z.sub c.tc).mult (1 / c.tc.distance z)).mult (-g.r)), 0#64⟩]⟩ := by
  obtain ⟨q1, q2⟩ := nearest_on_segment g c.tc hab
  obtain ⟨t, ht⟩ : ∃ t, t = clamp01 ((g.tb.sub g.ta).dot (c.tc.sub g.ta) / (g.tb.sub g.ta).lengthSq) := ⟨_, rfl⟩
  rw [← ht] at q1 q2
  have hz := nearest_unique on q1 near q2
  obtain ⟨-, h0, hsq⟩ := toward_unit apart
  have hlt : (z.sub c.tc).lengthSq < (c.r + g.r) * (c.r + g.r) := by
    show (z.sub c.tc).dot (z.sub c.tc) < _
    rw [← hsq]; exact mul_self_lt_mul_self h0.le close
  have hcond : ∀ n : Vec ℝ, (t ≠ 0 ∨ 0 ≤ n.dot (g.aTangent.rotate rot)) ∧ (t ≠ 1 ∨ 0 ≤ n.dot (g.bTangent.rotate rot)) := by
    intro n
    rcases free with ⟨f1, f2⟩ | ⟨f1, f2⟩
    · rw [f1, f2]; simp [Vec.dot, Vec.rotate]
    · constructor
      · left; rintro rfl
        exact f1 (by rw [hz]; ext <;> simp [Vec.add, Vec.mult])
      · left; rintro rfl
        exact f2 (by rw [hz]; ext <;> simp [Vec.add, Vec.mult, Vec.sub])
  simp only [Coll.circleToSegment, ← ht, ← hz, ← distance_sqrt]
  rw [if_pos hlt, if_pos (hcond _), if_pos h0.ne']
  simp only [Coll.Info.push, List.length_nil, Nat.zero_lt_two, if_true, List.nil_append]

theorem floor_box (g : Segment ℝ) (t : Transform ℝ) (p z : Vec ℝ) (r : ℝ) (on : OnSegment (t.point g.a) (t.point g.b) z) (close : p.distance z < r + g.r) :
    (BB.forCircle p r).intersects (g.cacheData t).2 = true := by
  have hx : |p.x - z.x| ≤ p.distance z := by
    simp only [Vec.distance, Vec.length, sqrt_real, Vec.dot, Vec.sub]
    apply Real.abs_le_sqrt
    nlinarith [mul_self_nonneg (p.y - z.y)]
  have hy : |p.y - z.y| ≤ p.distance z := by
    simp only [Vec.distance, Vec.length, sqrt_real, Vec.dot, Vec.sub]
    apply Real.abs_le_sqrt
    nlinarith [mul_self_nonneg (p.x - z.x)]
  obtain ⟨x1, x2⟩ := abs_le.1 hx
  obtain ⟨y1, y2⟩ := abs_le.1 hy
  obtain ⟨s, s0, s1, rfl⟩ := on
  simp only at x1 x2 y1 y2
  simp only [Segment.cacheData]
  generalize t.point g.a = A at *
  generalize t.point g.b = B at *
  have mx : ∀ u v : ℝ, u < v → u ≤ u + s * (v - u) ∧ u + s * (v - u) ≤ v := fun u v h => ⟨by nlinarith, by nlinarith⟩
  have mx' : ∀ u v : ℝ, ¬ u < v → v ≤ u + s * (v - u) ∧ u + s * (v - u) ≤ u := fun u v h => ⟨by nlinarith [not_lt.1 h], by nlinarith [not_lt.1 h]⟩
  simp only [BB.intersects, BB.forCircle, BB.forExtents, Bool.and_eq_true, decide_eq_true_eq]
  split <;> split <;> rename_i ha hb
  · have u1 := mx _ _ ha; have u2 := mx _ _ hb
    refine ⟨⟨⟨?_, ?_⟩, ?_⟩, ?_⟩ <;> apply decide_eq_true <;> linarith
  · have u1 := mx _ _ ha; have u2 := mx' _ _ hb
    refine ⟨⟨⟨?_, ?_⟩, ?_⟩, ?_⟩ <;> apply decide_eq_true <;> linarith
  · have u1 := mx' _ _ ha; have u2 := mx _ _ hb
    refine ⟨⟨⟨?_, ?_⟩, ?_⟩, ?_⟩ <;> apply decide_eq_true <;> linarith
  · have u1 := mx' _ _ ha; have u2 := mx' _ _ hb
    refine ⟨⟨⟨?_, ?_⟩, ?_⟩, ?_⟩ <;> apply decide_eq_true <;> linarith

theorem floor_proper (g : Segment ℝ) (t : Transform ℝ) (hr : 0 ≤ g.r) : (g.cacheData t).2.Proper := by
  simp only [BB.Proper, Segment.cacheData]
  split <;> split <;> constructor <;> linarith

/-- The arbiter of a ball and a floor. -/
theorem contact_floor {s s' : Sim ℝ} {x y p q k : Nat} {arb : Arb ℝ} (hpq : (p = x ∧ q = y) ∨ (p = y ∧ q = x)) (C : ContactOf s s' k p q arb) {cx : Circle ℝ} {g : Segment ℝ} {z : Vec ℝ}
    (hx : (s'.sc.shapes x).shp.cls = .circle cx) (hy : (s'.sc.shapes y).shp.cls = .seg g) (hab : g.ta ≠ g.tb) (on : OnSegment g.ta g.tb z)
    (near : ∀ w, OnSegment g.ta g.tb w → cx.tc.distance z ≤ cx.tc.distance w) (close : cx.tc.distance z < cx.r + g.r) (apart : cx.tc ≠ z)
    (free : (g.aTangent = ⟨0, 0⟩ ∧ g.bTangent = ⟨0, 0⟩) ∨ (z ≠ g.ta ∧ z ≠ g.tb)) (centre : cx.tc = (s'.mo.bodies (s.sc.sp.shapes x).body).p) :
    p = x ∧ q = y ∧ arb.n = (z.sub cx.tc).mult (1 / cx.tc.distance z) ∧ ∃ c, arb.contacts = [c] ∧ c.r1 = arb.n.mult cx.r ∧
      (s'.mo.bodies (s.sc.sp.shapes y).body).p.add c.r2 = z.add (arb.n.mult (-g.r)) := by
  obtain ⟨id, info, hcol, hcont, hn, hmap⟩ := C.found
  have F := floor_contact cx g (s'.sc.shapes y).shp.rot id z hab on near close apart free
  rcases hpq with ⟨rfl, rfl⟩ | ⟨rfl, rfl⟩
  · have hi : some info = Coll.circleToSegment cx g (s'.sc.shapes q).shp.rot ⟨⟨0, 0⟩, id, []⟩ := by
      rw [F]
      rcases hcol with h | h
      · simp only [Coll.collide, hx, hy, Coll.Cls.order, Coll.collideSorted, F, Option.map_some] at h
        rw [if_neg (by decide)] at h
        simp only [Option.some.injEq, Prod.mk.injEq, true_and] at h
        rw [h]
      · simp only [Coll.collide, hx, hy, Coll.Cls.order, Coll.collideSorted, F, Option.map_some] at h
        rw [if_pos (by decide)] at h
        simp only [Option.some.injEq, Prod.mk.injEq, true_and] at h
        rw [h]
    rw [F, Option.some.injEq] at hi
    subst hi
    obtain ⟨c, hc, hcc⟩ := map_single _ _ hmap
    have h1 := congrArg Prod.fst hcc
    have h2 := congrArg (fun z => z.2.1) hcc
    simp only at h1 h2 hn
    refine ⟨rfl, rfl, hn, c, hc, ?_, ?_⟩
    · rw [h1, hn, ← centre]
      simp only [Vec.add, Vec.sub, Vec.mk.injEq]
      ring
    · rw [h2, hn]
      ext <;> simp only [Vec.add, Vec.sub] <;> ring
  · exfalso
    rcases hcol with h | h
    · simp only [Coll.collide, hx, hy, Coll.Cls.order, Coll.collideSorted, F, Option.map_some] at h
      rw [if_pos (by decide)] at h
      simp at h
    · simp only [Coll.collide, hx, hy, Coll.Cls.order, Coll.collideSorted, F, Option.map_some] at h
      rw [if_neg (by decide)] at h
      simp at h

theorem up_neg (s : Sim ℝ) (a : Nat) (q : Vec ℝ) : (q.sub (s.mo.bodies a).p).mult (1 / (s.mo.bodies a).p.distance q) = (s.up a q).neg := by
  simp only [up, Vec.neg, Vec.sub, Vec.mult, Vec.mk.injEq]
  constructor <;> ring

set_option maxHeartbeats 1000000 in
/-- **C66.** A ball that lands on a floor meets it in a duel of C60. -/
theorem C66_duel {hash : Obj → Nat} {s s' : Sim ℝ} (h : s.Reach hash) {i : SimIn ℝ} (hdt : 0 < i.dt)
    (ok : (Sim.Call.step i).Allowed s) (quiet : (∀ y, i.sepActs y = []) ∧ i.lateActs = []) (run : s.call hash (.step i) = some s')
    {x y : Nat} {cx : Circle ℝ} {sy : Segment ℝ} {q : Vec ℝ} (E : Landing s s' i x y cx sy q) :
    ∃ (t : Tick ℝ) (k : Nat) (c : Contact ℝ), s'.mo = s.mo.tick t ∧
      t.dt = i.dt ∧ t.gravity = i.gravity ∧ t.damping = i.damping ∧ t.slop = i.slop ∧ t.collisionBias = i.collisionBias ∧ (∀ b, b ∈ t.dyn ↔ s'.engine.awake b) ∧ (t.movers.Nodup ∧ ∀ b, b ∈ t.movers ↔ s.engine.awake b) ∧
      t.Duel s.mo k c ∧ t.Steady s.mo k c ∧ (∀ b, (s'.mo.bodies b).p = (s.mo.seen t b).p) ∧
      (t.contact k).a = (s.sc.sp.shapes x).body ∧ (t.contact k).b = (s.sc.sp.shapes y).body ∧ (t.contact k).n = (s'.up (s.sc.sp.shapes x).body q).neg ∧
      c.r1 = (t.contact k).n.mult cx.r ∧ (s'.mo.bodies (s.sc.sp.shapes y).body).p.add c.r2 = q.add ((t.contact k).n.mult (-sy.r)) ∧
      (t.contact k).surface_vr = ((s.surf y).v.sub (s.surf x).v).sub ((t.contact k).n.mult (((s.surf y).v.sub (s.surf x).v).dot (t.contact k).n)) ∧
      (t.contact k).e = (s.surf x).e * (s.surf y).e ∧ (t.contact k).u = (s.surf x).u * (s.surf y).u := by
  have ko := h.ok
  have hdt' : i.dt ≠ 0 := hdt.ne'
  obtain ⟨x1, x2⟩ : (s'.sc.shapes x).shp.cls = .circle { cx with tc := s'.worldPoint (s.sc.sp.shapes x).body cx.c } ∧
      (s'.sc.shapes x).shp.bb = BB.forCircle (s'.worldPoint (s.sc.sp.shapes x).body cx.c) cx.r := by
    obtain ⟨rot, e⟩ := placed_spec ko hdt' ok run E.inX (.inl E.mobileX.1)
    constructor
    · rw [e]
      show (Coll.Cls.cacheData (s.sc.shapes x).shp.cls _).1 = _
      rw [E.ball]; rfl
    · rw [e]
      show (Coll.Cls.cacheData (s.sc.shapes x).shp.cls _).2 = _
      rw [E.ball]; rfl
  obtain ⟨g, hg, y1, y2⟩ : ∃ g : Segment ℝ, g = (sy.cacheData (s'.mo.bodies (s.sc.sp.shapes y).body).transform).1 ∧ (s'.sc.shapes y).shp.cls = .seg g ∧
      (s'.sc.shapes y).shp.bb = (sy.cacheData (s'.mo.bodies (s.sc.sp.shapes y).body).transform).2 := by
    obtain ⟨rot, e⟩ := placed_spec ko hdt' ok run E.inY E.placeY
    refine ⟨_, rfl, ?_, ?_⟩
    · rw [e]
      show (Coll.Cls.cacheData (s.sc.shapes y).shp.cls _).1 = _
      rw [E.floor]; rfl
    · rw [e]
      show (Coll.Cls.cacheData (s.sc.shapes y).shp.cls _).2 = _
      rw [E.floor]; rfl
  rw [E.centreX] at x1 x2
  have ea : g.ta = s'.worldPoint (s.sc.sp.shapes y).body sy.a := by rw [hg]; rfl
  have eb : g.tb = s'.worldPoint (s.sc.sp.shapes y).body sy.b := by rw [hg]; rfl
  have er : g.r = sy.r := by rw [hg]; rfl
  have et : g.aTangent = sy.aTangent ∧ g.bTangent = sy.bTangent := by rw [hg]; exact ⟨rfl, rfl⟩
  have hab : g.ta ≠ g.tb := by rw [ea, eb]; exact E.ends
  have on : OnSegment g.ta g.tb q := by rw [ea, eb]; exact E.on
  have near : ∀ w, OnSegment g.ta g.tb w → (s'.mo.bodies (s.sc.sp.shapes x).body).p.distance q ≤ (s'.mo.bodies (s.sc.sp.shapes x).body).p.distance w := by
    rw [ea, eb]; exact E.nearest
  have close : (s'.mo.bodies (s.sc.sp.shapes x).body).p.distance q < cx.r + g.r := by rw [er]; exact E.close
  have free : (g.aTangent = ⟨0, 0⟩ ∧ g.bTangent = ⟨0, 0⟩) ∨ (q ≠ g.ta ∧ q ≠ g.tb) := by rw [et.1, et.2, ea, eb]; exact E.free
  have hmeets : Meets (s'.sc.shapes x) (s'.sc.shapes y) := by
    rintro id res hcol
    have F := floor_contact { cx with tc := (s'.mo.bodies (s.sc.sp.shapes x).body).p } g (s'.sc.shapes y).shp.rot id q hab on near close E.apart free
    rcases hcol with hcol | hcol
    · simp only [Coll.collide, x1, y1, Coll.Cls.order, Coll.collideSorted, F, Option.map_some] at hcol
      rw [if_neg (by decide)] at hcol
      cases hcol; simp
    · simp only [Coll.collide, x1, y1, Coll.Cls.order, Coll.collideSorted, F, Option.map_some] at hcol
      rw [if_pos (by decide)] at hcol
      cases hcol; simp
  have cf : ∀ p r k arb, ((p = x ∧ r = y) ∨ (p = y ∧ r = x)) → ContactOf s s' k p r arb → p = x ∧ r = y ∧
      arb.n = (s'.up (s.sc.sp.shapes x).body q).neg ∧ ∃ c, arb.contacts = [c] ∧ c.r1 = arb.n.mult cx.r ∧
      (s'.mo.bodies (s.sc.sp.shapes y).body).p.add c.r2 = q.add (arb.n.mult (-sy.r)) := by
    intro p r k arb hpr C
    have := contact_floor hpr C x1 y1 hab on near close E.apart free rfl
    rw [er] at this
    rw [← up_neg]
    exact this
  have unit : (s'.up (s.sc.sp.shapes x).body q).neg.dot (s'.up (s.sc.sp.shapes x).body q).neg = 1 := by
    rw [← up_neg]; exact (toward_unit E.apart).1
  obtain ⟨t, k, c, hmo, -, t1, t2, t3, t5, t6, dy, mv, D, st, seenp, p, r, hpr, C, ha, hb, he, hu⟩ := meeting_duel h hdt ok quiet run E.toMeeting
    (by rw [x2, y2]; exact floor_box sy _ _ q _ E.on E.close) (by rw [x2]; exact circle_proper _ E.radiusX)
    (by rw [y2]; exact floor_proper _ _ E.radiusY) hmeets (by
      intro p r k arb hpr C
      obtain ⟨rfl, rfl, hn, c, hc, r1, -⟩ := cf p r k arb hpr C
      have u : arb.n.dot arb.n = 1 := by rw [hn]; exact unit
      exact ⟨c, hc, u, by rw [r1, (ring_cross u cx.r 0 0).1, mul_zero], by rw [E.static.2.2, zero_mul]⟩)
  obtain ⟨rfl, rfl, hn, c', hc', r1, r2⟩ := cf p r k _ hpr C
  obtain rfl : c = c' := by have := D.one; rw [hc'] at this; exact (List.cons.inj this).1.symm
  exact ⟨t, k, c, hmo, t1, t2, t3, t5, t6, dy, mv, D, st, seenp, ha, hb, hn, r1, r2, C.surface, he, hu⟩

/-- The floor stays what it is. -/
theorem floor_stays {hash : Obj → Nat} {s s' : Sim ℝ} (h : s.Reach hash) {i : SimIn ℝ} (hdt : 0 < i.dt)
    (ok : (Sim.Call.step i).Allowed s) (run : s.call hash (.step i) = some s') {b : Nat} (st : s.sc.sp.typ b = .static ∧ Immovable (s.mo.bodies b)) :
    s'.mo.bodies b = s.mo.bodies b ∧ ¬ s'.engine.awake b := by
  obtain ⟨e', x1, -, -, -, -, -, -, -, -, x8, x9, -⟩ := C64_tests h hdt.ne' ok run
  have he : e'.dt ≠ 0 := by rw [x1]; exact hdt.ne'
  refine ⟨(C63_unmoved h.ok.eng he x8 x9 st.2).1 st.1, ?_⟩
  obtain ⟨mid, H⟩ := Engine.step_mid h.ok.eng he x8 x9
  rw [Engine.awake_iff]
  rintro ⟨-, k, -⟩
  rw [H.keep.typ] at k
  exact k st.1

theorem ring_floor {N v d : Vec ℝ} (hN : N.dot N = 1) (r w : ℝ) (r2 : Vec ℝ) :
    (((⟨0, 0⟩ : Vec ℝ).add (r2.perp.mult 0)).sub (v.add ((N.mult r).perp.mult w))).dot N = v.dot N.neg ∧
    ((((⟨0, 0⟩ : Vec ℝ).add (r2.perp.mult 0)).sub (v.add ((N.mult r).perp.mult w))).add (d.sub (N.mult (d.dot N)))).dot N.perp =
      (v.add d.neg).dot N.neg.perp - r * w := by
  simp only [Vec.dot, Vec.sub, Vec.add, Vec.mult, Vec.perp, Vec.neg] at hN ⊢
  exact ⟨by ring, by linear_combination (-(r * w)) * hN⟩

set_option maxHeartbeats 1000000 in
/-- **C66.** What becomes of a ball that lands on a floor: the floor pushes it with a single impulse. Its part `J` away from the floor is what makes the ball bounce
with the product of the elasticities (none, if gravity and forces alone take it away faster); its part `T` along the floor is what stops the ball's surface from sliding,
as far as the product of the frictions allows, and it turns the ball. The floor stays where and what it is. -/
theorem C66_landing {hash : Obj → Nat} {s s' : Sim ℝ} (h : s.Reach hash) {i : SimIn ℝ} (hdt : 0 < i.dt)
    (ok : (Sim.Call.step i).Allowed s) (quiet : (∀ y, i.sepActs y = []) ∧ i.lateActs = []) (run : s.call hash (.step i) = some s')
    {x y : Nat} {cx : Circle ℝ} {sy : Segment ℝ} {q : Vec ℝ} (E : Landing s s' i x y cx sy q) :
    let a := (s.sc.sp.shapes x).body
    let u := s'.up a q
    let A := s.mo.bodies a
    s'.mo.bodies (s.sc.sp.shapes y).body = s.mo.bodies (s.sc.sp.shapes y).body ∧
    ∃ J T : ℝ,
      J = max 0 (-((s.freeVel s' i a).dot u + (s.surf x).e * (s.surf y).e * (s.velocity a).dot u) / A.m_inv) ∧
      T = clamp (-(s.skid x y cx.r u (s.freeVel s' i a) (s.freeSpin s' i a)) / (A.m_inv + A.i_inv * cx.r ^ 2))
        (-((s.surf x).u * (s.surf y).u * J)) ((s.surf x).u * (s.surf y).u * J) ∧
      s'.velocity a = (s.freeVel s' i a).add (((u.mult J).add (u.perp.mult T)).mult A.m_inv) ∧
      s'.spin a = s.freeSpin s' i a - A.i_inv * (cx.r * T) := by
  intro a u A
  obtain ⟨t, k, c, hmo, t1, t2, t3, -, -, dy, -, D, st, pos, ha, hb, hn, r1, r2, hsv, he, hu⟩ := C66_duel h hdt ok quiet run E
  obtain ⟨fl, flw⟩ := floor_stays h hdt ok run E.static
  refine ⟨fl, ?_⟩
  obtain ⟨J, T, hJ, hT, K, -⟩ := C60_impulse D st
  have hf := free_facts (s := s) (s' := s') hdt t1 t2 t3 D.dyn dy
  have hfz : ∀ z, ((s.mo.tick t.free).bodies z).m_inv = (s.mo.bodies z).m_inv ∧ ((s.mo.tick t.free).bodies z).i_inv = (s.mo.bodies z).i_inv := by
    intro z
    have hff := free_frozen s.mo t D.pos.ne' D.dyn
    rw [(hff z).m_inv, (hff z).i_inv, (seen_v s.mo t z).2.2.2.2.2.2.1, (seen_v s.mo t z).2.2.2.2.2.2.2]
    exact ⟨rfl, rfl⟩
  have hfv : s.freeVel s' i (s.sc.sp.shapes y).body = ⟨0, 0⟩ ∧ s.freeSpin s' i (s.sc.sp.shapes y).body = 0 := by
    simp only [freeVel, freeSpin, if_neg flw]
    exact ⟨E.still.1, E.still.2.1⟩
  obtain ⟨k1, k2, -, -⟩ := K
  have hunit := D.unit
  rw [← hmo] at k1 k2
  obtain ⟨N, hN⟩ : ∃ N, N = (t.contact k).n := ⟨_, rfl⟩
  simp only [Arb.partVel, Arb.slipVel, Arb.response, Arb.impulse, ha, hb, hf, hfz, he, hu, hsv, r1, hfv, E.still.1, E.still.2.1, E.static.2.1, E.static.2.2, ← hN] at hJ hT k1 k2
  rw [← hN] at hunit hn
  simp only [(ring_floor (d := ⟨0, 0⟩) hunit _ _ _).1, (ring_floor hunit _ _ _).2, (ring_cross hunit _ 0 0).1, (ring_cross hunit _ 0 0).2.1, (ring_cross hunit _ _ _).2.2,
    zero_mul, add_zero] at hJ hT k2
  have hu' : N.neg = u := by rw [hn]; simp [Vec.neg, u, a]
  rw [hu'] at hJ hT
  refine ⟨J, T, ?_, ?_, ?_, ?_⟩
  · rw [hJ]
    simp only [ne_eq, OfNat.ofNat_ne_zero, not_false_eq_true, zero_pow, mul_zero, add_zero]
    rfl
  · rw [hT]
    have : ((s.surf y).v.sub (s.surf x).v).neg = (s.surf x).v.sub (s.surf y).v := by
      simp only [Vec.neg, Vec.sub, Vec.mk.injEq]; constructor <;> ring
    rw [this]
    rfl
  · refine k1.trans ?_
    rw [← hu']
    simp only [Vec.sub, Vec.neg, Vec.add, Vec.perp, Vec.mult, Vec.mk.injEq]
    constructor <;> ring
  · exact k2

/-- **C66.** A ball that lands on a floor leaves it with the product of the elasticities times the velocity with which it came (straight from the floor), or faster if
gravity and forces alone take it away faster. -/
theorem C66_bounce {hash : Obj → Nat} {s s' : Sim ℝ} (h : s.Reach hash) {i : SimIn ℝ} (hdt : 0 < i.dt)
    (ok : (Sim.Call.step i).Allowed s) (quiet : (∀ y, i.sepActs y = []) ∧ i.lateActs = []) (run : s.call hash (.step i) = some s')
    {x y : Nat} {cx : Circle ℝ} {sy : Segment ℝ} {q : Vec ℝ} (E : Landing s s' i x y cx sy q) :
    let a := (s.sc.sp.shapes x).body
    let u := s'.up a q
    (s'.velocity a).dot u = max ((s.freeVel s' i a).dot u) (-((s.surf x).e * (s.surf y).e * (s.velocity a).dot u)) := by
  intro a u
  obtain ⟨-, J, T, hJ, -, va, -⟩ := C66_landing h hdt ok quiet run E
  have hm : 0 < (s.mo.bodies a).m_inv := by
    have := E.masses
    rwa [E.static.2.1, add_zero] at this
  have hunit : u.dot u = 1 := by
    have := (toward_unit E.apart).1
    rw [up_neg] at this
    simpa [Vec.dot, Vec.neg] using this
  have e : (s'.velocity a).dot u = (s.freeVel s' i a).dot u + J * (s.mo.bodies a).m_inv := by
    rw [va]
    show (Vec.add _ (((u.mult J).add (u.perp.mult T)).mult (s.mo.bodies a).m_inv)).dot u = _
    simp only [Vec.dot, Vec.add, Vec.mult, Vec.perp] at hunit ⊢
    linear_combination (J * (s.mo.bodies a).m_inv) * hunit
  rw [e, hJ, max_mul_of_nonneg _ _ hm.le, zero_mul, ← max_add_add_left, add_zero]
  congr 1
  show (s.freeVel s' i a).dot u + -((s.freeVel s' i a).dot u + (s.surf x).e * (s.surf y).e * (s.velocity a).dot u) / (s.mo.bodies a).m_inv * (s.mo.bodies a).m_inv = _
  field_simp
  ring

/-- Where the ball lands, its depth is what the radii exceed the distance of its centre from the floor. -/
theorem depth_distance {s s' : Sim ℝ} {i : SimIn ℝ} {x y : Nat} {cx : Circle ℝ} {sy : Segment ℝ} {q : Vec ℝ} (E : Landing s s' i x y cx sy q) :
    s'.depth (s.sc.sp.shapes x).body (s'.up (s.sc.sp.shapes x).body q) q cx.r sy.r = cx.r + sy.r - (s'.mo.bodies (s.sc.sp.shapes x).body).p.distance q := by
  obtain ⟨-, h0, e⟩ := toward_unit E.apart
  simp only [depth, up]
  generalize (s'.mo.bodies (s.sc.sp.shapes x).body).p = p at *
  generalize p.distance q = d at *
  have : (p.sub q).dot ((p.sub q).mult (1 / d)) = (q.sub p).dot (q.sub p) / d := by
    simp only [Vec.dot, Vec.sub, Vec.mult]; field_simp; ring
  rw [this, ← e]
  field_simp

set_option maxHeartbeats 1000000 in
/-- **C66.** What is left of the depth of a ball in a floor: one step after the step in which it landed, the depth beyond the slop is at most the share
`collisionBias^dt` of what it was (and not more than it was, if it was within the slop), plus the way that it comes closer because it bounces less than it went away
(nothing, if it came closer when it landed, or one of the two is inelastic). Whatever presses it onto the floor. -/
theorem C66_step {hash : Obj → Nat} {s s' s'' : Sim ℝ} (h : s.Reach hash) {i i' : SimIn ℝ} (hdt : 0 < i.dt) (same : i'.dt = i.dt)
    (ok : (Sim.Call.step i).Allowed s) (quiet : (∀ y, i.sepActs y = []) ∧ i.lateActs = []) (run : s.call hash (.step i) = some s')
    (ok' : (Sim.Call.step i').Allowed s') (run' : s'.call hash (.step i') = some s'')
    {x y : Nat} {cx : Circle ℝ} {sy : Segment ℝ} {q : Vec ℝ} (E : Landing s s' i x y cx sy q)
    (carried : s'.engine.awake (s.sc.sp.shapes x).body ∨ s'.motionless (s.sc.sp.shapes x).body) (share : i.collisionBias ^ i.dt ≤ 1) :
    let a := (s.sc.sp.shapes x).body
    let u := s'.up a q
    let before := s'.depth a u q cx.r sy.r - i.slop
    let after := s''.depth a u q cx.r sy.r - i.slop
    after ≤ min before (i.collisionBias ^ i.dt * before) + (s.surf x).e * (s.surf y).e * (s.velocity a).dot u * i.dt := by
  intro a u before after
  have bounce := C66_bounce h hdt ok quiet run E
  obtain ⟨t, k, c, hmo, t1, t2, t3, t5, t6, dy, -, D, st, pos, ha, hb, hn, r1, r2, hsv, he, hu⟩ := C66_duel h hdt ok quiet run E
  obtain ⟨fl, flw⟩ := floor_stays h hdt ok run E.static
  have h' : s'.Reach hash := .call _ h ok run
  have hdt' : i'.dt ≠ 0 := by rw [same]; exact hdt.ne'
  obtain ⟨t', ht'⟩ : ∃ t' : Tick ℝ, t' = { t with movers := s'.sc.sp.dynamicBodies } := ⟨_, rfl⟩
  obtain ⟨e', x1, -, -, -, -, -, -, -, -, x8, x9, -⟩ := C64_tests h' hdt' ok' run'
  have pos' : (s''.mo.bodies a).p = (s'.mo.seen t' a).p := by
    refine (step_centre h'.ok hdt' x1 x8 x9 a).trans ?_
    rw [ht']
    simp only [Motion.seen, t1, same]
  have lists : s'.sc.sp.Lists := by
    obtain ⟨L, w⟩ := h'.ok.eng.good.1.world
    exact w.good.lists w.unlocked
  have car : t'.Carries s'.mo.bodies a := by
    refine ⟨by rw [ht']; exact lists.dynNodup, ?_⟩
    rcases carried with w | w
    · left
      rw [ht']
      exact (lists.dyn a).2 (Engine.awake_iff.1 w)
    · exact .inr w
  have hl : t.LastPush s.mo k := by
    have hm : k ∈ t.arbs := List.count_pos_iff.1 (by rw [D.once]; exact Nat.one_pos)
    obtain ⟨pre, post, e⟩ := List.append_of_mem hm
    have hco := D.once
    rw [e, List.count_append, List.count_cons_self] at hco
    have h1 : k ∉ pre := List.count_eq_zero.1 (by omega)
    have h2 : k ∉ post := List.count_eq_zero.1 (by omega)
    refine ⟨D.iterations, pre, post, e, h1, h2, fun j hj z hz => (D.lone z hz).imp_right fun l => l.others j ?_ (fun e => h2 (e ▸ hj))⟩
    rw [e]
    exact List.mem_append_right _ (List.mem_cons_of_mem _ hj)
  have push := C58_push s.mo t k [] c D.pos.ne' hl D.one D.ne D.unit ⟨D.solvable.1, D.solvable.2.1, D.solvable.2.2⟩
  have hunit := D.unit
  have hp := carried_pos car
  rw [← pos', show t'.dt = i.dt by rw [ht', ← t1]] at hp
  rw [← hmo, t1, t5, t6, Arb.overlap, Arb.pushVel, ha, hb, fl, E.still.2.2.1, E.still.2.2.2, ← pos, ← pos, r1, r2] at push
  obtain ⟨N, hN⟩ : ∃ N, N = (t.contact k).n := ⟨_, rfl⟩
  rw [← hN] at push hunit hn
  have hu' : u = N.neg := by rw [hn]; simp [Vec.neg, u, a]
  have bounce : -((s.surf x).e * (s.surf y).e * (s.velocity a).dot u) ≤ (s'.velocity a).dot u := by
    rw [bounce]; exact le_max_right _ _
  have e1 : (((s'.mo.bodies a).p.add (N.mult cx.r)).sub (q.add (N.mult (-sy.r)))).dot N = s'.depth a u q cx.r sy.r := by
    rw [depth, hu']
    simp only [Vec.dot, Vec.add, Vec.sub, Vec.mult, Vec.neg] at hunit ⊢
    linear_combination (cx.r + sy.r) * hunit
  have e2 : ((Vec.add ⟨0, 0⟩ (c.r2.perp.mult 0)).sub ((s'.mo.bodies a).v_bias.add ((N.mult cx.r).perp.mult (s'.mo.bodies a).w_bias))).dot N =
      (s'.mo.bodies a).v_bias.dot u := by
    rw [hu']
    simp only [Vec.dot, Vec.add, Vec.sub, Vec.mult, Vec.neg, Vec.perp]
    ring
  have e3 : s''.depth a u q cx.r sy.r = s'.depth a u q cx.r sy.r - ((s'.velocity a).dot u + (s'.mo.bodies a).v_bias.dot u) * i.dt := by
    simp only [depth, hp, velocity, Vec.dot, Vec.add, Vec.sub, Vec.mult]
    ring
  have push : (1 - i.collisionBias ^ i.dt) * max 0 (s'.depth a u q cx.r sy.r - i.slop) / i.dt ≤ (s'.mo.bodies a).v_bias.dot u := by
    rw [← e2, ← e1]; exact push
  rw [div_le_iff₀ hdt] at push
  have b1 := mul_le_mul_of_nonneg_right bounce hdt.le
  have key : after ≤ before - (1 - i.collisionBias ^ i.dt) * max 0 before + (s.surf x).e * (s.surf y).e * (s.velocity a).dot u * i.dt := by
    simp only [after, before, e3]
    linarith
  refine key.trans (add_le_add_left ?_ _)
  rcases le_total before 0 with hb | hb
  · rw [max_eq_left hb, mul_zero, sub_zero]
    exact le_min le_rfl (by nlinarith)
  · rw [max_eq_right hb]
    exact le_min (by nlinarith) (by linarith)

/-- **C66.** A ball that came closer when it landed, or if one of the two is inelastic, is one step later not deeper than when it landed. -/
theorem C66_no_sinking {hash : Obj → Nat} {s s' s'' : Sim ℝ} (h : s.Reach hash) {i i' : SimIn ℝ} (hdt : 0 < i.dt) (same : i'.dt = i.dt)
    (ok : (Sim.Call.step i).Allowed s) (quiet : (∀ y, i.sepActs y = []) ∧ i.lateActs = []) (run : s.call hash (.step i) = some s')
    (ok' : (Sim.Call.step i').Allowed s') (run' : s'.call hash (.step i') = some s'')
    {x y : Nat} {cx : Circle ℝ} {sy : Segment ℝ} {q : Vec ℝ} (E : Landing s s' i x y cx sy q)
    (carried : s'.engine.awake (s.sc.sp.shapes x).body ∨ s'.motionless (s.sc.sp.shapes x).body) (share : i.collisionBias ^ i.dt ≤ 1)
    (closing : (s.surf x).e * (s.surf y).e * (s.velocity (s.sc.sp.shapes x).body).dot (s'.up (s.sc.sp.shapes x).body q) ≤ 0) :
    (s'.mo.bodies (s.sc.sp.shapes x).body).p.dot (s'.up (s.sc.sp.shapes x).body q) ≤ (s''.mo.bodies (s.sc.sp.shapes x).body).p.dot (s'.up (s.sc.sp.shapes x).body q) := by
  have := C66_step h hdt same ok quiet run ok' run' E carried share
  dsimp only at this
  have h1 := this.trans (add_le_add_left (min_le_left _ _) _)
  have h2 := mul_nonpos_of_nonpos_of_nonneg closing hdt.le
  simp only [depth, Vec.dot, Vec.sub] at h1 h2 ⊢
  linarith

theorem Sim.Resting.reach {N : Nat} {hash : Obj → Nat} {ss : Nat → Sim ℝ} {is : Nat → SimIn ℝ} {dt slop bias : ℝ} {x y a : Nat} {r r' : ℝ} {u : Vec ℝ} {h : ℝ}
    (P : Resting N hash ss is dt slop bias x y a r r' u h) (n : Nat) (hn : n ≤ N) : (ss n).Reach hash := by
  induction n with
  | zero => exact P.start
  | succ n ih => exact .call _ (ih (by omega)) (P.allowed n (by omega)) (P.run n (by omega))

/-- **C66.** However long a ball lies on a floor, if one of them is inelastic: it is never deeper than when it landed (at height `z` above the floor's middle line is depth
`r + r' - z`), and its depth beyond the slop decays at least geometrically. -/
theorem C66_rest {N : Nat} {hash : Obj → Nat} {ss : Nat → Sim ℝ} {is : Nat → SimIn ℝ} {dt slop bias : ℝ} {x y a : Nat} {r r' : ℝ} {u : Vec ℝ} {h : ℝ}
    (P : Resting N hash ss is dt slop bias x y a r r' u h) (hdt : 0 < dt) (hb : 0 ≤ bias ^ dt ∧ bias ^ dt ≤ 1)
    (inelastic : ∀ n < N, ((ss n).surf x).e * ((ss n).surf y).e = 0) (n : Nat) (hn : n ≤ N) :
    let deep (k : Nat) := r + r' - (((ss k).mo.bodies a).p.dot u - h)
    deep (n + 1) ≤ deep 1 ∧ deep (n + 1) - slop ≤ (bias ^ dt) ^ n * max 0 (deep 1 - slop) := by
  intro deep
  induction n with
  | zero => simp
  | succ n ih =>
    have ih := ih (by omega)
    have hl : n < N := by omega
    obtain ⟨cx, sy, q, E, rfl, rfl, eu, eh⟩ := P.lies n hl
    obtain ⟨k1, k2, k3⟩ := P.kind n hl.le
    have b1 := P.body n hl
    have := C66_step (P.reach n hl.le) (by rw [k1]; exact hdt) (by rw [k1, (P.kind (n + 1) hn).1]) (P.allowed n hl.le) (P.quiet n hl) (P.run n hl.le)
      (P.allowed (n + 1) hn) (P.run (n + 1) hn) E (by rw [b1]; exact P.carried n hl) (by rw [k1, k3]; exact hb.2)
    dsimp only at this
    rw [inelastic n hl, b1, eu, k1, k2, k3, zero_mul, zero_mul, add_zero] at this
    have dd : ∀ k, (ss k).depth a u q cx.r sy.r = deep k := by
      intro k
      simp only [depth, deep, ← eh, Vec.dot, Vec.sub]
      ring
    rw [dd, dd] at this
    constructor
    · have := this.trans (min_le_left _ _)
      linarith [ih.1]
    · refine (this.trans (min_le_right _ _)).trans ?_
      rw [pow_succ', mul_assoc]
      exact mul_le_mul_of_nonneg_left ih.2 hb.1

end CP
