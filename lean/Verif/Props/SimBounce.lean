import Verif.Props.SimStep
import Verif.Props.BounceExamples
import Verif.Spec.Encounter

/-! # C64: two circles meet, from end to end -/

namespace CP
open Sim GoFloat

/-- A single contact. -/
theorem map_single {α β γ : Type} (f : α → γ) (g : β → γ) {l : List α} {b : β} (h : l.map f = [b].map g) : ∃ a, l = [a] ∧ f a = g b := by
  match l, h with
  | [a], h => exact ⟨a, rfl, by simpa using h⟩
  | _ :: _ :: _, h => simp at h

/-- The arbiter of two circles on the centres of gravity of their bodies. -/
theorem contact_round {s s' : Sim ℝ} {k p q : Nat} {arb : Arb ℝ} (C : ContactOf s s' k p q arb) (cp cq : Circle ℝ)
    (hp : (s'.sc.shapes p).shp.cls = .circle { cp with tc := (s'.mo.bodies (s.sc.sp.shapes p).body).p })
    (hq : (s'.sc.shapes q).shp.cls = .circle { cq with tc := (s'.mo.bodies (s.sc.sp.shapes q).body).p })
    (hne : (s'.mo.bodies (s.sc.sp.shapes p).body).p ≠ (s'.mo.bodies (s.sc.sp.shapes q).body).p) (first : Bool) :
    ({ arb with a := (s.sc.sp.shapes p).body, b := (s.sc.sp.shapes q).body, first := first } : Arb ℝ).Round s'.mo.bodies cp.r cq.r ∧
    arb.n = ((s'.mo.bodies (s.sc.sp.shapes q).body).p.sub (s'.mo.bodies (s.sc.sp.shapes p).body).p).mult
      (1 / (s'.mo.bodies (s.sc.sp.shapes p).body).p.distance (s'.mo.bodies (s.sc.sp.shapes q).body).p) := by
  obtain ⟨id, info, hcol, hcont, hn, hmap⟩ := C.found
  generalize hP : (s'.mo.bodies (s.sc.sp.shapes p).body).p = P at *
  generalize hQ : (s'.mo.bodies (s.sc.sp.shapes q).body).p = Q at *
  have hcol : Coll.circleToCircle { cp with tc := P } { cq with tc := Q } ⟨⟨0, 0⟩, id, []⟩ = some info := by
    rcases hcol with h | h
    · simp only [Coll.collide, hp, hq, Coll.Cls.order, lt_irrefl, if_false, Coll.collideSorted, Option.map_eq_some_iff] at h
      obtain ⟨info', h1, h2⟩ := h
      cases h2; exact h1
    · simp only [Coll.collide, hp, hq, Coll.Cls.order, lt_irrefl, if_false, Coll.collideSorted, Option.map_eq_some_iff] at h
      obtain ⟨info', h1, h2⟩ := h
      cases h2
  have hd : P.distance Q = sqrt (Q.sub P).lengthSq := by
    simp only [Vec.distance, Vec.length, Vec.lengthSq]
    congr 1
    simp only [Vec.dot, Vec.sub]; ring
  have hpos : 0 < (Q.sub P).lengthSq := by
    simp only [Vec.lengthSq, Vec.dot, Vec.sub]
    by_contra hle
    have h1 : (Q.x - P.x) * (Q.x - P.x) = 0 := by nlinarith [mul_self_nonneg (Q.x - P.x), mul_self_nonneg (Q.y - P.y)]
    have h2 : (Q.y - P.y) * (Q.y - P.y) = 0 := by nlinarith [mul_self_nonneg (Q.x - P.x), mul_self_nonneg (Q.y - P.y)]
    rw [mul_self_eq_zero, sub_eq_zero] at h1 h2
    exact hne (by ext; exacts [h1.symm, h2.symm])
  have hs0 : sqrt (Q.sub P).lengthSq ≠ 0 := (Real.sqrt_pos.2 hpos).ne'
  simp only [Coll.circleToCircle] at hcol
  by_cases hlt : (Q.sub P).lengthSq < (cp.r + cq.r) * (cp.r + cq.r)
  swap
  · rw [if_neg hlt] at hcol
    cases hcol
    exact absurd rfl hcont
  rw [if_pos hlt, if_pos hs0] at hcol
  simp only [Coll.Info.push, List.length_nil, Nat.zero_lt_two, if_true, List.nil_append, Option.some.injEq] at hcol
  subst hcol
  have hnn : arb.n = (Q.sub P).mult (1 / P.distance Q) := by rw [hn, hd]
  have hunit : arb.n.dot arb.n = 1 := by
    have hsq := Real.mul_self_sqrt hpos.le
    rw [hnn, hd]
    have e : sqrt (Q.sub P).lengthSq = Real.sqrt (Q.sub P).lengthSq := rfl
    rw [e] at hs0 ⊢
    simp only [Vec.dot, Vec.mult]
    field_simp
    rw [sq, sq, sq, hsq]
    rfl
  refine ⟨⟨?_, ?_⟩, hnn⟩
  · obtain ⟨c, hc, hcc⟩ := map_single _ _ hmap
    have h1 := congrArg Prod.fst hcc
    have h2 := congrArg (fun z => z.2.1) hcc
    simp only at h1 h2
    refine ⟨⟨(Q.sub P).mult (1 / sqrt (Q.sub P).lengthSq), 0, [⟨P.add (((Q.sub P).mult (1 / sqrt (Q.sub P).lengthSq)).mult cp.r),
      Q.add (((Q.sub P).mult (1 / sqrt (Q.sub P).lengthSq)).mult (-cq.r)), 0#64⟩]⟩, ⟨P.add (((Q.sub P).mult (1 / sqrt (Q.sub P).lengthSq)).mult cp.r),
      Q.add (((Q.sub P).mult (1 / sqrt (Q.sub P).lengthSq)).mult (-cq.r)), 0#64⟩, c, ?_, rfl, hn, hc, ?_, ?_⟩
    · show Coll.circleToCircle ⟨⟨0, 0⟩, (s'.mo.bodies _).p, cp.r⟩ ⟨⟨0, 0⟩, (s'.mo.bodies _).p, cq.r⟩ ⟨⟨0, 0⟩, 0, []⟩ = _
      simp only [Coll.circleToCircle, hP, hQ]
      rw [if_pos hlt, if_pos hs0]
      simp only [Coll.Info.push, List.length_nil, Nat.zero_lt_two, if_true, List.nil_append]
    · show (s'.mo.bodies _).p.add c.r1 = _
      rw [hP, h1]
      simp only [Vec.add, Vec.sub, Vec.mk.injEq]
      constructor <;> ring
    · show (s'.mo.bodies _).p.add c.r2 = _
      rw [hQ, h2]
      simp only [Vec.add, Vec.sub, Vec.mk.injEq]
      constructor <;> ring
  · show arb.surface_vr.dot arb.n = 0
    rw [C.surface]
    generalize ((s.surf q).v.sub (s.surf p).v) = d
    simp only [Vec.dot, Vec.sub, Vec.mult] at hunit ⊢
    linear_combination (-(d.x * arb.n.x + d.y * arb.n.y)) * hunit

/-- A pair that the narrow phase has found is not missed. -/
theorem clear_of {s s' : Sim ℝ} {b x y u w : Nat} (hc : s.ClearBut s' b x y) (hfil : ∀ z, (s'.sc.shapes z).filter = (s.sc.shapes z).filter)
    (hm : ({ s.sc with shapes := s'.sc.shapes } : Scene ℝ).MustTest u w) {k : Nat} {arb : Arb ℝ} (C : ContactOf s s' k u w arb)
    (hb : b = (s.sc.sp.shapes u).body ∨ b = (s.sc.sp.shapes w).body) : (u = x ∧ w = y) ∨ (u = y ∧ w = x) := by
  by_contra hno
  rw [not_or] at hno
  obtain ⟨id, info, hcol, hcont, -, -⟩ := C.found
  have hf : (s.sc.shapes u).filter.reject (s.sc.shapes w).filter = false := by rw [← hfil, ← hfil]; exact hm.filters
  have hne : (s.sc.sp.shapes u).body ≠ (s.sc.sp.shapes w).body := hm.bodies
  rcases hb with hb | hb
  · rcases hc u w hm.inX hm.inY hb.symm (fun q => hne (hb.symm.trans q.symm)) hno.1 hno.2 with q | q | q
    · rw [hf] at q; cases q
    · rw [hm.boxes] at q; cases q
    · rcases hcol with h | h
      · exact hcont (q id _ (.inl h))
      · exact hcont (q id _ (.inr h))
  · rcases hc w u hm.inY hm.inX hb.symm (fun q => hne (q.trans hb)) (fun h => hno.2 ⟨h.2, h.1⟩) (fun h => hno.1 ⟨h.2, h.1⟩) with q | q | q
    · rw [C05_symm, hf] at q; cases q
    · have := hm.boxes
      rw [BB.intersects_comm] at this
      rw [this] at q; cases q
    · rcases hcol with h | h
      · exact hcont (q id _ (.inr h))
      · exact hcont (q id _ (.inl h))

/-- The boxes of circles that touch overlap. -/
theorem circle_boxes (p q : Vec ℝ) (r r' : ℝ) (hlt : p.distance q < r + r') : (BB.forCircle p r).intersects (BB.forCircle q r') = true := by
  have hx : |p.x - q.x| ≤ p.distance q := by
    simp only [Vec.distance, Vec.length, sqrt_real, Vec.dot, Vec.sub]
    apply Real.abs_le_sqrt
    nlinarith [mul_self_nonneg (p.y - q.y)]
  have hy : |p.y - q.y| ≤ p.distance q := by
    simp only [Vec.distance, Vec.length, sqrt_real, Vec.dot, Vec.sub]
    apply Real.abs_le_sqrt
    nlinarith [mul_self_nonneg (p.x - q.x)]
  obtain ⟨x1, x2⟩ := abs_le.1 hx
  obtain ⟨y1, y2⟩ := abs_le.1 hy
  simp only [BB.intersects, BB.forCircle, BB.forExtents, Bool.and_eq_true, decide_eq_true_eq]
  refine ⟨⟨⟨?_, ?_⟩, ?_⟩, ?_⟩ <;> apply decide_eq_true <;> linarith

theorem circle_proper (p : Vec ℝ) {r : ℝ} (hr : 0 ≤ r) : (BB.forCircle p r).Proper := by
  simp only [BB.Proper, BB.forCircle, BB.forExtents]; constructor <;> linarith

theorem distance_symm (p q : Vec ℝ) : p.distance q = q.distance p := by
  simp only [Vec.distance, Vec.length, Vec.dot, Vec.sub]
  congr 1; ring

theorem ring_cross {N : Vec ℝ} (hN : N.dot N = 1) (r J T : ℝ) : (N.mult r).cross N = 0 ∧ (N.mult r).cross N.perp = r ∧
    (N.mult r).cross ((N.mult J).add (N.perp.mult T)) = r * T := by
  simp only [Vec.dot, Vec.cross, Vec.add, Vec.mult, Vec.perp] at hN ⊢
  exact ⟨by ring, by linear_combination r * hN, by linear_combination r * T * hN⟩

theorem step_filters {hash : Obj → Nat} {s s' : Sim ℝ} (h : s.Reach hash) {i : SimIn ℝ} (hdt : i.dt ≠ 0) (ok : (Sim.Call.step i).Allowed s)
    (run : s.call hash (.step i) = some s') (z : Nat) : (s'.sc.shapes z).filter = (s.sc.shapes z).filter := by
  rw [(step_shapes h.ok hdt ok run z).1]
  simp only [placed]
  split <;> rfl

set_option maxHeartbeats 1000000 in
/-- **C64.** Two shapes that meet at one contact, and to whose bodies nothing else happens, meet in a duel of C60, if pushing at the contact turns neither body. -/
theorem meeting_duel {hash : Obj → Nat} {s s' : Sim ℝ} (h : s.Reach hash) {i : SimIn ℝ} (hdt : 0 < i.dt)
    (ok : (Sim.Call.step i).Allowed s) (quiet : (∀ y, i.sepActs y = []) ∧ i.lateActs = []) (run : s.call hash (.step i) = some s')
    {x y : Nat} (E : Meeting s s' i x y) (hbox : (s'.sc.shapes x).shp.bb.intersects (s'.sc.shapes y).shp.bb = true)
    (px : (s'.sc.shapes x).shp.bb.Proper) (py : (s'.sc.shapes y).shp.bb.Proper) (hmeets : Meets (s'.sc.shapes x) (s'.sc.shapes y))
    (geo : ∀ p q k arb, ((p = x ∧ q = y) ∨ (p = y ∧ q = x)) → ContactOf s s' k p q arb → ∃ c, arb.contacts = [c] ∧ arb.n.dot arb.n = 1 ∧
      (s.mo.bodies (s.sc.sp.shapes p).body).i_inv * c.r1.cross arb.n = 0 ∧ (s.mo.bodies (s.sc.sp.shapes q).body).i_inv * c.r2.cross arb.n = 0) :
    ∃ (t : Tick ℝ) (k : Nat) (c : Contact ℝ), s'.mo = s.mo.tick t ∧ s'.arbs = solved s.mo t ∧
      t.dt = i.dt ∧ t.gravity = i.gravity ∧ t.damping = i.damping ∧ t.slop = i.slop ∧ t.collisionBias = i.collisionBias ∧ (∀ b, b ∈ t.dyn ↔ s'.engine.awake b) ∧ (t.movers.Nodup ∧ ∀ b, b ∈ t.movers ↔ s.engine.awake b) ∧
      t.Duel s.mo k c ∧ t.Steady s.mo k c ∧ (∀ b, (s'.mo.bodies b).p = (s.mo.seen t b).p) ∧
      ∃ p q, ((p = x ∧ q = y) ∨ (p = y ∧ q = x)) ∧ ContactOf s s' k p q (t.contact k) ∧
        (t.contact k).a = (s.sc.sp.shapes p).body ∧ (t.contact k).b = (s.sc.sp.shapes q).body ∧
        (t.contact k).e = (s.surf x).e * (s.surf y).e ∧ (t.contact k).u = (s.surf x).u * (s.surf y).u := by
  have ko := h.ok
  have hdt' : i.dt ≠ 0 := hdt.ne'
  obtain ⟨t, hmo, harbs, t1, t2, t3, t4, t5, t6, mvN, mv, dyN, dy, joN, jo, arN, of, sound, uniq, full⟩ := C64_step h hdt' ok quiet run
  have hfil := step_filters h hdt' ok run
  have hunm : ∀ c, (s.sc.sp.cons c).inSpace = true → s.sc.sp.joins c (s.sc.sp.shapes x).body = true →
      s.sc.sp.joins c (s.sc.sp.shapes y).body = true → s.sc.collideBodies c = true := by
    intro c hc jx jy
    exfalso
    have hj : ∀ b, s.sc.sp.joins c b = true → s.engine.joined b := fun b hb => by
      simp only [Sp.joins, Bool.or_eq_true, beq_iff_eq] at hb
      exact ⟨c, hc, hb⟩
    have hm := E.masses
    rcases E.lone _ (.inl rfl) with q | q
    · rcases E.lone _ (.inr rfl) with q' | q'
      · rw [q.1, q'.1] at hm; simp at hm
      · exact q'.2.1 (hj _ jy)
    · exact q.2.1 (hj _ jx)
  have hmust : ({ s.sc with shapes := s'.sc.shapes } : Scene ℝ).MustTest x y :=
    ⟨E.inX, E.inY, .inl E.mobileX.1, E.bodies, by
      show (s'.sc.shapes x).filter.reject (s'.sc.shapes y).filter = false
      rw [hfil, hfil]; exact E.filters, hbox, hunm⟩
  obtain ⟨k, hk, hgiv⟩ := full x y hmust px py (.inl E.mobileX.1) E.placeY hmeets E.admitted (.inl E.mobileX.2)
  obtain ⟨p, q, hpq, hof, arb, C, hcon⟩ : ∃ p q, ((p = x ∧ q = y) ∨ (p = y ∧ q = x)) ∧ of k = (p, q) ∧ Given s s' i t k p q := by
    rcases hgiv with g | g
    · exact ⟨x, y, .inl ⟨rfl, rfl⟩, g⟩
    · exact ⟨y, x, .inr ⟨rfl, rfl⟩, g⟩
  have hadj : i.adjust p q arb = arb := by
    rcases hpq with ⟨rfl, rfl⟩ | ⟨rfl, rfl⟩
    · exact (E.unchanged arb).1
    · exact (E.unchanged arb).2
  rw [hadj] at hcon
  have seenp : ∀ b, (s'.mo.bodies b).p = (s.mo.seen t b).p := fun b => by
    rw [hmo]; exact (tick_frozen s.mo t (by rw [t1]; exact hdt') b).p
  have hab : (t.contact k).a = (s.sc.sp.shapes p).body ∧ (t.contact k).b = (s.sc.sp.shapes q).body := by rw [hcon]; exact ⟨rfl, rfl⟩
  have hends : ∀ b, b = (t.contact k).a ∨ b = (t.contact k).b → b = (s.sc.sp.shapes x).body ∨ b = (s.sc.sp.shapes y).body := by
    rw [hab.1, hab.2]
    rcases hpq with ⟨rfl, rfl⟩ | ⟨rfl, rfl⟩
    · exact fun b hb => hb
    · exact fun b hb => hb.symm
  have hlone : ∀ b, b = (t.contact k).a ∨ b = (t.contact k).b → Immovable (s.mo.bodies b) ∨ t.Lone s.mo k b := by
    intro b hb
    refine (E.lone b (hends b hb)).imp_right fun ⟨l1, l2, l3⟩ => ⟨?_, ?_⟩
    · intro j hj hjk
      by_contra hno
      have hbj : b = (t.contact j).a ∨ b = (t.contact j).b := by
        by_contra hno'
        exact hno ⟨fun e => hno' (.inl e), fun e => hno' (.inr e)⟩
      obtain ⟨hm, arb', C', hc'⟩ := sound j hj (by rcases hbj with e | e <;> rw [← e] <;> simp [l1])
      have hb' : b = (s.sc.sp.shapes (of j).1).body ∨ b = (s.sc.sp.shapes (of j).2).body := by
        rw [hc'] at hbj; exact hbj
      have hxy := clear_of l3 hfil hm C' hb'
      refine hjk (uniq j hj k hk ?_)
      rw [hof]
      rcases hpq with ⟨rfl, rfl⟩ | ⟨rfl, rfl⟩ <;> rcases hxy with ⟨e1, e2⟩ | ⟨e1, e2⟩
      · exact .inl (Prod.ext e1 e2)
      · exact .inr (Prod.ext e1 e2)
      · exact .inr (Prod.ext e1 e2)
      · exact .inl (Prod.ext e1 e2)
    · intro j hj
      obtain ⟨fa, fb⟩ := ko.eng.good.2 j
      have fa : (s.mo.joints j).con.a = (s.sc.sp.cons j).a := fa
      have fb : (s.mo.joints j).con.b = (s.sc.sp.cons j).b := fb
      rw [fa, fb]
      have := ((jo j).1 hj).1
      exact ⟨fun e => l2 ⟨j, this, .inl e.symm⟩, fun e => l2 ⟨j, this, .inr e.symm⟩⟩
  have hmass : 0 < (s.mo.bodies (t.contact k).a).m_inv + (s.mo.bodies (t.contact k).b).m_inv ∧ 0 ≤ (s.mo.bodies (t.contact k).a).i_inv ∧ 0 ≤ (s.mo.bodies (t.contact k).b).i_inv := by
    rw [hab.1, hab.2]
    have := E.masses
    have := E.moments
    rcases hpq with ⟨rfl, rfl⟩ | ⟨rfl, rfl⟩
    · exact ⟨E.masses, E.moments.1, E.moments.2⟩
    · exact ⟨by rw [add_comm]; exact E.masses, E.moments.2, E.moments.1⟩
  obtain ⟨c, hc, hunit, g1, g2⟩ := geo p q k arb hpq C
  have hsurf : arb.surface_vr.dot arb.n = 0 := by
    rw [C.surface]
    generalize ((s.surf q).v.sub (s.surf p).v) = d
    simp only [Vec.dot, Vec.sub, Vec.mult] at hunit ⊢
    linear_combination (-(d.x * arb.n.x + d.y * arb.n.y)) * hunit
  have D : t.Duel s.mo k c := by
    refine ⟨by rw [t1]; exact hdt, dyN, by rw [t4]; exact E.iterations, List.count_eq_one_of_mem arN hk, hlone, ?_, by rw [hcon]; exact hc, by rw [hcon]; exact hunit,
      by rw [hcon]; exact hsurf, hmass, .inl ?_⟩
    · rw [hab.1, hab.2]
      rcases hpq with ⟨rfl, rfl⟩ | ⟨rfl, rfl⟩
      · exact E.bodies
      · exact E.bodies.symm
    · rw [hcon]; exact ⟨g1, g2⟩
  have C' : ContactOf s s' k p q (t.contact k) := by
    rw [hcon]
    exact ⟨C.found, C.e, C.u, C.surface, C.impulses⟩
  refine ⟨t, k, c, hmo, harbs, t1, t2, t3, t5, t6, dy, ⟨mvN, mv⟩, D, ?_, seenp, p, q, hpq, C', hab.1, hab.2, ?_, ?_⟩
  · have hc : c ∈ arb.contacts := by rw [hc]; simp
    have hsame : ∀ j, s.sc.sp.samePair p q j = s.sc.sp.samePair x y j := by
      intro j
      rcases hpq with ⟨rfl, rfl⟩ | ⟨rfl, rfl⟩
      · rfl
      · exact Sp.samePair_comm _ _ _ _
    rcases E.memory with m | ⟨m1, m2⟩
    · left
      rcases C.impulses c hc with z | ⟨z1, z2, o, ho, -, z3, z4⟩
      · exact z
      · rw [hsame] at z2
        rw [z3, z4]
        exact m k z1 z2 o ho
    · right
      refine ⟨?_, by rw [m2, t1]⟩
      rw [hcon]
      have : proto p q s.sc.sp.trace = some true := by
        rcases hpq with ⟨rfl, rfl⟩ | ⟨rfl, rfl⟩
        · exact m1
        · rw [proto_swap]; exact m1
      simp [this]
  · rw [C'.e]
    rcases hpq with ⟨rfl, rfl⟩ | ⟨rfl, rfl⟩
    · rfl
    · exact mul_comm _ _
  · rw [C'.u]
    rcases hpq with ⟨rfl, rfl⟩ | ⟨rfl, rfl⟩
    · rfl
    · exact mul_comm _ _

set_option maxHeartbeats 1000000 in
/-- **C64.** Two circles that meet, and to whose bodies nothing else happens, meet in a duel of C60, with the line of centres as the normal and the products of
elasticities and frictions; so all of C60 holds of them. -/
theorem C64_duel {hash : Obj → Nat} {s s' : Sim ℝ} (h : s.Reach hash) {i : SimIn ℝ} (hdt : 0 < i.dt)
    (ok : (Sim.Call.step i).Allowed s) (quiet : (∀ y, i.sepActs y = []) ∧ i.lateActs = []) (run : s.call hash (.step i) = some s')
    {x y : Nat} {cx cy : Circle ℝ} (E : Encounter s s' i x y cx cy) :
    ∃ (t : Tick ℝ) (k : Nat) (c : Contact ℝ), s'.mo = s.mo.tick t ∧ s'.arbs = solved s.mo t ∧
      t.dt = i.dt ∧ t.gravity = i.gravity ∧ t.damping = i.damping ∧ t.slop = i.slop ∧ t.collisionBias = i.collisionBias ∧ (∀ b, b ∈ t.dyn ↔ s'.engine.awake b) ∧
      t.Duel s.mo k c ∧ t.Steady s.mo k c ∧
      ∃ p q rp rq, (t.contact k).Round (s.mo.seen t) rp rq ∧ ((p = x ∧ q = y ∧ rp = cx.r ∧ rq = cy.r) ∨ (p = y ∧ q = x ∧ rp = cy.r ∧ rq = cx.r)) ∧
        c.r1 = (t.contact k).n.mult rp ∧ c.r2 = (t.contact k).n.mult (-rq) ∧ (t.contact k).a = (s.sc.sp.shapes p).body ∧ (t.contact k).b = (s.sc.sp.shapes q).body ∧
        (t.contact k).n = s'.direction (s.sc.sp.shapes p).body (s.sc.sp.shapes q).body ∧
        (t.contact k).surface_vr = ((s.surf q).v.sub (s.surf p).v).sub ((t.contact k).n.mult (((s.surf q).v.sub (s.surf p).v).dot (t.contact k).n)) ∧
        (t.contact k).e = (s.surf x).e * (s.surf y).e ∧ (t.contact k).u = (s.surf x).u * (s.surf y).u := by
  have ko := h.ok
  have hdt' : i.dt ≠ 0 := hdt.ne'
  have key : ∀ z cz, (s.sc.shapes z).shp.cls = .circle cz → (s.sc.sp.shapes z).inSpace = true → (s.sc.Mobile z ∨ s.InPlace z) →
      (s'.sc.shapes z).shp.cls = .circle { cz with tc := s'.worldPoint (s.sc.sp.shapes z).body cz.c } ∧
      (s'.sc.shapes z).shp.bb = BB.forCircle (s'.worldPoint (s.sc.sp.shapes z).body cz.c) cz.r := by
    intro z cz hz iz mz
    obtain ⟨rot, e⟩ := placed_spec ko hdt' ok run iz mz
    constructor
    · rw [e]
      show (Coll.Cls.cacheData (s.sc.shapes z).shp.cls _).1 = _
      rw [hz]; rfl
    · rw [e]
      show (Coll.Cls.cacheData (s.sc.shapes z).shp.cls _).2 = _
      rw [hz]; rfl
  obtain ⟨x1, x2⟩ := key x cx E.circleX E.inX (.inl E.mobileX.1)
  obtain ⟨y1, y2⟩ := key y cy E.circleY E.inY E.placeY
  rw [E.centreX] at x1 x2
  rw [E.centreY] at y1 y2
  have hr0 : 0 < cx.r + cy.r := lt_of_le_of_lt (Real.sqrt_nonneg _) E.close
  have hmeets : Meets (s'.sc.shapes x) (s'.sc.shapes y) := by
    rintro id res (hcol | hcol) q
    · exact (circles_meet _ _ _ _ x1 y1 hr0 id res hcol).1 q E.close
    · refine (circles_meet _ _ _ _ y1 x1 (by show 0 < cy.r + cx.r; linarith) id res hcol).1 q ?_
      have := E.close
      rw [distance_symm] at this
      show _ < cy.r + cx.r
      rw [add_comm]; exact this
  have round : ∀ p q k arb, ((p = x ∧ q = y) ∨ (p = y ∧ q = x)) → ContactOf s s' k p q arb → ∃ rp rq,
      ((p = x ∧ q = y ∧ rp = cx.r ∧ rq = cy.r) ∨ (p = y ∧ q = x ∧ rp = cy.r ∧ rq = cx.r)) ∧
      (∀ first, ({ arb with a := (s.sc.sp.shapes p).body, b := (s.sc.sp.shapes q).body, first := first } : Arb ℝ).Round s'.mo.bodies rp rq) ∧
      arb.n = s'.direction (s.sc.sp.shapes p).body (s.sc.sp.shapes q).body := by
    intro p q k arb hpq C
    obtain ⟨cp, cq, epq, ep, eq, en⟩ : ∃ cp cq : Circle ℝ, ((p = x ∧ q = y ∧ cp.r = cx.r ∧ cq.r = cy.r) ∨ (p = y ∧ q = x ∧ cp.r = cy.r ∧ cq.r = cx.r)) ∧ (s'.sc.shapes p).shp.cls = .circle { cp with tc := (s'.mo.bodies (s.sc.sp.shapes p).body).p } ∧
        (s'.sc.shapes q).shp.cls = .circle { cq with tc := (s'.mo.bodies (s.sc.sp.shapes q).body).p } ∧
        (s'.mo.bodies (s.sc.sp.shapes p).body).p ≠ (s'.mo.bodies (s.sc.sp.shapes q).body).p := by
      rcases hpq with ⟨rfl, rfl⟩ | ⟨rfl, rfl⟩
      · exact ⟨cx, cy, .inl ⟨rfl, rfl, rfl, rfl⟩, x1, y1, E.apart⟩
      · exact ⟨cy, cx, .inr ⟨rfl, rfl, rfl, rfl⟩, y1, x1, E.apart.symm⟩
    exact ⟨cp.r, cq.r, epq, fun first => (contact_round C cp cq ep eq en first).1, (contact_round C cp cq ep eq en false).2⟩
  obtain ⟨t, k, c, hmo, harbs, t1, t2, t3, t5, t6, dy, -, D, st, seenp, p, q, hpq, C, ha, hb, he, hu⟩ := meeting_duel h hdt ok quiet run E.toMeeting
    (by rw [x2, y2]; exact circle_boxes _ _ _ _ E.close) (by rw [x2]; exact circle_proper _ E.radiusX) (by rw [y2]; exact circle_proper _ E.radiusY) hmeets (by
      intro p q k arb hpq C
      obtain ⟨rp, rq, -, R, -⟩ := round p q k arb hpq C
      obtain ⟨u, -, c, hc, r1, r2⟩ := round_facts (R false)
      exact ⟨c, hc, u, by rw [r1, (ring_cross u rp 0 0).1, mul_zero], by rw [r2, (ring_cross u (-rq) 0 0).1, mul_zero]⟩)
  obtain ⟨rp, rq, hpqr, R, hn⟩ := round p q k _ hpq C
  have R : (t.contact k).Round (s.mo.seen t) rp rq := by
    obtain ⟨⟨info, qc, c, r1, r2, r3, r4, r5, r6⟩, r7⟩ := R (t.contact k).first
    refine ⟨⟨info, qc, c, ?_, r2, r3, r4, ?_, ?_⟩, r7⟩
    · simp only [ha, hb, ← seenp]; exact r1
    · rw [ha, ← seenp]; exact r5
    · rw [hb, ← seenp]; exact r6
  obtain ⟨-, -, c', hc', c1, c2⟩ := round_facts R
  obtain rfl : c = c' := by have := D.one; rw [hc'] at this; exact (List.cons.inj this).1.symm
  exact ⟨t, k, c, hmo, harbs, t1, t2, t3, t5, t6, dy, D, st, p, q, rp, rq, R, hpqr, c1, c2, ha, hb, hn, C.surface, he, hu⟩

theorem free_facts {s s' : Sim ℝ} {i : SimIn ℝ} {t : Tick ℝ} (hdt : 0 < i.dt) (t1 : t.dt = i.dt) (t2 : t.gravity = i.gravity) (t3 : t.damping = i.damping)
    (dyN : t.dyn.Nodup) (dy : ∀ b, b ∈ t.dyn ↔ s'.engine.awake b) (b : Nat) :
    ((s.mo.tick t.free).bodies b).v = s.freeVel s' i b ∧ ((s.mo.tick t.free).bodies b).w = s.freeSpin s' i b := by
  obtain ⟨h1, h2, h3, h4, h5, h6, h7, h8⟩ := seen_v s.mo t b
  have h9 : (s.mo.seen t b).idle = (s.mo.bodies b).idle := by
    have : ∀ (l : List Nat) (h : Bodies ℝ), (Motion.move h t.dt l b).idle = (h b).idle := by
      intro l
      induction l with
      | nil => exact fun h => rfl
      | cons k l ih =>
        intro h
        have e : Motion.move h t.dt (k :: l) = Motion.move (h.set k ((h k).updatePosition t.dt)) t.dt l := rfl
        rw [e, ih]
        by_cases hk : b = k
        · subst hk; simp only [Bodies.set, if_true]; rfl
        · simp only [Bodies.set, if_neg hk]
    exact this t.movers s.mo.bodies
  have ht : (s.mo.seen t b).type = (s.mo.bodies b).type := by simp only [Body.type, h9, h5]
  rw [free_bodies s.mo t (by rw [t1]; exact hdt.ne') dyN]
  by_cases hb : s'.engine.awake b
  · rw [if_pos ((dy b).2 hb)]
    simp only [freeVel, freeSpin, if_pos hb, t1, t2, t3, Body.updateVelocity, ht]
    split
    · exact ⟨h1, h2⟩
    · simp only [h1, h2, h3, h4, h7, h8, and_self]
  · rw [if_neg fun q => hb ((dy b).1 q)]
    simp only [freeVel, freeSpin, if_neg hb]
    exact ⟨h1, h2⟩

/-! ### The vectors of a contact of circles -/

theorem ring_part (N va vb : Vec ℝ) (rp rq wa wb : ℝ) :
    ((vb.add ((N.mult (-rq)).perp.mult wb)).sub (va.add ((N.mult rp).perp.mult wa))).dot N = (vb.sub va).dot N := by
  simp only [Vec.dot, Vec.sub, Vec.add, Vec.mult, Vec.perp]; ring

theorem ring_slip {N : Vec ℝ} (hN : N.dot N = 1) (va vb d : Vec ℝ) (rp rq wa wb : ℝ) :
    (((vb.add ((N.mult (-rq)).perp.mult wb)).sub (va.add ((N.mult rp).perp.mult wa))).add (d.sub (N.mult (d.dot N)))).dot N.perp =
      ((vb.sub va).add d).dot N.perp - rq * wb - rp * wa := by
  simp only [Vec.dot, Vec.sub, Vec.add, Vec.mult, Vec.perp] at hN ⊢
  linear_combination (-(rq * wb) - rp * wa) * hN

theorem direction_symm (s : Sim ℝ) (a b : Nat) : s.direction b a = (s.direction a b).neg := by
  simp only [direction, distance_symm (s.mo.bodies b).p, Vec.neg, Vec.sub, Vec.mult, Vec.mk.injEq]
  constructor <;> ring

set_option maxHeartbeats 1000000 in
/-- **C64.** The law of collision, from end to end: when two circles meet, and nothing else happens to their bodies, they exchange one impulse along and across the
line of centres. Along it is what makes the bodies part with the product of the elasticities times the velocity with which they came (nothing, if they already part
faster); across it is what stops the surfaces from sliding, as far as the product of the frictions allows. It is spread over velocities and spins by masses, moments
and radii. -/
theorem C64_collision {hash : Obj → Nat} {s s' : Sim ℝ} (h : s.Reach hash) {i : SimIn ℝ} (hdt : 0 < i.dt)
    (ok : (Sim.Call.step i).Allowed s) (quiet : (∀ y, i.sepActs y = []) ∧ i.lateActs = []) (run : s.call hash (.step i) = some s')
    {x y : Nat} {cx cy : Circle ℝ} (E : Encounter s s' i x y cx cy) :
    let a := (s.sc.sp.shapes x).body
    let b := (s.sc.sp.shapes y).body
    let n := s'.direction a b
    let A := s.mo.bodies a
    let B := s.mo.bodies b
    ∃ J T : ℝ,
      J = max 0 (-(s'.parting a b (s.freeVel s' i) + (s.surf x).e * (s.surf y).e * s'.parting a b s.velocity) / (A.m_inv + B.m_inv)) ∧
      T = clamp (-(sliding s' a b x y cx.r cy.r (s.freeVel s' i) (s.freeSpin s' i)) / (A.m_inv + B.m_inv + A.i_inv * cx.r ^ 2 + B.i_inv * cy.r ^ 2))
        (-((s.surf x).u * (s.surf y).u * J)) ((s.surf x).u * (s.surf y).u * J) ∧
      s'.velocity a = (s.freeVel s' i a).sub (((n.mult J).add (n.perp.mult T)).mult A.m_inv) ∧
      s'.velocity b = (s.freeVel s' i b).add (((n.mult J).add (n.perp.mult T)).mult B.m_inv) ∧
      s'.spin a = s.freeSpin s' i a - A.i_inv * (cx.r * T) ∧
      s'.spin b = s.freeSpin s' i b - B.i_inv * (cy.r * T) := by
  intro a b n A B
  obtain ⟨t, k, c, hmo, -, t1, t2, t3, -, -, dy, D, st, p, q, rp, rq, -, hpq, c1, c2, ha, hb, hn, hsv, he, hu⟩ := C64_duel h hdt ok quiet run E
  obtain ⟨J, T, hJ, hT, K, -⟩ := C60_impulse D st
  have hf := free_facts (s := s) (s' := s') hdt t1 t2 t3 D.dyn dy
  have hsurf : s'.surf = s.surf := by
    obtain ⟨found, arbs, w, start, mid, sp, w', -, -, hs', -⟩ := step_ok h.ok hdt.ne' ok run
    rw [hs']; rfl
  have hfz : ∀ z, ((s.mo.tick t.free).bodies z).m_inv = (s.mo.bodies z).m_inv ∧ ((s.mo.tick t.free).bodies z).i_inv = (s.mo.bodies z).i_inv := by
    intro z
    have hff := free_frozen s.mo t D.pos.ne' D.dyn
    rw [(hff z).m_inv, (hff z).i_inv, (seen_v s.mo t z).2.2.2.2.2.2.1, (seen_v s.mo t z).2.2.2.2.2.2.2]
    exact ⟨rfl, rfl⟩
  obtain ⟨k1, k2, k3, k4⟩ := K
  have hunit := D.unit
  rw [← hmo] at k1 k2 k3 k4
  have hN : ∃ N, N = (t.contact k).n := ⟨_, rfl⟩
  obtain ⟨N, hN⟩ := hN
  simp only [Arb.partVel, Arb.slipVel, Arb.response, Arb.impulse, ha, hb, hf, hfz, he, hu, hsv, c1, c2, ← hN] at hJ hT k1 k2 k3 k4
  rw [← hN] at hunit hn
  simp only [ring_part, ring_slip hunit, (ring_cross hunit _ 0 0).1, (ring_cross hunit _ 0 0).2.1, (ring_cross hunit _ _ _).2.2] at hJ hT k2 k4
  have hJ' : J = max 0 (-(((s.freeVel s' i (s.sc.sp.shapes q).body).sub (s.freeVel s' i (s.sc.sp.shapes p).body)).dot N +
      (s.surf x).e * (s.surf y).e * ((s.velocity (s.sc.sp.shapes q).body).sub (s.velocity (s.sc.sp.shapes p).body)).dot N) /
      ((s.mo.bodies (s.sc.sp.shapes p).body).m_inv + (s.mo.bodies (s.sc.sp.shapes q).body).m_inv)) := by
    rw [hJ]
    simp only [ne_eq, OfNat.ofNat_ne_zero, not_false_eq_true, zero_pow, mul_zero, add_zero]
    rfl
  refine ⟨J, T, ?_⟩
  rcases hpq with ⟨rfl, rfl, rfl, rfl⟩ | ⟨rfl, rfl, rfl, rfl⟩
  · have hNn : N = n := hn
    refine ⟨?_, ?_, ?_, ?_, ?_, ?_⟩
    · rw [hJ', hNn]; rfl
    · rw [hT, hNn]
      simp only [sliding, hsurf]
      congr 2
      ring
    · rw [← hNn]; exact k1
    · rw [← hNn]; exact k3
    · exact k2
    · rw [show s'.spin b = (s'.mo.bodies (s.sc.sp.shapes q).body).w from rfl, k4]; ring
  · have hNn : N = n.neg := hn.trans (direction_symm _ _ _)
    refine ⟨?_, ?_, ?_, ?_, ?_, ?_⟩
    · rw [hJ', hNn, add_comm (s.mo.bodies (s.sc.sp.shapes p).body).m_inv]
      congr 3
      simp only [parting, Vec.dot, Vec.sub, Vec.neg]
      ring
    · rw [hT, hNn]
      simp only [sliding, hsurf]
      congr 2
      · simp only [Vec.dot, Vec.sub, Vec.neg, Vec.add, Vec.perp]
        ring
      · ring
    · refine k3.trans ?_
      rw [hNn]
      simp only [Vec.sub, Vec.neg, Vec.add, Vec.perp, Vec.mult, Vec.mk.injEq]
      constructor <;> ring
    · refine k1.trans ?_
      rw [hNn]
      simp only [Vec.sub, Vec.neg, Vec.add, Vec.perp, Vec.mult, Vec.mk.injEq]
      constructor <;> ring
    · rw [show s'.spin a = (s'.mo.bodies (s.sc.sp.shapes q).body).w from rfl, k4]; ring
    · exact k2

/-- **C64.** Newton's law of restitution, from end to end: two circles that meet part with the product of their elasticities times the velocity with which they came
(along the line of centres), or faster if gravity and forces alone part them faster. -/
theorem C64_bounce {hash : Obj → Nat} {s s' : Sim ℝ} (h : s.Reach hash) {i : SimIn ℝ} (hdt : 0 < i.dt)
    (ok : (Sim.Call.step i).Allowed s) (quiet : (∀ y, i.sepActs y = []) ∧ i.lateActs = []) (run : s.call hash (.step i) = some s')
    {x y : Nat} {cx cy : Circle ℝ} (E : Encounter s s' i x y cx cy) :
    s'.parting (s.sc.sp.shapes x).body (s.sc.sp.shapes y).body s'.velocity =
      max (s'.parting (s.sc.sp.shapes x).body (s.sc.sp.shapes y).body (s.freeVel s' i))
        (-((s.surf x).e * (s.surf y).e * s'.parting (s.sc.sp.shapes x).body (s.sc.sp.shapes y).body s.velocity)) := by
  obtain ⟨J, T, hJ, -, va, vb, -⟩ := C64_collision h hdt ok quiet run E
  have hm := E.masses
  obtain ⟨t, k, c, -, -, -, -, -, -, -, -, D, -, p, q, rp, rq, -, hpq, -, -, -, -, hn, -⟩ := C64_duel h hdt ok quiet run E
  have hunit : (s'.direction (s.sc.sp.shapes x).body (s.sc.sp.shapes y).body).dot (s'.direction (s.sc.sp.shapes x).body (s.sc.sp.shapes y).body) = 1 := by
    have := D.unit
    rw [hn] at this
    rcases hpq with ⟨rfl, rfl, -⟩ | ⟨rfl, rfl, -⟩
    · exact this
    · rw [direction_symm] at this
      simpa [Vec.dot, Vec.neg] using this
  simp only [parting] at hJ ⊢
  rw [va, vb]
  generalize s'.direction (s.sc.sp.shapes x).body (s.sc.sp.shapes y).body = n at *
  generalize (s.mo.bodies (s.sc.sp.shapes x).body).m_inv = A at *
  generalize (s.mo.bodies (s.sc.sp.shapes y).body).m_inv = B at *
  have e : (((s.freeVel s' i (s.sc.sp.shapes y).body).add (((n.mult J).add (n.perp.mult T)).mult B)).sub
      ((s.freeVel s' i (s.sc.sp.shapes x).body).sub (((n.mult J).add (n.perp.mult T)).mult A))).dot n =
      ((s.freeVel s' i (s.sc.sp.shapes y).body).sub (s.freeVel s' i (s.sc.sp.shapes x).body)).dot n + J * (A + B) := by
    simp only [Vec.dot, Vec.sub, Vec.add, Vec.mult, Vec.perp] at hunit ⊢
    linear_combination (J * (A + B)) * hunit
  rw [e, hJ, max_mul_of_nonneg _ _ hm.le, zero_mul, ← max_add_add_left, add_zero]
  congr 1
  field_simp
  ring

end CP
