import Verif.Spec.Queries
import Verif.Props.Index
import Verif.Props.Polygon
import Verif.Props.Collide

/-! # C39, C40, C46: queries of the space -/

namespace CP
open GoFloat Coll

/-! ### The distance a point query reports is right at every point -/

theorem TrueDistance.signed {S : Pts} {p : Vec ℝ} {i : PointInfo ℝ} (h : TrueDistance S p i) : SignedDistance S p i.distance := by
  refine ⟨h.outside, h.inside, ?_, ?_⟩
  · by_cases hd : 0 ≤ i.distance
    · exact ⟨i.point, h.surface.1, by rw [h.at_distance, abs_of_nonneg hd, max_eq_left hd]⟩
    · push Not at hd
      refine ⟨p, ?_, by rw [Vec.distance_self, max_eq_right hd.le]⟩
      by_contra hn
      have := h.inside p hn
      rw [Vec.distance_self] at this
      linarith
  · intro ε hε
    by_cases hd : 0 < i.distance
    · refine ⟨p, fun hp => ?_, ?_⟩
      · have := h.outside p hp
        rw [Vec.distance_self] at this
        linarith
      · rw [Vec.distance_self]; positivity
    · push Not at hd
      obtain ⟨q, hq, hq2⟩ := h.surface.2 ε hε
      refine ⟨q, hq, ?_⟩
      have := Vec.distance_triangle p i.point q
      rw [h.at_distance, Vec.distance_comm i.point q, abs_of_nonpos hd] at this
      linarith [le_max_left (-i.distance) 0]

/-- A point of the core at which some direction leads straight out of the core. -/
theorem signed_core {S : Pts} {p n : Vec ℝ} {r : ℝ} (hr : 0 ≤ r) (hp : S p) (hn : n.dot n = 1)
    (ho : ∀ x, S x → n.dot (x.sub p) ≤ 0) : SignedDistance (Thick S r) p (-r) := by
  have hin : Thick S r p := ⟨p, hp, by rw [Vec.distance_self]; exact hr⟩
  refine ⟨fun q _ => by linarith [Vec.distance_nonneg p q], ?_, ⟨p, hin, by rw [Vec.distance_self, max_eq_right (by linarith)]⟩, ?_⟩
  · intro q hq
    by_contra hlt
    push Not at hlt
    exact hq ⟨p, hp, by rw [Vec.distance_comm]; linarith⟩
  · intro ε hε
    refine ⟨p.add (n.mult (r + ε)), ?_, ?_⟩
    · rintro ⟨x, hx, hd⟩
      have h1 := ho x hx
      rw [Vec.distance_le_iff hr] at hd
      simp only [Vec.add, Vec.mult] at hd
      simp only [Vec.dot, Vec.sub] at h1 hn
      have : (p.x + n.x * (r + ε) - x.x) ^ 2 + (p.y + n.y * (r + ε) - x.y) ^ 2
          = (p.x - x.x) ^ 2 + (p.y - x.y) ^ 2 - 2 * (r + ε) * (n.x * (x.x - p.x) + n.y * (x.y - p.y)) + (r + ε) ^ 2 * (n.x * n.x + n.y * n.y) := by ring
      rw [this, hn] at hd
      nlinarith [sq_nonneg (p.x - x.x), sq_nonneg (p.y - x.y), mul_nonneg (by linarith : 0 ≤ r + ε) (neg_nonneg.2 h1)]
    · rw [neg_neg, max_eq_left hr]
      rw [Vec.distance_le_iff (by linarith)]
      simp only [Vec.add, Vec.mult]
      simp only [Vec.dot] at hn
      have : (p.x - (p.x + n.x * (r + ε))) ^ 2 + (p.y - (p.y + n.y * (r + ε))) ^ 2 = (r + ε) ^ 2 * (n.x * n.x + n.y * n.y) := by ring
      rw [this, hn, mul_one]

/-- **C30**, the distance at every point: circles. -/
theorem C30_signed_circle (s : Circle ℝ) (hr : 0 ≤ s.r) (p : Vec ℝ) :
    SignedDistance (Thick (fun q => q = s.tc) s.r) p (s.pointQuery p).distance := by
  by_cases hp : p = s.tc
  · subst hp
    rw [C30_circle_centre]
    refine signed_core (n := ⟨1, 0⟩) hr rfl (by simp [Vec.dot]) ?_
    rintro x rfl
    simp [Vec.dot, Vec.sub]
  · exact (C30_circle s hr p hp).signed

/-- **C30**, the distance at every point: segments. -/
theorem C30_signed_segment (s : Segment ℝ) (hr : 0 ≤ s.r) (hab : s.ta ≠ s.tb) (p : Vec ℝ) :
    SignedDistance (Thick (OnSegment s.ta s.tb) s.r) p (s.pointQuery p).distance := by
  by_cases hp : OnSegment s.ta s.tb p
  · rw [(C30_segment_core s hab p hp).1]
    obtain ⟨l, hl⟩ : ∃ l, l = s.ta.distance s.tb := ⟨_, rfl⟩
    have hl0 : 0 < l := by
      rw [hl]; exact lt_of_le_of_ne (Vec.distance_nonneg _ _) fun e => hab (Vec.distance_eq_zero.1 e.symm)
    have hl2 : l ^ 2 = (s.ta.x - s.tb.x) ^ 2 + (s.ta.y - s.tb.y) ^ 2 := by rw [hl, Vec.distance_sq]
    refine signed_core (n := ⟨(s.tb.y - s.ta.y) / l, -(s.tb.x - s.ta.x) / l⟩) hr hp ?_ ?_
    · simp only [Vec.dot]
      field_simp
      rw [hl2]; ring
    · rintro x ⟨k, -, -, rfl⟩
      obtain ⟨m, -, -, rfl⟩ := hp
      simp only [Vec.dot, Vec.sub]
      apply le_of_eq
      field_simp
      ring
  · exact (C30_segment s hr hab p hp).signed

set_option exponentiation.threshold 2000 in
theorem lt_maxFloat_of {p v : Vec ℝ} (hp : |p.x| ≤ 2 ^ 500 ∧ |p.y| ≤ 2 ^ 500) (hv : |v.x| ≤ 2 ^ 500 ∧ |v.y| ≤ 2 ^ 500) :
    p.distance v < maxFloat := by
  have h1 : p.distance v ≤ 2 ^ 503 := by
    rw [Vec.distance_le_iff (by positivity)]
    have hx : |p.x - v.x| ≤ 2 ^ 501 := by
      calc |p.x - v.x| ≤ |p.x| + |v.x| := abs_sub _ _
        _ ≤ 2 ^ 500 + 2 ^ 500 := add_le_add hp.1 hv.1
        _ = 2 ^ 501 := by norm_num
    have hy : |p.y - v.y| ≤ 2 ^ 501 := by
      calc |p.y - v.y| ≤ |p.y| + |v.y| := abs_sub _ _
        _ ≤ 2 ^ 500 + 2 ^ 500 := add_le_add hp.2 hv.2
        _ = 2 ^ 501 := by norm_num
    have hx2 : (p.x - v.x) ^ 2 ≤ (2 ^ 501) ^ 2 := by
      rw [← sq_abs]; exact pow_le_pow_left₀ (abs_nonneg _) hx 2
    have hy2 : (p.y - v.y) ^ 2 ≤ (2 ^ 501) ^ 2 := by
      rw [← sq_abs]; exact pow_le_pow_left₀ (abs_nonneg _) hy 2
    have : ((2 : ℝ) ^ 501) ^ 2 + (2 ^ 501) ^ 2 ≤ (2 ^ 503) ^ 2 := by
      rw [← pow_mul, ← pow_mul]; norm_num
    linarith
  have h2 : (2 : ℝ) ^ 503 < maxFloat := by
    rw [maxFloat_real]; norm_num
  linarith

/-- **C30**, the distance at every point: strictly convex polygons (`verts` are the vertices in the world). -/
theorem C30_signed_poly (s : Poly ℝ) (hr : 0 ≤ s.r) (verts : List (Vec ℝ)) (hs : s.dst = (edges verts).map edgePlane)
    (hv : StrictlyConvex verts) (p : Vec ℝ) (hfin : ∃ v ∈ verts, p.distance v < maxFloat) :
    ∃ i, s.pointQuery p = some i ∧ SignedDistance (Thick (Hull fun q => q ∈ verts) s.r) p i.distance := by
  by_cases hb : OnBoundary verts p
  · obtain ⟨e, he, hpe⟩ := hb
    have hpin : LeftOfEdges verts p :=
      isConvex_leftOfEdges verts _ _ _ (hv.vert_left (edges_fst_mem he)) (hv.vert_left (edges_snd_mem he)) hpe
    -- the answer of the code
    obtain ⟨last, hlast⟩ : ∃ last, verts.getLast? = some last := by
      cases h : verts.getLast? with
      | none => rw [List.getLast?_eq_none_iff] at h; have := hv.three; rw [h] at this; simp at this
      | some a => exact ⟨a, rfl⟩
    have hedges : edges verts = pairsFrom last verts := by simp only [edges, hlast]
    have hdl : s.dst.getLast?.map Plane.v0 = some last := by
      rw [hs, ← List.getLast?_map, List.map_map]
      have : (Plane.v0 ∘ edgePlane) = Prod.snd := rfl
      rw [this, map_snd_edges, hlast]
    obtain ⟨lp, hlp, hlpv⟩ : ∃ lp, s.dst.getLast? = some lp ∧ lp.v0 = last := by
      cases h : s.dst.getLast? with
      | none => rw [h] at hdl; simp at hdl
      | some a => rw [h] at hdl; exact ⟨a, rfl, by simpa using hdl⟩
    obtain ⟨st, hst, hout, hle0, hle, hatt⟩ := pqFold p verts ⟨last, maxFloat, ⟨0, 0⟩, ⟨0, 0⟩, false⟩
      (by simp only; rw [← hedges]; exact fun e he => hv.edge_ne he)
    simp only at hst hout hle hatt hle0
    rw [← hedges] at hst hout hle hatt
    have hno : st.outside = false := by
      cases ho : st.outside with
      | false => rfl
      | true =>
        rcases hout.1 ho with h | ⟨e', he', h⟩
        · exact absurd h (by simp)
        · exact absurd (hpin e' he') (not_le.2 h)
    have hm0 : st.minDist = 0 := by
      have h1 := hle e he
      have h2 := (C30_closest p _ _ (hv.edge_ne he)).2 p hpe
      rw [Vec.distance_self] at h2
      refine le_antisymm (h1.trans h2) ?_
      rcases hatt with h | ⟨_, _, _, h⟩
      · rw [h.1]; exact maxFloat_pos.le
      · rw [h]; exact Vec.distance_nonneg _ _
    refine ⟨_, by
      simp only [Poly.pointQuery, hlp]
      simp only [Option.bind_eq_bind, Option.bind_some]
      rw [hs, hlpv, ← hst], ?_⟩
    simp only [hno, Bool.false_eq_true, if_false, hm0, neg_zero, zero_sub]
    obtain ⟨a, b⟩ := e
    simp only at hpe
    have hne := hv.edge_ne he
    simp only at hne
    obtain ⟨l, hl⟩ : ∃ l, l = a.distance b := ⟨_, rfl⟩
    have hl0 : 0 < l := by
      rw [hl]; exact lt_of_le_of_ne (Vec.distance_nonneg _ _) fun e => hne (Vec.distance_eq_zero.1 e.symm)
    have hl2 : l ^ 2 = (a.x - b.x) ^ 2 + (a.y - b.y) ^ 2 := by rw [hl, Vec.distance_sq]
    refine signed_core (n := ⟨(b.y - a.y) / l, -(b.x - a.x) / l⟩) hr ((hv.hull_iff p).2 hpin) ?_ ?_
    · simp only [Vec.dot]
      field_simp
      rw [hl2]; ring
    · intro x hx
      have hx0 := (hv.hull_iff x).1 hx _ he
      obtain ⟨m, -, -, rfl⟩ := hpe
      simp only [turn] at hx0
      simp only [Vec.dot, Vec.sub]
      have : (b.y - a.y) / l * (x.x - (a.x + m * (b.x - a.x))) + -(b.x - a.x) / l * (x.y - (a.y + m * (b.y - a.y)))
          = -((b.x - a.x) * (x.y - a.y) - (b.y - a.y) * (x.x - a.x)) / l := by field_simp; ring
      rw [this]
      exact div_nonpos_of_nonpos_of_nonneg (by linarith) hl0.le
  · obtain ⟨i, h1, h2⟩ := C30_poly s hr verts hs hv p hb hfin
    exact ⟨i, h1, h2.signed⟩

theorem StrictlyConvex.map {l : List (Vec ℝ)} (h : StrictlyConvex l) {t : Transform ℝ} (ht : t.IsRigid) :
    StrictlyConvex (l.map t.point) := by
  refine ⟨by rw [List.length_map]; exact h.three, ?_, ?_⟩
  · exact h.nodup.map fun _ _ e => ht.inj e
  · intro e he v hv
    rw [edges_map] at he
    obtain ⟨e0, he0, rfl⟩ := List.mem_map.1 he
    obtain ⟨v0, hv0, rfl⟩ := List.mem_map.1 hv
    rcases h.left e0 he0 v0 hv0 with h | h | h
    · exact .inl (by rw [h])
    · exact .inr (.inl (by rw [h]))
    · refine .inr (.inr ?_)
      have : turn (t.point e0.1) (t.point e0.2) (t.point v0) = (t.a * t.a + t.b * t.b) * turn e0.1 e0.2 v0 := by
        simp only [turn, Transform.point, ht.2.1, ht.2.2]; ring
      simp only
      rw [this, ht.1, one_mul]; exact h

set_option exponentiation.threshold 2000 in
/-- A shape in a space answers point queries with its signed distance, and its box contains it. -/
theorem C30_placed {c : Cls ℝ} {bb : BB ℝ} {S : Pts} (h : Placed c bb S) (p : Vec ℝ) (hp : |p.x| ≤ 2 ^ 500 ∧ |p.y| ≤ 2 ^ 500) :
    (∃ i, c.pointQuery p = some i ∧ SignedDistance S p i.distance) ∧ TightBox S bb := by
  cases h with
  | circle s t ht hr =>
    refine ⟨⟨_, rfl, ?_⟩, C29_circle s hr t ht⟩
    rw [C30_circle_world s t ht]
    exact C30_signed_circle (s.cacheData t).1 hr p
  | seg s t ht hr hab =>
    refine ⟨⟨_, rfl, ?_⟩, C29_segment s hr t ht⟩
    rw [C30_segment_world s t ht]
    exact C30_signed_segment (s.cacheData t).1 hr (fun e => hab (ht.inj e)) p
  | poly verts r t ht hr hv hfin =>
    obtain ⟨e1, e2, e3⟩ := C30_poly_world verts r t ht
    have hne : verts ≠ [] := by intro e; have := hv.three; rw [e] at this; simp at this
    obtain ⟨v, hvm⟩ := List.exists_mem_of_ne_nil _ hne
    have hsrc : ∀ pl ∈ (Poly.new verts r).src, pl.v0 ∈ verts := by
      intro pl hpl
      rw [poly_new_src] at hpl
      obtain ⟨e, he, rfl⟩ := List.mem_map.1 hpl
      exact edges_snd_mem he
    refine ⟨?_, C29_poly (Poly.new verts r) (by simp only [Poly.new, Poly.setVerts]; split <;> exact hr) ?_ t ht ?_⟩
    · rw [e3]
      obtain ⟨i, h1, h2⟩ := C30_signed_poly ((Poly.new verts r).cacheData t).1 (by rw [e2]; exact hr) _ e1 (hv.map ht) p
        ⟨_, List.mem_map_of_mem hvm, lt_maxFloat_of hp (hfin v hvm)⟩
      rw [e2] at h2
      exact ⟨i, h1, h2⟩
    · rw [poly_new_src]
      obtain ⟨u, hu⟩ := exists_edge_to hvm
      intro e
      have := List.map_eq_nil_iff.1 e
      rw [this] at hu
      cases hu
    · intro pl hpl
      obtain ⟨h1, h2⟩ := hfin _ (hsrc pl hpl)
      have : (2 : ℝ) ^ 500 ≤ maxFloat := by rw [maxFloat_real]; norm_num
      exact ⟨h1.trans this, h2.trans this⟩

/-! ### C40 -/

section generic
variable {F : Type} [GoFloat F]

theorem mem_query (h : Obj → Nat) (s : Spec F) (w : World F) (hh : Hist h s w) (st : Bool) (q : BB F) (o : Obj) :
    o ∈ queryRoot (w.tree st) q ↔ ∃ B, s.idx st o = some B ∧ B.intersects q = true := by
  rw [← List.count_pos_iff, C06_query h s w hh st q o]
  cases s.idx st o with
  | none => simp
  | some B => by_cases hB : B.intersects q = true <;> simp [hB]

/-- A shape takes part in a nearest-point query: it passes the filter and is no sensor. -/
def QShape.Asked (a : QShape F) (filter : ShapeFilter) : Prop := a.filter.reject filter = false ∧ a.sensor = false

theorem nearest_fold (shapes : Obj → QShape F) (p : Vec F) (filter : ShapeFilter) (l : List Obj) (r0 : Option Obj × PointInfo F)
    (hq : ∀ o ∈ l, (shapes o).Asked filter → ∃ i, (shapes o).shp.cls.pointQuery p = some i) :
    ∃ r, List.foldlM (nearestStep shapes p filter) r0 l = some r ∧ r.2.distance ≤ r0.2.distance ∧
      (∀ o ∈ l, (shapes o).Asked filter → ∀ i, (shapes o).shp.cls.pointQuery p = some i → r.2.distance ≤ i.distance) ∧
      (r = r0 ∨ ∃ o ∈ l, (shapes o).Asked filter ∧ r.1 = some o ∧ (shapes o).shp.cls.pointQuery p = some r.2 ∧
        r.2.distance < r0.2.distance) := by
  induction l generalizing r0 with
  | nil => exact ⟨r0, rfl, le_refl _, (by simp), Or.inl rfl⟩
  | cons o l ih =>
    have step : ∃ r1, nearestStep shapes p filter r0 o = some r1 ∧ r1.2.distance ≤ r0.2.distance ∧
        ((shapes o).Asked filter → ∀ i, (shapes o).shp.cls.pointQuery p = some i → r1.2.distance ≤ i.distance) ∧
        (r1 = r0 ∨ ((shapes o).Asked filter ∧ r1.1 = some o ∧ (shapes o).shp.cls.pointQuery p = some r1.2 ∧
          r1.2.distance < r0.2.distance)) := by
      unfold nearestStep
      by_cases ha : (shapes o).Asked filter
      · rw [if_pos (show _ ∧ _ from ha)]
        obtain ⟨i, hi⟩ := hq o List.mem_cons_self ha
        rw [hi, Option.map_some]
        by_cases hlt : i.distance < r0.2.distance
        · rw [if_pos hlt]
          exact ⟨_, rfl, hlt.le, fun _ j hj => by cases hj; exact le_refl _, Or.inr ⟨ha, rfl, rfl, hlt⟩⟩
        · rw [if_neg hlt]
          exact ⟨_, rfl, le_refl _, fun _ j hj => by cases hj; exact not_lt.1 hlt, Or.inl rfl⟩
      · rw [if_neg (show ¬ (_ ∧ _) from ha)]
        exact ⟨r0, rfl, le_refl _, fun h => absurd h ha, Or.inl rfl⟩
    obtain ⟨r1, e1, hle1, hm1, hr1⟩ := step
    obtain ⟨r, e, hle, hm, hr⟩ := ih r1 (fun o' ho' => hq o' (List.mem_cons_of_mem _ ho'))
    refine ⟨r, ?_, hle.trans hle1, ?_, ?_⟩
    · rw [List.foldlM_cons, e1]; exact e
    · intro o' ho' ha i hi
      rcases List.mem_cons.1 ho' with rfl | ho'
      · exact hle.trans (hm1 ha i hi)
      · exact hm o' ho' ha i hi
    · rcases hr with rfl | ⟨o', ho', ha, h1, h2, h3⟩
      · rcases hr1 with rfl | ⟨ha, h1, h2, h3⟩
        · exact Or.inl rfl
        · exact Or.inr ⟨o, List.mem_cons_self, ha, h1, h2, h3⟩
      · exact Or.inr ⟨o', List.mem_cons_of_mem _ ho', ha, h1, h2, lt_of_lt_of_le h3 hle1⟩

/-- **C40**, every arithmetic: after any history of the indexes `PointQueryNearest` returns the information of a shape with
the smallest distance among the shapes of both indexes that pass the filter, are no sensors and are nearer than
`maxDistance`, or no shape and `maxDistance` if there is none, provided the box of such a shape meets the box of the query
(`C40_nearest` shows this for real shapes). -/
theorem C40_any (h : Obj → Nat) (s : Spec F) (w : World F) (hh : Hist h s w) (shapes : Obj → QShape F) (p : Vec F)
    (maxDistance : F) (filter : ShapeFilter)
    (hq : ∀ st o, s.idx st o ≠ none → ∃ i, (shapes o).shp.cls.pointQuery p = some i)
    (hbox : ∀ st o B i, s.idx st o = some B → (shapes o).shp.cls.pointQuery p = some i → i.distance < maxDistance →
      B.intersects (BB.forCircle p (max maxDistance 0)) = true) :
    ∃ r, w.pointQueryNearest shapes p maxDistance filter = some r ∧
      (∀ st o i, s.idx st o ≠ none → (shapes o).Asked filter → (shapes o).shp.cls.pointQuery p = some i →
        r.2.distance ≤ i.distance ∨ maxDistance ≤ i.distance) ∧
      (r = (none, ⟨⟨0, 0⟩, maxDistance, ⟨0, 0⟩⟩) ∨ ∃ st o, s.idx st o ≠ none ∧ (shapes o).Asked filter ∧ r.1 = some o ∧
        (shapes o).shp.cls.pointQuery p = some r.2 ∧ r.2.distance < maxDistance) := by
  obtain ⟨bb, hbb⟩ : ∃ bb, bb = BB.forCircle p (max maxDistance 0) := ⟨_, rfl⟩
  have memq : ∀ st o, o ∈ queryRoot (w.tree st) bb → s.idx st o ≠ none := by
    intro st o ho
    obtain ⟨B, hB, _⟩ := (mem_query h s w hh st bb o).1 ho
    rw [hB]; simp
  obtain ⟨r1, e1, hle1, hm1, hr1⟩ := nearest_fold shapes p filter (queryRoot (w.tree false) bb)
    (none, ⟨⟨0, 0⟩, maxDistance, ⟨0, 0⟩⟩) (fun o ho _ => hq false o (memq _ _ ho))
  obtain ⟨r, e2, hle2, hm2, hr2⟩ := nearest_fold shapes p filter (queryRoot (w.tree true) bb) r1
    (fun o ho _ => hq true o (memq _ _ ho))
  refine ⟨r, ?_, ?_, ?_⟩
  · simp only [World.pointQueryNearest, ← hbb]
    have : queryRoot w.dyn bb = queryRoot (w.tree false) bb := rfl
    rw [this, e1]; exact e2
  · intro st o i ho ha hi
    by_cases hlt : i.distance < maxDistance
    · left
      obtain ⟨B, hB⟩ := Option.ne_none_iff_exists'.1 ho
      have hmem := (mem_query h s w hh st bb o).2 ⟨B, hB, by rw [hbb]; exact hbox st o B i hB hi hlt⟩
      cases st
      · exact hle2.trans (hm1 o hmem ha i hi)
      · exact hm2 o hmem ha i hi
    · exact Or.inr (not_lt.1 hlt)
  · rcases hr2 with rfl | ⟨o, ho, ha, h1, h2, h3⟩
    · rcases hr1 with rfl | ⟨o, ho, ha, h1, h2, h3⟩
      · exact Or.inl rfl
      · exact Or.inr ⟨false, o, memq _ _ ho, ha, h1, h2, h3⟩
    · exact Or.inr ⟨true, o, memq _ _ ho, ha, h1, h2, lt_of_lt_of_le h3 hle1⟩

end generic

/-- A shape nearer than `m` has a point in the box of the query. -/
theorem query_box_meets {S : Pts} {p : Vec ℝ} {d m : ℝ} {B : BB ℝ} (h : SignedDistance S p d) (hlt : d < m)
    (hB : ∀ q, S q → B.Mem q) : B.intersects (BB.forCircle p (max m 0)) = true := by
  obtain ⟨q, hq, hd⟩ := h.near_in
  obtain ⟨b1, b2, b3, b4⟩ := hB q hq
  have hle : p.distance q ≤ max m 0 := by rw [hd]; exact max_le_max hlt.le (le_refl _)
  obtain ⟨M, hM⟩ : ∃ M : ℝ, M = max m 0 := ⟨_, rfl⟩
  change B.intersects (BB.forCircle p (max m 0 : ℝ)) = true
  rw [← hM] at hle ⊢
  have hx := abs_le.1 ((Vec.abs_x_le p q).trans hle)
  have hy := abs_le.1 ((Vec.abs_y_le p q).trans hle)
  simp only [BB.intersects, BB.forCircle, BB.forExtents, Bool.and_eq_true]
  refine ⟨⟨⟨?_, ?_⟩, ?_⟩, ?_⟩ <;> refine decide_eq_true ?_ <;> linarith [hx.1, hx.2, hy.1, hy.2]

/-- **C40**: after any history of the indexes (whose boxes contain the current boxes of the shapes), `PointQueryNearest`
returns, if any shape that passes the filter and is no sensor is nearer to `p` than `maxDistance`, such a shape with the
smallest signed distance and this distance, and otherwise no shape and `maxDistance`. It never panics. -/
theorem C40_nearest (h : Obj → Nat) (s : Spec ℝ) (w : World ℝ) (hh : Hist h s w) (shapes : Obj → QShape ℝ) (S : Obj → Pts)
    (hpl : ∀ st o, s.idx st o ≠ none → Placed (shapes o).shp.cls (shapes o).shp.bb (S o))
    (hidx : ∀ st o B, s.idx st o = some B → B.contains (shapes o).shp.bb = true)
    (p : Vec ℝ) (hp : |p.x| ≤ 2 ^ 500 ∧ |p.y| ≤ 2 ^ 500) (maxDistance : ℝ) (filter : ShapeFilter) :
    ∃ r, w.pointQueryNearest shapes p maxDistance filter = some r ∧
      match r.1 with
      | none => r.2.distance = maxDistance ∧ ∀ st o d, s.idx st o ≠ none → (shapes o).Asked filter →
          SignedDistance (S o) p d → maxDistance ≤ d
      | some o => (∃ st, s.idx st o ≠ none) ∧ (shapes o).Asked filter ∧ SignedDistance (S o) p r.2.distance ∧
          r.2.distance < maxDistance ∧ (shapes o).shp.cls.pointQuery p = some r.2 ∧
          ∀ st o' d, s.idx st o' ≠ none → (shapes o').Asked filter → SignedDistance (S o') p d → r.2.distance ≤ d := by
  have uniq : ∀ {S : Pts} {d d' : ℝ}, SignedDistance S p d → SignedDistance S p d' → d ≤ d' := by
    intro S d d' h1 h2
    by_contra hlt
    push Not at hlt
    obtain ⟨q, hq, e⟩ := h2.near_in
    have a1 := h1.outside q hq
    rw [e] at a1
    rcases le_total 0 d' with h0 | h0
    · rw [max_eq_left h0] at a1; linarith
    · rw [max_eq_right h0] at a1
      obtain ⟨q', hq', e'⟩ := h1.near_out ((d - d') / 2) (by linarith)
      have a2 := h2.inside q' hq'
      rw [max_eq_left (by linarith : 0 ≤ -d)] at e'
      linarith
  obtain ⟨r, e, hm, hr⟩ := C40_any h s w hh shapes p maxDistance filter
    (fun st o ho => (C30_placed (hpl st o ho) p hp).1.imp fun _ h => h.1)
    (fun st o B i hB hi hlt => by
      have hp0 := hpl st o (by rw [hB]; simp)
      obtain ⟨⟨i', hi', hs⟩, tb⟩ := C30_placed hp0 p hp
      rw [hi] at hi'
      cases hi'
      refine query_box_meets hs hlt fun q hq => ?_
      have := (BB.contains_iff_le _ _).1 (hidx st o B hB)
      obtain ⟨c1, c2, c3, c4⟩ := this
      obtain ⟨m1, m2, m3, m4⟩ := tb.contains q hq
      exact ⟨c1.trans m1, m2.trans c2, c3.trans m3, m4.trans c4⟩)
  refine ⟨r, e, ?_⟩
  have key : ∀ st o d, s.idx st o ≠ none → (shapes o).Asked filter → SignedDistance (S o) p d →
      r.2.distance ≤ d ∨ maxDistance ≤ d := by
    intro st o d ho ha hd
    obtain ⟨i, hi, hs⟩ := (C30_placed (hpl st o ho) p hp).1
    have h1 := uniq hs hd
    rcases hm st o i ho ha hi with h2 | h2
    · exact Or.inl (h2.trans h1)
    · exact Or.inr (h2.trans h1)
  rcases hr with rfl | ⟨st, o, ho, ha, h1, h2, h3⟩
  · exact ⟨rfl, fun st o d ho ha hd => (key st o d ho ha hd).elim id id⟩
  · rw [h1]
    refine ⟨⟨st, ho⟩, ha, ?_, h3, h2, fun st o' d ho' ha' hd => ?_⟩
    · obtain ⟨i, hi, hs⟩ := (C30_placed (hpl st o ho) p hp).1
      rw [h2] at hi
      cases hi
      exact hs
    · rcases key st o' d ho' ha' hd with h4 | h4
      · exact h4
      · linarith

/-! ### C39 -/

section generic
variable {F : Type} [GoFloat F]

theorem hist_one_index (h : Obj → Nat) (s : Spec F) (w : World F) (hh : Hist h s w) (o : Obj) :
    s.idx true o = none ∨ s.idx false o = none := by
  induction hh with
  | init box vel w hw => exact Or.inl rfl
  | step s w w' op hh hok hs ih =>
    cases op with
    | move box vel => exact ih
    | insert st x =>
      simp only [Spec.step, Spec.ok] at hok ⊢
      by_cases hx : o = x
      · subst hx
        cases st
        · exact Or.inl (by simp [hok.1])
        · exact Or.inr (by simp [hok.2])
      · simpa [hx] using ih
    | remove st x =>
      simp only [Spec.step]
      rcases ih with ih | ih
      · left; by_cases hc : true = st ∧ o = x <;> simp [ih]
      · right; by_cases hc : false = st ∧ o = x <;> simp [ih]
    | reindexObject st x =>
      simp only [Spec.step]
      rcases ih with ih | ih
      · left
        by_cases hc : true = st ∧ o = x
        · obtain ⟨rfl, rfl⟩ := hc; simp [Spec.refit, ih]
        · rw [if_neg hc]; exact ih
      · right
        by_cases hc : false = st ∧ o = x
        · obtain ⟨rfl, rfl⟩ := hc; simp [Spec.refit, ih]
        · rw [if_neg hc]; exact ih
    | reindexQuery f =>
      simp only [Spec.step]
      rcases ih with ih | ih
      · left; simp [ih]
      · right; simp [Spec.refit, ih]

/-- `o` is another shape that passes the filter of the query and that `ShapesCollide` reports as overlapping. -/
def Overlaps (shapes : Obj → QShape F) (a : QShape F) (self : Option Obj) (o : Obj) : Prop :=
  a.filter.reject (shapes o).filter = false ∧ self ≠ some o ∧
    ∃ set, shapesCollide a.shp (shapes o).shp = some set ∧ set.points ≠ []

theorem shapeQuery_fold (shapes : Obj → QShape F) (a : QShape F) (self : Option Obj) (l : List Obj)
    (r0 : List (Obj × ContactSet F) × Bool)
    (hc : ∀ o ∈ l, a.filter.reject (shapes o).filter = false → self ≠ some o → ∃ set, shapesCollide a.shp (shapes o).shp = some set) :
    ∃ log any, List.foldlM (shapeQueryStep shapes a self) r0 l = some (r0.1 ++ log, any) ∧
      (log.map Prod.fst).Sublist l ∧
      (∀ o, Overlaps shapes a self o → (log.map Prod.fst).count o = l.count o) ∧
      (∀ e ∈ log, Overlaps shapes a self e.1 ∧ shapesCollide a.shp (shapes e.1).shp = some e.2) ∧
      any = (match log.getLast? with
        | none => r0.2
        | some e => !(a.sensor || (shapes e.1).sensor)) := by
  induction l generalizing r0 with
  | nil => exact ⟨[], r0.2, by simp, by simp, by simp, by simp, rfl⟩
  | cons o l ih =>
    have hc' : ∀ o' ∈ l, a.filter.reject (shapes o').filter = false → self ≠ some o' →
        ∃ set, shapesCollide a.shp (shapes o').shp = some set := fun o' ho' => hc o' (List.mem_cons_of_mem _ ho')
    by_cases hrej : a.filter.reject (shapes o).filter = true ∨ self = some o
    · obtain ⟨log, any, h1, h2, h3, h4, h5⟩ := ih r0 hc'
      refine ⟨log, any, ?_, h2.cons _, ?_, h4, h5⟩
      · rw [List.foldlM_cons]
        have : shapeQueryStep shapes a self r0 o = some r0 := by unfold shapeQueryStep; rw [if_pos hrej]
        rw [this]; exact h1
      · intro x hx
        rw [h3 x hx, List.count_cons]
        have : ¬ (o == x) = true := by
          intro e
          have e : o = x := by simpa using e
          subst e
          rcases hrej with hr | hr
          · rw [hx.1] at hr; cases hr
          · exact hx.2.1 hr
        simp [this]
    · have hr : a.filter.reject (shapes o).filter = false := by
        cases e : a.filter.reject (shapes o).filter with
        | false => rfl
        | true => exact absurd (Or.inl e) hrej
      have hs : self ≠ some o := fun e => hrej (Or.inr e)
      obtain ⟨set, hset⟩ := hc o List.mem_cons_self hr hs
      by_cases hp : set.points = []
      · obtain ⟨log, any, h1, h2, h3, h4, h5⟩ := ih r0 hc'
        refine ⟨log, any, ?_, h2.cons _, ?_, h4, h5⟩
        · rw [List.foldlM_cons]
          have : shapeQueryStep shapes a self r0 o = some r0 := by
            unfold shapeQueryStep; rw [if_neg hrej, hset, Option.map_some, if_pos hp]
          rw [this]; exact h1
        · intro x hx
          rw [h3 x hx, List.count_cons]
          have : ¬ (o == x) = true := by
            intro e
            have e : o = x := by simpa using e
            subst e
            obtain ⟨set', hs', hp'⟩ := hx.2.2
            rw [hset] at hs'
            cases hs'
            exact hp' hp
          simp [this]
      · obtain ⟨log, any, h1, h2, h3, h4, h5⟩ := ih (r0.1 ++ [(o, set)], !(a.sensor || (shapes o).sensor)) hc'
        refine ⟨(o, set) :: log, any, ?_, ?_, ?_, ?_, ?_⟩
        · rw [List.foldlM_cons]
          have : shapeQueryStep shapes a self r0 o = some (r0.1 ++ [(o, set)], !(a.sensor || (shapes o).sensor)) := by
            unfold shapeQueryStep; rw [if_neg hrej, hset, Option.map_some, if_neg hp]
          rw [this]
          rw [List.append_assoc] at h1
          exact h1
        · exact h2.cons_cons _
        · intro x hx
          rw [List.map_cons, List.count_cons, List.count_cons, h3 x hx]
        · intro e he
          rcases List.mem_cons.1 he with rfl | he
          · exact ⟨⟨hr, hs, set, hset, hp⟩, hset⟩
          · exact h4 e he
        · rw [h5, List.getLast?_cons]
          cases log.getLast? <;> rfl

/-- **C39**, every arithmetic: after any history of the indexes, `ShapeQuery` calls its function exactly once for each
other shape that passes the filter, whose indexed box meets the (fresh) box of the given shape and that `ShapesCollide`
reports as overlapping, with its contact set; first the shapes of the dynamic index, then the static ones. The result is
whether the *last* of these calls was for a pair without a sensor. -/
theorem C39_calls (h : Obj → Nat) (s : Spec F) (w : World F) (hh : Hist h s w) (shapes : Obj → QShape F) (a0 : QShape F)
    (t : Option (Transform F)) (self : Option Obj)
    (hc : ∀ st o, s.idx st o ≠ none → ∃ set, shapesCollide (a0.fresh t).shp (shapes o).shp = some set) :
    let a := a0.fresh t
    ∃ logD logS any, w.shapeQuery shapes a0 t self = some (logD ++ logS, any) ∧
      (∀ o, ((logD ++ logS).map Prod.fst).count o ≤ 1) ∧
      (∀ o, o ∈ logD.map Prod.fst ↔ Overlaps shapes a self o ∧ ∃ B, s.idx false o = some B ∧ B.intersects a.shp.bb = true) ∧
      (∀ o, o ∈ logS.map Prod.fst ↔ Overlaps shapes a self o ∧ ∃ B, s.idx true o = some B ∧ B.intersects a.shp.bb = true) ∧
      (∀ e ∈ logD ++ logS, shapesCollide a.shp (shapes e.1).shp = some e.2) ∧
      any = (match (logD ++ logS).getLast? with
        | none => false
        | some e => !(a.sensor || (shapes e.1).sensor)) := by
  intro a
  have memq : ∀ st o, o ∈ queryRoot (w.tree st) a.shp.bb → s.idx st o ≠ none := by
    intro st o ho
    obtain ⟨B, hB, _⟩ := (mem_query h s w hh st _ o).1 ho
    rw [hB]; simp
  obtain ⟨logD, any1, e1, sub1, cnt1, in1, last1⟩ := shapeQuery_fold shapes a self (queryRoot (w.tree false) a.shp.bb) ([], false)
    (fun o ho _ _ => hc false o (memq _ _ ho))
  obtain ⟨logS, any, e2, sub2, cnt2, in2, last2⟩ := shapeQuery_fold shapes a self (queryRoot (w.tree true) a.shp.bb) (logD, any1)
    (fun o ho _ _ => hc true o (memq _ _ ho))
  have cnt_le : ∀ st o, (queryRoot (w.tree st) a.shp.bb).count o ≤ if s.idx st o = none then 0 else 1 := by
    intro st o
    rw [C06_query h s w hh st _ o]
    cases s.idx st o with
    | none => simp
    | some B => by_cases hB : B.intersects a.shp.bb = true <;> simp [hB]
  have mem : ∀ st (log : List (Obj × ContactSet F)), (log.map Prod.fst).Sublist (queryRoot (w.tree st) a.shp.bb) →
      (∀ o, Overlaps shapes a self o → (log.map Prod.fst).count o = (queryRoot (w.tree st) a.shp.bb).count o) →
      (∀ e ∈ log, Overlaps shapes a self e.1 ∧ shapesCollide a.shp (shapes e.1).shp = some e.2) →
      ∀ o, o ∈ log.map Prod.fst ↔ Overlaps shapes a self o ∧ ∃ B, s.idx st o = some B ∧ B.intersects a.shp.bb = true := by
    intro st log hsub hcnt hin o
    rw [← mem_query h s w hh st a.shp.bb o]
    constructor
    · intro ho
      obtain ⟨e, he, rfl⟩ := List.mem_map.1 ho
      exact ⟨(hin e he).1, hsub.subset ho⟩
    · rintro ⟨ho, hm⟩
      rw [← List.count_pos_iff, hcnt o ho, List.count_pos_iff]
      exact hm
  refine ⟨logD, logS, any, ?_, ?_, mem false logD sub1 cnt1 in1, mem true logS sub2 cnt2 in2, ?_, ?_⟩
  · simp only [World.shapeQuery]
    have e1' : List.foldlM (shapeQueryStep shapes (a0.fresh t) self) ([], false) (queryRoot w.dyn (a0.fresh t).shp.bb) = some (logD, any1) := e1
    rw [e1']; exact e2
  · intro o
    rw [List.map_append, List.count_append]
    have h1 := (sub1.count_le o).trans (cnt_le false o)
    have h2 := (sub2.count_le o).trans (cnt_le true o)
    rcases hist_one_index h s w hh o with h0 | h0
    · rw [h0] at h2
      simp only [if_true] at h2
      have : (if s.idx false o = none then 0 else 1) ≤ 1 := by split <;> omega
      omega
    · rw [h0] at h1
      simp only [if_true] at h1
      have : (if s.idx true o = none then 0 else 1) ≤ 1 := by split <;> omega
      omega
  · intro e he
    rcases List.mem_append.1 he with he | he
    · exact (in1 e he).2
    · exact (in2 e he).2
  · rw [last2]
    cases hS : logS.getLast? with
    | some e => rw [List.getLast?_append, hS]; rfl
    | none =>
      rw [List.getLast?_append, hS, Option.none_or]
      simp only [last1]

/-- The shapes `ShapeQuery` finds. -/
def Found (s : Spec F) (shapes : Obj → QShape F) (a : QShape F) (self : Option Obj) (st : Bool) (o : Obj) : Prop :=
  Overlaps shapes a self o ∧ ∃ B, s.idx st o = some B ∧ B.intersects a.shp.bb = true

/-- **C39**, what the result means: if it is `true`, some shape is found and neither it nor the given shape is a sensor;
if no found shape is a sensor, and the given shape is not, it is `true` exactly if a shape is found. -/
theorem C39_result (h : Obj → Nat) (s : Spec F) (w : World F) (hh : Hist h s w) (shapes : Obj → QShape F) (a0 : QShape F)
    (t : Option (Transform F)) (self : Option Obj)
    (hc : ∀ st o, s.idx st o ≠ none → ∃ set, shapesCollide (a0.fresh t).shp (shapes o).shp = some set) :
    let a := a0.fresh t
    ∃ log any, w.shapeQuery shapes a0 t self = some (log, any) ∧
      (any = true → ∃ st o, Found s shapes a self st o ∧ a.sensor = false ∧ (shapes o).sensor = false) ∧
      (a.sensor = false → (∀ st o, Found s shapes a self st o → (shapes o).sensor = false) →
        (any = true ↔ ∃ st o, Found s shapes a self st o)) := by
  intro a
  obtain ⟨logD, logS, any, e, -, hD, hS, -, hl⟩ := C39_calls h s w hh shapes a0 t self hc
  have found : ∀ e ∈ logD ++ logS, ∃ st, Found s shapes a self st e.1 := by
    intro e he
    rcases List.mem_append.1 he with he | he
    · exact ⟨false, (hD e.1).1 (List.mem_map_of_mem he)⟩
    · exact ⟨true, (hS e.1).1 (List.mem_map_of_mem he)⟩
  refine ⟨_, any, e, ?_, ?_⟩
  · intro ht
    rw [ht] at hl
    cases hg : (logD ++ logS).getLast? with
    | none => rw [hg] at hl; simp at hl
    | some x =>
      rw [hg] at hl
      obtain ⟨st, hf⟩ := found x (List.mem_of_getLast? hg)
      simp only [Bool.true_eq, Bool.not_eq_true', Bool.or_eq_false_iff] at hl
      exact ⟨st, x.1, hf, hl.1, hl.2⟩
  · intro ha hb
    constructor
    · intro ht
      cases hg : (logD ++ logS).getLast? with
      | none => rw [hg] at hl; simp [ht] at hl
      | some x =>
        obtain ⟨st, hf⟩ := found x (List.mem_of_getLast? hg)
        exact ⟨st, x.1, hf⟩
    · rintro ⟨st, o, hf⟩
      have hmem : o ∈ (logD ++ logS).map Prod.fst := by
        rw [List.map_append, List.mem_append]
        cases st
        · exact Or.inl ((hD o).2 hf)
        · exact Or.inr ((hS o).2 hf)
      cases hg : (logD ++ logS).getLast? with
      | none => rw [List.getLast?_eq_none_iff] at hg; rw [hg] at hmem; cases hmem
      | some x =>
        rw [hg] at hl
        obtain ⟨st, hf⟩ := found x (List.mem_of_getLast? hg)
        have h1 : (a0.fresh t).sensor = false := ha
        rw [hl]
        simp only [h1, hb st x.1 hf, Bool.or_false, Bool.not_false]

/-- **C39**, violation: one overlapping static sensor shape (and no static shape that is not a sensor) makes `ShapeQuery` return
`false`, whatever dynamic shapes it really collides with: `anyCollision` is overwritten by each overlap. -/
theorem C39_sensor_violated (h : Obj → Nat) (s : Spec F) (w : World F) (hh : Hist h s w) (shapes : Obj → QShape F) (a0 : QShape F)
    (t : Option (Transform F)) (self : Option Obj)
    (hc : ∀ st o, s.idx st o ≠ none → ∃ set, shapesCollide (a0.fresh t).shp (shapes o).shp = some set)
    (o : Obj) (ho : Found s shapes (a0.fresh t) self true o)
    (hall : ∀ o, Found s shapes (a0.fresh t) self true o → (shapes o).sensor = true) :
    ∃ log, w.shapeQuery shapes a0 t self = some (log, false) := by
  obtain ⟨logD, logS, any, e, -, hD, hS, -, hl⟩ := C39_calls h s w hh shapes a0 t self hc
  refine ⟨logD ++ logS, ?_⟩
  rw [e]
  have hmem := (hS o).2 ho
  cases hg : logS.getLast? with
  | none => rw [List.getLast?_eq_none_iff] at hg; rw [hg] at hmem; cases hmem
  | some x =>
    rw [List.getLast?_append, hg] at hl
    change any = !((a0.fresh t).sensor || (shapes x.1).sensor) at hl
    have := hall x.1 ((hS x.1).1 (List.mem_map_of_mem (List.mem_of_getLast? hg)))
    rw [this, Bool.or_true] at hl
    rw [hl]; rfl

/-! ### C46 -/

/-- **C46**: after any history of the indexes whose boxes contain the current boxes of the shapes, `BBQuery` calls its function
exactly once for every shape of the space that passes the filter and whose current box meets the given box (sensors too),
and for no other shape. -/
theorem C46_bbQuery (h : Obj → Nat) (s : Spec F) (w : World F) (hh : Hist h s w) (shapes : Obj → QShape F)
    (hidx : ∀ st o B, s.idx st o = some B → B.contains (shapes o).shp.bb = true) (bb : BB F) (filter : ShapeFilter) (o : Obj) :
    (w.bbQuery shapes bb filter).count o =
      if (∃ st, s.idx st o ≠ none) ∧ (shapes o).filter.reject filter = false ∧ (shapes o).shp.bb.intersects bb = true then 1 else 0 := by
  obtain ⟨ask, hask⟩ : ∃ ask : Obj → Bool, ask = fun o => !(shapes o).filter.reject filter && (shapes o).shp.bb.intersects bb := ⟨_, rfl⟩
  have e : w.bbQuery shapes bb filter = (queryRoot (w.tree true) bb).filter ask ++ (queryRoot (w.tree false) bb).filter ask := by
    rw [hask]; rfl
  have hcnt : ∀ st, ((queryRoot (w.tree st) bb).filter ask).count o =
      if s.idx st o ≠ none ∧ ask o = true then 1 else 0 := by
    intro st
    by_cases ha : ask o = true
    · rw [List.count_filter ha, C06_query h s w hh st bb o]
      cases hB : s.idx st o with
      | none => simp
      | some B =>
        have : B.intersects bb = true := by
          have h1 : (shapes o).shp.bb.intersects bb = true := by
            rw [hask] at ha; simp only [Bool.and_eq_true] at ha; exact ha.2
          rw [BB.intersects_comm]
          exact ((BB.contains_iff_le _ _).mp (hidx st o B hB)).intersects (by rw [BB.intersects_comm]; exact h1)
        simp [this, ha]
    · rw [if_neg (fun h => ha h.2), List.count_eq_zero]
      intro hm
      exact ha (List.mem_filter.1 hm).2
  rw [e, List.count_append, hcnt, hcnt]
  have hask' : ask o = true ↔ (shapes o).filter.reject filter = false ∧ (shapes o).shp.bb.intersects bb = true := by
    rw [hask]; simp
  by_cases ha : ask o = true
  · have ha' := hask'.1 ha
    rcases hist_one_index h s w hh o with h0 | h0
    · by_cases h1 : s.idx false o = none
      · rw [if_neg (by simp [h0]), if_neg (by simp [h1]), if_neg]
        rintro ⟨⟨st, hst⟩, -⟩
        cases st
        · exact hst h1
        · exact hst h0
      · rw [if_neg (by simp [h0]), if_pos ⟨h1, ha⟩, if_pos ⟨⟨false, h1⟩, ha'⟩]
    · by_cases h1 : s.idx true o = none
      · rw [if_neg (by simp [h1]), if_neg (by simp [h0]), if_neg]
        rintro ⟨⟨st, hst⟩, -⟩
        cases st
        · exact hst h0
        · exact hst h1
      · rw [if_pos ⟨h1, ha⟩, if_neg (by simp [h0]), if_pos ⟨⟨true, h1⟩, ha'⟩]
  · rw [if_neg (fun h => ha h.2), if_neg (fun h => ha h.2), if_neg (fun h => ha (hask'.2 h.2))]

end generic

/-- **C39** for circles, from the geometry alone: the callback is called, exactly once, for every other circle of the space
that passes the filter and whose centre is nearer than the sum of the radii. -/
theorem C39_circles (h : Obj → Nat) (s : Spec ℝ) (w : World ℝ) (hh : Hist h s w) (shapes : Obj → QShape ℝ) (a0 : QShape ℝ)
    (t : Option (Transform ℝ)) (self : Option Obj) (c : Circle ℝ) (hc0 : 0 ≤ c.r) (hc : (a0.fresh t).shp.cls = .circle c)
    (hcb : (a0.fresh t).shp.bb = BB.forCircle c.tc c.r) (g : Obj → Circle ℝ) (hg0 : ∀ o, 0 ≤ (g o).r)
    (hg : ∀ o, (shapes o).shp.cls = .circle (g o)) (hgb : ∀ o, (shapes o).shp.bb = BB.forCircle (g o).tc (g o).r)
    (hidx : ∀ st o B, s.idx st o = some B → B.contains (shapes o).shp.bb = true) :
    ∃ log any, w.shapeQuery shapes a0 t self = some (log, any) ∧
      ∀ o, (log.map Prod.fst).count o = if (∃ st, s.idx st o ≠ none) ∧ (a0.fresh t).filter.reject (shapes o).filter = false ∧
        self ≠ some o ∧ c.tc.distance (g o).tc < c.r + (g o).r then 1 else 0 := by
  have hcol : ∀ o, ∃ set, shapesCollide (a0.fresh t).shp (shapes o).shp = some set ∧
      (set.points ≠ [] ↔ c.tc.distance (g o).tc < c.r + (g o).r) := fun o =>
    (C32_circles _ _ c (g o) hc (hg o) hc0 (hg0 o)).imp fun _ h => ⟨h.1, h.2.1⟩
  obtain ⟨logD, logS, any, e, hone, hD, hS, -, -⟩ := C39_calls h s w hh shapes a0 t self
    (fun st o _ => (hcol o).imp fun _ h => h.1)
  refine ⟨_, any, e, fun o => ?_⟩
  have hov : Overlaps shapes (a0.fresh t) self o ↔ (a0.fresh t).filter.reject (shapes o).filter = false ∧
      self ≠ some o ∧ c.tc.distance (g o).tc < c.r + (g o).r := by
    obtain ⟨set, h1, h2⟩ := hcol o
    constructor
    · rintro ⟨r1, r2, set', h3, h4⟩
      rw [h1] at h3
      cases h3
      exact ⟨r1, r2, h2.1 h4⟩
    · rintro ⟨r1, r2, h3⟩
      exact ⟨r1, r2, set, h1, h2.2 h3⟩
  have hbox : ∀ st B, s.idx st o = some B → c.tc.distance (g o).tc < c.r + (g o).r →
      B.intersects (a0.fresh t).shp.bb = true := by
    intro st B hB hlt
    have hle := (BB.contains_iff_le _ _).1 (hidx st o B hB)
    rw [hgb] at hle
    rw [hcb]
    obtain ⟨l1, l2, l3, l4⟩ := hle
    simp only [BB.forCircle, BB.forExtents] at l1 l2 l3 l4
    have hx := abs_le.1 ((Vec.abs_x_le c.tc (g o).tc).trans hlt.le)
    have hy := abs_le.1 ((Vec.abs_y_le c.tc (g o).tc).trans hlt.le)
    simp only [BB.intersects, BB.forCircle, BB.forExtents, Bool.and_eq_true]
    refine ⟨⟨⟨?_, ?_⟩, ?_⟩, ?_⟩ <;> refine decide_eq_true ?_ <;> linarith [hx.1, hx.2, hy.1, hy.2]
  by_cases hcond : (∃ st, s.idx st o ≠ none) ∧ (a0.fresh t).filter.reject (shapes o).filter = false ∧
        self ≠ some o ∧ c.tc.distance (g o).tc < c.r + (g o).r
  · rw [if_pos hcond]
    obtain ⟨⟨st, hst⟩, hrest⟩ := hcond
    obtain ⟨B, hB⟩ := Option.ne_none_iff_exists'.1 hst
    refine le_antisymm (hone o) (List.count_pos_iff.2 ?_)
    rw [List.map_append, List.mem_append]
    have hB2 := hbox st B hB hrest.2.2
    cases st
    · exact Or.inl ((hD o).2 ⟨hov.2 hrest, B, hB, hB2⟩)
    · exact Or.inr ((hS o).2 ⟨hov.2 hrest, B, hB, hB2⟩)
  · rw [if_neg hcond, List.count_eq_zero]
    intro hm
    rw [List.map_append, List.mem_append] at hm
    rcases hm with hm | hm
    · obtain ⟨h1, B, hB, -⟩ := (hD o).1 hm
      exact hcond ⟨⟨false, by rw [hB]; simp⟩, hov.1 h1⟩
    · obtain ⟨h1, B, hB, -⟩ := (hS o).1 hm
      exact hcond ⟨⟨true, by rw [hB]; simp⟩, hov.1 h1⟩

/-- An update with the transform of the body places a shape. -/
theorem Owned.placed {t : Transform ℝ} (ht : t.IsRigid) {c : Cls ℝ} {L : Pts} (h : Owned t c L) :
    Placed (c.cacheData t).1 (c.cacheData t).2 (t.image L) := by
  cases h with
  | circle s hr => exact Placed.circle s t ht hr
  | seg s hr hab => exact Placed.seg s t ht hr hab
  | poly s verts hs hr hv hfin =>
    have hr' : (Poly.new verts s.r).r = s.r := by simp only [Poly.new, Poly.setVerts]; split <;> rfl
    have e1 : s.cacheData t = (Poly.new verts s.r).cacheData t := by simp only [Poly.cacheData, hs, hr']
    have e2 : s.pts = (Poly.new verts s.r).pts := by simp only [Poly.pts, hs, hr']
    simp only [Coll.Cls.cacheData]
    rw [e1, e2]
    exact Placed.poly verts s.r t ht hr hv hfin

theorem Placed.nonempty {c : Cls ℝ} {bb : BB ℝ} {S : Pts} (h : Placed c bb S) : c.nonempty = true := by
  cases h with
  | circle s t ht hr => rfl
  | seg s t ht hr hab => rfl
  | poly verts r t ht hr hv hfin =>
    have hne : verts ≠ [] := by intro e; have := hv.three; rw [e] at this; simp at this
    obtain ⟨v, hvm⟩ := List.exists_mem_of_ne_nil _ hne
    obtain ⟨u, hu⟩ := exists_edge_to hvm
    simp only [Cls.nonempty, Poly.cacheData, poly_new_src]
    cases he : edges verts with
    | nil => rw [he] at hu; cases hu
    | cons x l => simp

/-- **C39**: the query is made with the shape where its body is now, whatever earlier updates left in the shape: for each
shape of the space that has a point in common with the given shape placed by the transform of its body, the function is called
exactly once if it is another shape, passes the filter and `ShapesCollide` finds contacts of the two (placed) shapes, and not at
all otherwise. In particular no overlap is lost because of the boxes. -/
theorem C39_moved (h : Obj → Nat) (s : Spec ℝ) (w : World ℝ) (hh : Hist h s w) (shapes : Obj → QShape ℝ) (S : Obj → Pts)
    (hpl : ∀ st o, s.idx st o ≠ none → Placed (shapes o).shp.cls (shapes o).shp.bb (S o))
    (hidx : ∀ st o B, s.idx st o = some B → B.contains (shapes o).shp.bb = true)
    (a : QShape ℝ) (t : Transform ℝ) (ht : t.IsRigid) (L : Pts) (hL : Owned t a.shp.cls L) (self : Option Obj) :
    ∃ log any, w.shapeQuery shapes a (some t) self = some (log, any) ∧
      ∀ o, (∃ st, s.idx st o ≠ none) → (∃ p, t.image L p ∧ S o p) →
        ∃ set, shapesCollide { a.shp with cls := (a.shp.cls.cacheData t).1, bb := (a.shp.cls.cacheData t).2 } (shapes o).shp = some set ∧
          (log.map Prod.fst).count o =
            if a.filter.reject (shapes o).filter = false ∧ self ≠ some o ∧ set.points ≠ [] then 1 else 0 := by
  have hP := hL.placed ht
  have hcol : ∀ st o, s.idx st o ≠ none → ∃ set, shapesCollide (a.fresh (some t)).shp (shapes o).shp = some set := by
    intro st o ho
    obtain ⟨set, e, _⟩ := C32_count (a.fresh (some t)).shp (shapes o).shp hP.nonempty (hpl st o ho).nonempty
    exact ⟨set, e⟩
  obtain ⟨logD, logS, any, e, hone, hD, hS, -, -⟩ := C39_calls h s w hh shapes a (some t) self hcol
  refine ⟨_, any, e, ?_⟩
  rintro o ⟨st, ho⟩ ⟨p, hp1, hp2⟩
  obtain ⟨set, hset⟩ := hcol st o ho
  refine ⟨set, hset, ?_⟩
  obtain ⟨B, hB⟩ := Option.ne_none_iff_exists'.1 ho
  have hbox : B.intersects (a.fresh (some t)).shp.bb = true := by
    obtain ⟨c1, c2, c3, c4⟩ := (BB.contains_iff_le _ _).1 (hidx st o B hB)
    have p0 : |(0 : ℝ)| ≤ 2 ^ 500 := by rw [abs_zero]; positivity
    obtain ⟨m1, m2, m3, m4⟩ := (C30_placed (hpl st o ho) ⟨0, 0⟩ ⟨p0, p0⟩).2.contains p hp2
    obtain ⟨n1, n2, n3, n4⟩ := (C30_placed hP ⟨0, 0⟩ ⟨p0, p0⟩).2.contains p hp1
    have eb : (a.fresh (some t)).shp.bb = (a.shp.cls.cacheData t).2 := rfl
    rw [eb]
    simp only [BB.intersects, Bool.and_eq_true]
    refine ⟨⟨⟨?_, ?_⟩, ?_⟩, ?_⟩ <;> refine decide_eq_true ?_ <;> linarith
  have hov : Overlaps shapes (a.fresh (some t)) self o ↔ a.filter.reject (shapes o).filter = false ∧ self ≠ some o ∧ set.points ≠ [] := by
    constructor
    · rintro ⟨r1, r2, set', h3, h4⟩
      rw [hset] at h3
      cases h3
      exact ⟨r1, r2, h4⟩
    · rintro ⟨r1, r2, h3⟩
      exact ⟨r1, r2, set, hset, h3⟩
  by_cases hcond : a.filter.reject (shapes o).filter = false ∧ self ≠ some o ∧ set.points ≠ []
  · rw [if_pos hcond]
    refine le_antisymm (hone o) (List.count_pos_iff.2 ?_)
    rw [List.map_append, List.mem_append]
    cases st
    · exact Or.inl ((hD o).2 ⟨hov.2 hcond, B, hB, hbox⟩)
    · exact Or.inr ((hS o).2 ⟨hov.2 hcond, B, hB, hbox⟩)
  · rw [if_neg hcond, List.count_eq_zero]
    intro hm
    rw [List.map_append, List.mem_append] at hm
    rcases hm with hm | hm
    · exact hcond (hov.1 ((hD o).1 hm).1)
    · exact hcond (hov.1 ((hS o).1 hm).1)

/-! ### Examples -/

section examples

/-- Two unit circles around the origin: a static one, which is a sensor, and a dynamic one. -/
def exCircles (sensor : Bool) (o : Obj) : QShape Rat :=
  ⟨⟨.circle ⟨⟨0, 0⟩, ⟨0, 0⟩, 1⟩, ⟨-1, -1, 1, 1⟩, ⟨1, 0⟩, 7#64⟩, ShapeFilter.all, sensor && decide (o = 1)⟩

def exQueryRun : Option (World Rat) :=
  (World.init (fun _ => ⟨-1, -1, 1, 1⟩) (fun _ => ⟨0, 0⟩)).bind fun w =>
    [WOp.insert true 1, .insert false 2].foldlM (fun w op => w.step id op) w

/-- `ShapeQuery` with a third such circle finds both; the result is wrong because the sensor comes last. -/
example : (exQueryRun.bind fun w => w.shapeQuery (exCircles true) (exCircles true 3) none none).map
    (fun r => (r.1.map Prod.fst, r.2)) = some ([2, 1], false) := by decide +kernel

/-- Without the sensor flag the result is `true`. -/
example : (exQueryRun.bind fun w => w.shapeQuery (exCircles false) (exCircles false 3) none none).map
    (fun r => (r.1.map Prod.fst, r.2)) = some ([2, 1], true) := by decide +kernel

/-- The given shape itself is not reported. -/
example : (exQueryRun.bind fun w => w.shapeQuery (exCircles true) (exCircles true 2) (some .identity) (some 2)).map
    (fun r => (r.1.map Prod.fst, r.2)) = some ([1], false) := by decide +kernel

/-- The body of the given shape has moved since the last update: the overlaps are those at the new place. -/
example : (exQueryRun.bind fun w => w.shapeQuery (exCircles true) (exCircles true 3) (some ⟨1, 0, 0, 1, 7, 0⟩) none).map
    (fun r => (r.1.map Prod.fst, r.2)) = some ([], false) := by decide +kernel

/-- A circle of radius 1 and a rigid transform meet the hypotheses of `C39_moved`; see the state below for the rest. -/
example : Transform.identity.IsRigid ∧ Owned Transform.identity (.circle (Circle.new 1 ⟨0, 0⟩)) (Circle.new (1 : ℝ) ⟨0, 0⟩).pts :=
  ⟨by simp [Transform.IsRigid, Transform.identity], Owned.circle _ zero_le_one⟩

/-- `PointQueryNearest` finds the dynamic circle, not the sensor. -/
example : (exQueryRun.bind fun w => w.pointQueryNearest (exCircles true) ⟨0, 0⟩ 2 .all).map (fun r => (r.1, r.2.distance)) =
    some (some 2, -1) := by decide +kernel

/-- `BBQuery` finds both. -/
example : (exQueryRun.map fun w => w.bbQuery (exCircles true) ⟨0, 0, 5, 5⟩ .all) = some [1, 2] := by decide +kernel

/-- A state that meets the hypotheses of `C40_nearest` and `C39_moved`: a static unit circle at the origin. -/
example : ∃ (s : Spec ℝ) (w : World ℝ) (shapes : Obj → QShape ℝ) (S : Obj → Pts), Hist id s w ∧ s.idx true 1 ≠ none ∧
    (∀ st o, s.idx st o ≠ none → Placed (shapes o).shp.cls (shapes o).shp.bb (S o)) ∧
    (∀ st o B, s.idx st o = some B → B.contains (shapes o).shp.bb = true) := by
  obtain ⟨c, hc⟩ : ∃ c : Circle ℝ, c = Circle.new 1 ⟨0, 0⟩ := ⟨_, rfl⟩
  obtain ⟨box, hbox⟩ : ∃ box : Obj → BB ℝ, box = fun _ => (c.cacheData .identity).2 := ⟨_, rfl⟩
  obtain ⟨w, hw⟩ : ∃ w : World ℝ, World.init box (fun _ => ⟨0, 0⟩) = some w := by
    unfold World.init
    have : (HashSet.new : Option (HashSet Obj)).isSome = true := by decide +kernel
    obtain ⟨x, hx⟩ := Option.isSome_iff_exists.1 this
    rw [hx]; exact ⟨_, rfl⟩
  have h0 := Hist.init (h := id) box (fun _ => (⟨0, 0⟩ : Vec ℝ)) w hw
  have hok : (⟨box, fun _ => (⟨0, 0⟩ : Vec ℝ), fun _ _ => none⟩ : Spec ℝ).ok (.insert true 1) := ⟨rfl, rfl⟩
  cases hs : w.step id (.insert true 1) with
  | none =>
    exfalso
    obtain ⟨st, o, -, hcount⟩ := (C07_no_panic id _ w h0 _ hok).1 hs
    have : (HashSet.new : Option (HashSet Obj)).map (fun s => decide (s.entries < 5)) = some true := by decide +kernel
    unfold World.init at hw
    cases hx : (HashSet.new : Option (HashSet Obj)) with
    | none => rw [hx] at hw; cases hw
    | some x =>
      rw [hx] at hw this
      cases hw
      simp only [Option.map_some, Option.some.injEq, decide_eq_true_eq] at this
      have hcc : x.entries = 1610612740 := by cases st <;> exact hcount
      omega
  | some w1 =>
    refine ⟨_, w1, fun _ => ⟨⟨.circle (c.cacheData .identity).1, (c.cacheData .identity).2, ⟨1, 0⟩, 0#64⟩, .all, false⟩,
      fun _ => Transform.identity.image c.pts, Hist.step _ w w1 _ h0 hok hs, ?_, ?_, ?_⟩
    · simp [Spec.step]
    · intro st o _
      refine Placed.circle c .identity ?_ (by rw [hc]; exact zero_le_one)
      simp [Transform.IsRigid, Transform.identity]
    · intro st o B hB
      simp only [Spec.step] at hB
      split at hB
      · cases hB
        simp only [Spec.fresh, if_true, hbox]
        rw [BB.contains_iff_le]
        exact ⟨le_refl _, le_refl _, le_refl _, le_refl _⟩
      · cases hB

end examples

end CP
