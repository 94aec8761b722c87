import Verif.Proofs.Polygon
import Verif.Props.Shapes

/-! # C30 for polygons -/

namespace CP
open GoFloat

/-- The plane of an edge, as `SetVerts` computes it. -/
noncomputable def edgePlane (e : Vec ℝ × Vec ℝ) : Plane ℝ := ⟨e.2, (e.2.sub e.1).rperp.normalize⟩

theorem edgePlanes_eq (prev : Vec ℝ) (l : List (Vec ℝ)) : Poly.edgePlanes prev l = (pairsFrom prev l).map edgePlane := by
  induction l generalizing prev with
  | nil => rfl
  | cons a l ih => simp [Poly.edgePlanes, pairsFrom, ih, edgePlane]

theorem poly_new_src (verts : List (Vec ℝ)) (r : ℝ) : (Poly.new verts r).src = (edges verts).map edgePlane := by
  simp only [Poly.new, Poly.setVerts, edges]
  cases h : verts.getLast? with
  | none => rfl
  | some p => exact edgePlanes_eq p verts

theorem vect_edgePlane {t : Transform ℝ} (ht : t.IsRigid) (e : Vec ℝ × Vec ℝ) :
    t.vect (edgePlane e).n = (edgePlane (t.point e.1, t.point e.2)).n := by
  obtain ⟨h1, h2, h3⟩ := ht
  have hlen : ((t.point e.2).sub (t.point e.1)).rperp.length = (e.2.sub e.1).rperp.length := by
    have a1 : ∀ v : Vec ℝ, v.rperp.length = v.length := by
      intro v; simp only [Vec.length, Vec.rperp, Vec.dot]; congr 1; ring
    rw [a1, a1]
    exact Transform.IsRigid.distance ⟨h1, h2, h3⟩ e.2 e.1
  simp only [edgePlane, Vec.normalize, hlen]
  ext <;> simp only [Transform.vect, Transform.point, Vec.mult, Vec.rperp, Vec.sub, h2, h3] <;> ring

/-- After an update with a rigid transform the queries work on the planes of the moved vertices. -/
theorem C30_poly_world (verts : List (Vec ℝ)) (r : ℝ) (t : Transform ℝ) (ht : t.IsRigid) :
    ((Poly.new verts r).cacheData t).1.dst = (edges (verts.map t.point)).map edgePlane ∧
    ((Poly.new verts r).cacheData t).1.r = r ∧
    t.image (Poly.new verts r).pts = Thick (Hull fun p => p ∈ verts.map t.point) r := by
  refine ⟨?_, ?_, ?_⟩
  · simp only [Poly.cacheData]
    rw [poly_new_src, edges_map, List.map_map, List.map_map]
    refine List.map_congr_left fun e _ => ?_
    simp only [Function.comp_apply]
    rw [vect_edgePlane ht]; rfl
  · simp only [Poly.cacheData, Poly.new, Poly.setVerts]; split <;> rfl
  · rw [C29_poly_new]
    funext w
    apply propext
    constructor
    · rintro ⟨p, ⟨q, hq, hp⟩, rfl⟩
      refine ⟨t.point q, ?_, by rwa [ht.distance]⟩
      refine Hull.least (T := fun q => Hull (fun p => p ∈ verts.map t.point) (t.point q)) ?_ ?_ hq
      · exact fun p q x hp hq hx => .mix hp hq (hx.image t)
      · exact fun p hp => .pt (List.mem_map_of_mem hp)
    · rintro ⟨q, hq, hp⟩
      obtain ⟨w', rfl⟩ := ht.surj w
      obtain ⟨q', rfl⟩ := ht.surj q
      refine ⟨w', ⟨q', ?_, by rwa [ht.distance] at hp⟩, rfl⟩
      have : ∀ q', t.point q' = t.point q' → Hull (fun p => p ∈ verts.map t.point) (t.point q') → Hull (fun p => p ∈ verts) q' := by
        intro q' _ h
        have gen : ∀ z, Hull (fun p => p ∈ verts.map t.point) z → ∀ q', t.point q' = z → Hull (fun p => p ∈ verts) q' := by
          intro z hz
          induction hz with
          | pt h =>
            intro q' e
            obtain ⟨v, hv, e2⟩ := List.mem_map.1 h
            have := ht.inj (e.trans e2.symm)
            rw [this]; exact .pt hv
          | mix _ _ hx ih1 ih2 =>
            intro q' e
            rename_i p q x _ _
            obtain ⟨p', rfl⟩ := ht.surj p
            obtain ⟨r', rfl⟩ := ht.surj q
            refine .mix (ih1 p' rfl) (ih2 r' rfl) ?_
            obtain ⟨s, h0, h1, hx⟩ := hx
            refine ⟨s, h0, h1, ht.inj ?_⟩
            rw [e, hx]
            ext <;> simp only [Transform.point] <;> ring
        exact gen _ h q' rfl
      exact this q' rfl hq

/-- The sign of the plane is the side of the edge. -/
theorem edgePlane_dot (e : Vec ℝ × Vec ℝ) (hne : e.1 ≠ e.2) (x : Vec ℝ) :
    (0 < (edgePlane e).n.dot (x.sub (edgePlane e).v0)) ↔ turn e.1 e.2 x < 0 := by
  have hl : 0 < (e.2.sub e.1).rperp.length + (lit (1 / 10 ^ 15) : ℝ) := by
    have := Vec.length_nonneg (e.2.sub e.1).rperp
    have h2 : (0 : ℝ) < lit (1 / 10 ^ 15) := by rw [lit_real]; norm_num
    linarith
  have hk : 0 < 1 / ((e.2.sub e.1).rperp.length + (lit (1 / 10 ^ 15) : ℝ)) := by positivity
  have : (edgePlane e).n.dot (x.sub (edgePlane e).v0) = - turn e.1 e.2 x * (1 / ((e.2.sub e.1).rperp.length + (lit (1 / 10 ^ 15) : ℝ))) := by
    simp only [edgePlane, Vec.normalize, Vec.dot, Vec.mult, Vec.sub, Vec.rperp, turn]; ring
  rw [this]
  constructor
  · intro h
    by_contra h2
    push Not at h2
    have := mul_nonneg h2 hk.le
    linarith
  · intro h
    exact mul_pos (by linarith) hk

/-- What the loop of `PointQuery` computes. -/
theorem pqFold (p : Vec ℝ) (rest : List (Vec ℝ)) (st : Poly.PQState ℝ) (hne : ∀ e ∈ pairsFrom st.v0 rest, e.1 ≠ e.2) :
    ∃ st', st' = ((pairsFrom st.v0 rest).map edgePlane).foldl (Poly.pqStep p) st ∧
      (st'.outside = true ↔ st.outside = true ∨ ∃ e ∈ pairsFrom st.v0 rest, turn e.1 e.2 p < 0) ∧
      st'.minDist ≤ st.minDist ∧ (∀ e ∈ pairsFrom st.v0 rest, st'.minDist ≤ p.distance (p.closestPointOnSegment e.1 e.2)) ∧
      ((st'.minDist = st.minDist ∧ st'.closestPoint = st.closestPoint) ∨ ∃ e ∈ pairsFrom st.v0 rest, st'.closestPoint = p.closestPointOnSegment e.1 e.2 ∧
        st'.minDist = p.distance st'.closestPoint) := by
  induction rest generalizing st with
  | nil => exact ⟨_, rfl, by simp [pairsFrom], by simp [pairsFrom], by simp [pairsFrom], by simp [pairsFrom]⟩
  | cons b rest ih =>
    obtain ⟨s1, hs1⟩ : ∃ s1, s1 = Poly.pqStep p st (edgePlane (st.v0, b)) := ⟨_, rfl⟩
    have hv : s1.v0 = b := by
      rw [hs1]; simp only [Poly.pqStep]; split <;> rfl
    have hout : s1.outside = true ↔ st.outside = true ∨ turn st.v0 b p < 0 := by
      have hd := edgePlane_dot (st.v0, b) (hne _ (by simp [pairsFrom])) p
      have : s1.outside = (if st.outside then true else decide (0 < (edgePlane (st.v0, b)).n.dot (p.sub (edgePlane (st.v0, b)).v0))) := by
        rw [hs1]; simp only [Poly.pqStep]; split <;> rfl
      rw [this]
      by_cases h : st.outside = true
      · simp [h]
      · rw [if_neg h, decide_eq_true_iff, hd]; simp [h]
    have hmin : s1.minDist = min (p.distance (p.closestPointOnSegment st.v0 b)) st.minDist ∧
        ((s1.minDist = st.minDist ∧ s1.closestPoint = st.closestPoint) ∨ (s1.closestPoint = p.closestPointOnSegment st.v0 b ∧ s1.minDist = p.distance s1.closestPoint)) := by
      rw [hs1]
      simp only [Poly.pqStep]
      split
      · next h => exact ⟨(min_eq_left h.le).symm, .inr ⟨rfl, rfl⟩⟩
      · next h => exact ⟨(min_eq_right (not_lt.1 h)).symm, .inl ⟨rfl, rfl⟩⟩
    have hne1 : ∀ e ∈ pairsFrom s1.v0 rest, e.1 ≠ e.2 := by
      rw [hv]; exact fun e he => hne e (List.mem_cons_of_mem _ he)
    obtain ⟨st', h1, h2, h3, h4, h5⟩ := ih s1 hne1
    rw [hv] at h1 h2 h4 h5
    refine ⟨st', ?_, ?_, ?_, ?_, ?_⟩
    · rw [h1, hs1]; rfl
    · rw [h2, hout]
      simp only [pairsFrom, List.mem_cons, exists_eq_or_imp, or_assoc]
    · exact le_trans h3 (by rw [hmin.1]; exact min_le_right _ _)
    · intro e he
      rcases List.mem_cons.1 he with rfl | he
      · exact le_trans h3 (by rw [hmin.1]; exact min_le_left _ _)
      · exact h4 e he
    · rcases h5 with h5 | ⟨e, he, h5⟩
      · rcases hmin.2 with h6 | h6
        · exact .inl ⟨h5.1.trans h6.1, h5.2.trans h6.2⟩
        · refine .inr ⟨_, List.mem_cons_self, ?_, ?_⟩
          · rw [h5.2, h6.1]
          · rw [h5.1, h5.2, h6.2]
      · exact .inr ⟨e, List.mem_cons_of_mem _ he, h5⟩

/-- A point of the boundary of the polygon with the given vertices. -/
def OnBoundary (verts : List (Vec ℝ)) (p : Vec ℝ) : Prop := ∃ e ∈ edges verts, OnSegment e.1 e.2 p

/-- **C30** for polygons: a strictly convex polygon with any radius, any query point that is not on the boundary of the
core polygon and is not further away from it than the largest number (`verts` are the vertices in the world). -/
theorem C30_poly (s : Poly ℝ) (hr : 0 ≤ s.r) (verts : List (Vec ℝ)) (hs : s.dst = (edges verts).map edgePlane)
    (hv : StrictlyConvex verts) (p : Vec ℝ) (hb : ¬ OnBoundary verts p) (hfin : ∃ v ∈ verts, p.distance v < maxFloat) :
    ∃ i, s.pointQuery p = some i ∧ TrueDistance (Thick (Hull fun q => q ∈ verts) s.r) p i := by
  -- the loop
  obtain ⟨last, hlast⟩ : ∃ last, verts.getLast? = some last := by
    cases h : verts.getLast? with
    | none => rw [List.getLast?_eq_none_iff] at h; have := hv.three; rw [h] at this; simp at this
    | some a => exact ⟨a, rfl⟩
  have hedges : edges verts = pairsFrom last verts := by simp only [edges, hlast]
  have hdl : s.dst.getLast?.map Plane.v0 = some last := by
    rw [hs, ← List.getLast?_map, List.map_map]
    have : (Plane.v0 ∘ edgePlane) = Prod.snd := rfl
    rw [this, map_snd_edges, hlast]
  obtain ⟨lp, hlp, hlpv⟩ : ∃ lp, s.dst.getLast? = some lp ∧ lp.v0 = last := by
    cases h : s.dst.getLast? with
    | none => rw [h] at hdl; simp at hdl
    | some a => rw [h] at hdl; exact ⟨a, rfl, by simpa using hdl⟩
  obtain ⟨st, hst, hout, hle0, hle, hatt⟩ := pqFold p verts ⟨last, maxFloat, ⟨0, 0⟩, ⟨0, 0⟩, false⟩
    (by simp only; rw [← hedges]; exact fun e he => hv.edge_ne he)
  simp only at hst hout hle hatt hle0
  rw [← hedges] at hst hout hle hatt
  -- the nearest point on the boundary
  obtain ⟨c, hc⟩ : ∃ c, c = st.closestPoint := ⟨_, rfl⟩
  have hlt : st.minDist < maxFloat := by
    obtain ⟨v, hv1, hv2⟩ := hfin
    obtain ⟨w, hw⟩ := exists_edge_from hv1
    have h1 := hle _ hw
    have h2 := (C30_closest p v w (hv.edge_ne hw)).2 v (OnSegment.left v w)
    simp only at h1
    linarith
  obtain ⟨e0, he0, hce0, hmin⟩ : ∃ e ∈ edges verts, st.closestPoint = p.closestPointOnSegment e.1 e.2 ∧ st.minDist = p.distance st.closestPoint := by
    rcases hatt with h | h
    · exact absurd h.1 hlt.ne
    · exact h
  rw [← hc] at hce0 hmin
  have hcon : OnSegment e0.1 e0.2 c := by rw [hce0]; exact (C30_closest p _ _ (hv.edge_ne he0)).1
  have hbd : ∀ z, OnBoundary verts z → st.minDist ≤ p.distance z := by
    rintro z ⟨e, he, hz⟩
    exact le_trans (hle e he) ((C30_closest p _ _ (hv.edge_ne he)).2 z hz)
  have hcP : LeftOfEdges verts c := isConvex_leftOfEdges verts _ _ _ (hv.vert_left (edges_fst_mem he0)) (hv.vert_left (edges_snd_mem he0)) hcon
  have hpc : p ≠ c := by intro e; rw [← e] at hcon; exact hb ⟨e0, he0, hcon⟩
  have hmpos : 0 < st.minDist := by
    rw [hmin]; exact lt_of_le_of_ne (Vec.distance_nonneg _ _) fun e => hpc (Vec.distance_eq_zero.1 e.symm)
  have hhull : (Hull fun q => q ∈ verts) = LeftOfEdges verts := by
    funext x; exact propext (hv.hull_iff x)
  rw [hhull]
  refine ⟨_, by
    simp only [Poly.pointQuery, hlp]
    simp only [Option.bind_eq_bind, Option.bind_some]
    rw [hs, hlpv, ← hst], ?_⟩
  rw [← hc]
  by_cases ho : st.outside = true
  · -- outside
    have hpout : ¬ LeftOfEdges verts p := by
      intro hp
      rcases hout.1 ho with h | ⟨e, he, h⟩
      · exact absurd h (by simp)
      · exact absurd (hp e he) (not_le.2 h)
    simp only [ho, if_true]
    refine trueDistance_of_nearest (isConvex_leftOfEdges verts) hcP ?_ hpc hr _ ?_ ?_
    · intro q hq
      obtain ⟨z, hz, -, hze⟩ := hv.crossing hq hpout
      have h1 := hbd z hze
      have h2 := hz.distance_add
      have h3 := Vec.distance_nonneg q z
      rw [Vec.distance_comm p q, ← hmin]
      rw [Vec.distance_comm z p] at h2
      linarith
    · simp only
      rw [hmin]
      congr 1
      ext <;> simp only [Vec.mult] <;> ring
    · simp only [hmin]
  · -- inside
    have hpin : LeftOfEdges verts p := by
      intro e he
      by_contra h
      exact ho (hout.2 (.inr ⟨e, he, not_le.1 h⟩))
    simp only [ho]
    simp only [Bool.false_eq_true, if_false]
    -- the open disc around the point is inside
    have hdisc : ∀ y, p.distance y < st.minDist → LeftOfEdges verts y := by
      intro y hy
      by_contra hno
      obtain ⟨z, hz, -, hze⟩ := hv.crossing hpin hno
      have h1 := hbd z hze
      have h2 := hz.distance_add
      have h3 := Vec.distance_nonneg z y
      linarith
    -- the outward normal at the nearest point
    have hob : ∀ x, LeftOfEdges verts x → (c.sub p).dot (x.sub c) ≤ 0 := by
      intro x hx
      obtain ⟨a, b⟩ := e0
      obtain ⟨m, hm⟩ : ∃ m : Vec ℝ, m = ⟨b.y - a.y, -(b.x - a.x)⟩ := ⟨_, rfl⟩
      have hturn : ∀ y z : Vec ℝ, m.dot (y.sub z) = turn a b z - turn a b y := by
        intro y z; rw [hm]; simp only [Vec.dot, Vec.sub, turn]; ring
      have hc0 : turn a b c = 0 := by
        obtain ⟨s', -, -, e⟩ := hcon
        simp only at e
        rw [e, turn_mix, turn_self_left, turn_self_right]; ring
      have hmne : 0 < m.length := by
        refine lt_of_le_of_ne (Vec.length_nonneg _) fun e => hv.edge_ne he0 ?_
        have h2 := Vec.length_sq m
        rw [← e, hm] at h2
        simp only [Vec.dot] at h2
        have hx : b.x - a.x = 0 := by nlinarith [sq_nonneg (b.x - a.x), sq_nonneg (b.y - a.y)]
        have hy : b.y - a.y = 0 := by nlinarith [sq_nonneg (b.x - a.x), sq_nonneg (b.y - a.y)]
        ext <;> simp only <;> linarith
      have hD : st.minDist * m.length ≤ turn a b p := by
        by_contra hlt
        push Not at hlt
        obtain ⟨k, hk⟩ : ∃ k, k = (turn a b p / m.length + st.minDist) / 2 := ⟨_, rfl⟩
        have hk1 : turn a b p < k * m.length := by
          have : turn a b p / m.length < st.minDist := by rw [div_lt_iff₀ hmne]; exact hlt
          have h3 : turn a b p / m.length < k := by linarith
          rwa [div_lt_iff₀ hmne] at h3
        have hk2 : k < st.minDist := by
          have : turn a b p / m.length < st.minDist := by rw [div_lt_iff₀ hmne]; exact hlt
          linarith
        have hk0 : 0 ≤ k := by
          have := hpin _ he0
          simp only at this
          rw [hk]
          have : 0 ≤ turn a b p / m.length := by positivity
          linarith
        have hin := hdisc (p.add (m.mult (k / m.length))) (by
          have : p.distance (p.add (m.mult (k / m.length))) = (m.mult (-(k / m.length))).length := by
            rw [Vec.distance]; congr 1; ext <;> simp [Vec.sub, Vec.add, Vec.mult]
          rw [this, Vec.length_mult, abs_neg, abs_of_nonneg (by positivity)]
          rw [mul_div_cancel₀ _ hmne.ne']; exact hk2) _ he0
        simp only at hin
        have e1 := hturn (p.add (m.mult (k / m.length))) p
        have e2 : m.dot ((p.add (m.mult (k / m.length))).sub p) = k * m.length := by
          have : m.dot ((p.add (m.mult (k / m.length))).sub p) = (k / m.length) * m.dot m := by
            simp only [Vec.dot, Vec.sub, Vec.add, Vec.mult]; ring
          rw [this, ← Vec.length_sq]; field_simp
        rw [e2] at e1
        linarith
      have hDc : m.dot (c.sub p) = turn a b p := by rw [hturn, hc0, sub_zero]
      -- equality in Cauchy-Schwarz
      have heq : st.minDist * m.x = m.length * (c.x - p.x) ∧ st.minDist * m.y = m.length * (c.y - p.y) := by
        have h1 : m.length ^ 2 = m.x * m.x + m.y * m.y := Vec.length_sq m
        have h2 : st.minDist ^ 2 = (p.x - c.x) ^ 2 + (p.y - c.y) ^ 2 := by rw [hmin, Vec.distance_sq]
        have h3 : m.x * (c.x - p.x) + m.y * (c.y - p.y) = turn a b p := hDc
        have h4 : (st.minDist * m.x - m.length * (c.x - p.x)) ^ 2 + (st.minDist * m.y - m.length * (c.y - p.y)) ^ 2 ≤ 0 := by
          have : (st.minDist * m.x - m.length * (c.x - p.x)) ^ 2 + (st.minDist * m.y - m.length * (c.y - p.y)) ^ 2 =
              st.minDist ^ 2 * (m.x * m.x + m.y * m.y) - 2 * (st.minDist * m.length) * (m.x * (c.x - p.x) + m.y * (c.y - p.y)) +
                m.length ^ 2 * ((p.x - c.x) ^ 2 + (p.y - c.y) ^ 2) := by ring
          rw [this, h3, ← h1, ← h2]
          nlinarith [mul_pos hmpos hmne]
        constructor
        · have : st.minDist * m.x - m.length * (c.x - p.x) = 0 := by
            nlinarith [sq_nonneg (st.minDist * m.x - m.length * (c.x - p.x)), sq_nonneg (st.minDist * m.y - m.length * (c.y - p.y))]
          linarith
        · have : st.minDist * m.y - m.length * (c.y - p.y) = 0 := by
            nlinarith [sq_nonneg (st.minDist * m.x - m.length * (c.x - p.x)), sq_nonneg (st.minDist * m.y - m.length * (c.y - p.y))]
          linarith
      have hx0 := hx _ he0
      simp only at hx0
      have h5 : m.dot (x.sub c) ≤ 0 := by rw [hturn, hc0]; linarith
      have h6 : m.length * (c.sub p).dot (x.sub c) = st.minDist * m.dot (x.sub c) := by
        simp only [Vec.dot, Vec.sub]
        linear_combination (-(x.x - c.x)) * heq.1 - (x.y - c.y) * heq.2
      by_contra hpos
      push Not at hpos
      nlinarith [mul_pos hmne hpos]
    obtain ⟨p', hp'⟩ : ∃ p' : Vec ℝ, p' = c.add (c.sub p) := ⟨_, rfl⟩
    have hp'c : p'.sub c = c.sub p := by rw [hp']; ext <;> simp [Vec.sub, Vec.add]
    have hp'd : p'.distance c = st.minDist := by
      have : p'.distance c = (p'.sub c).length := rfl
      rw [this, hp'c, hmin, Vec.distance_comm p c]; rfl
    have hob' : ∀ x, LeftOfEdges verts x → (p'.sub c).dot (x.sub c) ≤ 0 := by rw [hp'c]; exact hob
    have hpt : c.add (((p.sub c).mult (1 / -st.minDist)).mult s.r) = c.add ((p'.sub c).mult (s.r / st.minDist)) := by
      rw [hp'c]
      have hm0 := hmpos.ne'
      ext
      · simp only [Vec.add, Vec.mult, Vec.sub]; field_simp; ring
      · simp only [Vec.add, Vec.mult, Vec.sub]; field_simp; ring
    rw [hpt]
    refine ⟨?_, ?_, ⟨⟨c, hcP, ?_⟩, ?_⟩, ?_⟩
    · intro q _
      have := Vec.distance_nonneg p q
      simp only; linarith
    · intro q hq
      have hqP : ¬ LeftOfEdges verts q := fun h => hq ⟨q, h, by rw [Vec.distance_self]; exact hr⟩
      obtain ⟨z, hz, hzP, hze⟩ := hv.crossing hpin hqP
      have h1 := hbd z hze
      have h2 := hz.distance_add
      have h3 : s.r < q.distance z := by
        by_contra h; exact hq ⟨z, hzP, not_lt.1 h⟩
      rw [Vec.distance_comm] at h3
      simp only; linarith
    · simp only
      rw [distance_along, hp'd, abs_of_nonneg (by positivity), div_mul_cancel₀ _ hmpos.ne']
    · intro ε hε
      refine ⟨c.add ((p'.sub c).mult ((s.r + ε) / st.minDist)), ?_, ?_⟩
      · rintro ⟨x, hx, hq⟩
        have h1 := distance_walk hob' (k := (s.r + ε) / st.minDist) (by positivity) hx
        rw [distance_along, hp'd, abs_of_nonneg (by positivity), div_mul_cancel₀ _ hmpos.ne'] at h1
        linarith
      · simp only [Vec.distance]
        have : (c.add ((p'.sub c).mult ((s.r + ε) / st.minDist))).sub (c.add ((p'.sub c).mult (s.r / st.minDist))) =
            (p'.sub c).mult (ε / st.minDist) := by
          ext <;> simp only [Vec.sub, Vec.add, Vec.mult] <;> ring
        have e2 : (p'.sub c).length = st.minDist := hp'd
        rw [this, Vec.length_mult, abs_of_nonneg (by positivity), e2, mul_div_cancel₀ _ hmpos.ne']
    · simp only
      have e : p.distance (c.add ((p'.sub c).mult (s.r / st.minDist))) = ((p'.sub c).mult (-(1 + s.r / st.minDist))).length := by
        rw [Vec.distance, hp'c]; congr 1
        ext <;> simp only [Vec.sub, Vec.add, Vec.mult] <;> ring
      have e2 : (p'.sub c).length = st.minDist := hp'd
      rw [e, Vec.length_mult, e2, abs_neg, abs_of_nonneg (by positivity)]
      rw [abs_of_nonpos (by linarith)]
      field_simp
      ring

/-- A concrete case: a square and two query points, one inside and one outside. -/
example : StrictlyConvex [⟨1, -1⟩, ⟨1, 1⟩, ⟨-1, 1⟩, ⟨-1, -1⟩] ∧
    ¬ OnBoundary [⟨1, -1⟩, ⟨1, 1⟩, ⟨-1, 1⟩, ⟨-1, -1⟩] ⟨0, 0⟩ ∧ ¬ OnBoundary [⟨1, -1⟩, ⟨1, 1⟩, ⟨-1, 1⟩, ⟨-1, -1⟩] ⟨3, 0⟩ := by
  refine ⟨⟨by simp, by simp [Vec.mk.injEq]; norm_num, ?_⟩, ?_, ?_⟩
  · intro e he v hv
    simp only [edges, pairsFrom, List.getLast?, List.getLast, List.mem_cons, List.not_mem_nil, or_false] at he hv
    rcases he with rfl | rfl | rfl | rfl <;> rcases hv with rfl | rfl | rfl | rfl <;> simp [turn] <;> norm_num
  · rintro ⟨e, he, s, h0, h1, h⟩
    simp only [edges, pairsFrom, List.getLast?, List.getLast, List.mem_cons, List.not_mem_nil, or_false] at he
    rcases he with rfl | rfl | rfl | rfl <;> simp only [Vec.mk.injEq] at h <;> norm_num at h
  · rintro ⟨e, he, s, h0, h1, h⟩
    simp only [edges, pairsFrom, List.getLast?, List.getLast, List.mem_cons, List.not_mem_nil, or_false] at he
    rcases he with rfl | rfl | rfl | rfl <;> simp only [Vec.mk.injEq] at h <;> norm_num at h
    all_goals linarith

end CP
