import Verif.Proofs.RayPoly

/-! # C45: segment queries against polygons and segment shapes -/

namespace CP
open GoFloat Set

/-- What a segment query answers if a first contact exactly at the far end may be overlooked. -/
structure FirstContactBeforeEnd (S : Pts) (a b : Vec ℝ) (radius : ℝ) (i : SegHit ℝ) : Prop where
  first : i.hit = true → IsLeast (contacts S a b radius) i.alpha
  miss : i.hit = false → i.alpha = 1 ∧ i.point = b ∧ contacts S a b radius ⊆ {1}

/-- One step of the loop over the vertices (`/repo/poly.go:149-155`). -/
noncomputable def vertStep (r : ℝ) (a b : Vec ℝ) (r2 : ℝ) (info : SegHit ℝ) (v : Vec ℝ) : SegHit ℝ :=
  if (circleSegmentQuery v r a b r2 (SegHit.blank b)).alpha < info.alpha then circleSegmentQuery v r a b r2 (SegHit.blank b) else info

theorem vertFold_spec (r : ℝ) (a b : Vec ℝ) (r2 : ℝ) : ∀ (l : List (Vec ℝ)) (info : SegHit ℝ),
    let i := l.foldl (vertStep r a b r2) info
    i.alpha ≤ info.alpha ∧ (i = info ∨ ∃ v ∈ l, i = circleSegmentQuery v r a b r2 (SegHit.blank b) ∧ i.alpha < info.alpha) ∧
    ∀ v ∈ l, i.alpha ≤ (circleSegmentQuery v r a b r2 (SegHit.blank b)).alpha
  | [], info => ⟨le_rfl, .inl rfl, fun v hv => by cases hv⟩
  | v :: l, info => by
    simp only [List.foldl_cons]
    obtain ⟨h1, h2, h3⟩ := vertFold_spec r a b r2 l (vertStep r a b r2 info v)
    have hs : (vertStep r a b r2 info v).alpha ≤ info.alpha ∧ (vertStep r a b r2 info v).alpha ≤ (circleSegmentQuery v r a b r2 (SegHit.blank b)).alpha := by
      unfold vertStep
      split
      · next h => exact ⟨h.le, le_rfl⟩
      · next h => exact ⟨le_rfl, not_lt.1 h⟩
    refine ⟨h1.trans hs.1, ?_, ?_⟩
    · rcases h2 with h2 | ⟨w, hw, h2, h2'⟩
      · rw [h2]
        by_cases h : (circleSegmentQuery v r a b r2 (SegHit.blank b)).alpha < info.alpha
        · right
          refine ⟨v, List.mem_cons_self, ?_⟩
          rw [vertStep, if_pos h]; exact ⟨rfl, h⟩
        · left; rw [vertStep, if_neg h]
      · exact .inr ⟨w, List.mem_cons_of_mem _ hw, h2, h2'.trans_le hs.1⟩
    · intro w hw
      rcases List.mem_cons.1 hw with rfl | hw
      · exact h1.trans hs.2
      · exact h3 w hw

/-- The class method from a start outside, for normals of any length (sharp polygons) or of length 1. -/
theorem poly_query {l : List (Vec ℝ)} (h : StrictlyConvex l) (s : Poly ℝ) (k : Vec ℝ × Vec ℝ → ℝ)
    (hs : s.dst = (edges l).map fun e => ⟨e.2, (e.2.sub e.1).rperp.mult (k e)⟩) (hk : ∀ e ∈ edges l, 0 < k e)
    {a b : Vec ℝ} (hab : a ≠ b) {r2 : ℝ} (hρ : 0 ≤ s.r + r2) (hu : s.r + r2 = 0 ∨ ∀ e ∈ edges l, k e * e.2.distance e.1 = 1)
    (hout : ¬ Thick (HullOf l) (s.r + r2) a) :
    let i := s.segmentQuery a b r2 (SegHit.blank b)
    (i.hit = true → IsLeast (contacts (HullOf l) a b (s.r + r2)) i.alpha ∧ (r2 = 0 → i.point = along a b i.alpha)) ∧
    (i.hit = false → i = SegHit.blank b ∧ contacts (HullOf l) a b (s.r + r2) ⊆ {1} ∧ (s.r + r2 = 0 → contacts (HullOf l) a b (s.r + r2) = ∅)) := by
  obtain ⟨last, hlast⟩ : ∃ last, l.getLast? = some last := by
    cases h' : l.getLast? with
    | none => rw [List.getLast?_eq_none_iff] at h'; have := h.three; rw [h'] at this; simp at this
    | some a => exact ⟨a, rfl⟩
  have hedges : edges l = pairsFrom last l := by simp only [edges, hlast]
  have hdl : s.dst.getLast?.map Plane.v0 = some last := by
    rw [hs, ← List.getLast?_map, List.map_map]
    have : (Plane.v0 ∘ fun e : Vec ℝ × Vec ℝ => (⟨e.2, (e.2.sub e.1).rperp.mult (k e)⟩ : Plane ℝ)) = Prod.snd := rfl
    rw [this, map_snd_edges, hlast]
  obtain ⟨lp, hlp, hlpv⟩ : ∃ lp, s.dst.getLast? = some lp ∧ lp.v0 = last := by
    cases h' : s.dst.getLast? with
    | none => rw [h'] at hdl; simp at hdl
    | some p => rw [h'] at hdl; exact ⟨p, rfl, by simpa using hdl⟩
  obtain ⟨ρ, hρe⟩ : ∃ ρ, ρ = s.r + r2 := ⟨_, rfl⟩
  rw [← hρe] at hρ hu hout ⊢
  have hv : s.dst.map Plane.v0 = l := by
    rw [hs, List.map_map]
    have : (Plane.v0 ∘ fun e : Vec ℝ × Vec ℝ => (⟨e.2, (e.2.sub e.1).rperp.mult (k e)⟩ : Plane ℝ)) = Prod.snd := rfl
    rw [this, map_snd_edges]
  have hq : s.segmentQuery a b r2 (SegHit.blank b) =
      if 0 < ρ then l.foldl (vertStep s.r a b r2) (Poly.sqEdges a b r2 ρ last (SegHit.blank b) s.dst)
      else Poly.sqEdges a b r2 ρ last (SegHit.blank b) s.dst := by
    simp only [Poly.segmentQuery, hlp, hlpv, ← hρe]
    have : ∀ i, s.dst.foldl (fun info pl => if (circleSegmentQuery pl.v0 s.r a b r2 (SegHit.blank b)).alpha < info.alpha then
        circleSegmentQuery pl.v0 s.r a b r2 (SegHit.blank b) else info) i = l.foldl (vertStep s.r a b r2) i := by
      intro i; rw [← hv, List.foldl_map]; rfl
    rw [this]
  have hN := sqEdges_spec a b r2 ρ (fun e => (e.2.sub e.1).rperp.mult (k e)) l last (SegHit.blank b)
  rw [← hedges, ← hs] at hN
  obtain ⟨i1, hi1⟩ : ∃ i1, i1 = Poly.sqEdges a b r2 ρ last (SegHit.blank b) s.dst := ⟨_, rfl⟩
  rw [← hi1] at hN hq
  have hu' : ∀ e ∈ edges l, ρ = 0 ∨ k e * e.2.distance e.1 = 1 := fun e he => hu.imp id (fun g => g e he)
  -- the state after the edges
  have E : (i1 = SegHit.blank b ∧ ∀ e ∈ edges l, ∀ t, ¬ Rec a b ρ e ((e.2.sub e.1).rperp.mult (k e)) t) ∨
      (i1.hit = true ∧ IsLeast (contacts (HullOf l) a b ρ) i1.alpha ∧ (r2 = 0 → i1.point = along a b i1.alpha)) := by
    rcases hN with hN | ⟨e, he, t, hr, he1⟩
    · exact .inl hN
    · right
      rw [he1]
      refine ⟨rfl, rec_least h hρ hout he (hk e he) (hu' e he) hr, ?_⟩
      rintro rfl
      ext <;> simp [Vec.sub, Vec.mult]
  by_cases hpos : 0 < ρ
  · simp only [hq, if_pos hpos]
    obtain ⟨f1, f2, f3⟩ := vertFold_spec s.r a b r2 l i1
    obtain ⟨i, hi⟩ : ∃ i, i = l.foldl (vertStep s.r a b r2) i1 := ⟨_, rfl⟩
    rw [← hi] at f1 f2 f3 ⊢
    have hkL : ∀ e ∈ edges l, k e * e.2.distance e.1 = 1 := hu.resolve_left hpos.ne'
    have circ : ∀ v ∈ l, (circleSegmentQuery v s.r a b r2 (SegHit.blank b) = SegHit.blank b ∧ (∀ t, 0 ≤ t → t ≤ 1 → ρ < (along a b t).distance v)) ∨
        ((circleSegmentQuery v s.r a b r2 (SegHit.blank b)).hit = true ∧ (circleSegmentQuery v s.r a b r2 (SegHit.blank b)).alpha ∈ contacts (HullOf l) a b ρ ∧
          (∀ t, 0 ≤ t → (along a b t).distance v ≤ ρ → (circleSegmentQuery v s.r a b r2 (SegHit.blank b)).alpha ≤ t) ∧
          (r2 = 0 → (circleSegmentQuery v s.r a b r2 (SegHit.blank b)).point = along a b (circleSegmentQuery v s.r a b r2 (SegHit.blank b)).alpha)) := by
      intro v hvl
      have ho : s.r + r2 < a.distance v := by
        by_contra hn
        push Not at hn
        exact hout ⟨v, .pt hvl, by rw [hρe]; exact hn⟩
      rcases circleSegmentQuery_first v s.r a b r2 (by rw [← hρe]; exact hρ) hab ho (SegHit.blank b) with ⟨c1, c2⟩ | ⟨c1, c2, c3, c4, c5, c6, c7⟩
      · exact .inl ⟨c1, fun t t0 t1 => by rw [hρe]; exact c2 t t0 t1⟩
      · refine .inr ⟨c1, ⟨c2, c3, v, .pt hvl, by rw [c4, hρe]⟩, fun t t0 ht => c5 t t0 (by rw [← hρe]; exact ht), ?_⟩
        rintro rfl
        rw [c7]; ext <;> simp [Vec.sub, Vec.mult]
    -- the first contact is found unless it is at the end
    have found : ∀ t0, IsLeast (contacts (HullOf l) a b ρ) t0 → i.alpha ≤ t0 := by
      intro t0 ht0
      rcases least_rec_round h hρ hout hpos ht0 with ⟨e, he, hr⟩ | ⟨v, hvl, hd⟩
      · have hr := hr (k e) (hk e he) (hkL e he)
        rcases E with ⟨-, E⟩ | ⟨-, E, -⟩
        · exact absurd hr (E e he t0)
        · rw [← E.unique ht0]; exact f1
      · rcases circ v hvl with ⟨-, c⟩ | ⟨-, -, c, -⟩
        · exact absurd hd (not_le.2 (c t0 ht0.1.1 ht0.1.2.1))
        · exact (f3 v hvl).trans (c t0 ht0.1.1 hd)
    have sound : i.hit = true → i.alpha ∈ contacts (HullOf l) a b ρ ∧ (r2 = 0 → i.point = along a b i.alpha) := by
      intro hhit
      rcases f2 with f2 | ⟨v, hvl, f2, -⟩
      · rw [f2] at hhit ⊢
        rcases E with ⟨E, -⟩ | ⟨-, E, E'⟩
        · rw [E] at hhit; cases hhit
        · exact ⟨E.1, E'⟩
      · rw [f2] at hhit ⊢
        rcases circ v hvl with ⟨c, -⟩ | ⟨-, c, -, c'⟩
        · rw [c] at hhit; cases hhit
        · exact ⟨c, c'⟩
    constructor
    · intro hhit
      obtain ⟨hc, hp⟩ := sound hhit
      obtain ⟨t0, ht0⟩ := contacts_least hρ ⟨_, hc⟩
      have : i.alpha = t0 := le_antisymm (found t0 ht0) (ht0.2 hc)
      exact ⟨this ▸ ht0, hp⟩
    · intro hmiss
      have hb : i = SegHit.blank b := by
        rcases f2 with f2 | ⟨v, hvl, f2, f2'⟩
        · rcases E with ⟨E, -⟩ | ⟨E, -, -⟩
          · rw [f2, E]
          · rw [f2, E] at hmiss; cases hmiss
        · rcases circ v hvl with ⟨c, -⟩ | ⟨c, -, -, -⟩
          · rw [f2, c]
          · rw [f2, c] at hmiss; cases hmiss
      refine ⟨hb, ?_, fun h0 => absurd h0 hpos.ne'⟩
      intro t ht
      obtain ⟨t0, ht0⟩ := contacts_least hρ ⟨_, ht⟩
      have h1 := found t0 ht0
      rw [hb] at h1
      have h2 : (1 : ℝ) ≤ t0 := h1
      have h3 := ht0.2 ht
      exact le_antisymm ht.2.1 (h2.trans h3)
  · have h0 : ρ = 0 := le_antisymm (not_lt.1 hpos) hρ
    simp only [hq, if_neg hpos]
    rcases E with ⟨E, E'⟩ | ⟨E, E', E''⟩
    · rw [E]
      have hemp : contacts (HullOf l) a b ρ = ∅ := by
        by_contra hne
        obtain ⟨t0, ht0⟩ := contacts_least hρ (nonempty_iff_ne_empty.2 hne)
        obtain ⟨e, he, hr⟩ := least_rec_sharp h hρ hout h0 ht0
        exact E' e he t0 (hr (k e) (hk e he))
      refine ⟨fun hh => (by cases hh), fun _ => ⟨rfl, ?_, fun _ => hemp⟩⟩
      rw [hemp]; exact empty_subset _
    · exact ⟨fun _ => ⟨E', E''⟩, fun hh => by rw [E] at hh; cases hh⟩

/-- `distance ≤ radius` of a point query means that a disc of this radius about the point touches the shape. -/
theorem SignedDistance.le_iff {S : Pts} {p : Vec ℝ} {d : ℝ} (h : SignedDistance S p d) {radius : ℝ} (hr : 0 ≤ radius) :
    d ≤ radius ↔ Thick S radius p := by
  constructor
  · intro hd
    obtain ⟨q, hq, e⟩ := h.near_in
    exact ⟨q, hq, by rw [e]; exact max_le hd hr⟩
  · rintro ⟨q, hq, e⟩
    exact (h.outside q hq).trans e

theorem shapeSegmentQuery_of {S : Pts} {a b : Vec ℝ} {radius : ℝ} (hrad : 0 ≤ radius) (n : PointInfo ℝ) (hn : SignedDistance S a n.distance)
    (q : SegHit ℝ → SegHit ℝ) (P : SegHit ℝ → Prop)
    (hin : 0 ∈ contacts S a b radius → ∀ i : SegHit ℝ, i.hit = true → i.alpha = 0 → P i) (hout : ¬ Thick S radius a → P (q (SegHit.blank b))) :
    P (shapeSegmentQuery n q a b radius) := by
  simp only [shapeSegmentQuery]
  by_cases hd : n.distance ≤ radius
  · rw [if_pos hd]
    exact hin ⟨le_rfl, zero_le_one, by rw [along_zero]; exact (hn.le_iff hrad).1 hd⟩ _ rfl rfl
  · rw [if_neg hd]
    exact hout fun h => hd ((hn.le_iff hrad).2 h)

theorem edgePlane_mult {l : List (Vec ℝ)} (h : StrictlyConvex l) {e : Vec ℝ × Vec ℝ} (he : e ∈ edges l) :
    edgePlane e = ⟨e.2, (e.2.sub e.1).rperp.mult (1 / ((e.2.sub e.1).rperp.length + 1 / 10 ^ 15))⟩ ∧
    (0 : ℝ) < 1 / ((e.2.sub e.1).rperp.length + 1 / 10 ^ 15) := by
  constructor
  · simp only [edgePlane, Vec.normalize, lit_real]
    norm_num
  · have : 0 ≤ (e.2.sub e.1).rperp.length := by
      simp only [Vec.length, sqrt_real]; exact Real.sqrt_nonneg _
    positivity

/-- **C45** for polygons without radius and rays without radius: the shape made from the vertices and placed in the world by
its body answers with the first contact, and the point of the hit is this point of the ray. -/
theorem C45_poly (verts : List (Vec ℝ)) (hv : StrictlyConvex verts) (t : Transform ℝ) (ht : t.IsRigid) (a b : Vec ℝ) (hab : a ≠ b)
    (hfin : ∃ v ∈ verts.map t.point, a.distance v < maxFloat) :
    ∃ n, ((Poly.new verts 0).cacheData t).1.pointQuery a = some n ∧
      FirstContact (t.image (Poly.new verts 0).pts) a b 0 (shapeSegmentQuery n (((Poly.new verts 0).cacheData t).1.segmentQuery a b 0) a b 0) ∧
      (0 < n.distance → (((Poly.new verts 0).cacheData t).1.segmentQuery a b 0 (SegHit.blank b)).hit = true →
        (((Poly.new verts 0).cacheData t).1.segmentQuery a b 0 (SegHit.blank b)).point =
          along a b (((Poly.new verts 0).cacheData t).1.segmentQuery a b 0 (SegHit.blank b)).alpha) := by
  obtain ⟨e1, e2, e3⟩ := C30_poly_world verts 0 t ht
  obtain ⟨s, hs⟩ : ∃ s, s = ((Poly.new verts 0).cacheData t).1 := ⟨_, rfl⟩
  obtain ⟨l, hl⟩ : ∃ l, l = verts.map t.point := ⟨_, rfl⟩
  rw [← hs] at e1 e2 ⊢
  rw [e3]
  rw [← hl] at e1 hfin ⊢
  have h : StrictlyConvex l := by rw [hl]; exact hv.map ht
  obtain ⟨n, hn1, hn2⟩ := C30_signed_poly s (by rw [e2]) l e1 h a hfin
  rw [e2] at hn2
  have hd : s.dst = (edges l).map fun e => ⟨e.2, (e.2.sub e.1).rperp.mult (1 / ((e.2.sub e.1).rperp.length + 1 / 10 ^ 15))⟩ := by
    rw [e1]; exact List.map_congr_left fun e he => (edgePlane_mult h he).1
  have key : ¬ Thick (HullOf l) 0 a → _ := fun ho => poly_query h s (fun e => 1 / ((e.2.sub e.1).rperp.length + 1 / 10 ^ 15)) hd
    (fun e he => (edgePlane_mult h he).2) hab (r2 := 0) (by rw [e2]; norm_num) (.inl (by rw [e2]; norm_num)) (by rw [e2, add_zero]; exact ho)
  have tt : ∀ S : Pts, Thick (Thick S 0) 0 = Thick S 0 := fun S => by rw [thick_thick S le_rfl le_rfl, add_zero]
  have cc : contacts (Thick (HullOf l) 0) a b 0 = contacts (HullOf l) a b 0 := by
    simp only [contacts]; rw [tt]
  refine ⟨n, hn1, ?_, ?_⟩
  · refine shapeSegmentQuery_of le_rfl n hn2 _ _ ?_ ?_
    · intro h0 i hi ha
      exact ⟨⟨fun _ => ⟨0, h0⟩, fun _ => hi⟩, fun _ => by rw [ha]; exact ⟨h0, fun t ht => ht.1⟩, fun h => by rw [hi] at h; cases h⟩
    · intro ho
      rw [tt] at ho
      obtain ⟨k1, k2⟩ := key ho
      rw [e2, add_zero] at k1 k2
      refine ⟨⟨fun hh => ?_, fun hne => ?_⟩, fun hh => ?_, fun hh => ?_⟩
      · rw [cc]; exact ⟨_, (k1 hh).1.1⟩
      · rw [cc] at hne
        by_contra hh
        rw [Bool.not_eq_true] at hh
        rw [(k2 hh).2.2 rfl] at hne
        exact Set.not_nonempty_empty hne
      · rw [cc]; exact (k1 hh).1
      · rw [(k2 hh).1]; exact ⟨rfl, rfl⟩
  · intro hpos hh
    have ho : ¬ Thick (HullOf l) 0 a := by
      intro ho
      rw [← tt] at ho
      exact not_lt.2 ((hn2.le_iff le_rfl).2 ho) hpos
    obtain ⟨k1, -⟩ := key ho
    exact (k1 hh).2 rfl

/-- The planes of a polygon with normals of length exactly 1 (`Normalize` makes them shorter by a factor of at most
`1 + 1e-15 / length`, which moves the rounded edges out by as much). -/
noncomputable def unitPlane (e : Vec ℝ × Vec ℝ) : Plane ℝ := ⟨e.2, (e.2.sub e.1).rperp.mult (1 / e.2.distance e.1)⟩

/-- **C45** for rounded polygons or rays with a radius, with normals of length 1: the first contact, which may be overlooked
only if it is at the very end of the ray. -/
theorem C45_poly_round (s : Poly ℝ) (hr : 0 ≤ s.r) (verts : List (Vec ℝ)) (hv : StrictlyConvex verts) (hs : s.dst = (edges verts).map unitPlane)
    (a b : Vec ℝ) (hab : a ≠ b) (radius : ℝ) (hrad : 0 ≤ radius) (n : PointInfo ℝ)
    (hn : SignedDistance (Thick (Hull fun p => p ∈ verts) s.r) a n.distance) :
    FirstContactBeforeEnd (Thick (Hull fun p => p ∈ verts) s.r) a b radius (shapeSegmentQuery n (s.segmentQuery a b radius) a b radius) := by
  have hL : ∀ e ∈ edges verts, 0 < e.2.distance e.1 := fun e he =>
    lt_of_le_of_ne (Vec.distance_nonneg _ _) fun q => hv.edge_ne he (Vec.distance_eq_zero.1 q.symm).symm
  have cc : contacts (Thick (HullOf verts) s.r) a b radius = contacts (HullOf verts) a b (s.r + radius) := by
    simp only [contacts]; rw [thick_thick _ hr hrad]
  refine shapeSegmentQuery_of hrad n hn _ _ ?_ ?_
  · intro h0 i hi ha
    exact ⟨fun _ => by rw [ha]; exact ⟨h0, fun t ht => ht.1⟩, fun h => by rw [hi] at h; cases h⟩
  · intro ho
    rw [thick_thick _ hr hrad] at ho
    obtain ⟨k1, k2⟩ := poly_query hv s (fun e => 1 / e.2.distance e.1) hs (fun e he => one_div_pos.2 (hL e he)) hab (r2 := radius)
      (by linarith) (.inr fun e he => by rw [one_div, inv_mul_cancel₀ (hL e he).ne']) ho
    refine ⟨fun hh => ?_, fun hh => ?_⟩
    · rw [cc]; exact (k1 hh).1
    · rw [cc]; obtain ⟨k3, k4, -⟩ := k2 hh
      refine ⟨?_, ?_, k4⟩ <;> rw [k3] <;> rfl

/-- The square of the examples. -/
def sq2 : List (Vec ℝ) := [⟨1, -1⟩, ⟨1, 1⟩, ⟨-1, 1⟩, ⟨-1, -1⟩]

theorem sq2_convex : StrictlyConvex sq2 := by
  refine ⟨by simp [sq2], by simp [sq2, Vec.mk.injEq]; norm_num, ?_⟩
  intro e he v hv
  simp only [sq2, edges, pairsFrom, List.getLast?, List.getLast, List.mem_cons, List.not_mem_nil, or_false] at he hv
  rcases he with rfl | rfl | rfl | rfl <;> rcases hv with rfl | rfl | rfl | rfl <;> simp [turn] <;> norm_num

theorem small (x : ℝ) (h : |x| ≤ 4) : |x| ≤ 2 ^ 500 :=
  h.trans (calc (4 : ℝ) = 2 ^ 2 := by norm_num
    _ ≤ 2 ^ 500 := pow_le_pow_right₀ (by norm_num) (by norm_num))

/-- The hypotheses of `C45_poly` are met by a square on a body at the origin and a ray from (-3, 0) to (3, 0). -/
example : StrictlyConvex sq2 ∧ Transform.identity.IsRigid ∧ (⟨-3, 0⟩ : Vec ℝ) ≠ ⟨3, 0⟩ ∧
    ∃ v ∈ sq2.map Transform.identity.point, (⟨-3, 0⟩ : Vec ℝ).distance v < maxFloat := by
  refine ⟨sq2_convex, by simp [Transform.IsRigid, Transform.identity], by norm_num [Vec.mk.injEq], ⟨⟨1, -1⟩, ?_, lt_maxFloat_of ?_ ?_⟩⟩
  · simp [sq2, Transform.identity, Transform.point]
  · constructor <;> refine small _ ?_ <;> norm_num [abs_le]
  · constructor <;> refine small _ ?_ <;> norm_num [abs_le]

/-- The hypotheses of `C45_poly_round` are met by the square with radius 1 and its unit normals, and by what the point query of
the shape made by `NewPolyShapeRaw` answers. -/
example : ∃ (s : Poly ℝ) (n : PointInfo ℝ), s.r = 1 ∧ s.dst = (edges sq2).map unitPlane ∧
    SignedDistance (Thick (Hull fun p => p ∈ sq2) s.r) ⟨-3, 0⟩ n.distance := by
  obtain ⟨n, -, hn⟩ := C30_signed_poly ⟨1, (edges sq2).map edgePlane, []⟩ zero_le_one sq2 rfl sq2_convex ⟨-3, 0⟩
    ⟨⟨1, -1⟩, by simp [sq2], lt_maxFloat_of (by constructor <;> refine small _ ?_ <;> norm_num [abs_le]) (by constructor <;> refine small _ ?_ <;> norm_num [abs_le])⟩
  exact ⟨⟨1, (edges sq2).map unitPlane, []⟩, n, rfl, rfl, hn⟩

end CP
