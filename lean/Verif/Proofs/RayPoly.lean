import Verif.Props.Rays
import Verif.Props.Queries
import Verif.Props.MassIntegral

/-! # Segment queries against polygons (for C45) -/

namespace CP
open GoFloat Set

/-- The hull of a list of vertices. -/
abbrev HullOf (l : List (Vec ℝ)) : Pts := Hull fun p => p ∈ l

theorem along_zero (a b : Vec ℝ) : along a b 0 = a := by ext <;> simp [along]

theorem turn_along (p q a b : Vec ℝ) (t : ℝ) : turn p q (along a b t) = (1 - t) * turn p q a + t * turn p q b := by
  simp only [turn, along]; ring

theorem thick_closed (l : List (Vec ℝ)) {ρ : ℝ} (hρ : 0 ≤ ρ) : IsClosed (Thick (HullOf l) ρ).region := by
  rw [thick_region _ hρ, hull_list]
  exact (((Int.cloud_finite _ _).isCompact_convexHull ℝ).add (Int.disc_compact hρ)).isClosed

theorem contacts_compact (l : List (Vec ℝ)) {ρ : ℝ} (hρ : 0 ≤ ρ) (a b : Vec ℝ) : IsCompact (contacts (HullOf l) a b ρ) := by
  have e : contacts (HullOf l) a b ρ = Icc 0 1 ∩ (fun t : ℝ => ((a.x + t * (b.x - a.x), a.y + t * (b.y - a.y)) : ℝ × ℝ)) ⁻¹' (Thick (HullOf l) ρ).region := by
    ext t
    exact ⟨fun h => ⟨⟨h.1, h.2.1⟩, h.2.2⟩, fun h => ⟨h.1.1, h.1.2, h.2⟩⟩
  rw [e]
  exact isCompact_Icc.inter_right ((thick_closed l hρ).preimage (by fun_prop))

theorem contacts_least {l : List (Vec ℝ)} {ρ : ℝ} (hρ : 0 ≤ ρ) {a b : Vec ℝ} (h : (contacts (HullOf l) a b ρ).Nonempty) :
    ∃ t, IsLeast (contacts (HullOf l) a b ρ) t := (contacts_compact l hρ a b).exists_isLeast h

/-- The hull is on the left of every edge. -/
theorem edge_sep {l : List (Vec ℝ)} (h : StrictlyConvex l) {e : Vec ℝ × Vec ℝ} (he : e ∈ edges l) (p : Vec ℝ) {x : Vec ℝ}
    (hx : HullOf l x) : - turn e.1 e.2 p ≤ e.2.distance e.1 * p.distance x := by
  have h0 := (h.hull_iff x).1 hx e he
  have h1 : turn e.1 e.2 p - turn e.1 e.2 x = (e.2.x - e.1.x) * (p.y - x.y) - (e.2.y - e.1.y) * (p.x - x.x) := by
    simp only [turn]; ring
  have h2 : -((e.2.x - e.1.x) * (p.y - x.y) - (e.2.y - e.1.y) * (p.x - x.x)) ≤ e.2.distance e.1 * p.distance x := by
    refine le_of_sq_le_sq' ?_ (mul_nonneg (Vec.distance_nonneg _ _) (Vec.distance_nonneg _ _))
    rw [mul_pow, Vec.distance_sq, Vec.distance_sq]
    nlinarith [sq_nonneg ((e.2.x - e.1.x) * (p.x - x.x) + (e.2.y - e.1.y) * (p.y - x.y))]
  linarith
where
  le_of_sq_le_sq' {x y : ℝ} (h : x ^ 2 ≤ y ^ 2) (hy : 0 ≤ y) : x ≤ y := (le_abs_self x).trans (abs_le_of_sq_le_sq h hy)

/-- What the loop of `SegmentQuery` over the edges records for the edge `e` with the normal `n`. -/
structure Rec (a b : Vec ℝ) (ρ : ℝ) (e : Vec ℝ × Vec ℝ) (n : Vec ℝ) (t : ℝ) : Prop where
  front : 0 ≤ a.dot n - e.2.dot n - ρ
  cross : a.dot n ≠ b.dot n
  eq : t = (a.dot n - e.2.dot n - ρ) / (a.dot n - b.dot n)
  t0 : 0 ≤ t
  t1 : t ≤ 1
  lo : n.cross e.1 ≤ n.cross (along a b t)
  hi : n.cross (along a b t) ≤ n.cross e.2

theorem sqEdges_spec (a b : Vec ℝ) (r2 ρ : ℝ) (N : Vec ℝ × Vec ℝ → Vec ℝ) : ∀ (l : List (Vec ℝ)) (prev : Vec ℝ) (info : SegHit ℝ),
    let i := Poly.sqEdges a b r2 ρ prev info ((pairsFrom prev l).map fun e => ⟨e.2, N e⟩)
    (i = info ∧ ∀ e ∈ pairsFrom prev l, ∀ t, ¬ Rec a b ρ e (N e) t) ∨
    (∃ e ∈ pairsFrom prev l, ∃ t, Rec a b ρ e (N e) t ∧ i = ⟨true, (along a b t).sub ((N e).mult r2), N e, t⟩)
  | [], prev, info => .inl ⟨rfl, fun e he => by cases he⟩
  | v :: rest, prev, info => by
    simp only [pairsFrom, List.map_cons, Poly.sqEdges]
    obtain ⟨info', hinfo'⟩ : ∃ info', info' = (if a.dot (N (prev, v)) - v.dot (N (prev, v)) - ρ < 0 then info
      else if a.dot (N (prev, v)) = b.dot (N (prev, v)) then info
      else if (a.dot (N (prev, v)) - v.dot (N (prev, v)) - ρ) / (a.dot (N (prev, v)) - b.dot (N (prev, v))) < 0 ∨
          1 < (a.dot (N (prev, v)) - v.dot (N (prev, v)) - ρ) / (a.dot (N (prev, v)) - b.dot (N (prev, v))) then info
      else if (N (prev, v)).cross prev ≤ (N (prev, v)).cross (a.lerp b ((a.dot (N (prev, v)) - v.dot (N (prev, v)) - ρ) / (a.dot (N (prev, v)) - b.dot (N (prev, v))))) ∧
          (N (prev, v)).cross (a.lerp b ((a.dot (N (prev, v)) - v.dot (N (prev, v)) - ρ) / (a.dot (N (prev, v)) - b.dot (N (prev, v))))) ≤ (N (prev, v)).cross v then
        (⟨true, (a.lerp b ((a.dot (N (prev, v)) - v.dot (N (prev, v)) - ρ) / (a.dot (N (prev, v)) - b.dot (N (prev, v))))).sub ((N (prev, v)).mult r2), N (prev, v),
          (a.dot (N (prev, v)) - v.dot (N (prev, v)) - ρ) / (a.dot (N (prev, v)) - b.dot (N (prev, v)))⟩ : SegHit ℝ)
      else info) := ⟨_, rfl⟩
    rw [← hinfo']
    have key : (info' = info ∧ ∀ t, ¬ Rec a b ρ (prev, v) (N (prev, v)) t) ∨
        ∃ t, Rec a b ρ (prev, v) (N (prev, v)) t ∧ info' = ⟨true, (along a b t).sub ((N (prev, v)).mult r2), N (prev, v), t⟩ := by
      rw [hinfo']
      by_cases h1 : a.dot (N (prev, v)) - v.dot (N (prev, v)) - ρ < 0
      · rw [if_pos h1]; exact .inl ⟨rfl, fun t ht => not_le.2 h1 ht.front⟩
      rw [if_neg h1]
      by_cases h2 : a.dot (N (prev, v)) = b.dot (N (prev, v))
      · rw [if_pos h2]; exact .inl ⟨rfl, fun t ht => ht.cross h2⟩
      rw [if_neg h2]
      obtain ⟨t, ht⟩ : ∃ t, t = (a.dot (N (prev, v)) - v.dot (N (prev, v)) - ρ) / (a.dot (N (prev, v)) - b.dot (N (prev, v))) := ⟨_, rfl⟩
      rw [← ht, lerp_along]
      by_cases h3 : t < 0 ∨ 1 < t
      · rw [if_pos h3]
        refine .inl ⟨rfl, fun t' ht' => ?_⟩
        have : t' = t := by rw [ht, ht'.eq]
        subst this
        rcases h3 with h | h
        · linarith [ht'.t0]
        · linarith [ht'.t1]
      rw [if_neg h3]
      push Not at h3
      by_cases h4 : (N (prev, v)).cross prev ≤ (N (prev, v)).cross (along a b t) ∧ (N (prev, v)).cross (along a b t) ≤ (N (prev, v)).cross v
      · rw [if_pos h4]
        exact .inr ⟨t, ⟨not_lt.1 h1, h2, ht, h3.1, h3.2, h4.1, h4.2⟩, rfl⟩
      · rw [if_neg h4]
        refine .inl ⟨rfl, fun t' ht' => ?_⟩
        have : t' = t := by rw [ht, ht'.eq]
        subst this
        exact h4 ⟨ht'.lo, ht'.hi⟩
    rcases sqEdges_spec a b r2 ρ N rest v info' with ⟨h1, h2⟩ | ⟨e, he, t, h1, h2⟩
    · rw [h1]
      rcases key with ⟨k1, k2⟩ | ⟨t, k1, k2⟩
      · left
        refine ⟨k1, fun e he => ?_⟩
        rcases List.mem_cons.1 he with rfl | he
        · exact k2
        · exact h2 e he
      · right
        exact ⟨(prev, v), List.mem_cons_self, t, k1, k2⟩
    · right
      exact ⟨e, List.mem_cons_of_mem _ he, t, h1, h2⟩

section
variable {l : List (Vec ℝ)} (h : StrictlyConvex l) {a b : Vec ℝ} {ρ : ℝ} (hρ : 0 ≤ ρ) (hout : ¬ Thick (HullOf l) ρ a)
include h hρ hout

/-- Everything recorded is the first contact. -/
theorem rec_least {e : Vec ℝ × Vec ℝ} (he : e ∈ edges l) {k : ℝ} (hk : 0 < k) (hu : ρ = 0 ∨ k * e.2.distance e.1 = 1) {t : ℝ}
    (hr : Rec a b ρ e ((e.2.sub e.1).rperp.mult k) t) : IsLeast (contacts (HullOf l) a b ρ) t := by
  obtain ⟨n, hn⟩ : ∃ n, n = (e.2.sub e.1).rperp.mult k := ⟨_, rfl⟩
  rw [← hn] at hr
  have hne := h.edge_ne he
  have hL0 : 0 < e.2.distance e.1 := lt_of_le_of_ne (Vec.distance_nonneg _ _) fun q => hne (Vec.distance_eq_zero.1 q.symm).symm
  have hL2 := Vec.distance_sq e.2 e.1
  obtain ⟨L, hL⟩ : ∃ L, L = e.2.distance e.1 := ⟨_, rfl⟩
  rw [← hL] at hL0 hL2 hu
  have hdot : ∀ p : Vec ℝ, p.dot n - e.2.dot n = -(k * turn e.1 e.2 p) := by
    intro p; rw [hn]; simp only [Vec.dot, Vec.mult, Vec.rperp, Vec.sub, turn]; ring
  have hcr : ∀ p : Vec ℝ, n.cross p = k * ((e.2.x - e.1.x) * p.x + (e.2.y - e.1.y) * p.y) := by
    intro p; rw [hn]; simp only [Vec.cross, Vec.mult, Vec.rperp, Vec.sub]; ring
  have hab' : a.dot n - b.dot n = k * (turn e.1 e.2 b - turn e.1 e.2 a) := by linarith [hdot a, hdot b]
  have hd : t * (k * (turn e.1 e.2 b - turn e.1 e.2 a)) = -(k * turn e.1 e.2 a) - ρ := by
    have : a.dot n - b.dot n ≠ 0 := sub_ne_zero.2 hr.cross
    have h1 := hr.eq
    rw [eq_div_iff this, hab', hdot] at h1
    exact h1
  -- the point on the moved edge
  have hT : -(k * turn e.1 e.2 (along a b t)) = ρ := by rw [turn_along]; linear_combination -hd
  have lo : (e.2.x - e.1.x) * e.1.x + (e.2.y - e.1.y) * e.1.y ≤ (e.2.x - e.1.x) * (along a b t).x + (e.2.y - e.1.y) * (along a b t).y := by
    have := hr.lo; rw [hcr, hcr] at this; exact le_of_mul_le_mul_left this hk
  have hi : (e.2.x - e.1.x) * (along a b t).x + (e.2.y - e.1.y) * (along a b t).y ≤ (e.2.x - e.1.x) * e.2.x + (e.2.y - e.1.y) * e.2.y := by
    have := hr.hi; rw [hcr, hcr] at this; exact le_of_mul_le_mul_left this hk
  have htouch : Thick (HullOf l) ρ (along a b t) := by
    obtain ⟨p, hp⟩ : ∃ p, p = along a b t := ⟨_, rfl⟩
    rw [← hp] at hT lo hi ⊢
    obtain ⟨s, hs⟩ : ∃ s, s = ((e.2.x - e.1.x) * (p.x - e.1.x) + (e.2.y - e.1.y) * (p.y - e.1.y)) / L ^ 2 := ⟨_, rfl⟩
    have s0 : 0 ≤ s := by rw [hs]; exact div_nonneg (by linarith) (by positivity)
    have s1 : s ≤ 1 := by rw [hs, div_le_one (by positivity), hL2]; nlinarith
    have hsL : s * L ^ 2 = (e.2.x - e.1.x) * (p.x - e.1.x) + (e.2.y - e.1.y) * (p.y - e.1.y) := by
      rw [hs, div_mul_cancel₀ _ (by positivity)]
    refine ⟨⟨e.1.x + s * (e.2.x - e.1.x), e.1.y + s * (e.2.y - e.1.y)⟩,
      .mix (.pt (edges_fst_mem he)) (.pt (edges_snd_mem he)) ⟨s, s0, s1, rfl⟩, ?_⟩
    rw [Vec.distance_le_iff hρ]
    simp only
    have hq : ((p.x - (e.1.x + s * (e.2.x - e.1.x))) ^ 2 + (p.y - (e.1.y + s * (e.2.y - e.1.y))) ^ 2) * L ^ 2 = turn e.1 e.2 p ^ 2 := by
      simp only [turn]
      have e1 : ((p.x - (e.1.x + s * (e.2.x - e.1.x))) ^ 2 + (p.y - (e.1.y + s * (e.2.y - e.1.y))) ^ 2) =
        (p.x - e.1.x) ^ 2 + (p.y - e.1.y) ^ 2 - 2 * s * (s * L ^ 2) + s ^ 2 * L ^ 2 := by rw [hsL, hL2]; linear_combination s ^ 2 * hL2 - s ^ 2 * hL2
      have e2 : ((p.x - e.1.x) ^ 2 + (p.y - e.1.y) ^ 2 - 2 * s * (s * L ^ 2) + s ^ 2 * L ^ 2) * L ^ 2 =
        ((p.x - e.1.x) ^ 2 + (p.y - e.1.y) ^ 2) * L ^ 2 - (s * L ^ 2) ^ 2 := by ring
      rw [e1, e2, hsL, hL2]; ring
    rcases hu with h0 | h1
    · have hz : turn e.1 e.2 p = 0 := by
        rw [h0] at hT
        have : k * turn e.1 e.2 p = 0 := by linarith
        exact (mul_eq_zero.1 this).resolve_left hk.ne'
      rw [hz] at hq
      have hq' : (p.x - (e.1.x + s * (e.2.x - e.1.x))) ^ 2 + (p.y - (e.1.y + s * (e.2.y - e.1.y))) ^ 2 = 0 := by
        have : L ^ 2 ≠ 0 := by positivity
        have h2 : ((p.x - (e.1.x + s * (e.2.x - e.1.x))) ^ 2 + (p.y - (e.1.y + s * (e.2.y - e.1.y))) ^ 2) * L ^ 2 = 0 := by rw [hq]; ring
        exact (mul_eq_zero.1 h2).resolve_right this
      rw [hq']; positivity
    · have hz : turn e.1 e.2 p = -(ρ * L) := by
        have : k * (turn e.1 e.2 p + ρ * L) = 0 := by linear_combination ρ * h1 - hT
        have := (mul_eq_zero.1 this).resolve_left hk.ne'
        linarith
      rw [hz] at hq
      have : ((p.x - (e.1.x + s * (e.2.x - e.1.x))) ^ 2 + (p.y - (e.1.y + s * (e.2.y - e.1.y))) ^ 2) = ρ ^ 2 := by
        have h2 : ((p.x - (e.1.x + s * (e.2.x - e.1.x))) ^ 2 + (p.y - (e.1.y + s * (e.2.y - e.1.y))) ^ 2 - ρ ^ 2) * L ^ 2 = 0 := by
          linear_combination hq
        have := (mul_eq_zero.1 h2).resolve_right (by positivity)
        linarith
      exact this.le
  refine ⟨⟨hr.t0, hr.t1, htouch⟩, ?_⟩
  rintro t' ⟨ht0, ht1, x, hx, hd'⟩
  by_contra hlt
  push Not at hlt
  have hsep := edge_sep h he (along a b t') hx
  rw [← hL] at hsep
  -- the ray comes from in front of the moved edge
  have hpos : 0 < k * (turn e.1 e.2 b - turn e.1 e.2 a) := by
    have hne0 : k * (turn e.1 e.2 b - turn e.1 e.2 a) ≠ 0 := by rw [← hab']; exact sub_ne_zero.2 hr.cross
    by_contra hn
    have hneg : k * (turn e.1 e.2 b - turn e.1 e.2 a) < 0 := lt_of_le_of_ne (not_lt.1 hn) hne0
    have hf := hr.front
    rw [hdot] at hf
    have : t = 0 := by
      by_contra ht
      have := lt_of_le_of_ne hr.t0 (Ne.symm ht)
      nlinarith
    subst this
    exact hout (by rw [along_zero] at htouch; exact htouch)
  have hTt : -(k * turn e.1 e.2 (along a b t')) = ρ + (t - t') * (k * (turn e.1 e.2 b - turn e.1 e.2 a)) := by
    rw [turn_along] at hT ⊢
    linear_combination hT
  have hgt : ρ < -(k * turn e.1 e.2 (along a b t')) := by
    rw [hTt]; have := mul_pos (sub_pos.2 hlt) hpos; linarith
  have hle : -(k * turn e.1 e.2 (along a b t')) ≤ k * L * ρ := by
    have h1 : L * (along a b t').distance x ≤ L * ρ := mul_le_mul_of_nonneg_left hd' hL0.le
    have := mul_le_mul_of_nonneg_left (hsep.trans h1) hk.le
    linarith
  rcases hu with h0 | h1
  · rw [h0] at hle hgt; linarith
  · rw [h1, one_mul] at hle; linarith

omit h hout in
/-- At the first contact no point of the hull is nearer than the radius. -/
theorem first_tight {t0 : ℝ} (ht : IsLeast (contacts (HullOf l) a b ρ) t0) (hpos : 0 < t0) {x : Vec ℝ} (hx : HullOf l x) :
    ρ ≤ (along a b t0).distance x := by
  by_contra hlt
  push Not at hlt
  obtain ⟨D, hD⟩ : ∃ D, D = a.distance b := ⟨_, rfl⟩
  have hD0 : 0 ≤ D := by rw [hD]; exact Vec.distance_nonneg _ _
  obtain ⟨ε, hε⟩ : ∃ ε, ε = min t0 ((ρ - (along a b t0).distance x) / (D + 1)) := ⟨_, rfl⟩
  have hq : 0 < (ρ - (along a b t0).distance x) / (D + 1) := div_pos (by linarith) (by linarith)
  have ε0 : 0 < ε := by rw [hε]; exact lt_min hpos hq
  have ε1 : ε ≤ t0 := by rw [hε]; exact min_le_left _ _
  have ε2 : ε * D ≤ ρ - (along a b t0).distance x := by
    have h1 : ε ≤ (ρ - (along a b t0).distance x) / (D + 1) := by rw [hε]; exact min_le_right _ _
    rw [le_div_iff₀ (by linarith)] at h1
    nlinarith
  have hdist : (along a b (t0 - ε)).distance (along a b t0) ≤ ε * D := by
    rw [Vec.distance_le_iff (by positivity)]
    have h2 : D ^ 2 = (a.x - b.x) ^ 2 + (a.y - b.y) ^ 2 := by rw [hD, Vec.distance_sq]
    rw [mul_pow, h2]
    simp only [along]
    nlinarith
  have hc : t0 - ε ∈ contacts (HullOf l) a b ρ := by
    refine ⟨by linarith, by linarith [ht.1.2.1], x, hx, ?_⟩
    have := Vec.distance_triangle (along a b (t0 - ε)) (along a b t0) x
    linarith
  have := ht.2 hc
  linarith

omit h hρ in
theorem first_pos {t0 : ℝ} (ht : IsLeast (contacts (HullOf l) a b ρ) t0) : 0 < t0 := by
  refine lt_of_le_of_ne ht.1.1 fun e => hout ?_
  have := ht.1.2.2
  rw [← e, along_zero] at this
  exact this

/-- The first contact of a sharp polygon is recorded by one of the edges. -/
theorem least_rec_sharp (h0 : ρ = 0) {t0 : ℝ} (ht : IsLeast (contacts (HullOf l) a b ρ) t0) :
    ∃ e ∈ edges l, ∀ k > 0, Rec a b ρ e ((e.2.sub e.1).rperp.mult k) t0 := by
  have hpos := first_pos hout ht
  obtain ⟨x, hx, hdx⟩ := ht.1.2.2
  have hxe : along a b t0 = x := by
    rw [h0] at hdx
    exact Vec.distance_eq_zero.1 (le_antisymm hdx (Vec.distance_nonneg _ _))
  subst hxe
  have haout : ∃ e ∈ edges l, turn e.1 e.2 a < 0 := by
    by_contra hno
    push Not at hno
    exact hout ⟨a, (h.hull_iff a).2 hno, by rw [Vec.distance_self]; exact hρ⟩
  obtain ⟨z, hz, hzl, e, he, hez, hea⟩ := exit_point' (edges l) ((h.hull_iff _).1 hx) haout
  have hzx : z = along a b t0 := by
    obtain ⟨s, s0, s1, rfl⟩ := hz
    have hzz : (⟨(along a b t0).x + s * (a.x - (along a b t0).x), (along a b t0).y + s * (a.y - (along a b t0).y)⟩ : Vec ℝ) = along a b (t0 - s * t0) := by
      ext <;> simp only [along] <;> ring
    have hc : t0 - s * t0 ∈ contacts (HullOf l) a b ρ := by
      refine ⟨by nlinarith, by nlinarith [ht.1.2.1], along a b (t0 - s * t0), ?_, by rw [Vec.distance_self]; exact hρ⟩
      rw [← hzz]; exact (h.hull_iff _).2 hzl
    have := ht.2 hc
    have hs : s = 0 := by
      by_contra hn
      have := lt_of_le_of_ne s0 (Ne.symm hn)
      nlinarith
    rw [hs]; ext <;> simp
  rw [hzx] at hez hzl
  obtain ⟨s, s0, s1, hs⟩ := h.on_edge he hzl hez
  refine ⟨e, he, fun k hk => ?_⟩
  obtain ⟨n, hn⟩ : ∃ n, n = (e.2.sub e.1).rperp.mult k := ⟨_, rfl⟩
  rw [← hn]
  have hdot : ∀ p : Vec ℝ, p.dot n - e.2.dot n = -(k * turn e.1 e.2 p) := by
    intro p; rw [hn]; simp only [Vec.dot, Vec.mult, Vec.rperp, Vec.sub, turn]; ring
  have hcr : ∀ p : Vec ℝ, n.cross p = k * ((e.2.x - e.1.x) * p.x + (e.2.y - e.1.y) * p.y) := by
    intro p; rw [hn]; simp only [Vec.cross, Vec.mult, Vec.rperp, Vec.sub]; ring
  have hab' : a.dot n - b.dot n = k * (turn e.1 e.2 b - turn e.1 e.2 a) := by linarith [hdot a, hdot b]
  rw [turn_along] at hez
  have hd : t0 * (k * (turn e.1 e.2 b - turn e.1 e.2 a)) = -(k * turn e.1 e.2 a) := by linear_combination k * hez
  have hfront : 0 < -(k * turn e.1 e.2 a) := by nlinarith
  have hne : a.dot n ≠ b.dot n := by
    intro q
    rw [← hab', q, sub_self, mul_zero] at hd
    linarith
  have hsx : (along a b t0).x = e.1.x + s * (e.2.x - e.1.x) := by rw [hs]
  have hsy : (along a b t0).y = e.1.y + s * (e.2.y - e.1.y) := by rw [hs]
  refine ⟨by rw [hdot, h0]; linarith, hne, ?_, hpos.le, ht.1.2.1, ?_, ?_⟩
  · rw [eq_div_iff (sub_ne_zero.2 hne), hab', hdot, h0, hd]; ring
  · rw [hcr, hcr, hsx, hsy]
    refine mul_le_mul_of_nonneg_left ?_ hk.le
    nlinarith [mul_nonneg s0 (add_nonneg (sq_nonneg (e.2.x - e.1.x)) (sq_nonneg (e.2.y - e.1.y)))]
  · rw [hcr, hcr, hsx, hsy]
    refine mul_le_mul_of_nonneg_left ?_ hk.le
    nlinarith [mul_nonneg (sub_nonneg.2 s1) (add_nonneg (sq_nonneg (e.2.x - e.1.x)) (sq_nonneg (e.2.y - e.1.y)))]

set_option maxHeartbeats 800000 in
/-- The first contact of a rounded polygon is recorded by one of the edges or is a contact of a vertex. -/
theorem least_rec_round (h0 : 0 < ρ) {t0 : ℝ} (ht : IsLeast (contacts (HullOf l) a b ρ) t0) :
    (∃ e ∈ edges l, ∀ k > 0, k * e.2.distance e.1 = 1 → Rec a b ρ e ((e.2.sub e.1).rperp.mult k) t0) ∨
    ∃ v ∈ l, (along a b t0).distance v ≤ ρ := by
  have hpos := first_pos hout ht
  obtain ⟨p, hp⟩ : ∃ p, p = along a b t0 := ⟨_, rfl⟩
  have tight : ∀ x, HullOf l x → ρ ≤ p.distance x := fun x hx => by rw [hp]; exact first_tight hρ ht hpos hx
  obtain ⟨x, hx, hdx⟩ := ht.1.2.2
  rw [← hp] at hdx
  have hpout : ∃ e ∈ edges l, turn e.1 e.2 p < 0 := by
    by_contra hno
    push Not at hno
    have := tight p ((h.hull_iff p).2 hno)
    rw [Vec.distance_self] at this
    linarith
  obtain ⟨z, hz, hzl, e, he, hez, hep⟩ := exit_point' (edges l) ((h.hull_iff _).1 hx) hpout
  have hpz : p.distance z ≤ ρ := by
    have := hz.distance_add
    have h1 := Vec.distance_nonneg x z
    rw [Vec.distance_comm z p, Vec.distance_comm x p] at this
    linarith
  obtain ⟨s, s0, s1, hs⟩ := h.on_edge he hzl hez
  have hne := h.edge_ne he
  have hL0 : 0 < e.2.distance e.1 := lt_of_le_of_ne (Vec.distance_nonneg _ _) fun q => hne (Vec.distance_eq_zero.1 q.symm).symm
  have hL2 := Vec.distance_sq e.2 e.1
  obtain ⟨L, hL⟩ : ∃ L, L = e.2.distance e.1 := ⟨_, rfl⟩
  rw [← hL] at hL0 hL2
  rw [Vec.distance_le_iff hρ, hs] at hpz
  simp only at hpz
  by_cases c1 : (e.2.x - e.1.x) * (p.x - e.1.x) + (e.2.y - e.1.y) * (p.y - e.1.y) ≤ 0
  · right
    refine ⟨e.1, edges_fst_mem he, ?_⟩
    rw [← hp, Vec.distance_le_iff hρ]
    nlinarith [mul_nonneg s0 (neg_nonneg.2 c1), mul_nonneg (mul_nonneg s0 s0) (add_nonneg (sq_nonneg (e.2.x - e.1.x)) (sq_nonneg (e.2.y - e.1.y)))]
  by_cases c2 : 0 ≤ (e.2.x - e.1.x) * (p.x - e.2.x) + (e.2.y - e.1.y) * (p.y - e.2.y)
  · right
    refine ⟨e.2, edges_snd_mem he, ?_⟩
    rw [← hp, Vec.distance_le_iff hρ]
    have s1' := sub_nonneg.2 s1
    nlinarith [mul_nonneg s1' c2, mul_nonneg (mul_nonneg s1' s1') (add_nonneg (sq_nonneg (e.2.x - e.1.x)) (sq_nonneg (e.2.y - e.1.y)))]
  left
  push Not at c1 c2
  -- any point beside the edge
  have beside : ∀ q : Vec ℝ, 0 ≤ (e.2.x - e.1.x) * (q.x - e.1.x) + (e.2.y - e.1.y) * (q.y - e.1.y) →
      (e.2.x - e.1.x) * (q.x - e.2.x) + (e.2.y - e.1.y) * (q.y - e.2.y) ≤ 0 → ∃ y, HullOf l y ∧ q.distance y * L = |turn e.1 e.2 q| := by
    intro q q1 q2
    obtain ⟨σ, hσ⟩ : ∃ σ, σ = ((e.2.x - e.1.x) * (q.x - e.1.x) + (e.2.y - e.1.y) * (q.y - e.1.y)) / L ^ 2 := ⟨_, rfl⟩
    have σ0 : 0 ≤ σ := by rw [hσ]; exact div_nonneg q1 (by positivity)
    have σ1 : σ ≤ 1 := by rw [hσ, div_le_one (by positivity), hL2]; nlinarith
    have hσL : σ * L ^ 2 = (e.2.x - e.1.x) * (q.x - e.1.x) + (e.2.y - e.1.y) * (q.y - e.1.y) := by
      rw [hσ, div_mul_cancel₀ _ (by positivity)]
    refine ⟨⟨e.1.x + σ * (e.2.x - e.1.x), e.1.y + σ * (e.2.y - e.1.y)⟩,
      .mix (.pt (edges_fst_mem he)) (.pt (edges_snd_mem he)) ⟨σ, σ0, σ1, rfl⟩, ?_⟩
    rw [← abs_of_nonneg (mul_nonneg (Vec.distance_nonneg _ _) hL0.le), ← sq_eq_sq_iff_abs_eq_abs, mul_pow, Vec.distance_sq]
    simp only [turn]
    have e1 : ((q.x - (e.1.x + σ * (e.2.x - e.1.x))) ^ 2 + (q.y - (e.1.y + σ * (e.2.y - e.1.y))) ^ 2) =
      (q.x - e.1.x) ^ 2 + (q.y - e.1.y) ^ 2 - 2 * σ * (σ * L ^ 2) + σ ^ 2 * L ^ 2 := by rw [hσL, hL2]; ring
    have e2 : ((q.x - e.1.x) ^ 2 + (q.y - e.1.y) ^ 2 - 2 * σ * (σ * L ^ 2) + σ ^ 2 * L ^ 2) * L ^ 2 =
      ((q.x - e.1.x) ^ 2 + (q.y - e.1.y) ^ 2) * L ^ 2 - (σ * L ^ 2) ^ 2 := by ring
    rw [e1, e2, hσL, hL2]; ring
  have hTp : -turn e.1 e.2 p = ρ * L := by
    obtain ⟨y, hy, hyL⟩ := beside p c1.le c2.le
    have t1 := tight y hy
    rw [abs_of_neg hep] at hyL
    apply le_antisymm
    · have := edge_sep h he p ((h.hull_iff z).2 hzl)
      rw [← hL] at this
      have h2 : p.distance z ≤ ρ := by rw [Vec.distance_le_iff hρ, hs]; exact hpz
      nlinarith
    · nlinarith
  have hTa : ρ * L < -turn e.1 e.2 a := by
    by_contra hn
    push Not at hn
    -- a little earlier the ray is beside the edge and near
    have ev : ∀ᶠ t in nhds t0, 0 ≤ (e.2.x - e.1.x) * ((along a b t).x - e.1.x) + (e.2.y - e.1.y) * ((along a b t).y - e.1.y) ∧
        (e.2.x - e.1.x) * ((along a b t).x - e.2.x) + (e.2.y - e.1.y) * ((along a b t).y - e.2.y) ≤ 0 ∧ turn e.1 e.2 (along a b t) ≤ 0 ∧ 0 < t := by
      have g1 : Continuous fun t : ℝ => (e.2.x - e.1.x) * ((along a b t).x - e.1.x) + (e.2.y - e.1.y) * ((along a b t).y - e.1.y) := by
        simp only [along]; fun_prop
      have g2 : Continuous fun t : ℝ => (e.2.x - e.1.x) * ((along a b t).x - e.2.x) + (e.2.y - e.1.y) * ((along a b t).y - e.2.y) := by
        simp only [along]; fun_prop
      have g3 : Continuous fun t : ℝ => turn e.1 e.2 (along a b t) := by
        simp only [along, turn]; fun_prop
      rw [hp] at c1 c2 hep
      filter_upwards [g1.continuousAt.eventually (lt_mem_nhds c1), g2.continuousAt.eventually (gt_mem_nhds c2),
        g3.continuousAt.eventually (gt_mem_nhds hep), lt_mem_nhds hpos] with t k1 k2 k3 k4
      exact ⟨k1.le, k2.le, k3.le, k4⟩
    obtain ⟨t, ⟨k1, k2, k3, k4⟩, htt⟩ := (Filter.Eventually.and (ev.filter_mono nhdsWithin_le_nhds) (self_mem_nhdsWithin : Iio t0 ∈ nhdsWithin t0 (Iio t0))).exists
    have htt : t < t0 := htt
    obtain ⟨y, hy, hyL⟩ := beside _ k1 k2
    rw [abs_of_nonpos k3] at hyL
    have hTt : -turn e.1 e.2 (along a b t) ≤ ρ * L := by
      rw [hp, turn_along] at hTp
      rw [turn_along]
      have : t0 * (-((1 - t) * turn e.1 e.2 a + t * turn e.1 e.2 b)) = (t0 - t) * (-turn e.1 e.2 a) + t * (ρ * L) := by
        linear_combination t * hTp
      have h3 : (t0 - t) * (-turn e.1 e.2 a) + t * (ρ * L) ≤ t0 * (ρ * L) := by nlinarith
      rw [← this] at h3
      exact le_of_mul_le_mul_left h3 hpos
    have hc : t ∈ contacts (HullOf l) a b ρ := by
      refine ⟨k4.le, by linarith [ht.1.2.1], y, hy, ?_⟩
      rw [← hyL] at hTt
      exact le_of_mul_le_mul_right hTt hL0
    have := ht.2 hc
    linarith
  refine ⟨e, he, fun k hk hkL => ?_⟩
  rw [← hL] at hkL
  obtain ⟨n, hn⟩ : ∃ n, n = (e.2.sub e.1).rperp.mult k := ⟨_, rfl⟩
  rw [← hn]
  have hdot : ∀ p : Vec ℝ, p.dot n - e.2.dot n = -(k * turn e.1 e.2 p) := by
    intro p; rw [hn]; simp only [Vec.dot, Vec.mult, Vec.rperp, Vec.sub, turn]; ring
  have hcr : ∀ p : Vec ℝ, n.cross p = k * ((e.2.x - e.1.x) * p.x + (e.2.y - e.1.y) * p.y) := by
    intro p; rw [hn]; simp only [Vec.cross, Vec.mult, Vec.rperp, Vec.sub]; ring
  have hab' : a.dot n - b.dot n = k * (turn e.1 e.2 b - turn e.1 e.2 a) := by linarith [hdot a, hdot b]
  have hfront : 0 < -(k * turn e.1 e.2 a) - ρ := by
    have h1 : k * (ρ * L) < k * (-turn e.1 e.2 a) := mul_lt_mul_of_pos_left hTa hk
    have h2 : k * (ρ * L) = ρ := by linear_combination ρ * hkL
    linarith
  have hd : t0 * (k * (turn e.1 e.2 b - turn e.1 e.2 a)) = -(k * turn e.1 e.2 a) - ρ := by
    rw [hp, turn_along] at hTp
    linear_combination -k * hTp - ρ * hkL
  have hne' : a.dot n ≠ b.dot n := by
    intro q
    rw [← hab', q, sub_self, mul_zero] at hd
    linarith
  refine ⟨by rw [hdot]; exact hfront.le, hne', ?_, hpos.le, ht.1.2.1, ?_, ?_⟩
  · rw [eq_div_iff (sub_ne_zero.2 hne'), hab', hdot, hd]
  · rw [← hp, hcr, hcr]; refine mul_le_mul_of_nonneg_left ?_ hk.le; linarith
  · rw [← hp, hcr, hcr]; refine mul_le_mul_of_nonneg_left ?_ hk.le; linarith

end

end CP
