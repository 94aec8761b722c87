import Verif.Spec.Polygon
import Verif.Proofs.Plane

/-! # Strictly convex polygons -/

namespace CP

section edges
variable {A : Type}

theorem map_snd_pairsFrom (p : A) (l : List A) : (pairsFrom p l).map Prod.snd = l := by
  induction l generalizing p with
  | nil => rfl
  | cons a l ih => simp [pairsFrom, ih]

theorem map_fst_pairsFrom (p : A) (l : List A) : (pairsFrom p l).map Prod.fst = (p :: l).dropLast := by
  induction l generalizing p with
  | nil => rfl
  | cons a l ih => simp [pairsFrom, ih]

theorem map_snd_edges (l : List A) : (edges l).map Prod.snd = l := by
  unfold edges
  cases h : l.getLast? with
  | none => rw [List.getLast?_eq_none_iff] at h; simp [h]
  | some p => exact map_snd_pairsFrom p l

theorem edges_snd_mem {l : List A} {e : A × A} (h : e ∈ edges l) : e.2 ∈ l := by
  rw [← map_snd_edges l]; exact List.mem_map_of_mem h

theorem map_fst_edges_perm (l : List A) : ((edges l).map Prod.fst).Perm l := by
  unfold edges
  cases h : l.getLast? with
  | none => rw [List.getLast?_eq_none_iff] at h; simp [h]
  | some p =>
    show ((pairsFrom p l).map Prod.fst).Perm l
    rw [map_fst_pairsFrom]
    obtain ⟨l', rfl⟩ := List.getLast?_eq_some_iff.1 h
    rw [← List.cons_append, List.dropLast_concat]
    exact (List.perm_append_comm (l₁ := l') (l₂ := [p])).symm

theorem edges_fst_mem {l : List A} {e : A × A} (h : e ∈ edges l) : e.1 ∈ l :=
  (map_fst_edges_perm l).subset (List.mem_map_of_mem h)

/-- Every vertex has an edge that ends there and one that starts there. -/
theorem exists_edge_to {l : List A} {v : A} (h : v ∈ l) : ∃ u, (u, v) ∈ edges l := by
  rw [← map_snd_edges l] at h
  obtain ⟨⟨u, w⟩, he, rfl⟩ := List.mem_map.1 h
  exact ⟨u, he⟩
theorem exists_edge_from {l : List A} {v : A} (h : v ∈ l) : ∃ w, (v, w) ∈ edges l := by
  have := (map_fst_edges_perm l).symm.subset h
  obtain ⟨⟨u, w⟩, he, rfl⟩ := List.mem_map.1 this
  exact ⟨w, he⟩

/-- Telescoping around the polygon. -/
theorem edges_sum (l : List A) (f : A → ℝ) : ((edges l).map fun e => f e.2 - f e.1).sum = 0 := by
  have hsplit : ∀ L : List (A × A), (L.map fun e => f e.2 - f e.1).sum = (L.map fun e => f e.2).sum - (L.map fun e => f e.1).sum := by
    intro L
    induction L with
    | nil => simp
    | cons a L ih => simp only [List.map_cons, List.sum_cons, ih]; ring
  rw [hsplit]
  have h1 : ((edges l).map fun e => f e.2).sum = (l.map f).sum := by
    have : ((edges l).map fun e => f e.2) = ((edges l).map Prod.snd).map f := by rw [List.map_map]; rfl
    rw [this, map_snd_edges]
  have h2 : ((edges l).map fun e => f e.1).sum = (l.map f).sum := by
    have : ((edges l).map fun e => f e.1) = ((edges l).map Prod.fst).map f := by rw [List.map_map]; rfl
    rw [this]
    exact ((map_fst_edges_perm l).map f).sum_eq
  rw [h1, h2, sub_self]

theorem edges_map {B : Type} (f : A → B) (l : List A) : edges (l.map f) = (edges l).map fun e => (f e.1, f e.2) := by
  have hp : ∀ (p : A) (l : List A), pairsFrom (f p) (l.map f) = (pairsFrom p l).map fun e => (f e.1, f e.2) := by
    intro p l
    induction l generalizing p with
    | nil => rfl
    | cons a l ih => simp [pairsFrom, ih]
  unfold edges
  rw [List.getLast?_map]
  cases l.getLast? with
  | none => rfl
  | some p => exact hp p l
end edges

theorem turn_self_left (a b : Vec ℝ) : turn a b a = 0 := by simp only [turn]; ring
theorem turn_self_right (a b : Vec ℝ) : turn a b b = 0 := by simp only [turn]; ring
theorem turn_swap (a b c : Vec ℝ) : turn b a c = - turn a b c := by simp only [turn]; ring
theorem turn_rotate (a b c : Vec ℝ) : turn b c a = turn a b c := by simp only [turn]; ring

/-- `turn` is affine in its last argument. -/
theorem turn_mix (a b p q : Vec ℝ) (s : ℝ) :
    turn a b ⟨p.x + s * (q.x - p.x), p.y + s * (q.y - p.y)⟩ = (1 - s) * turn a b p + s * turn a b q := by
  simp only [turn]; ring

theorem isConvex_leftOfEdges (l : List (Vec ℝ)) : IsConvex (LeftOfEdges l) := by
  rintro p q x hp hq ⟨s, h0, h1, rfl⟩ e he
  rw [turn_mix]
  have := hp e he
  have := hq e he
  have : 0 ≤ 1 - s := by linarith
  positivity

/-- Leaving an intersection of half planes: on the way from a point inside to a point outside there is a point inside
that is on one of the boundary lines. -/
theorem exit_point' (L : List (Vec ℝ × Vec ℝ)) {p q : Vec ℝ} (hp : ∀ e ∈ L, 0 ≤ turn e.1 e.2 p)
    (hq : ∃ e ∈ L, turn e.1 e.2 q < 0) :
    ∃ z, OnSegment p q z ∧ (∀ e ∈ L, 0 ≤ turn e.1 e.2 z) ∧ ∃ e ∈ L, turn e.1 e.2 z = 0 ∧ turn e.1 e.2 q < 0 := by
  classical
  obtain ⟨T, hT⟩ : ∃ T : Vec ℝ × Vec ℝ → ℝ, T = fun e => turn e.1 e.2 p / (turn e.1 e.2 p - turn e.1 e.2 q) := ⟨_, rfl⟩
  obtain ⟨e0, he0, h0⟩ := hq
  obtain ⟨m, hm, hmin⟩ := Finset.exists_min_image (L.toFinset.filter fun e => turn e.1 e.2 q < 0) T
    ⟨e0, by simp [he0, h0]⟩
  simp only [Finset.mem_filter, List.mem_toFinset] at hm hmin
  have hpm := hp m hm.1
  have hden : 0 < turn m.1 m.2 p - turn m.1 m.2 q := by linarith [hm.2]
  have hs0 : 0 ≤ T m := by rw [hT]; exact div_nonneg hpm hden.le
  have hs1 : T m ≤ 1 := by rw [hT]; simp only; rw [div_le_one hden]; linarith [hm.2]
  refine ⟨_, ⟨T m, hs0, hs1, rfl⟩, ?_, m, hm.1, ?_, hm.2⟩
  · intro e he
    rw [turn_mix]
    have hpe := hp e he
    by_cases hqe : turn e.1 e.2 q < 0
    · have h1 := hmin e ⟨he, hqe⟩
      have hde : 0 < turn e.1 e.2 p - turn e.1 e.2 q := by linarith
      have h2 : T e * (turn e.1 e.2 p - turn e.1 e.2 q) = turn e.1 e.2 p := by
        rw [hT]; simp only; rw [div_mul_cancel₀ _ hde.ne']
      nlinarith
    · push Not at hqe
      have : 0 ≤ 1 - T m := by linarith
      positivity
  · rw [turn_mix]
    have h2 : T m * (turn m.1 m.2 p - turn m.1 m.2 q) = turn m.1 m.2 p := by
      rw [hT]; simp only; rw [div_mul_cancel₀ _ hden.ne']
    linarith

theorem exit_point (L : List (Vec ℝ × Vec ℝ)) {p q : Vec ℝ} (hp : ∀ e ∈ L, 0 ≤ turn e.1 e.2 p)
    (hq : ∃ e ∈ L, turn e.1 e.2 q < 0) :
    ∃ z, OnSegment p q z ∧ (∀ e ∈ L, 0 ≤ turn e.1 e.2 z) ∧ ∃ e ∈ L, turn e.1 e.2 z = 0 := by
  obtain ⟨z, h1, h2, e, he, h3, -⟩ := exit_point' L hp hq
  exact ⟨z, h1, h2, e, he, h3⟩

namespace StrictlyConvex
variable {l : List (Vec ℝ)} (h : StrictlyConvex l)
include h

theorem edge_ne {e : Vec ℝ × Vec ℝ} (he : e ∈ edges l) : e.1 ≠ e.2 := by
  intro heq
  -- some third vertex would be on the left of a degenerate edge
  obtain ⟨v, hv, hve⟩ : ∃ v ∈ l, v ≠ e.1 := by
    by_contra hno
    push Not at hno
    have h3 := h.three
    have hnd := h.nodup
    match l, h3, hnd, hno with
    | a :: b :: _, _, hnd, hno =>
      have h1 := hno a (by simp)
      have h2 := hno b (by simp)
      rw [h1, h2] at hnd; simp at hnd
  rcases h.left e he v hv with h1 | h1 | h1
  · exact hve h1
  · exact hve (h1.trans heq.symm)
  · rw [← heq] at h1; simp [turn] at h1

/-- There is a vertex strictly to the left of each edge. -/
theorem exists_left {e : Vec ℝ × Vec ℝ} (he : e ∈ edges l) : ∃ v ∈ l, 0 < turn e.1 e.2 v := by
  obtain ⟨v, hv, h1, h2⟩ : ∃ v ∈ l, v ≠ e.1 ∧ v ≠ e.2 := by
    by_contra hno
    push Not at hno
    have h3 := h.three
    have hnd := h.nodup
    match l, h3, hnd, hno with
    | a :: b :: c :: _, _, hnd, hno =>
      simp only [List.nodup_cons, List.mem_cons, not_or] at hnd
      have ha := hno a (by simp)
      have hb := hno b (by simp)
      have hc := hno c (by simp)
      by_cases ea : a = e.1
      · by_cases eb : b = e.1
        · exact hnd.1.1 (ea.trans eb.symm)
        · by_cases ec : c = e.1
          · exact hnd.1.2.1 (ea.trans ec.symm)
          · exact hnd.2.1.1 ((hb eb).trans (hc ec).symm)
      · by_cases eb : b = e.1
        · by_cases ec : c = e.1
          · exact hnd.2.1.1 (eb.trans ec.symm)
          · exact hnd.1.2.1 ((ha ea).trans (hc ec).symm)
        · exact hnd.1.1 ((ha ea).trans (hb eb).symm)
  rcases h.left e he v hv with h3 | h3 | h3
  · exact absurd h3 h1
  · exact absurd h3 h2
  · exact ⟨v, hv, h3⟩

theorem no_back {a b : Vec ℝ} (h1 : (a, b) ∈ edges l) (h2 : (b, a) ∈ edges l) : False := by
  obtain ⟨v, hv, hpos⟩ := h.exists_left h1
  dsimp only at hpos
  rcases h.left _ h2 v hv with h3 | h3 | h3
  · simp only at h3; rw [h3, turn_self_right] at hpos; exact lt_irrefl _ hpos
  · simp only at h3; rw [h3, turn_self_left] at hpos; exact lt_irrefl _ hpos
  · simp only at h3; rw [turn_swap] at h3; linarith

/-- The turn at the end and at the start of an edge. -/
theorem next_turn {a b c : Vec ℝ} (h1 : (a, b) ∈ edges l) (h2 : (b, c) ∈ edges l) : 0 < turn b c a := by
  rcases h.left _ h2 a (edges_fst_mem h1) with h3 | h3 | h3
  · exact absurd h3 (h.edge_ne h1)
  · simp only at h3; subst h3; exact (h.no_back h1 h2).elim
  · exact h3

theorem vert_left {v : Vec ℝ} (hv : v ∈ l) : LeftOfEdges l v := by
  intro e he
  rcases h.left e he v hv with h1 | h1 | h1
  · rw [h1, turn_self_left]
  · rw [h1, turn_self_right]
  · exact h1.le

/-- A point of the polygon on the line of an edge is on the edge. -/
theorem on_edge {a b : Vec ℝ} (he : (a, b) ∈ edges l) {x : Vec ℝ} (hx : LeftOfEdges l x) (h0 : turn a b x = 0) :
    OnSegment a b x := by
  have hne : a ≠ b := h.edge_ne he
  obtain ⟨c, hc⟩ := exists_edge_from (edges_snd_mem he)
  obtain ⟨z, hz⟩ := exists_edge_to (edges_fst_mem he)
  dsimp only at hc hz
  have hL : 0 < (b.x - a.x) ^ 2 + (b.y - a.y) ^ 2 := by
    by_contra hno
    push Not at hno
    have h1 : b.x - a.x = 0 := by nlinarith [sq_nonneg (b.x - a.x), sq_nonneg (b.y - a.y)]
    have h2 : b.y - a.y = 0 := by nlinarith [sq_nonneg (b.x - a.x), sq_nonneg (b.y - a.y)]
    exact hne (by ext <;> linarith)
  obtain ⟨s, hs⟩ : ∃ s, s = ((b.x - a.x) * (x.x - a.x) + (b.y - a.y) * (x.y - a.y)) / ((b.x - a.x) ^ 2 + (b.y - a.y) ^ 2) := ⟨_, rfl⟩
  have hs' : s * ((b.x - a.x) ^ 2 + (b.y - a.y) ^ 2) = (b.x - a.x) * (x.x - a.x) + (b.y - a.y) * (x.y - a.y) := by
    rw [hs]; exact div_mul_cancel₀ _ hL.ne'
  have hxs : x = ⟨a.x + s * (b.x - a.x), a.y + s * (b.y - a.y)⟩ := by
    simp only [turn] at h0
    ext
    · simp only
      have : ((b.x - a.x) ^ 2 + (b.y - a.y) ^ 2) * (x.x - (a.x + s * (b.x - a.x))) = 0 := by
        linear_combination (-(b.x - a.x)) * hs' - (b.y - a.y) * h0
      rcases mul_eq_zero.1 this with h1 | h1
      · exact absurd h1 hL.ne'
      · linarith
    · simp only
      have : ((b.x - a.x) ^ 2 + (b.y - a.y) ^ 2) * (x.y - (a.y + s * (b.y - a.y))) = 0 := by
        linear_combination (-(b.y - a.y)) * hs' + (b.x - a.x) * h0
      rcases mul_eq_zero.1 this with h1 | h1
      · exact absurd h1 hL.ne'
      · linarith
  refine ⟨s, ?_, ?_, hxs⟩
  · have h1 := hx _ hz
    simp only at h1
    rw [hxs, turn_mix, turn_self_right, mul_zero, zero_add] at h1
    have h2 : 0 < turn z a b := by
      have := h.next_turn hz he
      rwa [turn_rotate] at this
    by_contra hneg
    push Not at hneg
    nlinarith
  · have h1 := hx _ hc
    simp only at h1
    rw [hxs, turn_mix, turn_self_left, mul_zero, add_zero] at h1
    have h2 := h.next_turn he hc
    by_contra hneg
    push Not at hneg
    nlinarith

/-- A direction cannot stay inside for ever. -/
theorem bounded (d : Vec ℝ) (hd : d ≠ ⟨0, 0⟩) : ∃ e ∈ edges l, (e.2.x - e.1.x) * d.y - (e.2.y - e.1.y) * d.x < 0 := by
  by_contra hno
  push Not at hno
  have hsum := edges_sum l fun v => v.x * d.y - v.y * d.x
  have hz : ∀ e ∈ edges l, (e.2.x - e.1.x) * d.y - (e.2.y - e.1.y) * d.x = 0 := by
    have gen : ∀ L : List (Vec ℝ × Vec ℝ), (∀ e ∈ L, 0 ≤ (e.2.x - e.1.x) * d.y - (e.2.y - e.1.y) * d.x) →
        0 ≤ (L.map fun e => (e.2.x * d.y - e.2.y * d.x) - (e.1.x * d.y - e.1.y * d.x)).sum ∧
        ((L.map fun e => (e.2.x * d.y - e.2.y * d.x) - (e.1.x * d.y - e.1.y * d.x)).sum = 0 →
          ∀ e ∈ L, (e.2.x - e.1.x) * d.y - (e.2.y - e.1.y) * d.x = 0) := by
      intro L
      induction L with
      | nil => intro _; simp
      | cons a L ih =>
        intro hL
        obtain ⟨i1, i2⟩ := ih fun e he => hL e (List.mem_cons_of_mem _ he)
        have ha := hL a List.mem_cons_self
        simp only [List.map_cons, List.sum_cons]
        refine ⟨by nlinarith, fun hs e he => ?_⟩
        have hs' : (L.map fun e => (e.2.x * d.y - e.2.y * d.x) - (e.1.x * d.y - e.1.y * d.x)).sum = 0 := by nlinarith
        rcases List.mem_cons.1 he with rfl | he
        · rw [hs'] at hs; nlinarith
        · exact i2 hs' e he
    exact (gen _ hno).2 hsum
  obtain ⟨v, hv⟩ : ∃ v, v ∈ l := List.exists_mem_of_length_pos (by have := h.three; omega)
  obtain ⟨w, hw⟩ := exists_edge_from hv
  obtain ⟨z, hzz⟩ := exists_edge_from (edges_snd_mem hw)
  have h1 := hz _ hw
  have h2 := hz _ hzz
  have h3 := h.next_turn hw hzz
  simp only [turn] at h1 h2 h3
  have e1 : ((v.x - w.x) * (z.y - w.y) - (v.y - w.y) * (z.x - w.x)) * d.x = 0 := by linear_combination (-(z.x - w.x)) * h1 - (v.x - w.x) * h2
  have e2 : ((v.x - w.x) * (z.y - w.y) - (v.y - w.y) * (z.x - w.x)) * d.y = 0 := by linear_combination (-(z.y - w.y)) * h1 - (v.y - w.y) * h2
  have hne : (v.x - w.x) * (z.y - w.y) - (v.y - w.y) * (z.x - w.x) ≠ 0 := by intro e; nlinarith
  have d1 := (mul_eq_zero.1 e1).resolve_left hne
  have d2 := (mul_eq_zero.1 e2).resolve_left hne
  exact hd (by ext <;> assumption)

/-- The convex hull of the vertices is the intersection of the half planes. -/
theorem hull_iff (x : Vec ℝ) : Hull (fun p => p ∈ l) x ↔ LeftOfEdges l x := by
  constructor
  · exact Hull.least (isConvex_leftOfEdges l) fun p hp => h.vert_left hp
  · intro hx
    obtain ⟨v, hv⟩ : ∃ v, v ∈ l := List.exists_mem_of_length_pos (by have := h.three; omega)
    by_cases hxv : x = v
    · rw [hxv]; exact .pt hv
    have hd : (⟨x.x - v.x, x.y - v.y⟩ : Vec ℝ) ≠ ⟨0, 0⟩ := by
      intro e
      have e1 := congrArg Vec.x e
      have e2 := congrArg Vec.y e
      simp only at e1 e2
      exact hxv (by ext <;> linarith)
    obtain ⟨e, he, hneg⟩ := h.bounded _ hd
    simp only at hneg
    obtain ⟨D, hD⟩ : ∃ D, D = (e.2.x - e.1.x) * (x.y - v.y) - (e.2.y - e.1.y) * (x.x - v.x) := ⟨_, rfl⟩
    rw [← hD] at hneg
    have hxe := hx e he
    obtain ⟨k, hk⟩ : ∃ k, k = (turn e.1 e.2 x + 1) / -D := ⟨_, rfl⟩
    have hk0 : 0 < k := by rw [hk]; exact div_pos (by linarith) (by linarith)
    have hkD : k * D = -(turn e.1 e.2 x + 1) := by
      have hD0 : -D ≠ 0 := by linarith
      have := div_mul_cancel₀ (turn e.1 e.2 x + 1) hD0
      rw [← hk] at this; linarith
    obtain ⟨q, hq⟩ : ∃ q : Vec ℝ, q = ⟨x.x + k * (x.x - v.x), x.y + k * (x.y - v.y)⟩ := ⟨_, rfl⟩
    have hqout : turn e.1 e.2 q < 0 := by
      have : turn e.1 e.2 q = turn e.1 e.2 x + k * D := by rw [hq, hD]; simp only [turn]; ring
      rw [this, hkD]; linarith
    obtain ⟨z, ⟨s, hs0, hs1, hz⟩, hzin, e', he', hze⟩ := exit_point (edges l) hx ⟨e, he, hqout⟩
    have hzs := h.on_edge (a := e'.1) (b := e'.2) he' hzin hze
    have hzh : Hull (fun p => p ∈ l) z := .mix (.pt (edges_fst_mem he')) (.pt (edges_snd_mem he')) hzs
    refine .mix (.pt hv) hzh ⟨1 / (1 + s * k), by positivity, ?_, ?_⟩
    · rw [div_le_one (by positivity)]; nlinarith [mul_nonneg hs0 hk0.le]
    · have hpos : (1 + s * k) ≠ 0 := by positivity
      rw [hz, hq]
      ext
      · simp only; field_simp; ring
      · simp only; field_simp; ring

/-- On the way from a point of the polygon to a point outside there is a point of an edge. -/
theorem crossing {p q : Vec ℝ} (hp : LeftOfEdges l p) (hq : ¬ LeftOfEdges l q) :
    ∃ z, OnSegment p q z ∧ LeftOfEdges l z ∧ ∃ e ∈ edges l, OnSegment e.1 e.2 z := by
  have hq' : ∃ e ∈ edges l, turn e.1 e.2 q < 0 := by
    by_contra hno; push Not at hno; exact hq hno
  obtain ⟨z, h1, h2, e, he, h3⟩ := exit_point (edges l) hp hq'
  exact ⟨z, h1, h2, e, he, h.on_edge he h2 h3⟩

end StrictlyConvex

/-- Distances along a segment. -/
theorem OnSegment.distance_add {p q z : Vec ℝ} (h : OnSegment p q z) : p.distance z + z.distance q = p.distance q := by
  obtain ⟨s, h0, h1, rfl⟩ := h
  have e1 : p.distance ⟨p.x + s * (q.x - p.x), p.y + s * (q.y - p.y)⟩ = s * p.distance q := by
    rw [Vec.distance_comm, ← abs_of_nonneg h0]
    have := distance_along p q |s|
    rw [abs_abs] at this
    rw [Vec.distance_comm p q, ← this]
    congr 1
    ext <;> simp only [Vec.add, Vec.sub, Vec.mult] <;> ring
  have e2 : Vec.distance ⟨p.x + s * (q.x - p.x), p.y + s * (q.y - p.y)⟩ q = (1 - s) * p.distance q := by
    have h1' : 0 ≤ 1 - s := by linarith
    rw [← abs_of_nonneg h1']
    have := distance_along q p |1 - s|
    rw [abs_abs] at this
    rw [← this, abs_of_nonneg h1']
    congr 1
    ext <;> simp only [Vec.add, Vec.sub, Vec.mult] <;> ring
  rw [e1, e2]; ring

end CP
