import Verif.Proofs.Integrals3
import Verif.Proofs.Polygon

/-! # Strictly convex polygons as fans of triangles; area, centre and moment (for C47) -/

namespace CP
open MeasureTheory Set Int

theorem mem_pairsFrom {A : Type} : ∀ (l : List A) (p : A) (i : Nat) (h : i + 1 < l.length),
    (l[i]'(by omega), l[i + 1]'h) ∈ pairsFrom p l
  | [], _, _, h => by simp at h
  | [a], _, i, h => by simp at h
  | a :: b :: l, p, 0, _ => by simp [pairsFrom]
  | a :: b :: l, p, i + 1, h => by
    have := mem_pairsFrom (b :: l) a i (by simpa using h)
    simp only [pairsFrom, List.mem_cons] at this ⊢
    simp only [List.getElem_cons_succ] at this ⊢
    exact .inr this

theorem mem_edges {A : Type} (l : List A) (i : Nat) (h : i + 1 < l.length) : (l[i]'(by omega), l[i + 1]'h) ∈ edges l := by
  unfold edges
  have hl : l ≠ [] := by rintro rfl; simp at h
  rw [List.getLast?_eq_some_getLast hl]
  exact mem_pairsFrom l _ i h

theorem vert_eq (l : List (Vec ℝ)) (i : Nat) (h : i < l.length) : vert l i = l[i] := by simp [vert, h]

theorem turn_dbl (a b c : Vec ℝ) : turn a b c = dbl (pr a) (pr b) (pr c) := by simp only [turn, dbl, pr]

namespace StrictlyConvex
variable {l : List (Vec ℝ)}

theorem edge_pos (h : StrictlyConvex l) {k j : Nat} (hk : k + 1 < l.length) (hj : j < l.length) (h1 : j ≠ k) (h2 : j ≠ k + 1) :
    0 < dbl (pr (vert l k)) (pr (vert l (k + 1))) (pr (vert l j)) := by
  rw [vert_eq l k (by omega), vert_eq l _ hk, vert_eq l j hj, ← turn_dbl]
  rcases h.left _ (mem_edges l k hk) l[j] (List.getElem_mem hj) with e | e | e
  · exact absurd ((h.nodup.getElem_inj_iff).1 e) h1
  · exact absurd ((h.nodup.getElem_inj_iff).1 e) h2
  · exact e

theorem fan (h : StrictlyConvex l) : Fan (vert l) l.length := by
  have h3 := h.three
  refine ⟨?_, ?_⟩
  · intro j k hj hjk
    obtain ⟨d, rfl⟩ : ∃ d, k = j + 1 + d := ⟨k - (j + 1), by omega⟩
    clear hjk
    induction d with
    | zero =>
      intro hk
      have := h.edge_pos (k := j) (j := 0) hk (by omega) (by omega) (by omega)
      simp only [dbl, add_zero] at this ⊢
      linarith
    | succ d ih =>
      intro hk
      have i1 := ih (by omega)
      have i2 := h.edge_pos (k := j + 1 + d) (j := 0) (by omega) (by omega) (by omega) (by omega)
      have eb := h.edge_pos (k := 0) (j := j + 1 + d) (by omega) (by omega) (by omega) (by omega)
      have ec := h.edge_pos (k := 0) (j := j + 1 + d + 1) (by omega) (by omega) (by omega) (by omega)
      have ea : 0 ≤ dbl (pr (vert l 0)) (pr (vert l (0 + 1))) (pr (vert l j)) := by
        by_cases e : j = 1
        · subst e; simp only [dbl]; linarith
        · exact (h.edge_pos (k := 0) (j := j) (by omega) (by omega) (by omega) (by omega)).le
      have i2' : 0 < dbl (pr (vert l 0)) (pr (vert l (j + 1 + d))) (pr (vert l (j + 1 + d + 1))) := by
        simp only [dbl] at i2 ⊢; linarith
      have id : dbl (pr (vert l 0)) (pr (vert l j)) (pr (vert l (j + 1 + d + 1))) * dbl (pr (vert l 0)) (pr (vert l (0 + 1))) (pr (vert l (j + 1 + d)))
          = dbl (pr (vert l 0)) (pr (vert l j)) (pr (vert l (j + 1 + d))) * dbl (pr (vert l 0)) (pr (vert l (0 + 1))) (pr (vert l (j + 1 + d + 1)))
          + dbl (pr (vert l 0)) (pr (vert l (j + 1 + d))) (pr (vert l (j + 1 + d + 1))) * dbl (pr (vert l 0)) (pr (vert l (0 + 1))) (pr (vert l j)) := by
        simp only [dbl]; ring
      have : 0 < dbl (pr (vert l 0)) (pr (vert l j)) (pr (vert l (j + 1 + d + 1))) * dbl (pr (vert l 0)) (pr (vert l (0 + 1))) (pr (vert l (j + 1 + d))) := by
        rw [id]
        have := mul_pos i1 ec
        have := mul_nonneg i2'.le ea
        linarith
      exact pos_of_mul_pos_left this eb.le
  · intro k hk hk1 j hj
    by_cases e : j = k
    · subst e; simp only [dbl]; linarith
    · exact (h.edge_pos hk1 (by omega) e (by omega)).le

end StrictlyConvex

theorem cloud_list (l : List (Vec ℝ)) : cloud (vert l) l.length = {p | (⟨p.1, p.2⟩ : Vec ℝ) ∈ l} := by
  ext p
  constructor
  · rintro ⟨i, hi, rfl⟩
    rw [vert_eq l i hi]
    exact List.getElem_mem hi
  · intro hp
    obtain ⟨i, hi, e⟩ := List.getElem_of_mem hp
    exact ⟨i, hi, by rw [vert_eq l i hi, e]; rfl⟩

/-- The hull of the specification is the convex hull of Mathlib. -/
theorem hull_region (S : Pts) : (Hull S).region = convexHull ℝ {p | S ⟨p.1, p.2⟩} := by
  apply Subset.antisymm
  · rintro ⟨x, y⟩ hp
    change Hull S ⟨x, y⟩ at hp
    have : ∀ q, Hull S q → pr q ∈ convexHull ℝ {p : ℝ × ℝ | S ⟨p.1, p.2⟩} := by
      intro q hq
      induction hq with
      | pt h => exact subset_convexHull ℝ _ h
      | @mix p q x _ _ hx i1 i2 =>
        obtain ⟨s, s0, s1, rfl⟩ := hx
        have := (convex_convexHull ℝ {p : ℝ × ℝ | S ⟨p.1, p.2⟩}) i1 i2 (a := 1 - s) (b := s) (by linarith) s0 (by ring)
        convert this using 1
        simp only [pr, Prod.smul_mk, smul_eq_mul, Prod.mk_add_mk, Prod.mk.injEq]
        constructor <;> ring
    exact this _ hp
  · refine convexHull_min (fun p hp => .pt hp) ?_
    intro p hp q hq a b ha hb hab
    refine Hull.mix (p := ⟨p.1, p.2⟩) (q := ⟨q.1, q.2⟩) hp hq ⟨b, hb, by linarith, ?_⟩
    simp only [Prod.fst_add, Prod.smul_fst, smul_eq_mul, Prod.snd_add, Prod.smul_snd, Vec.mk.injEq]
    have : a = 1 - b := by linarith
    subst this
    constructor <;> ring

theorem hull_list (l : List (Vec ℝ)) : (Hull fun p => p ∈ l).region = convexHull ℝ (cloud (vert l) l.length) := by
  rw [hull_region, cloud_list]

section
variable {l : List (Vec ℝ)} (h : StrictlyConvex l)
include h

theorem poly_one : ∫ _ in (Hull fun p => p ∈ l).region, (1 : ℝ) = area2 l.length (vert l) / 2 := by
  rw [hull_list, poly_integral (g := fun _ => 1) continuous_const (fun a b => (1 / 2) * a.cross b) (fun a b => by simp only [Vec.cross]; ring)
    (fun a b c h => by rw [tri_one _ _ _ h]; simp only [dbl, pr, Vec.cross]; ring) _ h.three h.fan, edgeSum_mul, area2]
  ring

theorem poly_fst : ∫ p in (Hull fun p => p ∈ l).region, p.1 = edgeSum l.length (vert l) (fun a b => (a.x + b.x) * a.cross b) / 6 := by
  rw [hull_list, poly_integral (g := fun p => p.1) continuous_fst (fun a b => (1 / 6) * ((a.x + b.x) * a.cross b)) (fun a b => by simp only [Vec.cross]; ring)
    (fun a b c h => by rw [tri_fst _ _ _ h]; simp only [dbl, pr, Vec.cross]; ring) _ h.three h.fan, edgeSum_mul]
  ring

theorem poly_snd : ∫ p in (Hull fun p => p ∈ l).region, p.2 = edgeSum l.length (vert l) (fun a b => (a.y + b.y) * a.cross b) / 6 := by
  rw [hull_list, poly_integral (g := fun p => p.2) continuous_snd (fun a b => (1 / 6) * ((a.y + b.y) * a.cross b)) (fun a b => by simp only [Vec.cross]; ring)
    (fun a b c h => by rw [tri_snd _ _ _ h]; simp only [dbl, pr, Vec.cross]; ring) _ h.three h.fan, edgeSum_mul]
  ring

theorem poly_polar : ∫ p in (Hull fun p => p ∈ l).region, (p.1 ^ 2 + p.2 ^ 2) =
    edgeSum l.length (vert l) (fun a b => a.cross b * (a.dot a + a.dot b + b.dot b)) / 12 := by
  rw [hull_list, poly_integral (g := fun p => p.1 ^ 2 + p.2 ^ 2) (by fun_prop) (fun a b => (1 / 12) * (a.cross b * (a.dot a + a.dot b + b.dot b)))
    (fun a b => by simp only [Vec.cross, Vec.dot]; ring)
    (fun a b c h => by rw [tri_polar _ _ _ h]; simp only [dbl, pr, Vec.cross, Vec.dot]; ring) _ h.three h.fan, edgeSum_mul]
  ring

theorem area2_pos : 0 < area2 l.length (vert l) := by
  have hf := h.fan
  have : ∀ n, 3 ≤ n → n ≤ l.length → 0 < edgeSum n (vert l) Vec.cross := by
    intro n hn
    induction n, hn using Nat.le_induction with
    | base =>
      intro h3
      have := hf.fan 1 2 (by omega) (by omega) (by omega)
      simp only [edgeSum, Finset.sum_range_succ, Finset.sum_range_zero]
      norm_num
      simp only [dbl, pr, Vec.cross] at this ⊢
      linarith
    | succ n hn ih =>
      intro h3
      have i := ih (by omega)
      have q0 := hf.fan (n - 1) n (by omega) (by omega) (by omega)
      rw [edgeSum_cut (n := n + 1) (k := n - 1) (by omega) (by omega) _ _ (fun a b => by simp only [Vec.cross]; ring),
        show n - 1 + 1 = n by omega, show n + 1 - (n - 1) + 1 = 3 by omega]
      have : edgeSum 3 (beyond (n - 1) (vert l)) Vec.cross = dbl (pr (vert l 0)) (pr (vert l (n - 1))) (pr (vert l n)) := by
        simp only [edgeSum, Finset.sum_range_succ, Finset.sum_range_zero, beyond]
        norm_num
        rw [show n - 1 + 1 = n by omega]
        simp only [dbl, pr, Vec.cross]; ring
      rw [this]; linarith
  exact this _ h.three le_rfl

end

end CP
