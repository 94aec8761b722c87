import Verif.Proofs.Integrals2
import Verif.Spec.Mass

/-! # Integrals over convex polygons (for C47) -/

namespace CP.Int
open MeasureTheory Set

/-- The point as a pair. -/
def pr (v : Vec ℝ) : ℝ × ℝ := (v.x, v.y)

/-- The first `n` vertices. -/
def cloud (v : Nat → Vec ℝ) (n : Nat) : Set (ℝ × ℝ) := {p | ∃ i < n, p = pr (v i)}

theorem cloud_succ (v : Nat → Vec ℝ) (n : Nat) : cloud v (n + 1) = insert (pr (v n)) (cloud v n) := by
  ext p
  constructor
  · rintro ⟨i, hi, rfl⟩
    rcases Nat.lt_succ_iff_lt_or_eq.1 hi with h | rfl
    · exact .inr ⟨i, h, rfl⟩
    · exact .inl rfl
  · rintro (rfl | ⟨i, hi, rfl⟩)
    · exact ⟨n, by omega, rfl⟩
    · exact ⟨i, by omega, rfl⟩

theorem cloud_finite (v : Nat → Vec ℝ) (n : Nat) : (cloud v n).Finite := by
  refine (finite_range fun i : Fin n => pr (v i)).subset ?_
  rintro p ⟨i, hi, rfl⟩
  exact ⟨⟨i, hi⟩, rfl⟩

/-- Counter-clockwise and strictly convex, as needed for the fan of triangles at vertex 0. -/
structure Fan (v : Nat → Vec ℝ) (n : Nat) : Prop where
  fan : ∀ j k, 0 < j → j < k → k < n → 0 < dbl (pr (v 0)) (pr (v j)) (pr (v k))
  edge : ∀ k, 0 < k → k + 1 < n → ∀ j ≤ k, 0 ≤ dbl (pr (v k)) (pr (v (k + 1))) (pr (v j))

theorem dbl_swap (a b c : ℝ × ℝ) : dbl a c b = - dbl a b c := by simp only [dbl]; ring

theorem integrable_hull {g : ℝ × ℝ → ℝ} (hg : Continuous g) {S : Set (ℝ × ℝ)} (hS : S.Finite) :
    IntegrableOn g (convexHull ℝ S) := hg.continuousOn.integrableOn_compact (hS.isCompact_convexHull ℝ)

theorem poly_integral {v : Nat → Vec ℝ} {g : ℝ × ℝ → ℝ} (hg : Continuous g) (e : Vec ℝ → Vec ℝ → ℝ)
    (anti : ∀ a b, e a b = - e b a)
    (tri : ∀ a b c, 0 < dbl (pr a) (pr b) (pr c) →
      ∫ p in convexHull ℝ ({pr a, pr b, pr c} : Set (ℝ × ℝ)), g p = e a b + e b c + e c a) :
    ∀ n, 3 ≤ n → Fan v n → ∫ p in convexHull ℝ (cloud v n), g p = edgeSum n v e := by
  intro n hn
  induction n, hn using Nat.le_induction with
  | base =>
    intro h
    have hc : cloud v 3 = {pr (v 0), pr (v 1), pr (v 2)} := by
      ext p
      constructor
      · rintro ⟨i, hi, rfl⟩
        interval_cases i <;> simp
      · rintro (rfl | rfl | rfl)
        · exact ⟨0, by omega, rfl⟩
        · exact ⟨1, by omega, rfl⟩
        · exact ⟨2, by omega, rfl⟩
    rw [hc, tri _ _ _ (h.fan 1 2 (by omega) (by omega) (by omega))]
    simp [edgeSum, Finset.sum_range_succ]
  | succ n hn ih =>
    intro h
    have hf : Fan v n := ⟨fun j k h1 h2 h3 => h.fan j k h1 h2 (by omega), fun k h1 h2 => h.edge k h1 (by omega)⟩
    have q0 : 0 < dbl (pr (v 0)) (pr (v (n - 1))) (pr (v n)) := h.fan _ _ (by omega) (by omega) (by omega)
    have right : ∀ p ∈ cloud v n, dbl (pr (v 0)) (pr (v (n - 1))) p ≤ 0 := by
      rintro p ⟨i, hi, rfl⟩
      by_cases hi0 : i = 0
      · subst hi0; simp only [dbl]; linarith
      by_cases hi1 : i = n - 1
      · subst hi1; simp only [dbl]; linarith
      have := h.fan i (n - 1) (by omega) (by omega) (by omega)
      rw [dbl_swap]; linarith
    have h1 : ∀ p ∈ cloud v n, dbl (pr (v 0)) (pr (v n)) p ≤ 0 := by
      rintro p ⟨i, hi, rfl⟩
      by_cases hi0 : i = 0
      · subst hi0; simp only [dbl]; linarith
      have := h.fan i n (by omega) (by omega) (by omega)
      rw [dbl_swap]; linarith
    have h2 : ∀ p ∈ cloud v n, 0 ≤ dbl (pr (v (n - 1))) (pr (v n)) p := by
      rintro p ⟨i, hi, rfl⟩
      have := h.edge (n - 1) (by omega) (by omega) i (by omega)
      rwa [show n - 1 + 1 = n by omega] at this
    have m0 : pr (v 0) ∈ cloud v n := ⟨0, by omega, rfl⟩
    have m1 : pr (v (n - 1)) ∈ cloud v n := ⟨n - 1, by omega, rfl⟩
    rw [cloud_succ, join_split ⟨_, m0⟩ m0 m1 right q0 h1 h2]
    have fin3 : ({pr (v 0), pr (v (n - 1)), pr (v n)} : Set (ℝ × ℝ)).Finite := toFinite _
    have hne : pr (v 0) ≠ pr (v (n - 1)) := by
      intro e; rw [e] at q0; simp only [dbl] at q0; linarith
    have dis : AEDisjoint volume (convexHull ℝ (cloud v n)) (convexHull ℝ ({pr (v 0), pr (v (n - 1)), pr (v n)} : Set (ℝ × ℝ))) := by
      refine measure_mono_null ?_ (line_null hne)
      rintro p ⟨p1, p2⟩
      have r1 : dbl (pr (v 0)) (pr (v (n - 1))) p ≤ 0 :=
        convexHull_min (show cloud v n ⊆ {p | dbl (pr (v 0)) (pr (v (n - 1))) p ≤ 0} from right) (right_convex _ _) p1
      have r2 : 0 ≤ dbl (pr (v 0)) (pr (v (n - 1))) p := by
        refine convexHull_min (show _ ⊆ {p | 0 ≤ dbl (pr (v 0)) (pr (v (n - 1))) p} from ?_) (left_convex _ _) p2
        rintro x (rfl | rfl | rfl)
        · simp only [mem_setOf_eq, dbl]; linarith
        · simp only [mem_setOf_eq, dbl]; linarith
        · exact q0.le
      exact le_antisymm r1 r2
    rw [integral_union_ae dis ((fin3.isCompact_convexHull ℝ).isClosed.measurableSet.nullMeasurableSet)
      (integrable_hull hg (cloud_finite v n)) (integrable_hull hg fin3), ih hf, tri _ _ _ q0]
    rw [edgeSum_cut (n := n + 1) (k := n - 1) (by omega) (by omega) v e anti]
    rw [show n - 1 + 1 = n by omega, show n + 1 - (n - 1) + 1 = 3 by omega]
    congr 1
    simp only [edgeSum, Finset.sum_range_succ, Finset.sum_range_zero, beyond]
    simp only [zero_add, if_pos, if_true]
    norm_num
    rw [show n - 1 + 1 = n by omega]

end CP.Int
