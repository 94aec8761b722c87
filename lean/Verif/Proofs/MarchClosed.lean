import Verif.Props.March
import Mathlib.Tactic.Linarith
import Mathlib.Tactic.FieldSimp
import Mathlib.Tactic.NormNum

/-! # The contours of a grid are closed -/

namespace CP
open GoFloat PL March
open scoped Classical

/-- Where the segments of a cell may start: on a side between corners inside (to the left) and outside, or within the cell. -/
def OwnC (a b c d : Prop) (x0 x1 y0 y1 : ℝ) (P : Vec ℝ) : Prop :=
  (x0 < P.x ∧ P.x < x1 ∧ P.y = y0 ∧ a ∧ ¬ b) ∨ (x0 < P.x ∧ P.x < x1 ∧ P.y = y1 ∧ d ∧ ¬ c) ∨
  (P.x = x0 ∧ y0 < P.y ∧ P.y < y1 ∧ c ∧ ¬ a) ∨ (P.x = x1 ∧ y0 < P.y ∧ P.y < y1 ∧ b ∧ ¬ d) ∨
  (x0 < P.x ∧ P.x < x1 ∧ y0 < P.y ∧ P.y < y1)

def Within (x0 x1 y0 y1 : ℝ) (P : Vec ℝ) : Prop := x0 < P.x ∧ P.x < x1 ∧ y0 < P.y ∧ P.y < y1

structure GoodCell (t a b c d x0 x1 y0 y1 : ℝ) (l : List (Vec ℝ × Vec ℝ)) : Prop where
  own : ∀ s ∈ l, OwnC (t < a) (t < b) (t < c) (t < d) x0 x1 y0 y1 s.1 ∧
    OwnC (¬ t < a) (¬ t < b) (¬ t < c) (¬ t < d) x0 x1 y0 y1 s.2
  once : ∀ P, ¬ Within x0 x1 y0 y1 P → starts P l ≤ 1 ∧ ends P l ≤ 1
  inner : ∀ P, Within x0 x1 y0 y1 P → flow P l = 0 ∧ ∀ q, q <+: l → -1 ≤ flow P q ∧ flow P q ≤ 1
  ne : ∀ s ∈ l, s.1 ≠ s.2

theorem mem_seg {v0 v1 : Vec ℝ} {s : Vec ℝ × Vec ℝ} (h : s ∈ seg v0 v1) : s.1 = v1 ∧ s.2 = v0 ∧ v0 ≠ v1 := by
  unfold seg at h
  split at h
  · cases h
  · rename_i hne
    rw [List.mem_singleton] at h
    subst h
    exact ⟨rfl, rfl, fun e => hne (vecEq_iff.2 e)⟩

theorem seg_of_ne {v0 v1 : Vec ℝ} (h : v0 ≠ v1) : seg v0 v1 = [(v1, v0)] := by
  rw [seg, if_neg (fun e => h (vecEq_iff.1 e))]

theorem starts_nil (P : Vec ℝ) : starts P [] = 0 := rfl
theorem ends_nil (P : Vec ℝ) : ends P [] = 0 := rfl
theorem starts_cons (P v w : Vec ℝ) (l : List (Vec ℝ × Vec ℝ)) :
    starts P ((v, w) :: l) = (if v = P then 1 else 0) + starts P l := by
  unfold starts
  by_cases h : v = P
  · rw [if_pos h, List.filter_cons_of_pos (by exact vecEq_iff.2 h)]; simp [Nat.add_comm]
  · rw [if_neg h, List.filter_cons_of_neg (by intro e; exact h (vecEq_iff.1 e))]; simp
theorem ends_cons (P v w : Vec ℝ) (l : List (Vec ℝ × Vec ℝ)) :
    ends P ((v, w) :: l) = (if w = P then 1 else 0) + ends P l := by
  unfold ends
  by_cases h : w = P
  · rw [if_pos h, List.filter_cons_of_pos (by exact vecEq_iff.2 h)]; simp [Nat.add_comm]
  · rw [if_neg h, List.filter_cons_of_neg (by intro e; exact h (vecEq_iff.1 e))]; simp

theorem starts_append (P : Vec ℝ) (l m : List (Vec ℝ × Vec ℝ)) : starts P (l ++ m) = starts P l + starts P m := by
  simp [starts, List.filter_append]
theorem ends_append (P : Vec ℝ) (l m : List (Vec ℝ × Vec ℝ)) : ends P (l ++ m) = ends P l + ends P m := by
  simp [ends, List.filter_append]

theorem starts_zero {P : Vec ℝ} {l : List (Vec ℝ × Vec ℝ)} (h : ∀ s ∈ l, s.1 ≠ P) : starts P l = 0 := by
  simp only [starts, List.length_eq_zero_iff, List.filter_eq_nil_iff]
  intro s hs e
  exact h s hs (vecEq_iff.1 e)
theorem ends_zero {P : Vec ℝ} {l : List (Vec ℝ × Vec ℝ)} (h : ∀ s ∈ l, s.2 ≠ P) : ends P l = 0 := by
  simp only [ends, List.length_eq_zero_iff, List.filter_eq_nil_iff]
  intro s hs e
  exact h s hs (vecEq_iff.1 e)

/-- A soft cell whose corners are not on the threshold. -/
theorem midlerp_between {x0 x1 s0 s1 t : ℝ} (hx : x0 < x1) (h : (t < s0 ∧ s1 < t) ∨ (s0 < t ∧ t < s1)) :
    x0 < midlerp x0 x1 s0 s1 t ∧ midlerp x0 x1 s0 s1 t < x1 := by
  have hk : 0 < (t - s0) / (s1 - s0) ∧ (t - s0) / (s1 - s0) < 1 := by
    rcases h with ⟨h0, h1⟩ | ⟨h0, h1⟩
    · have hd : s1 - s0 < 0 := by linarith
      refine ⟨div_pos_of_neg_of_neg (by linarith) hd, ?_⟩
      rw [div_lt_one_of_neg hd]; linarith
    · have hd : 0 < s1 - s0 := by linarith
      refine ⟨div_pos (by linarith) hd, ?_⟩
      rw [div_lt_one hd]; linarith
  unfold midlerp lerp
  generalize (t - s0) / (s1 - s0) = k at hk
  constructor <;> nlinarith

theorem starts_seg_le (P v0 v1 : Vec ℝ) : starts P (seg v0 v1) ≤ 1 ∧ (starts P (seg v0 v1) ≠ 0 → v1 = P) := by
  unfold seg
  split
  · exact ⟨by simp [starts_nil], fun h => absurd (starts_nil P) h⟩
  · rw [starts_cons, starts_nil]; split <;> simp [*]
theorem ends_seg_le (P v0 v1 : Vec ℝ) : ends P (seg v0 v1) ≤ 1 ∧ (ends P (seg v0 v1) ≠ 0 → v0 = P) := by
  unfold seg
  split
  · exact ⟨by simp [ends_nil], fun h => absurd (ends_nil P) h⟩
  · rw [ends_cons, ends_nil]; split <;> simp [*]

theorem once_one (P v0 v1 : Vec ℝ) : starts P (seg v0 v1) ≤ 1 ∧ ends P (seg v0 v1) ≤ 1 :=
  ⟨(starts_seg_le P v0 v1).1, (ends_seg_le P v0 v1).1⟩
theorem once_two (P : Vec ℝ) {v0 v1 w0 w1 : Vec ℝ} (h1 : v1 ≠ w1) (h0 : v0 ≠ w0) :
    starts P (seg v0 v1 ++ seg w0 w1) ≤ 1 ∧ ends P (seg v0 v1 ++ seg w0 w1) ≤ 1 := by
  have a := starts_seg_le P v0 v1
  have b := starts_seg_le P w0 w1
  have c := ends_seg_le P v0 v1
  have d := ends_seg_le P w0 w1
  rw [starts_append, ends_append]
  constructor
  · by_contra hc
    exact h1 ((a.2 (by omega)).trans (b.2 (by omega)).symm)
  · by_contra hc
    exact h0 ((c.2 (by omega)).trans (d.2 (by omega)).symm)

set_option maxHeartbeats 1000000 in
theorem soft_good {t a b c d x0 x1 y0 y1 : ℝ} (hx : x0 < x1) (hy : y0 < y1) (ha : a ≠ t) (hb : b ≠ t) (hc : c ≠ t) (hd : d ≠ t) :
    GoodCell t a b c d x0 x1 y0 y1 (cellSoft t a b c d x0 x1 y0 y1) := by
  have lt_of : ∀ {z : ℝ}, z ≠ t → ¬ t < z → z < t := fun h1 h2 => lt_of_le_of_ne (not_lt.1 h2) h1
  have K : ∀ {u w : ℝ}, u ≠ t → w ≠ t → (t < u ↔ ¬ t < w) → (t < u ∧ w < t) ∨ (u < t ∧ t < w) := by
    intro u w hu hw h
    by_cases h1 : t < u
    · exact Or.inl ⟨h1, lt_of hw (h.1 h1)⟩
    · exact Or.inr ⟨lt_of hu h1, by by_contra h2; exact h1 (h.2 h2)⟩
  have k1 : (t < a ↔ ¬ t < b) → x0 < midlerp x0 x1 a b t ∧ midlerp x0 x1 a b t < x1 := fun h => midlerp_between hx (K ha hb h)
  have k2 : (t < c ↔ ¬ t < d) → x0 < midlerp x0 x1 c d t ∧ midlerp x0 x1 c d t < x1 := fun h => midlerp_between hx (K hc hd h)
  have k3 : (t < a ↔ ¬ t < c) → y0 < midlerp y0 y1 a c t ∧ midlerp y0 y1 a c t < y1 := fun h => midlerp_between hy (K ha hc h)
  have k4 : (t < b ↔ ¬ t < d) → y0 < midlerp y0 y1 b d t ∧ midlerp y0 y1 b d t < y1 := fun h => midlerp_between hy (K hb hd h)
  have own : ∀ s ∈ cellSoft t a b c d x0 x1 y0 y1, OwnC (t < a) (t < b) (t < c) (t < d) x0 x1 y0 y1 s.1 ∧
      OwnC (¬ t < a) (¬ t < b) (¬ t < c) (¬ t < d) x0 x1 y0 y1 s.2 ∧ ¬ Within x0 x1 y0 y1 s.1 ∧ ¬ Within x0 x1 y0 y1 s.2 ∧ s.1 ≠ s.2 := by
    intro s hs
    unfold cellSoft at hs
    generalize midlerp x0 x1 a b t = mB at *
    generalize midlerp x0 x1 c d t = mT at *
    generalize midlerp y0 y1 a c t = mL at *
    generalize midlerp y0 y1 b d t = mR at *
    have fin : ∀ {v0 v1 : Vec ℝ}, (v0 ≠ v1 → OwnC (t < a) (t < b) (t < c) (t < d) x0 x1 y0 y1 v1 ∧
      OwnC (¬ t < a) (¬ t < b) (¬ t < c) (¬ t < d) x0 x1 y0 y1 v0 ∧ ¬ Within x0 x1 y0 y1 v1 ∧ ¬ Within x0 x1 y0 y1 v0) → s ∈ seg v0 v1 →
      OwnC (t < a) (t < b) (t < c) (t < d) x0 x1 y0 y1 s.1 ∧
      OwnC (¬ t < a) (¬ t < b) (¬ t < c) (¬ t < d) x0 x1 y0 y1 s.2 ∧ ¬ Within x0 x1 y0 y1 s.1 ∧ ¬ Within x0 x1 y0 y1 s.2 ∧ s.1 ≠ s.2 := by
      intro v0 v1 h hs
      obtain ⟨e1, e2, e3⟩ := mem_seg hs
      obtain ⟨g1, g2, g3, g4⟩ := h e3
      rw [e1, e2]; exact ⟨g1, g2, g3, g4, e3.symm⟩
    by_cases h1 : t < a <;> by_cases h2 : t < b <;> by_cases h3 : t < c <;> by_cases h4 : t < d <;>
      simp only [code, h1, h2, h3, h4, if_true, if_false, not_true, not_false_iff, iff_true, iff_false, forall_const, true_iff,
        false_iff, false_imp_iff, List.not_mem_nil, List.mem_append, Nat.reduceAdd] at hs k1 k2 k3 k4 fin ⊢ <;>
      first
      | (rcases hs with hs | hs <;> (refine fin (fun _ => ?_) hs; simp [OwnC, Within, *]))
      | (refine fin (fun _ => ?_) hs; simp [OwnC, Within, *])
  refine ⟨fun s hs => ⟨(own s hs).1, (own s hs).2.1⟩, ?_, ?_, fun s hs => (own s hs).2.2.2.2⟩
  · intro P _
    unfold cellSoft
    split
    case h_6 => exact once_two P (by intro e; simp at e; linarith [e.1]) (by intro e; simp at e; linarith [e.2])
    case h_9 => exact once_two P (by intro e; simp at e; linarith [e.2]) (by intro e; simp at e; linarith [e.1])
    case h_15 => simp [starts_nil, ends_nil]
    all_goals exact once_one P _ _
  · intro P hP
    have hz : ∀ q, (∀ s ∈ q, s ∈ cellSoft t a b c d x0 x1 y0 y1) → flow P q = 0 := by
      intro q hq
      have e1 : starts P q = 0 := starts_zero fun s hs e => (own s (hq s hs)).2.2.1 (by rw [e]; exact hP)
      have e2 : ends P q = 0 := ends_zero fun s hs e => (own s (hq s hs)).2.2.2.1 (by rw [e]; exact hP)
      rw [flow, e1, e2]; rfl
    refine ⟨hz _ fun s hs => hs, fun q hq => ?_⟩
    rw [hz q fun s hs => hq.subset hs]; omega

theorem path_eq {A C B : Vec ℝ} (h1 : A ≠ C) (h2 : B ≠ C) : segs A C B = [(B, C), (C, A)] := by
  rw [segs, seg_of_ne h2.symm, seg_of_ne h1]; rfl

theorem path_once (P : Vec ℝ) {A C B : Vec ℝ} (h : C ≠ P) :
    starts P [(B, C), (C, A)] = (if B = P then 1 else 0) ∧ ends P [(B, C), (C, A)] = (if A = P then 1 else 0) := by
  simp only [starts_cons, ends_cons, starts_nil, ends_nil, if_neg h]; omega

/-- The flow at the middle of a path, and of two paths. -/
theorem path_inner {P A C B : Vec ℝ} (hA : A ≠ P) (hB : B ≠ P) :
    flow P [(B, C), (C, A)] = 0 ∧ ∀ q, q <+: [(B, C), (C, A)] → -1 ≤ flow P q ∧ flow P q ≤ 1 := by
  have c0 := at_nonneg P C
  have c1 := at_le P C
  refine ⟨by simp only [flow_cons, flow_nil, at_ne hA, at_ne hB]; omega, fun q hq => ?_⟩
  rw [← List.mem_inits] at hq
  simp only [List.inits, List.map_cons, List.map_nil, List.mem_cons, List.not_mem_nil, or_false] at hq
  rcases hq with rfl | rfl | rfl <;> simp only [flow_cons, flow_nil, at_ne hA, at_ne hB] <;> omega

theorem two_inner {P A C B A' B' : Vec ℝ} (hA : A ≠ P) (hB : B ≠ P) (hA' : A' ≠ P) (hB' : B' ≠ P) :
    flow P [(B, C), (C, A), (B', C), (C, A')] = 0 ∧
      ∀ q, q <+: [(B, C), (C, A), (B', C), (C, A')] → -1 ≤ flow P q ∧ flow P q ≤ 1 := by
  have c0 := at_nonneg P C
  have c1 := at_le P C
  refine ⟨by simp only [flow_cons, flow_nil, at_ne hA, at_ne hB, at_ne hA', at_ne hB']; omega, fun q hq => ?_⟩
  rw [← List.mem_inits] at hq
  simp only [List.inits, List.map_cons, List.map_nil, List.mem_cons, List.not_mem_nil, or_false] at hq
  rcases hq with rfl | rfl | rfl | rfl | rfl <;>
    simp only [flow_cons, flow_nil, at_ne hA, at_ne hB, at_ne hA', at_ne hB'] <;> omega

theorem seg_inner {P A B : Vec ℝ} (hA : A ≠ P) (hB : B ≠ P) :
    flow P (seg A B) = 0 ∧ ∀ q, q <+: seg A B → -1 ≤ flow P q ∧ flow P q ≤ 1 := by
  refine ⟨by rw [flow_seg, at_ne hA, at_ne hB]; rfl, fun q hq => ?_⟩
  unfold seg at hq
  split at hq
  · rw [List.prefix_nil] at hq; subst hq; rw [flow_nil]; omega
  · rw [← List.mem_inits] at hq
    simp only [List.inits, List.map_cons, List.map_nil, List.mem_cons, List.not_mem_nil, or_false] at hq
    rcases hq with rfl | rfl <;> simp only [flow_cons, flow_nil, at_ne hA, at_ne hB] <;> omega

set_option maxHeartbeats 1000000 in
theorem hard_good {t a b c d x0 x1 y0 y1 : ℝ} (hx : x0 < x1) (hy : y0 < y1) :
    GoodCell t a b c d x0 x1 y0 y1 (cellHard t a b c d x0 x1 y0 y1) := by
  have ex : x0 < lerp x0 x1 (lit (1 / 2)) ∧ lerp x0 x1 (lit (1 / 2)) < x1 := by
    simp only [lerp, lit_real]; push_cast; constructor <;> linarith
  have ey : y0 < lerp y0 y1 (lit (1 / 2)) ∧ lerp y0 y1 (lit (1 / 2)) < y1 := by
    simp only [lerp, lit_real]; push_cast; constructor <;> linarith
  unfold cellHard
  generalize lerp x0 x1 (lit (1 / 2)) = xm at *
  generalize lerp y0 y1 (lit (1 / 2)) = ym at *
  obtain ⟨ex0, ex1⟩ := ex
  obtain ⟨ey0, ey1⟩ := ey
  have nL : (⟨x0, ym⟩ : Vec ℝ) ≠ ⟨xm, ym⟩ := by intro e; injection e; linarith
  have nR : (⟨x1, ym⟩ : Vec ℝ) ≠ ⟨xm, ym⟩ := by intro e; injection e; linarith
  have nB : (⟨xm, y0⟩ : Vec ℝ) ≠ ⟨xm, ym⟩ := by intro e; injection e; linarith
  have nT : (⟨xm, y1⟩ : Vec ℝ) ≠ ⟨xm, ym⟩ := by intro e; injection e; linarith
  have nBT : (⟨xm, y0⟩ : Vec ℝ) ≠ ⟨xm, y1⟩ := by intro e; injection e; linarith
  have nLR : (⟨x0, ym⟩ : Vec ℝ) ≠ ⟨x1, ym⟩ := by intro e; injection e; linarith
  simp only [path_eq nL nR, path_eq nL nB, path_eq nL nT, path_eq nR nL, path_eq nR nB, path_eq nR nT, path_eq nB nL, path_eq nB nR,
    path_eq nB nT, path_eq nT nL, path_eq nT nR, path_eq nT nB, List.cons_append, List.nil_append]
  refine ⟨?_, ?_, ?_, ?_⟩
  · intro s hs
    by_cases h1 : t < a <;> by_cases h2 : t < b <;> by_cases h3 : t < c <;> by_cases h4 : t < d <;>
      simp only [code, h1, h2, h3, h4, if_true, if_false, Nat.reduceAdd, List.not_mem_nil, List.mem_cons, or_false, seg_of_ne nLR,
        seg_of_ne nLR.symm, seg_of_ne nBT, seg_of_ne nBT.symm] at hs <;>
      first
      | (rcases hs with rfl | rfl | rfl | rfl <;> simp [OwnC, *])
      | (rcases hs with rfl | rfl <;> simp [OwnC, *])
      | (subst hs; simp [OwnC, *])
  · intro P hP
    have hC : (⟨xm, ym⟩ : Vec ℝ) ≠ P := by rintro rfl; exact hP ⟨ex0, ex1, ey0, ey1⟩
    split
    case h_6 =>
      simp only [starts_cons, ends_cons, starts_nil, ends_nil, if_neg hC]
      constructor
      · by_contra hc
        have : (⟨x0, ym⟩ : Vec ℝ) = P ∧ (⟨x1, ym⟩ : Vec ℝ) = P := by
          split at hc <;> split at hc <;> first | omega | (constructor <;> assumption)
        exact nLR (this.1.trans this.2.symm)
      · by_contra hc
        have : (⟨xm, y0⟩ : Vec ℝ) = P ∧ (⟨xm, y1⟩ : Vec ℝ) = P := by
          split at hc <;> split at hc <;> first | omega | (constructor <;> assumption)
        exact nBT (this.1.trans this.2.symm)
    case h_9 =>
      simp only [starts_cons, ends_cons, starts_nil, ends_nil, if_neg hC]
      constructor
      · by_contra hc
        have : (⟨xm, y0⟩ : Vec ℝ) = P ∧ (⟨xm, y1⟩ : Vec ℝ) = P := by
          split at hc <;> split at hc <;> first | omega | (constructor <;> assumption)
        exact nBT (this.1.trans this.2.symm)
      · by_contra hc
        have : (⟨x1, ym⟩ : Vec ℝ) = P ∧ (⟨x0, ym⟩ : Vec ℝ) = P := by
          split at hc <;> split at hc <;> first | omega | (constructor <;> assumption)
        exact nLR (this.2.trans this.1.symm)
    case h_15 => simp [starts_nil, ends_nil]
    all_goals first
      | exact once_one P _ _
      | (rw [(path_once P hC).1, (path_once P hC).2]; constructor <;> split <;> omega)
  · intro P hP
    have hL : (⟨x0, ym⟩ : Vec ℝ) ≠ P := by rintro rfl; exact absurd hP.1 (lt_irrefl _)
    have hR : (⟨x1, ym⟩ : Vec ℝ) ≠ P := by rintro rfl; exact absurd hP.2.1 (lt_irrefl _)
    have hB : (⟨xm, y0⟩ : Vec ℝ) ≠ P := by rintro rfl; exact absurd hP.2.2.1 (lt_irrefl _)
    have hT : (⟨xm, y1⟩ : Vec ℝ) ≠ P := by rintro rfl; exact absurd hP.2.2.2 (lt_irrefl _)
    split
    case h_15 => exact ⟨rfl, fun q hq => by rw [List.prefix_nil] at hq; subst hq; rw [flow_nil]; omega⟩
    all_goals first
      | exact seg_inner (by assumption) (by assumption)
      | exact path_inner (by assumption) (by assumption)
      | exact two_inner (by assumption) (by assumption) (by assumption) (by assumption)
  · intro s hs
    split at hs <;>
      simp only [List.not_mem_nil, List.mem_cons, or_false, seg_of_ne nLR,
        seg_of_ne nLR.symm, seg_of_ne nBT, seg_of_ne nBT.symm] at hs <;>
      first
      | (rcases hs with rfl | rfl | rfl | rfl <;> first | assumption | (apply Ne.symm; assumption))
      | (rcases hs with rfl | rfl <;> first | assumption | (apply Ne.symm; assumption))
      | (subst hs; first | assumption | (apply Ne.symm; assumption))

/-! ### The grid -/

theorem cell_unique {X : Nat → ℝ} (hX : StrictMono X) {i k : Nat} {p : ℝ} (h1 : X i < p) (h2 : p < X (i + 1)) (h3 : X k < p)
    (h4 : p < X (k + 1)) : i = k := by
  have a := hX.lt_iff_lt.1 (h1.trans h4)
  have b := hX.lt_iff_lt.1 (h3.trans h2)
  omega

theorem cell_not_line {X : Nat → ℝ} (hX : StrictMono X) {i k : Nat} {p : ℝ} (h1 : X i < p) (h2 : p < X (i + 1)) (h3 : p = X k) : False := by
  rw [h3] at h1 h2
  have a := hX.lt_iff_lt.1 h1
  have b := hX.lt_iff_lt.1 h2
  omega

theorem own_unique {X Y : Nat → ℝ} (hX : StrictMono X) (hY : StrictMono Y) (inn : Nat → Nat → Prop) {i j i' j' : Nat} {P : Vec ℝ}
    (h : OwnC (inn i j) (inn (i + 1) j) (inn i (j + 1)) (inn (i + 1) (j + 1)) (X i) (X (i + 1)) (Y j) (Y (j + 1)) P)
    (h' : OwnC (inn i' j') (inn (i' + 1) j') (inn i' (j' + 1)) (inn (i' + 1) (j' + 1)) (X i') (X (i' + 1)) (Y j') (Y (j' + 1)) P) :
    i = i' ∧ j = j' := by
  have lineX : ∀ {k l}, P.x = X k → P.x = X l → k = l := fun h1 h2 => hX.injective (h1.symm.trans h2)
  have lineY : ∀ {k l}, P.y = Y k → P.y = Y l → k = l := fun h1 h2 => hY.injective (h1.symm.trans h2)
  rcases h with ⟨a1, a2, a3, a4, a5⟩ | ⟨a1, a2, a3, a4, a5⟩ | ⟨a1, a2, a3, a4, a5⟩ | ⟨a1, a2, a3, a4, a5⟩ | ⟨a1, a2, a3, a4⟩ <;>
  rcases h' with ⟨b1, b2, b3, b4, b5⟩ | ⟨b1, b2, b3, b4, b5⟩ | ⟨b1, b2, b3, b4, b5⟩ | ⟨b1, b2, b3, b4, b5⟩ | ⟨b1, b2, b3, b4⟩ <;>
  first
  | exact ⟨cell_unique hX a1 a2 b1 b2, lineY a3 b3⟩
  | exact ⟨cell_unique hX a1 a2 b1 b2, by have := lineY a3 b3; omega⟩
  | exact ⟨lineX a1 b1, cell_unique hY a2 a3 b2 b3⟩
  | exact ⟨by have := lineX a1 b1; omega, cell_unique hY a2 a3 b2 b3⟩
  | exact ⟨cell_unique hX a1 a2 b1 b2, cell_unique hY a3 a4 b3 b4⟩
  | exact (cell_not_line hX a1 a2 b1).elim
  | exact (cell_not_line hX b1 b2 a1).elim
  | exact (cell_not_line hY a2 a3 b3).elim
  | exact (cell_not_line hY b2 b3 a3).elim
  | exact (cell_not_line hY a3 a4 b3).elim
  | exact (cell_not_line hY b3 b4 a3).elim
  | (exfalso
     obtain rfl := cell_unique hX a1 a2 b1 b2
     obtain rfl := lineY a3 b3
     first | exact a5 b4 | exact b5 a4)
  | (exfalso
     obtain rfl := cell_unique hY a2 a3 b2 b3
     obtain rfl := lineX a1 b1
     first | exact a5 b4 | exact b5 a4)

theorem prefix_flatMap {A B : Type} (g : A → List B) : ∀ (ls : List A) (pre : List B), pre <+: ls.flatMap g →
    ∃ l1 q, l1 <+: ls ∧ pre = l1.flatMap g ++ q ∧ (q = [] ∨ ∃ a ∈ ls, q <+: g a) := by
  intro ls
  induction ls with
  | nil => intro pre h; exact ⟨[], pre, List.nil_prefix, by simp, Or.inl (List.prefix_nil.1 h)⟩
  | cons a ls ih =>
    intro pre h
    rw [List.flatMap_cons] at h
    by_cases hl : pre.length ≤ (g a).length
    · exact ⟨[], pre, List.nil_prefix, by simp, Or.inr ⟨a, by simp, List.prefix_of_prefix_length_le h (List.prefix_append _ _) hl⟩⟩
    · have h2 : g a <+: pre := List.prefix_of_prefix_length_le (List.prefix_append _ _) h (by omega)
      obtain ⟨rest, rfl⟩ := h2
      rw [List.prefix_append_right_inj] at h
      obtain ⟨l1, q, p1, rfl, p3⟩ := ih rest h
      refine ⟨a :: l1, q, (List.prefix_cons_inj a).2 p1, by simp, ?_⟩
      rcases p3 with p3 | ⟨b, hb, p3⟩
      · exact Or.inl p3
      · exact Or.inr ⟨b, by simp [hb], p3⟩

theorem starts_flatMap_one {A : Type} (g : A → List (Vec ℝ × Vec ℝ)) (P : Vec ℝ) : ∀ ls : List A, ls.Nodup →
    (∀ a ∈ ls, starts P (g a) ≤ 1) → (∀ a ∈ ls, ∀ b ∈ ls, starts P (g a) ≠ 0 → starts P (g b) ≠ 0 → a = b) →
    starts P (ls.flatMap g) ≤ 1 := by
  intro ls
  induction ls with
  | nil => intro _ _ _; simp [starts_nil]
  | cons a ls ih =>
    intro hn h1 hu
    rw [List.flatMap_cons, starts_append]
    have hn' := List.nodup_cons.1 hn
    have := ih hn'.2 (fun b hb => h1 b (by simp [hb])) (fun b hb c hc => hu b (by simp [hb]) c (by simp [hc]))
    by_cases h0 : starts P (g a) = 0
    · omega
    · have hz : starts P (ls.flatMap g) = 0 := by
        apply starts_zero
        intro s hs e
        obtain ⟨b, hb, hsb⟩ := List.mem_flatMap.1 hs
        have hbn : starts P (g b) ≠ 0 := by
          intro hz
          simp only [starts, List.length_eq_zero_iff, List.filter_eq_nil_iff] at hz
          exact hz s hsb (vecEq_iff.2 e)
        have := hu a (by simp) b (by simp [hb]) h0 hbn
        exact hn'.1 (this ▸ hb)
      have := h1 a (by simp)
      omega

theorem ends_flatMap_one {A : Type} (g : A → List (Vec ℝ × Vec ℝ)) (P : Vec ℝ) : ∀ ls : List A, ls.Nodup →
    (∀ a ∈ ls, ends P (g a) ≤ 1) → (∀ a ∈ ls, ∀ b ∈ ls, ends P (g a) ≠ 0 → ends P (g b) ≠ 0 → a = b) →
    ends P (ls.flatMap g) ≤ 1 := by
  intro ls
  induction ls with
  | nil => intro _ _ _; simp [ends_nil]
  | cons a ls ih =>
    intro hn h1 hu
    rw [List.flatMap_cons, ends_append]
    have hn' := List.nodup_cons.1 hn
    have := ih hn'.2 (fun b hb => h1 b (by simp [hb])) (fun b hb c hc => hu b (by simp [hb]) c (by simp [hc]))
    by_cases h0 : ends P (g a) = 0
    · omega
    · have hz : ends P (ls.flatMap g) = 0 := by
        apply ends_zero
        intro s hs e
        obtain ⟨b, hb, hsb⟩ := List.mem_flatMap.1 hs
        have hbn : ends P (g b) ≠ 0 := by
          intro hz
          simp only [ends, List.length_eq_zero_iff, List.filter_eq_nil_iff] at hz
          exact hz s hsb (vecEq_iff.2 e)
        have := hu a (by simp) b (by simp [hb]) h0 hbn
        exact hn'.1 (this ▸ hb)
      have := h1 a (by simp)
      omega

theorem starts_prefix {P : Vec ℝ} {l m : List (Vec ℝ × Vec ℝ)} (h : l <+: m) : starts P l ≤ starts P m := by
  obtain ⟨r, rfl⟩ := h
  rw [starts_append]; omega
theorem ends_prefix {P : Vec ℝ} {l m : List (Vec ℝ × Vec ℝ)} (h : l <+: m) : ends P l ≤ ends P m := by
  obtain ⟨r, rfl⟩ := h
  rw [ends_append]; omega

theorem exists_of_starts {P : Vec ℝ} {l : List (Vec ℝ × Vec ℝ)} (h : starts P l ≠ 0) : ∃ s ∈ l, s.1 = P := by
  by_contra hc
  push Not at hc
  exact h (starts_zero hc)
theorem exists_of_ends {P : Vec ℝ} {l : List (Vec ℝ × Vec ℝ)} (h : ends P l ≠ 0) : ∃ s ∈ l, s.2 = P := by
  by_contra hc
  push Not at hc
  exact h (ends_zero hc)

/-- At no time does a point have two more starts than ends, or ends than starts. -/
theorem grid_prefix {X Y : Nat → ℝ} (hX : StrictMono X) (hY : StrictMono Y) (t : ℝ) (V : Nat → Nat → ℝ)
    (g : Nat × Nat → List (Vec ℝ × Vec ℝ)) (cells : List (Nat × Nat)) (hn : cells.Nodup)
    (hg : ∀ a ∈ cells, GoodCell t (V a.1 a.2) (V (a.1 + 1) a.2) (V a.1 (a.2 + 1)) (V (a.1 + 1) (a.2 + 1)) (X a.1) (X (a.1 + 1)) (Y a.2)
      (Y (a.2 + 1)) (g a)) (pre : List (Vec ℝ × Vec ℝ)) (P : Vec ℝ) (hpre : pre <+: cells.flatMap g) :
    starts P pre ≤ ends P pre + 1 ∧ ends P pre ≤ starts P pre + 1 := by
  have us : ∀ a ∈ cells, ∀ b ∈ cells, starts P (g a) ≠ 0 → starts P (g b) ≠ 0 → a = b := by
    intro a ha b hb h1 h2
    obtain ⟨s, hs, e1⟩ := exists_of_starts h1
    obtain ⟨r, hr, e2⟩ := exists_of_starts h2
    have o1 := ((hg a ha).own s hs).1
    have o2 := ((hg b hb).own r hr).1
    rw [e1] at o1; rw [e2] at o2
    have := own_unique hX hY (fun i j => t < V i j) o1 o2
    exact Prod.ext this.1 this.2
  have ue : ∀ a ∈ cells, ∀ b ∈ cells, ends P (g a) ≠ 0 → ends P (g b) ≠ 0 → a = b := by
    intro a ha b hb h1 h2
    obtain ⟨s, hs, e1⟩ := exists_of_ends h1
    obtain ⟨r, hr, e2⟩ := exists_of_ends h2
    have o1 := ((hg a ha).own s hs).2
    have o2 := ((hg b hb).own r hr).2
    rw [e1] at o1; rw [e2] at o2
    have := own_unique hX hY (fun i j => ¬ t < V i j) o1 o2
    exact Prod.ext this.1 this.2
  by_cases hw : ∃ a ∈ cells, Within (X a.1) (X (a.1 + 1)) (Y a.2) (Y (a.2 + 1)) P
  · obtain ⟨a, ha, hw⟩ := hw
    have hother : ∀ b ∈ cells, b ≠ a → ∀ s ∈ g b, s.1 ≠ P ∧ s.2 ≠ P := by
      intro b hb hba s hs
      constructor
      · intro e
        have o := ((hg b hb).own s hs).1
        rw [e] at o
        have := own_unique hX hY (fun i j => t < V i j) (P := P) (i' := a.1) (j' := a.2) o (Or.inr (Or.inr (Or.inr (Or.inr hw))))
        exact hba (Prod.ext this.1 this.2)
      · intro e
        have o := ((hg b hb).own s hs).2
        rw [e] at o
        have := own_unique hX hY (fun i j => ¬ t < V i j) (P := P) (i' := a.1) (j' := a.2) o (Or.inr (Or.inr (Or.inr (Or.inr hw))))
        exact hba (Prod.ext this.1 this.2)
    have hzero : ∀ b ∈ cells, flow P (g b) = 0 := by
      intro b hb
      by_cases e : b = a
      · rw [e]; exact ((hg a ha).inner P hw).1
      · rw [flow, starts_zero fun s hs => (hother b hb e s hs).1, ends_zero fun s hs => (hother b hb e s hs).2]; rfl
    obtain ⟨l1, q, p1, rfl, p3⟩ := prefix_flatMap g cells pre hpre
    have hl1 : flow P (l1.flatMap g) = 0 := by
      have : ∀ l : List (Nat × Nat), (∀ b ∈ l, b ∈ cells) → flow P (l.flatMap g) = 0 := by
        intro l; induction l with
        | nil => intro _; rfl
        | cons b l ih =>
          intro hb
          rw [List.flatMap_cons, flow_append, hzero b (hb b (by simp)), ih fun c hc => hb c (by simp [hc])]; rfl
      exact this l1 fun b hb => p1.subset hb
    have hq : -1 ≤ flow P q ∧ flow P q ≤ 1 := by
      rcases p3 with rfl | ⟨b, hb, hq⟩
      · rw [flow_nil]; omega
      · by_cases e : b = a
        · rw [e] at hq; exact ((hg a ha).inner P hw).2 q hq
        · rw [flow, starts_zero fun s hs => (hother b hb e s (hq.subset hs)).1,
            ends_zero fun s hs => (hother b hb e s (hq.subset hs)).2]; omega
    have := flow_append P (l1.flatMap g) q
    rw [hl1] at this
    unfold flow at this hq
    omega
  · have hw' : ∀ a ∈ cells, ¬ Within (X a.1) (X (a.1 + 1)) (Y a.2) (Y (a.2 + 1)) P := fun a ha h => hw ⟨a, ha, h⟩
    have s1 := starts_flatMap_one g P cells hn (fun a ha => ((hg a ha).once P (hw' a ha)).1) us
    have e1 := ends_flatMap_one g P cells hn (fun a ha => ((hg a ha).once P (hw' a ha)).2) ue
    have := starts_prefix (P := P) hpre
    have := ends_prefix (P := P) hpre
    omega

end CP
