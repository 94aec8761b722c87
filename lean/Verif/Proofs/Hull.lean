import Verif.Proofs.HullArray
import Verif.Proofs.Polygon

/-! # Geometry of quickhull -/

namespace CP
namespace HullImpl

theorem pairsFrom_append {A : Type} (a b : A) (l r : List A) :
    pairsFrom a (l ++ b :: r) = pairsFrom a (l ++ [b]) ++ pairsFrom b r := by
  induction l generalizing a with
  | nil => simp [pairsFrom]
  | cons x l ih => simp [pairsFrom, ih]

theorem mem_edges_cons {A : Type} (a : A) (t : List A) (e : A × A) :
    e ∈ edges (a :: t) ↔ e ∈ pairsFrom a (t ++ [a]) := by
  rcases List.eq_nil_or_concat t with rfl | ⟨s, z, rfl⟩
  · simp [edges, pairsFrom]
  · have h1 : (a :: s.concat z).getLast? = some z := by rw [List.concat_eq_append, ← List.cons_append]; simp only [List.getLast?_append, List.getLast?_singleton]; rfl
    unfold edges
    rw [h1]
    simp only [List.concat_eq_append, List.append_assoc, List.cons_append, List.nil_append, pairsFrom]
    rw [pairsFrom_append a z s [a]]
    simp [pairsFrom, or_comm]

theorem hull_mono {S T : Pts} (h : ∀ p, S p → T p) {x : Vec ℝ} (hx : Hull S x) : Hull T x :=
  Hull.least (isConvex_hull T) (fun p hp => Hull.pt (h p hp)) hx

/-- A point of the triangle `a p b`. -/
theorem hull_triangle {S : Pts} {a p b x : Vec ℝ} (ha : S a) (hp : S p) (hb : S b) (h0 : turn a b p < 0)
    (h1 : turn a b x < 0) (h2 : 0 ≤ turn a p x) (h3 : 0 ≤ turn p b x) : Hull S x := by
  have hsum : turn a p x + turn p b x + -turn a b x = - turn a b p := by simp only [turn]; ring
  have hc : 0 < turn a p x + -turn a b x ∨ (turn a p x = 0 ∧ turn a b x = 0) := by
    left; linarith
  -- the point on `p b`… first mix `p` and `b`, then with `a`
  obtain ⟨D, hD⟩ : ∃ D, D = - turn a b p := ⟨_, rfl⟩
  have hDp : 0 < D := by rw [hD]; linarith
  -- weights: `a ↦ turn p b x`, `b ↦ turn a p x`, `p ↦ - turn a b x`
  obtain ⟨w, hw⟩ : ∃ w, w = turn a p x + -turn a b x := ⟨_, rfl⟩
  have hwp : 0 < w := by rw [hw]; linarith
  obtain ⟨m, hm⟩ : ∃ m : Vec ℝ, m = ⟨p.x + turn a p x / w * (b.x - p.x), p.y + turn a p x / w * (b.y - p.y)⟩ := ⟨_, rfl⟩
  have hmix : Hull S m := by
    refine Hull.mix (Hull.pt hp) (Hull.pt hb) ⟨turn a p x / w, div_nonneg h2 hwp.le, ?_, hm⟩
    rw [div_le_one hwp, hw]; linarith
  refine Hull.mix (Hull.pt ha) hmix ⟨w / D, div_nonneg hwp.le hDp.le, ?_, ?_⟩
  · rw [div_le_one hDp, hD, hw]; linarith
  · rw [hm]
    have hDne : D ≠ 0 := hDp.ne'
    have hwne : w ≠ 0 := hwp.ne'
    ext
    · simp only
      field_simp
      rw [hD, hw]; simp only [turn]; ring
    · simp only
      field_simp
      rw [hD, hw]; simp only [turn]; ring

theorem plucker (d p b x : Vec ℝ) : d.cross p * x.cross b = d.cross x * p.cross b + d.cross b * x.cross p := by
  simp only [Vec.cross]; ring

theorem turn_cross (a b x : Vec ℝ) : turn a b x = (b.sub a).cross (x.sub a) := by simp only [turn, Vec.cross, Vec.sub]
theorem turn_cross' (a b x : Vec ℝ) : turn a b x = - (a.sub b).cross (x.sub b) := by
  simp only [turn, Vec.cross, Vec.sub]; ring

theorem cross_anti (u v : Vec ℝ) : u.cross v = - v.cross u := by simp only [Vec.cross]; ring

/-- Right of `a → p` implies right of `a → b`. -/
theorem right_of_first {d a b p x : Vec ℝ} (hb : 0 < d.cross (b.sub a)) (hp : 0 ≤ d.cross (p.sub a))
    (hx : 0 ≤ d.cross (x.sub a)) (h0 : turn a b p < 0) (h1 : turn a p x < 0) :
    turn a b x < 0 ∧ 0 < d.cross (p.sub a) := by
  rw [turn_cross] at h0 h1 ⊢
  have e := plucker d (p.sub a) (b.sub a) (x.sub a)
  have e1 : (b.sub a).cross (p.sub a) = - (p.sub a).cross (b.sub a) := cross_anti _ _
  have e2 : (p.sub a).cross (x.sub a) = - (x.sub a).cross (p.sub a) := cross_anti _ _
  have e3 : (b.sub a).cross (x.sub a) = - (x.sub a).cross (b.sub a) := cross_anti _ _
  have hpos : 0 < d.cross (p.sub a) * (x.sub a).cross (b.sub a) := by
    rw [e]
    have := mul_nonneg hx (show 0 ≤ (p.sub a).cross (b.sub a) by linarith)
    have := mul_pos hb (show 0 < (x.sub a).cross (p.sub a) by linarith)
    linarith
  have hp' : 0 < d.cross (p.sub a) := by
    rcases lt_or_eq_of_le hp with h | h
    · exact h
    · rw [← h] at hpos; simp at hpos
  have := (mul_pos_iff_of_pos_left hp').1 hpos
  exact ⟨by linarith, hp'⟩

/-- Right of `p → b` implies right of `a → b`. -/
theorem right_of_second {d a b p x : Vec ℝ} (ha : 0 < d.cross (a.sub b)) (hp : 0 ≤ d.cross (p.sub b))
    (hx : 0 ≤ d.cross (x.sub b)) (h0 : turn a b p < 0) (h1 : turn p b x < 0) :
    turn a b x < 0 ∧ 0 < d.cross (p.sub b) := by
  rw [turn_cross'] at h0 h1 ⊢
  have e := plucker d (p.sub b) (a.sub b) (x.sub b)
  have e1 : (a.sub b).cross (p.sub b) = - (p.sub b).cross (a.sub b) := cross_anti _ _
  have e2 : (p.sub b).cross (x.sub b) = - (x.sub b).cross (p.sub b) := cross_anti _ _
  have e3 : (a.sub b).cross (x.sub b) = - (x.sub b).cross (a.sub b) := cross_anti _ _
  have hneg : d.cross (p.sub b) * (x.sub b).cross (a.sub b) < 0 := by
    rw [e]
    have := mul_nonneg hx (show 0 ≤ -(p.sub b).cross (a.sub b) by linarith)
    have := mul_pos ha (show 0 < -(x.sub b).cross (p.sub b) by linarith)
    linarith
  have hp' : 0 < d.cross (p.sub b) := by
    rcases lt_or_eq_of_le hp with h | h
    · exact h
    · rw [← h] at hneg; simp at hneg
  have : (x.sub b).cross (a.sub b) < 0 := by
    by_contra hc
    push Not at hc
    have := mul_nonneg hp hc
    linarith
  exact ⟨by linarith, hp'⟩

/-- What holds of a chain found among the points `S` that contain all points of `X` on the right of `a → b`. -/
theorem Chain.geom {S : List (Vec ℝ)} {a b : Vec ℝ} {l : List (Vec ℝ)} (h : Chain S a b l) :
    ∀ (X : Pts) (da db : Vec ℝ), (∀ x ∈ S, X x) → (∀ x, X x → turn a b x < 0 → x ∈ S) → X a → X b →
      (∀ x, X x → 0 ≤ da.cross (x.sub a)) → (∀ x, X x → 0 ≤ db.cross (x.sub b)) →
      ((∃ x, X x ∧ turn a b x < 0) → 0 < da.cross (b.sub a) ∧ 0 < db.cross (a.sub b)) →
      (∀ x ∈ l, x ∈ S ∧ turn a b x < 0) ∧ l.Nodup ∧ (∀ e ∈ pairsFrom a (l ++ [b]), ∀ x, X x → 0 ≤ turn e.1 e.2 x) ∧
        (∀ x ∈ S, turn a b x < 0 → Hull (fun p => p ∈ a :: (l ++ [b])) x) := by
  induction h with
  | nil hS =>
    rename_i S a b
    intro X da db hSX hcomp _ _ _ _ _
    refine ⟨by simp, by simp, ?_, ?_⟩
    · intro e he x hx
      simp only [List.nil_append, pairsFrom, List.mem_singleton] at he
      subst he
      by_contra hc
      push Not at hc
      have := hS x (hcomp x hx hc)
      linarith
    · intro x hx h; have := hS x hx; linarith
  | cons hperm hp hfar hneg hN h1 h2 c1 c2 ih1 ih2 =>
    rename_i S S1 S2 N a b p l r
    intro X da db hSX hcomp hXa hXb hda hdb hdir
    have hm : ∀ x, x ∈ S ↔ x = p ∨ x ∈ S1 ∨ x ∈ S2 ∨ x ∈ N := by
      intro x; rw [hperm.mem_iff]; simp
    have hXp : X p := hSX p ((hm p).2 (Or.inl rfl))
    obtain ⟨hda1, hdb1⟩ := hdir ⟨p, hXp, hp⟩
    -- `p` is furthest from the line
    have hfarX : ∀ x, X x → turn a b p ≤ turn a b x := by
      intro x hx
      by_cases hx0 : turn a b x < 0
      · rcases (hm x).1 (hcomp x hx hx0) with h | h | h | h
        · rw [h]
        · exact hfar x (List.mem_append.2 (Or.inl h))
        · exact hfar x (List.mem_append.2 (Or.inr h))
        · have := hN x h; linarith
      · linarith
    have hdp : ∀ x, X x → 0 ≤ (b.sub a).cross (x.sub p) := by
      intro x hx
      have := hfarX x hx
      have e : (b.sub a).cross (x.sub p) = turn a b x - turn a b p := by simp only [turn, Vec.cross, Vec.sub]; ring
      rw [e]; linarith
    have hdpa : 0 < (b.sub a).cross (a.sub p) := by
      have e : (b.sub a).cross (a.sub p) = - turn a b p := by simp only [turn, Vec.cross, Vec.sub]; ring
      rw [e]; linarith
    have hdpb : 0 < (b.sub a).cross (b.sub p) := by
      have e : (b.sub a).cross (b.sub p) = - turn a b p := by simp only [turn, Vec.cross, Vec.sub]; ring
      rw [e]; linarith
    -- nothing is on the right of both
    have hnot : ∀ x, X x → turn a p x < 0 → turn p b x < 0 → False := by
      intro x hx g1 g2
      have := hfarX x hx
      have e : turn a b x = turn a p x + turn p b x + turn a b p := by simp only [turn]; ring
      linarith
    have hcomp1 : ∀ x, X x → turn a p x < 0 → x ∈ S1 := by
      intro x hx g
      have hr := (right_of_first hda1 (hda p hXp) (hda x hx) hp g).1
      rcases (hm x).1 (hcomp x hx hr) with h | h | h | h
      · rw [h, turn_self_right] at g; linarith
      · exact h
      · have := h2 x h; linarith
      · have := hN x h; linarith
    have hcomp2 : ∀ x, X x → turn p b x < 0 → x ∈ S2 := by
      intro x hx g
      have hr := (right_of_second hdb1 (hdb p hXp) (hdb x hx) hp g).1
      rcases (hm x).1 (hcomp x hx hr) with h | h | h | h
      · rw [h, turn_self_left] at g; linarith
      · exact absurd (h1 x h) (fun g' => hnot x hx g' g)
      · exact h
      · have := hN x h; linarith
    obtain ⟨l1, l2, l3, l4⟩ := ih1 X da (b.sub a) (fun x hx => hSX x ((hm x).2 (Or.inr (Or.inl hx)))) hcomp1 hXa hXp hda hdp
      (by
        rintro ⟨x, hx, g⟩
        exact ⟨(right_of_first hda1 (hda p hXp) (hda x hx) hp g).2, hdpa⟩)
    obtain ⟨r1, r2, r3, r4⟩ := ih2 X (b.sub a) db (fun x hx => hSX x ((hm x).2 (Or.inr (Or.inr (Or.inl hx))))) hcomp2 hXp hXb
      hdp hdb (by
        rintro ⟨x, hx, g⟩
        exact ⟨hdpb, (right_of_second hdb1 (hdb p hXp) (hdb x hx) hp g).2⟩)
    refine ⟨?_, ?_, ?_, ?_⟩
    · intro x hx
      rcases List.mem_append.1 hx with h | h
      · have := (l1 x h).1
        exact ⟨(hm x).2 (Or.inr (Or.inl this)), hneg x (List.mem_append.2 (Or.inl this))⟩
      · rcases List.mem_cons.1 h with h | h
        · rw [h]; exact ⟨(hm p).2 (Or.inl rfl), hp⟩
        · have := (r1 x h).1
          exact ⟨(hm x).2 (Or.inr (Or.inr (Or.inl this))), hneg x (List.mem_append.2 (Or.inr this))⟩
    · rw [List.nodup_append]
      refine ⟨l2, List.nodup_cons.2 ⟨?_, r2⟩, ?_⟩
      · intro h
        have := (r1 p h).2
        rw [turn_self_left] at this; linarith
      · intro x hx y hy e
        subst e
        have g := (l1 x hx).2
        rcases List.mem_cons.1 hy with h | h
        · rw [h, turn_self_right] at g; linarith
        · exact hnot x (hSX x ((hm x).2 (Or.inr (Or.inl (l1 x hx).1)))) g (r1 x h).2
    · intro e he
      rw [List.append_assoc, List.cons_append, pairsFrom_append] at he
      rcases List.mem_append.1 he with h | h
      · exact l3 e h
      · exact r3 e h
    · intro x hx hx0
      have hXx := hSX x hx
      by_cases g1 : turn a p x < 0
      · refine hull_mono ?_ (l4 x (hcomp1 x hXx g1) g1)
        intro q hq; simp at hq ⊢; tauto
      · by_cases g2 : turn p b x < 0
        · refine hull_mono ?_ (r4 x (hcomp2 x hXx g2) g2)
          intro q hq; simp at hq ⊢; tauto
        · push Not at g1 g2
          exact hull_triangle (S := fun q => q ∈ a :: (l ++ p :: r ++ [b])) (by simp) (by simp) (by simp) hp hx0 g1 g2

end HullImpl
end CP
