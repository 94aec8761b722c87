import Verif.Proofs.MarchClosed

/-! # C35 in exact arithmetic: the grid covers the box, the contours are closed lines -/

namespace CP
open GoFloat PL March

/-- The grid in exact arithmetic: `xs` columns, the first on the left side of the box and the last on the right side, evenly
spaced; and so the rows. -/
theorem C35_grid (bb : BB ℝ) (xs ys i j : Nat) (hx : 2 ≤ xs) (hy : 2 ≤ ys) :
    gridPt bb xs ys i j = ⟨bb.l + (bb.r - bb.l) * (i / (xs - 1)), bb.b + (bb.t - bb.b) * (j / (ys - 1))⟩ := by
  have ex : ∀ i : Nat, gridX bb xs i = bb.l + (bb.r - bb.l) * (i / (xs - 1)) := by
    intro i
    simp only [gridX, lerp, ofInt_real]
    push_cast
    ring
  have ey : ∀ i : Nat, gridY bb ys i = bb.b + (bb.t - bb.b) * (i / (ys - 1)) := by
    intro i
    simp only [gridY, lerp, ofInt_real]
    push_cast
    ring
  simp only [gridPt, ex, ey]
  congr 1
  · split
    · rename_i h; rw [h.1]; simp
    · rfl
  · split
    · rename_i h; rw [h]; simp
    · rfl

theorem gridX_mono (bb : BB ℝ) (xs : Nat) (hx : 2 ≤ xs) (h : bb.l < bb.r) : StrictMono (gridX bb xs) := by
  intro i k hik
  have hx' : (0 : ℝ) < (xs : ℝ) - 1 := by
    have : (2 : ℝ) ≤ xs := by exact_mod_cast hx
    linarith
  have hik' : (i : ℝ) < k := by exact_mod_cast hik
  simp only [gridX, lerp, ofInt_real]
  push_cast
  have : (i : ℝ) * (1 / ((xs : ℝ) - 1)) < k * (1 / ((xs : ℝ) - 1)) := by
    apply mul_lt_mul_of_pos_right hik'; positivity
  nlinarith

theorem gridY_mono (bb : BB ℝ) (ys : Nat) (hy : 2 ≤ ys) (h : bb.b < bb.t) : StrictMono (gridY bb ys) := by
  intro i k hik
  have hx' : (0 : ℝ) < (ys : ℝ) - 1 := by
    have : (2 : ℝ) ≤ ys := by exact_mod_cast hy
    linarith
  have hik' : (i : ℝ) < k := by exact_mod_cast hik
  simp only [gridY, lerp, ofInt_real]
  push_cast
  have : (i : ℝ) * (1 / ((ys : ℝ) - 1)) < k * (1 / ((ys : ℝ) - 1)) := by
    apply mul_lt_mul_of_pos_right hik'; positivity
  nlinarith

/-- In a proper box the sampled points are all different. -/
theorem C35_points_differ (bb : BB ℝ) (xs ys : Nat) (hx : 2 ≤ xs) (hy : 2 ≤ ys) (hl : bb.l < bb.r) (hb : bb.b < bb.t) {i j i' j' : Nat}
    (h : gridPt bb xs ys i j = gridPt bb xs ys i' j') : i = i' ∧ j = j' := by
  have e : ∀ i j, gridPt bb xs ys i j = ⟨gridX bb xs i, gridY bb ys j⟩ := by
    intro i j
    rw [C35_grid bb xs ys i j hx hy]
    simp only [gridX, gridY, lerp, ofInt_real]
    push_cast
    congr 1 <;> ring
  rw [e, e] at h
  injection h with h1 h2
  exact ⟨(gridX_mono bb xs hx hl).injective h1, (gridY_mono bb ys hy hb).injective h2⟩

/-- No loose end strictly inside the box. -/
theorem C35_balance_inside (bb : BB ℝ) (xs ys : Nat) (t : ℝ) (sample : Nat → Vec ℝ → ℝ) (hx : 2 ≤ xs) (hy : 2 ≤ ys) (P : Vec ℝ)
    (h1 : bb.l < P.x) (h2 : P.x < bb.r) (h3 : bb.b < P.y) (h4 : P.y < bb.t) :
    (∃ log, marchSoft bb xs ys t sample = some log ∧ starts P (segsOf log) = ends P (segsOf log)) ∧
    (∃ log, marchHard bb xs ys t sample = some log ∧ starts P (segsOf log) = ends P (segsOf log)) := by
  have hx' : ((xs : ℝ) - 1) ≠ 0 := by
    have : (2 : ℝ) ≤ xs := by exact_mod_cast hx
    intro h; linarith
  have hy' : ((ys : ℝ) - 1) ≠ 0 := by
    have : (2 : ℝ) ≤ ys := by exact_mod_cast hy
    intro h; linarith
  have e1 : gridX bb xs 0 = bb.l := by simp [gridX, lerp]
  have e2 : gridX bb xs (xs - 1) = bb.r := by
    simp only [gridX, lerp, ofInt_real]
    push_cast [Nat.cast_sub (show 1 ≤ xs by omega)]
    field_simp; ring
  have e3 : gridY bb ys 0 = bb.b := by simp [gridY, lerp]
  have e4 : gridY bb ys (ys - 1) = bb.t := by
    simp only [gridY, lerp, ofInt_real]
    push_cast [Nat.cast_sub (show 1 ≤ ys by omega)]
    field_simp; ring
  exact C35_balance bb xs ys t sample (by omega) P (by rw [e1]; exact h1.ne') (by rw [e2]; exact h2.ne) (by rw [e3]; exact h3.ne')
    (by rw [e4]; exact h4.ne)

/-- The cells, row by row. -/
def cellList (n m : Nat) : List (Nat × Nat) := (List.range m).flatMap fun j => (List.range n).map fun i => (i, j)

theorem cellList_nodup (n m : Nat) : (cellList n m).Nodup := by
  unfold cellList
  rw [List.nodup_flatMap]
  refine ⟨fun j _ => List.nodup_range.map fun a b h => (Prod.mk.injEq .. ▸ h).1, ?_⟩
  refine List.nodup_range.imp fun {a b} hab => ?_
  intro x h1 h2
  obtain ⟨_, _, rfl⟩ := List.mem_map.1 h1
  obtain ⟨_, _, e⟩ := List.mem_map.1 h2
  exact hab (by injection e with _ e; exact e.symm)

theorem mem_cellList {n m : Nat} {a : Nat × Nat} (h : a ∈ cellList n m) : a.1 < n ∧ a.2 < m := by
  obtain ⟨j, hj, h⟩ := List.mem_flatMap.1 h
  obtain ⟨i, hi, rfl⟩ := List.mem_map.1 h
  exact ⟨List.mem_range.1 hi, List.mem_range.1 hj⟩

theorem march_closed (bb : BB ℝ) (xs ys : Nat) (t : ℝ) (sample : Nat → Vec ℝ → ℝ) (cell : Cell ℝ) (h : ℝ → ℝ → ℝ → ℝ → ℝ)
    (hs : Sided t h cell) (hx : 2 ≤ xs) (hy : 2 ≤ ys)
    (hl : bb.l < bb.r) (hb : bb.b < bb.t)
    (hborder : ∀ i j, i < xs → j < ys → (i = 0 ∨ i = xs - 1 ∨ j = 0 ∨ j = ys - 1) → ¬ t < value bb xs ys sample i j)
    (hg : ∀ i j, i < xs - 1 → j < ys - 1 → GoodCell t (value bb xs ys sample i j) (value bb xs ys sample (i + 1) j)
      (value bb xs ys sample i (j + 1)) (value bb xs ys sample (i + 1) (j + 1)) (gridX bb xs i) (gridX bb xs (i + 1)) (gridY bb ys j)
      (gridY bb ys (j + 1)) (cell t (value bb xs ys sample i j) (value bb xs ys sample (i + 1) j)
      (value bb xs ys sample i (j + 1)) (value bb xs ys sample (i + 1) (j + 1)) (gridX bb xs i) (gridX bb xs (i + 1)) (gridY bb ys j)
      (gridY bb ys (j + 1)))) :
    ∃ log lines, marchCells bb xs ys t sample cell = some log ∧ collectAll (segsOf log) [] = some lines ∧
      (allSteps lines).Perm (segsOf log) ∧ ∀ l ∈ lines, Closed l := by
  obtain ⟨log, h1, h2⟩ := C35_cells bb xs ys t sample cell (by omega)
  obtain ⟨lines, h3, h4⟩ := C34_all (segsOf log) []
  refine ⟨log, lines, h1, h3, by simpa [allSteps] using h4, ?_⟩
  obtain ⟨g, hgd⟩ : ∃ g : Nat × Nat → List (Vec ℝ × Vec ℝ), g = fun a =>
    cell t (value bb xs ys sample a.1 a.2) (value bb xs ys sample (a.1 + 1) a.2) (value bb xs ys sample a.1 (a.2 + 1))
      (value bb xs ys sample (a.1 + 1) (a.2 + 1)) (gridX bb xs a.1) (gridX bb xs (a.1 + 1)) (gridY bb ys a.2) (gridY bb ys (a.2 + 1)) := ⟨_, rfl⟩
  have hseg : segsOf log = (cellList (xs - 1) (ys - 1)).flatMap g := by
    rw [h2, cellList, List.flatMap_assoc, hgd]
    apply List.flatMap_congr
    intro j _
    rw [List.flatMap_map]
  have hgood : ∀ a ∈ cellList (xs - 1) (ys - 1), GoodCell t (value bb xs ys sample a.1 a.2) (value bb xs ys sample (a.1 + 1) a.2)
      (value bb xs ys sample a.1 (a.2 + 1)) (value bb xs ys sample (a.1 + 1) (a.2 + 1)) (gridX bb xs a.1) (gridX bb xs (a.1 + 1))
      (gridY bb ys a.2) (gridY bb ys (a.2 + 1)) (g a) := by
    intro a ha
    rw [hgd]
    exact hg a.1 a.2 (mem_cellList ha).1 (mem_cellList ha).2
  refine C34_closed_touching (segsOf log) ?_ ?_ ?_ h3
  · intro s hs
    rw [hseg] at hs
    obtain ⟨a, ha, hs⟩ := List.mem_flatMap.1 hs
    exact (hgood a ha).ne s hs
  · intro pre P hpre
    rw [hseg] at hpre
    exact grid_prefix (gridX_mono bb xs hx hl) (gridY_mono bb ys hy hb) t (value bb xs ys sample) g _ (cellList_nodup _ _) hgood pre P
      hpre
  · intro P
    obtain ⟨log', e1, e2⟩ := march_balance hs bb xs ys sample (by omega) P (Or.inr hborder)
    rw [h1] at e1
    cases e1
    exact e2

/-- **`MarchHard` with `PolyLineCollectSegment` returns closed lines**, made of exactly the emitted segments, if no value on the
border of the grid exceeds the threshold. -/
theorem C35_closed_hard (bb : BB ℝ) (xs ys : Nat) (t : ℝ) (sample : Nat → Vec ℝ → ℝ) (hx : 2 ≤ xs) (hy : 2 ≤ ys)
    (hl : bb.l < bb.r) (hb : bb.b < bb.t)
    (hborder : ∀ i j, i < xs → j < ys → (i = 0 ∨ i = xs - 1 ∨ j = 0 ∨ j = ys - 1) → ¬ t < value bb xs ys sample i j) :
    ∃ log lines, marchHard bb xs ys t sample = some log ∧ collectAll (segsOf log) [] = some lines ∧
      (allSteps lines).Perm (segsOf log) ∧ ∀ l ∈ lines, Closed l :=
  march_closed bb xs ys t sample cellHard _ (sided_hard t) hx hy hl hb hborder fun i j _ _ =>
    hard_good (gridX_mono bb xs hx hl (Nat.lt_succ_self i)) (gridY_mono bb ys hy hb (Nat.lt_succ_self j))

/-- **`MarchSoft` with `PolyLineCollectSegment` returns closed lines**, made of exactly the emitted segments, if no value on the
border of the grid exceeds the threshold and no value is exactly the threshold. -/
theorem C35_closed_soft (bb : BB ℝ) (xs ys : Nat) (t : ℝ) (sample : Nat → Vec ℝ → ℝ) (hx : 2 ≤ xs) (hy : 2 ≤ ys)
    (hl : bb.l < bb.r) (hb : bb.b < bb.t)
    (hborder : ∀ i j, i < xs → j < ys → (i = 0 ∨ i = xs - 1 ∨ j = 0 ∨ j = ys - 1) → ¬ t < value bb xs ys sample i j)
    (hne : ∀ i j, i < xs → j < ys → value bb xs ys sample i j ≠ t) :
    ∃ log lines, marchSoft bb xs ys t sample = some log ∧ collectAll (segsOf log) [] = some lines ∧
      (allSteps lines).Perm (segsOf log) ∧ ∀ l ∈ lines, Closed l :=
  march_closed bb xs ys t sample cellSoft _ (sided_soft t) hx hy hl hb hborder fun i j hi hj =>
    soft_good (gridX_mono bb xs hx hl (Nat.lt_succ_self i)) (gridY_mono bb ys hy hb (Nat.lt_succ_self j))
      (hne i j (by omega) (by omega)) (hne (i + 1) j (by omega) (by omega)) (hne i (j + 1) (by omega) (by omega))
      (hne (i + 1) (j + 1) (by omega) (by omega))

/-! ### A concrete image: one bright point in the middle of a 3 by 3 grid -/

def dot3 {F : Type} [GoFloat F] : Nat → Vec F → F := fun k _ => if k = 4 then 1 else 0

theorem dot3_border (t : ℝ) (ht : 0 < t) : ∀ i j, i < 3 → j < 3 → (i = 0 ∨ i = 3 - 1 ∨ j = 0 ∨ j = 3 - 1) →
    ¬ t < value ⟨0, 0, 2, 2⟩ 3 3 dot3 i j := by
  intro i j hi hj h
  have : j * 3 + i ≠ 4 := by omega
  simp only [value, dot3, if_neg this]
  linarith

/-- The hypotheses of `C35_closed_soft` and `C35_closed_hard` are met. -/
example : (∃ log lines, marchHard ⟨0, 0, 2, 2⟩ 3 3 (1 / 2 : ℝ) dot3 = some log ∧ collectAll (segsOf log) [] = some lines ∧
      (allSteps lines).Perm (segsOf log) ∧ ∀ l ∈ lines, Closed l) ∧
    (∃ log lines, marchSoft ⟨0, 0, 2, 2⟩ 3 3 (1 / 2 : ℝ) dot3 = some log ∧ collectAll (segsOf log) [] = some lines ∧
      (allSteps lines).Perm (segsOf log) ∧ ∀ l ∈ lines, Closed l) := by
  refine ⟨C35_closed_hard _ 3 3 _ _ (by norm_num) (by norm_num) (by norm_num) (by norm_num) (dot3_border _ (by norm_num)),
    C35_closed_soft _ 3 3 _ _ (by norm_num) (by norm_num) (by norm_num) (by norm_num) (dot3_border _ (by norm_num)) ?_⟩
  intro i j _ _
  simp only [value, dot3]
  split <;> norm_num

/-- That image has contours: 8 segments in hard and 4 in soft mode, collected into one line each. -/
example : (marchHard (⟨0, 0, 2, 2⟩ : BB Rat) 3 3 (1 / 2) dot3).map (fun log => ((segsOf log).length,
      (collectAll (segsOf log) []).map fun lines => lines.map fun l => (l.length, isClosed l))) = some (8, some [(9, true)]) ∧
    (marchSoft (⟨0, 0, 2, 2⟩ : BB Rat) 3 3 (1 / 2) dot3).map (fun log => ((segsOf log).length,
      (collectAll (segsOf log) []).map fun lines => lines.map fun l => (l.length, isClosed l))) = some (4, some [(5, true)]) := by
  decide +kernel

/-- The hypotheses of `C35_balance` are met at the point `(1/2, 1)`, where the contour of that image passes. -/
example : ∃ P : Vec Rat, P.x ≠ gridX ⟨0, 0, 2, 2⟩ 3 0 ∧ P.x ≠ gridX ⟨0, 0, 2, 2⟩ 3 2 ∧ P.y ≠ gridY ⟨0, 0, 2, 2⟩ 3 0 ∧
    P.y ≠ gridY ⟨0, 0, 2, 2⟩ 3 2 ∧
    (marchSoft (⟨0, 0, 2, 2⟩ : BB Rat) 3 3 (1 / 2) dot3).map (fun log => (starts P (segsOf log), ends P (segsOf log))) = some (1, 1) :=
  ⟨⟨1 / 2, 1⟩, by decide +kernel⟩

end CP
