import Verif.Spec.March
import Verif.Props.PolyLine
import Mathlib.Algebra.BigOperators.Intervals
import Mathlib.Tactic.Ring

/-! # The loops of MarchCells -/

namespace CP
open GoFloat PL March
variable {F : Type} [GoFloat F]

theorem calls_append (l m : List (Ev F)) : calls (l ++ m) = calls l + calls m := by
  simp [calls, List.filter_append]

theorem calls_sample (p : Vec F) : calls [Ev.sample p] = 1 := rfl

theorem calls_segs (l : List (Vec F × Vec F)) : calls (l.map fun s => Ev.seg s.1 s.2) = 0 := by
  induction l with
  | nil => rfl
  | cons s l ih => exact ih

theorem set_map_range {n : Nat} (f : Nat → F) (i : Nat) (v : F) :
    ((List.range n).map f).set i v = (List.range n).map fun k => if k = i then v else f k := by
  apply List.ext_getElem (by simp)
  intro k h1 h2
  rw [List.getElem_set]
  simp only [List.getElem_map, List.getElem_range]
  by_cases e : i = k
  · subst e; simp
  · rw [if_neg e, if_neg (Ne.symm e)]

/-- The segments of the cell in column `i` and row `j`. -/
def cellAt (bb : BB F) (xs ys : Nat) (t : F) (sample : Nat → Vec F → F) (cell : Cell F) (i j : Nat) : List (Vec F × Vec F) :=
  cell t (value bb xs ys sample i j) (value bb xs ys sample (i + 1) j) (value bb xs ys sample i (j + 1))
    (value bb xs ys sample (i + 1) (j + 1)) (gridX bb xs i) (gridX bb xs (i + 1)) (gridY bb ys j) (gridY bb ys (j + 1))

/-- The calls made for the cell in column `i` and row `j`. -/
def cellLog (bb : BB F) (xs ys : Nat) (t : F) (sample : Nat → Vec F → F) (cell : Cell F) (j i : Nat) : List (Ev F) :=
  Ev.sample (gridPt bb xs ys (i + 1) (j + 1)) :: (cellAt bb xs ys t sample cell i j).map fun s => Ev.seg s.1 s.2

theorem calls_cellLog (bb : BB F) (xs ys : Nat) (t : F) (sample : Nat → Vec F → F) (cell : Cell F) (j i : Nat) :
    calls (cellLog bb xs ys t sample cell j i) = 1 := by
  unfold cellLog
  rw [show ∀ (e : Ev F) l, e :: l = [e] ++ l from fun _ _ => rfl, calls_append, calls_sample, calls_segs]

theorem calls_flatMap (g : Nat → List (Ev F)) (h : ∀ i, calls (g i) = 1) : ∀ l : List Nat, calls (l.flatMap g) = l.length := by
  intro l
  induction l with
  | nil => rfl
  | cons a l ih => rw [List.flatMap_cons, calls_append, h, ih, List.length_cons, Nat.add_comm]

theorem firstRow_spec (bb : BB F) (xs ys : Nat) (sample : Nat → Vec F → F) :
    ∀ (n i : Nat) (f : Nat → F) (log : List (Ev F)), i + n = xs → calls log = i →
      firstRow bb (1 / ofInt (xs - 1 : Int)) sample (List.range' i n) ⟨log, (List.range xs).map f⟩ =
        ⟨log ++ (List.range' i n).map fun k => Ev.sample (gridPt bb xs ys k 0),
          (List.range xs).map fun k => if i ≤ k then value bb xs ys sample k 0 else f k⟩ := by
  intro n
  induction n with
  | zero =>
    intro i f log hi hc
    simp only [List.range'_zero, firstRow, List.map_nil, List.append_nil]
    congr 1
    apply List.map_congr_left
    intro k hk
    rw [if_neg (by have := List.mem_range.1 hk; omega)]
  | succ n ih =>
    intro i f log hi hc
    simp only [List.range'_succ, firstRow, take, List.map_cons]
    rw [set_map_range, ih (i + 1) _ _ (by omega) (by rw [calls_append, calls_sample, hc])]
    have hp : gridPt bb xs ys i 0 = ⟨lerp bb.l bb.r (ofInt i * (1 / ofInt (xs - 1 : Int))), bb.b⟩ := by simp [gridPt, gridX]
    congr 1
    · rw [List.append_assoc, hp]; rfl
    · apply List.map_congr_left
      intro k hk
      by_cases h1 : i + 1 ≤ k
      · rw [if_pos h1, if_pos (by omega)]
      · rw [if_neg h1]
        by_cases h2 : k = i
        · subst h2
          rw [if_pos rfl, if_pos (le_refl _), value, hp, hc, Nat.zero_mul, Nat.zero_add]
        · rw [if_neg h2, if_neg (by omega)]

theorem rowLoop_spec (bb : BB F) (xs ys : Nat) (t : F) (sample : Nat → Vec F → F) (cell : Cell F) (j : Nat) :
    ∀ (n i : Nat) (log : List (Ev F)), i + n = xs - 1 → 1 ≤ xs → calls log = (j + 1) * xs + i + 1 →
      rowLoop bb (1 / ofInt (xs - 1 : Int)) t (gridY bb ys j) (gridY bb ys (j + 1)) sample cell (List.range' i n)
        (value bb xs ys sample i j) (value bb xs ys sample i (j + 1))
        ⟨log, (List.range xs).map fun k => if k ≤ i then value bb xs ys sample k (j + 1) else value bb xs ys sample k j⟩ =
      some ⟨log ++ (List.range' i n).flatMap (cellLog bb xs ys t sample cell j),
        (List.range xs).map fun k => value bb xs ys sample k (j + 1)⟩ := by
  intro n
  induction n with
  | zero =>
    intro i log hi hx hc
    simp only [List.range'_zero, rowLoop, List.flatMap_nil, List.append_nil]
    congr 2
    apply List.map_congr_left
    intro k hk
    rw [if_pos (by have := List.mem_range.1 hk; omega)]
  | succ n ih =>
    intro i log hi hx hc
    have hb : ((List.range xs).map fun k => if k ≤ i then value bb xs ys sample k (j + 1) else value bb xs ys sample k j)[i + 1]? =
        some (value bb xs ys sample (i + 1) j) := by
      rw [List.getElem?_map, List.getElem?_range (by omega), Option.map_some, if_neg (by omega)]
    have hp : gridPt bb xs ys (i + 1) (j + 1) =
        ⟨lerp bb.l bb.r (ofInt (i + 1 : Nat) * (1 / ofInt (xs - 1 : Int))), gridY bb ys (j + 1)⟩ := by simp [gridPt, gridX]
    have hv : sample (calls log) ⟨lerp bb.l bb.r (ofInt (i + 1 : Nat) * (1 / ofInt (xs - 1 : Int))), gridY bb ys (j + 1)⟩ =
        value bb xs ys sample (i + 1) (j + 1) := by
      rw [value, hp, hc, Nat.add_assoc]
    rw [List.range'_succ, rowLoop]
    simp only [hb, Option.bind_eq_bind, Option.bind_some, take, hv]
    have hbuf : ((List.range xs).map fun k => if k ≤ i then value bb xs ys sample k (j + 1) else value bb xs ys sample k j).set
        (i + 1) (value bb xs ys sample (i + 1) (j + 1)) =
        (List.range xs).map fun k => if k ≤ i + 1 then value bb xs ys sample k (j + 1) else value bb xs ys sample k j := by
      rw [set_map_range]
      apply List.map_congr_left
      intro k _
      by_cases h1 : k = i + 1
      · subst h1; rw [if_pos rfl, if_pos (le_refl _)]
      · rw [if_neg h1]
        by_cases h2 : k ≤ i
        · rw [if_pos h2, if_pos (by omega)]
        · rw [if_neg h2, if_neg (by omega)]
    rw [hbuf]
    have hl : (log ++ [Ev.sample ⟨lerp bb.l bb.r (ofInt (i + 1 : Nat) * (1 / ofInt (xs - 1 : Int))), gridY bb ys (j + 1)⟩]) ++
        (cell t (value bb xs ys sample i j) (value bb xs ys sample (i + 1) j) (value bb xs ys sample i (j + 1))
          (value bb xs ys sample (i + 1) (j + 1)) (lerp bb.l bb.r (ofInt i * (1 / ofInt (xs - 1 : Int))))
          (lerp bb.l bb.r (ofInt (i + 1 : Nat) * (1 / ofInt (xs - 1 : Int)))) (gridY bb ys j)
          (gridY bb ys (j + 1))).map (fun s => Ev.seg s.1 s.2) = log ++ cellLog bb xs ys t sample cell j i := by
      unfold cellLog cellAt
      rw [hp, List.append_assoc]; rfl
    rw [hl, ih (i + 1) _ (by omega) hx (by rw [calls_append, calls_cellLog, hc]; ring)]
    simp only [List.flatMap_cons, List.append_assoc]

/-- The calls made for row `j` of cells. -/
def rowLog (bb : BB F) (xs ys : Nat) (t : F) (sample : Nat → Vec F → F) (cell : Cell F) (j : Nat) : List (Ev F) :=
  Ev.sample (gridPt bb xs ys 0 (j + 1)) :: (List.range (xs - 1)).flatMap (cellLog bb xs ys t sample cell j)

theorem calls_rowLog (bb : BB F) (xs ys : Nat) (t : F) (sample : Nat → Vec F → F) (cell : Cell F) (hx : 1 ≤ xs) (j : Nat) :
    calls (rowLog bb xs ys t sample cell j) = xs := by
  unfold rowLog
  rw [show ∀ (e : Ev F) l, e :: l = [e] ++ l from fun _ _ => rfl, calls_append, calls_sample,
    calls_flatMap _ (calls_cellLog bb xs ys t sample cell j), List.length_range]
  omega

theorem rows_spec (bb : BB F) (xs ys : Nat) (t : F) (sample : Nat → Vec F → F) (cell : Cell F) (hx : 1 ≤ xs) :
    ∀ (n j : Nat) (log : List (Ev F)), calls log = (j + 1) * xs →
      rows bb xs (1 / ofInt (xs - 1 : Int)) (1 / ofInt (ys - 1 : Int)) t sample cell (List.range' j n)
        ⟨log, (List.range xs).map fun k => value bb xs ys sample k j⟩ =
      some ⟨log ++ (List.range' j n).flatMap (rowLog bb xs ys t sample cell),
        (List.range xs).map fun k => value bb xs ys sample k (j + n)⟩ := by
  intro n
  induction n with
  | zero => intro j log hc; simp [rows]
  | succ n ih =>
    intro j log hc
    have hb : ((List.range xs).map fun k => value bb xs ys sample k j)[0]? = some (value bb xs ys sample 0 j) := by
      rw [List.getElem?_map, List.getElem?_range (by omega)]; rfl
    have hp : gridPt bb xs ys 0 (j + 1) = ⟨bb.l, gridY bb ys (j + 1)⟩ := by simp [gridPt]
    have hv : sample (calls log) ⟨bb.l, gridY bb ys (j + 1)⟩ = value bb xs ys sample 0 (j + 1) := by
      rw [value, hp, hc]; rfl
    have hy : lerp bb.b bb.t (ofInt (j + 1 : Nat) * (1 / ofInt (ys - 1 : Int))) = gridY bb ys (j + 1) := rfl
    have hy0 : lerp bb.b bb.t (ofInt j * (1 / ofInt (ys - 1 : Int))) = gridY bb ys j := rfl
    rw [List.range'_succ, rows]
    simp only [hb, Option.bind_eq_bind, Option.bind_some, take, hy, hy0, hv]
    have hbuf : ((List.range xs).map fun k => value bb xs ys sample k j).set 0 (value bb xs ys sample 0 (j + 1)) =
        (List.range xs).map fun k => if k ≤ 0 then value bb xs ys sample k (j + 1) else value bb xs ys sample k j := by
      rw [set_map_range]
      apply List.map_congr_left
      intro k _
      by_cases h : k = 0
      · subst h; simp
      · rw [if_neg h, if_neg (by omega)]
    rw [hbuf, List.range_eq_range' (n := xs - 1), rowLoop_spec bb xs ys t sample cell j (xs - 1) 0 _ (by omega) hx (by
      rw [calls_append, calls_sample, hc])]
    simp only [Option.bind_some]
    have hl : log ++ [Ev.sample ⟨bb.l, gridY bb ys (j + 1)⟩] ++ (List.range' 0 (xs - 1)).flatMap (cellLog bb xs ys t sample cell j) =
        log ++ rowLog bb xs ys t sample cell j := by
      unfold rowLog
      rw [hp, List.range_eq_range', List.append_assoc]; rfl
    rw [hl, ih (j + 1) _ (by rw [calls_append, calls_rowLog _ _ _ _ _ _ hx, hc]; ring)]
    simp only [List.flatMap_cons, List.append_assoc]
    congr 3
    ext k
    congr 1
    omega

/-- **All calls of `MarchCells`, in order.** -/
theorem march_log (bb : BB F) (xs ys : Nat) (t : F) (sample : Nat → Vec F → F) (cell : Cell F) (hx : 1 ≤ xs) :
    marchCells bb xs ys t sample cell = some ((List.range xs).map (fun i => Ev.sample (gridPt bb xs ys i 0)) ++
      (List.range (ys - 1)).flatMap (rowLog bb xs ys t sample cell)) := by
  have h1 := firstRow_spec bb xs ys sample xs 0 (fun _ => 0) [] (by omega) rfl
  have h0 : List.replicate xs (0 : F) = (List.range xs).map fun _ => 0 := by
    rw [List.map_const', List.length_range]
  simp only [Nat.zero_le, if_true, List.nil_append, ← List.range_eq_range'] at h1
  simp only [marchCells, h0, h1, Option.bind_eq_bind]
  rw [List.range_eq_range' (n := ys - 1), rows_spec bb xs ys t sample cell hx (ys - 1) 0 _ (by
    have : ∀ l : List Nat, calls (l.map fun i => Ev.sample (gridPt bb xs ys i 0)) = l.length := by
      intro l; induction l with
      | nil => rfl
      | cons a l ih => rw [List.map_cons, show ∀ (e : Ev F) l, e :: l = [e] ++ l from fun _ _ => rfl, calls_append, ih, calls_sample, List.length_cons, Nat.add_comm]
    rw [this, List.length_range]; omega)]
  rfl

end CP
