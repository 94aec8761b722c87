import Verif.Props.Index
import Verif.Props.Rays

/-! # C09: segment queries with a radius miss shapes -/

namespace CP
open GoFloat

/-- Two boxes above the x axis. -/
def hiBox : Obj → BB Rat
  | 1 => ⟨-1, 1, 1, 3⟩
  | _ => ⟨3, 1, 5, 3⟩

def hiOps : List (WOp Rat) := [.insert true 1, .insert true 2]

def hiRun : Option (World Rat) :=
  (World.init hiBox (fun _ => ⟨0, 0⟩)).bind fun w => hiOps.foldlM (fun w op => w.step id op) w

/-- Both children of the root are missed by the segment on the x axis. -/
def pruned (t : Option (Tree Rat)) : Bool :=
  match t with
  | some (.node _ x y) => decide (1 ≤ x.bb.segmentQuery ⟨-5, 0⟩ ⟨5, 0⟩) && decide (1 ≤ y.bb.segmentQuery ⟨-5, 0⟩ ⟨5, 0⟩)
  | _ => false

theorem pruned_spec {S : Type} {t : Option (Tree Rat)} (h : pruned t = true) (f : Obj → S → S × Rat) (s : S) :
    segQueryRoot (⟨-5, 0⟩ : Vec Rat) ⟨5, 0⟩ f t 1 s = s := by
  match t, h with
  | some (.node bb x y), h =>
    simp only [pruned, Bool.and_eq_true, decide_eq_true_iff] at h
    have h1 := not_lt.2 h.1
    have h2 := not_lt.2 h.2
    simp only [segQueryRoot, Tree.segQuery, if_neg h1, if_neg h2, ite_self]

/-- **C09** with a radius: there is a reachable state with a shape under the box of a circle with centre (0, 2) and
radius 1 such that the queries from (-5, 0) to (5, 0) never look at it, whatever the hit would be … -/
theorem C09_radius_violated :
    ∃ (s : Spec Rat) (w : World Rat), Hist id s w ∧ s.idx true 1 = some ⟨-1, 1, 1, 3⟩ ∧
      ∀ hit, w.segmentQueryFirst ⟨-5, 0⟩ ⟨5, 0⟩ hit = ⟨none, ⟨5, 0⟩, ⟨0, 0⟩, 1⟩ ∧ w.segmentQuery ⟨-5, 0⟩ ⟨5, 0⟩ hit = [] := by
  have hrun : hiRun.isSome = true := by decide +kernel
  obtain ⟨w', hw'⟩ := Option.isSome_iff_exists.mp hrun
  have hp : (hiRun.map fun w => pruned w.stat && w.dyn.isNone) = some true := by decide +kernel
  rw [hw'] at hp
  simp only [Option.map_some, Option.some.injEq, Bool.and_eq_true] at hp
  have hd : w'.dyn = none := Option.isNone_iff_eq_none.1 hp.2
  unfold hiRun at hw'
  cases hi : World.init hiBox (fun _ => (⟨0, 0⟩ : Vec Rat)) with
  | none => rw [hi] at hw'; cases hw'
  | some w0 =>
    rw [hi] at hw'
    refine ⟨_, w', hist_run id hiOps _ w0 w' (Hist.init _ _ w0 hi) ?_ hw', ?_, ?_⟩
    · simp [Legal, hiOps, Spec.ok, Spec.step]
    · simp [hiOps, Spec.step, Spec.fresh, hiBox]
    · intro hit
      constructor
      · simp only [World.segmentQueryFirst]
        rw [pruned_spec hp.1, hd]; rfl
      · simp only [World.segmentQuery]
        rw [pruned_spec hp.1, hd]; rfl

/-- … although with the radius 3/2 the circle is touched: the shape's own query reports a hit. -/
theorem C09_radius_hit :
    (shapeSegmentQuery ((⟨⟨0, 2⟩, ⟨0, 2⟩, 1⟩ : Circle ℝ).pointQuery ⟨-5, 0⟩)
      ((⟨⟨0, 2⟩, ⟨0, 2⟩, 1⟩ : Circle ℝ).segmentQuery ⟨-5, 0⟩ ⟨5, 0⟩ (3 / 2)) ⟨-5, 0⟩ ⟨5, 0⟩ (3 / 2)).hit = true ∧
    BB.forCircle (⟨0, 2⟩ : Vec ℝ) 1 = ⟨-1, 1, 1, 3⟩ := by
  constructor
  · refine (C45_circle ⟨⟨0, 2⟩, ⟨0, 2⟩, 1⟩ (by norm_num) ⟨-5, 0⟩ ⟨5, 0⟩ (by simp; norm_num) (3 / 2) (by norm_num)).hit.2
      ⟨1 / 2, by norm_num, by norm_num, ?_⟩
    rw [thick_thick _ (by norm_num) (by norm_num)]
    refine ⟨_, rfl, ?_⟩
    rw [Vec.distance_le_iff (by norm_num)]
    simp only [along]; norm_num
  · simp only [BB.forCircle, BB.forExtents]; norm_num

end CP
