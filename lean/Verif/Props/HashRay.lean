import Verif.Proofs.HashWalk

/-! # C55: segment queries with the spatial hash -/

namespace CP
open GoFloat SHash

theorem axOk_of {dim p q : ℝ} (hd : 0 < dim) (h : LeavesWell dim p q) : AxOk (p * (1 / dim)) (q * (1 / dim)) := by
  have hi : (0 : ℝ) < 1 / dim := by positivity
  have line : p * (1 / dim) = (⌊p * (1 / dim)⌋ : ℤ) → OnLine dim p := fun e => ⟨⌊p * (1 / dim)⌋, by rw [← e]; field_simp⟩
  constructor
  · intro hlt e
    exact h.down (lt_of_mul_lt_mul_right hlt hi.le) (line e)
  · intro e
    rcases h.level (mul_right_cancel₀ hi.ne' e) with ⟨n, hn⟩ | hn
    · left
      have : p * (1 / dim) = n := by rw [hn]; field_simp
      rw [this, Int.floor_intCast]
    · right
      have h1 := hn ⌊p * (1 / dim)⌋
      have h2 : p - ⌊p * (1 / dim)⌋ * dim = (p * (1 / dim) - ⌊p * (1 / dim)⌋) * dim := by field_simp
      rw [h2, abs_mul, abs_of_pos hd, abs_of_nonneg (sub_nonneg.2 (Int.floor_le _))] at h1
      have h3 : dim * 1 ≤ dim * ((p * (1 / dim) - ⌊p * (1 / dim)⌋) * maxFloat) := by linarith
      exact le_of_mul_le_mul_left h3 hd

theorem axPos_scale (p q t d : ℝ) : axPos (p * (1 / d)) (q * (1 / d)) t = (p + t * (q - p)) / d := by
  simp only [axPos]; ring

theorem iterate_start (dim : ℝ) (a b : Vec ℝ) (n : ℕ) :
    Walk.next^[n] (Walk.start dim a b) = Walk.next^[n] (walkAt (a.mult (1 / dim)) (b.mult (1 / dim)) 0 0 0) := by rw [walk_start]

/-- **C55**: a segment query of an index always ends; it calls the callback at most once for a shape, only for shapes that share a bucket with a cell
the segment goes through, and for every shape whose indexed box contains a point of the segment before the time at which the callback has cut it off. -/
theorem C55_ray {hash : Obj → Nat} {dim : ℝ} {count : Nat} (hc : 0 < count) (hd : 0 < dim) {sp : HSpec ℝ} {w : HWorld ℝ}
    (h : HHist hash dim count sp w) (st : Bool) (a b : Vec ℝ) (hx : LeavesWell dim a.x b.x) (hy : LeavesWell dim a.y b.y)
    {σ : Type} (f : Obj → σ → σ × ℝ) (c : σ) (tExit : ℝ) (hE : tExit ≤ 1) :
    ∃ N s' c' log tEnd, (∀ fuel, N < fuel → (w.index st).segmentQuery fuel f c a b tExit = some (s', c')) ∧
      HHist hash dim count sp (w.setIndex st s') ∧ (c', tEnd) = callEach f log (c, tExit) ∧ log.Nodup ∧
      (∀ x ∈ log, ∃ X i j i' j' t, sp.idx st x = some X ∧ 0 ≤ t ∧ t < tExit ∧ InCell dim (alongAt a b t) i j ∧ Covers dim X i' j' ∧
        cellIndex count (i, j) = cellIndex count (i', j')) ∧
      (∀ x X t, sp.idx st x = some X → 0 ≤ t → t < tEnd → X.Has (alongAt a b t) → ¬ Grazes dim a b X (alongAt a b t) → x ∈ log) := by
  have r := (h.rel hc).rel st
  obtain ⟨N, hN⟩ := walk_late (a.mult (1 / dim)) (b.mult (1 / dim)) tExit
  rw [← iterate_start dim a b] at hN
  rw [← r.dim] at hN
  obtain ⟨q, hq⟩ := segLoop_ends f N _ r.inv.toCore r.inv.mark c hE hN
  have run : ∀ fuel, N < fuel → (w.index st).segmentQuery fuel f c a b tExit = some ({ q.1 with stamp := q.1.stamp + 1 }, q.2) := fun fuel hf => by
    rw [SHash.segmentQuery, hq fuel hf]; rfl
  obtain ⟨log, n, -, -, -, nd, e, late, early, mem⟩ := segmentQuery_spec r.inv f c a b hE (run (N + 1) (by omega))
  have okx : AxOk (a.mult (1 / dim)).x (b.mult (1 / dim)).x := axOk_of hd hx
  have oky : AxOk (a.mult (1 / dim)).y (b.mult (1 / dim)).y := axOk_of hd hy
  rw [r.dim] at late early mem
  rw [r.num] at mem
  refine ⟨N, _, q.2, log, (callEach f log (c, tExit)).2, run, HHist.ray st (N + 1) f c a b tExit h hE (run (N + 1) (by omega)), by rw [e], nd, ?_, ?_⟩
  · intro x hx
    obtain ⟨K, hK, k, hk, hkK⟩ := (mem x).1 hx
    obtain ⟨X, hX, rfl⟩ := Option.map_eq_some_iff.1 hK
    obtain ⟨i', j', hcov, hidx⟩ := hkK
    have hlt := early k hk
    rw [iterate_start] at hlt hidx
    obtain ⟨t, t0, et, h1, h2, h3, h4⟩ := walk_in _ _ okx oky k (hlt.trans_le hE)
    refine ⟨X, _, _, i', j', t, hX, t0, by rw [et]; exact hlt, ?_, hcov, hidx.symm⟩
    have hpx : axPos (a.mult (1 / dim)).x (b.mult (1 / dim)).x t = (a.x + t * (b.x - a.x)) / dim := axPos_scale _ _ _ _
    have hpy : axPos (a.mult (1 / dim)).y (b.mult (1 / dim)).y t = (a.y + t * (b.y - a.y)) / dim := axPos_scale _ _ _ _
    rw [hpx, le_div_iff₀ hd] at h1
    rw [hpx, div_le_iff₀ hd] at h2
    rw [hpy, le_div_iff₀ hd] at h3
    rw [hpy, div_le_iff₀ hd] at h4
    exact ⟨h1, h2, h3, h4⟩
  · intro x X t hX t0 ht has ng
    have lt1 : t < 1 := ht.trans_le ((callEach_le f log (c, tExit)).trans hE)
    have hpx : axPos (a.mult (1 / dim)).x (b.mult (1 / dim)).x t = (alongAt a b t).x / dim := axPos_scale _ _ _ _
    have hpy : axPos (a.mult (1 / dim)).y (b.mult (1 / dim)).y t = (alongAt a b t).y / dim := axPos_scale _ _ _ _
    obtain ⟨x1, x2, y1, y2⟩ := has
    have fl : ∀ {u v : ℝ}, u ≤ v → ⌊u / dim⌋ ≤ ⌊v / dim⌋ := fun huv => Int.floor_le_floor (div_le_div_of_nonneg_right huv hd.le)
    -- a cell entered in time that the box covers
    have fin : ∀ k, (Walk.next^[k] (walkAt (a.mult (1 / dim)) (b.mult (1 / dim)) 0 0 0)).t ≤ t →
        Covers dim X (Walk.next^[k] (walkAt (a.mult (1 / dim)) (b.mult (1 / dim)) 0 0 0)).cellX
          (Walk.next^[k] (walkAt (a.mult (1 / dim)) (b.mult (1 / dim)) 0 0 0)).cellY → x ∈ log := by
      intro k hk hcov
      rw [← iterate_start] at hk hcov
      refine (mem x).2 ⟨buckets dim count X, by rw [hX]; rfl, k, ?_, ⟨_, _, hcov, rfl⟩⟩
      by_contra hkn
      obtain ⟨m, rfl⟩ := Nat.exists_eq_add_of_le (not_lt.1 hkn)
      have mono : ∀ m, (Walk.next^[n] (Walk.start dim a b)).t ≤ (Walk.next^[n + m] (Walk.start dim a b)).t := by
        intro m
        induction m with
        | zero => exact le_refl _
        | succ m ih =>
          refine ih.trans ?_
          rw [iterate_start, iterate_start, ← add_assoc, Function.iterate_succ_apply']
          obtain ⟨kH, kV, t, e, -, hx, hy, -⟩ := walk_state (a.mult (1 / dim)) (b.mult (1 / dim)) (n + m)
          rw [e, walkAt_next]
          split
          · exact hy.le
          · exact hx.le
      exact absurd (((mono m).trans hk).trans_lt ht) (not_lt.2 late)
    rcases walk_covers _ _ okx oky t0 lt1 with ⟨k, hk, e1, e2⟩ | ⟨dx, dy, ix, iy, ⟨k, hk, e1, e2⟩, ⟨k', hk', e1', e2'⟩⟩
    · refine fin k hk ?_
      rw [e1, e2, hpx, hpy]
      simp only [Covers, goFloor_real]
      exact ⟨fl x1, fl x2, fl y1, fl y2⟩
    · have hi : (0 : ℝ) < 1 / dim := by positivity
      have below : ∀ {u v : ℝ}, u < v → v / dim = ⌊v / dim⌋ → ⌊u / dim⌋ ≤ ⌊v / dim⌋ - 1 := by
        intro u v huv e
        have h1 : u / dim < ⌊v / dim⌋ := by rw [← e]; exact div_lt_div_of_pos_right huv hd
        have := Int.floor_lt.2 h1
        omega
      rw [hpx] at ix e1 e1'
      rw [hpy] at iy e2 e2'
      rcases x1.lt_or_eq with l1 | l1
      · refine fin k' hk' ?_
        rw [e1', e2']
        simp only [Covers, goFloor_real]
        have := below l1 ix
        have := fl x2
        exact ⟨by omega, by omega, fl y1, fl y2⟩
      · rcases y1.lt_or_eq with m1 | m1
        · refine fin k hk ?_
          rw [e1, e2]
          simp only [Covers, goFloor_real]
          have := below m1 iy
          have := fl y2
          exact ⟨fl x1, fl x2, by omega, by omega⟩
        · exfalso
          refine ng ⟨lt_of_mul_lt_mul_right dx hi.le, lt_of_mul_lt_mul_right dy hi.le, l1.symm, m1.symm, ⟨⌊(alongAt a b t).x / dim⌋, ?_⟩, ⟨⌊(alongAt a b t).y / dim⌋, ?_⟩⟩
          · rw [← ix]; field_simp
          · rw [← iy]; field_simp

/-! ### SegmentQueryFirst and SegmentQuery of the space -/

theorem callEach_first (hit : Obj → Option (SegInfo ℝ)) (l : List Obj) : ∀ out : SegInfo ℝ,
    (callEach (queryFirst hit) l (out, out.alpha)).2 = (callEach (queryFirst hit) l (out, out.alpha)).1.alpha ∧
    (∀ o ∈ l, ∀ i, hit o = some i → (callEach (queryFirst hit) l (out, out.alpha)).1.alpha ≤ i.alpha) ∧
    ((callEach (queryFirst hit) l (out, out.alpha)).1 = out ∨ ∃ o ∈ l, hit o = some (callEach (queryFirst hit) l (out, out.alpha)).1 ∧
      (callEach (queryFirst hit) l (out, out.alpha)).1.alpha < out.alpha) := by
  induction l with
  | nil => exact fun out => ⟨rfl, nofun, .inl rfl⟩
  | cons o t ih =>
    intro out
    have key : ∃ out', queryFirst hit o out = (out', out'.alpha) ∧ out'.alpha ≤ out.alpha ∧ (∀ i, hit o = some i → out'.alpha ≤ i.alpha) ∧
        (out' = out ∨ (hit o = some out' ∧ out'.alpha < out.alpha)) := by
      unfold queryFirst
      cases hh : hit o with
      | none => exact ⟨out, rfl, le_refl _, nofun, .inl rfl⟩
      | some i =>
        simp only
        by_cases hlt : i.alpha < out.alpha
        · rw [if_pos hlt]
          exact ⟨i, rfl, hlt.le, fun j hj => by cases hj; exact le_refl _, .inr ⟨rfl, hlt⟩⟩
        · rw [if_neg hlt]
          exact ⟨out, rfl, le_refl _, fun j hj => by cases hj; exact not_lt.1 hlt, .inl rfl⟩
    obtain ⟨out', e, le, hits, cs⟩ := key
    have e' : callEach (queryFirst hit) (o :: t) (out, out.alpha) = callEach (queryFirst hit) t (out', out'.alpha) := by
      show callEach (queryFirst hit) t ((queryFirst hit o out).1, min out.alpha (queryFirst hit o out).2) = _
      rw [e, min_eq_right le]
    rw [e']
    obtain ⟨i1, i2, i3⟩ := ih out'
    refine ⟨i1, fun x hx i hi => ?_, ?_⟩
    · rcases List.mem_cons.1 hx with rfl | hx
      · have := callEach_le (queryFirst hit) t (out', out'.alpha)
        rw [i1] at this
        exact le_trans this (hits i hi)
      · exact i2 x hx i hi
    · rcases i3 with i3 | ⟨x, hx, h1, h2⟩
      · rw [i3]
        rcases cs with cs | ⟨c1, c2⟩
        · exact .inl cs
        · exact .inr ⟨o, by simp, c1, c2⟩
      · exact .inr ⟨x, by simp [hx], h1, h2.trans_le le⟩

/-- **C55**: SegmentQueryFirst returns a hit with the least alpha of all shapes of the space (or the blank result, with alpha 1). `hit` is the
outcome of the filter, the sensor test and the shape's own query; a hit is a point of the segment in the shape's indexed box. -/
theorem C55_first {hash : Obj → Nat} {dim : ℝ} {count : Nat} (hc : 0 < count) (hd : 0 < dim) {sp : HSpec ℝ} {w : HWorld ℝ}
    (h : HHist hash dim count sp w) (a b : Vec ℝ) (hx : LeavesWell dim a.x b.x) (hy : LeavesWell dim a.y b.y)
    (hit : Obj → Option (SegInfo ℝ))
    (hr : ∀ st o B i, sp.idx st o = some B → hit o = some i → 0 ≤ i.alpha ∧ i.alpha ≤ 1 ∧ B.Has (alongAt a b i.alpha) ∧
      ¬ Grazes dim a b B (alongAt a b i.alpha)) :
    ∃ N w' r, (∀ fuel, N < fuel → w.segmentQueryFirst fuel a b hit = some (w', r)) ∧ HHist hash dim count sp w' ∧
      (∀ st o i, sp.idx st o ≠ none → hit o = some i → r.alpha ≤ i.alpha) ∧
      (r = ⟨none, b, ⟨0, 0⟩, 1⟩ ∨ ∃ st o, sp.idx st o ≠ none ∧ hit o = some r ∧ r.alpha < 1) := by
  obtain ⟨N1, s1, c1, l1, t1, run1, h1, e1, -, on1, all1⟩ := C55_ray hc hd h true a b hx hy (queryFirst hit) ⟨none, b, ⟨0, 0⟩, 1⟩ 1 (le_refl _)
  obtain ⟨f1, f2, f3⟩ := callEach_first hit l1 ⟨none, b, ⟨0, 0⟩, 1⟩
  rw [← e1] at f1 f2 f3
  simp only at f1 f2 f3
  have a1 : c1.alpha ≤ 1 := by
    rcases f3 with f3 | ⟨o, -, -, f3⟩
    · rw [f3]
    · exact f3.le
  obtain ⟨N2, s2, c2, l2, t2, run2, h2, e2, -, on2, all2⟩ := C55_ray hc hd h1 false a b hx hy (queryFirst hit) c1 c1.alpha a1
  obtain ⟨g1, g2, g3⟩ := callEach_first hit l2 c1
  rw [← e2] at g1 g2 g3
  simp only at g1 g2 g3
  have a2 : c2.alpha ≤ c1.alpha := by
    rcases g3 with g3 | ⟨o, -, -, g3⟩
    · rw [g3]
    · exact g3.le
  refine ⟨max N1 N2, { w with stat := s1, dyn := s2 }, c2, fun fuel hf => ?_, h2, fun st o i ho hi => ?_, ?_⟩
  · have r1 : w.stat.segmentQuery fuel (queryFirst hit) ⟨none, b, ⟨0, 0⟩, 1⟩ a b 1 = some (s1, c1) := run1 fuel (lt_of_le_of_lt (le_max_left _ _) hf)
    have r2 : w.dyn.segmentQuery fuel (queryFirst hit) c1 a b c1.alpha = some (s2, c2) := run2 fuel (lt_of_le_of_lt (le_max_right _ _) hf)
    rw [HWorld.segmentQueryFirst, r1]
    simp only
    rw [r2]; rfl
  · obtain ⟨B, hB⟩ := Option.ne_none_iff_exists'.1 ho
    obtain ⟨i0, i1, ih, ig⟩ := hr st o B i hB hi
    by_contra hlt
    push Not at hlt
    cases st with
    | true =>
      have : o ∈ l1 := all1 o B i.alpha hB i0 (by rw [f1]; exact hlt.trans_le a2) ih ig
      exact absurd (a2.trans (f2 o this i hi)) (not_le.2 hlt)
    | false =>
      have : o ∈ l2 := all2 o B i.alpha hB i0 (by rw [g1]; exact hlt) ih ig
      exact absurd (g2 o this i hi) (not_le.2 hlt)
  · have ne : ∀ st x X, sp.idx st x = some X → sp.idx st x ≠ none := fun st x X h => by rw [h]; simp
    rcases g3 with g3 | ⟨o, ho, g3, g4⟩
    · rw [g3]
      rcases f3 with f3 | ⟨o, ho, f3, f4⟩
      · exact .inl f3
      · obtain ⟨X, _, _, _, _, _, hX, -⟩ := on1 o ho
        exact .inr ⟨true, o, ne _ _ _ hX, f3, f4⟩
    · obtain ⟨X, _, _, _, _, _, hX, -⟩ := on2 o ho
      exact .inr ⟨false, o, ne _ _ _ hX, g3, g4.trans_le a1⟩

theorem callEach_cb (hit : Obj → Option (SegInfo ℝ)) (l : List Obj) : ∀ log : List (Obj × SegInfo ℝ),
    callEach (segmentQueryCb hit) l (log, 1) = (log ++ l.filterMap fun o => (hit o).map fun i => (o, i), 1) := by
  induction l with
  | nil => intro log; simp [callEach]
  | cons o t ih =>
    intro log
    have e : callEach (segmentQueryCb hit) (o :: t) (log, 1) =
        callEach (segmentQueryCb hit) t ((segmentQueryCb hit o log).1, min 1 (segmentQueryCb hit o log).2) := rfl
    rw [e]
    unfold segmentQueryCb
    cases hh : hit o with
    | none =>
      have := ih log
      simp only [min_self, hh, List.filterMap_cons, Option.map_none] at this ⊢
      exact this
    | some i =>
      have := ih (log ++ [(o, i)])
      simp only [min_self, hh, List.filterMap_cons, Option.map_some, List.append_assoc, List.singleton_append] at this ⊢
      exact this

/-- **C55**: SegmentQuery calls the user's function exactly once for every shape of the space that the segment hits (before its very end), and only
with hits. -/
theorem C55_all {hash : Obj → Nat} {dim : ℝ} {count : Nat} (hc : 0 < count) (hd : 0 < dim) {sp : HSpec ℝ} {w : HWorld ℝ}
    (h : HHist hash dim count sp w) (a b : Vec ℝ) (hx : LeavesWell dim a.x b.x) (hy : LeavesWell dim a.y b.y)
    (hit : Obj → Option (SegInfo ℝ)) :
    ∃ N w' calls, (∀ fuel, N < fuel → w.segmentQuery fuel a b hit = some (w', calls)) ∧ HHist hash dim count sp w' ∧
      (calls.map Prod.fst).Nodup ∧ (∀ e ∈ calls, hit e.1 = some e.2 ∧ ∃ st, sp.idx st e.1 ≠ none) ∧
      (∀ st o B i t, sp.idx st o = some B → hit o = some i → 0 ≤ t → t < 1 → B.Has (alongAt a b t) → ¬ Grazes dim a b B (alongAt a b t) →
        (o, i) ∈ calls) := by
  obtain ⟨N1, s1, c1, l1, t1, run1, h1, e1, n1, on1, all1⟩ := C55_ray hc hd h true a b hx hy (segmentQueryCb hit) [] 1 (le_refl _)
  obtain ⟨N2, s2, c2, l2, t2, run2, h2, e2, n2, on2, all2⟩ := C55_ray hc hd h1 false a b hx hy (segmentQueryCb hit) c1 1 (le_refl _)
  rw [callEach_cb] at e1 e2
  simp only [Prod.mk.injEq, List.nil_append] at e1 e2
  obtain ⟨rfl, rfl⟩ := e1
  obtain ⟨rfl, rfl⟩ := e2
  rw [← List.filterMap_append] at run2
  have hm : ∀ e, e ∈ (l1 ++ l2).filterMap (fun o => (hit o).map fun i => (o, i)) ↔ e.1 ∈ l1 ++ l2 ∧ hit e.1 = some e.2 := by
    intro e
    rw [List.mem_filterMap]
    constructor
    · rintro ⟨o, ho, he⟩
      obtain ⟨i, hi, rfl⟩ := Option.map_eq_some_iff.1 he
      exact ⟨ho, hi⟩
    · rintro ⟨ho, hi⟩
      exact ⟨e.1, ho, by rw [hi]; rfl⟩
  have nd : (l1 ++ l2).Nodup := by
    rw [List.nodup_append]
    refine ⟨n1, n2, fun x hx1 y hy1 => ?_⟩
    rintro rfl
    obtain ⟨X, _, _, _, _, _, hX, -⟩ := on1 x hx1
    obtain ⟨Y, _, _, _, _, _, hY, -⟩ := on2 x hy1
    rcases (h.rel hc).disj x with q | q
    · rw [q] at hX; cases hX
    · rw [q] at hY; cases hY
  refine ⟨max N1 N2, { w with stat := s1, dyn := s2 }, (l1 ++ l2).filterMap (fun o => (hit o).map fun i => (o, i)), fun fuel hf => ?_, h2, ?_, fun e he => ?_, fun st o B i t hB hi t0 t1 has ng => ?_⟩
  · have r1 : w.stat.segmentQuery fuel (segmentQueryCb hit) [] a b 1 = some (s1, _) := run1 fuel (lt_of_le_of_lt (le_max_left _ _) hf)
    have r2 : w.dyn.segmentQuery fuel (segmentQueryCb hit) _ a b 1 = some (s2, _) := run2 fuel (lt_of_le_of_lt (le_max_right _ _) hf)
    rw [HWorld.segmentQuery, r1]
    simp only
    rw [r2]; rfl
  · have : ((l1 ++ l2).filterMap (fun o => (hit o).map fun i => (o, i))).map Prod.fst = (l1 ++ l2).filter fun o => (hit o).isSome := by
      generalize l1 ++ l2 = l
      induction l with
      | nil => rfl
      | cons o t ih =>
        cases hh : hit o with
        | none => simp [hh, ih]
        | some i => simp [hh, ih]
    rw [this]
    exact nd.filter _
  · obtain ⟨m, hi⟩ := (hm e).1 he
    refine ⟨hi, ?_⟩
    rcases List.mem_append.1 m with m | m
    · obtain ⟨X, _, _, _, _, _, hX, -⟩ := on1 _ m
      exact ⟨true, by rw [hX]; simp⟩
    · obtain ⟨X, _, _, _, _, _, hX, -⟩ := on2 _ m
      exact ⟨false, by rw [hX]; simp⟩
  · refine (hm (o, i)).2 ⟨List.mem_append.2 ?_, hi⟩
    cases st with
    | true => exact .inl (all1 o B t hB t0 t1 has ng)
    | false => exact .inr (all2 o B t hB t0 t1 has ng)

/-! ### UseSpatialHash -/

section
variable {F : Type} [GoFloat F]

theorem inserts_hist {hash : Obj → Nat} {dim : F} {count : Nat} (hc : 0 < count) (pick : Obj → Nat) (st : Bool) (l : List Obj) :
    ∀ {sp : HSpec F} {w : HWorld F}, HHist hash dim count sp w → l.Nodup → (∀ o ∈ l, sp.idx true o = none ∧ sp.idx false o = none) →
    (w.index st).each.length + l.length ≤ 1610612740 →
    ∃ w' sp', l.foldlM (fun (w : HWorld F) o => w.step hash (.insert st o (pick o))) w = some w' ∧ HHist hash dim count sp' w' ∧ sp'.box = sp.box ∧
      (∀ i o, sp'.idx i o = if i = st ∧ o ∈ l then some (sp.box o) else sp.idx i o) ∧ (w'.index (!st)).each.length = (w.index (!st)).each.length := by
  induction l with
  | nil => exact fun {sp w} h _ _ _ => ⟨w, sp, rfl, h, rfl, fun i o => by simp, rfl⟩
  | cons o t ih =>
    intro sp w h nd free small
    have ok : sp.ok (.insert st o (pick o)) := free o (by simp)
    have ne : w.step hash (.insert st o (pick o)) ≠ none := by
      intro e
      obtain ⟨st', o', pick', e1, e2⟩ := (C31_no_panic hc h _ ok).1 e
      cases e1
      simp only [List.length_cons] at small
      omega
    obtain ⟨w1, e1⟩ := Option.ne_none_iff_exists'.1 ne
    have h1 := HHist.step _ h ok e1
    have hw1 : ∃ s', w1 = w.setIndex st s' := by
      simp only [HWorld.step, Option.map_eq_some_iff] at e1
      obtain ⟨s', -, rfl⟩ := e1
      exact ⟨s', rfl⟩
    obtain ⟨s', hs'⟩ := hw1
    have oth : w1.index (!st) = w.index (!st) := by rw [hs', HWorld.index_setIndex]; simp
    have len : (w1.index st).each.length = (w.index st).each.length + 1 := by
      obtain ⟨n0, m0, -⟩ := C31_members hc h st
      obtain ⟨n1, m1, -⟩ := C31_members hc h1 st
      have : (w1.index st).each.Perm (o :: (w.index st).each) := by
        refine (List.perm_ext_iff_of_nodup n1 (List.nodup_cons.2 ⟨fun q => ?_, n0⟩)).2 fun x => ?_
        · refine (m0 o).1 q ?_
          have := free o (by simp)
          cases st
          · exact this.2
          · exact this.1
        · rw [m1, List.mem_cons, m0]
          simp only [HSpec.step]
          by_cases hx : x = o
          · simp [hx]
          · simp [hx]
      rw [this.length_eq]; rfl
    simp only [List.length_cons] at small
    obtain ⟨hno, ndt⟩ := List.nodup_cons.1 nd
    obtain ⟨w2, sp2, e2, h2, b2, i2, l2⟩ := ih h1 ndt (fun x hx => by
      have hne : x ≠ o := fun e => hno (e ▸ hx)
      simpa [HSpec.step, hne] using free x (by simp [hx])) (by omega)
    refine ⟨w2, sp2, by rw [List.foldlM_cons, e1]; exact e2, h2, b2, fun i x => ?_, by rw [l2, oth]⟩
    rw [i2]
    simp only [HSpec.step]
    by_cases hi : i = st
    · by_cases hx : x ∈ t
      · simp [hi, hx]
      · by_cases hxo : x = o
        · simp [hi, hxo]
        · simp [hi, hx, hxo]
    · simp [hi]

/-- **C55**: `UseSpatialHash` puts exactly the shapes of the old static index into the new static index and those of the old dynamic index into the new
dynamic one, each with its current box, so that all theorems on histories apply from there; it does not panic. (Fewer than 1610612741 shapes in each.) -/
theorem C55_switch (hash : Obj → Nat) (pick : Obj → Nat) (box : Obj → BB F) (dim : F) {count : Nat} (hc : 0 < count) (stat dyn : List Obj)
    (nd : (stat ++ dyn).Nodup) (hs : stat.length ≤ 1610612740) (hd : dyn.length ≤ 1610612740) :
    ∃ w sp, HWorld.use hash pick box dim count stat dyn = some w ∧ HHist hash dim count sp w ∧ sp.box = box ∧
      (∀ o, sp.idx true o = if o ∈ stat then some (box o) else none) ∧ (∀ o, sp.idx false o = if o ∈ dyn then some (box o) else none) := by
  obtain ⟨n1, n2, dj⟩ := List.nodup_append.1 nd
  obtain ⟨s0, e0, -⟩ := Rel.new (hash := hash) (dim := dim) hc
  have ei : HWorld.init box dim count = some ⟨box, s0, s0⟩ := by rw [HWorld.init, e0]
  have h0 : HHist hash dim count ⟨box, fun _ _ => none⟩ ⟨box, s0, s0⟩ := .init ei
  have z : ∀ st, ((⟨box, s0, s0⟩ : HWorld F).index st).each.length = 0 := by
    intro st
    obtain ⟨-, m, -⟩ := C31_members hc h0 st
    rw [List.length_eq_zero_iff, List.eq_nil_iff_forall_not_mem]
    intro o ho
    exact (m o).1 ho rfl
  obtain ⟨w1, sp1, e1, h1, b1, i1, l1⟩ := inserts_hist hc pick true stat h0 n1 (fun _ _ => ⟨rfl, rfl⟩) (by rw [z]; omega)
  obtain ⟨w2, sp2, e2, h2, b2, i2, -⟩ := inserts_hist hc pick false dyn h1 n2 (fun o ho => by
    rw [i1, i1]
    have : o ∉ stat := fun q => dj o q o ho rfl
    simp [this]) (by
    have := l1
    simp only [Bool.not_true] at this
    rw [this, z]; omega)
  refine ⟨w2, sp2, ?_, h2, b2.trans b1, fun o => ?_, fun o => ?_⟩
  · simp only [HWorld.use, ei, e1, e2]
  · rw [i2, i1]; simp
  · rw [i2, i1, b1]; simp

end

/-! ### Concrete segments -/

namespace HashDemo

/-- Shape 0 is a box left of the line x = 0 of the grid, shape 3 one far above. -/
def leftBox : Obj → BB Rat
  | 0 => ⟨-8, 1, -2, 4⟩
  | _ => ⟨-8, 81, -2, 84⟩

def leftWorld : Option (HWorld Rat) := HWorld.use id (fun _ => 0) leftBox 10 13 [3] [0]

/-- The shapes that a segment query of the dynamic index asks. -/
def asked (a b : Vec Rat) : Option (List Obj) := leftWorld.bind fun w =>
  (w.dyn.segmentQuery 100 (fun o log => (log ++ [o], 1)) [] a b 1).map Prod.snd

end HashDemo

/-- C55, violation: a segment that starts on a line of the grid and goes left goes through the cells one column too far right: the segment from (0, 3)
to (-9, 3) misses the box from (-8, 1) to (-2, 4) right in its way; a segment that starts only just beside the line finds it. -/
theorem C55_line_violated : ∃ w sp, HashDemo.leftWorld = some w ∧ HHist id (10 : Rat) 13 sp w ∧ sp.idx false 0 = some ⟨-8, 1, -2, 4⟩ ∧
    HashDemo.asked ⟨0, 3⟩ ⟨-9, 3⟩ = some [] ∧ HashDemo.asked ⟨-1 / 1000, 3⟩ ⟨-9, 3⟩ = some [0] ∧ HashDemo.asked ⟨1 / 1000, 3⟩ ⟨-9, 3⟩ = some [0] := by
  obtain ⟨w, sp, e, h, -, -, i⟩ := C55_switch (F := Rat) id (fun _ => 0) HashDemo.leftBox 10 (count := 13) (by decide) [3] [0] (by decide) (by decide) (by decide)
  exact ⟨w, sp, e, h, by rw [i]; rfl, by decide +kernel, by decide +kernel, by decide +kernel⟩

/-- The hypotheses of `C55_ray` are met: a history with a shape in each index and a segment that starts well. -/
example : ∃ w sp, HWorld.use id (fun _ => 0) (fun _ => ⟨-8, 1, -2, 4⟩) (10 : ℝ) 13 [3] [0] = some w ∧ HHist id (10 : ℝ) 13 sp w ∧
    sp.idx false 0 = some ⟨-8, 1, -2, 4⟩ ∧ LeavesWell 10 5 (-15) ∧ LeavesWell 10 3 3 ∧
    BB.Has ⟨-8, 1, -2, 4⟩ (alongAt ⟨5, 3⟩ ⟨-15, 3⟩ (1 / 2)) ∧ ¬ Grazes 10 ⟨5, 3⟩ ⟨-15, 3⟩ ⟨-8, 1, -2, 4⟩ (alongAt ⟨5, 3⟩ ⟨-15, 3⟩ (1 / 2)) := by
  obtain ⟨w, sp, e, h, -, -, i⟩ := C55_switch (F := ℝ) id (fun _ => 0) (fun _ => ⟨-8, 1, -2, 4⟩) 10 (count := 13) (by decide) [3] [0] (by decide) (by decide) (by decide)
  refine ⟨w, sp, e, h, by rw [i]; rfl, ⟨fun _ => ?_, fun q => absurd q (by norm_num)⟩, ⟨fun q => absurd q (by norm_num), fun _ => .inr fun n => ?_⟩, ?_, ?_⟩
  · rintro ⟨n, hn⟩
    have : (5 : ℤ) = n * 10 := by exact_mod_cast hn
    omega
  · have h1 : (3 : ℤ) - n * 10 ≠ 0 := by omega
    have h2 : (1 : ℤ) ≤ |3 - n * 10| := Int.one_le_abs h1
    have h3 : (1 : ℝ) ≤ |(3 : ℝ) - (n : ℝ) * 10| := by exact_mod_cast h2
    have h4 : (10 : ℝ) ≤ maxFloat := by
      rw [maxFloat_real]
      have e : (2 : ℝ) ^ 1024 = 2 ^ 971 * 2 ^ 53 := by rw [← pow_add]
      have : (1 : ℝ) ≤ 2 ^ 971 := one_le_pow₀ (by norm_num)
      rw [e]
      generalize (2 : ℝ) ^ 971 = y at this
      linarith [this]
    have h5 := mul_le_mul h3 h4 (by norm_num) (by positivity)
    rw [one_mul] at h5
    exact h5
  · simp only [BB.Has, alongAt]; norm_num
  · rintro ⟨-, q, -⟩
    norm_num at q

end CP
