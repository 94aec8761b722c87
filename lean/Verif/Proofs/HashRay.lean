import Verif.Spec.HashRay
import Verif.Proofs.SpaceHash3

/-! # Segment queries of the spatial hash: the bookkeeping -/

namespace CP
open GoFloat
variable {F : Type} [GoFloat F] {σ : Type}

namespace SHash

theorem callEach_append (f : Obj → σ → σ × F) (l l' : List Obj) (p : σ × F) : callEach f (l ++ l') p = callEach f l' (callEach f l p) := by
  simp [callEach, List.foldl_append]

theorem callEach_le (f : Obj → σ → σ × F) (l : List Obj) : ∀ p : σ × F, (callEach f l p).2 ≤ p.2 := by
  induction l with
  | nil => exact fun p => le_refl _
  | cons o t ih => exact fun p => (ih _).trans (min_le_left _ _)

/-- The bound enters only through the minimum. -/
theorem callEach_bound (f : Obj → σ → σ × F) (l : List Obj) : ∀ (c : σ) (t u : F),
    callEach f l (c, min u t) = ((callEach f l (c, t)).1, min u (callEach f l (c, t)).2) := by
  induction l with
  | nil => intro c t u; rfl
  | cons o r ih =>
    intro c t u
    have := ih (f o c).1 (min t (f o c).2) u
    rw [← min_assoc] at this
    exact this

theorem segScan_eq (f : Obj → σ → σ × F) (bin : List HId) : ∀ (s : SHash F) (log : List Obj) (c : σ) (t : F),
    ∃ new, (scan quiet none bin s log).1.2 = log ++ new ∧
      segScan f bin s c t = (((scan quiet none bin s log).1.1, callEach f new (c, t)), (scan quiet none bin s log).2) := by
  induction bin with
  | nil => intro s log c t; exact ⟨[], by simp [scan], rfl⟩
  | cons h r ih =>
    intro s log c t
    rw [scan, segScan]
    by_cases hs : (s.hd h).stamp = s.stamp
    · rw [if_pos hs, if_pos hs]; exact ih s log c t
    · rw [if_neg hs, if_neg hs]
      cases ho : (s.hd h).obj with
      | none => exact ⟨[], by simp, rfl⟩
      | some other =>
        simp only [quiet]
        rw [if_neg (by simp)]
        obtain ⟨new, e1, e2⟩ := ih (s.setHd h { s.hd h with stamp := s.stamp }) (log ++ [other]) (f other c).1 (min t (f other c).2)
        exact ⟨other :: new, by rw [e1]; simp, e2⟩

theorem segHelper_eq (f : Obj → σ → σ × F) (fuel : Nat) : ∀ (bin : List HId) (s : SHash F) (log : List Obj) (c : σ) (t : F) {r},
    queryHelper quiet none fuel bin s log = some r →
    ∃ new, r.2.2 = log ++ new ∧ segHelper f fuel bin s c t = some (r.1, r.2.1, callEach f new (c, t)) := by
  induction fuel with
  | zero => intro bin s log c t r h; cases h
  | succ n ih =>
    intro bin s log c t r h
    obtain ⟨new, e1, e2⟩ := segScan_eq f bin s log c t
    rw [queryHelper] at h
    rw [segHelper, e2]
    generalize hx : scan quiet none bin s log = x at h e1
    obtain ⟨⟨s1, l1⟩, fl⟩ := x
    cases fl with
    | false =>
      simp only [Option.some.injEq] at h e1
      subst h
      exact ⟨new, e1, rfl⟩
    | true =>
      simp only at h e1
      obtain ⟨new', e3, e4⟩ := ih _ _ _ (callEach f new (c, t)).1 (callEach f new (c, t)).2 h
      refine ⟨new ++ new', by rw [e3, e1, List.append_assoc], ?_⟩
      simp only
      rw [e4, callEach_append]

theorem segCell_eq (f : Obj → σ → σ × F) (s : SHash F) (log : List Obj) (c : σ) (tE : F) (k : Nat) {s' : SHash F} {log' : List Obj}
    (hE : tE ≤ 1) (h : queryCell quiet none (s, log) k = some (s', log')) :
    ∃ new, log' = log ++ new ∧ segCell f s c tE k = some (s', callEach f new (c, tE)) := by
  rw [queryCell] at h
  rw [segCell]
  simp only at h
  cases hb : s.table[k]? with
  | none => rw [hb] at h; cases h
  | some bin =>
    rw [hb] at h
    simp only [Option.map_eq_some_iff] at h
    obtain ⟨r, hr, e⟩ := h
    obtain ⟨new, e1, e2⟩ := segHelper_eq f _ bin s log c 1 hr
    simp only [Prod.mk.injEq] at e
    refine ⟨new, e.2 ▸ e1, ?_⟩
    simp only [e2, Option.map_some, Option.some.injEq, ← e.1, Prod.mk.injEq, true_and]
    have := callEach_bound f new c 1 tE
    rw [min_eq_left hE] at this
    rw [this]

/-- The loop when it ends: it has searched the buckets of the cells `0 .. n-1` of the walk, and ends because the next one is
entered too late. -/
theorem segLoop_spec {hash : Obj → Nat} {own : Obj → Option (Nat → Prop)} (f : Obj → σ → σ × F) (fuel : Nat) :
    ∀ (w : Walk F) {s : SHash F} (_ : Core hash s own) {log : List Obj} (_ : Mark s log) (c : σ) {tE : F} (_ : tE ≤ 1) {r : SHash F × σ},
    segLoop f fuel w s c tE = some r →
    ∃ new n, Core hash r.1 own ∧ Mark r.1 (log ++ new) ∧ Dim s r.1 ∧ r.1.set = s.set ∧ r.2 = (callEach f new (c, tE)).1 ∧
      (callEach f new (c, tE)).2 ≤ (Walk.next^[n] w).t ∧ (∀ k < n, (Walk.next^[k] w).t < tE) ∧
      ∀ x, x ∈ log ++ new ↔ x ∈ log ∨ ∃ K, own x = some K ∧ ∃ k < n, K (cellIndex s.numCells ((Walk.next^[k] w).cellX, (Walk.next^[k] w).cellY)) := by
  induction fuel with
  | zero => intro w s c log m d tE hE r h; cases h
  | succ fu ih =>
    intro w s c log m d tE hE r h
    rw [segLoop] at h
    by_cases ht : w.t < tE
    · rw [if_pos ht] at h
      obtain ⟨s1, l1, e1, c1, m1, d1, t1, p1, x1⟩ := queryCell_spec c m none (k := cellIndex s.numCells (w.cellX, w.cellY)) (Nat.mod_lt _ c.pos)
      obtain ⟨new, e2, e3⟩ := segCell_eq f s log d tE _ hE e1
      rw [e3] at h
      subst e2
      have le1 := callEach_le f new (d, tE)
      obtain ⟨new2, n, c2, m2, d2, t2, r2, q2, lt2, x2⟩ := ih w.next c1 m1 (callEach f new (d, tE)).1 (le1.trans hE) h
      rw [List.append_assoc] at m2 x2
      refine ⟨new ++ new2, n + 1, c2, m2, d1.trans d2, t2.trans t1, by rw [callEach_append]; exact r2, by rw [callEach_append]; exact q2, fun k hk => ?_, fun x => ?_⟩
      · rcases k with _ | k
        · exact ht
        · exact (lt2 k (by omega)).trans_le le1
      · rw [x2, x1, d1.num, or_assoc]
        refine or_congr_right ?_
        simp only [ne_eq, reduceCtorEq, not_false_eq_true, true_and]
        constructor
        · rintro (⟨K, hK, h0⟩ | ⟨K, hK, k, hk, hkK⟩)
          · exact ⟨K, hK, 0, by omega, h0⟩
          · exact ⟨K, hK, k + 1, by omega, hkK⟩
        · rintro ⟨K, hK, k, hk, hkK⟩
          rcases k with _ | k
          · exact .inl ⟨K, hK, hkK⟩
          · exact .inr ⟨K, hK, k, by omega, hkK⟩
    · rw [if_neg ht] at h
      simp only [Option.some.injEq] at h
      subst h
      exact ⟨[], 0, c, by rw [List.append_nil]; exact m, Dim.refl s, rfl, rfl, not_lt.1 ht, fun k hk => by omega, fun x => by simp⟩

/-- The loop ends if the walk gets late enough. -/
theorem segLoop_ends {hash : Obj → Nat} {own : Obj → Option (Nat → Prop)} (f : Obj → σ → σ × F) (n : Nat) :
    ∀ (w : Walk F) {s : SHash F} (_ : Core hash s own) {log : List Obj} (_ : Mark s log) (c : σ) {tE : F} (_ : tE ≤ 1),
    tE ≤ (Walk.next^[n] w).t → ∃ r, ∀ fuel, n < fuel → segLoop f fuel w s c tE = some r := by
  induction n with
  | zero =>
    intro w s c log m d tE hE h
    refine ⟨(s, d), fun fuel hf => ?_⟩
    obtain ⟨fu, rfl⟩ : ∃ fu, fuel = fu + 1 := ⟨fuel - 1, by omega⟩
    have h' : ¬ w.t < tE := not_lt.2 h
    rw [segLoop, if_neg h']
  | succ n ih =>
    intro w s c log m d tE hE h
    by_cases ht : w.t < tE
    · obtain ⟨s1, l1, e1, c1, m1, d1, t1, p1, x1⟩ := queryCell_spec c m none (k := cellIndex s.numCells (w.cellX, w.cellY)) (Nat.mod_lt _ c.pos)
      obtain ⟨new, e2, e3⟩ := segCell_eq f s log d tE _ hE e1
      have le1 := callEach_le f new (d, tE)
      obtain ⟨r, hr⟩ := ih w.next c1 m1 (callEach f new (d, tE)).1 (le1.trans hE) (le1.trans h)
      refine ⟨r, fun fuel hf => ?_⟩
      obtain ⟨fu, rfl⟩ : ∃ fu, fuel = fu + 1 := ⟨fuel - 1, by omega⟩
      rw [segLoop, if_pos ht, e3]
      exact hr fu (by omega)
    · refine ⟨(s, d), fun fuel hf => ?_⟩
      obtain ⟨fu, rfl⟩ : ∃ fu, fuel = fu + 1 := ⟨fuel - 1, by omega⟩
      rw [segLoop, if_neg ht]

/-- The whole query, when it ends. -/
theorem segmentQuery_spec {hash : Obj → Nat} {s : SHash F} {own : Obj → Option (Nat → Prop)} (i : SInv hash s own) (f : Obj → σ → σ × F) (c : σ)
    (a b : Vec F) {tE : F} (hE : tE ≤ 1) {fuel : Nat} {r : SHash F × σ} (h : s.segmentQuery fuel f c a b tE = some r) :
    ∃ log n, SInv hash r.1 own ∧ Dim s r.1 ∧ r.1.set = s.set ∧ log.Nodup ∧ r.2 = (callEach f log (c, tE)).1 ∧
      (callEach f log (c, tE)).2 ≤ (Walk.next^[n] (Walk.start s.celldim a b)).t ∧
      (∀ k < n, (Walk.next^[k] (Walk.start s.celldim a b)).t < tE) ∧
      ∀ x, x ∈ log ↔ ∃ K, own x = some K ∧ ∃ k < n, K (cellIndex s.numCells
        ((Walk.next^[k] (Walk.start s.celldim a b)).cellX, (Walk.next^[k] (Walk.start s.celldim a b)).cellY)) := by
  rw [segmentQuery, Option.map_eq_some_iff] at h
  obtain ⟨q, hq, rfl⟩ := h
  obtain ⟨new, n, c2, m2, d2, t2, r2, q2, lt2, x2⟩ := segLoop_spec f fuel _ i.toCore i.mark c hE hq
  rw [List.nil_append] at m2 x2
  refine ⟨new, n, c2.next m2, ⟨d2.num, d2.dim⟩, t2, m2.nd, r2, q2, lt2, fun x => ?_⟩
  rw [x2]; simp

end SHash
end CP
