import Verif.Proofs.Hull
import Verif.Props.Polygon

/-! # C28: convex hulls -/

namespace CP
open HullImpl

/-- The order by x and then by y. -/
def LexLe (u v : Vec ℝ) : Prop := u.x < v.x ∨ (u.x = v.x ∧ u.y ≤ v.y)

theorem LexLe.refl (u : Vec ℝ) : LexLe u u := Or.inr ⟨rfl, le_refl _⟩
theorem LexLe.trans {u v w : Vec ℝ} (h : LexLe u v) (g : LexLe v w) : LexLe u w := by
  unfold LexLe at *
  rcases h with h | ⟨h, h'⟩ <;> rcases g with g | ⟨g, g'⟩
  · left; linarith
  · left; linarith
  · left; linarith
  · right; exact ⟨h.trans g, h'.trans g'⟩
theorem LexLe.antisymm {u v : Vec ℝ} (h : LexLe u v) (g : LexLe v u) : u = v := by
  unfold LexLe at *
  rcases h with h | ⟨h, h'⟩ <;> rcases g with g | ⟨g, g'⟩
  · linarith
  · linarith
  · linarith
  · ext; exact h; linarith

theorem not_lexLt {u v : Vec ℝ} (h : ¬ (u.x < v.x ∨ (u.x = v.x ∧ u.y < v.y))) : LexLe v u := by
  unfold LexLe
  push Not at h
  obtain ⟨h1, h2⟩ := h
  rcases lt_or_eq_of_le h1 with h | h
  · exact Or.inl h
  · exact Or.inr ⟨h, h2 h.symm⟩

/-- What is known of the variables of `LoopIndexes` after the first `i` points. -/
structure LoopInv (A : Arr) (st : LoopSt ℝ) (i : Nat) : Prop where
  start : st.start < i ∧ A[st.start]? = some st.mn
  stop : st.stop < i ∧ A[st.stop]? = some st.mx
  all : ∀ k v, k < i → A[k]? = some v → LexLe st.mn v ∧ LexLe v st.mx

theorem loopIndexesFrom_spec (A : Arr) : ∀ (n i : Nat) (st : LoopSt ℝ), LoopInv A st i → i + n ≤ A.size →
    ∃ st', loopIndexesFrom A st i n = some st' ∧ LoopInv A st' (i + n) := by
  intro n
  induction n with
  | zero => intro i st h _; exact ⟨st, rfl, h⟩
  | succ n ih =>
    intro i st h hs
    obtain ⟨v, hv⟩ : ∃ v, A[i]? = some v := ⟨_, Array.getElem?_eq_getElem (by omega)⟩
    unfold loopIndexesFrom
    simp only [hv, Option.bind_eq_bind, Option.bind_some]
    have hi := h.start.1
    have hmm : LexLe st.mn st.mx := (h.all _ _ h.start.1 h.start.2).2
    have key : LoopInv A (loopStep st i v) (i + 1) := by
      unfold loopStep
      by_cases h1 : v.x < st.mn.x ∨ (v.x = st.mn.x ∧ v.y < st.mn.y)
      · rw [if_pos h1]
        have hle : LexLe v st.mn := by
          rcases h1 with h1 | ⟨h1, h1'⟩
          · exact Or.inl h1
          · exact Or.inr ⟨h1, h1'.le⟩
        refine ⟨⟨by simp, hv⟩, ⟨by have := h.stop.1; simp only; omega, h.stop.2⟩, ?_⟩
        intro k u hk hu
        rcases Nat.lt_succ_iff_lt_or_eq.1 hk with hk | hk
        · obtain ⟨g1, g2⟩ := h.all k u hk hu; exact ⟨hle.trans g1, g2⟩
        · subst hk; rw [hv] at hu; cases hu; exact ⟨LexLe.refl _, hle.trans hmm⟩
      · rw [if_neg h1]
        have hle := not_lexLt h1
        by_cases h2 : st.mx.x < v.x ∨ (v.x = st.mx.x ∧ st.mx.y < v.y)
        · rw [if_pos h2]
          have hge : LexLe st.mx v := by
            rcases h2 with h2 | ⟨h2, h2'⟩
            · exact Or.inl h2
            · exact Or.inr ⟨h2.symm, h2'.le⟩
          refine ⟨⟨by simp only; omega, h.start.2⟩, ⟨by simp, hv⟩, ?_⟩
          intro k u hk hu
          rcases Nat.lt_succ_iff_lt_or_eq.1 hk with hk | hk
          · obtain ⟨g1, g2⟩ := h.all k u hk hu; exact ⟨g1, g2.trans hge⟩
          · subst hk; rw [hv] at hu; cases hu; exact ⟨hle, LexLe.refl _⟩
        · rw [if_neg h2]
          refine ⟨⟨by omega, h.start.2⟩, ⟨by have := h.stop.1; omega, h.stop.2⟩, ?_⟩
          intro k u hk hu
          rcases Nat.lt_succ_iff_lt_or_eq.1 hk with hk | hk
          · exact h.all k u hk hu
          · subst hk; rw [hv] at hu; cases hu
            exact ⟨hle, not_lexLt (fun g => h2 (g.imp id (fun g => ⟨g.1.symm, g.2⟩)))⟩
    obtain ⟨st', e, h'⟩ := ih (i + 1) _ key (by omega)
    exact ⟨st', e, by rw [show i + (n + 1) = i + 1 + n by omega]; exact h'⟩

/-- **C28**, `LoopIndexes`: the indices of a least and of a greatest point in the order by x, then y. -/
theorem C28_loopIndexes (A : Arr) (n : Nat) (h1 : 1 ≤ n) (hn : n ≤ A.size) :
    ∃ i j u v, loopIndexes A n = some (i, j) ∧ i < n ∧ j < n ∧ A[i]? = some u ∧ A[j]? = some v ∧
      ∀ k w, k < n → A[k]? = some w → LexLe u w ∧ LexLe w v := by
  obtain ⟨v, hv⟩ : ∃ v, A[0]? = some v := ⟨_, Array.getElem?_eq_getElem (by omega)⟩
  obtain ⟨st, e, h⟩ := loopIndexesFrom_spec A (n - 1) 1 ⟨0, 0, v, v⟩
    ⟨⟨by simp, hv⟩, ⟨by simp, hv⟩, by
      intro k u hk hu
      obtain rfl : k = 0 := by omega
      rw [hv] at hu; cases hu; exact ⟨LexLe.refl _, LexLe.refl _⟩⟩ (by omega)
  rw [show 1 + (n - 1) = n by omega] at h
  refine ⟨st.start, st.stop, st.mn, st.mx, ?_, h.start.1, h.stop.1, h.start.2, h.stop.2, h.all⟩
  simp only [loopIndexes, hv, e, Option.bind_eq_bind, Option.bind_some]

/-- The points on the line through the extreme points are between these. -/
theorem onSegment_of_line {a b x : Vec ℝ} (hab : a ≠ b) (h1 : LexLe a x) (h2 : LexLe x b) (h0 : turn a b x = 0) :
    OnSegment a b x := by
  simp only [turn] at h0
  unfold LexLe at h1 h2
  by_cases hx : a.x = b.x
  · have e1 : x.x = a.x := by
      rcases h1 with h1 | h1 <;> rcases h2 with h2 | h2 <;> linarith [h1, h2]
    have hy1 : a.y ≤ x.y := by
      rcases h1 with h1 | h1
      · linarith
      · exact h1.2
    have hy2 : x.y ≤ b.y := by
      rcases h2 with h2 | h2
      · linarith
      · exact h2.2
    have hne : a.y ≠ b.y := fun h => hab (by ext <;> assumption)
    have hlt : 0 < b.y - a.y := by
      have : a.y < b.y := lt_of_le_of_ne (hy1.trans hy2) hne
      linarith
    refine ⟨(x.y - a.y) / (b.y - a.y), div_nonneg (by linarith) hlt.le, by rw [div_le_one hlt]; linarith, ?_⟩
    ext
    · simp only; rw [hx]; linarith
    · simp only; field_simp; ring
  · have hx1 : a.x ≤ x.x := by
      rcases h1 with h1 | h1
      · exact h1.le
      · exact h1.1.le
    have hx2 : x.x ≤ b.x := by
      rcases h2 with h2 | h2
      · exact h2.le
      · exact h2.1.le
    have hlt : 0 < b.x - a.x := by
      have : a.x < b.x := lt_of_le_of_ne (hx1.trans hx2) hx
      linarith
    refine ⟨(x.x - a.x) / (b.x - a.x), div_nonneg (by linarith) hlt.le, by rw [div_le_one hlt]; linarith, ?_⟩
    ext
    · simp only; field_simp; ring
    · simp only; field_simp; nlinarith

theorem lex_x_le {u v : Vec ℝ} (h : LexLe u v) : u.x ≤ v.x := by
  rcases h with h | h
  · exact h.le
  · exact h.1.le

/-- The swaps at the beginning of `ConvexHull` bring the least point to the front, followed by the greatest. -/
theorem swaps_spec {A : Arr} {n i j : Nat} {u v : Vec ℝ} (hn : n ≤ A.size) (hi : i < n) (hj : j < n) (hij : i ≠ j)
    (hu : A[i]? = some u) (hv : A[j]? = some v) :
    ∃ B C, swap A 0 i = some B ∧ (if j = 0 then swap B 1 i else swap B 1 j) = some C ∧ Frame A C 0 n ∧
      C.toList.Perm A.toList ∧ C[0]? = some u ∧ C[1]? = some v := by
  obtain ⟨B, hB, hs, hp, h1, h2, h3⟩ := swap_spec (A := A) (i := 0) (j := i) (by omega) (by omega)
  by_cases hj0 : j = 0
  · obtain ⟨C, hC, hs', hp', h1', h2', h3'⟩ := swap_spec (A := B) (i := 1) (j := i) (by omega) (by omega)
    refine ⟨B, C, hB, by rw [if_pos hj0]; exact hC, ⟨by omega, ?_⟩, hp'.trans hp, ?_, ?_⟩
    · intro k hk; rw [h3' k (by omega) (by omega), h3 k (by omega) (by omega)]
    · rw [h3' 0 (by omega) (by omega), h1, hu]
    · rw [h1', h2, ← hj0, hv]
  · obtain ⟨C, hC, hs', hp', h1', h2', h3'⟩ := swap_spec (A := B) (i := 1) (j := j) (by omega) (by omega)
    refine ⟨B, C, hB, by rw [if_neg hj0]; exact hC, ⟨by omega, ?_⟩, hp'.trans hp, ?_, ?_⟩
    · intro k hk; rw [h3' k (by omega) (by omega), h3 k (by omega) (by omega)]
    · rw [h3' 0 (by omega) (by omega), h1, hu]
    · rw [h1', h3 j hj0 (fun h => hij h.symm), hv]

/-- What a convex hull of the points `pts` is: some of the points, without repetition, in an order in which no point is
ever to the right of an edge, with the same convex hull. -/
structure IsHullOf (hull pts : List (Vec ℝ)) : Prop where
  sub : ∀ v ∈ hull, v ∈ pts
  nodup : hull.Nodup
  left : ∀ x ∈ pts, LeftOfEdges hull x
  hull_eq : ∀ x, Hull (fun p => p ∈ hull) x ↔ Hull (fun p => p ∈ pts) x

theorem reg_zero_eq (A : Arr) (n : Nat) : reg A 0 n = A.toList.take n := by simp [reg]

/-- **C28.** `ConvexHull` with zero tolerance on the first `n ≥ 1` elements of an array never goes out of bounds, touches
only these elements, and leaves their convex hull, counter-clockwise, in the first `k` elements, beginning with the least
point by x, then y, which was at the index it reports as `first` (if the points are not all equal; it is 0 then). If the
points are not all on one line the hull has three vertices or more. -/
theorem C28_hull (A : Array (Vec ℝ)) (n : Nat) (h1 : 1 ≤ n) (hn : n ≤ A.size) :
    ∃ A' k first, convexHull n A 0 = some (A', k, first) ∧ 1 ≤ k ∧ k ≤ n ∧ A'.size = A.size ∧
      (∀ i, n ≤ i → A'[i]? = A[i]?) ∧ IsHullOf (A'.toList.take k) (A.toList.take n) ∧
      (∃ u, A[first]? = some u ∧ A'[0]? = some u ∧ ∀ x ∈ A.toList.take n, LexLe u x) ∧
      ((∃ x ∈ A.toList.take n, ∃ y ∈ A.toList.take n, ∃ z ∈ A.toList.take n, turn x y z ≠ 0) → 3 ≤ k) := by
  obtain ⟨i, j, u, v, e, hi, hj, hu, hv, hall⟩ := C28_loopIndexes A n h1 hn
  have hpts : ∀ x, x ∈ A.toList.take n ↔ ∃ k, k < n ∧ A[k]? = some x := by
    intro x; rw [← reg_zero_eq, mem_reg]; simp
  have hlex : ∀ x ∈ A.toList.take n, LexLe u x ∧ LexLe x v := by
    intro x hx; obtain ⟨k, hk, e⟩ := (hpts x).1 hx; exact hall k x hk e
  unfold convexHull
  simp only [e, Option.bind_eq_bind, Option.bind_some]
  by_cases hij : i = j
  · rw [if_pos hij]
    subst hij
    rw [hu] at hv; cases hv
    have hone : ∀ x ∈ A.toList.take n, x = u := fun x hx => (hlex x hx).2.antisymm (hlex x hx).1
    obtain ⟨w, hw⟩ : ∃ w, A[0]? = some w := ⟨_, Array.getElem?_eq_getElem (by omega)⟩
    have hwu : w = u := hone w ((hpts w).2 ⟨0, by omega, hw⟩)
    subst hwu
    have htake : A.toList.take 1 = [w] := by rw [← reg_zero_eq, reg_succ (n := 0) hw, reg_zero]
    have hmem : w ∈ A.toList.take n := (hpts w).2 ⟨0, by omega, hw⟩
    refine ⟨A, 1, 0, rfl, le_refl _, h1, rfl, fun _ _ => rfl, ⟨?_, ?_, ?_, ?_⟩, ⟨w, hw, hw, fun x hx => (hlex x hx).1⟩, ?_⟩
    · rw [htake]; intro x hx; rw [List.mem_singleton.1 hx]; exact hmem
    · rw [htake]; simp
    · rw [htake]; intro x hx f hf
      simp [edges, pairsFrom] at hf
      subst hf; simp [turn]
    · rw [htake]; intro x
      constructor
      · exact hull_mono (fun p hp => by rw [List.mem_singleton.1 hp]; exact hmem)
      · exact hull_mono (fun p hp => by rw [hone p hp]; simp)
    · rintro ⟨x, hx, y, hy, z, hz, h⟩
      rw [hone x hx, hone y hy, hone z hz] at h
      simp [turn] at h
  · rw [if_neg hij]
    obtain ⟨B, C, hB, hC, fC, pC, hC0, hC1⟩ := swaps_spec hn hi hj hij hu hv
    simp only [hB, hC, Option.bind_some, hC0, hC1]
    have hsC := fC.size
    obtain ⟨A', l, r, S1, S2, e', hlen, f', hreg, hperm, g1, g2, c1, c2⟩ := reduce_spec (n - 1) C 2 (n - 2) u v u 1
      (by omega) (by omega) (by omega)
    simp only [e', Option.bind_some]
    have hregC : reg C 0 n = u :: v :: reg C 2 (n - 2) := by
      obtain ⟨m, rfl⟩ : ∃ m, n = m + 2 := ⟨n - 2, by omega⟩
      rw [show m + 2 = (m + 1) + 1 by omega, reg_succ hC0, reg_succ hC1]; simp
    have hP : (A.toList.take n).Perm (u :: v :: (S1 ++ S2)) := by
      rw [← reg_zero_eq]
      refine (fC.perm pC).symm.trans ?_
      rw [hregC]
      exact List.Perm.cons _ (List.Perm.cons _ hperm)
    have hmem : ∀ x, x ∈ A.toList.take n ↔ x = u ∨ x = v ∨ x ∈ S1 ∨ x ∈ S2 := by
      intro x; rw [hP.mem_iff]; simp
    have huv : u ≠ v := by
      intro h
      subst h
      have hone : ∀ x ∈ A.toList.take n, x = u := fun x hx => (hlex x hx).2.antisymm (hlex x hx).1
      -- the loop of `LoopIndexes` is left with two different indices only if the points differ
      obtain ⟨w, hw⟩ : ∃ w, A[0]? = some w := ⟨_, Array.getElem?_eq_getElem (by omega)⟩
      have hconst : ∀ (m i : Nat) (st : LoopSt ℝ), i + m ≤ n → st.mn = u → st.mx = u →
          loopIndexesFrom A st i m = some st := by
        intro m
        induction m with
        | zero => intro i st _ _ _; rfl
        | succ m ih =>
          intro i st him hmn hmx
          obtain ⟨y, hy⟩ : ∃ y, A[i]? = some y := ⟨_, Array.getElem?_eq_getElem (by omega)⟩
          have hyu : y = u := hone y ((hpts y).2 ⟨i, by omega, hy⟩)
          unfold loopIndexesFrom
          simp only [hy, Option.bind_eq_bind, Option.bind_some]
          have : loopStep st i y = st := by
            unfold loopStep
            rw [hyu, hmn, hmx, if_neg (by simp), if_neg (by simp)]
          rw [this]
          exact ih (i + 1) st (by omega) hmn hmx
      have hwu : w = u := hone w ((hpts w).2 ⟨0, by omega, hw⟩)
      simp only [loopIndexes, hw, Option.bind_eq_bind, Option.bind_some,
        hconst (n - 1) 1 ⟨0, 0, w, w⟩ (by omega) hwu hwu] at e
      simp only [Option.some.injEq, Prod.mk.injEq] at e
      exact hij (e.1.symm.trans e.2)
    have htake : A'.toList.take (l.length + 1 + r.length + 1) = u :: (l ++ v :: r) := by
      rw [← reg_zero_eq]
      have h0 : A'[0]? = some u := by rw [f'.same 0 (by omega)]; exact hC0
      rw [reg_succ h0]; rw [hreg]
    obtain ⟨X, hX⟩ : ∃ X : Pts, X = fun x => x ∈ A.toList.take n := ⟨_, rfl⟩
    have hXm : ∀ x, X x ↔ x ∈ A.toList.take n := by intro x; rw [hX]
    have hXu : X u := by rw [hXm, hmem]; simp
    have hXv : X v := by rw [hXm, hmem]; simp
    have hXx : ∀ x, X x → u.x ≤ x.x ∧ x.x ≤ v.x := fun x hx =>
      ⟨lex_x_le (hlex x ((hXm x).1 hx)).1, lex_x_le (hlex x ((hXm x).1 hx)).2⟩
    have hdu : ∀ x, X x → 0 ≤ (⟨0, -1⟩ : Vec ℝ).cross (x.sub u) := by
      intro x hx; have := (hXx x hx).1; simp only [Vec.cross, Vec.sub]; linarith
    have hdv : ∀ x, X x → 0 ≤ (⟨0, 1⟩ : Vec ℝ).cross (x.sub v) := by
      intro x hx; have := (hXx x hx).2; simp only [Vec.cross, Vec.sub]; linarith
    have hnd : (∃ x, X x ∧ turn u v x ≠ 0) → u.x < v.x := by
      rintro ⟨x, hx, h⟩
      rcases lt_or_eq_of_le (hXx v hXv).1 with h' | h'
      · exact h'
      · exfalso
        apply h
        have := hXx x hx
        have : x.x = u.x := by linarith
        simp only [turn]; rw [this, h']; ring
    obtain ⟨a1, a2, a3, a4⟩ := c1.geom X ⟨0, -1⟩ ⟨0, 1⟩ (fun x hx => by rw [hXm, hmem]; tauto) (by
        intro x hx hneg
        rw [hXm, hmem] at hx
        rcases hx with h | h | h | h
        · rw [h, turn_self_left] at hneg; linarith
        · rw [h, turn_self_right] at hneg; linarith
        · exact h
        · have := g2 x h; linarith) hXu hXv hdu hdv (by
        rintro ⟨x, hx, h⟩
        have := hnd ⟨x, hx, h.ne⟩
        simp only [Vec.cross, Vec.sub]; constructor <;> linarith)
    obtain ⟨b1, b2, b3, b4⟩ := c2.geom X ⟨0, 1⟩ ⟨0, -1⟩ (fun x hx => by rw [hXm, hmem]; tauto) (by
        intro x hx hneg
        rw [hXm, hmem] at hx
        rcases hx with h | h | h | h
        · rw [h, turn_self_right] at hneg; linarith
        · rw [h, turn_self_left] at hneg; linarith
        · have := g1 x h; rw [turn_swap] at hneg; linarith
        · exact h) hXv hXu hdv hdu (by
        rintro ⟨x, hx, h⟩
        rw [turn_swap] at h
        have := hnd ⟨x, hx, by linarith⟩
        simp only [Vec.cross, Vec.sub]; constructor <;> linarith)
    refine ⟨A', l.length + 1 + r.length + 1, i, rfl, by omega, by omega, ?_, ?_, ⟨?_, ?_, ?_, ?_⟩, ?_, ?_⟩
    · rw [f'.size, fC.size]
    · intro k hk; rw [f'.same k (by omega), fC.same k (by omega)]
    · rw [htake]
      intro x hx
      rw [hmem]
      simp only [List.mem_cons, List.mem_append] at hx
      rcases hx with h | h | h | h
      · exact Or.inl h
      · exact Or.inr (Or.inr (Or.inl (a1 x h).1))
      · exact Or.inr (Or.inl h)
      · exact Or.inr (Or.inr (Or.inr (b1 x h).1))
    · rw [htake]
      have hul : u ∉ l := fun h => by have := (a1 u h).2; rw [turn_self_left] at this; linarith
      have hvl : v ∉ l := fun h => by have := (a1 v h).2; rw [turn_self_right] at this; linarith
      have hur : u ∉ r := fun h => by have := (b1 u h).2; rw [turn_self_right] at this; linarith
      have hvr : v ∉ r := fun h => by have := (b1 v h).2; rw [turn_self_left] at this; linarith
      refine List.nodup_cons.2 ⟨by simp [hul, hur, huv], List.nodup_append.2 ⟨a2, List.nodup_cons.2 ⟨hvr, b2⟩, ?_⟩⟩
      intro x hx y hy h
      subst h
      rcases List.mem_cons.1 hy with h | h
      · subst h; exact hvl hx
      · have h1 := (a1 x hx).2
        have h2 := (b1 x h).2
        rw [turn_swap] at h2; linarith
    · rw [htake]
      intro x hx f hf
      rw [mem_edges_cons, List.append_assoc, List.cons_append, pairsFrom_append] at hf
      rcases List.mem_append.1 hf with h | h
      · exact a3 f h x ((hXm x).2 hx)
      · exact b3 f h x ((hXm x).2 hx)
    · rw [htake]
      intro x
      constructor
      · refine hull_mono ?_
        intro y hy
        rw [hmem]
        simp only [List.mem_cons, List.mem_append] at hy
        rcases hy with h | h | h | h
        · exact Or.inl h
        · exact Or.inr (Or.inr (Or.inl (a1 y h).1))
        · exact Or.inr (Or.inl h)
        · exact Or.inr (Or.inr (Or.inr (b1 y h).1))
      · intro h
        refine Hull.least (isConvex_hull _) ?_ h
        intro y hy
        rcases lt_trichotomy (turn u v y) 0 with h0 | h0 | h0
        · have hy1 : y ∈ S1 := by
            rcases (hmem y).1 hy with h | h | h | h
            · rw [h, turn_self_left] at h0; linarith
            · rw [h, turn_self_right] at h0; linarith
            · exact h
            · have := g2 y h; linarith
          refine hull_mono ?_ (a4 y hy1 h0)
          intro q hq; simp at hq ⊢; tauto
        · exact Hull.mix (Hull.pt (by simp)) (Hull.pt (by simp)) (onSegment_of_line huv (hlex y hy).1 (hlex y hy).2 h0)
        · have h0' : turn v u y < 0 := by rw [turn_swap]; linarith
          have hy1 : y ∈ S2 := by
            rcases (hmem y).1 hy with h | h | h | h
            · rw [h, turn_self_left] at h0; linarith
            · rw [h, turn_self_right] at h0; linarith
            · have := g1 y h; linarith
            · exact h
          refine hull_mono ?_ (b4 y hy1 h0')
          intro q hq; simp at hq ⊢; tauto
    · refine ⟨u, hu, by rw [f'.same 0 (by omega)]; exact hC0, fun x hx => (hlex x hx).1⟩
    · rintro ⟨x, hx, y, hy, z, hz, h⟩
      by_contra hk
      have hl0 : l = [] := List.length_eq_zero_iff.1 (by omega)
      have hr0 : r = [] := List.length_eq_zero_iff.1 (by omega)
      subst hl0; subst hr0
      have hz0 : ∀ w ∈ A.toList.take n, turn u v w = 0 := by
        intro w hw
        have h1 := a3 (u, v) (by simp [pairsFrom]) w ((hXm w).2 hw)
        have h2 := b3 (v, u) (by simp [pairsFrom]) w ((hXm w).2 hw)
        simp only at h1 h2
        rw [turn_swap] at h2; linarith
      obtain ⟨s, _, _, hs⟩ := onSegment_of_line huv (hlex x hx).1 (hlex x hx).2 (hz0 x hx)
      obtain ⟨t, _, _, ht⟩ := onSegment_of_line huv (hlex y hy).1 (hlex y hy).2 (hz0 y hy)
      obtain ⟨w, _, _, hw⟩ := onSegment_of_line huv (hlex z hz).1 (hlex z hz).2 (hz0 z hz)
      apply h
      rw [hs, ht, hw]; simp only [turn]; ring

/-- **C28**, strict convexity: if no three different points are on one line, a hull of three or more vertices is a strictly
convex polygon (which is what polygon shapes need, see C30). -/
theorem C28_strict (A : Array (Vec ℝ)) (n : Nat) (h1 : 1 ≤ n) (hn : n ≤ A.size)
    (hgen : ∀ x ∈ A.toList.take n, ∀ y ∈ A.toList.take n, ∀ z ∈ A.toList.take n, x ≠ y → y ≠ z → x ≠ z → turn x y z ≠ 0)
    {A' : Array (Vec ℝ)} {k first : Nat} (h : convexHull n A 0 = some (A', k, first)) (hk : 3 ≤ k) :
    StrictlyConvex (A'.toList.take k) := by
  obtain ⟨A1, k1, f1, e, _, hkn, hsz, _, hh, _⟩ := C28_hull A n h1 hn
  rw [h] at e
  simp only [Option.some.injEq, Prod.mk.injEq] at e
  obtain ⟨rfl, rfl, rfl⟩ := e
  refine ⟨?_, hh.nodup, ?_⟩
  · rw [List.length_take]; simp; omega
  · intro f hf v hv
    by_cases h1 : v = f.1
    · exact Or.inl h1
    · by_cases h2 : v = f.2
      · exact Or.inr (Or.inl h2)
      · right; right
        have hl := hh.left v (hh.sub v hv) f hf
        rcases lt_or_eq_of_le hl with h | h
        · exact h
        · exfalso
          by_cases h12 : f.1 = f.2
          · -- an edge from a vertex to itself: only in a polygon of one vertex
            obtain ⟨a, t, hat⟩ : ∃ a t, A'.toList.take k = a :: t := by
              cases hc : A'.toList.take k with
              | nil => rw [hc] at hv; cases hv
              | cons a t => exact ⟨a, t, rfl⟩
            rw [hat, mem_edges_cons] at hf
            have hlen : (A'.toList.take k).length = k := by rw [List.length_take]; simp; omega
            rw [hat] at hlen
            have hnd := hh.nodup
            rw [hat] at hnd
            have htne : t ≠ [] := by intro ht; rw [ht] at hlen; simp at hlen; omega
            have key : ∀ (t : List (Vec ℝ)) (p : Vec ℝ), (p :: t).Nodup → p ≠ a → a ∉ t →
                ∀ e ∈ pairsFrom p (t ++ [a]), e.1 ≠ e.2 := by
              intro t
              induction t with
              | nil => intro p _ hp _ e he; simp [pairsFrom] at he; subst he; exact hp
              | cons q t ih =>
                intro p hnd hp ha e he
                simp only [List.cons_append, pairsFrom, List.mem_cons] at he
                rcases he with he | he
                · subst he; simp at hnd ⊢; tauto
                · simp at ha; exact ih q (List.nodup_cons.1 hnd).2 (fun h => ha.1 h.symm) ha.2 e he
            cases t with
            | nil => exact htne rfl
            | cons q t =>
              simp only [List.cons_append, pairsFrom, List.mem_cons] at hf
              simp only [List.nodup_cons, List.mem_cons, not_or] at hnd
              rcases hf with hf | hf
              · subst hf; exact hnd.1.1 h12
              · exact key t q (by simp [hnd.2]) (fun h => hnd.1.1 h.symm) hnd.1.2 f hf h12
          · have m1 := hh.sub _ (edges_fst_mem hf)
            have m2 := hh.sub _ (edges_snd_mem hf)
            exact hgen _ m1 _ m2 _ (hh.sub v hv) h12 (fun h => h2 h.symm) (fun h => h1 h.symm) h.symm

theorem hullDemo_e0 : loopIndexes (#[⟨0, 0⟩, ⟨10, 0⟩, ⟨5, -1⟩, ⟨2, -1⟩, ⟨8, -1⟩] : Array (Vec ℝ)) 5 = some (0, 1) := by
  norm_num [loopIndexes, loopIndexesFrom, loopStep]

theorem hullDemo_p1 : partition (#[⟨0, 0⟩, ⟨10, 0⟩, ⟨5, -1⟩, ⟨2, -1⟩, ⟨8, -1⟩] : Array (Vec ℝ)) 2 3 ⟨0, 0⟩ ⟨10, 0⟩ 0 =
    some (#[⟨0, 0⟩, ⟨10, 0⟩, ⟨5, -1⟩, ⟨2, -1⟩, ⟨8, -1⟩], 3) := by
  norm_num [partition, partLoop, Vec.cross, Vec.sub]

theorem hullDemo_p2 : partition (#[⟨0, 0⟩, ⟨10, 0⟩, ⟨5, -1⟩, ⟨2, -1⟩, ⟨8, -1⟩] : Array (Vec ℝ)) 3 2 ⟨0, 0⟩ ⟨5, -1⟩ 0 =
    some (#[⟨0, 0⟩, ⟨10, 0⟩, ⟨5, -1⟩, ⟨2, -1⟩, ⟨8, -1⟩], 1) := by
  norm_num [partition, partLoop, swap, Vec.cross, Vec.sub]

theorem hullDemo_p3 : partition (#[⟨0, 0⟩, ⟨2, -1⟩, ⟨5, -1⟩, ⟨2, -1⟩, ⟨8, -1⟩] : Array (Vec ℝ)) 4 1 ⟨5, -1⟩ ⟨10, 0⟩ 0 =
    some (#[⟨0, 0⟩, ⟨2, -1⟩, ⟨5, -1⟩, ⟨2, -1⟩, ⟨8, -1⟩], 1) := by
  norm_num [partition, partLoop, Vec.cross, Vec.sub]

theorem hullDemo_p4 : partition (#[⟨0, 0⟩, ⟨2, -1⟩, ⟨5, -1⟩, ⟨8, -1⟩, ⟨10, 0⟩] : Array (Vec ℝ)) 5 0 ⟨10, 0⟩ ⟨0, 0⟩ 0 =
    some (#[⟨0, 0⟩, ⟨2, -1⟩, ⟨5, -1⟩, ⟨8, -1⟩, ⟨10, 0⟩], 0) := by
  simp [partition]

theorem hullDemo_r1 : reduce 0 3 (#[⟨0, 0⟩, ⟨10, 0⟩, ⟨5, -1⟩, ⟨2, -1⟩, ⟨8, -1⟩] : Array (Vec ℝ)) 3 2 ⟨0, 0⟩ ⟨5, -1⟩ ⟨10, 0⟩ 1 =
    some (#[⟨0, 0⟩, ⟨2, -1⟩, ⟨5, -1⟩, ⟨8, -1⟩, ⟨8, -1⟩], 3) := by
  have rb : ∀ (A : Array (Vec ℝ)) (vo : Nat) (a p b : Vec ℝ) (ro : Nat), reduce 0 2 A vo 0 a p b ro =
      (store A ro p).bind fun A => some (A, 1) := by
    intro A vo a p b ro; rw [reduce]; simp
  rw [reduce]
  simp [hullDemo_p2, store, rb, hullDemo_p3]

theorem hullDemo_r2 : reduce 0 4 (#[⟨0, 0⟩, ⟨10, 0⟩, ⟨5, -1⟩, ⟨2, -1⟩, ⟨8, -1⟩] : Array (Vec ℝ)) 2 3 ⟨0, 0⟩ ⟨10, 0⟩ ⟨0, 0⟩ 1 =
    some (#[⟨0, 0⟩, ⟨2, -1⟩, ⟨5, -1⟩, ⟨8, -1⟩, ⟨10, 0⟩], 4) := by
  rw [reduce]
  simp [hullDemo_p1, hullDemo_r1, store, hullDemo_p4]

theorem convexHull_eq {n m i j k : Nat} {A B C A' : Array (Vec ℝ)} {a b : Vec ℝ} (hn : n = m + 2)
    (h0 : loopIndexes A n = some (i, j)) (hij : i ≠ j) (h1 : swap A 0 i = some B)
    (h2 : (if j = 0 then swap B 1 i else swap B 1 j) = some C) (ha : C[0]? = some a) (hb : C[1]? = some b)
    (hr : reduce 0 (m + 1) C 2 m a b a 1 = some (A', k)) : convexHull n A 0 = some (A', k + 1, i) := by
  subst hn
  unfold convexHull
  simp only [h0, Option.bind_eq_bind, Option.bind_some, if_neg hij, h1, h2, ha, hb, Nat.add_sub_cancel,
    show m + 2 - 1 = m + 1 by omega, hr]

theorem hullDemo_e : convexHull 5 (#[⟨0, 0⟩, ⟨10, 0⟩, ⟨5, -1⟩, ⟨2, -1⟩, ⟨8, -1⟩] : Array (Vec ℝ)) 0 =
    some (#[⟨0, 0⟩, ⟨2, -1⟩, ⟨5, -1⟩, ⟨8, -1⟩, ⟨10, 0⟩], 5, 0) := by
  have s1 : swap (#[⟨0, 0⟩, ⟨10, 0⟩, ⟨5, -1⟩, ⟨2, -1⟩, ⟨8, -1⟩] : Array (Vec ℝ)) 0 0 =
      some #[⟨0, 0⟩, ⟨10, 0⟩, ⟨5, -1⟩, ⟨2, -1⟩, ⟨8, -1⟩] := by simp [swap]
  have s2 : (if 1 = 0 then swap (#[⟨0, 0⟩, ⟨10, 0⟩, ⟨5, -1⟩, ⟨2, -1⟩, ⟨8, -1⟩] : Array (Vec ℝ)) 1 0 else
      swap (#[⟨0, 0⟩, ⟨10, 0⟩, ⟨5, -1⟩, ⟨2, -1⟩, ⟨8, -1⟩] : Array (Vec ℝ)) 1 1) =
      some #[⟨0, 0⟩, ⟨10, 0⟩, ⟨5, -1⟩, ⟨2, -1⟩, ⟨8, -1⟩] := by simp [swap]
  exact convexHull_eq (m := 3) rfl hullDemo_e0 (by decide) s1 s2 (by simp) (by simp) hullDemo_r2

/-- **C28**, violated for points on one line: the hull of these five points has a vertex in the middle of an edge. (Of points
at the same distance the first is taken as the furthest, here the one between the other two.) -/
theorem C28_strict_violated :
    ∃ A' first, convexHull 5 (#[⟨0, 0⟩, ⟨10, 0⟩, ⟨5, -1⟩, ⟨2, -1⟩, ⟨8, -1⟩] : Array (Vec ℝ)) 0 = some (A', 5, first) ∧
      A'.toList = [⟨0, 0⟩, ⟨2, -1⟩, ⟨5, -1⟩, ⟨8, -1⟩, ⟨10, 0⟩] ∧
      ¬ StrictlyConvex (A'.toList.take 5) := by
  refine ⟨_, _, hullDemo_e, rfl, ?_⟩
  intro h
  have := h.left (⟨2, -1⟩, ⟨5, -1⟩) (by simp [edges, pairsFrom]) ⟨8, -1⟩ (by simp)
  norm_num [turn] at this

/-- The hypotheses of `C28_hull` and `C28_strict` are met: a triangle with a point inside. -/
example : ∃ A' k first, convexHull 4 (#[⟨0, 0⟩, ⟨4, 0⟩, ⟨1, 1⟩, ⟨0, 5⟩] : Array (Vec ℝ)) 0 = some (A', k, first) ∧ 3 ≤ k ∧
    StrictlyConvex (A'.toList.take k) := by
  obtain ⟨A', k, first, e, _, _, _, _, _, _, h3⟩ := C28_hull (#[⟨0, 0⟩, ⟨4, 0⟩, ⟨1, 1⟩, ⟨0, 5⟩] : Array (Vec ℝ)) 4 (by norm_num) (by simp)
  have hk : 3 ≤ k := h3 ⟨⟨0, 0⟩, by simp, ⟨4, 0⟩, by simp, ⟨1, 1⟩, by simp, by norm_num [turn]⟩
  refine ⟨A', k, first, e, hk, C28_strict _ 4 (by norm_num) (by simp) ?_ e hk⟩
  intro x hx y hy z hz
  simp at hx hy hz
  rcases hx with rfl | rfl | rfl | rfl <;> rcases hy with rfl | rfl | rfl | rfl <;> rcases hz with rfl | rfl | rfl | rfl <;>
    norm_num [turn]

/-- **C28**, `NewPolyShape`: whatever (non-empty) list of points it is given, the shape it makes consists of the points
within the radius of the convex hull of the transformed points, and its vertices are a hull of these. -/
theorem C28_newPolyShape (verts : Array (Vec ℝ)) (hne : verts.size ≠ 0) (t : Transform ℝ) (r : ℝ) :
    ∃ s hull, newPolyShape verts t r = some s ∧ s = Poly.new hull r ∧ IsHullOf hull (verts.toList.map t.point) ∧
      s.pts = Thick (Hull fun p => p ∈ verts.toList.map t.point) r := by
  obtain ⟨A', k, first, e, _, _, _, _, hh, _⟩ := C28_hull (verts.map t.point) verts.size (by omega) (by simp)
  have htake : (verts.map t.point).toList.take verts.size = verts.toList.map t.point := by
    rw [Array.toList_map, List.take_of_length_le (by simp)]
  rw [htake] at hh
  refine ⟨Poly.new (A'.toList.take k) r, A'.toList.take k, ?_, rfl, hh, ?_⟩
  · unfold newPolyShape
    simp only [Array.size_map, e, Option.bind_eq_bind, Option.bind_some]
  · rw [C29_poly_new]
    congr 1
    funext x
    exact propext (hh.hull_eq x)

example : ∃ s, newPolyShape (#[⟨0, 0⟩, ⟨4, 0⟩, ⟨1, 1⟩, ⟨0, 5⟩] : Array (Vec ℝ)) ⟨1, 0, 0, 1, 2, 3⟩ 1 = some s :=
  let ⟨s, _, h, _⟩ := C28_newPolyShape (#[⟨0, 0⟩, ⟨4, 0⟩, ⟨1, 1⟩, ⟨0, 5⟩] : Array (Vec ℝ)) (by simp) ⟨1, 0, 0, 1, 2, 3⟩ 1
  ⟨s, h⟩

end CP
