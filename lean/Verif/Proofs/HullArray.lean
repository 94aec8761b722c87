import Verif.Model.Hull
import Verif.Spec.Polygon
import Mathlib.Tactic.Linarith
import Mathlib.Data.List.Perm.Basic

/-! # `QHullPartition` and `QHullReduce` on the array -/

namespace CP
namespace HullImpl

abbrev Arr := Array (Vec ℝ)

/-- The elements `o .. o + n - 1`. -/
def reg (A : Arr) (o n : Nat) : List (Vec ℝ) := (A.toList.drop o).take n

/-- The array has changed at most at `o .. o + n - 1`. -/
structure Frame (A A' : Arr) (o n : Nat) : Prop where
  size : A'.size = A.size
  same : ∀ i, i < o ∨ o + n ≤ i → A'[i]? = A[i]?

theorem Frame.refl (A : Arr) (o n : Nat) : Frame A A o n := ⟨rfl, fun _ _ => rfl⟩

theorem Frame.trans {A B C : Arr} {o n : Nat} (h : Frame A B o n) (g : Frame B C o n) : Frame A C o n :=
  ⟨g.size.trans h.size, fun i hi => (g.same i hi).trans (h.same i hi)⟩

theorem Frame.mono {A B : Arr} {o n o' n' : Nat} (h : Frame A B o n) (h1 : o' ≤ o) (h2 : o + n ≤ o' + n') :
    Frame A B o' n' := ⟨h.size, fun i hi => h.same i (by omega)⟩

theorem reg_length {A : Arr} {o n : Nat} (h : o + n ≤ A.size) : (reg A o n).length = n := by
  unfold reg; simp; omega

theorem reg_get {A : Arr} {o n i : Nat} (hi : i < n) : (reg A o n)[i]? = A[o + i]? := by
  unfold reg; simp [List.getElem?_take, hi]

theorem reg_zero (A : Arr) (o : Nat) : reg A o 0 = [] := by simp [reg]

theorem reg_append (A : Arr) (o n m : Nat) : reg A o (n + m) = reg A o n ++ reg A (o + n) m := by
  unfold reg; rw [List.take_add, List.drop_drop]

theorem reg_succ {A : Arr} {o n : Nat} {v : Vec ℝ} (h : A[o]? = some v) : reg A o (n + 1) = v :: reg A (o + 1) n := by
  unfold reg
  have h' : A.toList[o]? = some v := by simpa using h
  obtain ⟨hl, hv⟩ := List.getElem?_eq_some_iff.1 h'
  rw [List.drop_eq_getElem_cons hl, hv]; rfl

theorem mem_reg {A : Arr} {o n : Nat} {x : Vec ℝ} : x ∈ reg A o n ↔ ∃ i, i < n ∧ A[o + i]? = some x := by
  constructor
  · intro h
    obtain ⟨i, hi⟩ := List.getElem?_of_mem h
    by_cases hn : i < n
    · exact ⟨i, hn, by rw [← reg_get hn]; exact hi⟩
    · have : (reg A o n).length ≤ n := by unfold reg; simp
      rw [List.getElem?_eq_none (by omega)] at hi; cases hi
  · rintro ⟨i, hi, h⟩
    rw [← reg_get hi] at h; exact List.mem_of_getElem? h

theorem reg_congr {A B : Arr} {o n : Nat} (h : ∀ i, i < n → B[o + i]? = A[o + i]?) : reg B o n = reg A o n := by
  apply List.ext_getElem?
  intro i
  by_cases hi : i < n
  · rw [reg_get hi, reg_get hi, h i hi]
  · unfold reg; rw [List.getElem?_eq_none (by simp; omega), List.getElem?_eq_none (by simp; omega)]

theorem Frame.reg_eq {A B : Arr} {o n o' n' : Nat} (h : Frame A B o n) (hd : o' + n' ≤ o ∨ o + n ≤ o') :
    reg B o' n' = reg A o' n' := reg_congr (fun i hi => h.same _ (by omega))

theorem toList_split (A : Arr) (o n : Nat) : A.toList = reg A 0 o ++ (reg A o n ++ A.toList.drop (o + n)) := by
  unfold reg
  rw [List.drop_zero, ← List.drop_drop, List.take_append_drop, List.take_append_drop]

theorem Frame.perm {A B : Arr} {o n : Nat} (h : Frame A B o n) (p : B.toList.Perm A.toList) :
    (reg B o n).Perm (reg A o n) := by
  rw [toList_split A o n, toList_split B o n, h.reg_eq (o' := 0) (n' := o) (by omega), List.perm_append_left_iff] at p
  have hd : B.toList.drop (o + n) = A.toList.drop (o + n) := by
    apply List.ext_getElem?
    intro i
    have := h.same (o + n + i) (by omega)
    simpa using this
  rw [hd] at p
  exact (List.perm_append_right_iff _).1 p

theorem swap_spec {A : Arr} {i j : Nat} (hi : i < A.size) (hj : j < A.size) :
    ∃ B, swap A i j = some B ∧ B.size = A.size ∧ B.toList.Perm A.toList ∧ B[i]? = A[j]? ∧ B[j]? = A[i]? ∧
      ∀ k, k ≠ i → k ≠ j → B[k]? = A[k]? := by
  refine ⟨A.swap i j, ?_, by simp, ?_, ?_, ?_, ?_⟩
  · unfold swap
    simp only [Array.getElem?_eq_getElem hi, Array.getElem?_eq_getElem hj, Option.bind_eq_bind, Option.bind_some]
    congr 1
    rw [Array.swap_def]
    simp [Array.setIfInBounds, hi, hj]
  · exact (Array.perm_iff_toList_perm.1 (Array.swap_perm hi hj))
  · grind
  · grind
  · intro k h1 h2; grind

theorem store_spec {A : Arr} {i : Nat} (v : Vec ℝ) (hi : i < A.size) :
    ∃ B, store A i v = some B ∧ B.size = A.size ∧ B[i]? = some v ∧ ∀ k, k ≠ i → B[k]? = A[k]? := by
  refine ⟨A.setIfInBounds i v, by simp [store, hi], by simp, by simp [hi], ?_⟩
  intro k hk; simp [Array.getElem?_setIfInBounds]; omega

/-- The value of `QHullPartition`: positive on the right of the line from `a` to `b`. -/
noncomputable def val (a b v : Vec ℝ) : ℝ := (v.sub a).cross (b.sub a)

theorem val_eq (a b v : Vec ℝ) : val a b v = - turn a b v := by
  simp only [val, turn, Vec.cross, Vec.sub]; ring

/-- What the loop of `QHullPartition` does from a state in which the first `head` elements are on the right. -/
theorem partLoop_spec (vo count : Nat) (a b : Vec ℝ) (w : ℝ) (hw : 0 ≤ w) :
    ∀ (n head : Nat) (mx : ℝ) (pivot : Nat) (A : Arr), head + n ≤ count → vo + count ≤ A.size →
      (∀ i, i < head → ∃ v, A[vo + i]? = some v ∧ w < val a b v ∧ val a b v ≤ mx) →
      (∀ i, head + n ≤ i → i < count → ∃ v, A[vo + i]? = some v ∧ val a b v ≤ w) →
      (if head = 0 then mx = 0 ∧ pivot = 0 else pivot < head ∧ ∃ v, A[vo + pivot]? = some v ∧ val a b v = mx) →
      ∃ A' head' pivot' mx', partLoop vo a (b.sub a) w n head mx pivot A = some (A', head', pivot') ∧
        Frame A A' vo count ∧ A'.toList.Perm A.toList ∧ head' ≤ count ∧
        (∀ i, i < head' → ∃ v, A'[vo + i]? = some v ∧ w < val a b v ∧ val a b v ≤ mx') ∧
        (∀ i, head' ≤ i → i < count → ∃ v, A'[vo + i]? = some v ∧ val a b v ≤ w) ∧
        (if head' = 0 then pivot' = 0 else pivot' < head' ∧ ∃ v, A'[vo + pivot']? = some v ∧ val a b v = mx') := by
  intro n
  induction n with
  | zero =>
    intro head mx pivot A h1 h2 h3 h4 h5
    refine ⟨A, head, pivot, mx, rfl, Frame.refl _ _ _, List.Perm.refl _, by omega, h3, ?_, ?_⟩
    · intro i hi; exact h4 i (by omega)
    · by_cases h0 : head = 0
      · rw [if_pos h0] at h5 ⊢; exact h5.2
      · rw [if_neg h0] at h5 ⊢; exact h5
  | succ n ih =>
    intro head mx pivot A h1 h2 h3 h4 h5
    have hlt : vo + head < A.size := by omega
    obtain ⟨v, hv⟩ : ∃ v, A[vo + head]? = some v := ⟨_, Array.getElem?_eq_getElem hlt⟩
    have hstep : partLoop vo a (b.sub a) w (n + 1) head mx pivot A =
        (if w < val a b v then
          if mx < val a b v then partLoop vo a (b.sub a) w n (head + 1) (val a b v) head A
          else partLoop vo a (b.sub a) w n (head + 1) mx pivot A
        else (swap A (vo + head) (vo + head + n)).bind fun A => partLoop vo a (b.sub a) w n head mx pivot A) := by
      simp only [partLoop, hv, Option.bind_eq_bind, Option.bind_some]; rfl
    rw [hstep]
    by_cases hval : w < val a b v
    · rw [if_pos hval]
      by_cases hmx : mx < val a b v
      · rw [if_pos hmx]
        refine ih (head + 1) _ head A (by omega) h2 ?_ (fun i hi => h4 i (by omega)) ?_
        · intro i hi
          rcases Nat.lt_succ_iff_lt_or_eq.1 hi with h | h
          · obtain ⟨u, e1, e2, e3⟩ := h3 i h; exact ⟨u, e1, e2, by linarith⟩
          · subst h; exact ⟨v, hv, hval, le_refl _⟩
        · rw [if_neg (by omega)]; exact ⟨by omega, v, hv, rfl⟩
      · rw [if_neg hmx]
        have h0 : head ≠ 0 := by
          intro h0; rw [if_pos h0] at h5; rw [h5.1] at hmx; linarith
        rw [if_neg h0] at h5
        refine ih (head + 1) _ pivot A (by omega) h2 ?_ (fun i hi => h4 i (by omega)) ?_
        · intro i hi
          rcases Nat.lt_succ_iff_lt_or_eq.1 hi with h | h
          · exact h3 i h
          · subst h; exact ⟨v, hv, hval, by linarith⟩
        · rw [if_neg (by omega)]; exact ⟨by omega, h5.2⟩
    · rw [if_neg hval]
      obtain ⟨B, hB, hsz, hperm, hi, hj, hk⟩ := swap_spec (A := A) (i := vo + head) (j := vo + head + n) hlt (by omega)
      rw [hB]; simp only [Option.bind_some]
      have hfr : Frame A B vo count := ⟨hsz, fun i hi => hk i (by omega) (by omega)⟩
      obtain ⟨A', head', pivot', mx', e, f, pm, r⟩ := ih head mx pivot B (by omega) (by omega) (by
        intro i hi
        obtain ⟨u, e1, e2⟩ := h3 i hi
        exact ⟨u, by rw [hk _ (by omega) (by omega)]; exact e1, e2⟩) (by
        intro i h6 h7
        by_cases h8 : i = head + n
        · subst h8; exact ⟨v, by rw [← Nat.add_assoc, hj]; exact hv, by linarith⟩
        · obtain ⟨u, e1, e2⟩ := h4 i (by omega) h7
          exact ⟨u, by rw [hk _ (by omega) (by omega)]; exact e1, e2⟩) (by
        by_cases h0 : head = 0
        · rw [if_pos h0] at h5 ⊢; exact h5
        · rw [if_neg h0] at h5 ⊢
          refine ⟨h5.1, ?_⟩
          obtain ⟨u, e1, e2⟩ := h5.2
          exact ⟨u, by rw [hk _ (by omega) (by omega)]; exact e1, e2⟩)
      exact ⟨A', head', pivot', mx', e, hfr.trans f, pm.trans hperm, r⟩

/-- `QHullPartition` with zero tolerance: the points on the right of the line come first, and of these the furthest. -/
theorem partition_spec {A : Arr} {vo count : Nat} (a b : Vec ℝ) (h : vo + count ≤ A.size) :
    ∃ A' k, partition A vo count a b 0 = some (A', k) ∧ k ≤ count ∧ Frame A A' vo count ∧
      (reg A' vo count).Perm (reg A vo count) ∧
      (∀ v ∈ reg A' vo k, turn a b v < 0) ∧ (∀ v ∈ reg A' (vo + k) (count - k), 0 ≤ turn a b v) ∧
      (0 < k → ∃ p, A'[vo]? = some p ∧ ∀ v ∈ reg A' vo k, turn a b p ≤ turn a b v) := by
  unfold partition
  by_cases h0 : count = 0
  · subst h0
    exact ⟨A, 0, by simp, le_refl _, Frame.refl _ _ _, List.Perm.refl _, by simp [reg_zero], by simp [reg_zero], by simp⟩
  · rw [if_neg h0]
    obtain ⟨A', k, pivot, mx, e, f, pm, hk, h3, h4, h5⟩ := partLoop_spec vo count a b 0 (le_refl _) count 0 0 0 A (by omega) h
      (by intro i hi; omega) (by intro i hi; omega) (by simp)
    have hz : (0 : ℝ) * (b.sub a).length = 0 := by ring
    have hz2 : (0 * (b.sub a).length : ℝ) = 0 := hz
    simp only [hz2, e, Option.bind_eq_bind, Option.bind_some]
    have hsz := f.size
    by_cases hp : pivot = 0
    · rw [if_neg (by simpa using hp)]
      refine ⟨A', k, rfl, hk, f, f.perm pm, ?_, ?_, ?_⟩
      · intro v hv
        obtain ⟨i, hi, hv⟩ := mem_reg.1 hv
        obtain ⟨u, e1, e2, e3⟩ := h3 i hi
        rw [hv] at e1; cases e1; rw [val_eq] at e2; linarith
      · intro v hv
        obtain ⟨i, hi, hv⟩ := mem_reg.1 hv
        obtain ⟨u, e1, e2⟩ := h4 (k + i) (by omega) (by omega)
        rw [Nat.add_assoc] at hv
        rw [hv] at e1; cases e1; rw [val_eq] at e2; linarith
      · intro hk0
        rw [if_neg (by omega), hp] at h5
        obtain ⟨_, u, e1, e2⟩ := h5
        refine ⟨u, by simpa using e1, ?_⟩
        intro v hv
        obtain ⟨i, hi, hv⟩ := mem_reg.1 hv
        obtain ⟨u', e1', e2', e3'⟩ := h3 i hi
        rw [hv] at e1'; cases e1'; rw [val_eq] at e2 e3'; linarith
    · rw [if_pos hp]
      have hk0 : k ≠ 0 := by intro hk0; rw [if_pos hk0] at h5; exact hp h5
      rw [if_neg hk0] at h5
      obtain ⟨hpk, u, e1, e2⟩ := h5
      obtain ⟨B, hB, hbs, hperm, hi, hj, hrest⟩ := swap_spec (A := A') (i := vo) (j := vo + pivot) (by omega) (by omega)
      rw [hB]; simp only [Option.bind_some]
      have fk : Frame A' B vo k := ⟨hbs, fun i hi => hrest i (by omega) (by omega)⟩
      have hpk' : ∀ v, v ∈ reg B vo k ↔ v ∈ reg A' vo k := fun v => (fk.perm hperm).mem_iff
      have hall : ∀ v ∈ reg A' vo k, turn a b v < 0 ∧ turn a b u ≤ turn a b v := by
        intro v hv
        obtain ⟨i, hi, hv⟩ := mem_reg.1 hv
        obtain ⟨u', e1', e2', e3'⟩ := h3 i hi
        rw [hv] at e1'; cases e1'; rw [val_eq] at e2 e2' e3'; constructor <;> linarith
      refine ⟨B, k, rfl, hk, f.trans (fk.mono (le_refl _) (by omega)), ?_, ?_, ?_, ?_⟩
      · exact ((fk.mono (le_refl _) (by omega)).perm hperm).trans (f.perm pm)
      · intro v hv; exact (hall v ((hpk' v).1 hv)).1
      · intro v hv
        rw [fk.reg_eq (by omega)] at hv
        obtain ⟨i, hi, hv⟩ := mem_reg.1 hv
        obtain ⟨u, e1, e2⟩ := h4 (k + i) (by omega) (by omega)
        rw [Nat.add_assoc] at hv
        rw [hv] at e1; cases e1; rw [val_eq] at e2; linarith
      · intro _
        exact ⟨u, by rw [hi]; exact e1, fun v hv => (hall v ((hpk' v).1 hv)).2⟩

/-- The chain of hull vertices strictly between `a` and `b` that quickhull finds among the points `S`. -/
inductive Chain : List (Vec ℝ) → Vec ℝ → Vec ℝ → List (Vec ℝ) → Prop
  | nil {S : List (Vec ℝ)} {a b : Vec ℝ} : (∀ x ∈ S, 0 ≤ turn a b x) → Chain S a b []
  | cons {S S1 S2 N : List (Vec ℝ)} {a b p : Vec ℝ} {l r : List (Vec ℝ)} :
      S.Perm (p :: (S1 ++ S2) ++ N) → turn a b p < 0 → (∀ x ∈ S1 ++ S2, turn a b p ≤ turn a b x) →
      (∀ x ∈ S1 ++ S2, turn a b x < 0) → (∀ x ∈ N, 0 ≤ turn a b x) →
      (∀ x ∈ S1, turn a p x < 0) → (∀ x ∈ S2, 0 ≤ turn a p x) →
      Chain S1 a p l → Chain S2 p b r → Chain S a b (l ++ p :: r)

theorem chain_of_front {A : Arr} {o k : Nat} {a b p : Vec ℝ} {S1 S2 l r N : List (Vec ℝ)} {S : List (Vec ℝ)}
    (hk : 0 < k) (hp : A[o]? = some p) (hS : S.Perm (reg A o k ++ N)) (hN : ∀ x ∈ N, 0 ≤ turn a b x)
    (hneg : ∀ v ∈ reg A o k, turn a b v < 0) (hfar : ∀ v ∈ reg A o k, turn a b p ≤ turn a b v)
    (hperm : (reg A (o + 1) (k - 1)).Perm (S1 ++ S2)) (h1 : ∀ x ∈ S1, turn a p x < 0) (h2 : ∀ x ∈ S2, 0 ≤ turn a p x)
    (c1 : Chain S1 a p l) (c2 : Chain S2 p b r) : Chain S a b (l ++ p :: r) := by
  obtain ⟨m, rfl⟩ : ∃ m, k = m + 1 := ⟨k - 1, by omega⟩
  rw [reg_succ hp] at hS hneg hfar
  have hm : ∀ x ∈ S1 ++ S2, x ∈ reg A (o + 1) m := fun x hx => hperm.mem_iff.2 hx
  refine Chain.cons (hS.trans ?_) (hneg p (by simp)) (fun x hx => hfar x (List.mem_cons_of_mem _ (hm x hx)))
    (fun x hx => hneg x (List.mem_cons_of_mem _ (hm x hx))) hN h1 h2 c1 c2
  exact List.Perm.append_right _ (List.Perm.cons _ hperm)

/-- `QHullReduce` with zero tolerance never accesses anything out of bounds, does not clobber points it has not read yet,
and leaves a chain in the result. -/
theorem reduce_spec : ∀ (fuel : Nat) (A : Arr) (vo count : Nat) (a p b : Vec ℝ) (ro : Nat), count < fuel → ro + 1 ≤ vo →
    vo + count ≤ A.size →
    ∃ A' l r S1 S2, reduce 0 fuel A vo count a p b ro = some (A', l.length + 1 + r.length) ∧
      l.length + r.length ≤ count ∧ Frame A A' ro (vo + count - ro) ∧
      reg A' ro (l.length + 1 + r.length) = l ++ p :: r ∧ (reg A vo count).Perm (S1 ++ S2) ∧
      (∀ x ∈ S1, turn a p x < 0) ∧ (∀ x ∈ S2, 0 ≤ turn a p x) ∧ Chain S1 a p l ∧ Chain S2 p b r := by
  intro fuel
  induction fuel with
  | zero => intro A vo count a p b ro h; omega
  | succ fuel ih =>
    intro A vo count a p b ro hf hro hsz
    unfold reduce
    by_cases h0 : count = 0
    · rw [if_pos h0]
      subst h0
      obtain ⟨B, hB, hbs, hb1, hb2⟩ := store_spec (A := A) (i := ro) p (by omega)
      refine ⟨B, [], [], [], [], by simp [hB], by simp, ⟨hbs, fun i hi => hb2 i (by omega)⟩, ?_, ?_, by simp, by simp,
        Chain.nil (by simp), Chain.nil (by simp)⟩
      · simp [reg_succ (n := 0) hb1, reg_zero]
      · simp [reg_zero]
    · rw [if_neg h0]
      obtain ⟨A1, k, e1, hk, f1, pm1, neg1, pos1, far1⟩ := partition_spec (A := A) (vo := vo) (count := count) a p hsz
      have hs1 := f1.size
      simp only [e1, Option.bind_eq_bind, Option.bind_some]
      -- the left part
      have hleft : ∃ A2 l, (if 0 < k then (A1[vo]?).bind fun q => reduce 0 fuel A1 (vo + 1) (k - 1) a q p ro
          else some (A1, 0)) = some (A2, l.length) ∧ l.length ≤ k ∧ Frame A1 A2 ro (vo + k - ro) ∧ reg A2 ro l.length = l ∧
          Chain (reg A1 vo k) a p l := by
        by_cases hk0 : 0 < k
        · rw [if_pos hk0]
          obtain ⟨q, hq, hfar⟩ := far1 hk0
          rw [hq]; simp only [Option.bind_some]
          obtain ⟨A2, l, r, S1, S2, e, hn, f, hr, hp, h1, h2, c1, c2⟩ := ih A1 (vo + 1) (k - 1) a q p ro (by omega) (by omega)
            (by omega)
          have hlen : (l ++ q :: r).length = l.length + 1 + r.length := by simp; omega
          refine ⟨A2, l ++ q :: r, by rw [hlen]; exact e, by omega, f.mono (le_refl _) (by omega), by rw [hlen]; exact hr, ?_⟩
          exact chain_of_front (N := []) hk0 hq (by simp) (by simp) neg1 hfar hp h1 h2 c1 c2
        · rw [if_neg hk0]
          have hk' : k = 0 := by omega
          subst hk'
          exact ⟨A1, [], rfl, by simp, Frame.refl _ _ _, by simp [reg_zero], Chain.nil (by simp [reg_zero])⟩
      obtain ⟨A2, l, e2, hl, f2, hrl, cl⟩ := hleft
      have hs2 := f2.size
      simp only [e2, Option.bind_some]
      obtain ⟨A3, hA3, hs3, ha3, hb3⟩ := store_spec (A := A2) (i := ro + l.length) p (by omega)
      simp only [hA3, Option.bind_some]
      have f3 : Frame A2 A3 ro (vo + k - ro) := ⟨hs3, fun i hi => hb3 i (by omega)⟩
      obtain ⟨A4, k2, e4, hk2, f4, pm4, neg4, pos4, far4⟩ := partition_spec (A := A3) (vo := vo + k) (count := count - k) p b
        (by omega)
      have hs4 := f4.size
      simp only [e4, Option.bind_some]
      have hregR : reg A3 (vo + k) (count - k) = reg A1 (vo + k) (count - k) := by
        rw [f3.reg_eq (by omega), f2.reg_eq (by omega)]
      have hl4 : reg A4 ro (l.length + 1) = l ++ [p] := by
        rw [f4.reg_eq (by omega), reg_append, reg_succ (n := 0) ha3, reg_zero,
          reg_congr (A := A2) (B := A3) (fun i hi => hb3 _ (by omega)), hrl]
      have hperm : (reg A vo count).Perm (reg A1 vo k ++ reg A1 (vo + k) (count - k)) := by
        rw [← reg_append, show k + (count - k) = count by omega]; exact pm1.symm
      have fr4 : Frame A A4 ro (vo + count - ro) :=
        (((f1.mono (by omega) (by omega)).trans (f2.mono (le_refl _) (by omega))).trans
          (f3.mono (le_refl _) (by omega))).trans (f4.mono (by omega) (by omega))
      have hsplit : (reg A1 (vo + k) (count - k)).Perm
          (reg A4 (vo + k) k2 ++ reg A4 (vo + k + k2) (count - k - k2)) := by
        rw [← reg_append, show k2 + (count - k - k2) = count - k by omega, ← hregR]; exact pm4.symm
      by_cases hk20 : k2 = 0
      · rw [if_pos hk20]
        subst hk20
        refine ⟨A4, l, [], _, _, by simp, by simp; omega, fr4, by simpa using hl4, hperm, neg1, pos1, cl, Chain.nil ?_⟩
        intro x hx
        have := hsplit.mem_iff.1 hx
        rw [reg_zero] at this
        exact pos4 x (by simpa using this)
      · rw [if_neg hk20]
        obtain ⟨q, hq, hfar⟩ := far4 (by omega)
        rw [hq]; simp only [Option.bind_some]
        obtain ⟨A5, l', r', S1, S2, e, hn, f, hr, hp, h1, h2, c1, c2⟩ := ih A4 (vo + k + 1) (k2 - 1) p q b
          (ro + (l.length + 1)) (by omega) (by omega) (by omega)
        rw [e]; simp only [Option.bind_some]
        have hlen : (l' ++ q :: r').length = l'.length + 1 + r'.length := by simp; omega
        refine ⟨A5, l, l' ++ q :: r', _, _, by rw [hlen], by omega, fr4.trans (f.mono (by omega) (by omega)), ?_, hperm,
          neg1, pos1, cl, ?_⟩
        · rw [hlen, reg_append, f.reg_eq (by omega), hl4, hr]; simp
        · exact chain_of_front (by omega) hq hsplit pos4 neg4 hfar hp h1 h2 c1 c2

end HullImpl
end CP
