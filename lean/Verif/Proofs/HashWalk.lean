import Verif.Spec.HashRay
import Verif.Proofs.HashRay
import Verif.Props.SpaceHash

/-! # Segment queries of the spatial hash: the walk through the grid -/

namespace CP
open GoFloat

/-- One coordinate of the walk: direction, time from line to line, time of the first line. -/
noncomputable def axInc (α β : ℝ) : Int := if α < β then 1 else -1
noncomputable def axStep (α β : ℝ) : ℝ := if fabs (β - α) ≠ 0 then 1 / fabs (β - α) else maxFloat
noncomputable def axFirst (α β : ℝ) : ℝ :=
  if (if α < β then mathFloor (α + 1) - α else α - mathFloor α) ≠ 0 then (if α < β then mathFloor (α + 1) - α else α - mathFloor α) * axStep α β
  else axStep α β

/-- The coordinate at time `t`. -/
noncomputable def axPos (α β t : ℝ) : ℝ := α + t * (β - α)

structure AxOk (α β : ℝ) : Prop where
  down : β < α → α ≠ ⌊α⌋
  level : α = β → α = ⌊α⌋ ∨ 1 ≤ (α - ⌊α⌋) * maxFloat

theorem axStep_pos (α β : ℝ) : 0 < axStep α β := by
  unfold axStep
  rw [fabs_real]
  split
  · next h => have : 0 < |β - α| := lt_of_le_of_ne (abs_nonneg _) (Ne.symm h); positivity
  · exact maxFloat_pos

theorem mathFloor_real (x : ℝ) : mathFloor x = (⌊x⌋ : ℝ) := by rw [mathFloor, goFloor_real]; rfl

theorem axFirst_nonneg (α β : ℝ) : 0 ≤ axFirst α β := by
  unfold axFirst
  rw [mathFloor_real, mathFloor_real]
  have h1 := Int.floor_le α
  have h2 := (Int.lt_floor_add_one α).le
  have h3 := axStep_pos α β
  have hu : (0 : ℝ) ≤ (⌊α + 1⌋ : ℤ) - α := by rw [Int.floor_add_one]; push_cast; linarith
  have hd : (0 : ℝ) ≤ α - (⌊α⌋ : ℤ) := by linarith
  split_ifs <;> first | exact mul_nonneg hu h3.le | exact mul_nonneg hd h3.le | exact h3.le

/-- Upwards: the line above the cell is met at the time kept. -/
theorem ax_up {α β : ℝ} (h : α < β) (k : ℕ) :
    axPos α β (axFirst α β + k * axStep α β) = (⌊α⌋ + k * axInc α β : ℤ) + 1 := by
  have h0 : (0 : ℝ) < β - α := sub_pos.2 h
  have hs : axStep α β = 1 / (β - α) := by rw [axStep, fabs_real, abs_of_pos h0, if_pos h0.ne']
  have h2 := Int.lt_floor_add_one α
  have hf : axFirst α β = (⌊α⌋ + 1 - α) * axStep α β := by
    rw [axFirst, if_pos h, mathFloor_real, Int.floor_add_one, if_pos]
    · push_cast; rfl
    · push_cast; linarith
  rw [axPos, hf, hs, axInc, if_pos h]
  push_cast
  field_simp
  ring

/-- Downwards: the line below the cell is met at the time kept. -/
theorem ax_down {α β : ℝ} (h : β < α) (hn : α ≠ ⌊α⌋) (k : ℕ) :
    axPos α β (axFirst α β + k * axStep α β) = (⌊α⌋ + k * axInc α β : ℤ) := by
  have h0 : (0 : ℝ) < α - β := sub_pos.2 h
  have hs : axStep α β = 1 / (α - β) := by
    have : |β - α| = α - β := by rw [abs_sub_comm, abs_of_pos h0]
    rw [axStep, fabs_real, this, if_pos h0.ne']
  have hf : axFirst α β = (α - ⌊α⌋) * axStep α β := by
    rw [axFirst, if_neg (not_lt.2 h.le), mathFloor_real, if_pos (sub_ne_zero.2 hn)]
  rw [axPos, hf, hs, axInc, if_neg (not_lt.2 h.le)]
  push_cast
  field_simp
  ring

/-- Level: no line is met before time 1. -/
theorem ax_level {α β : ℝ} (h : α = β) (ok : AxOk α β) : 1 ≤ axFirst α β := by
  have hs : axStep α β = maxFloat := by rw [axStep, fabs_real, h, if_neg (by simp)]
  rw [axFirst, if_neg (not_lt.2 h.ge), hs, mathFloor_real]
  split
  · next hn => exact (ok.level h).resolve_left (fun e => hn (sub_eq_zero.2 e))
  · exact one_lt_maxFloat.le

/-- The state of one coordinate after `k` lines, at the time `t`: `next` is the time of the next line. -/
structure AxAt (α β : ℝ) (k : ℕ) (t : ℝ) : Prop where
  le : t ≤ axFirst α β + k * axStep α β
  ge : k = 0 ∨ axFirst α β + k * axStep α β - axStep α β ≤ t

theorem axPos_mono {α β s t : ℝ} (h : α ≤ β) (st : s ≤ t) : axPos α β s ≤ axPos α β t := by
  have := mul_le_mul_of_nonneg_right st (sub_nonneg.2 h)
  simp only [axPos]; linarith

theorem axPos_anti {α β s t : ℝ} (h : β ≤ α) (st : s ≤ t) : axPos α β t ≤ axPos α β s := by
  have := mul_le_mul_of_nonneg_right st (sub_nonneg.2 h)
  simp only [axPos]; linarith

theorem axPos_anti' {α β s t : ℝ} (h : β < α) (st : s < t) : axPos α β t < axPos α β s := by
  have := mul_lt_mul_of_pos_right st (sub_pos.2 h)
  simp only [axPos]; linarith

theorem axPos_mono' {α β s t : ℝ} (h : α < β) (st : s < t) : axPos α β s < axPos α β t := by
  have := mul_lt_mul_of_pos_right st (sub_pos.2 h)
  simp only [axPos]; linarith

theorem axPos_level {α β t : ℝ} (h : α = β) : axPos α β t = α := by rw [axPos, h]; ring

theorem prev_time {α β : ℝ} {k : ℕ} (hk : k ≠ 0) :
    ∃ m : ℕ, k = m + 1 ∧ axFirst α β + k * axStep α β - axStep α β = axFirst α β + m * axStep α β := by
  obtain ⟨m, rfl⟩ := Nat.exists_eq_succ_of_ne_zero hk
  exact ⟨m, rfl, by push_cast; ring⟩

theorem level_zero {α β : ℝ} (ok : AxOk α β) (h : α = β) {k : ℕ} {t : ℝ} (s : AxAt α β k t) (t1 : t < 1) : k = 0 := by
  rcases s.ge with e | e
  · exact e
  · by_contra hk
    obtain ⟨m, rfl, em⟩ := prev_time (α := α) (β := β) hk
    rw [em] at e
    have := ax_level h ok
    have := mul_nonneg m.cast_nonneg (axStep_pos α β).le (a := (m : ℝ))
    linarith

/-- The coordinate is in the closed cell. -/
theorem ax_closed {α β : ℝ} (ok : AxOk α β) {k : ℕ} {t : ℝ} (s : AxAt α β k t) (t0 : 0 ≤ t) (t1 : t < 1) :
    ((⌊α⌋ + k * axInc α β : ℤ) : ℝ) ≤ axPos α β t ∧ axPos α β t ≤ (⌊α⌋ + k * axInc α β : ℤ) + 1 := by
  have fl := Int.floor_le α
  have fu := (Int.lt_floor_add_one α).le
  have p0 : axPos α β 0 = α := by simp [axPos]
  rcases lt_trichotomy α β with h | h | h
  · have a1 := axPos_mono h.le s.le
    rw [ax_up h] at a1
    refine ⟨?_, a1⟩
    by_cases hk : k = 0
    · subst hk
      have := axPos_mono h.le t0
      rw [p0] at this
      push_cast; linarith
    · obtain ⟨m, rfl, em⟩ := prev_time (α := α) (β := β) hk
      have e := s.ge.resolve_left hk
      rw [em] at e
      have := axPos_mono h.le e
      rw [ax_up h] at this
      refine le_trans (le_of_eq ?_) this
      rw [axInc, if_pos h]; push_cast; ring
  · have := level_zero ok h s t1
    subst this
    rw [axPos_level h]
    push_cast; constructor <;> linarith
  · have a1 := axPos_anti h.le s.le
    rw [ax_down h (ok.down h)] at a1
    refine ⟨a1, ?_⟩
    by_cases hk : k = 0
    · subst hk
      have := axPos_anti h.le t0
      rw [p0] at this
      push_cast; linarith
    · obtain ⟨m, rfl, em⟩ := prev_time (α := α) (β := β) hk
      have e := s.ge.resolve_left hk
      rw [em] at e
      have := axPos_anti h.le e
      rw [ax_down h (ok.down h)] at this
      refine this.trans (le_of_eq ?_)
      rw [axInc, if_neg (not_lt.2 h.le)]; push_cast; ring

/-- Strictly between two lines the coordinate is in the cell (also on the line above, upwards not; on the line just met, downwards not). -/
theorem ax_floor {α β : ℝ} (ok : AxOk α β) {k : ℕ} {t : ℝ} (t0 : 0 ≤ t) (t1 : t < 1)
    (le : t < axFirst α β + k * axStep α β) (ge : k = 0 ∨ axFirst α β + k * axStep α β - axStep α β < t) :
    ⌊axPos α β t⌋ = ⌊α⌋ + k * axInc α β := by
  have s : AxAt α β k t := ⟨le.le, ge.imp id le_of_lt⟩
  obtain ⟨c1, c2⟩ := ax_closed ok s t0 t1
  refine Int.floor_eq_iff.2 ⟨c1, lt_of_le_of_ne c2 ?_⟩
  intro e
  have p0 : axPos α β 0 = α := by simp [axPos]
  have fu := Int.lt_floor_add_one α
  rcases lt_trichotomy α β with h | h | h
  · have a1 := axPos_mono' h le
    rw [ax_up h, e] at a1
    exact lt_irrefl _ a1
  · have := level_zero ok h s t1
    subst this
    rw [axPos_level h] at e
    push_cast at e; linarith
  · by_cases hk : k = 0
    · subst hk
      have := axPos_anti h.le t0
      rw [p0] at this
      push_cast at e; linarith
    · obtain ⟨m, rfl, em⟩ := prev_time (α := α) (β := β) hk
      have g := ge.resolve_left hk
      rw [em] at g
      have := axPos_anti' h g
      rw [ax_down h (ok.down h), e] at this
      refine absurd this (not_lt.2 (le_of_eq ?_))
      rw [axInc, if_neg (not_lt.2 h.le)]; push_cast; ring

/-- On the next line. -/
theorem ax_line {α β : ℝ} (ok : AxOk α β) {k : ℕ} {t : ℝ} (t1 : t < 1) (e : t = axFirst α β + k * axStep α β) :
    (α < β ∧ axInc α β = 1 ∧ axPos α β t = (⌊α⌋ + k * axInc α β + 1 : ℤ)) ∨ (β < α ∧ axInc α β = -1 ∧ axPos α β t = (⌊α⌋ + k * axInc α β : ℤ)) := by
  rcases lt_trichotomy α β with h | h | h
  · left
    refine ⟨h, if_pos h, ?_⟩
    rw [e, ax_up h]; push_cast; ring
  · have := ax_level h ok
    have := mul_nonneg k.cast_nonneg (axStep_pos α β).le (a := (k : ℝ))
    exfalso; linarith
  · right
    refine ⟨h, if_neg (not_lt.2 h.le), ?_⟩
    rw [e, ax_down h (ok.down h)]

/-! ### The walk -/

/-- The walk after `kH` vertical and `kV` horizontal lines. -/
noncomputable def walkAt (A B : Vec ℝ) (kH kV : ℕ) (t : ℝ) : Walk ℝ :=
  { cellX := ⌊A.x⌋ + kH * axInc A.x B.x, cellY := ⌊A.y⌋ + kV * axInc A.y B.y, t := t, xInc := axInc A.x B.x, yInc := axInc A.y B.y,
    dtdx := axStep A.x B.x, dtdy := axStep A.y B.y, nextH := axFirst A.x B.x + kH * axStep A.x B.x, nextV := axFirst A.y B.y + kV * axStep A.y B.y }

theorem walk_start (dim : ℝ) (a b : Vec ℝ) :
    Walk.start dim a b = walkAt (a.mult (1 / dim)) (b.mult (1 / dim)) 0 0 0 := by
  simp only [Walk.start, walkAt, axInc, axFirst, axStep, goFloor_real, Nat.cast_zero, zero_mul, add_zero]

theorem walkAt_next (A B : Vec ℝ) (kH kV : ℕ) (t : ℝ) : (walkAt A B kH kV t).next =
    if axFirst A.y B.y + kV * axStep A.y B.y < axFirst A.x B.x + kH * axStep A.x B.x then walkAt A B kH (kV + 1) (axFirst A.y B.y + kV * axStep A.y B.y)
    else walkAt A B (kH + 1) kV (axFirst A.x B.x + kH * axStep A.x B.x) := by
  simp only [Walk.next]
  by_cases h : axFirst A.y B.y + kV * axStep A.y B.y < axFirst A.x B.x + kH * axStep A.x B.x
  · rw [if_pos h, if_pos (show (walkAt A B kH kV t).nextV < (walkAt A B kH kV t).nextH from h)]
    simp only [walkAt]
    congr 1 <;> push_cast <;> ring
  · rw [if_neg h, if_neg (show ¬ (walkAt A B kH kV t).nextV < (walkAt A B kH kV t).nextH from h)]
    simp only [walkAt]
    congr 1 <;> push_cast <;> ring

/-- Where the walk is after `n` moves. -/
theorem walk_state (A B : Vec ℝ) (n : ℕ) : ∃ kH kV t, Walk.next^[n] (walkAt A B 0 0 0) = walkAt A B kH kV t ∧ kH + kV = n ∧
    AxAt A.x B.x kH t ∧ AxAt A.y B.y kV t ∧ 0 ≤ t := by
  induction n with
  | zero => exact ⟨0, 0, 0, rfl, rfl, ⟨by simpa using axFirst_nonneg _ _, .inl rfl⟩, ⟨by simpa using axFirst_nonneg _ _, .inl rfl⟩, le_refl _⟩
  | succ n ih =>
    obtain ⟨kH, kV, t, e, hn, hx, hy, t0⟩ := ih
    rw [Function.iterate_succ_apply', e, walkAt_next]
    have px := axStep_pos A.x B.x
    have py := axStep_pos A.y B.y
    split
    · next h =>
      refine ⟨kH, kV + 1, _, rfl, by omega, ⟨h.le, hx.ge.imp id fun g => g.trans hy.le⟩, ⟨?_, .inr ?_⟩, t0.trans hy.le⟩ <;> push_cast <;> linarith
    · next h =>
      push Not at h
      refine ⟨kH + 1, kV, _, rfl, by omega, ⟨?_, .inr ?_⟩, ⟨h, hy.ge.imp id fun g => g.trans hx.le⟩, t0.trans hx.le⟩ <;> push_cast <;> linarith

/-- The walk gets arbitrarily late. -/
theorem walk_late (A B : Vec ℝ) (T : ℝ) : ∃ n, T ≤ (Walk.next^[n] (walkAt A B 0 0 0)).t := by
  have px := axStep_pos A.x B.x
  have py := axStep_pos A.y B.y
  obtain ⟨N, hN⟩ := exists_nat_gt (T / min (axStep A.x B.x) (axStep A.y B.y))
  have hm : 0 < min (axStep A.x B.x) (axStep A.y B.y) := lt_min px py
  rw [div_lt_iff₀ hm] at hN
  refine ⟨2 * N + 2, ?_⟩
  obtain ⟨kH, kV, t, e, hn, hx, hy, t0⟩ := walk_state A B (2 * N + 2)
  rw [e]
  show T ≤ t
  have key : ∀ α β k, AxAt α β k t → N + 1 ≤ k → (N : ℝ) * axStep α β ≤ t := by
    intro α β k s hk
    obtain ⟨m, rfl, em⟩ := prev_time (α := α) (β := β) (k := k) (by omega)
    have g := s.ge.resolve_left (by omega)
    rw [em] at g
    have h1 : (N : ℝ) ≤ m := by exact_mod_cast (by omega : N ≤ m)
    have := mul_le_mul_of_nonneg_right h1 (axStep_pos α β).le
    have := axFirst_nonneg α β
    linarith
  have hNn : (0 : ℝ) ≤ N := N.cast_nonneg
  rcases Nat.lt_or_ge N kH with h | h
  · have := key _ _ _ hx h
    have := mul_le_mul_of_nonneg_left (min_le_left (axStep A.x B.x) (axStep A.y B.y)) hNn
    linarith
  · have := key _ _ _ hy (by omega)
    have := mul_le_mul_of_nonneg_left (min_le_right (axStep A.x B.x) (axStep A.y B.y)) hNn
    linarith

/-- Every point of the segment is in a cell that the walk has entered by then; the exception is a crossing met on the way left and up, where
the walk goes through the cells left and below. -/
theorem walk_covers (A B : Vec ℝ) (okx : AxOk A.x B.x) (oky : AxOk A.y B.y) {τ : ℝ} (t0 : 0 ≤ τ) (t1 : τ < 1) :
    (∃ n, (Walk.next^[n] (walkAt A B 0 0 0)).t ≤ τ ∧ (Walk.next^[n] (walkAt A B 0 0 0)).cellX = ⌊axPos A.x B.x τ⌋ ∧
      (Walk.next^[n] (walkAt A B 0 0 0)).cellY = ⌊axPos A.y B.y τ⌋) ∨
    (B.x < A.x ∧ A.y < B.y ∧ axPos A.x B.x τ = ⌊axPos A.x B.x τ⌋ ∧ axPos A.y B.y τ = ⌊axPos A.y B.y τ⌋ ∧
      (∃ n, (Walk.next^[n] (walkAt A B 0 0 0)).t ≤ τ ∧ (Walk.next^[n] (walkAt A B 0 0 0)).cellX = ⌊axPos A.x B.x τ⌋ ∧
        (Walk.next^[n] (walkAt A B 0 0 0)).cellY = ⌊axPos A.y B.y τ⌋ - 1) ∧
      (∃ n, (Walk.next^[n] (walkAt A B 0 0 0)).t ≤ τ ∧ (Walk.next^[n] (walkAt A B 0 0 0)).cellX = ⌊axPos A.x B.x τ⌋ - 1 ∧
        (Walk.next^[n] (walkAt A B 0 0 0)).cellY = ⌊axPos A.y B.y τ⌋)) := by
  have ex : ∃ n, τ ≤ (Walk.next^[n + 1] (walkAt A B 0 0 0)).t := by
    obtain ⟨n, hn⟩ := walk_late A B (τ + 1)
    rcases n with _ | n
    · simp only [Function.iterate_zero, id, walkAt] at hn; linarith
    · exact ⟨n, by linarith⟩
  classical
  obtain ⟨n, hn, hmin⟩ : ∃ n, τ ≤ (Walk.next^[n + 1] (walkAt A B 0 0 0)).t ∧ (n = 0 ∨ (Walk.next^[n] (walkAt A B 0 0 0)).t < τ) := by
    refine ⟨Nat.find ex, Nat.find_spec ex, ?_⟩
    rcases hf : Nat.find ex with _ | m
    · exact .inl rfl
    · right
      have := Nat.find_min ex (m := m) (by omega)
      exact not_le.1 this
  obtain ⟨kH, kV, t, e, hk, hx, hy, ht0⟩ := walk_state A B n
  have gt : ∀ {α β k}, AxAt α β k t → k ≤ n → k = 0 ∨ axFirst α β + k * axStep α β - axStep α β < τ := by
    intro α β k s hkn
    rcases hmin with h | h
    · exact .inl (by omega)
    · rw [e] at h
      exact s.ge.imp id fun g => lt_of_le_of_lt g h
  have gx := gt hx (by omega)
  have gy := gt hy (by omega)
  have htτ : t ≤ τ := by
    rcases hmin with h | h
    · subst h
      have : walkAt A B 0 0 0 = walkAt A B kH kV t := e
      have h2 : (0 : ℝ) = t := congrArg Walk.t this
      rw [← h2]; exact t0
    · rw [e] at h; exact h.le
  have e1 : Walk.next^[n + 1] (walkAt A B 0 0 0) = (walkAt A B kH kV t).next := by rw [Function.iterate_succ_apply', e]
  have e2 : Walk.next^[n + 2] (walkAt A B 0 0 0) = (walkAt A B kH kV t).next.next := by rw [Function.iterate_succ_apply', e1]
  rw [e1, walkAt_next] at hn
  rw [walkAt_next] at e1 e2
  have hX : τ ≤ axFirst A.x B.x + kH * axStep A.x B.x := by
    split at hn
    · next h => exact hn.trans h.le
    · exact hn
  have hY : τ ≤ axFirst A.y B.y + kV * axStep A.y B.y := by
    split at hn
    · exact hn
    · next h => exact hn.trans (not_lt.1 h)
  rcases hX.lt_or_eq with lX | eX
  · have fx := ax_floor okx t0 t1 lX gx
    rcases hY.lt_or_eq with lY | eY
    · have fy := ax_floor oky t0 t1 lY gy
      left
      refine ⟨n, ?_⟩
      rw [e, fx, fy]
      exact ⟨htτ, rfl, rfl⟩
    · left
      rw [if_pos (by rw [← eY]; exact lX)] at e1
      rcases ax_line oky t1 eY with ⟨-, hi, hp⟩ | ⟨-, hi, hp⟩
      · refine ⟨n + 1, ?_⟩
        rw [e1, fx, hp, Int.floor_intCast]
        refine ⟨eY.ge, rfl, ?_⟩
        simp only [walkAt, hi]; push_cast; ring
      · refine ⟨n, ?_⟩
        rw [e, fx, hp, Int.floor_intCast]
        exact ⟨htτ, rfl, rfl⟩
  · have nlt : ¬ (axFirst A.y B.y + kV * axStep A.y B.y < axFirst A.x B.x + kH * axStep A.x B.x) := not_lt.2 (by rw [← eX]; exact hY)
    rw [if_neg nlt] at e1 e2
    rcases hY.lt_or_eq with lY | eY
    · have fy := ax_floor oky t0 t1 lY gy
      left
      rcases ax_line okx t1 eX with ⟨-, hi, hp⟩ | ⟨-, hi, hp⟩
      · refine ⟨n + 1, ?_⟩
        rw [e1, fy, hp, Int.floor_intCast]
        refine ⟨eX.ge, ?_, rfl⟩
        simp only [walkAt, hi]; push_cast; ring
      · refine ⟨n, ?_⟩
        rw [e, fy, hp, Int.floor_intCast]
        exact ⟨htτ, rfl, rfl⟩
    · rw [walkAt_next, if_pos (by rw [← eY, eX]; push_cast; have := axStep_pos A.x B.x; linarith)] at e2
      rcases ax_line okx t1 eX with ⟨-, hi, hp⟩ | ⟨hlx, hi, hp⟩
      · left
        rcases ax_line oky t1 eY with ⟨-, hj, hq⟩ | ⟨-, hj, hq⟩
        · refine ⟨n + 2, ?_⟩
          rw [e2, hp, hq, Int.floor_intCast, Int.floor_intCast]
          refine ⟨eY.ge, ?_, ?_⟩ <;> simp only [walkAt, hi, hj] <;> push_cast <;> ring
        · refine ⟨n + 1, ?_⟩
          rw [e1, hp, hq, Int.floor_intCast, Int.floor_intCast]
          refine ⟨eX.ge, ?_, rfl⟩
          simp only [walkAt, hi]; push_cast; ring
      · rcases ax_line oky t1 eY with ⟨hly, hj, hq⟩ | ⟨-, hj, hq⟩
        · right
          refine ⟨hlx, hly, by rw [hp, Int.floor_intCast], by rw [hq, Int.floor_intCast], ⟨n, ?_⟩, ⟨n + 2, ?_⟩⟩
          · rw [e, hp, hq, Int.floor_intCast, Int.floor_intCast]
            refine ⟨htτ, rfl, ?_⟩
            simp only [walkAt]; ring
          · rw [e2, hp, hq, Int.floor_intCast, Int.floor_intCast]
            refine ⟨eY.ge, ?_, ?_⟩ <;> simp only [walkAt, hi, hj] <;> push_cast <;> ring
        · left
          refine ⟨n, ?_⟩
          rw [e, hp, hq, Int.floor_intCast, Int.floor_intCast]
          exact ⟨htτ, rfl, rfl⟩

/-- The walk enters only cells that the segment meets at that time. -/
theorem walk_in (A B : Vec ℝ) (okx : AxOk A.x B.x) (oky : AxOk A.y B.y) (n : ℕ) (h1 : (Walk.next^[n] (walkAt A B 0 0 0)).t < 1) :
    ∃ t, 0 ≤ t ∧ t = (Walk.next^[n] (walkAt A B 0 0 0)).t ∧
      ((Walk.next^[n] (walkAt A B 0 0 0)).cellX : ℝ) ≤ axPos A.x B.x t ∧ axPos A.x B.x t ≤ (Walk.next^[n] (walkAt A B 0 0 0)).cellX + 1 ∧
      ((Walk.next^[n] (walkAt A B 0 0 0)).cellY : ℝ) ≤ axPos A.y B.y t ∧ axPos A.y B.y t ≤ (Walk.next^[n] (walkAt A B 0 0 0)).cellY + 1 := by
  obtain ⟨kH, kV, t, e, -, hx, hy, t0⟩ := walk_state A B n
  rw [e] at h1 ⊢
  obtain ⟨a1, a2⟩ := ax_closed okx hx t0 h1
  obtain ⟨b1, b2⟩ := ax_closed oky hy t0 h1
  exact ⟨t, t0, rfl, a1, a2, b1, b2⟩

end CP
