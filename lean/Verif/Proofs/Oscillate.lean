import Verif.Spec.Spring
import Mathlib.Topology.Algebra.InfiniteSum.Order
import Mathlib.Topology.Algebra.InfiniteSum.Real
import Mathlib.Analysis.SpecificLimits.Basic

/-! # A spring as a linear recursion -/

namespace CP
open Filter Topology

/-- Two sequences that a spring of strength `s` and damping factor `q` drives. -/
def Osc (s q : ℝ) (x y : Nat → ℝ) : Prop := ∀ n, (x (n + 1), y (n + 1)) = springStep s q (x n) (y n)

namespace Osc
variable {s q : ℝ} {x y : Nat → ℝ}

theorem x_succ (o : Osc s q x y) (n : Nat) : x (n + 1) = x n + y n := congrArg Prod.fst (o n)
theorem y_succ (o : Osc s q x y) (n : Nat) : y (n + 1) = q * (y n - s * x (n + 1)) := by rw [o.x_succ n]; exact congrArg Prod.snd (o n)

theorem second (o : Osc s q x y) (n : Nat) : x (n + 2) = (1 + q - q * s) * x (n + 1) - q * x n := by
  have h1 := o.x_succ (n + 1)
  have h2 := o.y_succ n
  have h3 := o.x_succ n
  rw [h1, h2]
  linear_combination -q * h3

/-- The quantity that a step multiplies by `q`. -/
def level (s q x y : ℝ) : ℝ := q * s * x ^ 2 + (1 - q + q * s) * (x * y) + y ^ 2

theorem level_succ (o : Osc s q x y) (n : Nat) : level s q (x (n + 1)) (y (n + 1)) = q * level s q (x n) (y n) := by
  rw [o.y_succ, o.x_succ]; simp only [level]; ring

theorem level_all (o : Osc s q x y) : ∀ n, level s q (x n) (y n) = q ^ n * level s q (x 0) (y 0)
  | 0 => by simp
  | n + 1 => by rw [o.level_succ, o.level_all n]; ring

theorem level_ge (s q x y : ℝ) : (q * s - (1 - q + q * s) ^ 2 / 4) * x ^ 2 ≤ level s q x y := by
  simp only [level]
  nlinarith [sq_nonneg (y + (1 - q + q * s) / 2 * x)]

theorem small (o : Osc s q x y) (h : (1 - q + q * s) ^ 2 < 4 * (q * s)) (n : Nat) :
    x n ^ 2 ≤ q ^ n * level s q (x 0) (y 0) / (q * s - (1 - q + q * s) ^ 2 / 4) := by
  rw [le_div_iff₀ (by linarith), ← o.level_all n, mul_comm]
  exact level_ge _ _ _ _

theorem settles (o : Osc s q x y) (hq0 : 0 ≤ q) (hq1 : q < 1) (hs : 0 < q * s) (h : q * s < 2 * (1 + q)) :
    Tendsto x atTop (𝓝 0) ∧ Tendsto y atTop (𝓝 0) := by
  obtain ⟨T, hT⟩ : ∃ T, T = 1 + q - q * s := ⟨_, rfl⟩
  have hD1 : 0 < 1 + q := by linarith
  have hTT : T ^ 2 < (1 + q) ^ 2 := by
    rw [hT]; nlinarith
  obtain ⟨τ, hτ⟩ : ∃ τ, τ = T / (1 + q) := ⟨_, rfl⟩
  have hTτ : T = τ * (1 + q) := by rw [hτ]; field_simp
  have hτ1 : τ ^ 2 < 1 := by
    rw [hτ, div_pow, div_lt_one (by positivity)]; exact hTT
  obtain ⟨δ, hδ⟩ : ∃ δ, δ = (1 - q) * (1 + q) * (1 - τ ^ 2) / 2 := ⟨_, rfl⟩
  have hδ0 : 0 < δ := by rw [hδ]; have : 0 < 1 - q := by linarith
                         have : 0 < 1 - τ ^ 2 := by linarith
                         positivity
  obtain ⟨V, hV⟩ : ∃ V : ℝ → ℝ → ℝ, V = fun u v => (q ^ 2 + δ) * u ^ 2 - 2 * (τ * q) * (u * v) + v ^ 2 := ⟨_, rfl⟩
  have hV0 : ∀ u v, 0 ≤ V u v := by
    intro u v
    rw [hV]
    have : (q ^ 2 + δ) * u ^ 2 - 2 * (τ * q) * (u * v) + v ^ 2 = δ * u ^ 2 + (q * u - τ * v) ^ 2 + (1 - τ ^ 2) * v ^ 2 := by ring
    simp only [this]
    have : 0 < 1 - τ ^ 2 := by linarith
    positivity
  have hdec : ∀ n, V (x (n + 1)) (x (n + 2)) = V (x n) (x (n + 1)) - δ * (x n ^ 2 + x (n + 1) ^ 2) := by
    intro n
    rw [hV]
    simp only [o.second n]
    rw [← hT, hTτ, hδ]
    ring
  have hsum : ∀ n, V (x n) (x (n + 1)) + ∑ i ∈ Finset.range n, δ * x i ^ 2 ≤ V (x 0) (x 1) := by
    intro n
    induction n with
    | zero => simp
    | succ n ih =>
      rw [Finset.sum_range_succ, hdec n]
      have : 0 ≤ δ * x (n + 1) ^ 2 := by positivity
      linarith
  have hsm : Summable fun i => δ * x i ^ 2 := by
    refine summable_of_sum_range_le (c := V (x 0) (x 1)) (fun n => by positivity) fun n => ?_
    linarith [hsum n, hV0 (x n) (x (n + 1))]
  have hx : Tendsto x atTop (𝓝 0) := by
    have h1 : Tendsto (fun i => x i ^ 2) atTop (𝓝 0) := by
      have := hsm.tendsto_atTop_zero.const_mul (1 / δ)
      simp only [mul_zero] at this
      refine this.congr fun i => ?_
      field_simp
    have h2 := h1.sqrt
    simp only [Real.sqrt_zero, Real.sqrt_sq_eq_abs] at h2
    exact (tendsto_zero_iff_abs_tendsto_zero _).2 h2
  refine ⟨hx, ?_⟩
  have h1 := (hx.comp (tendsto_add_atTop_nat 1)).sub hx
  rw [sub_zero] at h1
  refine h1.congr fun n => ?_
  simp only [Function.comp, o.x_succ n]
  ring

/-- The growing part of an oscillation that is too stiff. -/
theorem grows (o : Osc s q x y) (hq : 0 < q) (h : 2 * (1 + q) ≤ q * s) (hq1 : q ≤ 1) : ∃ l μ : ℝ, l ≤ -1 ∧ -1 ≤ μ ∧ μ < 0 ∧ (2 * (1 + q) < q * s → l < -1) ∧
    ∀ n, x (n + 1) - μ * x n = l ^ n * (x 1 - μ * x 0) := by
  obtain ⟨T, hT⟩ : ∃ T, T = 1 + q - q * s := ⟨_, rfl⟩
  have hTle : T ≤ -(1 + q) := by rw [hT]; linarith
  obtain ⟨d, hd⟩ : ∃ d, d = Real.sqrt (T ^ 2 - 4 * q) := ⟨_, rfl⟩
  have hnn : 0 ≤ T ^ 2 - 4 * q := by nlinarith [sq_nonneg (1 - q)]
  have hd2 : d ^ 2 = T ^ 2 - 4 * q := by rw [hd]; exact Real.sq_sqrt hnn
  have hd0 : 0 ≤ d := by rw [hd]; exact Real.sqrt_nonneg _
  have hdl : d ≥ 1 - q := by
    rw [hd]
    refine Real.le_sqrt_of_sq_le ?_
    nlinarith
  have hdT : d < -T := by
    have : d ^ 2 < (-T) ^ 2 := by rw [hd2]; nlinarith
    exact lt_of_pow_lt_pow_left₀ 2 (by linarith) this
  refine ⟨(T - d) / 2, (T + d) / 2, by linarith, ?_, by linarith, fun h' => ?_, fun n => ?_⟩
  · -- `l * μ = q ≤ 1` and `l ≤ -1`
    by_contra hc
    push Not at hc
    have : (T - d) / 2 * ((T + d) / 2) = q := by nlinarith
    nlinarith
  · have : T < -(1 + q) := by rw [hT]; linarith
    linarith
  · induction n with
    | zero => simp
    | succ n ih =>
      rw [o.second n, ← hT, pow_succ]
      have : (T - d) / 2 * ((T + d) / 2) = q := by nlinarith
      linear_combination ((T - d) / 2) * ih + (x n) * this

theorem never_settles (o : Osc s q x y) (hq : 0 < q) (hq1 : q ≤ 1) (h : 2 * (1 + q) ≤ q * s) (h0 : y 0 = 0) (hx : x 0 ≠ 0) : ¬ Tendsto x atTop (𝓝 0) := by
  obtain ⟨l, μ, hl, hμ, hμ0, -, hz⟩ := o.grows hq h hq1
  intro ht
  have h1 := (hx : x 0 ≠ 0)
  have hx1 : x 1 = x 0 := by rw [o.x_succ 0, h0, add_zero]
  have h2 : Tendsto (fun n => |x (n + 1) - μ * x n|) atTop (𝓝 0) := by
    have := ((ht.comp (tendsto_add_atTop_nat 1)).sub (ht.const_mul μ)).abs
    simpa using this
  have hpos : 0 < |x 1 - μ * x 0| := by
    rw [hx1, abs_pos]
    have : x 0 - μ * x 0 = (1 - μ) * x 0 := by ring
    rw [this]
    exact mul_ne_zero (by linarith) hx
  have := h2.eventually (gt_mem_nhds hpos)
  obtain ⟨n, hn⟩ := this.exists
  rw [hz n, abs_mul, abs_pow] at hn
  have : 1 ≤ |l| ^ n := one_le_pow₀ (by rw [abs_of_neg (by linarith)]; linarith)
  nlinarith

theorem explodes (o : Osc s q x y) (hq : 0 < q) (hq1 : q ≤ 1) (h : 2 * (1 + q) < q * s) (h0 : y 0 = 0) (hx : x 0 ≠ 0) (C : ℝ) : ∃ n, C < |x n| := by
  obtain ⟨l, μ, hl, hμ, hμ0, hl', hz⟩ := o.grows hq h.le hq1
  have hl' := hl' h
  have hx1 : x 1 = x 0 := by rw [o.x_succ 0, h0, add_zero]
  have hpos : 0 < |x 1 - μ * x 0| := by
    rw [hx1, abs_pos]
    have : x 0 - μ * x 0 = (1 - μ) * x 0 := by ring
    rw [this]
    exact mul_ne_zero (by linarith) hx
  have hl1 : 1 < |l| := by rw [abs_of_neg (by linarith)]; linarith
  obtain ⟨n, hn⟩ := pow_unbounded_of_one_lt (2 * C / |x 1 - μ * x 0|) hl1
  rw [div_lt_iff₀ hpos, ← abs_pow, ← abs_mul, ← hz n] at hn
  by_contra hc
  push Not at hc
  have h1 := hc n
  have h2 := hc (n + 1)
  have h3 : |x (n + 1) - μ * x n| ≤ |x (n + 1)| + |μ| * |x n| := by rw [← abs_mul]; exact abs_sub _ _
  have h4 : |μ| ≤ 1 := by rw [abs_of_neg hμ0]; linarith
  have h5 : |μ| * |x n| ≤ |x n| := mul_le_of_le_one_left (abs_nonneg _) h4
  linarith

theorem crosses (o : Osc s q x y) (hq : 0 < q) (hq1 : q ≤ 1) (h : 2 * (1 + q) < q * s) (h0 : y 0 = 0) (hx : x 0 ≠ 0) (C : ℝ) : ∃ n, x n < -C := by
  obtain ⟨l, μ, hl, hμ, hμ0, hl', hz⟩ := o.grows hq h.le hq1
  have hl' := hl' h
  have hx1 : x 1 = x 0 := by rw [o.x_succ 0, h0, add_zero]
  have hpos : 0 < |x 1 - μ * x 0| := by
    rw [hx1, abs_pos]
    have : x 0 - μ * x 0 = (1 - μ) * x 0 := by ring
    rw [this]
    exact mul_ne_zero (by linarith) hx
  have hl1 : 1 < |l| := by rw [abs_of_neg (by linarith)]; linarith
  obtain ⟨n, hn⟩ := pow_unbounded_of_one_lt (2 * |C| / |x 1 - μ * x 0|) hl1
  have big : ∀ k, n ≤ k → 2 * |C| < |x (k + 1) - μ * x k| := by
    intro k hk
    have h1 : |l| ^ n ≤ |l| ^ k := pow_le_pow_right₀ hl1.le hk
    rw [hz k, abs_mul, abs_pow]
    rw [div_lt_iff₀ hpos] at hn
    calc 2 * |C| < |l| ^ n * |x 1 - μ * x 0| := hn
      _ ≤ _ := mul_le_mul_of_nonneg_right h1 hpos.le
  have flip : ∀ k, x (k + 2) - μ * x (k + 1) = l * (x (k + 1) - μ * x k) := by
    intro k; have := hz (k + 1); rw [hz k, show k + 2 = k + 1 + 1 from rfl, this]; ring
  have neg : ∃ k, n ≤ k ∧ x (k + 1) - μ * x k < 0 := by
    rcases lt_or_ge (x (n + 1) - μ * x n) 0 with h | h
    · exact ⟨n, le_rfl, h⟩
    · refine ⟨n + 1, by omega, ?_⟩
      have h3 := big n le_rfl
      have h4 : 0 < x (n + 1) - μ * x n := by
        rw [abs_of_nonneg h] at h3
        linarith [abs_nonneg C]
      rw [flip n]
      nlinarith
  obtain ⟨k, hk, hneg⟩ := neg
  have h3 := big k hk
  rw [abs_of_neg hneg] at h3
  by_contra hc
  push Not at hc
  have c1 := hc k
  have c2 := hc (k + 1)
  have hC := le_abs_self C
  nlinarith [abs_nonneg C]

/-- The discriminant, and the same bound one step ahead. -/
theorem level_ahead (s q x y : ℝ) (hq : 0 < q) : (4 * (q * s) - (1 - q + q * s) ^ 2) * (x + y) ^ 2 ≤ 4 * q * level s q x y := by
  simp only [level]
  nlinarith [sq_nonneg (2 * q * x - (1 + q - q * s) * (x + y))]

end Osc
end CP
