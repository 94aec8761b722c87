import Verif.Proofs.Motion2

/-! # C50: over whole runs, groups of bodies move as Newton's laws say -/

namespace CP
open GoFloat Finset

/-- C50: for every history of steps (any contacts, any joints, any number of iterations, variable
time steps) and of applied forces and impulses, the centre of mass and the momentum of a group of
awake dynamic bodies that meets no other body are those of one point mass under the same gravity,
damping, forces and impulses. Contacts and joints within the group, position correction included,
have no effect on them at all. -/
theorem C50_newton (S : Finset Nat) (m : Motion ℝ) (acts : List (Motion.Act ℝ))
    (hm : ∀ k ∈ S, FiniteMass (m.bodies k)) (hd : ∀ k ∈ S, (m.bodies k).type = .dynamic)
    (hb : ∀ k ∈ S, (m.bodies k).v_bias = ⟨0, 0⟩)
    (hj : ∀ k, Isolates S (m.joints k).con.a (m.joints k).con.b)
    (ha : ∀ a ∈ acts, a.Isolated S) :
    whole S (m.run acts).bodies =
      acts.foldl (Whole.act S (groupMass S m.bodies)) (whole S m.bodies) ∧
    groupMass S (m.run acts).bodies = groupMass S m.bodies := by
  obtain ⟨h1, h2⟩ := run_group S (groupMass S m.bodies) acts m
    ⟨hm, hd, by
      ext <;> exact sum_eq_zero fun k hk => by rw [hb k hk]; exact mul_zero _, rfl, hj⟩ ha
  exact ⟨h2, h1.mass⟩

/-- C50 (angular): without contacts and forces, and with joints other than pivots, grooves and gears
of ratio other than 1, the angular momentum about the origin changes only by damping, by the moment
of the weight at the centre of mass and by the moments of the applied impulses. -/
theorem C50_spin (S : Finset Nat) (m : Motion ℝ) (acts : List (Motion.Act ℝ))
    (hm : ∀ k ∈ S, FiniteMass (m.bodies k)) (hd : ∀ k ∈ S, (m.bodies k).type = .dynamic)
    (hb : ∀ k ∈ S, (m.bodies k).v_bias = ⟨0, 0⟩)
    (hf : ∀ k ∈ S, (m.bodies k).f = ⟨0, 0⟩ ∧ (m.bodies k).t = 0)
    (hp : ∀ k, (m.bodies k).localToWorld (m.bodies k).cog = (m.bodies k).p)
    (hj : ∀ k, Isolates S (m.joints k).con.a (m.joints k).con.b ∧ (m.joints k).FreeSpin)
    (ha : ∀ a ∈ acts, a.Isolated S ∧ a.Spins) :
    (whole S (m.run acts).bodies, angularMomentum S (m.run acts).bodies) =
      acts.foldl (Whole.actL S (groupMass S m.bodies)) (whole S m.bodies, angularMomentum S m.bodies) := by
  refine run_spin S (groupMass S m.bodies) acts m ⟨⟨hm, hd, ?_, rfl, fun k => (hj k).1⟩,
    fun k hk => ⟨(hf k hk).1, (hf k hk).2, hb k hk⟩, hp, fun k => (hj k).2⟩ ha
  ext <;> exact sum_eq_zero fun k hk => by rw [hb k hk]; exact mul_zero _

/-- The calls of a run of steps. -/
def steps (ts : List (Tick ℝ)) : List (Motion.Act ℝ) := ts.map Motion.Act.step

theorem whole_fall (S : Finset Nat) (M τ : ℝ) (g : Vec ℝ) (hτ : τ ≠ 0) (ts : List (Tick ℝ))
    (ht : ∀ t ∈ ts, t.dt = τ ∧ t.gravity = g ∧ t.damping = 1) : ∀ q : Whole, q.force = ⟨0, 0⟩ →
    let n : ℝ := ts.length
    let q' := (steps ts).foldl (Whole.act S M) q
    q'.momentum = q.momentum.add (g.mult (n * τ * M)) ∧
    q'.moment = (q.moment.add (q.momentum.mult (n * τ))).add (g.mult (n * (n - 1) / 2 * τ ^ 2 * M)) := by
  induction ts with
  | nil =>
    intro q hq
    simp only [steps, List.map_nil, List.foldl_nil, List.length_nil, Nat.cast_zero, Vec.add, Vec.mult]
    constructor <;> ext <;> simp
  | cons t ts ih =>
    intro q hq
    obtain ⟨h1, h2, h3⟩ := ht t List.mem_cons_self
    obtain ⟨e1, e2⟩ := ih (fun x hx => ht x (List.mem_cons_of_mem _ hx)) (q.act S M (.step t))
      (by simp only [Whole.act, h1, if_neg hτ])
    have hs : (steps (t :: ts)).foldl (Whole.act S M) q = (steps ts).foldl (Whole.act S M) (q.act S M (.step t)) := rfl
    simp only [hs]
    rw [e1, e2]
    simp only [Whole.act, h1, h2, h3, if_neg hτ, Real.one_rpow, hq, Vec.add, Vec.mult, List.length_cons,
      Nat.cast_add, Nat.cast_one]
    constructor <;> ext <;> simp <;> ring

/-- C50, in closed form: after `n` steps of length `τ` under gravity `g` without damping the centre of
mass has the velocity `V + nτ·g` and has moved by `nτ·V + n(n-1)/2·τ²·g`, whatever the bodies of the
group did to each other. -/
theorem C50_fall (S : Finset Nat) (m : Motion ℝ) (τ : ℝ) (g : Vec ℝ) (hτ : τ ≠ 0) (ts : List (Tick ℝ))
    (ht : ∀ t ∈ ts, t.Isolated S ∧ t.dt = τ ∧ t.gravity = g ∧ t.damping = 1)
    (hm : ∀ k ∈ S, FiniteMass (m.bodies k)) (hd : ∀ k ∈ S, (m.bodies k).type = .dynamic)
    (hb : ∀ k ∈ S, (m.bodies k).v_bias = ⟨0, 0⟩) (hf : ∀ k ∈ S, (m.bodies k).f = ⟨0, 0⟩)
    (hj : ∀ k, Isolates S (m.joints k).con.a (m.joints k).con.b)
    (hM : groupMass S m.bodies ≠ 0) :
    let n : ℝ := ts.length
    let M := groupMass S m.bodies
    let centre := fun h => (whole S h).moment.mult (1 / M)
    let velocity := fun h => (whole S h).momentum.mult (1 / M)
    let h' := (m.run (steps ts)).bodies
    velocity h' = (velocity m.bodies).add (g.mult (n * τ)) ∧
    centre h' = ((centre m.bodies).add ((velocity m.bodies).mult (n * τ))).add
      (g.mult (n * (n - 1) / 2 * τ ^ 2)) := by
  intro n M centre velocity h'
  obtain ⟨e, -⟩ := C50_newton S m (steps ts) hm hd hb hj (by
    intro a ha
    obtain ⟨t, hti, rfl⟩ := List.mem_map.mp ha
    exact fun _ => (ht t hti).1)
  obtain ⟨e1, e2⟩ := whole_fall S M τ g hτ ts (fun t h => (ht t h).2) (whole S m.bodies)
    (by ext <;> exact sum_eq_zero fun k hk => by rw [hf k hk])
  have hM' : M * M⁻¹ = 1 := mul_inv_cancel₀ hM
  simp only [velocity, centre, h', e]
  rw [e1, e2]
  simp only [Vec.add, Vec.mult, one_div]
  constructor
  · ext
    · simp only []; linear_combination g.x * (n * τ) * hM'
    · simp only []; linear_combination g.y * (n * τ) * hM'
  · ext
    · simp only []; linear_combination g.x * (n * (n - 1) / 2 * τ ^ 2) * hM'
    · simp only []; linear_combination g.y * (n * (n - 1) / 2 * τ ^ 2) * hM'

theorem whole_damped (S : Finset Nat) (M τ δ : ℝ) (g : Vec ℝ) (hτ : τ ≠ 0) (hδ : δ ≠ 1) (ts : List (Tick ℝ))
    (ht : ∀ t ∈ ts, t.dt = τ ∧ t.gravity = g ∧ t.damping ^ τ = δ) : ∀ q : Whole, q.force = ⟨0, 0⟩ →
    ((steps ts).foldl (Whole.act S M) q).momentum =
      (q.momentum.mult (δ ^ ts.length)).add (g.mult ((1 - δ ^ ts.length) / (1 - δ) * τ * M)) := by
  induction ts with
  | nil =>
    intro q hq
    simp only [steps, List.map_nil, List.foldl_nil, List.length_nil, Vec.add, Vec.mult]
    ext <;> simp
  | cons t ts ih =>
    intro q hq
    obtain ⟨h1, h2, h3⟩ := ht t List.mem_cons_self
    have e1 := ih (fun x hx => ht x (List.mem_cons_of_mem _ hx)) (q.act S M (.step t))
      (by simp only [Whole.act, h1, if_neg hτ])
    have hs : (steps (t :: ts)).foldl (Whole.act S M) q = (steps ts).foldl (Whole.act S M) (q.act S M (.step t)) := rfl
    have hne : 1 - δ ≠ 0 := sub_ne_zero.mpr hδ.symm
    rw [hs, e1]
    simp only [Whole.act, h1, h2, h3, if_neg hτ, hq, Vec.add, Vec.mult, List.length_cons, pow_succ]
    ext <;> simp only [] <;> field_simp <;> ring

/-- C50, with damping: if every step keeps the fraction `δ ≠ 1` of the velocities then after `n` steps
of length `τ` the centre of mass has the velocity `δⁿ·V + (1-δⁿ)/(1-δ)·τ·g`, which tends to the terminal
velocity `τ/(1-δ)·g` (for `|δ| < 1`) no matter what the bodies of the group did to each other. -/
theorem C50_damped (S : Finset Nat) (m : Motion ℝ) (τ δ : ℝ) (g : Vec ℝ) (hτ : τ ≠ 0) (hδ : δ ≠ 1)
    (ts : List (Tick ℝ))
    (ht : ∀ t ∈ ts, t.Isolated S ∧ t.dt = τ ∧ t.gravity = g ∧ t.damping ^ τ = δ)
    (hm : ∀ k ∈ S, FiniteMass (m.bodies k)) (hd : ∀ k ∈ S, (m.bodies k).type = .dynamic)
    (hb : ∀ k ∈ S, (m.bodies k).v_bias = ⟨0, 0⟩) (hf : ∀ k ∈ S, (m.bodies k).f = ⟨0, 0⟩)
    (hj : ∀ k, Isolates S (m.joints k).con.a (m.joints k).con.b)
    (hM : groupMass S m.bodies ≠ 0) :
    let M := groupMass S m.bodies
    let velocity := fun h => (whole S h).momentum.mult (1 / M)
    velocity (m.run (steps ts)).bodies = ((velocity m.bodies).mult (δ ^ ts.length)).add
      (g.mult ((1 - δ ^ ts.length) / (1 - δ) * τ)) := by
  intro M velocity
  obtain ⟨e, -⟩ := C50_newton S m (steps ts) hm hd hb hj (by
    intro a ha
    obtain ⟨t, hti, rfl⟩ := List.mem_map.mp ha
    exact fun _ => (ht t hti).1)
  have e1 := whole_damped S M τ δ g hτ hδ ts (fun t h => (ht t h).2) (whole S m.bodies)
    (by ext <;> exact sum_eq_zero fun k hk => by rw [hf k hk])
  have hM' : M * M⁻¹ = 1 := mul_inv_cancel₀ hM
  simp only [velocity, e]
  rw [e1]
  simp only [Vec.add, Vec.mult, one_div]
  ext
  · simp only []; linear_combination g.x * ((1 - δ ^ ts.length) / (1 - δ) * τ) * hM'
  · simp only []; linear_combination g.y * ((1 - δ ^ ts.length) / (1 - δ) * τ) * hM'

/-- C50: a body that no contact and no joint involves moves independently of everything else in the
space: its whole state is a function of its own history. -/
theorem C50_alone (k : Nat) (m : Motion ℝ) (acts : List (Motion.Act ℝ))
    (hj : ∀ i, k ≠ (m.joints i).con.a ∧ k ≠ (m.joints i).con.b) (ha : ∀ a ∈ acts, a.Spares k) :
    (m.run acts).bodies k = acts.foldl (Body.solo k) (m.bodies k) :=
  run_alone k acts m hj ha

/-- C50: such a body, without forces and damping, falls along the discrete parabola and turns with
constant angular velocity. -/
theorem C50_free (k : Nat) (m : Motion ℝ) (τ : ℝ) (g : Vec ℝ) (hτ : τ ≠ 0) (ts : List (Tick ℝ))
    (hj : ∀ i, k ≠ (m.joints i).con.a ∧ k ≠ (m.joints i).con.b)
    (ht : ∀ t ∈ ts, (Motion.Act.step t).Spares k ∧ t.dt = τ ∧ t.gravity = g ∧ t.damping = 1)
    (hd : (m.bodies k).type = .dynamic) (hb : (m.bodies k).v_bias = ⟨0, 0⟩ ∧ (m.bodies k).w_bias = 0)
    (hf : (m.bodies k).f = ⟨0, 0⟩ ∧ (m.bodies k).t = 0) :
    let n : ℝ := ts.length
    let b := m.bodies k
    let b' := (m.run (steps ts)).bodies k
    b'.v = b.v.add (g.mult (n * τ)) ∧ b'.w = b.w ∧
    b'.p = (b.p.add (b.v.mult (n * τ))).add (g.mult (n * (n - 1) / 2 * τ ^ 2)) ∧
    b'.a = b.a + b.w * (n * τ) := by
  intro n b b'
  have e : b' = (steps ts).foldl (Body.solo k) b := C50_alone k m (steps ts) hj (by
    intro a ha
    obtain ⟨t, hti, rfl⟩ := List.mem_map.mp ha
    exact (ht t hti).1)
  rw [e]
  simp only [n]
  have hd' : b.type = .dynamic := hd
  have hb' : b.v_bias = ⟨0, 0⟩ ∧ b.w_bias = 0 := hb
  have hf' : b.f = ⟨0, 0⟩ ∧ b.t = 0 := hf
  clear_value b
  clear e hb hf hd hj b' n
  induction ts generalizing b with
  | nil =>
    simp only [steps, List.map_nil, List.foldl_nil, List.length_nil, Nat.cast_zero, Vec.add, Vec.mult]
    refine ⟨?_, trivial, ?_, ?_⟩
    · ext <;> simp
    · ext <;> simp
    · simp
  | cons t ts ih =>
    obtain ⟨-, h1, h2, h3⟩ := ht t List.mem_cons_self
    have hs : (steps (t :: ts)).foldl (Body.solo k) b = (steps ts).foldl (Body.solo k) (b.solo k (.step t)) := rfl
    have hty : (b.updatePosition τ).type = .dynamic := hd'
    have hb1 : b.solo k (.step t) = { b.updatePosition τ with
        v := b.v.add (g.mult τ), f := ⟨0, 0⟩, t := 0 } := by
      simp only [Body.solo, h1, h2, h3, if_neg hτ, Real.one_rpow, Body.updateVelocity, hty]
      simp only [Body.updatePosition, Body.setTransform, hf'.1, hf'.2, Vec.add, Vec.mult, Body.zeroV,
        zero_mul, add_zero, mul_one, reduceCtorEq, if_false]
    obtain ⟨e1, e2, e3, e4⟩ := ih (b := b.solo k (.step t)) (fun x hx => ht x (List.mem_cons_of_mem _ hx))
      (by rw [hb1]; exact hd') (by rw [hb1]; exact ⟨rfl, rfl⟩) (by rw [hb1]; exact ⟨rfl, rfl⟩)
    rw [hs]
    rw [e1, e2, e3, e4, hb1]
    simp only [Body.updatePosition, Body.setTransform, hb'.1, hb'.2, Vec.add, Vec.mult, List.length_cons,
      Nat.cast_add, Nat.cast_one, Body.zeroV]
    refine ⟨?_, trivial, ?_, ?_⟩
    · ext <;> simp only [] <;> ring
    · ext <;> simp only [] <;> ring
    · ring

/-- A kinematic body: immovable and of kinematic type. -/
def Rides (k : Nat) : Motion.Act ℝ → Prop
  | .step t => t.dt ≠ 0 → t.movers.Nodup ∧ t.dyn.Nodup ∧ k ∈ t.movers
  | _ => True

theorem push_immovable (b : Body ℝ) (hi : Immovable b) (ht : b.type ≠ .dynamic) (f pt : Vec ℝ) :
    ∀ y ∈ [b.applyForceAtWorldPoint f pt, b.applyImpulseAtWorldPoint f pt],
      y.v = b.v ∧ y.w = b.w ∧ y.p = b.p ∧ y.a = b.a ∧ y.v_bias = b.v_bias ∧ y.w_bias = b.w_bias ∧
      Immovable y ∧ y.type = b.type := by
  have ha : b.activate = b := by simp only [Body.activate, if_neg ht]
  intro y hy
  rcases List.mem_cons.mp hy with rfl | hy
  · have e : b.applyForceAtWorldPoint f pt = { b with
        f := b.f.add f, t := b.t + (pt.sub (b.transform.point b.cog)).cross f } := by
      simp only [Body.applyForceAtWorldPoint, ha]
    rw [e]
    exact ⟨rfl, rfl, rfl, rfl, rfl, rfl, hi, rfl⟩
  · obtain rfl := List.mem_singleton.mp hy
    have e : b.applyImpulseAtWorldPoint f pt = b := by
      simp only [Body.applyImpulseAtWorldPoint, Body.applyImpulse, ha, hi.1, hi.2, mul_zero, zero_mul, add_zero]
      have h1 := hi.1
      have h2 := hi.2
      cases b
      simp only at h1 h2
      simp [h1, h2]
    rw [e]
    exact ⟨rfl, rfl, rfl, rfl, rfl, rfl, hi, rfl⟩

/-- C50: a kinematic body moves with the velocity the user gave it, for as long as it runs, whatever
it hits, whatever is joined to it and whatever forces and impulses are applied to it. -/
theorem C50_kinematic (k : Nat) (m : Motion ℝ) (acts : List (Motion.Act ℝ))
    (hi : Immovable (m.bodies k)) (hk : (m.bodies k).type = .kinematic)
    (hb : (m.bodies k).v_bias = ⟨0, 0⟩ ∧ (m.bodies k).w_bias = 0)
    (ha : ∀ a ∈ acts, Rides k a) :
    let b := m.bodies k
    let b' := (m.run acts).bodies k
    b'.v = b.v ∧ b'.w = b.w ∧ b'.p = b.p.add (b.v.mult (elapsed acts)) ∧ b'.a = b.a + b.w * elapsed acts := by
  induction acts generalizing m with
  | nil =>
    simp only [Motion.run, List.foldl_nil, elapsed, List.map_nil, List.sum_nil, Vec.mult, Vec.add]
    refine ⟨trivial, trivial, ?_, ?_⟩
    · ext <;> simp
    · simp
  | cons a acts ih =>
    intro b b'
    have h0 := ha a List.mem_cons_self
    have key : ((m.act a).bodies k).v = b.v ∧ ((m.act a).bodies k).w = b.w ∧
        ((m.act a).bodies k).p = b.p.add (b.v.mult (elapsed [a])) ∧
        ((m.act a).bodies k).a = b.a + b.w * elapsed [a] ∧
        Immovable ((m.act a).bodies k) ∧ ((m.act a).bodies k).type = .kinematic ∧
        ((m.act a).bodies k).v_bias = ⟨0, 0⟩ ∧ ((m.act a).bodies k).w_bias = 0 := by
      have triv : b.v = b.v ∧ b.w = b.w ∧ b.p = b.p.add (b.v.mult 0) ∧ b.a = b.a + b.w * 0 ∧
          Immovable b ∧ b.type = .kinematic ∧ b.v_bias = ⟨0, 0⟩ ∧ b.w_bias = 0 := by
        refine ⟨rfl, rfl, ?_, by ring, hi, hk, hb⟩
        simp only [Vec.add, Vec.mult]; ext <;> simp
      cases a with
      | joint i j =>
        simp only [elapsed, List.map_cons, List.map_nil, List.sum_singleton]
        exact triv
      | force i f pt =>
        simp only [Motion.act, elapsed, List.map_cons, List.map_nil, List.sum_singleton, Bodies.set]
        split
        · subst_vars
          obtain ⟨h1, h2, h3, h4, h5, h6, h7, h8⟩ := push_immovable b hi (by rw [hk]; decide) f pt _
            List.mem_cons_self
          rw [h1, h2, h3, h4, h5, h6, h8]
          exact ⟨triv.1, triv.2.1, triv.2.2.1, triv.2.2.2.1, h7, hk, hb⟩
        · exact triv
      | impulse i f pt =>
        simp only [Motion.act, elapsed, List.map_cons, List.map_nil, List.sum_singleton, Bodies.set]
        split
        · subst_vars
          obtain ⟨h1, h2, h3, h4, h5, h6, h7, h8⟩ := push_immovable b hi (by rw [hk]; decide) f pt
            (b.applyImpulseAtWorldPoint f pt) (by simp)
          rw [h1, h2, h3, h4, h5, h6, h8]
          exact ⟨triv.1, triv.2.1, triv.2.2.1, triv.2.2.2.1, h7, hk, hb⟩
        · exact triv
      | step t =>
        simp only [elapsed, List.map_cons, List.map_nil, List.sum_singleton]
        by_cases hdt : t.dt = 0
        · simp only [Motion.act, Motion.tick, hdt, if_true]
          exact triv
        · obtain ⟨h1, h2, h3⟩ := h0 hdt
          have e : (m.tick t).bodies k = b.updatePosition t.dt := by
            simp only [Motion.tick, if_neg hdt]
            have hmv : Motion.move m.bodies t.dt t.movers k = b.updatePosition t.dt := by
              rw [move_apply _ _ h1, if_pos h3]
            refine Eq.trans (C16_immovable _ _ k ?_ ?_) hmv
            · simp only [hmv]; exact hi
            · intro _ _ _; simp only [hmv]; exact hk
          simp only [Motion.act, e]
          refine ⟨rfl, rfl, ?_, ?_, hi, hk, rfl, rfl⟩
          · simp only [Body.updatePosition, Body.setTransform]
            rw [show b.v_bias = ⟨0, 0⟩ from hb.1]
            simp only [Vec.add, Vec.mult, add_zero]
          · simp only [Body.updatePosition, Body.setTransform]
            rw [show b.w_bias = 0 from hb.2, add_zero]
    obtain ⟨k1, k2, k3, k4, k5, k6, k7⟩ := key
    obtain ⟨e1, e2, e3, e4⟩ := ih (m.act a) k5 k6 k7 (fun x hx => ha x (List.mem_cons_of_mem _ hx))
    have hsum : elapsed (a :: acts) = elapsed [a] + elapsed acts := by
      simp [elapsed]
    have hb' : b' = ((m.act a).run acts).bodies k := rfl
    rw [hb', e1, e2, e3, e4, k1, k2, k3, k4, hsum]
    refine ⟨rfl, rfl, ?_, by ring⟩
    simp only [Vec.add, Vec.mult]
    ext <;> simp only [] <;> ring

/-- C50: a static body (never integrated) does not move at all, whatever happens. -/
theorem C50_static (k : Nat) (m : Motion ℝ) (acts : List (Motion.Act ℝ))
    (hi : Immovable (m.bodies k)) (hk : (m.bodies k).type = .static)
    (ha : ∀ t, Motion.Act.step t ∈ acts → t.dt ≠ 0 → t.movers.Nodup ∧ k ∉ t.movers ∧ k ∉ t.dyn) :
    let b := m.bodies k
    let b' := (m.run acts).bodies k
    b'.v = b.v ∧ b'.w = b.w ∧ b'.p = b.p ∧ b'.a = b.a := by
  induction acts generalizing m with
  | nil => exact ⟨rfl, rfl, rfl, rfl⟩
  | cons a acts ih =>
    intro b b'
    have key : ((m.act a).bodies k).v = b.v ∧ ((m.act a).bodies k).w = b.w ∧
        ((m.act a).bodies k).p = b.p ∧ ((m.act a).bodies k).a = b.a ∧
        Immovable ((m.act a).bodies k) ∧ ((m.act a).bodies k).type = .static := by
      have triv : b.v = b.v ∧ b.w = b.w ∧ b.p = b.p ∧ b.a = b.a ∧ Immovable b ∧ b.type = .static :=
        ⟨rfl, rfl, rfl, rfl, hi, hk⟩
      cases a with
      | joint i j => exact triv
      | force i f pt =>
        simp only [Motion.act, Bodies.set]
        split
        · subst_vars
          obtain ⟨h1, h2, h3, h4, h5, h6, h7, h8⟩ := push_immovable b hi (by rw [hk]; decide) f pt _
            List.mem_cons_self
          exact ⟨h1, h2, h3, h4, h7, h8.trans hk⟩
        · exact triv
      | impulse i f pt =>
        simp only [Motion.act, Bodies.set]
        split
        · subst_vars
          obtain ⟨h1, h2, h3, h4, h5, h6, h7, h8⟩ := push_immovable b hi (by rw [hk]; decide) f pt
            (b.applyImpulseAtWorldPoint f pt) (by simp)
          exact ⟨h1, h2, h3, h4, h7, h8.trans hk⟩
        · exact triv
      | step t =>
        by_cases hdt : t.dt = 0
        · simp only [Motion.act, Motion.tick, hdt, if_true]
          exact triv
        · obtain ⟨h1, h2, h3⟩ := ha t List.mem_cons_self hdt
          have e : (m.tick t).bodies k = b := by
            simp only [Motion.tick, if_neg hdt]
            have hmv : Motion.move m.bodies t.dt t.movers k = b := by
              rw [move_apply _ _ h1, if_neg h2]
            refine Eq.trans (C16_immovable _ _ k ?_ ?_) hmv
            · simp only [hmv]; exact hi
            · intro op hop hint
              exfalso
              rw [program_split] at hop
              rcases List.mem_append.mp hop with h | h
              · rw [(preOps_ops t op h).1] at hint; cases hint
              · rcases List.mem_append.mp h with h | h
                · obtain ⟨x, hx, rfl⟩ := List.mem_map.mp h
                  simp only [SolverOp.integrated?, Option.some.injEq] at hint
                  exact h3 (hint ▸ hx)
                · rw [(postOps_ops t _ op h).1] at hint; cases hint
          have e' : (m.act (.step t)).bodies k = b := e
          rw [e']
          exact triv
    obtain ⟨k1, k2, k3, k4, k5, k6⟩ := key
    obtain ⟨e1, e2, e3, e4⟩ := ih (m.act a) k5 k6 (fun t h => ha t (List.mem_cons_of_mem _ h))
    have hb' : b' = ((m.act a).run acts).bodies k := rfl
    rw [hb', e1, e2, e3, e4]
    exact ⟨k1, k2, k3, k4⟩


/-! ### Non-vacuity -/

/-- The two approaching bodies of `exSolver`, with their motor. -/
noncomputable def exMotion : Motion ℝ := { bodies := exSolver.bodies, joints := exSolver.joints, currDt := 1 }

/-- A step in which they collide, with friction and a stored impulse. -/
noncomputable def exTick : Tick ℝ where
  dt := 1
  gravity := ⟨0, -10⟩
  damping := 1
  iterations := 10
  slop := 0
  collisionBias := 1
  movers := [0, 1]
  dyn := [0, 1]
  arbs := [0]
  contact := exSolver.arbs
  joints := [0]

theorem exBody_fields (p v : Vec ℝ) : (exBody p v).v_bias = ⟨0, 0⟩ ∧ (exBody p v).w_bias = 0 ∧
    (exBody p v).f = ⟨0, 0⟩ ∧ (exBody p v).t = 0 ∧ (exBody p v).m = 1 ∧ (exBody p v).v = v ∧
    (exBody p v).p = p ∧ (exBody p v).type = .dynamic ∧ (exBody p v).w = 0 ∧ (exBody p v).a = 0 ∧
    (exBody p v).localToWorld (exBody p v).cog = p := by
  refine ⟨?_, ?_, ?_, ?_, ?_, rfl, rfl, ?_, ?_, ?_, ?_⟩
  · simp [exBody, Body.new, Body.setPosition, Body.setMass, Body.setMoment, Body.setAngle,
      Body.setTransform, Body.activate, Body.type, one_lt_maxFloat.ne, maxFloat_pos.ne, Body.zeroV]
  · simp [exBody, Body.new, Body.setPosition, Body.setMass, Body.setMoment, Body.setAngle,
      Body.setTransform, Body.activate, Body.type, one_lt_maxFloat.ne, maxFloat_pos.ne, Body.zeroV]
  · simp [exBody, Body.new, Body.setPosition, Body.setMass, Body.setMoment, Body.setAngle,
      Body.setTransform, Body.activate, Body.type, one_lt_maxFloat.ne, maxFloat_pos.ne, Body.zeroV]
  · simp [exBody, Body.new, Body.setPosition, Body.setMass, Body.setMoment, Body.setAngle,
      Body.setTransform, Body.activate, Body.type, one_lt_maxFloat.ne, maxFloat_pos.ne, Body.zeroV]
  · simp [exBody, Body.new, Body.setPosition, Body.setMass, Body.setMoment, Body.setAngle,
      Body.setTransform, Body.activate, Body.type, one_lt_maxFloat.ne, maxFloat_pos.ne, Body.zeroV]
  · simp [exBody, Body.new, Body.setPosition, Body.setMass, Body.setMoment, Body.setAngle,
      Body.setTransform, Body.activate, Body.type, one_lt_maxFloat.ne, maxFloat_pos.ne, Body.zeroV]
  · simp [exBody, Body.new, Body.setPosition, Body.setMass, Body.setMoment, Body.setAngle,
      Body.setTransform, Body.activate, Body.type, one_lt_maxFloat.ne, maxFloat_pos.ne, Body.zeroV]
  · simp [exBody, Body.new, Body.setPosition, Body.setMass, Body.setMoment, Body.setAngle,
      Body.setTransform, Body.activate, Body.type, one_lt_maxFloat.ne, maxFloat_pos.ne, Body.zeroV]
  · rw [exBody_cog]
    simp [exBody, Body.localToWorld, Transform.point]

theorem exMotion_body (k : Nat) : ∃ p v, exMotion.bodies k = exBody p v := by
  simp only [exMotion, exSolver]
  split
  · exact ⟨_, _, rfl⟩
  · exact ⟨_, _, rfl⟩

theorem exTick_isolated : exTick.Isolated {0, 1} :=
  ⟨by simp [exTick], by simp [exTick], by simp [exTick], by simp [exTick],
   by simp [exTick, exSolver, Isolates]⟩

theorem exMotion_mass : groupMass {0, 1} exMotion.bodies = 2 := by
  have h : ∀ k, (exMotion.bodies k).m = 1 := fun k => by
    obtain ⟨p, v, e⟩ := exMotion_body k
    rw [e]; exact (exBody_fields p v).2.2.2.2.1
  simp [groupMass, h]

/-- `C50_fall` applies to the colliding pair: after three such steps its centre of mass, which started
at (1,0) with velocity (0,1/2), is at (1, -57/2). -/
example :
    (whole {0, 1} (exMotion.run (steps [exTick, exTick, exTick])).bodies).moment.mult (1 / 2) =
      ⟨1, -57 / 2⟩ := by
  obtain ⟨-, h⟩ := C50_fall {0, 1} exMotion 1 ⟨0, -10⟩ one_ne_zero [exTick, exTick, exTick]
    (by
      intro t ht
      have : t = exTick := by simpa using ht
      subst this
      exact ⟨exTick_isolated, rfl, rfl, rfl⟩)
    exSolver_finite
    (fun k _ => by obtain ⟨p, v, e⟩ := exMotion_body k; rw [e]; exact (exBody_fields p v).2.2.2.2.2.2.2.1)
    (fun k _ => by obtain ⟨p, v, e⟩ := exMotion_body k; rw [e]; exact (exBody_fields p v).1)
    (fun k _ => by obtain ⟨p, v, e⟩ := exMotion_body k; rw [e]; exact (exBody_fields p v).2.2.1)
    (fun k => by simp [exMotion, exSolver, Joint.con, Isolates])
    (by rw [exMotion_mass]; norm_num)
  have b0 : exMotion.bodies 0 = exBody ⟨0, 0⟩ ⟨1, 0⟩ := by simp [exMotion, exSolver]
  have b1 : exMotion.bodies 1 = exBody ⟨2, 0⟩ ⟨-1, 1⟩ := by simp [exMotion, exSolver]
  rw [exMotion_mass] at h
  refine h.trans ?_
  simp only [whole, Finset.sum_pair (show (0 : Nat) ≠ 1 by decide), b0, b1, (exBody_fields _ _).2.2.2.2.1,
    (exBody_fields _ _).2.2.2.2.2.1, (exBody_fields _ _).2.2.2.2.2.2.1, Vec.mult, Vec.add]
  ext <;> norm_num

/-- `C50_spin` applies to the pair when it does not touch: the motor's torque leaves the angular
momentum (of the orbital motion: 2·1 = 2) to gravity alone. -/
example :
    angularMomentum {0, 1} (exMotion.run (steps [{ exTick with arbs := [], gravity := ⟨0, 0⟩ }])).bodies = 2 := by
  have h := C50_spin {0, 1} exMotion (steps [{ exTick with arbs := [], gravity := ⟨0, 0⟩ }])
    exSolver_finite
    (fun k _ => by obtain ⟨p, v, e⟩ := exMotion_body k; rw [e]; exact (exBody_fields p v).2.2.2.2.2.2.2.1)
    (fun k _ => by obtain ⟨p, v, e⟩ := exMotion_body k; rw [e]; exact (exBody_fields p v).1)
    (fun k _ => by
      obtain ⟨p, v, e⟩ := exMotion_body k; rw [e]
      exact ⟨(exBody_fields p v).2.2.1, (exBody_fields p v).2.2.2.1⟩)
    (fun k => by
      obtain ⟨p, v, e⟩ := exMotion_body k
      rw [e]; exact (exBody_fields p v).2.2.2.2.2.2.2.2.2.2)
    (fun k => ⟨by simp [exMotion, exSolver, Joint.con, Isolates], fun h => by simp [exMotion, exSolver, ConservesSpin]⟩)
    (by
      intro a ha
      obtain rfl : a = Motion.Act.step { exTick with arbs := [], gravity := ⟨0, 0⟩ } := by simpa [steps] using ha
      exact ⟨fun _ => ⟨by simp [exTick], by simp [exTick], by simp [exTick], by simp [exTick], by simp⟩, rfl⟩)
  have h2 := congrArg Prod.snd h
  refine h2.trans ?_
  have b0 : exMotion.bodies 0 = exBody ⟨0, 0⟩ ⟨1, 0⟩ := by simp [exMotion, exSolver]
  have b1 : exMotion.bodies 1 = exBody ⟨2, 0⟩ ⟨-1, 1⟩ := by simp [exMotion, exSolver]
  simp only [steps, List.map_cons, List.map_nil, List.foldl_cons, List.foldl_nil, Whole.actL, turned]
  simp only [angularMomentum, Finset.sum_pair (show (0 : Nat) ≠ 1 by decide), b0, b1,
    (exBody_fields _ _).2.2.2.2.1, (exBody_fields _ _).2.2.2.2.2.1, (exBody_fields _ _).2.2.2.2.2.2.1,
    (exBody_fields _ _).2.2.2.2.2.2.2.2.1, Vec.cross, exTick]
  norm_num

/-- A kinematic platform, hit by the contact of `exSolver` in every step, keeps going. -/
noncomputable def exPlatform : Body ℝ := { (Body.newKinematic (F := ℝ)) with v := ⟨3, 0⟩ }

example :
    let m : Motion ℝ := { exMotion with bodies := fun k => if k = 0 then exPlatform else exMotion.bodies k }
    ((m.run (steps [exTick, exTick])).bodies 0).v = ⟨3, 0⟩ ∧
    ((m.run (steps [exTick, exTick])).bodies 0).p = ⟨6, 0⟩ := by
  intro m
  have hne : ¬ ((0 : ℝ) = maxFloat) := maxFloat_pos.ne
  have hp : exPlatform.m_inv = 0 ∧ exPlatform.i_inv = 0 ∧ exPlatform.type = .kinematic ∧
      exPlatform.v_bias = ⟨0, 0⟩ ∧ exPlatform.w_bias = 0 ∧ exPlatform.p = ⟨0, 0⟩ := by
    simp [exPlatform, Body.newKinematic, Body.new, Body.setType, Body.setMass, Body.setMoment, Body.setAngle,
      Body.setTransform, Body.activate, Body.type, hne, Body.zeroV]
  have hb : m.bodies 0 = exPlatform := rfl
  obtain ⟨h1, -, h3, -⟩ := C50_kinematic 0 m (steps [exTick, exTick]) (by rw [hb]; exact ⟨hp.1, hp.2.1⟩)
    (by rw [hb]; exact hp.2.2.1) (by rw [hb]; exact ⟨hp.2.2.2.1, hp.2.2.2.2.1⟩)
    (by
      intro a ha
      obtain rfl : a = Motion.Act.step exTick := by simpa [steps] using ha
      intro _; simp [exTick])
  rw [hb] at h1 h3
  refine ⟨h1, h3.trans ?_⟩
  rw [hp.2.2.2.2.2]
  simp only [exPlatform, Vec.add, Vec.mult, steps, elapsed, List.map_cons, List.map_nil, List.sum_cons,
    List.sum_nil, exTick]
  ext <;> norm_num

end CP
