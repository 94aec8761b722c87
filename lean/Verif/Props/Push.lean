import Verif.Proofs.Push5

/-! # C58: overlapping bodies are pushed apart, down to the slop, without touching their velocities -/

namespace CP
open GoFloat

/-- **C58**, at least: at the last contact of the arbiter that has the last word on its bodies, a step leaves pushing velocities that
undo, in the next step, at least the share `1 - collisionBias^dt` of the overlap beyond the slop. Joints, friction and other contacts do
not matter. -/
theorem C58_push (m : Motion ℝ) (t : Tick ℝ) (i : Nat) (cs : List (Contact ℝ)) (c : Contact ℝ) (hdt : t.dt ≠ 0) (hl : t.LastPush m i)
    (hc : (t.contact i).contacts = cs ++ [c]) (hab : (t.contact i).a ≠ (t.contact i).b) (hn : (t.contact i).n.dot (t.contact i).n = 1)
    (hs : Solvable m.bodies (t.contact i).a (t.contact i).b) :
    (1 - t.collisionBias ^ t.dt) * max 0 ((t.contact i).overlap c (m.seen t) - t.slop) / t.dt ≤ (t.contact i).pushVel c (m.tick t).bodies :=
  push_least m t i cs c hdt hl hc hab hn hs

/-- **C58**, exactly: if the two bodies touch nothing else they could move (a floor may touch others), at one contact, the pushing velocities undo exactly that share. They act along
the normal, each body moves in proportion to its inverse mass, and within the slop there are none. -/
theorem C58_exact (m : Motion ℝ) (t : Tick ℝ) (i : Nat) (c : Contact ℝ) (hdt : 0 < t.dt) (hl : t.Alone m i)
    (hc : (t.contact i).contacts = [c]) (hab : (t.contact i).a ≠ (t.contact i).b) (hn : (t.contact i).n.dot (t.contact i).n = 1)
    (hs : Solvable m.bodies (t.contact i).a (t.contact i).b) (hr : t.collisionBias ^ t.dt ≤ 1)
    (ha : t.Carries m.bodies (t.contact i).a) (hb : t.Carries m.bodies (t.contact i).b) :
    (t.contact i).pushVel c (m.tick t).bodies = (1 - t.collisionBias ^ t.dt) * max 0 ((t.contact i).overlap c (m.seen t) - t.slop) / t.dt ∧
    ∃ J, 0 ≤ J ∧ ((t.contact i).overlap c (m.seen t) ≤ t.slop → J = 0) ∧
      ((m.tick t).bodies (t.contact i).a).v_bias = (t.contact i).n.mult (-(J * (m.bodies (t.contact i).a).m_inv)) ∧
      ((m.tick t).bodies (t.contact i).b).v_bias = (t.contact i).n.mult (J * (m.bodies (t.contact i).b).m_inv) := by
  have hz : ∀ x, x = (t.contact i).a ∨ x = (t.contact i).b → (m.seen t x).v_bias = ⟨0, 0⟩ ∧ (m.seen t x).w_bias = 0 := by
    rintro x (rfl | rfl)
    · exact move_bias t.dt t.movers _ m.bodies (ha.2.imp id fun h => ⟨h.2.2.1, h.2.2.2⟩)
    · exact move_bias t.dt t.movers _ m.bodies (hb.2.imp id fun h => ⟨h.2.2.1, h.2.2.2⟩)
  have S := alone_shoved m t i c hdt hl hc hab hn hs hr hz
  have hk := (solvable_seen hs (t := t)).kScalar_pos c.r1 c.r2 (t.contact i).n
  have hp := S.pushVel hn
  refine ⟨by rw [hp]; field_simp, (1 - t.collisionBias ^ t.dt) * max 0 ((t.contact i).overlap c (m.seen t) - t.slop) / t.dt /
      kScalar (m.seen t) (t.contact i).a (t.contact i).b c.r1 c.r2 (t.contact i).n, ?_, ?_, ?_, ?_⟩
  rotate_left 2
  · rw [S.va, (seen_inertia m t _).1]
  · rw [S.vb, (seen_inertia m t _).1]
  · have h1 := le_max_left 0 ((t.contact i).overlap c (m.seen t) - t.slop)
    have h2 : 0 ≤ 1 - t.collisionBias ^ t.dt := by linarith
    positivity
  · intro h
    rw [max_eq_left (by linarith)]
    simp

/-- **C58**, not more: in a step in which no contact is deeper than the slop no body is pushed at all. -/
theorem C58_idle (m : Motion ℝ) (t : Tick ℝ) (hdt : t.dt ≠ 0)
    (hs : ∀ i ∈ t.arbs, ∀ c ∈ (t.contact i).contacts, (t.contact i).overlap c (m.seen t) ≤ t.slop)
    (hc : ∀ i ∈ t.arbs, ∀ x, x = (t.contact i).a ∨ x = (t.contact i).b → t.Carries m.bodies x) (x : Nat) (hx : t.Carries m.bodies x) :
    ((m.tick t).bodies x).v_bias = ⟨0, 0⟩ ∧ ((m.tick t).bodies x).w_bias = 0 := by
  have key : ∀ y, t.Carries m.bodies y → (m.seen t y).v_bias = ⟨0, 0⟩ ∧ (m.seen t y).w_bias = 0 := fun y hy =>
    move_bias t.dt t.movers _ m.bodies (hy.2.imp id fun h => ⟨h.2.2.1, h.2.2.2⟩)
  have := shallow_bias m t hdt hs fun i hi y hy => key y (hc i hi y hy)
  exact ⟨(this.eq x).trans (key x hx).1, (this.eqw x).trans (key x hx).2⟩

/-- **C58**, no energy: how strongly bodies are pushed apart (`collisionSlop`, `collisionBias`) has no influence on their velocities, nor
on anything else but the pushing velocities, nor on the joints. -/
theorem C58_velocities (m : Motion ℝ) (t : Tick ℝ) (slop coll : ℝ) :
    (m.tick { t with slop := slop, collisionBias := coll }).joints = (m.tick t).joints ∧
    ∀ x, { (m.tick { t with slop := slop, collisionBias := coll }).bodies x with v_bias := ⟨0, 0⟩, w_bias := 0 } =
      { (m.tick t).bodies x with v_bias := ⟨0, 0⟩, w_bias := 0 } := by
  by_cases hdt : t.dt = 0
  · simp only [Motion.tick, if_pos hdt]
    exact ⟨trivial, fun _ => trivial⟩
  · simp only [Motion.tick, if_neg hdt]
    have A : Alike { bodies := Motion.move m.bodies t.dt t.movers, joints := m.joints, arbs := t.contact }
      { bodies := Motion.move m.bodies t.dt t.movers, joints := m.joints, arbs := t.contact } := ⟨rfl, rfl, fun _ => rfl⟩
    have := Alike.run (alike_program t.arbs t.joints t.dyn t.iterations t.dt m.currDt slop coll t.slop t.collisionBias t.damping t.gravity) A
    exact ⟨this.joints, fun x => congrFun this.bodies x⟩

/-- What is left of an overlap `x` beyond the slop when a step undoes the share `1 - r` of it (nothing is done if `x < 0`). -/
theorem leftover_share (r x : ℝ) (h1 : r ≤ 1) : x - (1 - r) * max 0 x = min x (r * x) := by
  rcases le_total 0 x with h | h
  · rw [max_eq_right h, min_eq_right (by nlinarith)]; ring
  · rw [max_eq_left h, min_eq_left (by nlinarith)]; ring

theorem dot_le_length (u n : Vec ℝ) (hn : n.dot n = 1) : -u.length ≤ u.dot n ∧ u.dot n ≤ u.length := by
  have h := u.length_nonneg
  have e := u.length_sq
  have hs : (u.dot n) ^ 2 ≤ u.length ^ 2 := by
    rw [e]
    simp only [Vec.dot] at hn ⊢
    nlinarith [sq_nonneg (u.x * n.y - u.y * n.x)]
  exact abs_le.1 (abs_le_of_sq_le_sq hs h)

/-- **C58**, the overlap: from one collision phase to the next, the two touching points (carried with their bodies) come apart such that of
the overlap beyond the slop at most the share `collisionBias^dt` is left, minus the way that the velocities move the points apart, up to
half of arm length times the square of the angle by which each body turns. -/
theorem C58_step (m : Motion ℝ) (t t' : Tick ℝ) (i : Nat) (cs : List (Contact ℝ)) (c : Contact ℝ) (p q : Vec ℝ) (hdt : 0 < t.dt) (hdt' : t'.dt = t.dt)
    (hl : t.LastPush m i) (hc : (t.contact i).contacts = cs ++ [c]) (hab : (t.contact i).a ≠ (t.contact i).b) (hn : (t.contact i).n.dot (t.contact i).n = 1)
    (hs : Solvable m.bodies (t.contact i).a (t.contact i).b) (hr : t.collisionBias ^ t.dt ≤ 1) (hm : t.movers.Nodup)
    (ua : UpToDate m.bodies (t.contact i).a) (ub : UpToDate m.bodies (t.contact i).b)
    (ha : t'.Carries (m.tick t).bodies (t.contact i).a) (hb : t'.Carries (m.tick t).bodies (t.contact i).b)
    (hp : grip (m.seen t) (t.contact i).a p = (m.seen t (t.contact i).a).p.add c.r1)
    (hq : grip (m.seen t) (t.contact i).b q = (m.seen t (t.contact i).b).p.add c.r2) :
    let r := t.collisionBias ^ t.dt
    let x := (t.contact i).overlap c (m.seen t) - t.slop
    let x' := -(gripGap ((m.tick t).seen t') (t.contact i).a (t.contact i).b p q).dot (t.contact i).n - t.slop
    x' ≤ min x (r * x) - (t.contact i).partVel c (m.tick t).bodies * t.dt + swing (m.tick t).bodies (t.contact i).a p t.dt +
      swing (m.tick t).bodies (t.contact i).b q t.dt := by
  intro r x x'
  have hpush := C58_push m t i cs c hdt.ne' hl hc hab hn hs
  simp only [x, x', r]
  clear x x' r
  generalize t.contact i = arb at *
  obtain ⟨ρ, hρ, hg⟩ := gap_moves m t t' arb.a arb.b p q hdt.ne' hdt' hm ua ub ha hb
  have fa := tick_frozen m t hdt.ne' arb.a
  have fb := tick_frozen m t hdt.ne' arb.b
  have o1 : anchorOffset (m.seen t arb.a) p = c.r1 := by
    have := (grip_eq (seen_wf hm ua) p).symm.trans hp
    simp only [Vec.add, Vec.mk.injEq] at this
    ext <;> linarith [this.1, this.2]
  have o2 : anchorOffset (m.seen t arb.b) q = c.r2 := by
    have := (grip_eq (seen_wf hm ub) q).symm.trans hq
    simp only [Vec.add, Vec.mk.injEq] at this
    ext <;> linarith [this.1, this.2]
  have b1 : (grip (m.tick t).bodies arb.a p).sub ((m.tick t).bodies arb.a).p = c.r1 := by
    rw [fa.grip, fa.p, hp]; ext <;> simp [Vec.add, Vec.sub]
  have b2 : (grip (m.tick t).bodies arb.b q).sub ((m.tick t).bodies arb.b).p = c.r2 := by
    rw [fb.grip, fb.p, hq]; ext <;> simp [Vec.add, Vec.sub]
  rw [hg, o1, o2]
  have hd := (dot_le_length ρ arb.n hn).1
  have e : -((((gripGap (m.seen t) arb.a arb.b p q).add ((relVel (m.tick t).bodies arb.a arb.b c.r1 c.r2).mult t.dt)).add
      ((biasMove (m.tick t).bodies arb.b q t.dt).sub (biasMove (m.tick t).bodies arb.a p t.dt))).add ρ).dot arb.n - t.slop =
      arb.overlap c (m.seen t) - t.slop - arb.partVel c (m.tick t).bodies * t.dt - arb.pushVel c (m.tick t).bodies * t.dt - ρ.dot arb.n := by
    rw [biasMove, biasMove, b1, b2, gripGap, hp, hq]
    simp only [relVel, Arb.overlap, Arb.partVel, Arb.pushVel, Vec.dot, Vec.add, Vec.sub, Vec.mult]
    ring
  rw [e, ← leftover_share _ _ hr]
  have h2 := mul_le_mul_of_nonneg_right hpush hdt.le
  rw [div_mul_cancel₀ _ hdt.ne'] at h2
  linarith

/-! ### Circles -/

/-- Where a body gets in the next step. -/
theorem carried_pos {t : Tick ℝ} {m : Motion ℝ} {x : Nat} (hc : t.Carries m.bodies x) :
    (m.seen t x).p = (m.bodies x).p.add (((m.bodies x).v.add (m.bodies x).v_bias).mult t.dt) := by
  obtain ⟨hn, hc⟩ := hc
  rw [Motion.seen, move_apply _ _ hn]
  split
  · rfl
  · rename_i h
    obtain ⟨h1, h2, h3, h4⟩ := hc.resolve_left h
    rw [h1, h3]
    ext <;> simp [Vec.add, Vec.mult]

/-- The geometry of the contact of two circles. -/
theorem round_facts {arb : Arb ℝ} {h : Bodies ℝ} {ra rb : ℝ} (R : arb.Round h ra rb) :
    arb.n.dot arb.n = 1 ∧ ((h arb.b).p.sub (h arb.a).p).dot arb.n = (h arb.a).p.distance (h arb.b).p ∧
      ∃ c, arb.contacts = [c] ∧ c.r1 = arb.n.mult ra ∧ c.r2 = arb.n.mult (-rb) := by
  obtain ⟨info, q, c, hco, hq, hn, hcs, h1, h2⟩ := R.found
  have hd : (h arb.a).p.distance (h arb.b).p = Real.sqrt ((h arb.b).p.sub (h arb.a).p).lengthSq := by
    simp only [Vec.distance, Vec.length, Vec.lengthSq, sqrt_real]
    congr 1
    simp only [Vec.dot, Vec.sub]; ring
  obtain ⟨δ, hδ⟩ : ∃ δ, δ = (h arb.b).p.sub (h arb.a).p := ⟨_, rfl⟩
  simp only [Coll.circleToCircle, sqrt_real] at hco
  rw [← hδ] at hco hd ⊢
  by_cases hlt : δ.lengthSq < (ra + rb) * (ra + rb)
  swap
  · rw [if_neg hlt] at hco
    cases hco
    cases hq
  rw [if_pos hlt] at hco
  obtain ⟨n, hnn⟩ : ∃ n : Vec ℝ, n = if Real.sqrt δ.lengthSq ≠ 0 then δ.mult (1 / Real.sqrt δ.lengthSq) else ⟨1, 0⟩ := ⟨_, rfl⟩
  rw [← hnn] at hco
  simp only [Coll.Info.push, List.length_nil, Nat.zero_lt_two, if_true, List.nil_append, Option.some.injEq] at hco
  rw [← hco] at hq hn
  simp only [List.cons.injEq, and_true] at hq
  have hnn' : arb.n = n := hn
  rw [← hq] at h1 h2
  have hls : δ.lengthSq = δ.x * δ.x + δ.y * δ.y := rfl
  have hnl : 0 ≤ δ.lengthSq := by rw [hls]; nlinarith [mul_self_nonneg δ.x, mul_self_nonneg δ.y]
  have hsq := Real.mul_self_sqrt hnl
  refine ⟨?_, ?_, c, hcs, ?_, ?_⟩
  · rw [hnn', hnn]
    split
    · rename_i hne
      simp only [Vec.dot, Vec.mult]
      field_simp
      nlinarith [hsq, hls]
    · simp [Vec.dot]
  · rw [hnn', hnn, hd]
    split
    · rename_i hne
      simp only [Vec.dot, Vec.mult]
      field_simp
      nlinarith [hsq, hls]
    · rename_i he
      push Not at he
      rw [he]
      have h0 : δ.lengthSq = 0 := by rw [← hsq, he]; ring
      have : δ.x = 0 := by rw [hls] at h0; nlinarith [mul_self_nonneg δ.x, mul_self_nonneg δ.y]
      simp [Vec.dot, this]
  · simp only [Vec.add, Vec.mult, Vec.mk.injEq] at h1
    rw [hnn']
    ext
    · simp only [Vec.mult]; linarith [h1.1]
    · simp only [Vec.mult]; linarith [h1.2]
  · simp only [Vec.add, Vec.mult, Vec.mk.injEq] at h2
    rw [hnn']
    ext
    · simp only [Vec.mult]; linarith [h2.1]
    · simp only [Vec.mult]; linarith [h2.2]

/-- **C58**, circles: two circles (on the centres of bodies without joints) that overlap when a step looks overlap, when the next step
looks, at most by the slop plus the share `collisionBias^dt` of what was beyond it, less the way by which they bounce apart — whatever their
friction, spins and speeds, and however hard they were pressed together. -/
theorem C58_circles (m : Motion ℝ) (t t' : Tick ℝ) (i : Nat) (ra rb : ℝ) (hdt : 0 < t.dt) (hdt' : t'.dt = t.dt)
    (hl : t.LastPush m i) (hab : (t.contact i).a ≠ (t.contact i).b) (hR : (t.contact i).Round (m.seen t) ra rb)
    (hs : Solvable m.bodies (t.contact i).a (t.contact i).b) (hr : t.collisionBias ^ t.dt ≤ 1)
    (ja : Immovable (m.bodies (t.contact i).a) ∨ t.Unjoined m (t.contact i).a) (jb : Immovable (m.bodies (t.contact i).b) ∨ t.Unjoined m (t.contact i).b)
    (ha : t'.Carries (m.tick t).bodies (t.contact i).a) (hb : t'.Carries (m.tick t).bodies (t.contact i).b) :
    let r := t.collisionBias ^ t.dt
    let x := roundOverlap (m.seen t) (t.contact i).a (t.contact i).b ra rb - t.slop
    let x' := roundOverlap ((m.tick t).seen t') (t.contact i).a (t.contact i).b ra rb - t.slop
    let v := ((m.seen t (t.contact i).b).v.sub (m.seen t (t.contact i).a).v).dot (t.contact i).n
    x' ≤ min x (r * x) + (t.contact i).e * v * t.dt := by
  intro r x x' v
  obtain ⟨hn, hdn, c, hc, hr1, hr2⟩ := round_facts hR
  have c1 : c.r1.cross (t.contact i).n = 0 := by rw [hr1]; simp only [Vec.cross, Vec.mult]; ring
  have c2 : c.r2.cross (t.contact i).n = 0 := by rw [hr2]; simp only [Vec.cross, Vec.mult]; ring
  have hpush := C58_push m t i [] c hdt.ne' hl hc hab hn hs
  have hpart := part_least m t i [] c hdt.ne' hl hc hab hn hs hR.surface c1 c2 ja jb
  simp only [x, x', r, v]
  have fa := tick_frozen m t hdt.ne' (t.contact i).a
  have fb := tick_frozen m t hdt.ne' (t.contact i).b
  have pa := carried_pos ha
  have pb := carried_pos hb
  clear x x' r v
  generalize t.contact i = arb at *
  rw [fa.p, hdt'] at pa
  rw [fb.p, hdt'] at pb
  have hov : arb.overlap c (m.seen t) = roundOverlap (m.seen t) arb.a arb.b ra rb := by
    rw [roundOverlap, ← hdn, Arb.overlap, hr1, hr2]
    simp only [Vec.dot, Vec.add, Vec.sub, Vec.mult] at hn ⊢
    linear_combination (ra + rb) * hn
  have hpv : ∀ h : Bodies ℝ, arb.partVel c h = ((h arb.b).v.sub (h arb.a).v).dot arb.n := by
    intro h
    rw [Arb.partVel, hr1, hr2]
    simp only [Vec.dot, Vec.add, Vec.sub, Vec.mult, Vec.perp]; ring
  have hbv : ∀ h : Bodies ℝ, arb.pushVel c h = ((h arb.b).v_bias.sub (h arb.a).v_bias).dot arb.n := by
    intro h
    rw [Arb.pushVel, hr1, hr2]
    simp only [Vec.dot, Vec.add, Vec.sub, Vec.mult, Vec.perp]; ring
  rw [hpv, hpv] at hpart
  rw [hbv, hov] at hpush
  have hdist : (((m.tick t).seen t' arb.b).p.sub ((m.tick t).seen t' arb.a).p).dot arb.n ≤ ((m.tick t).seen t' arb.a).p.distance ((m.tick t).seen t' arb.b).p := by
    have h1 := (dot_le_length (((m.tick t).seen t' arb.b).p.sub ((m.tick t).seen t' arb.a).p) arb.n hn).2
    have h2 : ((m.tick t).seen t' arb.a).p.distance ((m.tick t).seen t' arb.b).p = (((m.tick t).seen t' arb.b).p.sub ((m.tick t).seen t' arb.a).p).length := by
      simp only [Vec.distance, Vec.length]
      congr 1
      simp only [Vec.dot, Vec.sub]; ring
    rw [h2]; exact h1
  have e : (((m.tick t).seen t' arb.b).p.sub ((m.tick t).seen t' arb.a).p).dot arb.n = ((m.seen t arb.b).p.sub (m.seen t arb.a).p).dot arb.n +
      (((m.tick t).bodies arb.b).v.sub ((m.tick t).bodies arb.a).v).dot arb.n * t.dt +
      (((m.tick t).bodies arb.b).v_bias.sub ((m.tick t).bodies arb.a).v_bias).dot arb.n * t.dt := by
    rw [pa, pb]
    simp only [Vec.dot, Vec.add, Vec.sub, Vec.mult]; ring
  rw [e, hdn] at hdist
  rw [← leftover_share _ _ hr]
  have h2 := mul_le_mul_of_nonneg_right hpush hdt.le
  rw [div_mul_cancel₀ _ hdt.ne'] at h2
  have h3 := mul_le_mul_of_nonneg_right hpart hdt.le
  simp only [roundOverlap] at h2 ⊢
  linarith

/-- **C58**, many steps: while two circles that do not bounce touch, the overlap beyond the slop decays at least geometrically; it never
grows. -/
theorem C58_settle (ms : Nat → Motion ℝ) (ts : Nat → Tick ℝ) (is : Nat → Nat) (dt slop coll ra rb : ℝ) (a b : Nat)
    (P : Pressed ms ts is dt slop coll ra rb a b) (hdt : 0 < dt) (hab : a ≠ b) (hs : Solvable (ms 0).bodies a b) (h0 : 0 ≤ coll ^ dt) (h1 : coll ^ dt ≤ 1) (n : Nat) :
    roundOverlap ((ms n).seen (ts n)) a b ra rb - slop ≤ (coll ^ dt) ^ n * max 0 (roundOverlap ((ms 0).seen (ts 0)) a b ra rb - slop) := by
  have hsn : ∀ n, Solvable (ms n).bodies a b := by
    intro n
    induction n with
    | zero => exact hs
    | succ n ih =>
      rw [P.step]
      have hd : (ts n).dt ≠ 0 := by rw [(P.kind n).1]; exact hdt.ne'
      have fa := tick_frozen (ms n) (ts n) hd a
      have fb := tick_frozen (ms n) (ts n) hd b
      have s1 := seen_inertia (ms n) (ts n) a
      have s2 := seen_inertia (ms n) (ts n) b
      exact ⟨by rw [fa.m_inv, fb.m_inv, s1.1, s2.1]; exact ih.m, by rw [fa.i_inv, s1.2]; exact ih.ia, by rw [fb.i_inv, s2.2]; exact ih.ib⟩
  induction n with
  | zero => simp
  | succ n ih =>
    obtain ⟨k1, k2, k3⟩ := P.kind n
    obtain ⟨l1, l2, l3⟩ := P.kind (n + 1)
    obtain ⟨pa, pb⟩ := P.pair n
    have hc := fun x hx => P.carried (n + 1) x hx
    rw [P.step] at hc
    have := C58_circles (ms n) (ts n) (ts (n + 1)) (is n) ra rb (by rw [k1]; exact hdt) (by rw [k1, l1]) (P.last n) (by rw [pa, pb]; exact hab) (P.round n)
      (by rw [pa, pb]; exact hsn n) (by rw [k1, k3]; exact h1) (P.free n _ (.inl pa)) (P.free n _ (.inr pb)) (hc _ (.inl pa)) (hc _ (.inr pb))
    simp only [P.inelastic n, zero_mul, add_zero] at this
    rw [pa, pb, k1, k2, k3, ← P.step] at this
    refine this.trans ((min_le_right _ _).trans ?_)
    rw [pow_succ', mul_assoc]
    exact mul_le_mul_of_nonneg_left ih h0

end CP
