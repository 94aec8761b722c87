import Verif.Props.SimBounce
import Verif.Props.Push

/-! # C65: circles that are pressed together do not sink into each other -/

namespace CP
open Sim GoFloat

theorem overlap_symm (s : Sim ℝ) (a b : Nat) (r r' : ℝ) : s.overlap b a r' r = s.overlap a b r r' := by
  simp only [overlap, distance_symm (s.mo.bodies b).p]
  ring

theorem parting_symm (s : Sim ℝ) (a b : Nat) (v : Nat → Vec ℝ) : s.parting b a v = s.parting a b v := by
  simp only [parting, direction_symm s a b, Vec.dot, Vec.sub, Vec.neg]
  ring

/-- **C65.** What is left of the overlap of two circles that meet: one step after the step in which they met, the overlap beyond the slop is at most the share
`collisionBias^dt` of what it was (and not more than it was, if it was within the slop), plus the way that they come closer because they bounce less than they went apart
(nothing, if they came closer when they met, or one of them is inelastic). Whatever presses them together. -/
theorem C65_step {hash : Obj → Nat} {s s' s'' : Sim ℝ} (h : s.Reach hash) {i i' : SimIn ℝ} (hdt : 0 < i.dt) (same : i'.dt = i.dt)
    (ok : (Sim.Call.step i).Allowed s) (quiet : (∀ y, i.sepActs y = []) ∧ i.lateActs = []) (run : s.call hash (.step i) = some s')
    (ok' : (Sim.Call.step i').Allowed s') (run' : s'.call hash (.step i') = some s'')
    {x y : Nat} {cx cy : Circle ℝ} (E : Encounter s s' i x y cx cy)
    (carried : ∀ b, b = (s.sc.sp.shapes x).body ∨ b = (s.sc.sp.shapes y).body → s'.engine.awake b ∨ s'.motionless b)
    (share : i.collisionBias ^ i.dt ≤ 1) :
    let a := (s.sc.sp.shapes x).body
    let b := (s.sc.sp.shapes y).body
    let before := s'.overlap a b cx.r cy.r - i.slop
    let after := s''.overlap a b cx.r cy.r - i.slop
    after ≤ min before (i.collisionBias ^ i.dt * before) + (s.surf x).e * (s.surf y).e * s'.parting a b s.velocity * i.dt := by
  intro a b before after
  obtain ⟨t, k, c, hmo, -, t1, t2, t3, t5, t6, dy, D, st, p, q, rp, rq, R, hpq, c1, c2, ha, hb, hn, hsv, he, hu⟩ := C64_duel h hdt ok quiet run E
  have h' : s'.Reach hash := .call _ h ok run
  have hdt' : i'.dt ≠ 0 := by rw [same]; exact hdt.ne'
  obtain ⟨t', ht'⟩ : ∃ t' : Tick ℝ, t' = { t with movers := s'.sc.sp.dynamicBodies } := ⟨_, rfl⟩
  obtain ⟨e', x1, -, -, -, -, -, -, -, -, x8, x9, -⟩ := C64_tests h' hdt' ok' run'
  have pos' : ∀ b, (s''.mo.bodies b).p = (s'.mo.seen t' b).p := by
    intro b
    refine (step_centre h'.ok hdt' x1 x8 x9 b).trans ?_
    rw [ht']
    simp only [Motion.seen, t1, same]
  have pos : ∀ b, (s'.mo.bodies b).p = (s.mo.seen t b).p := by
    intro b
    rw [hmo]
    exact (tick_frozen s.mo t (by rw [t1]; exact hdt.ne') b).p
  have lists : s'.sc.sp.Lists := by
    obtain ⟨L, w⟩ := h'.ok.eng.good.1.world
    exact w.good.lists w.unlocked
  have car : ∀ z, z = (s.sc.sp.shapes x).body ∨ z = (s.sc.sp.shapes y).body → t'.Carries (s.mo.tick t).bodies z := by
    intro z hz
    refine ⟨by rw [ht']; exact lists.dynNodup, ?_⟩
    rcases carried z hz with w | w
    · left
      rw [ht']
      exact (lists.dyn z).2 (Engine.awake_iff.1 w)
    · right
      rw [← hmo]
      exact w
  have hl : t.LastPush s.mo k := by
    have hm : k ∈ t.arbs := List.count_pos_iff.1 (by rw [D.once]; exact Nat.one_pos)
    obtain ⟨pre, post, e⟩ := List.append_of_mem hm
    have hco := D.once
    rw [e, List.count_append, List.count_cons_self] at hco
    have h1 : k ∉ pre := List.count_eq_zero.1 (by omega)
    have h2 : k ∉ post := List.count_eq_zero.1 (by omega)
    refine ⟨D.iterations, pre, post, e, h1, h2, fun j hj z hz => (D.lone z hz).imp_right fun l => l.others j ?_ (fun e => h2 (e ▸ hj))⟩
    rw [e]
    exact List.mem_append_right _ (List.mem_cons_of_mem _ hj)
  have key := C58_circles s.mo t t' k rp rq D.pos (by rw [ht']) hl D.ne R ⟨D.solvable.1, D.solvable.2.1, D.solvable.2.2⟩ (by rw [t6, t1]; exact share)
    ((D.lone _ (.inl rfl)).imp_right fun l => l.unjoined) ((D.lone _ (.inr rfl)).imp_right fun l => l.unjoined)
    (by rw [ha]; rcases hpq with ⟨rfl, rfl, -⟩ | ⟨rfl, rfl, -⟩; exacts [car _ (.inl rfl), car _ (.inr rfl)])
    (by rw [hb]; rcases hpq with ⟨rfl, rfl, -⟩ | ⟨rfl, rfl, -⟩; exacts [car _ (.inr rfl), car _ (.inl rfl)])
  dsimp only at key
  rw [← hmo, ha, hb, hn, he, t1, t5, t6] at key
  have o1 : roundOverlap (s.mo.seen t) (s.sc.sp.shapes p).body (s.sc.sp.shapes q).body rp rq = s'.overlap (s.sc.sp.shapes p).body (s.sc.sp.shapes q).body rp rq := by
    simp only [roundOverlap, overlap, pos]
  have o2 : roundOverlap (s'.mo.seen t') (s.sc.sp.shapes p).body (s.sc.sp.shapes q).body rp rq = s''.overlap (s.sc.sp.shapes p).body (s.sc.sp.shapes q).body rp rq := by
    simp only [roundOverlap, overlap, pos']
  have o3 : ((s.mo.seen t (s.sc.sp.shapes q).body).v.sub (s.mo.seen t (s.sc.sp.shapes p).body).v).dot (s'.direction (s.sc.sp.shapes p).body (s.sc.sp.shapes q).body) =
      s'.parting (s.sc.sp.shapes p).body (s.sc.sp.shapes q).body s.velocity := by
    rw [(seen_v s.mo t _).1, (seen_v s.mo t _).1]; rfl
  rw [o1, o2, o3] at key
  rcases hpq with ⟨rfl, rfl, rfl, rfl⟩ | ⟨rfl, rfl, rfl, rfl⟩
  · exact key
  · rw [overlap_symm s', overlap_symm s'', parting_symm] at key
    have e : a = (s.sc.sp.shapes q).body := rfl
    exact key

/-- **C65.** Two circles that came closer when they met, or one of which is inelastic, are one step later not closer than when they met. -/
theorem C65_no_sinking {hash : Obj → Nat} {s s' s'' : Sim ℝ} (h : s.Reach hash) {i i' : SimIn ℝ} (hdt : 0 < i.dt) (same : i'.dt = i.dt)
    (ok : (Sim.Call.step i).Allowed s) (quiet : (∀ y, i.sepActs y = []) ∧ i.lateActs = []) (run : s.call hash (.step i) = some s')
    (ok' : (Sim.Call.step i').Allowed s') (run' : s'.call hash (.step i') = some s'')
    {x y : Nat} {cx cy : Circle ℝ} (E : Encounter s s' i x y cx cy)
    (carried : ∀ b, b = (s.sc.sp.shapes x).body ∨ b = (s.sc.sp.shapes y).body → s'.engine.awake b ∨ s'.motionless b)
    (share : i.collisionBias ^ i.dt ≤ 1)
    (closing : (s.surf x).e * (s.surf y).e * s'.parting (s.sc.sp.shapes x).body (s.sc.sp.shapes y).body s.velocity ≤ 0) :
    (s'.mo.bodies (s.sc.sp.shapes x).body).p.distance (s'.mo.bodies (s.sc.sp.shapes y).body).p ≤
      (s''.mo.bodies (s.sc.sp.shapes x).body).p.distance (s''.mo.bodies (s.sc.sp.shapes y).body).p := by
  have := C65_step h hdt same ok quiet run ok' run' E carried share
  dsimp only at this
  have h1 := min_le_left (s'.overlap (s.sc.sp.shapes x).body (s.sc.sp.shapes y).body cx.r cy.r - i.slop)
    (i.collisionBias ^ i.dt * (s'.overlap (s.sc.sp.shapes x).body (s.sc.sp.shapes y).body cx.r cy.r - i.slop))
  have h2 := mul_nonpos_of_nonpos_of_nonneg closing hdt.le
  simp only [overlap] at this h1
  linarith

theorem Sim.Pressing.reach {N : Nat} {hash : Obj → Nat} {ss : Nat → Sim ℝ} {is : Nat → SimIn ℝ} {dt slop bias : ℝ} {x y a b : Nat} {ra rb : ℝ}
    (P : Pressing N hash ss is dt slop bias x y a b ra rb) (n : Nat) (hn : n ≤ N) : (ss n).Reach hash := by
  induction n with
  | zero => exact P.start
  | succ n ih => exact .call _ (ih (by omega)) (P.allowed n (by omega)) (P.run n (by omega))

/-- **C65.** However long two circles, one of them inelastic, are pressed together, they are never closer than when they met, and the overlap beyond the slop decays
at least geometrically. -/
theorem C65_settle {N : Nat} {hash : Obj → Nat} {ss : Nat → Sim ℝ} {is : Nat → SimIn ℝ} {dt slop bias : ℝ} {x y a b : Nat} {ra rb : ℝ}
    (P : Pressing N hash ss is dt slop bias x y a b ra rb) (hdt : 0 < dt) (hb : 0 ≤ bias ^ dt ∧ bias ^ dt ≤ 1)
    (inelastic : ∀ n < N, ((ss n).surf x).e * ((ss n).surf y).e = 0) (n : Nat) (hn : n ≤ N) :
    (ss (n + 1)).overlap a b ra rb ≤ (ss 1).overlap a b ra rb ∧
    (ss (n + 1)).overlap a b ra rb - slop ≤ (bias ^ dt) ^ n * max 0 ((ss 1).overlap a b ra rb - slop) := by
  induction n with
  | zero => simp
  | succ n ih =>
    have ih := ih (by omega)
    have hl : n < N := by omega
    obtain ⟨cx, cy, E, rfl, rfl⟩ := P.meet n hl
    obtain ⟨k1, k2, k3⟩ := P.kind n hl.le
    obtain ⟨b1, b2⟩ := P.bodies n hl
    have := C65_step (P.reach n hl.le) (by rw [k1]; exact hdt) (by rw [k1, (P.kind (n + 1) hn).1]) (P.allowed n hl.le) (P.quiet n hl) (P.run n hl.le)
      (P.allowed (n + 1) hn) (P.run (n + 1) hn) E (by rw [b1, b2]; exact P.carried n hl) (by rw [k1, k3]; exact hb.2)
    dsimp only at this
    rw [inelastic n hl, b1, b2, k1, k2, k3, zero_mul, zero_mul, add_zero] at this
    constructor
    · have := this.trans (min_le_left _ _)
      linarith [ih.1]
    · refine (this.trans (min_le_right _ _)).trans ?_
      rw [pow_succ', mul_assoc]
      exact mul_le_mul_of_nonneg_left ih.2 hb.1

end CP
