import Verif.Proofs.Engine2
import Verif.Proofs.Motion

/-! # C63: a step moves exactly the awake bodies, sleeping bodies stand still

The theorems are about whole programs (`Engine.Reach`, Spec/Engine.lean): any calls in any order, from `NewSpace`. All but the
last hold for any arithmetic (`GoFloat`), so also for rounded numbers. -/

namespace CP
variable {F : Type} [GoFloat F]
namespace Engine

theorem Reach.good {e : Engine F} (h : e.Reach) : Sp.Reach e.sp ∧ e.Fits := by
  induction h with
  | new n m type shape con mo ends => exact ⟨.new n m type shape con, ends⟩
  | @call e e' c _ ok run ih =>
    obtain ⟨r, fit⟩ := ih
    obtain ⟨L, w⟩ := r.world
    cases c with
    | op o =>
      obtain ⟨t, L', et, wt, eff⟩ := Sp.op_good w o ok.1
      simp only [Engine.call, et, Option.map_some, Option.some.injEq] at run
      subst run
      refine ⟨.op o r ok.1 et, fun c => ?_⟩
      show (_ = (t.cons c).a ∧ _ = (t.cons c).b)
      rw [(eff.ends c).1, (eff.ends c).2]; exact fit c
    | poke b new =>
      obtain ⟨t, L', et, wt, eff⟩ := Sp.op_good w (.activate b) trivial
      simp only [Engine.call, et, Option.map_some, Option.some.injEq] at run
      subst run
      refine ⟨.op (.activate b) r trivial et, fun c => ?_⟩
      show (_ = (t.cons c).a ∧ _ = (t.cons c).b)
      rw [(eff.ends c).1, (eff.ends c).2]; exact fit c
    | tune c j =>
      simp only [Engine.call, Option.some.injEq] at run
      subst run
      refine ⟨r, fun k => ?_⟩
      dsimp only
      split
      · subst_vars; exact ok
      · exact fit k
    | step i =>
      simp only [Engine.call] at run
      by_cases hdt : i.dt = 0
      · simp only [step, if_pos hdt, Option.some.injEq] at run
        subst run; exact ⟨r, fit⟩
      · obtain ⟨e1, mid, h1, h2, h3, h4, -⟩ := step_took w fit i hdt ok
        rw [h1, Option.some.injEq] at run
        subst run
        exact ⟨.op (.step (i.acts (Motion.move e.mo.bodies i.dt e.sp.dynamicBodies))) r ⟨ok.pos, ok.pairs, ok.once⟩ h4, h2⟩

/-- The state between the halves of a step. -/
theorem step_mid {e e' : Engine F} (h : e.Reach) {i : EngineIn F} (hdt : i.dt ≠ 0) (ok : (Call.step i).Allowed e)
    (run : e.call (.step i) = some e') : ∃ mid : Sp F,
      Sp.Halves (i.acts (Motion.move e.mo.bodies i.dt e.sp.dynamicBodies)) e.sp mid e'.sp := by
  obtain ⟨r, fit⟩ := h.good
  obtain ⟨L, w⟩ := r.world
  obtain ⟨e1, mid, h1, h2, h3, -⟩ := step_took w fit i hdt ok
  simp only [Engine.call, h1, Option.some.injEq] at run
  subst run
  exact ⟨mid, h3⟩

theorem awake_iff {e : Engine F} {b : Nat} : e.awake b ↔ (e.sp.bodies b).inSpace = true ∧ e.sp.typ b ≠ .static ∧ (e.sp.bodies b).root = none := by
  simp only [awake, asleep, not_not]

end Engine

open Engine
open Classical

/-- **C63.** No allowed call ever panics: neither the bookkeeping nor a missing body stops a step. -/
theorem C63_no_panic {e : Engine F} (h : e.Reach) (c : Call F) (ok : c.Allowed e) : ∃ e', e.call c = some e' := by
  obtain ⟨r, fit⟩ := h.good
  obtain ⟨L, w⟩ := r.world
  cases c with
  | op o => obtain ⟨t, L', et, -⟩ := Sp.op_good w o ok.1; exact ⟨⟨t, e.mo⟩, by simp only [Engine.call, et, Option.map_some]⟩
  | poke b new => obtain ⟨t, L', et, -⟩ := Sp.op_good w (.activate b) trivial; exact ⟨⟨t, { e.mo with bodies := e.mo.bodies.set b new }⟩, by simp only [Engine.call, et, Option.map_some]⟩
  | tune c j => exact ⟨_, rfl⟩
  | step i =>
    by_cases hdt : i.dt = 0
    · exact ⟨e, by simp only [Engine.call, step, if_pos hdt]⟩
    · obtain ⟨e1, mid, h1, -⟩ := step_took w fit i hdt ok
      exact ⟨e1, h1⟩

/-- **C63.** A step moves a body exactly if it is in the space, not static and not sleeping, and then exactly once, with the
velocity it has before the step; the step changes no other position and no other angle, whatever else it does. -/
theorem C63_positions {e e' : Engine F} (h : e.Reach) {i : EngineIn F} (hdt : i.dt ≠ 0) (ok : (Call.step i).Allowed e)
    (run : e.call (.step i) = some e') (b : Nat) :
    (e'.mo.bodies b).p = (if e.awake b then
      (e.mo.bodies b).p.add (((e.mo.bodies b).v.add (e.mo.bodies b).v_bias).mult i.dt) else (e.mo.bodies b).p) ∧
    (e'.mo.bodies b).a = (if e.awake b then
      (e.mo.bodies b).a + ((e.mo.bodies b).w + (e.mo.bodies b).w_bias) * i.dt else (e.mo.bodies b).a) := by
  obtain ⟨r, fit⟩ := h.good
  obtain ⟨L, w⟩ := r.world
  obtain ⟨e1, mid, h1, h2, h3, h4, h5, h6⟩ := step_took w fit i hdt ok
  simp only [Engine.call, h1, Option.some.injEq] at run
  subst run
  have := h5 b
  unfold Rigid at this
  rw [this]
  by_cases ha : e.awake b
  · rw [if_pos ha, if_pos ha, if_pos ha]; exact ⟨rfl, rfl⟩
  · rw [if_neg ha, if_neg ha, if_neg ha]; exact ⟨rfl, rfl⟩

/-- A body that is asleep at the end of a step was not touched by its solver. -/
theorem asleep_after {e e' : Engine F} (h : e.Reach) {i : EngineIn F} (hdt : i.dt ≠ 0) (ok : (Call.step i).Allowed e)
    (run : e.call (.step i) = some e') {b : Nat} (hb : e'.asleep b) :
    e'.mo.bodies b = if e.awake b then (e.mo.bodies b).updatePosition i.dt else e.mo.bodies b := by
  obtain ⟨r, fit⟩ := h.good
  obtain ⟨L, w⟩ := r.world
  obtain ⟨e1, mid, h1, h2, h3, h4, h5, h6⟩ := step_took w fit i hdt ok
  simp only [Engine.call, h1, Option.some.injEq] at run
  subst run
  have hm : (mid.bodies b).root ≠ none := by
    rcases h3.root b with e | e
    · rw [← e]; exact hb
    · exact absurd e hb
  rw [h6 b ?_ ?_]
  · exact if_neg fun h => hm h.2.2
  · intro x hx
    obtain ⟨r1, r2⟩ := h3.listsMid.arb x hx
    exact ⟨fun e => hm (e ▸ r1), fun e => hm (e ▸ r2)⟩
  · intro c hc
    obtain ⟨-, r1, r2⟩ := (h3.listsMid.con c).1 hc
    rw [h3.keepMid.cons] at r1 r2
    exact ⟨fun e => hm (e ▸ r1), fun e => hm (e ▸ r2)⟩

theorem activate_awake {s t : Sp F} {L : Nat → List Nat} (w : Sp.World L s) {b : Nat} (ht : (Sp.Op.activate b).run s = some t) :
    (t.bodies b).root = none := by
  obtain ⟨t', e, -, -, hr, -⟩ := Sp.bodyActivate_spec w.good.inv.full b
  have : t' = t := by
    rw [show (Sp.Op.activate b).run s = s.bodyActivate b from rfl, e] at ht; exact Option.some.inj ht
  rw [← this, hr]
  split
  · rfl
  · next hn =>
    by_contra hb
    exact hn ⟨(w.good.inv.full.core.body.off b ((w.good.inv.off_iff w.unlocked b).2 hb)).2, rfl⟩

/-- **C63.** Sleeping bodies stand still: no call (no step, no setter of another body, no query, ...) changes any number of a body
that is asleep before the call and after it. -/
theorem C63_asleep {e e' : Engine F} (h : e.Reach) (c : Call F) (ok : c.Allowed e) (run : e.call c = some e') {b : Nat}
    (before : e.asleep b) (after : e'.asleep b) : e'.mo.bodies b = e.mo.bodies b := by
  obtain ⟨r, fit⟩ := h.good
  obtain ⟨L, w⟩ := r.world
  cases c with
  | op o =>
    obtain ⟨t, L', et, -⟩ := Sp.op_good w o ok.1
    simp only [Engine.call, et, Option.map_some, Option.some.injEq] at run
    subst run; rfl
  | poke k new =>
    obtain ⟨t, L', et, wt, eff⟩ := Sp.op_good w (.activate k) trivial
    simp only [Engine.call, et, Option.map_some, Option.some.injEq] at run
    subst run
    have : b ≠ k := by
      rintro rfl
      exact after (activate_awake w et)
    simp only [Bodies.set, if_neg this]
  | tune c j =>
    simp only [Engine.call, Option.some.injEq] at run
    subst run; rfl
  | step i =>
    by_cases hdt : i.dt = 0
    · simp only [Engine.call, step, if_pos hdt, Option.some.injEq] at run
      subst run; rfl
    · rw [asleep_after h hdt ok run after, if_neg fun ha => ha.2.2 before]

/-- **C63.** The same for whole histories: as long as a body sleeps, nothing the program does changes any number of it. -/
theorem C63_history {e : Engine F} (h : e.Reach) {es : List (Engine F)} (run : Runs e es) {b : Nat} (before : e.asleep b)
    (sleeps : ∀ e' ∈ es, e'.asleep b) : ∀ e' ∈ es, e'.mo.bodies b = e.mo.bodies b := by
  induction run with
  | nil e => simp
  | @cons e e1 es c ok run _ ih =>
    have a1 := sleeps e1 List.mem_cons_self
    have s1 := C63_asleep h c ok run before a1
    intro e' he'
    rcases List.mem_cons.1 he' with rfl | he'
    · exact s1
    · rw [ih (.call c h ok run) a1 (fun x hx => sleeps x (List.mem_cons_of_mem _ hx)) e' he', s1]

/-- **C63.** A body that falls asleep in a step is moved once more and keeps its velocity, its force and its torque: the solver and
gravity do not see it any more. -/
theorem C63_falls_asleep {e e' : Engine F} (h : e.Reach) {i : EngineIn F} (hdt : i.dt ≠ 0) (ok : (Call.step i).Allowed e)
    (run : e.call (.step i) = some e') {b : Nat} (before : e.awake b) (after : e'.asleep b) :
    e'.mo.bodies b = (e.mo.bodies b).updatePosition i.dt := by
  rw [asleep_after h hdt ok run after, if_pos before]

/-- **C63.** What a body had when it fell asleep, it has when it is woken, however long it slept: in particular it goes on with
the velocity it had. -/
theorem C63_resumes {e : Engine F} (h : e.Reach) {es : List (Engine F)} (run : Runs e es) {b : Nat} (before : e.asleep b)
    (sleeps : ∀ e' ∈ es, e'.asleep b) {last woken : Engine F} (hl : es.getLast? = some last)
    (wake : last.call (.op (.activate b)) = some woken) :
    ¬ woken.asleep b ∧ woken.mo.bodies b = e.mo.bodies b := by
  have hmem := List.mem_of_getLast? hl
  have hr : ∀ e' ∈ es, e'.Reach := by
    clear before sleeps hl wake hmem
    induction run with
    | nil e => simp
    | @cons e e1 es c ok run _ ih =>
      intro e' he'
      rcases List.mem_cons.1 he' with rfl | he'
      · exact .call c h ok run
      · exact ih (.call c h ok run) e' he'
  obtain ⟨r, fit⟩ := (hr last hmem).good
  obtain ⟨L, w⟩ := r.world
  obtain ⟨t, L', et, -⟩ := Sp.op_good w (.activate b) trivial
  simp only [Engine.call, et, Option.map_some, Option.some.injEq] at wake
  subst wake
  exact ⟨fun h => h (activate_awake w et), C63_history h run before sleeps last hmem⟩

/-- **C63.** A dynamic body that is awake and, after it has been moved, faster than the idle speed (kinetic energy above
`m * IdleSpeedThreshold²`, or `m * (|gravity| * dt)²` if no idle speed is set) does not fall asleep in this step. -/
theorem C63_restless {e e' : Engine F} (h : e.Reach) {i : EngineIn F} (hdt : i.dt ≠ 0) (ok : (Call.step i).Allowed e)
    (run : e.call (.step i) = some e') {b : Nat} (before : e.awake b) (dyn : e.sp.typ b = .dynamic)
    (fast : i.restless ((e.mo.bodies b).updatePosition i.dt) = true) : ¬ e'.asleep b := by
  obtain ⟨mid, H⟩ := step_mid h hdt ok run
  have hm := H.moving b before.1 (awake_iff.1 before).2.2 (by
    show i.restless (Motion.move e.mo.bodies i.dt e.sp.dynamicBodies b) = true
    rw [moved_at _ _ H.lists.dynNodup, if_pos ((H.lists.dyn b).2 (awake_iff.1 before))]
    exact fast) dyn
  unfold asleep
  rw [not_not]
  rcases H.root b with e | e
  · rw [e]; exact hm
  · exact e

/-- **C63.** An awake body that nothing touches in a step (no contact of any of its shapes was found, no constraint is attached to
it) is moved with its velocity and then accelerated by gravity, its forces and the damping, exactly once; if it falls asleep it
is only moved. Nothing else happens to it, whatever happens elsewhere. (The Separate, PostSolve and joint callbacks wake nobody
in this step.) -/
theorem C63_free {e e' : Engine F} (h : e.Reach) {i : EngineIn F} (hdt : i.dt ≠ 0) (ok : (Call.step i).Allowed e)
    (quiet : (∀ y, i.sepActs y = []) ∧ i.lateActs = []) (run : e.call (.step i) = some e') {b : Nat} (before : e.awake b)
    (free : ¬ e.hit i b ∧ ¬ e.joined b) :
    e'.mo.bodies b =
      if e'.asleep b then (e.mo.bodies b).updatePosition i.dt
      else ((e.mo.bodies b).updatePosition i.dt).updateVelocity i.gravity (GoFloat.pow i.damping i.dt) i.dt := by
  obtain ⟨r, fit⟩ := h.good
  obtain ⟨L, w⟩ := r.world
  obtain ⟨e1, mid, h1, h2, h3, h4, h5, h6⟩ := step_took w fit i hdt ok
  simp only [Engine.call, h1, Option.some.injEq] at run
  subst run
  have hq := h3.quiet quiet.1 quiet.2 b
  rw [h6 b ?_ ?_]
  · simp only [if_pos before, asleep, hq, before.1, before.2.1, true_and, ne_eq, not_false_eq_true]
    by_cases hr : (mid.bodies b).root = none <;> simp [hr]
  · intro x hx
    by_contra hc
    rw [not_and_or, not_not, not_not] at hc
    obtain ⟨d, hd, hn, hp⟩ := h3.found x hx b (hc.imp Eq.symm Eq.symm) before.2.1 (awake_iff.1 before).2.2
    refine free.1 ⟨d, hd, hn, ?_⟩
    rcases hc with rfl | rfl <;> rcases hp with ⟨p, q⟩ | ⟨p, q⟩ <;> simp [p, q]
  · intro c hc
    by_contra hcc
    rw [not_and_or, not_not, not_not] at hcc
    have := ((h3.listsMid.con c).1 hc).1
    rw [h3.keepMid.cons] at this
    exact free.2 ⟨c, this, hcc.imp Eq.symm Eq.symm⟩

/-! ### A group of bodies -/

/-- **C63.** A group of awake bodies that in a step meets nobody outside the group (contacts and constraints are within the group or
outside it) moves like one point mass, whatever the contacts and joints inside it do (in exact arithmetic): C50 for the lists the
space really keeps. -/
theorem C63_group {e e' : Engine ℝ} (h : e.Reach) {i : EngineIn ℝ} (hdt : i.dt ≠ 0) (ok : (Call.step i).Allowed e)
    (run : e.call (.step i) = some e') (S : Finset Nat) (M : ℝ) (group : Group S M e.mo)
    (before : ∀ b ∈ S, e.awake b) (after : ∀ b ∈ S, ¬ e'.asleep b) (quiet : (∀ y, i.sepActs y = []) ∧ i.lateActs = [])
    (hits : ∀ d ∈ i.pairs, d.count ≠ 0 → Isolates S (e.sp.shapes d.a).body (e.sp.shapes d.b).body) :
    Group S M e'.mo ∧
    (whole S e'.mo.bodies).moment = (whole S e.mo.bodies).moment.add ((whole S e.mo.bodies).momentum.mult i.dt) ∧
    (whole S e'.mo.bodies).momentum = ((whole S e.mo.bodies).momentum.mult (i.damping ^ i.dt)).add
      (((i.gravity.mult M).add (whole S e.mo.bodies).force).mult i.dt) ∧
    (whole S e'.mo.bodies).force = ⟨0, 0⟩ := by
  obtain ⟨mid, H⟩ := step_mid h hdt ok run
  have em : e'.mo = e.mo.tick (i.tick e.sp mid) := by
    simp only [Engine.call, step, if_neg hdt, H.half, H.finish, Option.bind_eq_bind, Option.bind_some, Option.some.injEq] at run
    rw [← run]
  have iso : (i.tick e.sp mid).Isolated S := by
    refine ⟨H.lists.dynNodup, H.listsMid.dynNodup, fun b hb => (H.lists.dyn b).2 (awake_iff.1 (before b hb)), fun b hb => ?_, fun x hx => ?_⟩
    · refine (H.listsMid.dyn b).2 ⟨?_, ?_, ?_⟩
      · rw [H.keepMid.inSpace]; exact (before b hb).1
      · rw [H.keepMid.typ]; exact (before b hb).2.1
      · rw [← H.quiet quiet.1 quiet.2]; exact not_not.1 (after b hb)
    · show Isolates S (mid.arbs x).bodyA (mid.arbs x).bodyB
      by_cases hc : (mid.arbs x).bodyA ∈ S ∨ (mid.arbs x).bodyB ∈ S
      · obtain ⟨b, hb, hend⟩ : ∃ b ∈ S, (mid.arbs x).bodyA = b ∨ (mid.arbs x).bodyB = b := by
          rcases hc with h | h
          · exact ⟨_, h, .inl rfl⟩
          · exact ⟨_, h, .inr rfl⟩
        obtain ⟨d, hd, hn, hp⟩ := H.found x hx b hend (before b hb).2.1 (awake_iff.1 (before b hb)).2.2
        have := hits d hd hn
        rcases hp with ⟨p, q⟩ | ⟨p, q⟩
        · rw [p, q] at this; exact this
        · rw [p, q] at this; exact this.symm
      · rw [not_or] at hc
        exact ⟨fun h => absurd h hc.1, fun h => absurd h hc.2⟩
  obtain ⟨g, w⟩ := tick_group S M e.mo (i.tick e.sp mid) hdt group iso
  rw [em]
  refine ⟨g, ?_⟩
  rw [w]
  simp only [Whole.act]
  rw [if_neg (show (i.tick e.sp mid).dt ≠ 0 from hdt)]
  exact ⟨rfl, rfl, rfl⟩

/-- The bodies an action of the step program integrates. -/
theorem program_integrates (arbs joints dyn : List Nat) (n : Nat) (dt prev slop cb damping : ℝ) (g : Vec ℝ) :
    ∀ op ∈ Solver.stepProgram arbs joints dyn n dt prev slop cb damping g, ∀ k, op.integrated? = some k → k ∈ dyn := by
  intro op hop k hk
  simp only [Solver.stepProgram, List.mem_append, List.mem_map, List.mem_flatten, List.mem_replicate] at hop
  rcases hop with ((((⟨a, ha, rfl⟩ | ⟨a, ha, rfl⟩) | ⟨a, ha, rfl⟩) | ⟨a, ha, rfl⟩) | ⟨a, ha, rfl⟩) | ⟨l, ⟨-, rfl⟩, hop⟩
  · simp [SolverOp.integrated?] at hk
  · simp [SolverOp.integrated?] at hk
  · simp only [SolverOp.integrated?, Option.some.injEq] at hk; subst hk; exact ha
  · simp [SolverOp.integrated?] at hk
  · simp [SolverOp.integrated?] at hk
  · simp only [List.mem_append, List.mem_map] at hop
    rcases hop with ⟨a, ha, rfl⟩ | ⟨a, ha, rfl⟩ <;> simp [SolverOp.integrated?] at hk

/-- **C63.** No step changes any number of a static body, and of a kinematic body only the position and the angle (and the bias
velocities, which moving uses up): it is moved with its own velocity, whatever it touches, carries or is joined to (exact
arithmetic; both kinds have inverse mass and inverse moment 0). -/
theorem C63_unmoved {e e' : Engine ℝ} (h : e.Reach) {i : EngineIn ℝ} (hdt : i.dt ≠ 0) (ok : (Call.step i).Allowed e)
    (run : e.call (.step i) = some e') {b : Nat} (imm : Immovable (e.mo.bodies b)) :
    (e.sp.typ b = .static → e'.mo.bodies b = e.mo.bodies b) ∧
    (e.sp.typ b = .kinematic → (e.mo.bodies b).type = .kinematic → (e.sp.bodies b).inSpace = true →
      e'.mo.bodies b = (e.mo.bodies b).updatePosition i.dt) := by
  obtain ⟨mid, H⟩ := step_mid h hdt ok run
  have em : e'.mo = e.mo.tick (i.tick e.sp mid) := by
    simp only [Engine.call, step, if_neg hdt, H.half, H.finish, Option.bind_eq_bind, Option.bind_some, Option.some.injEq] at run
    rw [← run]
  have hmv : ∀ k, Motion.move e.mo.bodies i.dt e.sp.dynamicBodies k = if k ∈ e.sp.dynamicBodies then (e.mo.bodies k).updatePosition i.dt else e.mo.bodies k :=
    move_apply _ _ H.lists.dynNodup e.mo.bodies
  have hrun : e'.mo.bodies b = ((⟨Motion.move e.mo.bodies i.dt e.sp.dynamicBodies, e.mo.joints, (i.tick e.sp mid).contact⟩ : Solver ℝ).run
      (Solver.stepProgram mid.arbiters mid.constraints mid.dynamicBodies i.iterations i.dt e.mo.currDt i.slop i.collisionBias i.damping i.gravity)).bodies b := by
    rw [em]
    show (if i.dt = 0 then e.mo else _ : Motion ℝ).bodies b = _
    rw [if_neg hdt]
    rfl
  constructor
  · intro hs
    have hm : Motion.move e.mo.bodies i.dt e.sp.dynamicBodies b = e.mo.bodies b := by
      rw [hmv, if_neg fun hc => ((H.lists.dyn b).1 hc).2.1 hs]
    rw [hrun, C16_immovable _ _ b]
    · exact hm
    · dsimp only; rw [hm]; exact imm
    · intro op hop hk
      have := (H.listsMid.dyn b).1 (program_integrates _ _ _ _ _ _ _ _ _ _ op hop b hk)
      rw [H.keepMid.typ] at this
      exact absurd hs this.2.1
  · intro hs ht hin
    have hroot : (e.sp.bodies b).root = none := by
      by_contra hne
      obtain ⟨r, fit⟩ := h.good
      obtain ⟨L, w⟩ := r.world
      have := (w.good.inv.full.core.body.off b ((w.good.inv.off_iff w.unlocked b).2 hne)).2
      rw [hs] at this; cases this
    have hm : Motion.move e.mo.bodies i.dt e.sp.dynamicBodies b = (e.mo.bodies b).updatePosition i.dt := by
      rw [hmv, if_pos ((H.lists.dyn b).2 ⟨hin, by rw [hs]; decide, hroot⟩)]
    rw [hrun, C16_immovable _ _ b]
    · exact hm
    · dsimp only; rw [hm]; exact imm
    · intro _ _ _
      dsimp only; rw [hm]; exact ht

end CP
