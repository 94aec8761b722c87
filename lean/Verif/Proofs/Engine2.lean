import Verif.Proofs.Engine

/-! # Proofs: the two halves of a step -/

namespace CP
variable {F : Type} [GoFloat F]
namespace Sp

theorem half_finish (s : Sp F) (i : StepIn F) (hdt : i.dt ≠ 0) : s.step i = (s.half i).bind fun m => m.finish i := by
  simp only [step, half, finish, if_neg hdt, Option.bind_eq_bind, Option.bind_assoc]

/-- The lists of a space between two calls. -/
structure Lists (s : Sp F) : Prop where
  dynNodup : s.dynamicBodies.Nodup
  dyn : ∀ b, b ∈ s.dynamicBodies ↔ (s.bodies b).inSpace = true ∧ s.typ b ≠ .static ∧ (s.bodies b).root = none
  arbNodup : s.arbiters.Nodup
  arb : ∀ x ∈ s.arbiters, (s.bodies (s.arbs x).bodyA).root = none ∧ (s.bodies (s.arbs x).bodyB).root = none
  conNodup : s.constraints.Nodup
  con : ∀ c, c ∈ s.constraints ↔ (s.cons c).inSpace = true ∧ (s.bodies (s.cons c).a).root = none ∧
    (s.bodies (s.cons c).b).root = none

theorem Good.lists {L : Nat → List Nat} {s : Sp F} (h : Good L [] s) (hl : s.locked = 0) : s.Lists := by
  have i := h.inv
  have hdyn : ∀ b, (s.bodies b).root ≠ none → s.typ b = .dynamic := fun b hb =>
    (i.full.core.body.off b ((i.off_iff hl b).2 hb)).2
  refine ⟨i.full.core.body.dynNodup, fun b => ?_, i.full.core.arb.nodup, fun x hx => ?_, i.full.core.con.nodup, fun c => ?_⟩
  · rw [i.full.core.body.memDyn, i.off_iff hl, not_not]
  · have hm := ((i.full.core.arb.mem x).1 hx).resolve_right (by simp)
    obtain ⟨hin, ho⟩ := hm
    rw [i.off_iff hl, not_not] at ho
    obtain ⟨c1, c2⟩ := i.closed.arb x hin
    have hA : (s.bodies (s.arbs x).bodyA).root = none := by
      by_contra hA
      have e : s.owner x = (s.arbs x).bodyA := by simp [owner, hdyn _ hA]
      exact hA (by rw [← e]; exact ho)
    refine ⟨hA, ?_⟩
    by_contra hB
    rcases c2 hB with e | e
    · have e : s.owner x = (s.arbs x).bodyB := by simp [owner, e]
      exact hB (by rw [← e]; exact ho)
    · exact hB (by rw [← e]; exact hA)
  · rw [i.full.core.con.mem, i.off_iff hl, not_not]
    constructor
    · rintro ⟨hin, ho⟩
      obtain ⟨c1, c2⟩ := i.closed.con c hin
      have hA : (s.bodies (s.cons c).a).root = none := by
        by_contra hA
        have e : s.conOwner c = (s.cons c).a := by simp [conOwner, hdyn _ hA]
        exact hA (by rw [← e]; exact ho)
      refine ⟨hin, hA, ?_⟩
      by_contra hB
      rcases c2 hB with e | e
      · have e : s.conOwner c = (s.cons c).b := by simp [conOwner, e]
        exact hB (by rw [← e]; exact ho)
      · exact hB (by rw [← e]; exact hA)
    · rintro ⟨hin, h1, h2⟩
      refine ⟨hin, ?_⟩
      unfold conOwner; split <;> assumption

/-- The state between the halves of a step, and after it. -/
structure Halves (i : StepIn F) (s mid t : Sp F) : Prop where
  half : s.half i = some mid
  finish : mid.finish i = some t
  keepMid : Keep s mid
  keep : Keep s t
  lists : s.Lists
  listsMid : mid.Lists
  root : ∀ b, (t.bodies b).root = (mid.bodies b).root ∨ (t.bodies b).root = none
  quiet : (∀ y, i.sepActs y = []) → i.lateActs = [] → ∀ b, (t.bodies b).root = (mid.bodies b).root
  /-- an arbiter of an awake body was found in this step -/
  found : ∀ x ∈ mid.arbiters, ∀ b, (mid.arbs x).bodyA = b ∨ (mid.arbs x).bodyB = b → s.typ b ≠ .static →
    (s.bodies b).root = none → ∃ d ∈ i.pairs, d.count ≠ 0 ∧
      (((s.shapes d.a).body = (mid.arbs x).bodyA ∧ (s.shapes d.b).body = (mid.arbs x).bodyB) ∨
        ((s.shapes d.a).body = (mid.arbs x).bodyB ∧ (s.shapes d.b).body = (mid.arbs x).bodyA))
  /-- moving bodies do not fall asleep -/
  moving : ∀ b, (s.bodies b).inSpace = true → (s.bodies b).root = none → i.moving b = true → s.typ b = .dynamic → (mid.bodies b).root = none

theorem halves {L : Nat → List Nat} {s : Sp F} (w : World L s) {i : StepIn F} (ok : StepOk s i) :
    ∃ mid t, Halves i s mid t := by
  have h := w.good
  have hl := w.unlocked
  have host := w.host
  obtain ⟨u, L1, eu, hu⟩ := hits_good h hl ok
  have host1 : Hosted u := host.congr hu.keep.typ hu.keep.inSpace hu.shapes hu.keep.cons
  obtain ⟨v, L2, ev, gv, pv, iv, sv, cv⟩ := processComponents_good hu.good (hu.keep.locked.trans hl) hu.head hu.opens host1 hu.offs i.dt i.moving
  have hlu : u.locked = 0 := hu.keep.locked.trans hl
  have hlv : v.locked = 0 := pv.keep.locked.trans hlu
  obtain ⟨t, et, gt, tt⟩ := tail_good gv hlv i.sepActs i.lateActs
  have hty : ∀ b, v.typ b = s.typ b := fun b => (pv.keep.typ b).trans (hu.keep.typ b)
  refine ⟨v, t, ?_, ?_, hu.keep.trans pv.keep, (hu.keep.trans pv.keep).trans tt.keep, h.lists hl, gv.lists hlv, tt.root,
    fun h1 h2 => tt.roots ⟨h1, h2⟩, ?_, ?_⟩
  · simp only [half, Option.bind_eq_bind, Option.bind_eq_some_iff] at eu ⊢
    obtain ⟨w1, e1, w2, e2, e3⟩ := eu
    exact ⟨w1, e1, w2, e2, u, e3, ev⟩
  · exact et
  · intro x hx b hend hb1 hb2
    have hm := ((gv.inv.full.core.arb.mem x).1 hx).resolve_right (by simp)
    obtain ⟨hin, -⟩ := hm
    have hbu : (u.bodies b).root = none := by rw [hu.roots]; exact hb2
    have hendu : (u.arbs x).bodyA = b ∨ (u.arbs x).bodyB = b := by
      rw [← (pv.arbs x).2.2.1, ← (pv.arbs x).2.2.2.1]; exact hend
    have hni : ¬ InL L1 u x := by
      intro hi
      have ho := hu.offs x hi
      rw [hu.good.inv.off_iff hlu] at ho
      obtain ⟨c1, c2⟩ := hu.good.inv.closed.arb x hi
      by_cases hA : u.typ (u.arbs x).bodyA = .static
      · have e : u.owner x = (u.arbs x).bodyB := by simp [owner, hA]
        rw [e] at ho
        rcases hendu with e | e
        · rw [e, hu.keep.typ] at hA; exact hb1 hA
        · rw [e] at ho; exact ho hbu
      · have e : u.owner x = (u.arbs x).bodyA := by simp [owner, hA]
        rw [e] at ho
        rcases hendu with e | e
        · rw [e] at ho; exact ho hbu
        · rcases c1 ho with e' | e'
          · rw [e, hu.keep.typ] at e'; exact hb1 e'
          · rw [e, hbu] at e'; exact ho e'.symm
    have hau : x ∈ u.arbiters := ((pv.inl x).1 hin).resolve_left hni
    have hcu : x ∈ u.cached := (hu.good.inv.full.core.arb.rest x hau).2
    obtain ⟨d, hd, hn, hp⟩ := hu.seen x hcu (hu.good.inv.full.core.arb.stamp x hau)
    refine ⟨d, hd, hn, ?_⟩
    obtain ⟨l1, l2, -⟩ := hu.good.inv.full.core.arb.live x (.inl hcu)
    rw [hu.shapes] at l1 l2
    rw [(pv.arbs x).2.2.1, (pv.arbs x).2.2.2.1, l1, l2]
    rcases (samePair_iff u d.a d.b x).1 hp with ⟨e1, e2⟩ | ⟨e1, e2⟩
    · rw [e1, e2]; exact .inl ⟨rfl, rfl⟩
    · rw [e1, e2]; exact .inr ⟨rfl, rfl⟩
  · intro b h1 h2 h3 h4
    by_contra hne
    have hb := (sv b (by rw [hu.roots]; exact h2) (by rw [hu.keep.typ]; exact h4) (by rw [hu.keep.inSpace]; exact h1)).1 hne b
      Relation.ReflTransGen.refl
    obtain ⟨r, hr⟩ := Option.ne_none_iff_exists'.1 hne
    have hsl : r ∈ v.sleeping := gv.inv.full.quiet b r hr
    cases hth : v.threshold with
    | infinity => rw [gv.inv.num.inf hth] at hsl; simp at hsl
    | time x =>
      have hx := gv.inv.num.pos x hth
      have hon : u.sleepOn = true := by simp [sleepOn, ← pv.keep.threshold, hth]
      have hmem : b ∈ u.dynamicBodies := by
        rw [hu.dynamicBodies, (h.lists hl).dyn]
        exact ⟨h1, by rw [h4]; decide, h2⟩
      have hidle : (v.bodies b).idle = .time 0 := by
        rcases iv b with e | e
        · exact e
        · rw [e, if_pos ⟨hon, by rw [hu.keep.typ]; exact h4, hmem⟩]
          simp only [idleAfter, h3, if_true]
      rw [hidle, hth] at hb
      simp only [Idle.lt, decide_eq_false_iff_not] at hb
      exact hb hx

end Sp

/-! ### The whole step -/

namespace Engine

/-- The joints of both halves have the same ends. -/
def Fits (e : Engine F) : Prop :=
  ∀ c, (e.mo.joints c).con.a = (e.sp.cons c).a ∧ (e.mo.joints c).con.b = (e.sp.cons c).b

open Classical in
theorem step_took {e : Engine F} {L : Nat → List Nat} (w : Sp.World L e.sp) (fit : e.Fits) (i : EngineIn F) (hdt : i.dt ≠ 0)
    (ok : Sp.StepOk e.sp (i.acts e.mo.bodies)) :
    ∃ (e' : Engine F) (mid : Sp F), e.step i = some e' ∧ e'.Fits ∧
      Sp.Halves (i.acts (Motion.move e.mo.bodies i.dt e.sp.dynamicBodies)) e.sp mid e'.sp ∧
      e.sp.step (i.acts (Motion.move e.mo.bodies i.dt e.sp.dynamicBodies)) = some e'.sp ∧
      (∀ b, Rigid (if e.awake b then (e.mo.bodies b).updatePosition i.dt else e.mo.bodies b) (e'.mo.bodies b)) ∧
      (∀ b, (∀ x ∈ mid.arbiters, b ≠ (mid.arbs x).bodyA ∧ b ≠ (mid.arbs x).bodyB) →
        (∀ c ∈ mid.constraints, b ≠ (e.sp.cons c).a ∧ b ≠ (e.sp.cons c).b) →
        e'.mo.bodies b =
          let m := if e.awake b then (e.mo.bodies b).updatePosition i.dt else e.mo.bodies b
          if (e.sp.bodies b).inSpace = true ∧ e.sp.typ b ≠ .static ∧ (mid.bodies b).root = none then
            m.updateVelocity i.gravity (GoFloat.pow i.damping i.dt) i.dt else m) := by
  obtain ⟨mid, t, H⟩ := Sp.halves w (i := i.acts (Motion.move e.mo.bodies i.dt e.sp.dynamicBodies))
    ⟨ok.pos, ok.pairs, ok.once⟩
  have es : e.sp.step (i.acts (Motion.move e.mo.bodies i.dt e.sp.dynamicBodies)) = some t := by
    rw [Sp.half_finish _ _ hdt, H.half]; exact H.finish
  obtain ⟨s0, hs0⟩ : ∃ s0 : Solver F, s0 = { bodies := Motion.move e.mo.bodies i.dt e.sp.dynamicBodies, joints := e.mo.joints, arbs := (i.tick e.sp mid).contact } := ⟨_, rfl⟩
  have en : Ends (fun c => ((e.sp.cons c).a, (e.sp.cons c).b)) (fun x => ((mid.arbs x).bodyA, (mid.arbs x).bodyB)) s0 := by
    rw [hs0]; exact ⟨fit, fun _ => ⟨rfl, rfl⟩⟩
  have hm : ∀ b, s0.bodies b = if e.awake b then (e.mo.bodies b).updatePosition i.dt else e.mo.bodies b := by
    intro b
    rw [hs0]
    show Motion.move _ _ _ b = _
    rw [moved_at _ _ H.lists.dynNodup]
    have : b ∈ e.sp.dynamicBodies ↔ e.awake b := by
      rw [H.lists.dyn]; simp only [awake, asleep, not_not]
    simp only [this]
  obtain ⟨p1, p2, p3⟩ := program_on en mid.arbiters mid.constraints mid.dynamicBodies H.listsMid.dynNodup i.iterations i.dt e.mo.currDt i.slop i.collisionBias i.damping i.gravity
  have etick : e.mo.tick (i.tick e.sp mid) =
      { bodies := (s0.run (Solver.stepProgram mid.arbiters mid.constraints mid.dynamicBodies i.iterations i.dt e.mo.currDt i.slop i.collisionBias i.damping i.gravity)).bodies,
        joints := (s0.run (Solver.stepProgram mid.arbiters mid.constraints mid.dynamicBodies i.iterations i.dt e.mo.currDt i.slop i.collisionBias i.damping i.gravity)).joints,
        currDt := i.dt } := by
    rw [hs0]
    exact if_neg hdt
  refine ⟨⟨t, e.mo.tick (i.tick e.sp mid)⟩, mid, ?_, ?_, H, es, ?_, ?_⟩
  · simp only [step, if_neg hdt, H.half, H.finish, Option.bind_eq_bind, Option.bind_some]
  · intro c
    have := p1.joint c
    rw [etick]
    have hc : t.cons = e.sp.cons := H.keep.cons
    show (_ = (t.cons c).a ∧ _ = (t.cons c).b)
    rw [hc]
    exact this
  · intro b
    rw [etick, ← hm]
    exact p2 b
  · intro b h1 h2
    rw [etick]
    refine (p3 b h1 h2).trans ?_
    rw [hm]
    have : b ∈ mid.dynamicBodies ↔ (e.sp.bodies b).inSpace = true ∧ e.sp.typ b ≠ .static ∧ (mid.bodies b).root = none := by
      rw [H.listsMid.dyn, H.keepMid.inSpace, H.keepMid.typ]
    simp only [this]

end Engine
end CP
