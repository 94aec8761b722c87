import Verif.Proofs.SpaceRemove
import Verif.Spec.Lists

/-! # Scripts of locks and wake-ups -/

namespace CP
variable {F : Type}
namespace Sp
variable [GoFloat F]

/-- What a script of locks and wake-ups does. -/
structure Scripted (script : List LockOp) (s t : Sp F) : Prop where
  keep : Keep { s with locked := t.locked } t
  shapes : t.shapes = s.shapes
  trace : t.trace = s.trace
  staticBodies : t.staticBodies = s.staticBodies
  awake : ∀ b, (s.bodies b).root = none → (t.bodies b).root = none
  woken : ∀ b c, LockOp.act c ∈ script → (s.bodies b).root = (s.bodies c).root → (t.bodies b).root = none
  asleep : ∀ b, (∀ c, LockOp.act c ∈ script → (s.bodies c).root ≠ (s.bodies b).root) → (t.bodies b).root = (s.bodies b).root
  arbs : ∀ x, ArbEq (s.arbs x) (t.arbs x)
  held : t.pool = s.pool ∧ t.arbBound = s.arbBound

/-- The lists that are only changed without locks. -/
structure Deferred (s t : Sp F) : Prop where
  dynamicBodies : t.dynamicBodies = s.dynamicBodies
  staticShapes : t.staticShapes = s.staticShapes
  dynamicShapes : t.dynamicShapes = s.dynamicShapes
  constraints : t.constraints = s.constraints
  arbiters : t.arbiters = s.arbiters
  cached : t.cached = s.cached

theorem lockOp_good {L : Nat → List Nat} {s : Sp F} (h : Good L [] s) (o : LockOp) {d : Nat}
    (ok : lockDepth s.locked [o] = some d) :
    ∃ t, o.run s = some t ∧ Good L [] t ∧ t.locked = d ∧ Scripted [o] s t ∧ (s.locked ≠ 0 → d ≠ 0 → Deferred s t) := by
  cases o with
  | lock =>
    refine ⟨s.lock, rfl, lock_good h, by simpa [lockDepth, lock] using ok, ?_, fun _ _ => ⟨rfl, rfl, rfl, rfl, rfl, rfl⟩⟩
    exact ⟨⟨rfl, rfl, fun _ => rfl, fun _ => rfl, fun _ => rfl, fun _ => rfl, fun _ => ⟨rfl, rfl⟩, rfl, rfl, rfl, rfl⟩, rfl, rfl,
      rfl, fun _ => id, fun _ _ hc => by simp at hc, fun _ _ => rfl, fun _ => .refl _, rfl, rfl⟩
  | act b =>
    obtain ⟨t, e, f, w, hr, -⟩ := bodyActivate_spec h.inv.full b
    obtain ⟨t', e', g, -, hb⟩ := bodyActivate_good h b
    rw [e] at e'
    obtain rfl := Option.some.inj e'
    have k := w.keep
    refine ⟨t, e, g, by rw [w.locked]; simpa [lockDepth] using ok, ⟨?_, w.shapes, w.trace, w.staticBodies, fun x hx => ?_,
      fun x c hc hx => ?_, fun x hx => ?_, w.arbs, w.pool, w.arbBound⟩, fun h1 _ => ?_⟩
    · exact ⟨k.nBodies, k.nCons, k.typ, k.infMass, k.inSpace, k.conHead, k.shapeBody, k.cons, k.threshold, k.staticBody, rfl⟩
    · rw [hr, hx]; simp
    · obtain rfl : c = b := by simpa using hc
      rw [hr]
      by_cases hd : s.typ c = .dynamic
      · rw [if_pos ⟨hd, hx⟩]
      · rw [if_neg (fun q => hd q.1), hx]
        by_contra q
        exact hd (h.inv.full.root_dynamic q).2
    · rw [hr, if_neg fun q => hx b (by simp) q.2.symm]
    · have := w.lockedEq h1
      constructor <;> rw [this]
  | unlock =>
    obtain ⟨n, hn⟩ : ∃ n, s.locked = n + 1 := by
      cases hs : s.locked with
      | zero => rw [hs] at ok; simp [lockDepth] at ok
      | succ n => exact ⟨n, rfl⟩
    have hd : n = d := by rw [hn] at ok; simpa [lockDepth] using ok
    subst hd
    by_cases h0 : n = 0
    · subst h0
      obtain ⟨t, e, g, sm, -⟩ := unlock_good h hn
      have k := sm.keep
      refine ⟨t, e, g, sm.locked, ⟨?_, sm.shapes, sm.trace, sm.staticBodies, fun x hx => ?_, fun _ _ hc => by simp at hc, fun x _ => ?_,
        sm.arbs, sm.pool, sm.arbBound⟩,
        fun _ q => absurd rfl q⟩
      · exact ⟨k.nBodies, k.nCons, k.typ, k.infMass, k.inSpace, k.conHead, k.shapeBody, k.cons, k.threshold, k.staticBody, rfl⟩
      · rw [sm.bodies]; exact hx
      · rw [sm.bodies]
    · have e : LockOp.run s .unlock = some { s with locked := n } := by
        show s.unlock = _
        rw [unlock, if_neg (by omega)]
        simp only [hn, Nat.add_sub_cancel]
        rw [if_pos h0]
      have hf := h.inv.full
      have i : Inv L [] { s with locked := n } := by
        refine ⟨⟨?_, ⟨hf.sleep.aIff, hf.sleep.rousedNodup, hf.sleep.rousedRoot, hf.sleep.sleepNodup, hf.sleep.chain, hf.sleep.rootless,
          fun q => absurd q h0⟩, hf.quiet⟩, ⟨h.inv.closed.arb, h.inv.closed.con⟩, ⟨h.inv.num.kin, h.inv.num.pos, h.inv.num.inf, h.inv.num.sb⟩⟩
        have := (lock_inv h.inv).full.core
        exact ⟨⟨hf.core.body.dynNodup, hf.core.body.statNodup, hf.core.body.memDyn, hf.core.body.memStat, hf.core.body.off, hf.core.body.bound⟩,
          ⟨hf.core.shape.listNodup, hf.core.shape.memList, hf.core.shape.statNodup, hf.core.shape.dynNodup, hf.core.shape.memStat, hf.core.shape.memDyn⟩,
          ⟨hf.core.con.ne, hf.core.con.bound, hf.core.con.list, hf.core.con.nodup, hf.core.con.mem⟩,
          ⟨hf.core.thread.nodup, hf.core.thread.head, hf.core.thread.dl, hf.core.thread.ends, hf.core.thread.both, hf.core.thread.out⟩,
          ⟨hf.core.arb.mem, hf.core.arb.nodup, hf.core.arb.restNodup, hf.core.arb.rest, hf.core.arb.cachedIff, hf.core.arb.cachedNodup,
            hf.core.arb.uniq, hf.core.arb.live, hf.core.arb.poolNodup, hf.core.arb.poolBound, hf.core.arb.stamp, hf.core.arb.head, hf.core.arb.noLeak⟩⟩
      refine ⟨_, e, ⟨i, h.tr.congr rfl rfl rfl fun _ => ⟨rfl, rfl, rfl, .rfl⟩, h.valid⟩, rfl, ?_, fun _ _ => ⟨rfl, rfl, rfl, rfl, rfl, rfl⟩⟩
      exact ⟨⟨rfl, rfl, fun _ => rfl, fun _ => rfl, fun _ => rfl, fun _ => rfl, fun _ => ⟨rfl, rfl⟩, rfl, rfl, rfl, rfl⟩, rfl, rfl,
        rfl, fun _ => id, fun _ _ hc => by simp at hc, fun _ _ => rfl, fun _ => .refl _, rfl, rfl⟩

omit [GoFloat F] in
theorem lockDepth_cons (d : Nat) (o : LockOp) (l : List LockOp) : lockDepth d (o :: l) = (lockDepth d [o]).bind (lockDepth · l) := by
  cases o <;> cases d <;> simp [lockDepth]

theorem Scripted.trans {l l' : List LockOp} {s t u : Sp F} (h : Scripted l s t) (k : Scripted l' t u) : Scripted (l ++ l') s u where
  keep := ⟨k.keep.nBodies.trans h.keep.nBodies, k.keep.nCons.trans h.keep.nCons, fun b => (k.keep.typ b).trans (h.keep.typ b),
    fun b => (k.keep.infMass b).trans (h.keep.infMass b), fun b => (k.keep.inSpace b).trans (h.keep.inSpace b),
    fun b => (k.keep.conHead b).trans (h.keep.conHead b),
    fun x => ⟨(k.keep.shapeBody x).1.trans (h.keep.shapeBody x).1, (k.keep.shapeBody x).2.trans (h.keep.shapeBody x).2⟩,
    k.keep.cons.trans h.keep.cons, k.keep.threshold.trans h.keep.threshold, k.keep.staticBody.trans h.keep.staticBody, rfl⟩
  shapes := k.shapes.trans h.shapes
  trace := k.trace.trans h.trace
  staticBodies := k.staticBodies.trans h.staticBodies
  awake b hb := k.awake b (h.awake b hb)
  woken b c hc hr := by
    by_cases h1 : ∃ c', LockOp.act c' ∈ l ∧ (s.bodies b).root = (s.bodies c').root
    · obtain ⟨c', q1, q2⟩ := h1
      exact k.awake b (h.woken b c' q1 q2)
    · push Not at h1
      rcases List.mem_append.1 hc with q | q
      · exact absurd hr (h1 c q)
      · refine k.woken b c q ?_
        rw [h.asleep b fun c' hc' e => h1 c' hc' e.symm, h.asleep c fun c' hc' e => h1 c' hc' (hr.trans e.symm), hr]
  asleep b hb := by
    have e := h.asleep b fun c hc => hb c (List.mem_append_left _ hc)
    by_cases q : (s.bodies b).root = none
    · rw [q]; exact k.awake b (h.awake b q)
    rw [k.asleep b fun c hc => ?_, e]
    rw [e]
    intro e2
    have h2 := hb c (List.mem_append_right _ hc)
    by_cases h3 : ∃ c', LockOp.act c' ∈ l ∧ (s.bodies c).root = (s.bodies c').root
    · obtain ⟨c', q1, q2⟩ := h3
      rw [h.woken c c' q1 q2] at e2
      exact q e2.symm
    · push Not at h3
      rw [h.asleep c fun c' hc' e => h3 c' hc' e.symm] at e2
      exact h2 e2
  arbs x := (h.arbs x).trans (k.arbs x)
  held := ⟨k.held.1.trans h.held.1, k.held.2.trans h.held.2⟩

/-- Every legal script runs, and its effect does not depend on the nesting of the locks. -/
theorem script_good {L : Nat → List Nat} : ∀ (script : List LockOp) {s : Sp F} {d : Nat}, Good L [] s →
    lockDepth s.locked script = some d →
    ∃ t, script.foldlM LockOp.run s = some t ∧ Good L [] t ∧ t.locked = d ∧ Scripted script s t ∧
      (s.locked ≠ 0 → lockDepth (s.locked - 1) script ≠ none → Deferred s t)
  | [], s, d, h, ok => by
    refine ⟨s, rfl, h, by simpa [lockDepth] using ok, ⟨.refl s, rfl, rfl, rfl, fun _ => id, fun _ _ hc => by simp at hc, fun _ _ => rfl, fun _ => .refl _, rfl, rfl⟩,
      fun _ _ => ⟨rfl, rfl, rfl, rfl, rfl, rfl⟩⟩
  | o :: l, s, d, h, ok => by
    rw [lockDepth_cons] at ok
    obtain ⟨d1, ok1, ok2⟩ := Option.bind_eq_some_iff.1 ok
    obtain ⟨u, e, g, hu, sc, df⟩ := lockOp_good h o ok1
    subst hu
    obtain ⟨t, e2, g2, ht, sc2, df2⟩ := script_good l g ok2
    refine ⟨t, by rw [List.foldlM_cons, e]; exact e2, g2, ht, sc.trans sc2, fun h1 h2 => ?_⟩
    rw [lockDepth_cons] at h2
    have h3 : u.locked ≠ 0 ∧ lockDepth (u.locked - 1) l ≠ none := by
      obtain ⟨n, hn⟩ := Nat.exists_eq_succ_of_ne_zero h1
      rw [hn] at h2 ok1
      cases o with
      | lock => simp [lockDepth] at h2 ok1; rw [← ok1]; simpa using h2
      | act b => simp [lockDepth] at h2 ok1; rw [← ok1]; simpa using h2
      | unlock =>
        cases n with
        | zero => simp [lockDepth] at h2
        | succ n => simp [lockDepth] at h2 ok1; rw [← ok1]; simpa using h2
    have q1 := df h1 h3.1
    have q2 := df2 h3.1 h3.2
    exact ⟨q2.dynamicBodies.trans q1.dynamicBodies, q2.staticShapes.trans q1.staticShapes, q2.dynamicShapes.trans q1.dynamicShapes,
      q2.constraints.trans q1.constraints, q2.arbiters.trans q1.arbiters, q2.cached.trans q1.cached⟩

end Sp
end CP
