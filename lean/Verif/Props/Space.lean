import Verif.Proofs.SpaceReach
import Verif.Proofs.SpaceGravity
import Verif.Spec.Callbacks

/-! # C20, C21, C23, C25, C26, C27, C38, C44: histories of a space

`Reach s`: the state `s` can be reached from `NewSpace` by any sequence of allowed public operations
(Verif/Spec/History.lean). -/

namespace CP
variable {F : Type} [GoFloat F]
open Sp

/-- The state after an operation. -/
def Sp.after (s : Sp F) (o : Op F) : Sp F := (o.run s).getD s

/-- No allowed operation panics, fails an assert or loops forever, in any reachable state, and the result is a
reachable state again. -/
theorem C44_no_panic {s : Sp F} (h : Reach s) (o : Op F) (ok : o.Allowed s) :
    o.run s = some (s.after o) ∧ Reach (s.after o) := by
  obtain ⟨L, w⟩ := h.world
  obtain ⟨t, L', e, -, -⟩ := op_good w o ok
  have : s.after o = t := by rw [Sp.after, e]; rfl
  rw [this]
  exact ⟨e, .op o h ok e⟩

/-- What every operation does to the content of the space: exactly the named object is added or removed, exactly the
named type changes, the constraint lists get the new constraint in front or lose the removed one. -/
theorem C44_effect {s : Sp F} (h : Reach s) (o : Op F) (ok : o.Allowed s) : Effect o s (s.after o) := by
  obtain ⟨L, w⟩ := h.world
  obtain ⟨t, L', e, -, f⟩ := op_good w o ok
  have : s.after o = t := by rw [Sp.after, e]; rfl
  rw [this]
  exact f

/-- Between operations the space is unlocked. -/
theorem C38_unlocked {s : Sp F} (h : Reach s) : s.locked = 0 := by
  obtain ⟨L, w⟩ := h.world; exact w.unlocked

/-! ## C20: the body lists -/

theorem off_reach {L : Nat → List Nat} {s : Sp F} (w : World L s) (b : Nat) : s.off b ↔ s.isSleeping b = true := by
  rw [w.good.inv.full.off_iff, w.good.inv.full.sleep.rouseLock w.unlocked]
  simp [Sp.isSleeping, Option.isSome_iff_ne_none]

/-- Static bodies are in the static list (except the space's own static body, which is in none), awake non-static
bodies in the dynamic list, each once, and nothing else is. -/
theorem C20_lists {s : Sp F} (h : Reach s) :
    s.dynamicBodies.Nodup ∧ s.staticBodies.Nodup ∧ s.sleeping.Nodup ∧
    (∀ b, b ∈ s.dynamicBodies ↔ (s.bodies b).inSpace = true ∧ s.typ b ≠ .static ∧ s.isSleeping b = false) ∧
    (∀ b, b ∈ s.staticBodies ↔ (s.bodies b).inSpace = true ∧ s.typ b = .static ∧ b ≠ s.staticBody) ∧
    (∀ b, s.isSleeping b = true → (s.bodies b).inSpace = true ∧ s.typ b = .dynamic) := by
  obtain ⟨L, w⟩ := h.world
  have f := w.good.inv.full
  refine ⟨f.core.body.dynNodup, f.core.body.statNodup, f.sleep.sleepNodup, fun b => ?_, f.core.body.memStat, fun b hb => ?_⟩
  · rw [f.core.body.memDyn, off_reach w]; simp
  · exact f.core.body.off b ((off_reach w b).2 hb)

/-- A sleeping body is in exactly one sleeping component, once; the components are walked to their end; an awake body
is in none. -/
theorem C20_components {s : Sp F} (h : Reach s) :
    (∀ r ∈ s.sleeping, ∃ l, s.compList r = some l ∧ l.Nodup ∧ ∀ b, b ∈ l ↔ (s.bodies b).root = some r) ∧
    (∀ b, s.isSleeping b = true ↔ ∃! r, r ∈ s.sleeping ∧ (s.bodies b).root = some r) := by
  obtain ⟨L, w⟩ := h.world
  have f := w.good.inv.full
  refine ⟨fun r hr => ?_, fun b => ?_⟩
  · obtain ⟨l, hc, hm⟩ := f.sleep.chain r hr
    refine ⟨l, walk_of_chain hc (nodup_length_le hc.nodup fun b hb => ?_), hc.nodup, hm⟩
    refine f.core.body.bound b (f.root_dynamic ?_).1
    rw [(hm b).1 hb]; simp
  · simp only [Sp.isSleeping]
    constructor
    · intro q
      obtain ⟨r, hr⟩ := Option.isSome_iff_exists.1 q
      refine ⟨r, ⟨f.quiet b r hr, hr⟩, fun r' hr' => ?_⟩
      have := hr'.2; rw [hr] at this; simpa using this.symm
    · rintro ⟨r, ⟨-, hr⟩, -⟩
      rw [hr]; rfl

/-- `EachBody` visits exactly the bodies of the space, each once (the space's own static body is not visited). -/
theorem C20_each_body {s : Sp F} (h : Reach s) : ∃ l, s.eachBody = some l ∧ l.Nodup ∧
    ∀ b, b ∈ l ↔ (s.bodies b).inSpace = true ∧ b ≠ s.staticBody := by
  obtain ⟨h1, h2, h3, h4, h5, h6⟩ := C20_lists h
  obtain ⟨c1, c2⟩ := C20_components h
  obtain ⟨L, w⟩ := h.world
  have hm : ∀ l : List Nat, (∀ r ∈ l, r ∈ s.sleeping) → l.Nodup → ∃ cs, l.mapM s.compList = some cs ∧ cs.flatten.Nodup ∧
      ∀ b, b ∈ cs.flatten ↔ ∃ r ∈ l, (s.bodies b).root = some r := by
    intro l
    induction l with
    | nil => exact fun _ _ => ⟨[], rfl, by simp, by simp⟩
    | cons r l ih =>
      intro hl hn
      obtain ⟨cs, e, n, m⟩ := ih (fun x hx => hl x (by simp [hx])) (List.nodup_cons.1 hn).2
      obtain ⟨c, e', n', m'⟩ := c1 r (hl r (by simp))
      refine ⟨c :: cs, by simp [List.mapM_cons, e, e'], ?_, fun b => ?_⟩
      · rw [List.flatten_cons, List.nodup_append]
        refine ⟨n', n, fun x hx y hy e => ?_⟩
        subst e
        obtain ⟨r', q1, q2⟩ := (m x).1 hy
        rw [(m' x).1 hx] at q2
        obtain rfl : r = r' := by simpa using q2
        exact (List.nodup_cons.1 hn).1 q1
      · rw [List.flatten_cons, List.mem_append, m, m']; simp
  obtain ⟨cs, e, n, m⟩ := hm s.sleeping (fun _ q => q) h3
  refine ⟨s.dynamicBodies ++ s.staticBodies ++ cs.flatten, by simp [eachBody, e], ?_, fun b => ?_⟩
  · rw [List.nodup_append, List.nodup_append]
    refine ⟨⟨h1, h2, fun x hx y hy e => ?_⟩, n, fun x hx y hy e => ?_⟩
    · subst e; exact ((h4 x).1 hx).2.1 ((h5 x).1 hy).2.1
    · subst e
      obtain ⟨r, q1, q2⟩ := (m x).1 hy
      have hs : s.isSleeping x = true := by simp [Sp.isSleeping, q2]
      rcases List.mem_append.1 hx with q | q
      · rw [((h4 x).1 q).2.2] at hs; simp at hs
      · have := (h6 x hs).2; rw [((h5 x).1 q).2.1] at this; simp at this
  · rw [List.mem_append, List.mem_append, h4, h5, m]
    have hsb := w.good.inv.num.sb
    constructor
    · rintro ((q | q) | ⟨r, q1, q2⟩)
      · exact ⟨q.1, fun e => q.2.1 (by rw [e]; exact hsb.2)⟩
      · exact ⟨q.1, q.2.2⟩
      · have := h6 b (by simp [Sp.isSleeping, q2])
        exact ⟨this.1, fun e => by rw [e, hsb.2] at this; simp at this⟩
    · rintro ⟨q1, q2⟩
      by_cases hst : s.typ b = .static
      · exact .inl (.inr ⟨q1, hst, q2⟩)
      · cases hs : s.isSleeping b with
        | false => exact .inl (.inl ⟨q1, hst, rfl⟩)
        | true =>
          obtain ⟨r, hr, -⟩ := (c2 b).1 hs
          exact .inr ⟨r, hr.1, hr.2⟩

/-- Over a history: the bodies `EachBody` visits after an operation are those visited before, plus the one added, minus
the one removed. -/
theorem C20_history {s : Sp F} (h : Reach s) (o : Op F) (ok : o.Allowed s) :
    ∃ l l', s.eachBody = some l ∧ (s.after o).eachBody = some l' ∧ l'.Nodup ∧ ∀ b, b ∈ l' ↔ match o with
      | .addBody c => b ∈ l ∨ b = c
      | .removeBody c => b ∈ l ∧ b ≠ c
      | _ => b ∈ l := by
  obtain ⟨l, e, -, m⟩ := C20_each_body h
  obtain ⟨l', e', n', m'⟩ := C20_each_body (C44_no_panic h o ok).2
  have f := C44_effect h o ok
  obtain ⟨L, w⟩ := h.world
  refine ⟨l, l', e, e', n', fun b => ?_⟩
  rw [m', f.bodyIn, f.staticBody]
  have other : (∀ g, o.bodyIn g = g) → (o.bodyIn (fun b => (s.bodies b).inSpace) b = true ∧ b ≠ s.staticBody ↔ b ∈ l) := by
    intro hg; rw [hg, m]
  cases o with
  | addBody c =>
    simp only [Op.bodyIn, Function.update_apply, m]
    have hc : c ≠ s.staticBody := fun q => by
      have := w.good.inv.num.sb.1; rw [← q, ok.1] at this; simp at this
    by_cases q : b = c
    · subst q; simp [hc]
    · simp [q]
  | removeBody c =>
    simp only [Op.bodyIn, Function.update_apply, m]
    by_cases q : b = c
    · subst q; simp
    · simp [q]
  | _ => exact other fun _ => rfl

/-! ## C21: SetGravity -/

/-- `SetGravity` never fails; of the sleeping components, in the order in which they fell asleep, the second, fourth,
sixth … (not counting the last) stay asleep, all others are woken. -/
theorem C21_exact {s : Sp F} (h : Reach s) : Reach (s.after .setGravity) ∧
    (s.after .setGravity).sleeping = odds s.sleeping.dropLast ∧
    ∀ b, (s.after .setGravity).isSleeping b = true ↔ ∃ r ∈ odds s.sleeping.dropLast, (s.bodies b).root = some r := by
  obtain ⟨L, w⟩ := h.world
  obtain ⟨t, e, w', k, q⟩ := setGravity_exact w
  have : s.after .setGravity = t := by rw [Sp.after]; show (s.setGravity).getD s = t; rw [e]; rfl
  rw [this]
  refine ⟨.op .setGravity h trivial e, q, fun b => ?_⟩
  rw [← q, ← woke_sleeping w w' k b, Sp.isSleeping, Option.isSome_iff_ne_none]

/-- The number of components left asleep by `SetGravity`. -/
theorem C21_count {s : Sp F} (h : Reach s) :
    (s.after .setGravity).sleeping.length = (s.sleeping.length - 1) / 2 := by
  rw [(C21_exact h).2.1, odds_length, List.length_dropLast]

/-- `SetGravity` wakes everything exactly when at most two components sleep. The intended claim (everything is woken,
always) is false: `C21_violated`. -/
theorem C21_all_awake_iff {s : Sp F} (h : Reach s) :
    (∀ b, (s.after .setGravity).isSleeping b = false) ↔ s.sleeping.length ≤ 2 := by
  have hc := C21_count h
  obtain ⟨c1, c2⟩ := C20_components (C21_exact h).1
  constructor
  · intro q
    have : (s.after .setGravity).sleeping = [] := by
      rw [List.eq_nil_iff_forall_not_mem]
      intro r hr
      obtain ⟨L, w⟩ := (C21_exact h).1.world
      have := w.good.inv.full.sleep.self_root hr
      have := q r
      simp [Sp.isSleeping, *] at this
    rw [this] at hc
    simp at hc; omega
  · intro q b
    by_contra hb
    obtain ⟨r, hr, -⟩ := (c2 b).1 (by simpa using hb)
    have : (s.after .setGravity).sleeping = [] := List.eq_nil_of_length_eq_zero (by omega)
    rw [this] at hr
    simp at hr

/-- A step of length 1 in which nothing moves and nothing collides. -/
def quietStep : StepIn Rat := { dt := 1, moving := fun _ => false, pairs := [] }

/-- Three separate bodies that sleep. -/
def threeAsleep : Sp Rat :=
  ((((((newSpace 3 0 (fun _ => .dynamic) (fun _ => (0, false)) (fun _ => (0, 0)) : Sp Rat).after (.addBody 1)).after
    (.addBody 2)).after (.addBody 3)).after (.setThreshold (.time 1))).after (.step quietStep))

theorem quietStep_ok (s : Sp Rat) : (Op.step quietStep).Allowed s :=
  ⟨by simp [quietStep], by simp [quietStep], by simp [quietStep]⟩

theorem threeAsleep_reach : Reach threeAsleep := by
  refine (C44_no_panic ?_ (.step quietStep) (quietStep_ok _)).2
  refine (C44_no_panic ?_ (.setThreshold (.time 1)) ?_).2
  · refine (C44_no_panic ?_ (.addBody 3) ⟨by rfl, by decide⟩).2
    refine (C44_no_panic ?_ (.addBody 2) ⟨by rfl, by decide⟩).2
    refine (C44_no_panic ?_ (.addBody 1) ⟨by rfl, by decide⟩).2
    exact .new ..
  · show (0 : Rat) < 1
    decide

/-- The property fails in a reachable state: three bodies sleep, `SetGravity` leaves the second asleep. -/
theorem C21_violated : Reach threeAsleep ∧ threeAsleep.sleeping = [1, 2, 3] ∧
    (threeAsleep.after .setGravity).sleeping = [2] ∧ (threeAsleep.after .setGravity).isSleeping 2 = true := by
  refine ⟨threeAsleep_reach, by decide +kernel, by decide +kernel, by decide +kernel⟩

/-! ## C23: the protocol of the collision callbacks -/

/-- In every history the callbacks of every pair of shapes follow the protocol: Begin, then PreSolve and PostSolve, then
one Separate, and again; never a second Begin, never an event of a pair that is apart. -/
theorem C23_protocol {s : Sp F} (h : Reach s) (p q : Nat) : proto p q s.trace ≠ none := by
  obtain ⟨L, w⟩ := h.world
  obtain ⟨b, e, -⟩ := w.good.tr.agree p q
  rw [e]; simp

/-- A pair is only reported as touching while both shapes are in the space: removing a shape produces the missing
Separate callbacks. -/
theorem C23_in_space {s : Sp F} (h : Reach s) (p q : Nat) (ht : proto p q s.trace = some true) :
    (s.shapes p).inSpace = true ∧ (s.shapes q).inSpace = true ∧ (s.shapes p).body ≠ (s.shapes q).body := by
  obtain ⟨L, w⟩ := h.world
  obtain ⟨b, e, m⟩ := w.good.tr.agree p q
  rw [ht] at e
  obtain ⟨x, o1, o2, o3, o4⟩ := m.1 (Option.some.inj e).symm
  have a := w.good.inv.full.core.arb
  obtain ⟨l1, l2, l3, l4, l5, -⟩ := a.live x (a.noLeak x o1 o2)
  rw [l1, l2] at l5
  rcases (samePair_iff s p q x).1 o4 with ⟨q1, q2⟩ | ⟨q1, q2⟩
  · rw [q1] at l3 l5; rw [q2] at l4 l5; exact ⟨l3, l4, l5⟩
  · rw [q1] at l3 l5; rw [q2] at l4 l5; exact ⟨l4, l3, l5.symm⟩

/-- The state after a step of non-zero length. -/
theorem stepped {s : Sp F} (h : Reach s) {i : StepIn F} (hdt : i.dt ≠ 0) (ok : StepOk s i) :
    Stepped i s (s.after (.step i)) := by
  obtain ⟨L, w⟩ := h.world
  obtain ⟨t, L', e, g, st⟩ := step_good w.good w.unlocked w.host hdt ok
  have : s.after (.step i) = t := by rw [Sp.after]; show (s.step i).getD s = t; rw [e]; rfl
  rw [this]; exact st

/-- After a step every pair that had contacts in it has seen Begin and no Separate since. -/
theorem C23_touching {s : Sp F} (h : Reach s) {i : StepIn F} (hdt : i.dt ≠ 0) (ok : StepOk s i) (d : CollideIn)
    (hd : d ∈ i.pairs) (hc : d.count ≠ 0) : proto d.a d.b (s.after (.step i)).trace = some true :=
  (stepped h hdt ok).touch d hd hc

/-- After a step a pair without contacts in it is apart (has seen Separate if it ever began), provided that one of its
bodies is neither static nor asleep, before and after, and the callbacks of the second half wake nobody. -/
theorem C23_apart {s : Sp F} (h : Reach s) {i : StepIn F} (hdt : i.dt ≠ 0) (ok : StepOk s i)
    (q1 : ∀ y, i.sepActs y = []) (q2 : i.lateActs = []) (p q : Nat)
    (hs : s.typ (s.shapes p).body ≠ .static) (ha : s.isSleeping (s.shapes p).body = false)
    (hb : (s.after (.step i)).isSleeping (s.shapes p).body = false)
    (hn : ∀ d ∈ i.pairs, d.count ≠ 0 → ¬ ((d.a = p ∧ d.b = q) ∨ (d.a = q ∧ d.b = p))) :
    proto p q (s.after (.step i)).trace = some false := by
  have st := stepped h hdt ok
  have hr := (C44_no_panic h (.step i) ok).2
  have hne := C23_protocol hr p q
  cases e : proto p q (s.after (.step i)).trace with
  | none => exact absurd e hne
  | some b =>
    cases b with
    | false => rfl
    | true =>
      obtain ⟨d, d1, d2, d3⟩ := st.apart q1 q2 p q e ⟨hs, by simpa [Sp.isSleeping] using ha, by simpa [Sp.isSleeping] using hb⟩
      exact absurd d3 (hn d d1 d2)

/-! ## C25: islands -/

/-- A dynamic body of the space that is awake before a step sleeps after it exactly when every body connected to it
through contacts and joints (over dynamic bodies) has been idle for at least `SleepTimeThreshold`. -/
theorem C25_sleep_iff {s : Sp F} (h : Reach s) {i : StepIn F} (hdt : i.dt ≠ 0) (ok : StepOk s i)
    (q1 : ∀ y, i.sepActs y = []) (q2 : i.lateActs = []) (b : Nat) (hb : s.isSleeping b = false) (hd : s.typ b = .dynamic)
    (hi : (s.bodies b).inSpace = true) :
    (s.after (.step i)).isSleeping b = true ↔
      ∀ c, (s.after (.step i)).Connected b c → (((s.after (.step i)).bodies c).idle).lt (s.after (.step i)).threshold = false := by
  rw [← (stepped h hdt ok).sleep q1 q2 b (by simpa [Sp.isSleeping] using hb) hd hi, Sp.isSleeping, Option.isSome_iff_ne_none]

/-- The bodies that fall asleep together with `b` (share its component) are exactly those connected to it. -/
theorem C25_component {s : Sp F} (h : Reach s) {i : StepIn F} (hdt : i.dt ≠ 0) (ok : StepOk s i)
    (q1 : ∀ y, i.sepActs y = []) (q2 : i.lateActs = []) (b r : Nat) (hb : s.isSleeping b = false)
    (hr : ((s.after (.step i)).bodies b).root = some r) (c : Nat) :
    (s.after (.step i)).Connected b c ↔ ((s.after (.step i)).bodies c).root = some r :=
  (stepped h hdt ok).group q1 q2 b r (by simpa [Sp.isSleeping] using hb) hr c

/-- In every reachable state contacts and joints do not lead out of a sleeping component: a body linked to a sleeping
body is static or sleeps in the same component. -/
theorem C25_closed {s : Sp F} (h : Reach s) (b c : Nat) (hb : s.isSleeping b = true) (hl : s.Linked b c) :
    s.typ c = .static ∨ (s.bodies c).root = (s.bodies b).root := by
  obtain ⟨L, w⟩ := h.world
  have hn : (s.bodies b).root ≠ none := by simpa [Sp.isSleeping, Option.isSome_iff_ne_none] using hb
  have cl := w.good.inv.closed
  rcases hl with ⟨l, e, x, hx, q⟩ | ⟨l, e, k, hk, q⟩
  · rw [w.good.inv.full.core.arbList b] at e
    obtain rfl := Option.some.inj e
    have hin := w.good.inv.full.core.thread.inL hx
    rcases q with ⟨rfl, rfl⟩ | ⟨rfl, rfl⟩
    · exact (cl.arb x hin).1 hn
    · exact (cl.arb x hin).2 hn
  · obtain ⟨l', e', -, m⟩ := w.good.inv.full.core.con.conList b
    rw [e'] at e
    obtain rfl := Option.some.inj e
    have hin := ((m k).1 hk).1
    rcases q with ⟨rfl, rfl⟩ | ⟨rfl, rfl⟩
    · exact (cl.con k hin).1 hn
    · exact (cl.con k hin).2 hn

/-! ## C26: constraint lists -/

/-- `Body.EachConstraint` ends and visits exactly the constraints of the space attached to the body, each once. -/
theorem C26_body {s : Sp F} (h : Reach s) (b : Nat) : ∃ l, s.conList b = some l ∧ l.Nodup ∧
    ∀ c, c ∈ l ↔ (s.cons c).inSpace = true ∧ ((s.cons c).a = b ∨ (s.cons c).b = b) := by
  obtain ⟨L, w⟩ := h.world
  exact w.good.inv.full.core.con.conList b

/-- Over a history: an added constraint comes first in the lists of its two bodies, a removed one disappears, every
other operation leaves the lists and their order alone. -/
theorem C26_order {s : Sp F} (h : Reach s) (o : Op F) (ok : o.Allowed s) (b : Nat) (l : List Nat)
    (hl : s.conList b = some l) : (s.after o).conList b = some (match o with
      | .addConstraint c => if (s.cons c).a = b ∨ (s.cons c).b = b then c :: l else l
      | .removeConstraint c => l.erase c
      | _ => l) := by
  rw [(C44_effect h o ok).conOrder b l hl]
  cases o <;> simp [Op.conOrder, joins]

/-- `Space.EachConstraint` visits, each once, exactly the constraints of the space that do not sleep: a constraint is
left out while the body that owns it (its first body, or the second if the first is static) sleeps. -/
theorem C26_space {s : Sp F} (h : Reach s) : s.constraints.Nodup ∧
    ∀ c, c ∈ s.constraints ↔ (s.cons c).inSpace = true ∧ s.isSleeping (s.cons c).a = false ∧ s.isSleeping (s.cons c).b = false := by
  obtain ⟨L, w⟩ := h.world
  have f := w.good.inv.full
  refine ⟨f.core.con.nodup, fun c => ?_⟩
  rw [f.core.con.mem, off_reach w]
  constructor
  · rintro ⟨q1, q2⟩
    refine ⟨q1, ?_⟩
    simp only [conOwner] at q2
    have key : ∀ b, s.typ b = .static → s.isSleeping b = false := fun b hb => by
      by_contra q
      have := f.core.body.off b ((off_reach w b).2 (by simpa using q))
      rw [hb] at this; simp at this
    have cl := w.good.inv.closed.con c q1
    simp only [Bound] at cl
    split_ifs at q2 with hs
    · exact ⟨key _ hs, by simpa using q2⟩
    · refine ⟨by simpa using q2, ?_⟩
      by_contra q
      have h1 : (s.bodies (s.cons c).b).root ≠ none := by simpa [Sp.isSleeping, Option.isSome_iff_ne_none] using q
      rcases cl.2 h1 with e | e
      · exact hs e
      · rw [← e] at h1; simp [Sp.isSleeping, Option.isSome_iff_ne_none, h1] at q2
  · rintro ⟨q1, q2, q3⟩
    refine ⟨q1, ?_⟩
    simp only [conOwner]
    split_ifs <;> simp [q2, q3]

/-! ## C27: arbiter lists -/

/-- `Body.EachArbiter` ends in every reachable state and visits arbiters of the body, each once; an arbiter is in the
lists of both of its bodies or of none; its shapes are in the space. -/
theorem C27_reachable {s : Sp F} (h : Reach s) (b : Nat) : ∃ l, s.arbList b = some l ∧ l.Nodup ∧
    ∀ x ∈ l, (s.shapes (s.arbs x).a).inSpace = true ∧ (s.shapes (s.arbs x).b).inSpace = true ∧
      (s.arbs x).bodyA ≠ (s.arbs x).bodyB ∧ ((s.arbs x).bodyA = b ∨ (s.arbs x).bodyB = b) ∧
      ∀ c l', ((s.arbs x).bodyA = c ∨ (s.arbs x).bodyB = c) → s.arbList c = some l' → x ∈ l' := by
  obtain ⟨L, w⟩ := h.world
  have c := w.good.inv.full.core
  refine ⟨L b, c.arbList b, c.thread.nodup b, fun x hx => ?_⟩
  have hin := c.thread.inL hx
  obtain ⟨l1, l2, l3, l4, l5, -⟩ := c.arb.live x (.inr hin)
  refine ⟨l3, l4, l5, c.thread.ends b x hx, fun d l' hd e => ?_⟩
  rw [c.arbList d] at e
  obtain rfl := Option.some.inj e
  rcases hd with rfl | rfl
  · exact hin
  · exact (c.thread.both x).1 hin

omit [GoFloat F] in
/-- Arbiter lists under any history of threading and unthreading, from a state whose lists are empty: `EachArbiter`
visits exactly the threaded arbiters of the body, each once, newest first. Threading needs two different bodies and an
arbiter that is not threaded; unthreading is always allowed. -/
theorem C27_history {s : Sp F} (h0 : ∀ b, (s.bodies b).arbs = none) (h1 : ∀ x, (s.arbs x).thA = {} ∧ (s.arbs x).thB = {})
    (h2 : ∀ x, (s.arbs x).bodyA ≠ (s.arbs x).bodyB) (os : List ThreadOp) (ok : threadLegal [] os)
    (hb : ∀ x ∈ os.foldl ThreadOp.spec [], x < s.arbBound) (b : Nat) :
    (os.foldl ThreadOp.run s).arbList b = some ((os.foldl ThreadOp.spec []).filter (s.touches b)) := by
  have key : ∀ (os : List ThreadOp) (l : List Nat) (t : Sp F), l.Nodup → threadLegal l os → ThEq s t →
      ThreadInv (fun b => l.filter (s.touches b)) t →
      ThEq s (os.foldl ThreadOp.run t) ∧
      ThreadInv (fun b => (os.foldl ThreadOp.spec l).filter (s.touches b)) (os.foldl ThreadOp.run t) := by
    intro os
    induction os with
    | nil => exact fun l t _ _ e i => ⟨e, i⟩
    | cons o os ih =>
      intro l t hn ok e i
      have hin : ∀ x, InL (fun b => l.filter (s.touches b)) t x ↔ x ∈ l := by
        intro x; simp [InL, touches, e.bodyA, e.bodyB]
      cases o with
      | push x =>
        have hx : x ∉ l := ok.1
        obtain ⟨a1, a2, -⟩ := push_thread i (x := x) (by rw [hin]; exact hx) (by rw [e.bodyA, e.bodyB]; exact h2 x)
        refine ih (x :: l) _ (List.nodup_cons.2 ⟨hx, hn⟩) ok.2 (e.trans a2) ?_
        have e3 : (fun b => (x :: l).filter (s.touches b)) = pushL (fun b => l.filter (s.touches b)) t x := by
          funext c
          simp only [pushL, e.bodyA, e.bodyB, List.filter_cons, touches, Bool.or_eq_true, beq_iff_eq]
        rw [e3]; exact a1
      | unthread x =>
        obtain ⟨a1, a2, -⟩ := unthread_thread i (x := x) (by intro _; rw [e.bodyA, e.bodyB]; exact h2 x)
        refine ih (l.erase x) _ (hn.erase x) ok.2 (e.trans a2) ?_
        have e3 : (fun b => (l.erase x).filter (s.touches b)) = popL (fun b => l.filter (s.touches b)) x := by
          funext c
          simp only [popL]
          rw [hn.erase_eq_filter, (hn.filter _).erase_eq_filter, List.filter_filter, List.filter_filter]
          exact List.filter_congr fun y _ => Bool.and_comm _ _
        rw [e3]; exact a1
  obtain ⟨e, i⟩ := key os [] s List.nodup_nil ok (ThEq.refl s)
    ⟨fun _ => List.nodup_nil, fun b => h0 b, fun _ => trivial, by simp, by simp, fun x _ => h1 x⟩
  refine walk_of_chain (i.chain b) ?_
  refine nodup_length_le (i.nodup b) fun x hx => ?_
  have : (os.foldl ThreadOp.run s).arbBound = s.arbBound := by rw [e.eq]
  rw [this]
  exact hb x (List.mem_filter.1 hx).1

omit [GoFloat F] in
/-- Unthreading an arbiter that is in no list (its thread links are empty and it heads no list) changes nothing. -/
theorem C27_unthread_absent (s : Sp F) (x : Nat) (h1 : (s.arbs x).thA = {}) (h2 : (s.arbs x).thB = {})
    (h3 : ∀ b, (s.bodies b).arbs ≠ some x) : s.unthread x = s := by
  have hu : s.setArb x (fun r => r) = s := by simp [setArb]
  have key : ∀ b, s.thread x b = {} → s.unthreadHelper x b = s := by
    intro b ht
    simp only [unthreadHelper, ht]
    rw [if_neg (h3 b)]
    simp only [setThread, setArb]
    have e : Function.update s.arbs x (if (s.arbs x).bodyA = b then { s.arbs x with thA := ({} : Thread) } else { s.arbs x with thB := {} }) = s.arbs := by
      rw [Function.update_eq_self_iff]
      generalize s.arbs x = r at h1 h2
      cases r
      simp only at h1 h2 ⊢
      subst h1 h2
      split_ifs <;> rfl
    rw [e]
  have k1 := key (s.arbs x).bodyA (by simp [thread, h1])
  have k2 := key (s.arbs x).bodyB (by simp only [thread]; split_ifs <;> simp [h1, h2])
  rw [unthread, k1, k2]

/-! ## C38: locks -/

/-- Any legal nesting of queries, iterations and wake-ups (from inside or outside of them) leaves the space unlocked, in
a reachable state, with the same content; a body sleeps afterwards exactly if it slept before and no body of its
component was woken. By `C20_lists` every woken body is then in the dynamic list, once. -/
theorem C38_balanced {s : Sp F} (h : Reach s) (script : List LockOp) (ok : lockDepth 0 script = some 0) :
    Reach (s.after (.query script)) ∧ (s.after (.query script)).locked = 0 ∧
    (∀ b, (s.after (.query script)).isSleeping b = true ↔
      s.isSleeping b = true ∧ ∀ c, LockOp.act c ∈ script → (s.bodies c).root ≠ (s.bodies b).root) ∧
    (∀ b, s.isSleeping b = true → LockOp.act b ∈ script → b ∈ (s.after (.query script)).dynamicBodies) := by
  have hr := (C44_no_panic h (.query script) ok).2
  have hl := C38_unlocked h
  obtain ⟨L, w⟩ := h.world
  obtain ⟨t, e, g, tl, sc, -⟩ := script_good script w.good (by rw [hl]; exact ok)
  have ht : s.after (.query script) = t := by rw [Sp.after]; show (script.foldlM LockOp.run s).getD s = t; rw [e]; rfl
  rw [ht] at hr ⊢
  refine ⟨hr, tl, fun b => ?_, fun b q1 q2 => ?_⟩
  · simp only [Sp.isSleeping, Option.isSome_iff_ne_none]
    constructor
    · intro q
      exact ⟨fun e => q (sc.awake b e), fun c hc e => q (sc.woken b c hc e.symm)⟩
    · rintro ⟨q1, q2⟩
      rw [sc.asleep b q2]; exact q1
  · rw [(C20_lists hr).2.2.2.1]
    have := (C20_lists h).2.2.2.2.2 b q1
    refine ⟨(sc.keep.inSpace b).trans this.1, by rw [show t.typ b = s.typ b from sc.keep.typ b, this.2]; simp, ?_⟩
    simp [Sp.isSleeping, sc.woken b b q2 rfl]

/-- While the space is locked nothing is moved: as long as one lock is held throughout, the lists of bodies, shapes,
constraints and arbiters stay as they are, and the lock count follows the script. -/
theorem C38_deferred {s : Sp F} (h : Reach s) (script : List LockOp) (d : Nat) (ok : lockDepth 0 script = some d) :
    ∃ t, (LockOp.lock :: script).foldlM LockOp.run s = some t ∧ t.locked = d + 1 ∧ Deferred s t := by
  obtain ⟨L, w⟩ := h.world
  have mono : ∀ (l : List LockOp) (a d : Nat), lockDepth a l = some d → lockDepth (a + 1) l = some (d + 1) := by
    intro l
    induction l with
    | nil => intro a d h; simpa [lockDepth] using h
    | cons o l ih =>
      intro a d h
      cases o with
      | lock => exact ih _ _ h
      | act b => exact ih a d (by cases a <;> simpa [lockDepth] using h)
      | unlock =>
        cases a with
        | zero => simp [lockDepth] at h
        | succ a => exact ih a d h
  have hl : s.lock.locked = 1 := by simp [lock, w.unlocked]
  obtain ⟨t, e, g, tl, -, df⟩ := script_good script (lock_good w.good) (by rw [hl]; exact mono _ _ _ ok)
  refine ⟨t, by rw [List.foldlM_cons]; exact e, tl, ?_⟩
  have q := df (by rw [hl]; simp) (by rw [hl]; simp [ok])
  exact ⟨q.dynamicBodies, q.staticShapes, q.dynamicShapes, q.constraints, q.arbiters, q.cached⟩

/-! ## A concrete history

Two dynamic bodies with a shape each and a joint between them, a sleeping threshold; a step in which the shapes collide
with two contacts, a step in which they do not, and a step that puts both to sleep. -/

/-- The pair of shapes 1 and 2 with two contacts. -/
def demoPair : CollideIn := { a := 1, b := 2, count := 2 }
/-- The step in which they collide. -/
def demoStep : StepIn Rat := { dt := 1, moving := fun _ => true, pairs := [demoPair] }

/-- Bodies, shapes, joint and threshold. -/
def demo0 : Sp Rat :=
  (((((((newSpace 3 1 (fun _ => .dynamic) (fun i => (i, false)) (fun _ => (1, 2)) : Sp Rat).after (.addBody 1)).after
    (.addBody 2)).after (.addShape 1)).after (.addShape 2)).after (.addConstraint 0)).after (.setThreshold (.time 2)))
/-- After the collision. -/
def demo1 : Sp Rat := demo0.after (.step demoStep)
/-- After the separation. -/
def demo2 : Sp Rat := demo1.after (.step quietStep)
/-- Asleep. -/
def demo3 : Sp Rat := demo2.after (.step quietStep)

theorem demo0_reach : Reach demo0 := by
  refine (C44_no_panic ?_ (.setThreshold (.time 2)) (show (0 : Rat) < 2 by decide)).2
  refine (C44_no_panic ?_ (.addConstraint 0) ⟨by rfl, by decide, by decide, fun _ => by rfl, fun _ => by rfl⟩).2
  refine (C44_no_panic ?_ (.addShape 2) ⟨by rfl, fun _ => by rfl⟩).2
  refine (C44_no_panic ?_ (.addShape 1) ⟨by rfl, fun _ => by rfl⟩).2
  refine (C44_no_panic ?_ (.addBody 2) ⟨by rfl, by decide⟩).2
  refine (C44_no_panic ?_ (.addBody 1) ⟨by rfl, by decide⟩).2
  exact .new ..

theorem demoStep_ok : StepOk demo0 demoStep where
  pos := by simp [demoStep]
  once := by simp [demoStep]
  pairs := by
    intro e he
    obtain rfl : e = demoPair := by simpa [demoStep] using he
    exact ⟨by decide +kernel, by decide +kernel, by decide +kernel, .inl (by decide +kernel), by decide, by simp [demoPair]⟩

theorem demo1_reach : Reach demo1 := (C44_no_panic demo0_reach (.step demoStep) demoStep_ok).2
theorem demo2_reach : Reach demo2 := (C44_no_panic demo1_reach (.step quietStep) (quietStep_ok _)).2
theorem demo3_reach : Reach demo3 := (C44_no_panic demo2_reach (.step quietStep) (quietStep_ok _)).2

/-- The callbacks of the history, and the state of the pair. -/
example : demo2.trace = [⟨.begin, 1, 2, 1⟩, ⟨.preSolve, 1, 2, 1⟩, ⟨.postSolve, 1, 2, 1⟩, ⟨.separate, 1, 2, 2⟩] ∧
    proto 1 2 demo1.trace = some true ∧ proto 1 2 demo2.trace = some false := by
  refine ⟨by decide +kernel, by decide +kernel, by decide +kernel⟩
/-- The two bodies sleep in one component; the joint is no longer visited by the space, but by its bodies. -/
example : demo3.sleeping = [1] ∧ (demo3.bodies 2).root = some 1 ∧ demo3.eachBody = some [1, 2] ∧ demo3.constraints = [] ∧
    demo3.conList 1 = some [0] ∧ demo2.sleeping = [] ∧ demo2.constraints = [0] ∧ demo1.arbList 2 = some [0] := by
  refine ⟨by decide +kernel, by decide +kernel, by decide +kernel, by decide +kernel, by decide +kernel, by decide +kernel,
    by decide +kernel, by decide +kernel⟩
/-- A nested query that wakes a body of the component. -/
example : lockDepth 0 [.lock, .lock, .act 2, .unlock, .act 1, .unlock] = some 0 ∧
    (demo3.after (.query [.lock, .lock, .act 2, .unlock, .act 1, .unlock])).dynamicBodies = [1, 2] := by
  refine ⟨by decide +kernel, by decide +kernel⟩
/-- A history of threading. -/
example : threadLegal [] [.push 1, .push 2, .unthread 1, .unthread 5, .push 3] ∧
    [ThreadOp.push 1, .push 2, .unthread 1, .unthread 5, .push 3].foldl ThreadOp.spec [] = [3, 2] := by
  simp [threadLegal, ThreadOp.legal, ThreadOp.spec]

end CP
