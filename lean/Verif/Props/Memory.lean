import Verif.Proofs.SpaceMem4
import Verif.Props.Space

/-! # C24: the memory of the contacts -/

namespace CP
open Sp
variable {F : Type} [GoFloat F]

theorem Sp.Moment.memOk {t : Sp F} (h : Moment t) : MemOk t := by
  cases h with
  | rest h => exact h.memOk
  | mid i n h ok e => exact (mid_ok (fun e he => (ok.pairs e he).count) e h.memOk).1

/-- No index exceeds the capacity: contacts lie within their buffer of 1024, and a buffer never counts more than 1024. -/
theorem C24_capacity {t : Sp F} (h : Moment t) :
    (∀ x p, p ∈ t.places x → p.2 < 1024) ∧ (∀ x, (t.arbs x).count ≤ 2) ∧ ∀ k, k < t.bufBound → (t.bufs k).num ≤ 1024 := by
  refine ⟨?_, h.memOk.inv.cnt, h.memOk.inv.num⟩
  rintro x p ⟨o, e, -, h2⟩
  have h3 := h.memOk.inv.cap x _ _ e
  have h4 := h.memOk.inv.cnt x
  simp only [maxContacts, bufSize] at h3 h4
  omega

/-- The contacts of two different arbiters that were updated within the last three steps never overlap. -/
theorem C24_disjoint {t : Sp F} (h : Moment t) (x y : Nat) (hxy : x ≠ y) (hx : t.age x ≤ 3) (hy : t.age y ≤ 3) :
    Disjoint (t.places x) (t.places y) := by
  refine Set.disjoint_left.2 ?_
  rintro ⟨k, j⟩ ⟨o, e1, a1, b1⟩ ⟨o', e2, a2, b2⟩
  dsimp only at e1 e2 a1 a2 b1 b2
  have := h.memOk.inv.disj x y k o o' hxy e1 e2 hx hy
  omega

/-- The two places handed out for new contacts are within the buffer and hold no contact of any arbiter updated within
the last three steps, among them the arbiter of the pair itself: its old contacts are read while the new ones are
written. -/
theorem C24_handout {t u : Sp F} (h : Moment t) {k o : Nat} (e : t.getArray = some (u, k, o)) :
    o + 2 ≤ 1024 ∧ ∀ x, t.age x ≤ 3 → ∀ p ∈ t.places x, ¬ (p.1 = k ∧ o ≤ p.2 ∧ p.2 < o + 2) := by
  obtain ⟨h1, h2, h3, -, -, h4, h5, -⟩ := getArray_ok h.memOk e
  refine ⟨h5, ?_⟩
  rintro x hx ⟨k', j⟩ ⟨o', e1, a1, b1⟩ ⟨c1, c2, -⟩
  dsimp only at e1 a1 b1 c1 c2
  subst c1
  have hy : u.Young x := by unfold Young; rw [h3, h2]; exact hx
  have := (h1.inv.live x k' o' (by rw [h2]; exact e1) hy).2.2
  rw [h2] at this
  omega

/-- A buffer is reused exactly when one is older than three steps; otherwise a new one is made: the number of buffers
grows only while all are in use. -/
theorem C24_reuse {t : Sp F} (h : Moment t) :
    ∃ k, t.pushFresh.head = some k ∧ (t.pushFresh.bufs k).num = 0 ∧ (t.pushFresh.bufs k).stamp = t.stamp ∧
      ((t.pushFresh.bufBound = t.bufBound ∧ k < t.bufBound ∧ 3 < t.stamp - (t.bufs k).stamp) ∨
       (t.pushFresh.bufBound = t.bufBound + 1 ∧ k = t.bufBound ∧ ∀ j, j < t.bufBound → t.stamp - (t.bufs j).stamp ≤ 3)) := by
  obtain ⟨l, hr⟩ := h.memOk.inv.ring
  obtain ⟨k, l', r', hh, hk, ha, hs, hb, ho, hold, hbb⟩ := pushFresh_spec hr
  refine ⟨k, hh, by rw [hk], by rw [hk], ?_⟩
  rcases hbb with ⟨b1, b2⟩ | hb2
  · exact .inl ⟨b1, b2, hold.resolve_left (by omega)⟩
  · exact .inr hb2

/-- After a step (whose Separate and PostSolve callbacks wake nobody) every arbiter in the cache has been updated
within the last three steps, or belongs to two bodies that are static or asleep. -/
theorem C24_window {s : Sp F} (h : Reach s) {i : StepIn F} (hdt : i.dt ≠ 0) (ok : StepOk s i)
    (q1 : ∀ y, i.sepActs y = []) (q2 : i.lateActs = []) : Fresh (s.after (.step i)) := by
  obtain ⟨L, w⟩ := h.world
  obtain ⟨t, L', e, g, st⟩ := step_good w.good w.unlocked w.host hdt ok
  have : s.after (.step i) = t := by rw [Sp.after]; show (s.step i).getD s = t; rw [e]; rfl
  rw [this]
  exact step_fresh w.good w.unlocked w.host hdt ok q1 q2 e

/-- In a history in which resting bodies are roused by collisions only, this is so after every operation. -/
theorem C24_calm {s : Sp F} (h : Calm s) : Reach s ∧ Fresh s := by
  induction h with
  | new n m type shape con => exact ⟨.new n m type shape con, fun x hx => by simp [newSpace] at hx⟩
  | op o hs _ ha e hr ih =>
    have hm := mems_op o hs e
    exact ⟨.op o ih.1 ha e, ih.2.ages hm.ages hm.stamp hr⟩
  | @step s t i _ ok q1 q2 e ih =>
    refine ⟨.op (.step i) ih.1 ok e, ?_⟩
    by_cases hdt : i.dt = 0
    · unfold step at e
      rw [if_pos hdt] at e
      cases e
      exact ih.2
    · obtain ⟨L, w⟩ := ih.1.world
      exact step_fresh w.good w.unlocked w.host hdt ok q1 q2 e

/-- While nobody sleeps every operation other than a change of type continues such a history. -/
theorem C24_calm_awake {s : Sp F} (h : Calm s) (o : Op F) (hs : o.isStep = false) (ok : o.Allowed s) (ha : s.sleeping = [])
    (ht : ∀ b, s.typ b = .static → o.types s.typ b = .static) : Calm (s.after o) := by
  have hr := (C24_calm h).1
  refine .op o hs h ok (C44_no_panic hr o ok).1 fun b hb => ?_
  rcases hb with hb | hb
  · left
    rw [(C44_effect hr o ok).types]
    exact ht b hb
  · obtain ⟨r, ⟨hr', -⟩, -⟩ := ((C20_components hr).2 b).1 hb
    rw [ha] at hr'
    cases hr'

/-- In such a state the contacts that the collision function reads are intact: the arbiter found in the cache for the
next pair was updated within the last three steps, its contacts overlap with those of no other such arbiter, and not
with the place for the new contacts. -/
theorem C24_read {s m : Sp F} (h : Reach s) (hf : Fresh s) {i : StepIn F} (ok : StepOk s i) (n : Nat) (e : CollideIn)
    (he : i.pairs[n]? = some e) (hm : s.mid i n = some m) (x : Nat) (hx : m.cached.find? (m.samePair e.a e.b) = some x) :
    m.age x ≤ 3 ∧ (∀ y, y ≠ x → m.age y ≤ 3 → Disjoint (m.places x) (m.places y)) ∧
    ∀ u k o, m.getArray = some (u, k, o) → ∀ p ∈ m.places x, ¬ (p.1 = k ∧ o ≤ p.2 ∧ p.2 < o + 2) := by
  have hmo : Moment m := .mid i n h ok hm
  have key : m.age x ≤ 3 := by
    obtain ⟨-, -, hst, ha⟩ := mid_ok (fun e he => (ok.pairs e he).count) hm h.memOk
    have hc : x ∈ m.cached := List.mem_of_find?_eq_some hx
    have hp : m.samePair e.a e.b x = true := List.find?_some hx
    rcases ha x hc with ⟨r1, ⟨r2, r3, r4, r5⟩, r6⟩ | r
    · rcases hf x r1 with f | ⟨f1, f2⟩
      · unfold age at *
        simp only [persistence] at f
        omega
      · exfalso
        obtain ⟨L, w⟩ := h.world
        have fu := w.good.inv.full
        obtain ⟨l1, l2, -⟩ := fu.core.arb.live x (.inl r1)
        have nr : ∀ sh, sh ∈ s.dynamicShapes → ¬ s.resting (s.shapes sh).body := fun sh hsh => by
          have := ((fu.core.shape.memDyn sh).1 hsh).2
          rw [off_reach w] at this
          exact this
        have hp' : s.samePair e.a e.b x = true := by rw [← hp]; simp only [samePair, r4, r5]
        rw [l1] at f1
        rw [l2] at f2
        have hd := (ok.pairs e (List.mem_of_getElem? he)).dyn
        rcases (samePair_iff s e.a e.b x).1 hp' with ⟨e1, e2⟩ | ⟨e1, e2⟩ <;> rw [e1] at f1 <;> rw [e2] at f2
        · exact hd.elim (fun h => nr _ h f1) (fun h => nr _ h f2)
        · exact hd.elim (fun h => nr _ h f2) (fun h => nr _ h f1)
    · unfold age; rw [r]; simp
  exact ⟨key, fun y hy hay => C24_disjoint hmo x y (Ne.symm hy) key hay, fun u k o hg p hp => (C24_handout hmo hg).2 x key p hp⟩

/-! ## A violation

Shapes 1 and 2 touch in the first step and are apart in the second, in which their bodies fall asleep: their arbiter
stays in the cache without being in the contact graph, and no step removes it. In the fifth step the buffer that holds
its contacts is reused for shapes 3 and 4. Then a program wakes the two bodies. -/

/-- A step with the given pairs, in which bodies 1 and 2 do not move. -/
def memStep (l : List CollideIn) : StepIn Rat := { dt := 1, moving := fun b => decide (2 < b), pairs := l }
def memPair (a b : Nat) : CollideIn := { a := a, b := b, count := 1 }

/-- Four bodies with a shape each. -/
def mem0 : Sp Rat :=
  [Op.addBody 1, .addBody 2, .addBody 3, .addBody 4, .addShape 1, .addShape 2, .addShape 3, .addShape 4,
    .setThreshold (.time 2)].foldl Sp.after (newSpace 4 0 (fun _ => .dynamic) (fun i => (i, false)) (fun _ => (0, 0)))
/-- After one to four steps. -/
def mem1 : Sp Rat := mem0.after (.step (memStep [memPair 1 2]))
def mem2 : Sp Rat := mem1.after (.step (memStep []))
def mem3 : Sp Rat := mem2.after (.step (memStep []))
def mem4 : Sp Rat := mem3.after (.step (memStep []))
/-- After the fifth. -/
def mem5 : Sp Rat := mem4.after (.step (memStep [memPair 3 4]))
/-- The bodies are awake. -/
def mem7 : Sp Rat := (mem5.after (.activate 1)).after (.activate 2)

theorem mem0_reach : Reach mem0 := by
  refine (C44_no_panic ?_ (.setThreshold (.time 2)) (show (0 : Rat) < 2 by decide)).2
  refine (C44_no_panic ?_ (.addShape 4) ⟨by rfl, fun _ => by rfl⟩).2
  refine (C44_no_panic ?_ (.addShape 3) ⟨by rfl, fun _ => by rfl⟩).2
  refine (C44_no_panic ?_ (.addShape 2) ⟨by rfl, fun _ => by rfl⟩).2
  refine (C44_no_panic ?_ (.addShape 1) ⟨by rfl, fun _ => by rfl⟩).2
  refine (C44_no_panic ?_ (.addBody 4) ⟨by rfl, by decide⟩).2
  refine (C44_no_panic ?_ (.addBody 3) ⟨by rfl, by decide⟩).2
  refine (C44_no_panic ?_ (.addBody 2) ⟨by rfl, by decide⟩).2
  refine (C44_no_panic ?_ (.addBody 1) ⟨by rfl, by decide⟩).2
  exact .new ..

theorem memStep_nil (s : Sp Rat) : StepOk s (memStep []) := ⟨by simp [memStep], by simp [memStep], by simp [memStep]⟩

theorem memStep_one (s : Sp Rat) (a b : Nat) (h1 : (s.shapes a).inSpace = true) (h2 : (s.shapes b).inSpace = true)
    (h3 : (s.shapes a).body ≠ (s.shapes b).body) (h4 : a ∈ s.dynamicShapes) : StepOk s (memStep [memPair a b]) where
  pos := by simp [memStep]
  once := by simp [memStep]
  pairs := by
    intro e he
    obtain rfl : e = memPair a b := by simpa [memStep] using he
    exact ⟨h1, h2, h3, .inl h4, by simp [memPair, maxContacts], by simp [memPair]⟩

theorem mem1_reach : Reach mem1 :=
  (C44_no_panic mem0_reach (.step (memStep [memPair 1 2]))
    (memStep_one _ _ _ (by decide +kernel) (by decide +kernel) (by decide +kernel) (by decide +kernel))).2
theorem mem2_reach : Reach mem2 := (C44_no_panic mem1_reach (.step (memStep [])) (memStep_nil _)).2
theorem mem3_reach : Reach mem3 := (C44_no_panic mem2_reach (.step (memStep [])) (memStep_nil _)).2
theorem mem4_reach : Reach mem4 := (C44_no_panic mem3_reach (.step (memStep [])) (memStep_nil _)).2

theorem mem5_reach : Reach mem5 :=
  (C44_no_panic mem4_reach (.step (memStep [memPair 3 4]))
    (memStep_one _ _ _ (by decide +kernel) (by decide +kernel) (by decide +kernel) (by decide +kernel))).2

theorem mem7_reach : Reach mem7 :=
  (C44_no_panic (C44_no_panic mem5_reach (.activate 1) trivial).2 (.activate 2) trivial).2

/-- The memory is reused while it can still be read: two arbiters in the cache hold their contacts in the same place,
and a next step in which shapes 1 and 2 touch is allowed, finds the older of the two for them (updated six steps
before), and so compares its new contacts with those of shapes 3 and 4. -/
theorem C24_violated : Reach mem7 ∧ mem7.cached = [0, 1] ∧ mem7.places 0 = {(0, 0)} ∧ mem7.places 1 = {(0, 0)} ∧
    (mem7.arbs 0).a = 1 ∧ (mem7.arbs 0).b = 2 ∧ (mem7.arbs 1).a = 3 ∧ (mem7.arbs 1).b = 4 ∧ mem7.age 1 = 0 ∧ mem7.age 0 = 4 ∧
    StepOk mem7 (memStep [memPair 1 2]) ∧
    ∃ m, mem7.mid (memStep [memPair 1 2]) 0 = some m ∧ m.cached.find? (m.samePair 1 2) = some 0 ∧
      (m.arbs 0).mem = .ring 0 0 ∧ (m.arbs 1).mem = .ring 0 0 := by
  have pl : ∀ x, (mem7.arbs x).mem = .ring 0 0 → (mem7.arbs x).count = 1 → mem7.places x = {(0, 0)} := by
    intro x h1 h2
    ext ⟨k, j⟩
    simp only [places, h1, h2, Set.mem_setOf_eq, Set.mem_singleton_iff, Prod.mk.injEq]
    constructor
    · rintro ⟨o, e, h3, h4⟩
      cases e
      exact ⟨rfl, by omega⟩
    · rintro ⟨rfl, rfl⟩
      exact ⟨0, rfl, le_rfl, by omega⟩
  refine ⟨mem7_reach, by decide +kernel, pl 0 (by decide +kernel) (by decide +kernel), pl 1 (by decide +kernel) (by decide +kernel),
    by decide +kernel, by decide +kernel, by decide +kernel, by decide +kernel, by decide +kernel, by decide +kernel,
    memStep_one _ _ _ (by decide +kernel) (by decide +kernel) (by decide +kernel) (by decide +kernel), ?_⟩
  have h : ((mem7.mid (memStep [memPair 1 2]) 0).map fun m => (m.cached.find? (m.samePair 1 2), (m.arbs 0).mem, (m.arbs 1).mem)) =
      some (some 0, .ring 0 0, .ring 0 0) := by decide +kernel
  obtain ⟨m, e, h⟩ := Option.map_eq_some_iff.1 h
  simp only [Prod.mk.injEq] at h
  exact ⟨m, e, h.1, h.2.1, h.2.2⟩

/-! ## The hypotheses are met -/

/-- A calm history: contact, then a step without. -/
theorem demo2_calm : Calm demo2 := by
  have h0 : Calm demo0 := by
    refine C24_calm_awake ?_ (.setThreshold (.time 2)) rfl (show (0 : Rat) < 2 by decide) (by rfl) fun _ h => h
    refine C24_calm_awake ?_ (.addConstraint 0) rfl ⟨by rfl, by decide, by decide, fun _ => by rfl, fun _ => by rfl⟩ (by rfl) fun _ h => h
    refine C24_calm_awake ?_ (.addShape 2) rfl ⟨by rfl, fun _ => by rfl⟩ (by rfl) fun _ h => h
    refine C24_calm_awake ?_ (.addShape 1) rfl ⟨by rfl, fun _ => by rfl⟩ (by rfl) fun _ h => h
    refine C24_calm_awake ?_ (.addBody 2) rfl ⟨by rfl, by decide⟩ (by rfl) fun _ h => h
    refine C24_calm_awake ?_ (.addBody 1) rfl ⟨by rfl, by decide⟩ (by rfl) fun _ h => h
    exact .new ..
  refine .step quietStep (.step demoStep h0 demoStep_ok (fun _ => rfl) rfl (C44_no_panic demo0_reach (.step demoStep) demoStep_ok).1)
    (quietStep_ok _) (fun _ => rfl) rfl (C44_no_panic demo1_reach (.step quietStep) (quietStep_ok _)).1

example : demo2.cached = [0] ∧ demo2.age 0 = 1 ∧ (demo2.arbs 0).mem = .ring 0 0 ∧ (demo2.arbs 0).count = 2 := by
  refine ⟨by decide +kernel, by decide +kernel, by decide +kernel, by decide +kernel⟩
/-- The next step reads and writes: the old contacts are in buffer 0, the new ones go into buffer 2. -/
example : ((demo2.mid demoStep 0).bind fun m => (m.getArray).map fun p => (m.cached.find? (m.samePair 1 2), m.age 0, p.2)) =
    some (some 0, 2, (2, 0)) := by decide +kernel
/-- In the fifth step the first buffer is reused. -/
example : mem5.bufBound = 4 ∧ mem5.head = some 0 ∧ mem4.head = some 3 := by
  refine ⟨by decide +kernel, by decide +kernel, by decide +kernel⟩

end CP
