import Verif.Proofs.SpaceDirect
import Verif.Proofs.SpacePass

/-! # What `ProcessComponents` wakes -/

namespace CP
variable {F : Type}
namespace Sp

/-- A contact in the lists joins the two bodies. -/
def Near (L : Nat → List Nat) (s : Sp F) (p y : Nat) : Prop := ∃ z, InL L s z ∧
  (((s.arbs z).bodyA = p ∧ (s.arbs z).bodyB = y) ∨ ((s.arbs z).bodyA = y ∧ (s.arbs z).bodyB = p))

/-- Body `p` is activated because of an arbiter of the list. -/
def PushedBy (l : List Nat) (s : Sp F) (p : Nat) : Prop := s.typ p = .dynamic ∧ ∃ x ∈ l,
  ((s.arbs x).bodyA = p ∧ (s.typ (s.arbs x).bodyB = .kinematic ∨ (s.bodies p).root ≠ none)) ∨
  ((s.arbs x).bodyB = p ∧ (s.typ (s.arbs x).bodyA = .kinematic ∨ (s.bodies p).root ≠ none))

/-- Body `p` is activated because of a constraint. -/
def PulledBy (s : Sp F) (p : Nat) : Prop := s.typ p = .dynamic ∧ ∃ c, (s.cons c).inSpace = true ∧
  (((s.cons c).a = p ∧ s.typ (s.cons c).b = .kinematic) ∨ ((s.cons c).b = p ∧ s.typ (s.cons c).a = .kinematic))

variable [GoFloat F]

theorem near_iff {L : Nat → List Nat} {rest : List Nat} {s : Sp F} (h : Full L rest s) (p y : Nat) :
    s.Touching p y ↔ Near L s p y := by
  unfold Touching Near
  constructor
  · rintro ⟨l, e, x, hx, q⟩
    rw [h.core.arbList p] at e
    obtain rfl := Option.some.inj e
    exact ⟨x, h.core.thread.inL hx, q⟩
  · rintro ⟨x, hx, q⟩
    refine ⟨_, h.core.arbList p, x, ?_, q⟩
    rcases q with ⟨q1, q2⟩ | ⟨q1, q2⟩
    · rw [← q1]; exact hx
    · rw [← q2]; exact (h.core.thread.both x).1 hx

theorem Proc.near {L L' : Nat → List Nat} {A : Nat → Prop} {s t : Sp F} (h : Proc L L' A s t) {p y : Nat} (k : Near L s p y) :
    Near L' t p y := by
  obtain ⟨z, hz, q⟩ := k
  exact ⟨z, (h.inl z).2 (.inl hz), by rw [(h.arbs z).2.2.1, (h.arbs z).2.2.2.1]; exact q⟩

/-- One conditional wake-up. -/
theorem wake_if {L : Nat → List Nat} {rest : List Nat} {s t : Sp F} (h : Inv L rest s) {p : Nat} {c : Prop} [Decidable c]
    (e : (if c then s.bodyActivate p else some s) = some t) :
    Inv L rest t ∧ Woke s t ∧
      (∀ y, (s.bodies y).root ≠ none → (s.bodies y).root ≠ (s.bodies p).root → (t.bodies y).root = (s.bodies y).root) ∧
      (∀ y, (s.bodies y).root ≠ none → (t.bodies y).root = none → (t.bodies y).idle = .time 0) ∧
      (∀ y, (t.bodies y).idle = (s.bodies y).idle ∨ ((s.bodies y).root ≠ none ∧ (t.bodies y).root = none) ∨
        (c ∧ s.typ p = .dynamic ∧ (y = p ∨ Near L s p y))) := by
  split_ifs at e with hc
  · obtain ⟨t', e', i, w, -, -⟩ := bodyActivate_inv h p
    rw [e] at e'; cases e'
    have k := bodyActivate_stirred h.full e
    refine ⟨i, w, fun y h1 h2 => k.asleep y (by rintro c rfl _; exact h2), fun y h1 h2 => ?_, fun y => ?_⟩
    · by_cases hd : s.typ p = .dynamic ∧ (s.bodies y).root = (s.bodies p).root
      · exact k.restart y p rfl hd.1 (.inr (.inl ⟨by rw [← hd.2]; exact h1, hd.2⟩))
      · rw [k.asleep y (by rintro c rfl q1 q2; exact hd ⟨q1, q2⟩)] at h2
        exact absurd h2 h1
    · by_cases hq : s.typ p = .dynamic ∧ s.Restarts p y
      · obtain ⟨q1, q2 | ⟨q2, q3⟩ | ⟨q2, q3⟩⟩ := hq
        · exact .inr (.inr ⟨hc, q1, .inl q2⟩)
        · exact .inr (.inl ⟨by rw [q3]; exact q2, k.awake y p rfl q1 q3⟩)
        · exact .inr (.inr ⟨hc, q1, .inr ((near_iff h.full p y).1 q2)⟩)
      · exact .inl (k.idle y (by rintro c rfl q1 q2; exact hq ⟨q1, q2⟩))
  · cases e
    exact ⟨h, .refl s, fun _ _ _ => rfl, fun y h1 h2 => absurd h2 h1, fun y => .inl rfl⟩

/-- What one part of the process wakes; `D` are the bodies activated. -/
structure Wakes (L' : Nat → List Nat) (D : Nat → Prop) (s t : Sp F) : Prop where
  asleep : ∀ y, (s.bodies y).root ≠ none → (∀ p, D p → (s.bodies y).root ≠ (s.bodies p).root) → (t.bodies y).root = (s.bodies y).root
  fresh : ∀ y, (s.bodies y).root ≠ none → (t.bodies y).root = none → (t.bodies y).idle = .time 0
  idle : ∀ y, (t.bodies y).idle = (s.bodies y).idle ∨ ((s.bodies y).root ≠ none ∧ (t.bodies y).root = none) ∨
    ∃ p, D p ∧ (y = p ∨ Near L' t p y)

theorem Wakes.trans {L L' L'' : Nat → List Nat} {A B D D' E : Nat → Prop} {s t u : Sp F} (h : Wakes L' D s t) (k : Wakes L'' D' t u)
    (p1 : Proc L L' A s t) (p2 : Proc L' L'' B t u) (hD : ∀ p, D p → E p) (hD' : ∀ p, D' p → E p) : Wakes L'' E s u where
  asleep y h1 h2 := by
    have e := h.asleep y h1 (fun p hp => h2 p (hD p hp))
    rw [← e]
    refine k.asleep y (by rw [e]; exact h1) fun p hp q => ?_
    rw [e] at q
    rcases p1.root p with z | z
    · rw [z] at q; exact h2 p (hD' p hp) q
    · rw [z] at q; exact h1 q
  fresh y h1 h2 := by
    by_cases ht : (t.bodies y).root = none
    · have := h.fresh y h1 ht
      rcases p2.idle y with e | e
      · rw [e]; exact this
      · exact e
    · exact k.fresh y ht h2
  idle y := by
    have hn : (t.bodies y).root = none → (u.bodies y).root = none := fun z => by
      rcases p2.root y with e | e
      · rw [e, z]
      · exact e
    rcases k.idle y with e | ⟨e1, e2⟩ | ⟨p, hp, q⟩
    · rw [e]
      rcases h.idle y with e | ⟨e1, e2⟩ | ⟨p, hp, q⟩
      · exact .inl e
      · exact .inr (.inl ⟨e1, hn e2⟩)
      · exact .inr (.inr ⟨p, hD p hp, q.imp id p2.near⟩)
    · refine .inr (.inl ⟨?_, e2⟩)
      rcases p1.root y with z | z
      · rw [← z]; exact e1
      · exact absurd z e1
    · exact .inr (.inr ⟨p, hD' p hp, q⟩)

theorem pushRound_split {s t : Sp F} {x : Nat} (e : s.pushRound true x = some t) : ∃ s1 s2,
    (if s.typ (s.arbs x).bodyB = .kinematic ∨ s.isSleeping (s.arbs x).bodyA = true then s.bodyActivate (s.arbs x).bodyA else some s) = some s1 ∧
    (if s1.typ (s.arbs x).bodyA = .kinematic ∨ s1.isSleeping (s.arbs x).bodyB = true then s1.bodyActivate (s.arbs x).bodyB else some s1) = some s2 ∧
    t = (s2.pushArbiter (s.arbs x).bodyA x).pushArbiter (s.arbs x).bodyB x := by
  simp only [pushRound, Option.bind_eq_bind, true_and] at e
  have key : ∀ s1 : Sp F, (if s1.typ (s.arbs x).bodyA = .kinematic ∨ s1.isSleeping (s.arbs x).bodyB = true then
        (s1.bodyActivate (s.arbs x).bodyB).bind fun s2 => some ((s2.pushArbiter (s.arbs x).bodyA x).pushArbiter (s.arbs x).bodyB x)
      else (some s1).bind fun s2 => some ((s2.pushArbiter (s.arbs x).bodyA x).pushArbiter (s.arbs x).bodyB x)) = some t →
      ∃ s2, (if s1.typ (s.arbs x).bodyA = .kinematic ∨ s1.isSleeping (s.arbs x).bodyB = true then s1.bodyActivate (s.arbs x).bodyB else some s1) = some s2 ∧
        t = (s2.pushArbiter (s.arbs x).bodyA x).pushArbiter (s.arbs x).bodyB x := by
    intro s1 e
    split_ifs at e ⊢
    · obtain ⟨s2, e1, e2⟩ := Option.bind_eq_some_iff.1 e
      exact ⟨s2, e1, (Option.some.inj e2).symm⟩
    · exact ⟨s1, rfl, (Option.some.inj e).symm⟩
  split_ifs at e ⊢
  · obtain ⟨s1, e1, e2⟩ := Option.bind_eq_some_iff.1 e
    obtain ⟨s2, e3, e4⟩ := key s1 e2
    exact ⟨s1, s2, e1, e3, e4⟩
  · obtain ⟨s2, e3, e4⟩ := key s (by simpa only [Option.bind_some] using e)
    exact ⟨s, s2, rfl, e3, e4⟩

theorem pushArbiter_undist (s : Sp F) (b x : Nat) : Undist s (s.pushArbiter b x) := by
  have h1 : ∀ (s : Sp F) y c f, Undist s (s.setThread y c f) := fun s y c f => .of (by unfold setThread; rfl)
  obtain ⟨u, hu⟩ : ∃ u, u = (match (s.bodies b).arbs with
    | some y => (s.setThread x b fun t => { t with next := (s.bodies b).arbs }).setThread y b fun t => { t with prev := some x }
    | none => s.setThread x b fun t => { t with next := (s.bodies b).arbs }) := ⟨_, rfl⟩
  have h2 : Undist s u := by
    rw [hu]; split
    · exact (h1 _ _ _ _).trans (h1 _ _ _ _)
    · exact h1 _ _ _ _
  have h3 : s.pushArbiter b x = u.setBody b fun r => { r with arbs := some x } := by rw [hu]; rfl
  rw [h3]
  exact h2.trans (setBody_undist _ _ _ rfl rfl)

theorem Wakes.post {L L' : Nat → List Nat} {D : Nat → Prop} {s t u : Sp F} (h : Wakes L D s t) (k : Undist t u)
    (hn : ∀ p y, Near L t p y → Near L' u p y) : Wakes L' D s u where
  asleep y h1 h2 := (k y).1.trans (h.asleep y h1 h2)
  fresh y h1 h2 := (k y).2.trans (h.fresh y h1 ((k y).1.symm.trans h2))
  idle y := by
    rw [(k y).2, (k y).1]
    rcases h.idle y with e | e | ⟨p, hp, q⟩
    · exact .inl e
    · exact .inr (.inl e)
    · exact .inr (.inr ⟨p, hp, q.imp id (hn p y)⟩)

/-- One conditional wake-up. -/
theorem wake_wakes {L : Nat → List Nat} {rest : List Nat} {s t : Sp F} (h : Inv L rest s) {p : Nat} {c : Prop} [Decidable c]
    (e : (if c then s.bodyActivate p else some s) = some t) (hc : (s.bodies p).root ≠ none → c) :
    Inv L rest t ∧ Woke s t ∧ Wakes L (fun y => y = p ∧ c ∧ s.typ p = .dynamic) s t := by
  obtain ⟨i, w, k1, k2, k3⟩ := wake_if h e
  refine ⟨i, w, fun y h1 h2 => ?_, k2, fun y => ?_⟩
  · refine k1 y h1 fun q => ?_
    have hp : (s.bodies p).root ≠ none := by rw [← q]; exact h1
    exact h2 p ⟨rfl, hc hp, (h.full.root_dynamic hp).2⟩ q
  · rcases k3 y with q | q | ⟨q1, q2, q3⟩
    · exact .inl q
    · exact .inr (.inl q)
    · refine .inr (.inr ⟨p, ⟨rfl, q1, q2⟩, q3.imp id ?_⟩)
      exact (w.proc h.full).near

/-- One round of the loop over the arbiters. -/
theorem pushRound_wakes {L L' : Nat → List Nat} {rest : List Nat} {s t : Sp F} {x : Nat} (h : Good L (x :: rest) s)
    (e : s.pushRound true x = some t) (P : Proc L L' (fun y => y = x) s t) :
    Wakes L' (PushedBy [x] s) s t := by
  obtain ⟨s1, s2, e1, e2, e3⟩ := pushRound_split e
  obtain ⟨i1, w1, k1⟩ := wake_wakes h.inv e1 (fun q => .inr (by simpa [isSleeping, Option.isSome_iff_ne_none] using q))
  obtain ⟨i2, w2, k2⟩ := wake_wakes i1 e2 (fun q => .inr (by simpa [isSleeping, Option.isSome_iff_ne_none] using q))
  have slp : ∀ b, s1.isSleeping b = true → (s.bodies b).root ≠ none := by
    intro b hb hn
    simp [isSleeping, w1.root_none hn] at hb
  have k := Wakes.trans (E := PushedBy [x] s) k1 k2 (w1.proc h.inv.full) (w2.proc i1.full) ?_ ?_
  · rw [e3]
    refine k.post ((pushArbiter_undist s2 _ x).trans (pushArbiter_undist _ _ x)) fun p y hn => ?_
    rw [← e3]
    obtain ⟨z, hz, q⟩ := hn
    have hz' : InL L s z := by rw [← (w1.trans w2).inL]; exact hz
    have q' := q
    rw [((w1.trans w2).arbs z).bodyA, ((w1.trans w2).arbs z).bodyB] at q'
    exact P.near ⟨z, hz', q'⟩
  · rintro p ⟨rfl, q1, q2⟩
    refine ⟨q2, x, by simp, .inl ⟨rfl, q1.imp id fun q => ?_⟩⟩
    simpa [isSleeping, Option.isSome_iff_ne_none] using q
  · rintro p ⟨rfl, q1, q2⟩
    rw [w1.typ] at q2
    refine ⟨q2, x, by simp, .inr ⟨rfl, q1.imp (fun q => by rw [← w1.typ]; exact q) (slp _)⟩⟩

/-- The loop over the arbiters. -/
theorem push_loop_wakes : ∀ (l : List Nat) (L : Nat → List Nat) (s : Sp F), Good L l s → s.locked = 0 → s.head ≠ none → s.sleepOn = true →
    (∀ x ∈ l, ¬ (s.arbs x).state.closed) → ∃ t L', l.foldlM (pushRound true) s = some t ∧ Good L' [] t ∧
      Proc L L' (· ∈ l) s t ∧ (∀ x ∈ l, (t.bodies (s.arbs x).bodyA).root = none ∧ (t.bodies (s.arbs x).bodyB).root = none) ∧
      (∀ x ∈ l, Held t (s.arbs x).bodyA (s.arbs x).bodyB ∧ Held t (s.arbs x).bodyB (s.arbs x).bodyA) ∧ Wakes L' (PushedBy l s) s t
  | [], L, s, h, _, _, _, _ => ⟨s, L, rfl, h, (Proc.refl L s).iff (by simp), by simp, by simp,
      fun _ _ _ => rfl, fun y h1 h2 => absurd h2 h1, fun y => .inl rfl⟩
  | x :: l, L, s, h, hl, hh, hon, hc => by
    obtain ⟨t, L', e, g, p, r1, r2, d⟩ := pushRound_good h hl hh (hc x (by simp))
    rw [hon] at e
    have k1 := pushRound_wakes h e p
    have hon' : t.sleepOn = true := by rw [p.sleepOn]; exact hon
    obtain ⟨u, L'', e', g', p', r', d', k2⟩ := push_loop_wakes l L' t g (by rw [p.keep.locked]; exact hl) (p.head hh) hon' (fun y hy => by
      rw [(p.arbs y).2.2.2.2.2]; exact hc y (by simp [hy]))
    refine ⟨u, L'', ?_, g', (p.trans p').iff (by simp), ?_, fun y hy => ?_, Wakes.trans k1 k2 p p' ?_ ?_⟩
    · rw [List.foldlM_cons, e]
      exact e'
    · intro y hy
      rcases List.mem_cons.1 hy with rfl | hy
      · constructor
        · rcases p'.root (s.arbs y).bodyA with q | q
          · rw [q]; exact r1
          · exact q
        · rcases p'.root (s.arbs y).bodyB with q | q
          · rw [q]; exact r2
          · exact q
      · have := r' y hy
        rw [(p.arbs y).2.2.1, (p.arbs y).2.2.2.1] at this
        exact this
    · rcases List.mem_cons.1 hy with rfl | hy
      · exact ⟨p'.held (d hon).1, p'.held (d hon).2⟩
      · have := d' y hy
        rw [(p.arbs y).2.2.1, (p.arbs y).2.2.2.1] at this
        exact this
    · rintro q ⟨h1, y, hy, h2⟩
      exact ⟨h1, y, by simp at hy; simp [hy], h2⟩
    · rintro q ⟨h1, y, hy, h2⟩
      have rt : (t.bodies q).root ≠ none → (s.bodies q).root ≠ none := by
        intro z
        rcases p.root q with w | w
        · rw [← w]; exact z
        · exact absurd w z
      rw [(p.arbs y).2.2.1, (p.arbs y).2.2.2.1, p.keep.typ, p.keep.typ] at h2
      rw [p.keep.typ] at h1
      refine ⟨h1, y, by simp [hy], h2.imp (fun z => ⟨z.1, z.2.imp id rt⟩) (fun z => ⟨z.1, z.2.imp id rt⟩)⟩

theorem conRound_split {s t : Sp F} {c : Nat} (e : s.conRound c = some t) : ∃ s1,
    (if s.typ (s.cons c).b = .kinematic then s.bodyActivate (s.cons c).a else some s) = some s1 ∧
    (if s1.typ (s.cons c).a = .kinematic then s1.bodyActivate (s.cons c).b else some s1) = some t := by
  simp only [conRound, Option.bind_eq_bind] at e
  by_cases h : s.typ (s.cons c).b = .kinematic
  · rw [if_pos h] at e ⊢
    obtain ⟨s1, e1, e2⟩ := Option.bind_eq_some_iff.1 e
    exact ⟨s1, e1, e2⟩
  · rw [if_neg h] at e ⊢
    exact ⟨s, rfl, e⟩

theorem Proc.pulled {L L' : Nat → List Nat} {A : Nat → Prop} {s t : Sp F} (h : Proc L L' A s t) (p : Nat) : PulledBy t p ↔ PulledBy s p := by
  simp only [PulledBy, h.keep.typ, h.keep.cons]

/-- The loop over the constraints wakes nobody. -/
theorem con_loop_wakes {L : Nat → List Nat} {rest : List Nat} : ∀ (l : List Nat) (s t : Sp F), Inv L rest s →
    (∀ c ∈ l, (s.cons c).inSpace = true) → l.foldlM conRound s = some t →
    Inv L rest t ∧ Woke s t ∧ (∀ b, (t.bodies b).root = (s.bodies b).root) ∧ Wakes L (PulledBy s) s t
  | [], s, t, h, _, e => by
    cases e
    exact ⟨h, .refl s, fun _ => rfl, fun _ _ _ => rfl, fun y h1 h2 => absurd h2 h1, fun y => .inl rfl⟩
  | c :: l, s, t, h, hc, e => by
    rw [List.foldlM_cons] at e
    obtain ⟨u, e1, e2⟩ := Option.bind_eq_some_iff.1 e
    obtain ⟨s1, e3, e4⟩ := conRound_split e1
    have hcs := hc c (by simp)
    have nk : ∀ (s : Sp F), Inv L rest s → (s.cons c).inSpace = true → ∀ p q, Bound s p q → s.typ q = .kinematic → (s.bodies p).root = none := by
      intro s h hc p q hb hq
      by_contra hp
      rcases hb hp with z | z
      · rw [hq] at z; simp at z
      · rw [← z] at hp
        rw [(h.full.root_dynamic hp).2] at hq; simp at hq
    have part : ∀ (s u : Sp F) (p q : Nat), Inv L rest s → (s.cons c).inSpace = true → Bound s p q →
        (((s.cons c).a = p ∧ (s.cons c).b = q) ∨ ((s.cons c).b = p ∧ (s.cons c).a = q)) →
        (if s.typ q = .kinematic then s.bodyActivate p else some s) = some u →
        Inv L rest u ∧ Woke s u ∧ (∀ b, (u.bodies b).root = (s.bodies b).root) ∧ Wakes L (PulledBy s) s u := by
      intro s u p q hi hcs hb hpq e
      obtain ⟨i, w, k1, k2, k3⟩ := wake_if hi e
      have hr : ∀ b, (u.bodies b).root = (s.bodies b).root := by
        intro b
        by_cases hn : (s.bodies b).root = none
        · rw [hn]; exact w.root_none hn
        · by_cases hq : s.typ q = .kinematic
          · exact k1 b hn (by rw [nk s hi hcs p q hb hq]; exact hn)
          · rw [if_neg hq] at e; cases e; rfl
      refine ⟨i, w, hr, fun y _ _ => hr y, k2, fun y => ?_⟩
      rcases k3 y with z | z | ⟨z1, z2, z3⟩
      · exact .inl z
      · exact .inr (.inl z)
      · refine .inr (.inr ⟨p, ⟨z2, c, hcs, ?_⟩, z3.imp id (w.proc hi.full).near⟩)
        rcases hpq with ⟨a1, a2⟩ | ⟨a1, a2⟩
        · exact .inl ⟨a1, by rw [a2]; exact z1⟩
        · exact .inr ⟨a1, by rw [a2]; exact z1⟩
    obtain ⟨i1, w1, r1, k1⟩ := part s s1 _ _ h hcs (h.closed.con c hcs).1 (.inl ⟨rfl, rfl⟩) e3
    have hcs1 : (s1.cons c).inSpace = true := by rw [w1.cons]; exact hcs
    rw [← w1.cons] at e4
    obtain ⟨i2, w2, r2, k2⟩ := part s1 u _ _ i1 hcs1 (i1.closed.con c hcs1).2 (.inr ⟨rfl, rfl⟩) e4
    obtain ⟨i3, w3, r3, k3⟩ := con_loop_wakes l u t i2 (fun d hd => by rw [w2.cons, w1.cons]; exact hc d (by simp [hd])) e2
    have p1 := w1.proc h.full
    have p2 := w2.proc i1.full
    have p3 := w3.proc i2.full
    refine ⟨i3, (w1.trans w2).trans w3, fun b => (r3 b).trans ((r2 b).trans (r1 b)), ?_⟩
    have k12 : Wakes L (PulledBy s) s u := k1.trans k2 p1 p2 (fun _ => id) (fun p hp => (p1.pulled p).1 hp)
    exact k12.trans k3 (p1.trans p2) p3 (fun _ => id) (fun p hp => ((p1.trans p2).pulled p).1 hp)

/-- What `ProcessComponents` wakes. -/
theorem processComponents_wakes {L : Nat → List Nat} {s t : Sp F} (h : Good L s.arbiters s) (hl : s.locked = 0)
    (hh : s.head ≠ none) (hopen : ∀ x ∈ s.arbiters, ¬ (s.arbs x).state.closed) (host : Hosted s)
    (offs : ∀ x, InL L s x → s.off (s.owner x)) (hon : s.sleepOn = true) (dt : F) (moving : Nat → Bool)
    (e : s.processComponents dt moving = some t) :
    (∀ b, (s.bodies b).root ≠ none → ((t.bodies b).root = none ↔ ∃ p, PushedBy s.arbiters s p ∧ (s.bodies b).root = (s.bodies p).root)) ∧
    (∀ b, (s.bodies b).root ≠ none → (t.bodies b).root ≠ none → (t.bodies b).root = (s.bodies b).root) ∧
    (∀ b, (s.bodies b).root ≠ none → (t.bodies b).root = none → (t.bodies b).idle = .time 0) ∧
    (∀ p, PushedBy s.arbiters s p ∨ PulledBy s p → (t.bodies p).idle = .time 0) ∧
    (∀ b, (t.bodies b).idle = (if s.typ b = .dynamic ∧ b ∈ s.dynamicBodies then s.idleAfter dt moving b else (s.bodies b).idle) ∨
      ((s.bodies b).root ≠ none ∧ (t.bodies b).root = none) ∨
      ∃ p, (PushedBy s.arbiters s p ∨ PulledBy s p) ∧ (b = p ∨ t.Touching p b)) := by
  obtain ⟨B, eB, b1, b2, b3, b4, b5⟩ := updateIdle_loop dt moving s.dynamicBodies s h.inv.full.core.body.dynNodup
  obtain ⟨s1, hs1⟩ : ∃ s1, s1 = ({ s with bodies := B } : Sp F) := ⟨_, rfl⟩
  have g1 : Good L s.arbiters s1 := by rw [hs1]; exact h.mapIdle B b1 b2 b3 b4
  have bo1 : s1.bodies = B := by rw [hs1]
  have ar1 : s1.arbs = s.arbs := by rw [hs1]
  have ty1 : ∀ b, s1.typ b = s.typ b := fun b => by rw [hs1]; exact (b1 b).typ
  have on1 : s1.sleepOn = true := by rw [hs1]; exact hon
  have rt1 : ∀ b, (s1.bodies b).root = (s.bodies b).root := fun b => by rw [bo1]; exact b2 b
  obtain ⟨s2, L', e2, g2, p2, r2, d2, k2⟩ := push_loop_wakes s.arbiters L s1 g1 (by rw [hs1]; exact hl) (by rw [hs1]; exact hh) on1
    (fun x hx => by rw [ar1]; exact hopen x hx)
  obtain ⟨s3, e3, g3, w3, d3⟩ := con_loop s2.constraints s2 g2
  have hcs : ∀ c ∈ s2.constraints, (s2.cons c).inSpace = true := fun c hc => ((g2.inv.full.core.con.mem c).1 hc).1
  obtain ⟨i3, -, r3, k3⟩ := con_loop_wakes s2.constraints s2 s3 g2.inv hcs e3
  have push1 : ∀ p, PushedBy s.arbiters s1 p ↔ PushedBy s.arbiters s p := fun p => by
    simp only [PushedBy, ty1, rt1, ar1]
  have p3 := w3.proc g2.inv.full
  have pull : ∀ p, PulledBy s2 p ↔ PulledBy s p := fun p => by
    rw [p2.pulled]
    simp only [PulledBy, ty1]; rw [hs1]
  have k : Wakes L' (fun p => PushedBy s.arbiters s p ∨ PulledBy s p) s1 s3 :=
    k2.trans k3 p2 p3 (fun p hp => .inl ((push1 p).1 hp)) (fun p hp => .inr ((pull p).1 hp))
  have typ3 : ∀ b, s3.typ b = s.typ b := fun b => (w3.typ b).trans ((p2.keep.typ b).trans (ty1 b))
  have hro : s.roused = [] := h.inv.full.sleep.rouseLock hl
  have inl1 : ∀ y, InL L s1 y ↔ InL L s y := fun y => by simp only [InL, ar1]
  have inl2 : ∀ y, InL L' s2 y ↔ InL L s y ∨ y ∈ s.arbiters := fun y => by rw [p2.inl, inl1]
  have lk1 : s1.locked = s.locked := by rw [hs1]
  have hl2 : s2.locked = 0 := by rw [p2.keep.locked, lk1]; exact hl
  have hl3 : s3.locked = 0 := by rw [w3.locked]; exact hl2
  have sh3 : s3.shapes = s.shapes := by rw [w3.shapes, p2.shapes, hs1]
  have co3 : s3.cons = s.cons := by rw [w3.cons, p2.keep.cons, hs1]
  have is3 : ∀ b, (s3.bodies b).inSpace = (s.bodies b).inSpace := fun b => by
    rw [w3.keep.inSpace, p2.keep.inSpace, bo1]; exact (b1 b).inSpace
  have th3 : s3.threshold = s.threshold := by rw [w3.keep.threshold, p2.keep.threshold, hs1]
  have inl3 : ∀ y, InL L' s3 y ↔ InL L' s2 y := w3.inL L'
  have on3 : s3.sleepOn = true := by simp only [sleepOn, th3]; exact hon
  have nk : ∀ (s : Sp F) (L : Nat → List Nat) (rest : List Nat), Full L rest s → ∀ p q, (s.bodies p).root ≠ none → Bound s p q →
      s.typ p ≠ .kinematic ∧ s.typ q ≠ .kinematic := by
    intro s L rest h p q hp hb
    refine ⟨by rw [(h.root_dynamic hp).2]; simp, ?_⟩
    rcases hb hp with z | z
    · rw [z]; simp
    · rw [← z] at hp; rw [(h.root_dynamic hp).2]; simp
  have heldA : ∀ x, InL L' s3 x → Held s3 (s3.arbs x).bodyA (s3.arbs x).bodyB ∧ Held s3 (s3.arbs x).bodyB (s3.arbs x).bodyA := by
    intro x hx
    rw [inl3, inl2] at hx
    have eA : (s3.arbs x).bodyA = (s.arbs x).bodyA := by rw [(w3.arbs x).bodyA, (p2.arbs x).2.2.1, ar1]
    have eB' : (s3.arbs x).bodyB = (s.arbs x).bodyB := by rw [(w3.arbs x).bodyB, (p2.arbs x).2.2.2.1, ar1]
    rw [eA, eB']
    rcases hx with hx | hx
    · have ho := offs x hx
      rw [h.inv.full.off_iff, hro] at ho
      simp only [List.not_mem_nil, or_false] at ho
      obtain ⟨c1, c2⟩ := h.inv.closed.arb x hx
      have : s.typ (s.arbs x).bodyA ≠ .kinematic ∧ s.typ (s.arbs x).bodyB ≠ .kinematic := by
        rcases owner_ends s x with e | e
        · rw [← e] at ho; exact nk s _ _ h.inv.full _ _ ho c1
        · rw [← e] at ho; exact (nk s _ _ h.inv.full _ _ ho c2).symm
      exact ⟨fun _ z => absurd (by rw [← typ3]; exact z) this.2, fun _ z => absurd (by rw [← typ3]; exact z) this.1⟩
    · have := d2 x hx
      rw [ar1] at this
      exact ⟨w3.held this.1, w3.held this.2⟩
  have heldC : ∀ c, (s3.cons c).inSpace = true → Held s3 (s3.cons c).a (s3.cons c).b ∧ Held s3 (s3.cons c).b (s3.cons c).a := by
    intro c hc
    have ec : s3.cons = s2.cons := w3.cons
    rw [ec] at hc ⊢
    by_cases hm : c ∈ s2.constraints
    · exact d3 c hm
    · rw [g2.inv.full.core.con.mem] at hm
      have ho : s2.off (s2.conOwner c) := by
        by_contra z; exact hm ⟨hc, z⟩
      rw [g2.inv.full.off_iff, g2.inv.full.sleep.rouseLock hl2] at ho
      simp only [List.not_mem_nil, or_false] at ho
      obtain ⟨c1, c2⟩ := g2.inv.closed.con c hc
      have : s2.typ (s2.cons c).a ≠ .kinematic ∧ s2.typ (s2.cons c).b ≠ .kinematic := by
        simp only [conOwner] at ho
        split_ifs at ho
        · exact (nk s2 _ _ g2.inv.full _ _ ho c2).symm
        · exact nk s2 _ _ g2.inv.full _ _ ho c1
      exact ⟨fun _ z => absurd (by rw [← w3.typ]; exact z) this.2, fun _ z => absurd (by rw [← w3.typ]; exact z) this.1⟩
  obtain ⟨t', e4, g4, fr, o4, i4, c4⟩ := components_good g3 hl3 on3
    (host.congr typ3 is3 sh3 co3) heldA heldC
  have et' : s.processComponents dt moving = some t' := by
    simp only [processComponents]
    rw [if_pos hon, eB, ← hs1, show s1.arbiters = s.arbiters by rw [hs1], hon, e2]
    simp only [Option.bind_eq_bind, Option.bind_some]
    rw [if_pos trivial, e3]
    simp only [Option.bind_some]
    exact e4
  rw [e] at et'; obtain rfl := Option.some.inj et'
  obtain ⟨th, hth⟩ : ∃ th, s3.threshold = .time th := by
    cases e : s3.threshold with
    | infinity => simp [sleepOn, e] at on3
    | time x => exact ⟨x, rfl⟩
  have lt0 : (Idle.time (0 : F)).lt t.threshold = true := by
    rw [fr.threshold, hth]; simpa [Idle.lt] using g3.inv.num.pos th hth
  have root3 : ∀ b, (s3.bodies b).root = (s2.bodies b).root := r3
  -- a body of the space that was not asleep before the components and whose idle time is zero stays awake
  have up : ∀ b, s.typ b = .dynamic → (s.bodies b).inSpace = true → (s3.bodies b).root = none → (s3.bodies b).idle = .time 0 →
      (t.bodies b).root = none := by
    intro b hd hi hn h0
    by_contra hne
    have := (i4 b hn (by rw [typ3]; exact hd) (by rw [is3]; exact hi)).1 hne b .refl
    rw [fr.idle, h0, lt0] at this
    simp at this
  have dyn : ∀ b, (s.bodies b).root ≠ none → s.typ b = .dynamic ∧ (s.bodies b).inSpace = true := fun b hb =>
    ⟨(h.inv.full.root_dynamic hb).2, (h.inv.full.root_dynamic hb).1⟩
  have rt : ∀ b, (s.bodies b).root ≠ none → (s1.bodies b).root ≠ none := fun b hb => by rw [rt1]; exact hb
  -- a sleeping body: still asleep before the components, or awake for good
  have fate : ∀ b, (s.bodies b).root ≠ none → ((t.bodies b).root = none ↔ (s3.bodies b).root = none) := by
    intro b hb
    constructor
    · intro hn
      by_contra h3
      obtain ⟨r, hr⟩ := Option.ne_none_iff_exists'.1 h3
      rw [o4 b r hr] at hn; simp at hn
    · intro hn
      exact up b (dyn b hb).1 (dyn b hb).2 hn (k.fresh b (rt b hb) hn)
  have pushedUp : ∀ p, PushedBy s.arbiters s p → (s3.bodies p).root = none := by
    rintro p ⟨-, x, hx, q⟩
    have := r2 x hx
    rw [ar1] at this
    rw [root3]
    rcases q with ⟨q, -⟩ | ⟨q, -⟩ <;> rw [← q]
    · exact this.1
    · exact this.2
  have zero : ∀ b, (s.bodies b).root ≠ none → (s3.bodies b).root = none → (t.bodies b).idle = .time 0 := by
    intro b hb hn
    rw [fr.idle]; exact k.fresh b (rt b hb) hn
  refine ⟨fun b hb => ⟨fun hn => ?_, ?_⟩, fun b hb hne => ?_, fun b hb hn => zero b hb ((fate b hb).1 hn), ?_, fun b => ?_⟩
  · by_contra hno
    have : (s2.bodies b).root = (s1.bodies b).root := k2.asleep b (rt b hb) fun p hp q => by
      rw [rt1, rt1] at q
      exact hno ⟨p, (push1 p).1 hp, q⟩
    have h3 := (fate b hb).1 hn
    rw [root3, this, rt1] at h3
    exact hb h3
  · rintro ⟨p, hp, hr⟩
    rw [fate b hb]
    have hpn := pushedUp p hp
    rw [root3] at hpn ⊢
    rw [p2.comp b p (by rw [rt1, rt1]; exact hr)]
    exact hpn
  · have h3 : (s3.bodies b).root ≠ none := fun z => hne ((fate b hb).2 z)
    have e3 : (s3.bodies b).root = (s1.bodies b).root := by
      rw [root3]
      rcases p2.root b with z | z
      · exact z
      · exact absurd (by rw [root3]; exact z) h3
    obtain ⟨r, hr⟩ := Option.ne_none_iff_exists'.1 h3
    rw [o4 b r hr, ← hr, e3, rt1]
  · rintro p (hp | hp)
    · have hn := pushedUp p hp
      by_cases hpr : (s.bodies p).root = none
      · obtain ⟨hd, x, hx, q⟩ := hp
        have := d2 x hx
        rw [ar1] at this
        rw [fr.idle]
        rcases q with ⟨q1, q2⟩ | ⟨q1, q2⟩
        · have hk := q2.resolve_right (fun z => z hpr)
          have w := w3.held this.1
          rw [q1] at w
          exact w (by rw [typ3]; exact hd) (by rw [typ3]; exact hk)
        · have hk := q2.resolve_right (fun z => z hpr)
          have w := w3.held this.2
          rw [q1] at w
          exact w (by rw [typ3]; exact hd) (by rw [typ3]; exact hk)
      · exact zero p hpr hn
    · obtain ⟨hd, c, hc, q⟩ := hp
      rw [fr.idle]
      have := heldC c (by rw [co3]; exact hc)
      rw [co3] at this
      rcases q with ⟨q1, q2⟩ | ⟨q1, q2⟩
      · rw [q1] at this
        exact this.1 (by rw [typ3]; exact hd) (by rw [typ3]; exact q2)
      · rw [q1] at this
        exact this.2 (by rw [typ3]; exact hd) (by rw [typ3]; exact q2)
  · rcases k.idle b with z | ⟨z1, z2⟩ | ⟨p, hp, z⟩
    · left
      rw [fr.idle, z, bo1, b5]
    · rw [rt1] at z1
      exact .inr (.inl ⟨z1, (fate b z1).2 z2⟩)
    · refine .inr (.inr ⟨p, hp, z.imp id fun z => ?_⟩)
      rw [near_iff g4.inv.full]
      obtain ⟨y, hy, q⟩ := z
      exact ⟨y, by simpa only [InL, (fr.arbs y).bodyA] using hy, by rw [(fr.arbs y).bodyA, (fr.arbs y).bodyB]; exact q⟩

end Sp
end CP
