import Verif.Proofs.SpaceCollide3

/-! # `ProcessComponents`: idle times, threading the arbiters, waking bodies -/

namespace CP
variable {F : Type}
namespace Sp
variable [GoFloat F]

/-- What the first loops of `ProcessComponents` change; `add` are the arbiters put into the lists. -/
structure Proc (L L' : Nat → List Nat) (add : Nat → Prop) (s t : Sp F) : Prop where
  keep : Keep s t
  shapes : t.shapes = s.shapes
  root : ∀ b, (t.bodies b).root = (s.bodies b).root ∨ (t.bodies b).root = none
  comp : ∀ b c, (s.bodies b).root = (s.bodies c).root → (t.bodies b).root = (t.bodies c).root
  arbs : ∀ y, (t.arbs y).a = (s.arbs y).a ∧ (t.arbs y).b = (s.arbs y).b ∧ (t.arbs y).bodyA = (s.arbs y).bodyA ∧
    (t.arbs y).bodyB = (s.arbs y).bodyB ∧ (t.arbs y).count = (s.arbs y).count ∧ (t.arbs y).state = (s.arbs y).state
  inl : ∀ y, InL L' t y ↔ InL L s y ∨ add y
  stamp : t.stamp = s.stamp
  trace : t.trace = s.trace
  pool : t.pool = s.pool
  arbBound : t.arbBound = s.arbBound
  stamps : ∀ y, (t.arbs y).stamp = (s.arbs y).stamp ∨ ((t.arbs y).stamp = s.stamp ∧ (InL L s y ∨ add y))
  idle : ∀ b, (t.bodies b).idle = (s.bodies b).idle ∨ (t.bodies b).idle = .time 0
  head : s.head ≠ none → t.head ≠ none

theorem Proc.refl (L : Nat → List Nat) (s : Sp F) : Proc L L (fun _ => False) s s :=
  ⟨.refl s, rfl, fun _ => .inl rfl, fun _ _ => id, fun _ => ⟨rfl, rfl, rfl, rfl, rfl, rfl⟩, fun _ => by simp, rfl, rfl, rfl,
    rfl, fun _ => .inl rfl, fun _ => .inl rfl, id⟩

theorem Proc.trans {L L' L'' : Nat → List Nat} {A B : Nat → Prop} {s t u : Sp F} (h : Proc L L' A s t)
    (k : Proc L' L'' B t u) : Proc L L'' (fun y => A y ∨ B y) s u where
  keep := h.keep.trans k.keep
  shapes := k.shapes.trans h.shapes
  root b := by
    rcases k.root b with e | e
    · rw [e]; exact h.root b
    · exact .inr e
  comp b c e := k.comp b c (h.comp b c e)
  arbs y := by
    obtain ⟨a1, a2, a3, a4, a5, a6⟩ := h.arbs y
    obtain ⟨b1, b2, b3, b4, b5, b6⟩ := k.arbs y
    exact ⟨b1.trans a1, b2.trans a2, b3.trans a3, b4.trans a4, b5.trans a5, b6.trans a6⟩
  inl y := by rw [k.inl, h.inl]; tauto
  stamp := k.stamp.trans h.stamp
  trace := k.trace.trans h.trace
  pool := k.pool.trans h.pool
  arbBound := k.arbBound.trans h.arbBound
  stamps y := by
    rcases k.stamps y with e | ⟨e, q⟩
    · rw [e]
      rcases h.stamps y with e' | ⟨e', q⟩
      · exact .inl e'
      · exact .inr ⟨e', by tauto⟩
    · right
      rw [e, h.stamp]
      rw [h.inl] at q
      exact ⟨rfl, by tauto⟩
  idle b := by
    rcases k.idle b with e | e
    · rw [e]; exact h.idle b
    · exact .inr e
  head e := k.head (h.head e)

theorem Proc.iff {L L' : Nat → List Nat} {A B : Nat → Prop} {s t : Sp F} (h : Proc L L' A s t) (e : ∀ y, A y ↔ B y) :
    Proc L L' B s t := by
  have : A = B := funext fun y => propext (e y)
  rw [← this]; exact h

theorem Full.threaded {L : Nat → List Nat} {rest : List Nat} {s : Sp F} (h : Full L rest s) {x : Nat}
    (hx : s.Threaded x) : InL L s x := by
  obtain ⟨b, l, e, hl⟩ := hx
  rw [h.core.arbList b] at e
  simp only [Option.some.injEq] at e
  subst e
  exact h.core.thread.inL hl

theorem Woke.proc {L : Nat → List Nat} {rest : List Nat} {s t : Sp F} (h : Full L rest s) (w : Woke s t) :
    Proc L L (fun _ => False) s t where
  keep := w.keep
  shapes := w.shapes
  root := w.root
  comp := w.comp
  arbs y := ⟨(w.arbs y).a, (w.arbs y).b, (w.arbs y).bodyA, (w.arbs y).bodyB, (w.arbs y).count, (w.arbs y).state⟩
  inl y := by rw [w.inL]; simp
  stamp := w.stamp
  trace := w.trace
  pool := w.pool
  arbBound := w.arbBound
  stamps y := by
    rcases w.stamps y with e | ⟨e, q⟩
    · exact .inl e
    · exact .inr ⟨e, .inl (h.threaded q)⟩
  idle := w.idle
  head := w.head

/-- Changing idle times of dynamic bodies. -/
theorem Inv.mapIdle {L : Nat → List Nat} {rest : List Nat} {s : Sp F} (h : Inv L rest s) (B : Nat → BodyR F)
    (hB : ∀ b, BodyEq (s.bodies b) (B b)) (hr : ∀ b, (B b).root = (s.bodies b).root)
    (hn : ∀ b, (B b).next = (s.bodies b).next) (hk : ∀ b, s.typ b ≠ .dynamic → B b = s.bodies b) :
    Inv L rest { s with bodies := B } := by
  have ht : ∀ b, ({ s with bodies := B } : Sp F).typ b = s.typ b := fun b => (hB b).typ
  refine ⟨h.full.mapIdle B hB hr hn, ⟨fun x hx => ?_, fun c hc => ?_⟩, ⟨fun b hb => ?_, h.num.pos, h.num.inf, ?_⟩⟩
  · have := h.closed.arb x hx
    simp only [Bound, ht]
    simp only [hr]
    exact this
  · have := h.closed.con c hc
    simp only [Bound, ht]
    simp only [hr]
    exact this
  · rw [ht] at hb
    show (B b).idle = _
    rw [hk b (by rw [hb]; simp)]
    exact h.num.kin b hb
  · rw [ht]
    exact ⟨(hB s.staticBody).inSpace.trans h.num.sb.1, h.num.sb.2⟩

theorem Good.mapIdle {L : Nat → List Nat} {rest : List Nat} {s : Sp F} (h : Good L rest s) (B : Nat → BodyR F)
    (hB : ∀ b, BodyEq (s.bodies b) (B b)) (hr : ∀ b, (B b).root = (s.bodies b).root)
    (hn : ∀ b, (B b).next = (s.bodies b).next) (hk : ∀ b, s.typ b ≠ .dynamic → B b = s.bodies b) :
    Good L rest { s with bodies := B } :=
  ⟨h.inv.mapIdle B hB hr hn hk, h.tr.congr rfl rfl rfl fun _ => ⟨rfl, rfl, rfl, .rfl⟩, h.valid⟩

/-- The new idle time of a body. -/
def idleAfter (s : Sp F) (dt : F) (moving : Nat → Bool) (b : Nat) : Idle F :=
  if moving b then .time 0 else match (s.bodies b).idle with | .time t => .time (t + dt) | .infinity => .infinity

/-- The loop over the idle times. -/
theorem updateIdle_loop (dt : F) (moving : Nat → Bool) : ∀ (l : List Nat) (s : Sp F), l.Nodup →
    ∃ B, l.foldl (fun s b => s.updateIdle dt moving b) s = { s with bodies := B } ∧
      (∀ b, BodyEq (s.bodies b) (B b)) ∧ (∀ b, (B b).root = (s.bodies b).root) ∧ (∀ b, (B b).next = (s.bodies b).next) ∧
      (∀ b, s.typ b ≠ .dynamic → B b = s.bodies b) ∧
      ∀ b, (B b).idle = if s.typ b = .dynamic ∧ b ∈ l then s.idleAfter dt moving b else (s.bodies b).idle
  | [], s, _ => ⟨s.bodies, rfl, fun _ => .refl _, fun _ => rfl, fun _ => rfl, fun _ _ => rfl, fun b => by simp⟩
  | x :: l, s, hl => by
    obtain ⟨hx, hl'⟩ := List.nodup_cons.1 hl
    have h1 : ∃ B, s.updateIdle dt moving x = { s with bodies := B } ∧
        (∀ b, BodyEq (s.bodies b) (B b)) ∧ (∀ b, (B b).root = (s.bodies b).root) ∧ (∀ b, (B b).next = (s.bodies b).next) ∧
        (∀ b, s.typ b ≠ .dynamic → B b = s.bodies b) ∧
        ∀ b, (B b).idle = if s.typ b = .dynamic ∧ b = x then s.idleAfter dt moving b else (s.bodies b).idle := by
      simp only [updateIdle]
      by_cases hd : s.typ x = .dynamic
      · rw [if_pos hd]
        have hti : ∃ t, (s.bodies x).idle = .time t := by
          cases hi : (s.bodies x).idle with
          | infinity => simp [typ, BodyR.type, hi] at hd
          | time t => exact ⟨t, rfl⟩
        obtain ⟨t, hti⟩ := hti
        refine ⟨_, rfl, fun b => ?_, fun b => ?_, fun b => ?_, fun b hb => ?_, fun b => ?_⟩
        · by_cases e : b = x
          · subst e
            simp only [Function.update_self]
            refine ⟨?_, rfl, rfl, rfl, rfl, rfl⟩
            simp only [BodyR.type, hti]
            split_ifs <;> simp_all
          · simp only [Function.update_of_ne e]; exact .refl _
        · by_cases e : b = x
          · subst e; simp
          · simp [e]
        · by_cases e : b = x
          · subst e; simp
          · simp [e]
        · have e : b ≠ x := by rintro rfl; exact hb hd
          simp [e]
        · by_cases e : b = x
          · subst e
            simp only [Function.update_self, idleAfter, hd, and_self, if_true]
            rfl
          · simp [e]
      · rw [if_neg hd]
        refine ⟨s.bodies, rfl, fun _ => .refl _, fun _ => rfl, fun _ => rfl, fun _ _ => rfl, fun b => ?_⟩
        rw [if_neg]
        rintro ⟨q1, rfl⟩; exact hd q1
    obtain ⟨B1, e1, a1, a2, a3, a4, a5⟩ := h1
    obtain ⟨B, e, b1, b2, b3, b4, b5⟩ := updateIdle_loop dt moving l { s with bodies := B1 } hl'
    have ht : ∀ b, ({ s with bodies := B1 } : Sp F).typ b = s.typ b := fun b => (a1 b).typ
    refine ⟨B, ?_, fun b => (a1 b).trans (b1 b), fun b => (b2 b).trans (a2 b), fun b => (b3 b).trans (a3 b), fun b hb => ?_, fun b => ?_⟩
    · rw [List.foldl_cons, e1]; exact e
    · rw [b4 b (by rw [ht]; exact hb)]; exact a4 b hb
    · rw [b5 b, ht]
      show (if s.typ b = .dynamic ∧ b ∈ l then idleAfter _ dt moving b else (B1 b).idle) = _
      by_cases hbx : b = x
      · subst hbx
        rw [if_neg (fun q => hx q.2), a5]
        simp
      · have e2 : (B1 b).idle = (s.bodies b).idle := by rw [a5, if_neg (fun q => hbx q.2)]
        have e3 : idleAfter ({ s with bodies := B1 } : Sp F) dt moving b = s.idleAfter dt moving b := by
          show (if moving b then _ else match (B1 b).idle with | .time t => _ | .infinity => _) = _
          rw [e2]; rfl
        rw [e3, e2]
        simp [hbx]

/-- A dynamic body `p` linked to a kinematic body `q` is not idle. -/
def Held (s : Sp F) (p q : Nat) : Prop := s.typ p = .dynamic → s.typ q = .kinematic → (s.bodies p).idle = .time 0

theorem Proc.held {L L' : Nat → List Nat} {A : Nat → Prop} {s t : Sp F} (h : Proc L L' A s t) {p q : Nat}
    (k : Held s p q) : Held t p q := by
  intro h1 h2
  rw [h.keep.typ] at h1 h2
  rcases h.idle p with e | e
  · rw [e]; exact k h1 h2
  · exact e

theorem Woke.held {s t : Sp F} (h : Woke s t) {p q : Nat} (k : Held s p q) : Held t p q := by
  intro h1 h2
  rw [h.typ] at h1 h2
  rcases h.idle p with e | e
  · rw [e]; exact k h1 h2
  · exact e

theorem bodyActivate_idle {L : Nat → List Nat} {rest : List Nat} {s t : Sp F} {b : Nat} (h : Full L rest s)
    (hd : s.typ b = .dynamic) (e : s.bodyActivate b = some t) : (t.bodies b).idle = .time 0 := by
  have hinf : (s.bodies b).infMass = false := by
    simp only [typ, BodyR.type] at hd
    cases hi : (s.bodies b).idle with
    | infinity => rw [hi] at hd; simp at hd
    | time x => rw [hi] at hd; by_contra q; simp at q; simp [q] at hd
  have hB : ∀ c, BodyEq (s.bodies c) ((s.zeroIdle b).bodies c) := by
    intro c
    by_cases e : c = b
    · subst e
      refine ⟨?_, ?_, ?_, ?_, ?_, ?_⟩ <;> simp only [zeroIdle, setBody, Function.update_self]
      have h1 : (s.bodies c).type = .dynamic := hd
      rw [h1]; simp [BodyR.type, hinf]
    · simp only [zeroIdle, setBody, Function.update_of_ne e]; exact .refl _
  have hf : Full L rest (s.zeroIdle b) := h.mapIdle (s.zeroIdle b).bodies hB
    (fun c => by by_cases e : c = b
                 · subst e; simp [zeroIdle, setBody]
                 · simp [zeroIdle, setBody, e])
    (fun c => by by_cases e : c = b
                 · subst e; simp [zeroIdle, setBody]
                 · simp [zeroIdle, setBody, e])
  have hz : (s.zeroIdle b).zeroIdle b = s.zeroIdle b := by
    simp [zeroIdle, setBody]
  have he : (s.zeroIdle b).bodyActivate b = s.bodyActivate b := by
    have : (s.zeroIdle b).typ b = s.typ b := (hB b).typ
    have hn : ¬ s.typ b ≠ .dynamic := by rw [not_not]; exact hd
    simp only [bodyActivate, this, hz]
    rw [if_neg hn, if_neg hn]
  obtain ⟨t', e', -, w, -⟩ := bodyActivate_spec hf b
  rw [he, e] at e'
  simp only [Option.some.injEq] at e'
  subst e'
  rcases w.idle b with q | q
  · rw [q]; simp [zeroIdle, setBody]
  · exact q

/-- One round of the loop over the arbiters. -/
theorem pushRound_good {L : Nat → List Nat} {rest : List Nat} {s : Sp F} {x : Nat} (h : Good L (x :: rest) s)
    (hl : s.locked = 0) (hh : s.head ≠ none) (hc : ¬ (s.arbs x).state.closed) : ∃ t L', s.pushRound s.sleepOn x = some t ∧ Good L' rest t ∧
      Proc L L' (fun y => y = x) s t ∧ (t.bodies (s.arbs x).bodyA).root = none ∧ (t.bodies (s.arbs x).bodyB).root = none ∧
      (s.sleepOn = true → Held t (s.arbs x).bodyA (s.arbs x).bodyB ∧ Held t (s.arbs x).bodyB (s.arbs x).bodyA) := by
  have k := h.inv.full.core.arb
  obtain ⟨r1, r2⟩ := k.rest x (by simp)
  obtain ⟨l1, l2, l3, l4, l5, l6, l7⟩ := k.live x (Or.inl r2)
  generalize hA : (s.arbs x).bodyA = a at *
  generalize hB : (s.arbs x).bodyB = b at *
  have wake : ∀ (s : Sp F) (p q : Nat), Good L (x :: rest) s → ∃ t, (if s.sleepOn = true ∧ (s.typ q = .kinematic ∨ s.isSleeping p) then s.bodyActivate p else some s) = some t ∧
      Good L (x :: rest) t ∧ Woke s t ∧ (t.bodies p).root = none ∧ (s.sleepOn = true → Held t p q) := by
    intro s p q hs
    split_ifs with hc
    · obtain ⟨t, e, g, w, n⟩ := bodyActivate_good hs p
      exact ⟨t, e, g, w, n, fun _ h1 _ => bodyActivate_idle hs.inv.full (by rw [← w.typ]; exact h1) e⟩
    · refine ⟨s, rfl, hs, .refl s, ?_, fun h1 _ h2 => absurd ⟨h1, .inl h2⟩ hc⟩
      rw [not_and_or] at hc
      rcases hc with hc | hc
      · by_contra hne
        obtain ⟨r, hr⟩ := Option.ne_none_iff_exists'.1 hne
        have h1 := hs.inv.full.quiet p r hr
        have : s.threshold = .infinity := by
          simp only [sleepOn] at hc
          cases ht : s.threshold with
          | infinity => rfl
          | time t => rw [ht] at hc; simp at hc
        rw [hs.inv.num.inf this] at h1
        simp at h1
      · rw [not_or] at hc
        simpa [isSleeping] using hc.2
  obtain ⟨s1, e1, g1, w1, n1, d1⟩ := wake s a b h
  obtain ⟨s2, e2, g2, w2, n2, d2⟩ := wake s1 b a g1
  have hsl : s1.sleepOn = s.sleepOn := by simp only [sleepOn, w1.threshold]
  rw [hsl] at e2 d2
  have w := w1.trans w2
  have hA2 : (s2.arbs x).bodyA = a := by rw [(w.arbs x).bodyA]; exact hA
  have hB2 : (s2.arbs x).bodyB = b := by rw [(w.arbs x).bodyB]; exact hB
  have ra : (s2.bodies a).root = none := w2.root_none n1
  have ni2 : ¬ InL L s2 x := by rw [w.inL]; exact r1
  have k2 := g2.inv.full.core.arb
  obtain ⟨p1, p2, p3⟩ := push_thread g2.inv.full.core.thread ni2 (by rw [hA2, hB2]; exact l5)
  rw [hA2, hB2] at p1 p2 p3
  obtain ⟨t, ht⟩ : ∃ t, t = (s2.pushArbiter a x).pushArbiter b x := ⟨_, rfl⟩
  rw [← ht] at p1 p2 p3
  have l2' : s2.locked = 0 := by rw [w.locked]; exact hl
  have hof : ∀ y, s2.off y ↔ (s2.bodies y).root ≠ none := fun y => by
    rw [g2.inv.full.off_iff, g2.inv.full.sleep.rouseLock l2']; simp
  have ar := p2.around
  have ha : ∀ y, (t.arbs y).a = (s2.arbs y).a ∧ (t.arbs y).b = (s2.arbs y).b ∧ (t.arbs y).bodyA = (s2.arbs y).bodyA ∧
    (t.arbs y).bodyB = (s2.arbs y).bodyB ∧ (t.arbs y).count = (s2.arbs y).count ∧ (t.arbs y).state = (s2.arbs y).state ∧
    (t.arbs y).stamp = (s2.arbs y).stamp := fun y => by rw [p2.arb y]; exact ⟨rfl, rfl, rfl, rfl, rfl, rfl, rfl⟩
  have q1 : t.arbiters = s2.arbiters := by rw [p2.eq]
  have q2 : t.cached = s2.cached := by rw [p2.eq]
  have q3 : t.pool = s2.pool := by rw [p2.eq]
  have q4 : t.arbBound = s2.arbBound := by rw [p2.eq]
  have q5 : t.stamp = s2.stamp := by rw [p2.eq]
  have q6 : t.head = s2.head := by rw [p2.eq]
  have q7 : t.trace = s2.trace := by rw [p2.eq]
  have own : ∀ y, t.owner y = s2.owner y := fun y => by simp only [owner, ar.typ, (ha y).2.2.1, (ha y).2.2.2.1]
  have prs : ∀ p q y, t.samePair p q y = s2.samePair p q y := fun p q y => by simp only [samePair, (ha y).1, (ha y).2.1]
  have xc : x ∈ s2.cached := (k2.rest x (by simp)).2
  have xown : ¬ s2.off (s2.owner x) := by
    rw [hof, not_not]
    rcases owner_ends s2 x with e | e
    · rw [← e, hA2]; exact ra
    · rw [← e, hB2]; exact n2
  have orr : ∀ y, (y ∈ t.cached ∨ InL (pushL L s2 x) t y) → (y ∈ s2.cached ∨ InL L s2 y) := by
    intro y; rw [q2, p3]
    rintro (e | rfl | e)
    · exact Or.inl e
    · exact Or.inl xc
    · exact Or.inr e
  have nd := List.nodup_cons.1 k2.restNodup
  have inv : Inv (pushL L s2 x) rest t := by
    refine g2.inv.editArbs ar p1 ⟨fun y => ?_, ?_, nd.2, fun y hy => ?_, fun y hy => ?_, ?_, fun y z hy hz => ?_, fun y hy => ?_,
      ?_, ?_, fun y hy => ?_, fun y hy => ?_, fun y hy hp => ?_⟩ fun y hy => ?_
    · rw [q1, p3, own, k2.mem]
      simp only [List.mem_cons]
      constructor
      · rintro (⟨z1, z2⟩ | rfl | z)
        · exact Or.inl ⟨Or.inr z1, z2⟩
        · exact Or.inl ⟨Or.inl rfl, xown⟩
        · exact Or.inr z
      · rintro (⟨rfl | z1, z2⟩ | z)
        · exact Or.inr (Or.inl rfl)
        · exact Or.inl ⟨z1, z2⟩
        · exact Or.inr (Or.inr z)
    · rw [q1]; exact k2.nodup
    · rw [p3, q2]
      have := k2.rest y (by simp [hy])
      refine ⟨?_, this.2⟩
      rintro (rfl | z)
      · exact nd.1 hy
      · exact this.1 z
    · rw [q2, own]
      rcases (p3 y).1 hy with rfl | z
      · exact ⟨fun _ => xown, fun _ => xc⟩
      · exact k2.cachedIff y z
    · rw [q2]; exact k2.cachedNodup
    · rw [prs, (ha y).1, (ha y).2.1]; exact k2.uniq y z (orr y hy) (orr z hz)
    · obtain ⟨a1, a2, a3, a4, -⟩ := ha y
      rw [a1, a2, a3, a4, ar.shapes, q4, q3]; exact k2.live y (orr y hy)
    · rw [q3]; exact k2.poolNodup
    · rw [q3, q4]; exact k2.poolBound
    · rw [q1] at hy; rw [(ha y).2.2.2.2.2.2, q5]; exact k2.stamp y hy
    · rw [q6]
      rcases (p3 y).1 hy with rfl | z
      · exact w.head hh
      · exact k2.head y z
    · rw [q4] at hy
      rw [q3] at hp
      rw [q2, p3]
      rcases k2.noLeak y hy hp with z | z
      · exact Or.inl z
      · exact Or.inr (Or.inr z)
    · obtain ⟨a1, a2, a3, a4, -⟩ := ha y
      rw [a3, a4]
      rcases (p3 y).1 hy with rfl | z
      · rw [hA2, hB2]
        exact ⟨fun z => absurd ra z, fun z => absurd n2 z⟩
      · exact g2.inv.closed.arb y z
  have inl : ∀ y, InL (pushL L s2 x) t y ↔ InL L s y ∨ y = x := fun y => by
    rw [p3, w.inL]; exact or_comm
  refine ⟨t, pushL L s2 x, ?_, ⟨inv, ⟨?_, fun y hy => ?_⟩, fun y hy hp => ?_⟩, ?_, ?_, ?_, fun hon => ?_⟩
  · have e3 : (if s.sleepOn = true ∧ (s1.typ a = BType.kinematic ∨ s1.isSleeping b = true) then do
          let s ← s1.bodyActivate b
          some ((s.pushArbiter a x).pushArbiter b x)
        else do
          let s ← some s1
          some ((s.pushArbiter a x).pushArbiter b x)) = some t := by
      by_cases c2 : s.sleepOn = true ∧ (s1.typ a = .kinematic ∨ s1.isSleeping b = true)
      · rw [if_pos c2] at e2 ⊢
        simp only [e2, Option.bind_eq_bind, Option.bind_some, ht]
      · rw [if_neg c2] at e2 ⊢
        simp only [e2, Option.bind_eq_bind, Option.bind_some, ht]
    simp only [pushRound, hA, hB]
    by_cases c1 : s.sleepOn = true ∧ (s.typ b = .kinematic ∨ s.isSleeping a = true)
    · rw [if_pos c1] at e1 ⊢
      rw [e1]; exact e3
    · rw [if_neg c1] at e1 ⊢
      rw [e1]; exact e3
  · exact (g2.tr.congr (t := t) q7 q4 q3 fun y => ⟨(ha y).1, (ha y).2.1, (ha y).2.2.1, by rw [(ha y).2.2.2.2.2.1]⟩).agree
  · rw [(ha y).2.2.2.2.2.1, (w.arbs y).state]
    rcases (inl y).1 hy with z | rfl
    · exact h.tr.threaded y z
    · exact hc
  · rw [q4] at hy
    rw [q3] at hp
    obtain ⟨v1, v2, v3⟩ := g2.valid y hy hp
    rw [(ha y).2.2.2.2.2.1, (ha y).2.2.2.2.2.2, q5, p3]
    refine ⟨v1, fun z => ?_, v3⟩
    rcases v2 z with z | z
    · exact Or.inl (Or.inr z)
    · rcases List.mem_cons.1 z with rfl | z
      · exact Or.inl (Or.inl rfl)
      · exact Or.inr z
  · have P := w.proc h.inv.full
    have m := ar.move
    constructor
    · exact P.keep.trans m.keep
    · rw [ar.shapes]; exact P.shapes
    · intro c; rw [ar.root]; exact P.root c
    · intro c d e; rw [ar.root, ar.root]; exact P.comp c d e
    · intro y
      obtain ⟨a1, a2, a3, a4, a5, a6, -⟩ := ha y
      obtain ⟨b1, b2, b3, b4, b5, b6⟩ := P.arbs y
      exact ⟨a1.trans b1, a2.trans b2, a3.trans b3, a4.trans b4, a5.trans b5, a6.trans b6⟩
    · exact inl
    · rw [q5]; exact P.stamp
    · rw [q7]; exact P.trace
    · rw [q3]; exact P.pool
    · rw [q4]; exact P.arbBound
    · intro y
      rw [(ha y).2.2.2.2.2.2]
      rcases P.stamps y with e | ⟨e, z⟩
      · exact .inl e
      · exact .inr ⟨e, by tauto⟩
    · intro c; rw [ar.idle]; exact P.idle c
    · rw [q6]; exact P.head
  · rw [ar.root]; exact ra
  · rw [ar.root]; exact n2
  · have f1 := w2.held (d1 hon)
    have f2 := d2 hon
    simp only [Held, ar.typ, ar.idle]
    exact ⟨f1, f2⟩

theorem Proc.sleepOn {L L' : Nat → List Nat} {A : Nat → Prop} {s t : Sp F} (h : Proc L L' A s t) : t.sleepOn = s.sleepOn := by
  simp only [Sp.sleepOn, h.keep.threshold]

/-- The loop over the arbiters. -/
theorem push_loop : ∀ (l : List Nat) (L : Nat → List Nat) (s : Sp F), Good L l s → s.locked = 0 → s.head ≠ none →
    (∀ x ∈ l, ¬ (s.arbs x).state.closed) → ∃ t L', l.foldlM (pushRound s.sleepOn) s = some t ∧ Good L' [] t ∧
      Proc L L' (· ∈ l) s t ∧ (∀ x ∈ l, (t.bodies (s.arbs x).bodyA).root = none ∧ (t.bodies (s.arbs x).bodyB).root = none) ∧
      (s.sleepOn = true → ∀ x ∈ l, Held t (s.arbs x).bodyA (s.arbs x).bodyB ∧ Held t (s.arbs x).bodyB (s.arbs x).bodyA)
  | [], L, s, h, _, _, _ => ⟨s, L, rfl, h, (Proc.refl L s).iff (by simp), by simp, by simp⟩
  | x :: l, L, s, h, hl, hh, hc => by
    obtain ⟨t, L', e, g, p, r1, r2, d⟩ := pushRound_good h hl hh (hc x (by simp))
    obtain ⟨u, L'', e', g', p', r', d'⟩ := push_loop l L' t g (by rw [p.keep.locked]; exact hl) (p.head hh) (fun y hy => by
      rw [(p.arbs y).2.2.2.2.2]; exact hc y (by simp [hy]))
    refine ⟨u, L'', ?_, g', (p.trans p').iff (by simp), ?_, fun hon y hy => ?_⟩
    · rw [List.foldlM_cons, e]
      rw [p.sleepOn] at e'
      exact e'
    · intro y hy
      rcases List.mem_cons.1 hy with rfl | hy
      · constructor
        · rcases p'.root (s.arbs y).bodyA with q | q
          · rw [q]; exact r1
          · exact q
        · rcases p'.root (s.arbs y).bodyB with q | q
          · rw [q]; exact r2
          · exact q
      · have := r' y hy
        rw [(p.arbs y).2.2.1, (p.arbs y).2.2.2.1] at this
        exact this
    · rcases List.mem_cons.1 hy with rfl | hy
      · exact ⟨p'.held (d hon).1, p'.held (d hon).2⟩
      · have := d' (by rw [p.sleepOn]; exact hon) y hy
        rw [(p.arbs y).2.2.1, (p.arbs y).2.2.2.1] at this
        exact this

/-- The loop over the constraints. -/
theorem con_loop {L : Nat → List Nat} {rest : List Nat} : ∀ (l : List Nat) (s : Sp F), Good L rest s →
    ∃ t, l.foldlM conRound s = some t ∧ Good L rest t ∧ Woke s t ∧
      ∀ c ∈ l, Held t (s.cons c).a (s.cons c).b ∧ Held t (s.cons c).b (s.cons c).a
  | [], s, h => ⟨s, rfl, h, .refl s, by simp⟩
  | c :: l, s, h => by
    have wake : ∀ (s : Sp F) (p q : Nat), Good L rest s → ∃ t, (if s.typ q = .kinematic then s.bodyActivate p else some s) = some t ∧
        Good L rest t ∧ Woke s t ∧ Held t p q := by
      intro s p q hs
      split_ifs with hc
      · obtain ⟨t, e, g, w, -⟩ := bodyActivate_good hs p
        exact ⟨t, e, g, w, fun h1 _ => bodyActivate_idle hs.inv.full (by rw [← w.typ]; exact h1) e⟩
      · exact ⟨s, rfl, hs, .refl s, fun _ h2 => absurd h2 hc⟩
    obtain ⟨s1, e1, g1, w1, d1⟩ := wake s (s.cons c).a (s.cons c).b h
    obtain ⟨s2, e2, g2, w2, d2⟩ := wake s1 (s.cons c).b (s.cons c).a g1
    obtain ⟨u, e, g, w, d⟩ := con_loop l s2 g2
    refine ⟨u, ?_, g, (w1.trans w2).trans w, fun k hk => ?_⟩
    swap
    · rcases List.mem_cons.1 hk with rfl | hk
      · exact ⟨w.held (w2.held d1), w.held d2⟩
      · have := d k hk
        rw [w2.cons, w1.cons] at this
        exact this
    have e3 : s.conRound c = some s2 := by
      simp only [conRound]
      by_cases c1 : s.typ (s.cons c).b = .kinematic
      · rw [if_pos c1] at e1 ⊢
        rw [e1]; exact e2
      · rw [if_neg c1] at e1 ⊢
        rw [e1]; exact e2
    rw [List.foldlM_cons, e3]
    exact e

end Sp
end CP
