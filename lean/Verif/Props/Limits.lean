import Verif.Spec.Solver
import Verif.Spec.Float
import Verif.Props.Geometry

/-! # C17, C18: impulse limits -/

namespace CP
open GoFloat

/-! ### C17 -/
section
variable {F : Type} [GoFloat F]

theorem applyLoop_mem (arb : Arb F) : ∀ (cs : List (Contact F)) (h : Bodies F) (c' : Contact F),
    c' ∈ (arb.applyLoop h cs).2 → ∃ c ∈ cs, ∃ h', c' = (arb.applyContact h' c).2
  | [], _, _, hc => by simp [Arb.applyLoop] at hc
  | c :: cs, h, c', hc => by
    simp only [Arb.applyLoop, List.mem_cons] at hc
    rcases hc with rfl | hc
    · exact ⟨c, List.mem_cons_self, h, rfl⟩
    · obtain ⟨d, hd, h', e⟩ := applyLoop_mem arb cs _ c' hc
      exact ⟨d, List.mem_cons_of_mem _ hd, h', e⟩

theorem updateContacts_mem (h : Bodies F) (a b : Nat) (old fresh : List (Contact F)) (c : Contact F)
    (hc : c ∈ Arb.updateContacts h a b old fresh) :
    (c.jnAcc = 0 ∧ c.jtAcc = 0) ∨ ∃ o ∈ old, c.jnAcc = o.jnAcc ∧ c.jtAcc = o.jtAcc := by
  simp only [Arb.updateContacts, List.mem_map] at hc
  obtain ⟨d, -, rfl⟩ := hc
  generalize hx : ({ d with r1 := d.r1.sub (h a).p, r2 := d.r2.sub (h b).p, jnAcc := 0, jtAcc := 0 } : Contact F) = x
  have key : ∀ (l : List (Contact F)) (x : Contact F),
      ((x.jnAcc = 0 ∧ x.jtAcc = 0) ∨ ∃ o ∈ old, x.jnAcc = o.jnAcc ∧ x.jtAcc = o.jtAcc) → (∀ o ∈ l, o ∈ old) →
      (((l.foldl (fun con old => if con.hash = old.hash then { con with jnAcc := old.jnAcc, jtAcc := old.jtAcc } else con) x).jnAcc = 0 ∧
        (l.foldl (fun con old => if con.hash = old.hash then { con with jnAcc := old.jnAcc, jtAcc := old.jtAcc } else con) x).jtAcc = 0) ∨
       ∃ o ∈ old, (l.foldl (fun con old => if con.hash = old.hash then { con with jnAcc := old.jnAcc, jtAcc := old.jtAcc } else con) x).jnAcc = o.jnAcc ∧
        (l.foldl (fun con old => if con.hash = old.hash then { con with jnAcc := old.jnAcc, jtAcc := old.jtAcc } else con) x).jtAcc = o.jtAcc) := by
    intro l
    induction l with
    | nil => intro x hx _; exact hx
    | cons o l ih =>
      intro x hx ho
      rw [List.foldl_cons]
      refine ih _ ?_ (fun o h => ho o (List.mem_cons_of_mem _ h))
      split
      · exact Or.inr ⟨o, ho o List.mem_cons_self, rfl, rfl⟩
      · exact hx
  exact key old x (Or.inl (by rw [← hx]; exact ⟨rfl, rfl⟩)) (fun _ h => h)

/-- **C17**: the accumulated normal impulse of every contact is never negative, in any state of the
arbiter's life, for any bodies. Holds for every float rounding. -/
theorem C17_push (arb : Arb F) (hr : Arb.Reach arb) : ∀ c ∈ arb.contacts, (0 : F) ≤ c.jnAcc := by
  induction hr with
  | new arb h => simp [h]
  | update h arb a b n fresh e1 e2 u1 u2 s1 s2 cached _ ih =>
    intro c hc
    rcases updateContacts_mem h a b arb.contacts fresh c hc with h0 | ⟨o, ho, e, -⟩
    · exact h0.1.ge
    · rw [e]; exact ih o ho
  | preStep h arb dt slop bias _ ih =>
    intro c hc
    simp only [Arb.preStep, List.mem_map] at hc
    obtain ⟨d, hd, rfl⟩ := hc
    exact ih d hd
  | apply h arb _ ih =>
    intro c hc
    obtain ⟨d, hd, h', rfl⟩ := applyLoop_mem arb _ _ c hc
    exact le_max_right _ _

/-- **C17**: after every solver iteration each contact only pushes (normal and bias impulse
non-negative) and its friction impulse lies within the friction cone, whatever the state of the
bodies and of the arbiter before the iteration. Holds for every float rounding that keeps signs. -/
theorem C17_cone [FloatLaws F] (h : Bodies F) (arb : Arb F) (hu : 0 ≤ arb.u) :
    ∀ c ∈ (arb.applyImpulse h).2.contacts,
      (0 : F) ≤ c.jnAcc ∧ 0 ≤ c.jBias ∧ -(arb.u * c.jnAcc) ≤ c.jtAcc ∧ c.jtAcc ≤ arb.u * c.jnAcc := by
  intro c hc
  obtain ⟨d, hd, h', rfl⟩ := applyLoop_mem arb _ _ c hc
  have h0 : (0 : F) ≤ (arb.applyContact h' d).2.jnAcc := le_max_right _ _
  have h1 := FloatLaws.mul_nonneg arb.u _ hu h0
  have h2 := (FloatLaws.neg_nonpos _ h1).trans h1
  refine ⟨h0, le_max_right _ _, ?_, ?_⟩
  · exact (C41_clamp_range _ _ _ h2).1
  · exact (C41_clamp_range _ _ _ h2).2.1

/-- **C17**: the solver never changes the friction coefficient, normal or bodies of an arbiter, so the
cone of `C17_cone` is the one computed from the two shapes' frictions. -/
theorem C17_friction (h : Bodies F) (arb : Arb F) (a b : Nat) (n : Vec F) (fresh : List (Contact F))
    (e1 e2 u1 u2 : F) (s1 s2 : Vec F) (cached : Bool) (dt slop bias : F) (hs : List (Bodies F)) :
    let arb' := (arb.update h a b n fresh e1 e2 u1 u2 s1 s2 cached).preStep h dt slop bias
    let last := hs.foldl (fun x h => (x.applyImpulse h).2) arb'
    last.u = u1 * u2 ∧ last.n = n ∧ last.a = a ∧ last.b = b ∧ last.contacts.length = fresh.length := by
  intro arb' last
  have len : ∀ (x : Arb F) (cs : List (Contact F)) (h : Bodies F), (x.applyLoop h cs).2.length = cs.length := by
    intro x cs
    induction cs with
    | nil => intro h; rfl
    | cons c cs ih => intro h; simp only [Arb.applyLoop, List.length_cons]; rw [ih]
  have key : ∀ (hs : List (Bodies F)) (x : Arb F),
      let l := hs.foldl (fun x h => (x.applyImpulse h).2) x
      l.u = x.u ∧ l.n = x.n ∧ l.a = x.a ∧ l.b = x.b ∧ l.contacts.length = x.contacts.length := by
    intro hs
    induction hs with
    | nil => intro x; exact ⟨rfl, rfl, rfl, rfl, rfl⟩
    | cons h hs ih =>
      intro x
      obtain ⟨i1, i2, i3, i4, i5⟩ := ih (x.applyImpulse h).2
      exact ⟨i1, i2, i3, i4, i5.trans (len x x.contacts h)⟩
  obtain ⟨k1, k2, k3, k4, k5⟩ := key hs arb'
  refine ⟨k1, k2, k3, k4, k5.trans ?_⟩
  simp [arb', Arb.preStep, Arb.update, Arb.updateContacts]
end

/-! ### C18 -/

theorem abs_clamp_le (f m : ℝ) (hm : 0 ≤ m) : |clamp f (-m) m| ≤ m := by
  have := C41_clamp_range f (-m) m (by linarith)
  exact abs_le.mpr ⟨this.1, this.2.1⟩

theorem ratchet_clamp (x r m : ℝ) (hm : 0 ≤ m) (hr : r ≠ 0) :
    |clamp (x * r) 0 (m * |r|) / r| ≤ m ∧ 0 ≤ clamp (x * r) 0 (m * |r|) / r * r := by
  have hp : 0 < |r| := abs_pos.mpr hr
  have := C41_clamp_range (x * r) 0 (m * |r|) (by positivity)
  constructor
  · rw [abs_div, div_le_iff₀ hp, abs_of_nonneg this.1]; exact this.2.1
  · rw [div_mul_cancel₀ _ hr]; exact this.1

/-- The joint has something to correct in this step. -/
def Joint.Active : Joint ℝ → Prop
  | .slide j => ¬ (j.n.x = 0 ∧ j.n.y = 0)
  | .ratchet j => j.bias ≠ 0 ∧ j.ratchet ≠ 0
  | .rotaryLimit j => j.bias ≠ 0
  | _ => True

/-- **C18**: an active joint reports at most `MaxForce*dt` after `ApplyImpulse`, whatever it and the
bodies were before. (A slide joint whose limit is not reached, and rotary limits and ratchets with no
error to correct, apply nothing and are covered by `C18_maxForce`.) -/
theorem C18_maxForce_apply (dt : ℝ) (h : Bodies ℝ) (j : Joint ℝ) (hf : 0 ≤ j.con.maxForce * dt) (hl : j.Limited)
    (hact : j.Active) :
    (j.applyImpulse h dt).2.getImpulse ≤ j.con.maxForce * dt := by
  cases j with
  | pin j => exact (fabs_real _).le.trans (abs_clamp_le _ _ hf)
  | slide j =>
    simp only [Joint.con] at hf
    simp only [Joint.applyImpulse, Joint.getImpulse, SlideJoint.applyImpulse, if_neg hact, Prod.map, SlideJoint.getImpulse, fabs_real, Joint.con, id]
    have := C41_clamp_range (j.jnAcc + (j.bias - (relVel h j.a j.b j.r1 j.r2).dot j.n) * j.nMass) (-j.maxForce * dt) 0 (by nlinarith)
    rw [abs_le]; exact ⟨by linarith [this.1], by linarith [this.2.1]⟩
  | pivot j =>
    exact (C41_clampLen _ _ hf).1
  | groove j => exact (C41_clampLen _ _ hf).1
  | spring j => exact hl.elim
  | rotarySpring j => exact hl.elim
  | gear j => exact (fabs_real _).le.trans (abs_clamp_le _ _ hf)
  | ratchet j =>
    simp only [Joint.con] at hf
    simp only [Joint.applyImpulse, Joint.getImpulse, RatchetJoint.applyImpulse, if_neg hact.1, Prod.map, RatchetJoint.getImpulse, fabs_real, Joint.con, id]
    exact (ratchet_clamp _ _ _ hf hact.2).1
  | rotaryLimit j =>
    simp only [Joint.con] at hf
    simp only [Joint.applyImpulse, Joint.getImpulse, RotaryLimitJoint.applyImpulse, if_neg hact, Prod.map, RotaryLimitJoint.getImpulse, fabs_real, Joint.con, id]
    split
    · have := C41_clamp_range (j.jAcc + -(j.bias + ((h j.b).w - (h j.a).w)) * j.iSum) 0 (j.maxForce * dt) hf
      rw [abs_le]; exact ⟨by linarith [this.1], this.2.1⟩
    · have := C41_clamp_range (j.jAcc + -(j.bias + ((h j.b).w - (h j.a).w)) * j.iSum) (-(j.maxForce * dt)) 0 (by linarith)
      rw [abs_le]; exact ⟨this.1, by linarith [this.2.1]⟩
  | motor j => exact (fabs_real _).le.trans (abs_clamp_le _ _ hf)

/-- A ratchet has a non-zero notch size (with 0 the library divides by zero). -/
def Joint.Valid : Joint ℝ → Prop
  | .ratchet j => j.ratchet ≠ 0
  | _ => True

theorem call_keeps (dt : ℝ) (j : Joint ℝ) (e : JointCall ℝ) :
    (j.call dt e).con = j.con ∧ ((j.call dt e).Limited ↔ j.Limited) ∧ ((j.call dt e).Valid ↔ j.Valid) := by
  cases j <;> cases e <;> refine ⟨?_, ?_, ?_⟩ <;>
    simp [Joint.call, Joint.preStep, Joint.applyCached, Joint.applyImpulse, Joint.con, Joint.Limited, Joint.Valid,
      PinJoint.preStep, PinJoint.applyCached, PinJoint.applyImpulse, SlideJoint.preStep, SlideJoint.applyCached,
      SlideJoint.applyImpulse, PivotJoint.preStep, PivotJoint.applyCached, PivotJoint.applyImpulse,
      GrooveJoint.preStep, GrooveJoint.applyCached, GrooveJoint.applyImpulse, DampedSpring.preStep, DampedSpring.applyCached,
      DampedSpring.applyImpulse, DampedRotarySpring.preStep, DampedRotarySpring.applyCached, DampedRotarySpring.applyImpulse,
      GearJoint.preStep, GearJoint.applyCached, GearJoint.applyImpulse, RatchetJoint.preStep, RatchetJoint.applyCached,
      RatchetJoint.applyImpulse, RotaryLimitJoint.preStep, RotaryLimitJoint.applyCached, RotaryLimitJoint.applyImpulse,
      SimpleMotor.preStep, SimpleMotor.applyCached, SimpleMotor.applyImpulse] <;>
    (try split) <;> simp

/-- **C18**: over any life of a joint with time step `dt` (any number of steps and iterations, any
bodies at every call), starting without accumulated impulse, the reported impulse never exceeds
`MaxForce*dt`, slide joints never push outwards and ratchets act only in their direction. -/
theorem C18_maxForce (dt : ℝ) (j : Joint ℝ) (hf : 0 ≤ j.con.maxForce * dt) (hl : j.Limited) (hv : j.Valid)
    (h0 : j.getImpulse = 0) (calls : List (JointCall ℝ)) :
    (calls.foldl (Joint.call dt) j).getImpulse ≤ j.con.maxForce * dt ∧ (calls.foldl (Joint.call dt) j).OneSided := by
  have start : j.getImpulse ≤ j.con.maxForce * dt ∧ j.OneSided := by
    refine ⟨h0.le.trans hf, ?_⟩
    cases j <;> simp_all [Joint.OneSided, Joint.getImpulse, SlideJoint.getImpulse, RatchetJoint.getImpulse]
  clear h0
  induction calls generalizing j with
  | nil => exact start
  | cons e calls ih =>
    obtain ⟨k1, k2, k3⟩ := call_keeps dt j e
    rw [List.foldl_cons, ← k1]
    refine ih (j.call dt e) (k1 ▸ hf) (k2.mpr hl) (k3.mpr hv) ?_
    rw [k1]
    obtain ⟨s1, s2⟩ := start
    cases e with
    | preStep h =>
      cases j <;> simp only [Joint.call, Joint.preStep, Joint.getImpulse, Joint.OneSided, Prod.map, Joint.con] at * <;>
        first
          | exact ⟨s1, trivial⟩
          | exact hl.elim
          | skip
      · simp only [SlideJoint.preStep, SlideJoint.getImpulse, fabs_real] at *
        split
        · exact ⟨s1, s2⟩
        · split
          · exact ⟨s1, s2⟩
          · simpa using hf
      · simp only [RatchetJoint.preStep, RatchetJoint.getImpulse, fabs_real] at *
        split_ifs <;> first | exact ⟨s1, s2⟩ | simpa using hf
      · simp only [RotaryLimitJoint.preStep, RotaryLimitJoint.getImpulse, fabs_real] at *
        split_ifs <;> first | exact ⟨s1, trivial⟩ | simpa using hf
    | cached h c =>
      cases j <;> simp only [Joint.call, Joint.applyCached, Joint.getImpulse, Joint.OneSided, Prod.map, Joint.con] at * <;>
        first
          | exact ⟨s1, trivial⟩
          | exact hl.elim
          | exact ⟨s1, s2⟩
    | apply h =>
      by_cases hact : j.Active
      · refine ⟨C18_maxForce_apply dt h j hf hl hact, ?_⟩
        cases j <;> try trivial
        · rename_i j
          simp only [Joint.call, Joint.applyImpulse, SlideJoint.applyImpulse, if_neg hact, Joint.OneSided, Prod.map, id]
          refine (C41_clamp_range _ _ _ ?_).2.1
          simp only [Joint.con] at hf; linarith
        · rename_i j
          simp only [Joint.call, Joint.applyImpulse, RatchetJoint.applyImpulse, if_neg hact.1, Joint.OneSided, Prod.map, id, fabs_real]
          exact (ratchet_clamp _ _ _ hf hv).2
      · cases j <;> try exact absurd trivial hact
        · rename_i j
          have : j.n.x = 0 ∧ j.n.y = 0 := by simpa [Joint.Active] using hact
          simp only [Joint.call, Joint.applyImpulse, SlideJoint.applyImpulse, if_pos this, Prod.map, id]
          exact ⟨s1, s2⟩
        · rename_i j
          have : j.bias = 0 := by
            by_contra hb
            exact hact ⟨hb, hv⟩
          simp only [Joint.call, Joint.applyImpulse, RatchetJoint.applyImpulse, if_pos this, Prod.map, id]
          exact ⟨s1, s2⟩
        · rename_i j
          have : j.bias = 0 := by simpa [Joint.Active] using hact
          simp only [Joint.call, Joint.applyImpulse, RotaryLimitJoint.applyImpulse, if_pos this, Prod.map, id]
          exact ⟨s1, s2⟩

/-- **C18**: `PreStep` limits the velocity correction to `MaxBias`, and no impulse changes it. -/
theorem C18_maxBias (dt : ℝ) (j : Joint ℝ) (h : Bodies ℝ) (hb : 0 ≤ j.con.maxBias) (hs : List (Bodies ℝ)) :
    (hs.foldl (fun x h => (x.applyImpulse h dt).2) (j.preStep h dt).2).biasSize ≤ j.con.maxBias := by
  have step : ∀ (x : Joint ℝ) (h : Bodies ℝ), (x.applyImpulse h dt).2.biasSize = x.biasSize := by
    intro x h
    cases x <;> simp only [Joint.applyImpulse, Joint.biasSize, Prod.map, SlideJoint.applyImpulse, RatchetJoint.applyImpulse,
      RotaryLimitJoint.applyImpulse, PinJoint.applyImpulse, PivotJoint.applyImpulse, GrooveJoint.applyImpulse, GearJoint.applyImpulse] <;>
      (try split) <;> rfl
  have all : ∀ (hs : List (Bodies ℝ)) (x : Joint ℝ), (hs.foldl (fun x h => (x.applyImpulse h dt).2) x).biasSize = x.biasSize := by
    intro hs
    induction hs with
    | nil => intro x; rfl
    | cons h hs ih => intro x; rw [List.foldl_cons, ih, step]
  rw [all]
  cases j with
  | pin j => exact abs_clamp_le _ _ hb
  | slide j => exact abs_clamp_le _ _ hb
  | pivot j => exact (C41_clampLen _ _ hb).1
  | groove j => exact (C41_clampLen _ _ hb).1
  | spring j => exact hb
  | rotarySpring j => exact hb
  | gear j => exact abs_clamp_le _ _ hb
  | ratchet j => exact abs_clamp_le _ _ hb
  | rotaryLimit j => exact abs_clamp_le _ _ hb
  | motor j => exact hb

theorem normalize_dot_self (v : Vec ℝ) : 0 ≤ v.normalize.dot v := (C41_normalize v).2.2.2

/-- **C18**: the impulse `n*jnAcc` a slide joint has applied to `b` points towards `a` when the anchors
are further apart than `Max`, away from `a` when they are closer than `Min`, and is zero in between;
for any number of iterations after `PreStep`, with any bodies in between. -/
theorem C18_slide_direction (dt : ℝ) (j : SlideJoint ℝ) (h : Bodies ℝ) (hj : j.jnAcc ≤ 0) (hf : 0 ≤ j.maxForce * dt)
    (hs : List (Bodies ℝ)) :
    let delta := ((h j.b).p.add (anchorOffset (h j.b) j.anchorB)).sub ((h j.a).p.add (anchorOffset (h j.a) j.anchorA))
    let j' := hs.foldl (fun x h => (x.applyImpulse h dt).2) (j.preStep h dt).2
    let J := j'.n.mult j'.jnAcc
    (j.max < delta.length → J.dot delta ≤ 0) ∧
    (¬ j.max < delta.length → delta.length < j.min → 0 ≤ J.dot delta) ∧
    (¬ j.max < delta.length → ¬ delta.length < j.min → J = ⟨0, 0⟩ ∧ j'.jnAcc = 0) := by
  intro delta j' J
  have inv : ∀ (hs : List (Bodies ℝ)) (x : SlideJoint ℝ), 0 ≤ x.maxForce * dt → x.jnAcc ≤ 0 →
      (hs.foldl (fun x h => (x.applyImpulse h dt).2) x).jnAcc ≤ 0 ∧
      (hs.foldl (fun x h => (x.applyImpulse h dt).2) x).n = x.n ∧
      (x.n = ⟨0, 0⟩ → (hs.foldl (fun x h => (x.applyImpulse h dt).2) x).jnAcc = x.jnAcc) := by
    intro hs
    induction hs with
    | nil => intro x _ hx; exact ⟨hx, rfl, fun _ => rfl⟩
    | cons h hs ih =>
      intro x hx0 hx
      rw [List.foldl_cons]
      by_cases hn : x.n.x = 0 ∧ x.n.y = 0
      · simp only [SlideJoint.applyImpulse, if_pos hn]
        exact ih x hx0 hx
      · simp only [SlideJoint.applyImpulse, if_neg hn]
        obtain ⟨i1, i2, -⟩ := ih { x with jnAcc := clamp (x.jnAcc + (x.bias - (relVel h x.a x.b x.r1 x.r2).dot x.n) * x.nMass) (-x.maxForce * dt) 0 }
          hx0 ((C41_clamp_range _ _ _ (by linarith)).2.1)
        exact ⟨i1, i2, fun he => absurd (by rw [he]; exact ⟨rfl, rfl⟩) hn⟩
  have pre : (j.preStep h dt).2.jnAcc ≤ 0 ∧ (j.preStep h dt).2.maxForce = j.maxForce := by
    refine ⟨?_, rfl⟩
    simp only [SlideJoint.preStep]
    split_ifs <;> first | exact hj | exact le_refl _
  obtain ⟨i1, i2, i3⟩ := inv hs (j.preStep h dt).2 (by rw [pre.2]; exact hf) pre.1
  have hJ : J.dot delta = j'.jnAcc * (j.preStep h dt).2.n.dot delta := by
    simp only [J, j', i2, Vec.dot, Vec.mult]; ring
  refine ⟨fun hd => ?_, fun hd hd2 => ?_, fun hd hd2 => ?_⟩
  · have hn : (j.preStep h dt).2.n = delta.normalize := by
      simp only [SlideJoint.preStep]
      rw [if_pos hd]
    rw [hJ, hn]
    exact mul_nonpos_of_nonpos_of_nonneg i1 (normalize_dot_self _)
  · have hn : (j.preStep h dt).2.n = delta.normalize.neg := by
      simp only [SlideJoint.preStep]
      rw [if_neg hd, if_pos hd2]
    rw [hJ, hn]
    have : delta.normalize.neg.dot delta = - delta.normalize.dot delta := by simp [Vec.neg, Vec.dot]; ring
    rw [this]
    have := normalize_dot_self delta
    nlinarith
  · have hn : (j.preStep h dt).2.n = ⟨0, 0⟩ := by
      simp only [SlideJoint.preStep]
      rw [if_neg hd, if_neg hd2]
    have hz : (j.preStep h dt).2.jnAcc = 0 := by
      simp only [SlideJoint.preStep]
      rw [if_neg hd, if_neg hd2]
    have hz' : j'.jnAcc = 0 := (i3 hn).trans hz
    refine ⟨?_, hz'⟩
    simp only [J, hz', Vec.mult, mul_zero]

theorem biasCoef_nonneg (e dt : ℝ) (h0 : 0 ≤ e) (h1 : e ≤ 1) (hd : 0 < dt) : 0 ≤ biasCoef e dt := by
  simp only [biasCoef, pow_real, sub_nonneg]
  exact Real.rpow_le_one h0 h1 hd.le

/-- **C18**: once it has been solved in this step, a rotary limit joint spins `b` back (torque impulse
`jAcc ≤ 0`) when `b`'s angle relative to `a` exceeds `Max`, forward when it is below `Min`, and does
nothing in between; for any number of iterations, with any bodies in between. -/
theorem C18_rotary_direction (dt : ℝ) (j : RotaryLimitJoint ℝ) (h h1 : Bodies ℝ) (hs : List (Bodies ℝ)) (hdt : 0 < dt)
    (he0 : 0 ≤ j.errorBias) (he1 : j.errorBias ≤ 1) (hb : 0 ≤ j.maxBias) (hf : 0 ≤ j.maxForce) :
    let dist := (h j.b).a - (h j.a).a
    let j' := (h1 :: hs).foldl (fun x h => (x.applyImpulse h dt).2) (j.preStep h dt).2
    (j.max < dist → j'.jAcc ≤ 0) ∧ (¬ j.max < dist → dist < j.min → 0 ≤ j'.jAcc) ∧
    (¬ j.max < dist → ¬ dist < j.min → j'.jAcc = 0) := by
  intro dist j'
  have hm : 0 ≤ j.maxForce * dt := by positivity
  have inv : ∀ (hs : List (Bodies ℝ)) (x : RotaryLimitJoint ℝ),
      (hs.foldl (fun x h => (x.applyImpulse h dt).2) x).bias = x.bias ∧
      (hs.foldl (fun x h => (x.applyImpulse h dt).2) x).maxForce = x.maxForce ∧
      (x.bias = 0 → (hs.foldl (fun x h => (x.applyImpulse h dt).2) x).jAcc = x.jAcc) := by
    intro hs
    induction hs with
    | nil => intro x; exact ⟨rfl, rfl, fun _ => rfl⟩
    | cons h hs ih =>
      intro x
      rw [List.foldl_cons]
      by_cases hn : x.bias = 0
      · simp only [RotaryLimitJoint.applyImpulse, if_pos hn]
        exact ih x
      · obtain ⟨i1, i2, -⟩ := ih (x.applyImpulse h dt).2
        refine ⟨i1.trans ?_, i2.trans ?_, fun he => absurd he hn⟩ <;>
        · simp only [RotaryLimitJoint.applyImpulse, if_neg hn]
  have last : ∀ (x : RotaryLimitJoint ℝ) (h : Bodies ℝ), 0 ≤ x.maxForce * dt → x.bias ≠ 0 →
      (x.bias < 0 → 0 ≤ (x.applyImpulse h dt).2.jAcc) ∧ (¬ x.bias < 0 → (x.applyImpulse h dt).2.jAcc ≤ 0) := by
    intro x h hx hn
    constructor
    · intro hl
      simp only [RotaryLimitJoint.applyImpulse, if_neg hn, if_pos hl]
      exact (C41_clamp_range _ _ _ hx).1
    · intro hl
      simp only [RotaryLimitJoint.applyImpulse, if_neg hn, if_neg hl]
      exact (C41_clamp_range _ _ _ (by linarith)).2.1
  -- sign after at least one iteration
  have sgn : ∀ (hs : List (Bodies ℝ)) (x : RotaryLimitJoint ℝ) (h1 : Bodies ℝ), 0 ≤ x.maxForce * dt → x.bias ≠ 0 →
      (x.bias < 0 → 0 ≤ ((h1 :: hs).foldl (fun x h => (x.applyImpulse h dt).2) x).jAcc) ∧
      (¬ x.bias < 0 → ((h1 :: hs).foldl (fun x h => (x.applyImpulse h dt).2) x).jAcc ≤ 0) := by
    intro hs
    induction hs with
    | nil => intro x h1 hx hn; exact last x h1 hx hn
    | cons h2 hs ih =>
      intro x h1 hx hn
      obtain ⟨e1, e2, -⟩ := inv [h1] x
      simp only [List.foldl_cons, List.foldl_nil] at e1 e2
      have := ih (x.applyImpulse h1 dt).2 h2 (by rw [e2]; exact hx) (by rw [e1]; exact hn)
      rw [e1] at this
      exact this
  have hc := biasCoef_nonneg j.errorBias dt he0 he1 hdt
  have bias_zero : (j.preStep h dt).2.bias = 0 → j'.jAcc = 0 := by
    intro hz
    have := (inv (h1 :: hs) (j.preStep h dt).2).2.2 hz
    refine this.trans ?_
    simp only [RotaryLimitJoint.preStep] at hz ⊢
    rw [if_pos hz]
  have hmf : (j.preStep h dt).2.maxForce = j.maxForce := rfl
  refine ⟨fun hd => ?_, fun hd hd2 => ?_, fun hd hd2 => ?_⟩
  · by_cases hz : (j.preStep h dt).2.bias = 0
    · exact (bias_zero hz).le
    · refine (sgn hs _ h1 (by rw [hmf]; exact hm) hz).2 ?_
      simp only [RotaryLimitJoint.preStep]
      rw [if_pos hd, clamp_eq_real _ _ _ (by linarith), not_lt]
      refine le_max_of_le_right (le_min ?_ hb)
      refine div_nonneg ?_ hdt.le
      simp only [dist] at hd
      nlinarith
  · by_cases hz : (j.preStep h dt).2.bias = 0
    · exact (bias_zero hz).ge
    · refine (sgn hs _ h1 (by rw [hmf]; exact hm) hz).1 (lt_of_le_of_ne ?_ hz)
      simp only [RotaryLimitJoint.preStep]
      rw [if_neg hd, if_pos hd2, clamp_eq_real _ _ _ (by linarith)]
      refine max_le (by linarith) (min_le_of_left_le ?_)
      refine div_nonpos_of_nonpos_of_nonneg ?_ hdt.le
      simp only [dist] at hd2
      nlinarith
  · refine bias_zero ?_
    simp only [RotaryLimitJoint.preStep]
    rw [if_neg hd, if_neg hd2, mul_zero, zero_div, clamp_eq_real _ _ _ (by linarith)]
    rw [min_eq_left hb, max_eq_right (by linarith)]

/-- **C18**: what the limit joints cannot promise: a slide joint with `Min > 0` whose anchors coincide
has no direction, applies nothing, and keeps reporting the impulse of an earlier (longer) step. -/
theorem C18_slide_degenerate : ∃ (j : SlideJoint ℝ) (h : Bodies ℝ) (dt : ℝ), 0 < dt ∧ 0 ≤ j.maxForce ∧ j.jnAcc ≤ 0 ∧
    ∀ h', j.maxForce * dt < ((j.preStep h dt).2.applyImpulse h' dt).2.getImpulse := by
  let b : Body ℝ := Body.new 1 1
  refine ⟨⟨⟨0, 1, 1, 1, 1⟩, ⟨0, 0⟩, ⟨0, 0⟩, 1, 2, ⟨0, 0⟩, ⟨0, 0⟩, ⟨0, 0⟩, 0, -5, 0⟩, fun _ => b, 1, one_pos, zero_le_one,
    by norm_num, ?_⟩
  intro h'
  have hd : (((b.p.add (anchorOffset b ⟨0, 0⟩)).sub (b.p.add (anchorOffset b ⟨0, 0⟩))) : Vec ℝ) = ⟨0, 0⟩ := by
    ext <;> simp [Vec.sub]
  have hl : (⟨0, 0⟩ : Vec ℝ).length = 0 := by simp [Vec.length, Vec.dot]
  have hnn : (⟨0, 0⟩ : Vec ℝ).normalize.neg = ⟨0, 0⟩ := by
    ext <;> simp [Vec.normalize, Vec.neg, Vec.mult]
  simp only [SlideJoint.preStep, hd, hl, hnn]
  norm_num [SlideJoint.applyImpulse, SlideJoint.getImpulse, hnn]

/-! ### Non-vacuity -/

/-- A reachable arbiter with one contact, solved once: the cone theorem applies with friction 1/2. -/
example : ∃ arb : Arb ℝ, Arb.Reach arb ∧ arb.contacts.length = 1 ∧ 0 < arb.u := by
  let arb : Arb ℝ := ⟨0, 0, ⟨0, 0⟩, 0, 1, [], ⟨1, 0⟩, true⟩
  refine ⟨_, Arb.Reach.apply (fun _ => Body.new 1 1) _ (Arb.Reach.preStep (fun _ => Body.new 1 1) _ 1 0 0
    (Arb.Reach.update (fun _ => Body.new 1 1) arb 0 1 ⟨1, 0⟩ [⟨⟨0, 0⟩, ⟨0, 0⟩, 0, 0, 0, 0, 0, 0, 0, 7⟩] 1 1 1 (1 / 2) ⟨0, 0⟩ ⟨0, 0⟩
      false (Arb.Reach.new arb rfl))), ?_, ?_⟩
  · simp [Arb.applyImpulse, Arb.applyLoop, Arb.preStep, Arb.update, Arb.updateContacts]
  · simp [Arb.applyImpulse, Arb.applyLoop, Arb.preStep, Arb.update, Arb.updateContacts]

/-- A motor of limited force on two bodies spinning apart: after one call it reports exactly its limit,
so the bound of `C18_maxForce` is attained. -/
example : let j : SimpleMotor ℝ := ⟨⟨0, 1, 2, 1, 1⟩, 100, 0, 0⟩
    let j' := [JointCall.preStep (fun _ => { Body.new (1 : ℝ) 1 with i_inv := 1 }),
      .apply (fun _ => { Body.new (1 : ℝ) 1 with i_inv := 1, w := 0 })].foldl (Joint.call 1) (.motor j)
    j'.getImpulse = 2 * 1 ∧ j'.getImpulse ≤ j.maxForce * 1 := by
  norm_num [Joint.call, Joint.preStep, Joint.applyImpulse, SimpleMotor.preStep, SimpleMotor.applyImpulse, Joint.getImpulse,
    SimpleMotor.getImpulse, clamp]

end CP
