import Verif.Proofs.SpaceReshape
import Verif.Spec.Callbacks

/-! # The callbacks made so far agree with the states of the arbiters -/

namespace CP
variable {F : Type}

/-- States in which the shapes do not touch. -/
def ArbState.closed : ArbState → Prop
  | .cached => True
  | .invalidated => True
  | _ => False

namespace Sp

/-- The arbiter of the pair says that the shapes touch. -/
def Open (s : Sp F) (p q x : Nat) : Prop :=
  x < s.arbBound ∧ x ∉ s.pool ∧ ¬ (s.arbs x).state.closed ∧ s.samePair p q x = true

/-- Callbacks and arbiters agree. -/
structure TraceInv (L : Nat → List Nat) (s : Sp F) : Prop where
  agree : ∀ p q, ∃ t, proto p q s.trace = some t ∧ (t = true ↔ ∃ x, Open s p q x)
  threaded : ∀ x, InL L s x → ¬ (s.arbs x).state.closed

theorem TraceInv.congr {L : Nat → List Nat} {s t : Sp F} (h : TraceInv L s) (h1 : t.trace = s.trace)
    (h2 : t.arbBound = s.arbBound) (h3 : t.pool = s.pool)
    (h4 : ∀ x, (t.arbs x).a = (s.arbs x).a ∧ (t.arbs x).b = (s.arbs x).b ∧ (t.arbs x).bodyA = (s.arbs x).bodyA ∧
      ((t.arbs x).state.closed ↔ (s.arbs x).state.closed)) : TraceInv L t := by
  have hp : ∀ a b x, t.samePair a b x = s.samePair a b x := fun a b x => by
    simp only [samePair, (h4 x).1, (h4 x).2.1]
  have ho : ∀ p q x, Open t p q x ↔ Open s p q x := fun p q x => by
    simp only [Open, h2, h3, hp, (h4 x).2.2.2]
  refine ⟨fun p q => ?_, fun x hx => ?_⟩
  · obtain ⟨b, e, hb⟩ := h.agree p q
    exact ⟨b, by rw [h1]; exact e, by rw [hb]; simp only [ho]⟩
  · rw [(h4 x).2.2.2]
    exact h.threaded x (by simpa only [InL, (h4 x).2.2.1] using hx)

theorem TraceInv.less {L L' : Nat → List Nat} {s : Sp F} (h : TraceInv L s) (hl : ∀ x, InL L' s x → InL L s x) :
    TraceInv L' s := ⟨h.agree, fun x hx => h.threaded x (hl x hx)⟩

variable [GoFloat F]

theorem Woke.traceInv {L : Nat → List Nat} {s t : Sp F} (w : Woke s t) (h : TraceInv L s) : TraceInv L t :=
  h.congr w.trace w.arbBound w.pool fun x => ⟨(w.arbs x).a, (w.arbs x).b, (w.arbs x).bodyA, by rw [(w.arbs x).state]⟩

theorem Same.traceInv {L : Nat → List Nat} {s t : Sp F} (w : Same s t) (h : TraceInv L s) : TraceInv L t :=
  h.congr w.trace w.arbBound w.pool fun x => ⟨(w.arbs x).a, (w.arbs x).b, (w.arbs x).bodyA, by rw [(w.arbs x).state]⟩

/-- No arbiter in use is invalidated, first contacts are in the lists, and no stamp lies in the future. -/
def Valid (L : Nat → List Nat) (rest : List Nat) (s : Sp F) : Prop := ∀ x, x < s.arbBound → x ∉ s.pool →
  (s.arbs x).state ≠ .invalidated ∧ ((s.arbs x).state = .first → InL L s x ∨ x ∈ rest) ∧ (s.arbs x).stamp ≤ s.stamp

/-- All invariants. -/
structure Good (L : Nat → List Nat) (rest : List Nat) (s : Sp F) : Prop where
  inv : Inv L rest s
  tr : TraceInv L s
  valid : Valid L rest s

theorem Woke.valid {L : Nat → List Nat} {rest : List Nat} {s t : Sp F} (w : Woke s t) (h : Valid L rest s) :
    Valid L rest t := by
  intro x; rw [w.arbBound, w.pool, (w.arbs x).state, w.inL, w.stamp]
  intro h1 h2
  obtain ⟨a, b, c⟩ := h x h1 h2
  refine ⟨a, b, ?_⟩
  rcases w.stamps x with e | ⟨e, -⟩
  · rw [e]; exact c
  · rw [e]

theorem Same.valid {L : Nat → List Nat} {rest : List Nat} {s t : Sp F} (w : Same s t) (h : Valid L rest s) :
    Valid L rest t := by
  intro x; rw [w.arbBound, w.pool, (w.arbs x).state, w.inL, w.stamp]
  intro h1 h2
  obtain ⟨a, b, c⟩ := h x h1 h2
  refine ⟨a, b, ?_⟩
  rcases w.stamps x with e | ⟨e, -⟩
  · rw [e]; exact c
  · rw [e]

theorem ArbState.closed_iff {st : ArbState} (h : st ≠ .invalidated) : st.closed ↔ st = .cached := by
  cases st <;> simp_all [ArbState.closed]

omit [GoFloat F] in
theorem samePair_iff (s : Sp F) (p q x : Nat) : s.samePair p q x = true ↔
    ((s.arbs x).a = p ∧ (s.arbs x).b = q) ∨ ((s.arbs x).a = q ∧ (s.arbs x).b = p) := by
  simp [samePair]

/-- Two live arbiters of the same pair are equal. -/
theorem Inv.open_unique {L : Nat → List Nat} {rest : List Nat} {s : Sp F} (h : Inv L rest s) {p q x y : Nat}
    (hx : x < s.arbBound ∧ x ∉ s.pool) (hy : y < s.arbBound ∧ y ∉ s.pool)
    (px : s.samePair p q x = true) (py : s.samePair p q y = true) : x = y := by
  refine h.full.core.arb.uniq x y (h.full.core.arb.noLeak x hx.1 hx.2) (h.full.core.arb.noLeak y hy.1 hy.2) ?_
  rw [samePair_iff] at *
  omega

omit [GoFloat F] in
/-- One more callback, for arbiter `x`. -/
theorem agree_event {s t : Sp F} (h : ∀ p q, ∃ t, proto p q s.trace = some t ∧ (t = true ↔ ∃ x, Open s p q x))
    {x a b n : Nat} {k : EvKind} {before after : Bool} (htr : t.trace = s.trace ++ [⟨k, a, b, n⟩])
    (hk : protoNext (some before) k = some after)
    (ho : ∀ y, y ≠ x → ∀ p q, Open t p q y ↔ Open s p q y)
    (hs : ∀ p q, Open s p q x ↔ before = true ∧ ((a = p ∧ b = q) ∨ (a = q ∧ b = p)))
    (ht : ∀ p q, Open t p q x ↔ after = true ∧ ((a = p ∧ b = q) ∨ (a = q ∧ b = p)))
    (hn : ∀ y, y ≠ x → ¬ Open s a b y) (p q : Nat) :
    ∃ z, proto p q t.trace = some z ∧ (z = true ↔ ∃ x, Open t p q x) := by
  obtain ⟨z, e, hz⟩ := h p q
  have hsym : ∀ y, ((a = p ∧ b = q) ∨ (a = q ∧ b = p)) → Open s p q y → Open s a b y := by
    rintro y (⟨rfl, rfl⟩ | ⟨rfl, rfl⟩) hy
    · exact hy
    · refine ⟨hy.1, hy.2.1, hy.2.2.1, ?_⟩
      have := hy.2.2.2
      rw [samePair_iff] at this ⊢
      omega
  rw [htr, proto_concat, e, protoStep]
  by_cases hab : (a = p ∧ b = q) ∨ (a = q ∧ b = p)
  · have e1 : (⟨k, a, b, n⟩ : Ev).about p q = true := by simpa [Ev.about] using hab
    rw [if_pos e1]
    have hzb : z = before := by
      have h1 : (∃ x, Open s p q x) ↔ before = true := by
        constructor
        · rintro ⟨y, hy⟩
          by_cases hyx : y = x
          · subst hyx; exact ((hs p q).1 hy).1
          · exact absurd (hsym y hab hy) (hn y hyx)
        · intro hb; exact ⟨x, (hs p q).2 ⟨hb, hab⟩⟩
      rw [h1] at hz
      cases z <;> cases before <;> simp_all
    rw [hzb, hk]
    refine ⟨after, rfl, ?_⟩
    constructor
    · intro ha; exact ⟨x, (ht p q).2 ⟨ha, hab⟩⟩
    · rintro ⟨y, hy⟩
      by_cases hyx : y = x
      · subst hyx; exact ((ht p q).1 hy).1
      · rw [ho y hyx] at hy
        exact absurd (hsym y hab hy) (hn y hyx)
  · have e1 : ¬ (⟨k, a, b, n⟩ : Ev).about p q = true := by simpa [Ev.about] using hab
    rw [if_neg e1]
    refine ⟨z, rfl, ?_⟩
    rw [hz]
    constructor
    · rintro ⟨y, hy⟩
      by_cases hyx : y = x
      · subst hyx; exact absurd ((hs p q).1 hy).2 hab
      · exact ⟨y, (ho y hyx p q).2 hy⟩
    · rintro ⟨y, hy⟩
      by_cases hyx : y = x
      · subst hyx; exact absurd ((ht p q).1 hy).2 hab
      · exact ⟨y, (ho y hyx p q).1 hy⟩

/-- PreSolve or PostSolve of an arbiter whose shapes touch. -/
theorem emit_trace {L L0 : Nat → List Nat} {rest : List Nat} {s : Sp F} (h : Inv L0 rest s) (tr : TraceInv L s)
    {x : Nat} {k : EvKind} (hk : k = .preSolve ∨ k = .postSolve) (hb : x < s.arbBound) (hp : x ∉ s.pool)
    (hs : ¬ (s.arbs x).state.closed) : TraceInv L (s.emit k x) := by
  have hx : ∀ p q, Open s p q x ↔ true = true ∧
      (((s.arbs x).a = p ∧ (s.arbs x).b = q) ∨ ((s.arbs x).a = q ∧ (s.arbs x).b = p)) := by
    intro p q
    rw [← samePair_iff]
    exact ⟨fun e => ⟨rfl, e.2.2.2⟩, fun e => ⟨hb, hp, hs, e.2⟩⟩
  refine ⟨agree_event tr.agree (x := x) (before := true) (after := true) (n := s.stamp) (k := k) rfl ?_
    (fun y _ p q => Iff.rfl) hx (fun p q => hx p q) ?_, tr.threaded⟩
  · rcases hk with rfl | rfl <;> rfl
  · intro y hy ho
    exact hy (h.open_unique ⟨ho.1, ho.2.1⟩ ⟨hb, hp⟩ ho.2.2.2 (samePair_self s x))

/-- Separate of an arbiter whose shapes touch: its new state is closed. -/
theorem separate_trace {L : Nat → List Nat} {rest : List Nat} {s : Sp F} (h : Inv L rest s) (tr : TraceInv L s)
    {x : Nat} {st : ArbState} (hst : st.closed) (hb : x < s.arbBound) (hp : x ∉ s.pool)
    (hs : ¬ (s.arbs x).state.closed) :
    TraceInv (popL L x) ((s.setArb x fun r => { r with state := st }).emit .separate x) := by
  have hx : ∀ p q, Open s p q x ↔ true = true ∧
      (((s.arbs x).a = p ∧ (s.arbs x).b = q) ∨ ((s.arbs x).a = q ∧ (s.arbs x).b = p)) := by
    intro p q
    rw [← samePair_iff]
    exact ⟨fun e => ⟨rfl, e.2.2.2⟩, fun e => ⟨hb, hp, hs, e.2⟩⟩
  have ey : ∀ y, y ≠ x → ((s.setArb x fun r => { r with state := st }).emit .separate x).arbs y = s.arbs y := by
    intro y hy; simp [emit, setArb, hy]
  refine ⟨agree_event tr.agree (x := x) (before := true) (after := false) (n := s.stamp) (k := .separate)
    (a := (s.arbs x).a) (b := (s.arbs x).b) ?_ rfl ?_ hx ?_ ?_, ?_⟩
  · simp [emit, setArb]
  · intro y hy p q
    simp only [Open, samePair, ey y hy]
    rfl
  · intro p q
    refine ⟨fun e => absurd ?_ e.2.2.1, fun e => by simp at e⟩
    simpa [emit, setArb] using hst
  · intro y hy ho
    exact hy (h.open_unique ⟨ho.1, ho.2.1⟩ ⟨hb, hp⟩ ho.2.2.2 (samePair_self s x))
  · intro y hy
    have hbA : (((s.setArb x fun r => { r with state := st }).emit .separate x).arbs y).bodyA = (s.arbs y).bodyA := by
      by_cases e : y = x
      · subst e; simp [emit, setArb]
      · rw [ey y e]
    have hy' : y ∈ (L (s.arbs y).bodyA).erase x := by
      have : y ∈ popL L x _ := hy
      rwa [hbA] at this
    by_cases e : y = x
    · subst e
      exact absurd hy' ((h.full.core.thread.nodup _).not_mem_erase)
    · rw [ey y e]; exact tr.threaded y (List.mem_of_mem_erase hy')

end Sp
end CP
