import Verif.Proofs.SpaceWake

/-! # The full invariant and `Body.Activate` -/

namespace CP
variable {F : Type}
namespace Sp

/-- The deactivated bodies: those of the sleeping components and those waiting to be woken. -/
def off (s : Sp F) (b : Nat) : Prop := (∃ r ∈ s.sleeping, (s.bodies b).root = some r) ∨ b ∈ s.roused

/-- The invariant of the space with the lists `L` of threaded arbiters. -/
structure Full (L : Nat → List Nat) (rest : List Nat) (s : Sp F) : Prop where
  core : Core s.off L rest s
  sleep : SleepInv s.off s
  quiet : Quiet s

theorem Full.of {A : Nat → Prop} {L : Nat → List Nat} {rest : List Nat} {s : Sp F} (c : Core A L rest s)
    (h : SleepInv A s) (q : Quiet s) : Full L rest s := by
  have e : A = s.off := funext fun b => propext (h.aIff b)
  subst e
  exact ⟨c, h, q⟩

theorem Full.off_iff {L : Nat → List Nat} {rest : List Nat} {s : Sp F} (h : Full L rest s) (b : Nat) :
    s.off b ↔ (s.bodies b).root ≠ none ∨ b ∈ s.roused := by
  constructor
  · rintro (⟨r, _, e⟩ | e)
    · left; rw [e]; simp
    · exact Or.inr e
  · rintro (e | e)
    · obtain ⟨r, hr⟩ := Option.ne_none_iff_exists'.1 e
      exact Or.inl ⟨r, h.quiet b r hr, hr⟩
    · exact Or.inr e

theorem Full.root_dynamic {L : Nat → List Nat} {rest : List Nat} {s : Sp F} (h : Full L rest s) {b : Nat}
    (e : (s.bodies b).root ≠ none) : (s.bodies b).inSpace = true ∧ s.typ b = .dynamic :=
  h.core.body.off b ((h.off_iff b).2 (Or.inl e))

variable [GoFloat F]

/-- What waking bodies up does to the rest of the space. -/
structure Woke (s t : Sp F) : Prop where
  nBodies : t.nBodies = s.nBodies
  nCons : t.nCons = s.nCons
  bodies : ∀ b, BodyEq (s.bodies b) (t.bodies b)
  idle : ∀ b, (t.bodies b).idle = (s.bodies b).idle ∨ (t.bodies b).idle = .time 0
  root : ∀ b, (t.bodies b).root = (s.bodies b).root ∨ (t.bodies b).root = none
  comp : ∀ b c, (s.bodies b).root = (s.bodies c).root → (t.bodies b).root = (t.bodies c).root
  shapes : t.shapes = s.shapes
  cons : t.cons = s.cons
  arbs : ∀ x, ArbEq (s.arbs x) (t.arbs x)
  arbBound : t.arbBound = s.arbBound
  threshold : t.threshold = s.threshold
  staticBody : t.staticBody = s.staticBody
  staticBodies : t.staticBodies = s.staticBodies
  sleeping : t.sleeping.Sublist s.sleeping
  pool : t.pool = s.pool
  locked : t.locked = s.locked
  stamp : t.stamp = s.stamp
  trace : t.trace = s.trace
  head : s.head ≠ none → t.head ≠ none
  lockedEq : s.locked ≠ 0 → t = { s with bodies := t.bodies, sleeping := t.sleeping, roused := t.roused }
  lockedOff : s.locked ≠ 0 → ∀ b, t.off b ↔ s.off b
  stamps : ∀ x, (t.arbs x).stamp = (s.arbs x).stamp ∨ ((t.arbs x).stamp = s.stamp ∧ s.Threaded x)

namespace Woke
theorem refl (s : Sp F) : Woke s s where
  nBodies := rfl
  nCons := rfl
  bodies _ := .refl _
  idle _ := .inl rfl
  root _ := .inl rfl
  comp _ _ := id
  shapes := rfl
  cons := rfl
  arbs _ := .refl _
  arbBound := rfl
  threshold := rfl
  staticBody := rfl
  staticBodies := rfl
  sleeping := .refl _
  pool := rfl
  locked := rfl
  stamp := rfl
  trace := rfl
  head := id
  lockedEq _ := rfl
  lockedOff _ _ := .rfl
  stamps _ := .inl rfl

theorem trans {s t u : Sp F} (h : Woke s t) (k : Woke t u) : Woke s u where
  nBodies := k.nBodies.trans h.nBodies
  nCons := k.nCons.trans h.nCons
  bodies b := (h.bodies b).trans (k.bodies b)
  idle b := by
    rcases k.idle b with e | e
    · rw [e]; exact h.idle b
    · exact .inr e
  root b := by
    rcases k.root b with e | e
    · rw [e]; exact h.root b
    · exact .inr e
  comp b c e := k.comp b c (h.comp b c e)
  shapes := k.shapes.trans h.shapes
  cons := k.cons.trans h.cons
  arbs x := (h.arbs x).trans (k.arbs x)
  arbBound := k.arbBound.trans h.arbBound
  threshold := k.threshold.trans h.threshold
  staticBody := k.staticBody.trans h.staticBody
  staticBodies := k.staticBodies.trans h.staticBodies
  sleeping := k.sleeping.trans h.sleeping
  pool := k.pool.trans h.pool
  locked := k.locked.trans h.locked
  stamp := k.stamp.trans h.stamp
  trace := k.trace.trans h.trace
  head e := k.head (h.head e)
  lockedEq hl := by
    have e2 := k.lockedEq (by rw [h.locked]; exact hl)
    have e1 := h.lockedEq hl
    rw [e1] at e2
    exact e2
  lockedOff hl b := (k.lockedOff (by rw [h.locked]; exact hl) b).trans (h.lockedOff hl b)
  stamps := stamps_trans (threaded_congr h.arbs h.arbBound fun b => (h.bodies b).arbs) h.stamp h.stamps k.stamps

variable {s t : Sp F} (h : Woke s t)
include h
theorem typ (b : Nat) : t.typ b = s.typ b := (h.bodies b).typ
theorem owner (x : Nat) : t.owner x = s.owner x := by
  simp only [Sp.owner, h.typ, (h.arbs x).bodyA, (h.arbs x).bodyB]
theorem conOwner (c : Nat) : t.conOwner c = s.conOwner c := by simp only [Sp.conOwner, h.typ, h.cons]
theorem samePair (a b x : Nat) : t.samePair a b x = s.samePair a b x := by
  simp only [Sp.samePair, (h.arbs x).a, (h.arbs x).b]
theorem inL (L : Nat → List Nat) (x : Nat) : InL L t x ↔ InL L s x := by
  simp only [InL, (h.arbs x).bodyA]
theorem otherBody (b x : Nat) : t.otherBody b x = s.otherBody b x := by
  simp only [Sp.otherBody, (h.arbs x).bodyA, (h.arbs x).bodyB]
end Woke

/-- Changing bodies only in what does not matter here. -/
theorem Full.mapIdle {L : Nat → List Nat} {rest : List Nat} {s : Sp F} (h : Full L rest s)
    (B : Nat → BodyR F) (hB : ∀ b, BodyEq (s.bodies b) (B b)) (hr : ∀ b, (B b).root = (s.bodies b).root)
    (hn : ∀ b, (B b).next = (s.bodies b).next) : Full L rest { s with bodies := B } := by
  have hoff : ∀ b, s.off b ↔ ({ s with bodies := B } : Sp F).off b := by
    intro b
    show _ ↔ ((∃ r ∈ s.sleeping, (B b).root = some r) ∨ b ∈ s.roused)
    rw [hr]; exact .rfl
  refine ⟨(h.core.mapBodies B hB).congrA hoff, ⟨fun b => .rfl, h.sleep.rousedNodup, ?_, h.sleep.sleepNodup, ?_, ?_,
    h.sleep.rouseLock⟩, ?_⟩
  · intro b hb; show (B b).root = none; rw [hr]; exact h.sleep.rousedRoot b hb
  · intro r hrs
    obtain ⟨l, hc, hm⟩ := h.sleep.chain r hrs
    refine ⟨l, hc.congr fun x _ => hn x, fun b => ?_⟩
    show _ ↔ (B b).root = some r
    rw [hr]; exact hm b
  · intro b hb
    show (B b).next = none
    rw [hn]; exact h.sleep.rootless b (by rw [← hr]; exact hb)
  · intro b r hb
    exact h.quiet b r (by rw [← hr]; exact hb)

theorem Woke.mapIdle {s : Sp F} (B : Nat → BodyR F) (hB : ∀ b, BodyEq (s.bodies b) (B b))
    (hr : ∀ b, (B b).root = (s.bodies b).root)
    (hi : ∀ b, (B b).idle = (s.bodies b).idle ∨ (B b).idle = .time 0) : Woke s { s with bodies := B } where
  nBodies := rfl
  nCons := rfl
  bodies := hB
  idle := hi
  root b := .inl (hr b)
  comp b c e := by show (B b).root = (B c).root; rw [hr, hr, e]
  shapes := rfl
  cons := rfl
  arbs _ := .refl _
  arbBound := rfl
  threshold := rfl
  staticBody := rfl
  staticBodies := rfl
  sleeping := .refl _
  pool := rfl
  locked := rfl
  stamp := rfl
  trace := rfl
  head := id
  lockedEq _ := rfl
  lockedOff _ b := by
    show ((∃ r ∈ s.sleeping, (B b).root = some r) ∨ b ∈ s.roused) ↔ _
    rw [hr]; exact .rfl
  stamps _ := .inl rfl

/-- Only idle times differ, those that differ are zero. -/
structure Zeroed (s t : Sp F) : Prop where
  eq : t = { s with bodies := t.bodies }
  body : ∀ b, t.bodies b = s.bodies b ∨ (s.typ b ≠ .static ∧ t.bodies b = { s.bodies b with idle := .time 0 })

theorem Zeroed.refl (s : Sp F) : Zeroed s s := ⟨rfl, fun _ => .inl rfl⟩
theorem Zeroed.bodyEq {s t : Sp F} (h : Zeroed s t) (b : Nat) : BodyEq (s.bodies b) (t.bodies b) := by
  rcases h.body b with e | ⟨e1, e2⟩
  · rw [e]; exact .refl _
  · rw [e2]; exact bodyEq_zero e1
theorem Zeroed.root {s t : Sp F} (h : Zeroed s t) (b : Nat) : (t.bodies b).root = (s.bodies b).root := by
  rcases h.body b with e | ⟨_, e⟩ <;> rw [e]
theorem Zeroed.next {s t : Sp F} (h : Zeroed s t) (b : Nat) : (t.bodies b).next = (s.bodies b).next := by
  rcases h.body b with e | ⟨_, e⟩ <;> rw [e]
theorem Zeroed.idle {s t : Sp F} (h : Zeroed s t) (b : Nat) :
    (t.bodies b).idle = (s.bodies b).idle ∨ (t.bodies b).idle = .time 0 := by
  rcases h.body b with e | ⟨_, e⟩ <;> rw [e] <;> simp
theorem Zeroed.trans {s t u : Sp F} (h : Zeroed s t) (k : Zeroed t u) : Zeroed s u := by
  refine ⟨?_, fun b => ?_⟩
  · have e1 := k.eq
    rw [h.eq] at e1
    exact e1
  · have ht : t.typ b = s.typ b := (h.bodyEq b).typ
    rcases k.body b with e | ⟨e1, e2⟩
    · rw [e]; exact h.body b
    · right
      rw [ht] at e1
      refine ⟨e1, ?_⟩
      rw [e2]
      rcases h.body b with e | ⟨_, e⟩ <;> rw [e]
theorem zeroIdle_zeroed {s : Sp F} {b : Nat} (h : s.typ b ≠ .static) : Zeroed s (s.zeroIdle b) := by
  refine ⟨rfl, fun x => ?_⟩
  by_cases hx : x = b
  · subst hx; right; exact ⟨h, by simp [zeroIdle, setBody]⟩
  · left; simp [zeroIdle, setBody, Function.update_of_ne hx]

theorem Full.zeroed {L : Nat → List Nat} {rest : List Nat} {s t : Sp F} (h : Full L rest s) (z : Zeroed s t) :
    Full L rest t := by
  rw [z.eq]; exact h.mapIdle _ z.bodyEq z.root z.next
theorem Zeroed.woke {s t : Sp F} (z : Zeroed s t) : Woke s t := by
  rw [z.eq]; exact Woke.mapIdle _ z.bodyEq z.root z.idle

/-- Setting idle times to zero. -/
theorem zero_loop (b : Nat) : ∀ (l : List Nat) (s : Sp F),
    Zeroed s (l.foldl (fun s x =>
      if s.typ (s.otherBody b x) ≠ .static then s.zeroIdle (s.otherBody b x) else s) s)
  | [], s => .refl s
  | x :: l, s => by
    refine Zeroed.trans ?_ (zero_loop b l _)
    dsimp only
    split_ifs with hs
    · exact zeroIdle_zeroed hs
    · exact .refl s

theorem wakeAll_root (l : List Nat) (B : Nat → BodyR F) (r : Nat) (hm : ∀ b, b ∈ l ↔ (B b).root = some r) (x : Nat) :
    (wakeAll l B x).root = if (B x).root = some r then none else (B x).root := by
  unfold wakeAll
  by_cases h : x ∈ l
  · rw [if_pos h, if_pos ((hm x).1 h)]
  · rw [if_neg h, if_neg (fun e => h ((hm x).2 e))]

theorem wakeAll_next (l : List Nat) (B : Nat → BodyR F) (x : Nat) (h : x ∉ l) :
    (wakeAll l B x).next = (B x).next := by
  unfold wakeAll; rw [if_neg h]

/-- The wake-up of a component. -/
theorem wake_component {L : Nat → List Nat} {rest : List Nat} {s : Sp F} (h : Full L rest s) {r : Nat}
    (hr : r ∈ s.sleeping) :
    ∃ t, wakeChain s.nBodies s (some r) = some t ∧ Full L rest { t with sleeping := t.sleeping.erase r } ∧
      Woke s { t with sleeping := t.sleeping.erase r } ∧ t.sleeping = s.sleeping ∧
      ∀ x, (t.bodies x).root = if (s.bodies x).root = some r then none else (s.bodies x).root := by
  obtain ⟨l, hc, hm⟩ := h.sleep.chain r hr
  have hA : ∀ b ∈ l, s.off b := fun b hb => Or.inl ⟨r, hr, (hm b).1 hb⟩
  have hlen : l.length ≤ s.nBodies :=
    nodup_length_le hc.nodup fun b hb => h.core.body.bound b (h.core.body.off b (hA b hb)).1
  have hdyn : ∀ b ∈ l, s.typ b ≠ .static := fun b hb => by rw [(h.core.body.off b (hA b hb)).2]; simp
  have hB := bodyEq_wakeAll (s := s) hdyn
  have hroot := wakeAll_root l s.bodies r hm
  have hidle : ∀ b, (wakeAll l s.bodies b).idle = (s.bodies b).idle ∨ (wakeAll l s.bodies b).idle = .time 0 := by
    intro b; unfold wakeAll; split_ifs <;> simp
  have hroot2 : ∀ b, (wakeAll l s.bodies b).root = (s.bodies b).root ∨ (wakeAll l s.bodies b).root = none := by
    intro b; rw [hroot]; split_ifs <;> simp
  have hcomp : ∀ b c, (s.bodies b).root = (s.bodies c).root →
      (wakeAll l s.bodies b).root = (wakeAll l s.bodies c).root := by
    intro b c e; rw [hroot, hroot, e]
  have hsl : ∀ r', r' ∈ s.sleeping.erase r ↔ r' ≠ r ∧ r' ∈ s.sleeping := fun r' => h.sleep.sleepNodup.mem_erase_iff
  have hchain : ∀ r' ∈ s.sleeping.erase r, ∃ l', IsChain (fun b => (wakeAll l s.bodies b).next) (some r') l' ∧
      ∀ b, b ∈ l' ↔ (wakeAll l s.bodies b).root = some r' := by
    intro r' hr'
    obtain ⟨hne, hr'⟩ := (hsl r').1 hr'
    obtain ⟨l', hc', hm'⟩ := h.sleep.chain r' hr'
    refine ⟨l', hc'.congr fun x hx => wakeAll_next l s.bodies x fun hxl => ?_, fun b => ?_⟩
    · have e1 := (hm' x).1 hx
      have e2 := (hm x).1 hxl
      rw [e1] at e2; exact hne (by simpa using e2)
    · rw [hroot, hm' b]
      split_ifs with e
      · rw [e]; simp; exact fun e => hne e.symm
      · rfl
  have hrootless : ∀ b, (wakeAll l s.bodies b).root = none → (wakeAll l s.bodies b).next = none := by
    intro b
    unfold wakeAll
    split_ifs with hb
    · simp
    · exact h.sleep.rootless b
  have hquiet : ∀ b r', (wakeAll l s.bodies b).root = some r' → r' ∈ s.sleeping.erase r := by
    intro b r' e
    rw [hroot] at e
    split_ifs at e with e'
    rw [hsl]
    exact ⟨fun e2 => e' (by rw [e, e2]), h.quiet b r' e⟩
  have hlr : ∀ b ∈ l, b ∉ s.roused := fun b hb hR => by
    have := h.sleep.rousedRoot b hR
    rw [(hm b).1 hb] at this; simp at this
  by_cases hl : s.locked = 0
  · obtain ⟨t, e1, c1, s1, r1, -⟩ := wakeChain_unlocked l s.nBodies s (some r) s.off hlen hc h.core hl hA
    have hb : t.bodies = wakeAll l s.bodies := s1.bodies
    have hR : s.roused = [] := h.sleep.rouseLock hl
    have hS : t.sleeping = s.sleeping := s1.sleeping
    refine ⟨t, e1, ?_, ?_, hS, fun x => by rw [hb]; exact hroot x⟩
    · refine Full.of (c1.setSleeping (t.sleeping.erase r)) ⟨?_, ?_, ?_, ?_, ?_, ?_, ?_⟩ ?_
      · intro b
        show s.off b ∧ b ∉ l ↔ (∃ r' ∈ t.sleeping.erase r, (t.bodies b).root = some r') ∨ b ∈ t.roused
        rw [r1, hR, hS, hb]
        constructor
        · rintro ⟨ho, hn⟩
          rcases ho with ⟨r', hr', e⟩ | e
          · left
            refine ⟨r', (hsl r').2 ⟨?_, hr'⟩, ?_⟩
            · rintro rfl; exact hn ((hm b).2 e)
            · rw [hroot, if_neg (fun e => hn ((hm b).2 e))]; exact e
          · rw [hR] at e; simp at e
        · rintro (⟨r', hr', e⟩ | e)
          · have hr2 := (hsl r').1 hr'
            rw [hroot] at e
            split_ifs at e with e'
            exact ⟨Or.inl ⟨r', hr2.2, e⟩, fun hbl => e' ((hm b).1 hbl)⟩
          · simp at e
      · show t.roused.Nodup; rw [r1]; exact h.sleep.rousedNodup
      · intro b hbR
        have : b ∈ t.roused := hbR
        rw [r1, hR] at this; simp at this
      · show (t.sleeping.erase r).Nodup; rw [hS]; exact h.sleep.sleepNodup.erase r
      · show ∀ r' ∈ t.sleeping.erase r, ∃ l', IsChain (fun b => (t.bodies b).next) (some r') l' ∧
          ∀ b, b ∈ l' ↔ (t.bodies b).root = some r'
        rw [hS, hb]; exact hchain
      · show ∀ b, (t.bodies b).root = none → (t.bodies b).next = none
        rw [hb]; exact hrootless
      · intro _; show t.roused = []; rw [r1, hR]
      · show ∀ b r', (t.bodies b).root = some r' → r' ∈ t.sleeping.erase r
        rw [hb, hS]; exact hquiet
    · constructor
      · exact s1.nBodies
      · exact s1.nCons
      · show ∀ b, BodyEq _ (t.bodies b); rw [hb]; exact hB
      · show ∀ b, (t.bodies b).idle = _ ∨ _; rw [hb]; exact hidle
      · show ∀ b, (t.bodies b).root = _ ∨ _; rw [hb]; exact hroot2
      · show ∀ b c, _ → (t.bodies b).root = (t.bodies c).root; rw [hb]; exact hcomp
      · exact s1.shapes
      · exact s1.cons
      · exact s1.arbs
      · exact s1.arbBound
      · exact s1.threshold
      · exact s1.staticBody
      · exact s1.staticBodies
      · show (t.sleeping.erase r).Sublist _; rw [hS]; exact List.erase_sublist
      · exact s1.pool
      · exact s1.locked
      · exact s1.stamp
      · exact s1.trace
      · exact s1.head
      · intro hl'; exact absurd hl hl'
      · intro hl'; exact absurd hl hl'
      · intro y
        rcases s1.stamps y with q | ⟨q, q'⟩
        · exact .inl q
        · refine .inr ⟨q, ?_⟩
          refine (threaded_congr (t := s) (s := { s with bodies := wakeAll l s.bodies }) (fun _ => .refl _) rfl (fun b => ?_) y).2 q'
          exact (hB b).arbs.symm
  · have e1 := wakeChain_locked l s.nBodies s (some r) hlen hc hl hlr
    have hoff : ∀ b, s.off b ↔ (∃ r' ∈ s.sleeping.erase r, (wakeAll l s.bodies b).root = some r') ∨
        b ∈ s.roused ++ l := by
      intro b
      rw [List.mem_append]
      constructor
      · rintro (⟨r', hr', e⟩ | e)
        · by_cases hbl : b ∈ l
          · exact Or.inr (Or.inr hbl)
          · left
            refine ⟨r', (hsl r').2 ⟨?_, hr'⟩, ?_⟩
            · rintro rfl; exact hbl ((hm b).2 e)
            · rw [hroot, if_neg (fun e => hbl ((hm b).2 e))]; exact e
        · exact Or.inr (Or.inl e)
      · rintro (⟨r', hr', e⟩ | e | e)
        · have hr2 := (hsl r').1 hr'
          rw [hroot] at e
          split_ifs at e with e'
          exact Or.inl ⟨r', hr2.2, e⟩
        · exact Or.inr e
        · exact hA b e
    refine ⟨_, e1, ?_, ?_, rfl, hroot⟩
    · refine Full.of (((h.core.mapBodies (wakeAll l s.bodies) hB).roused (s.roused ++ l)).setSleeping
        (s.sleeping.erase r)) ⟨hoff, ?_, ?_, ?_, hchain, hrootless, ?_⟩ hquiet
      · rw [List.nodup_append]
        exact ⟨h.sleep.rousedNodup, hc.nodup, fun a ha b hb e => hlr b hb (e ▸ ha)⟩
      · intro b hb
        show (wakeAll l s.bodies b).root = none
        rw [hroot]
        rcases List.mem_append.1 hb with e | e
        · rw [h.sleep.rousedRoot b e]; simp
        · rw [if_pos ((hm b).1 e)]
      · exact h.sleep.sleepNodup.erase r
      · intro e; exact absurd e hl
    · constructor
      · rfl
      · rfl
      · exact hB
      · exact hidle
      · exact hroot2
      · exact hcomp
      · rfl
      · rfl
      · exact fun _ => .refl _
      · rfl
      · rfl
      · rfl
      · rfl
      · exact List.erase_sublist
      · rfl
      · rfl
      · rfl
      · rfl
      · exact id
      · exact fun _ => rfl
      · exact fun _ b => (hoff b).symm
      · exact fun _ => .inl rfl

/-- `Body.Activate` always succeeds and keeps the invariant; it wakes exactly the component of the body. -/
theorem bodyActivate_spec {L : Nat → List Nat} {rest : List Nat} {s : Sp F} (h : Full L rest s) (b : Nat) :
    ∃ t, s.bodyActivate b = some t ∧ Full L rest t ∧ Woke s t ∧
      (∀ x, (t.bodies x).root = if s.typ b = .dynamic ∧ (s.bodies x).root = (s.bodies b).root then none
        else (s.bodies x).root) ∧
      t.sleeping = (if s.typ b = .dynamic then (match (s.bodies b).root with
        | some r => s.sleeping.erase r
        | none => s.sleeping) else s.sleeping) := by
  by_cases hd : s.typ b = .dynamic
  swap
  · exact ⟨s, by rw [bodyActivate, if_pos hd], h, .refl s, fun x => by rw [if_neg (fun e => hd e.1)],
      by rw [if_neg hd]⟩
  have hns : s.typ b ≠ .static := by rw [hd]; simp
  have z0 := zeroIdle_zeroed hns
  have f0 := h.zeroed z0
  have w0 := z0.woke
  have finish : ∀ t0 : Sp F, Full L rest t0 → ∃ t : Sp F, ((t0.arbList b).bind fun l =>
        some (l.foldl (fun (s : Sp F) (x : Nat) =>
          if s.typ (s.otherBody b x) ≠ .static then s.zeroIdle (s.otherBody b x) else s) t0)) = some t ∧
        Full L rest t ∧ Woke t0 t ∧ (∀ x, (t.bodies x).root = (t0.bodies x).root) ∧ t.sleeping = t0.sleeping := by
    intro t0 ht0
    have z := zero_loop b (L b) t0
    refine ⟨_, by rw [ht0.core.arbList b]; rfl, ht0.zeroed z, z.woke, z.root, ?_⟩
    rw [z.eq]
  rw [bodyActivate, if_neg (by simp [hd])]
  have hroot0 : ((s.zeroIdle b).bodies b).root = (s.bodies b).root := z0.root b
  cases hr : (s.bodies b).root with
  | none =>
    rw [hr] at hroot0
    obtain ⟨t, e, f, w, rt, st⟩ := finish _ f0
    refine ⟨t, ?_, f, w0.trans w, fun x => ?_, ?_⟩
    · simp only [Option.bind_eq_bind]
      rw [hroot0]
      exact e
    · rw [rt, z0.root]
      split_ifs with e
      · rw [e.2]
      · rfl
    · rw [if_pos hd, st, z0.eq]
  | some r =>
    rw [hr] at hroot0
    have hrs : r ∈ s.sleeping := h.quiet b r hr
    have hrs0 : r ∈ (s.zeroIdle b).sleeping := hrs
    obtain ⟨t1, e1, f1, w1, sl1, rt1⟩ := wake_component f0 hrs0
    obtain ⟨t, e, f, w, rt, st⟩ := finish _ f1
    refine ⟨t, ?_, f, (w0.trans w1).trans w, fun x => ?_, ?_⟩
    · simp only [Option.bind_eq_bind]
      rw [hroot0]
      have hsl : (s.zeroIdle b).isSleeping r = true := by
        simp only [isSleeping]
        rw [f0.sleep.self_root hrs0]; rfl
      simp only [hsl, if_true]
      rw [e1]
      exact e
    · rw [rt]
      show (t1.bodies x).root = _
      rw [rt1, z0.root]
      simp [hd]
    · rw [if_pos hd, st]
      show t1.sleeping.erase r = _
      rw [sl1]; rfl

end Sp
end CP
