import Verif.Proofs.SpaceReach
import Verif.Spec.Events

/-! # The callbacks of one pair during the collision phase -/

namespace CP
variable {F : Type}

theorem word_append (p q : Nat) (l m : List Ev) : word p q (l ++ m) = word p q l ++ word p q m := by
  simp [word]

theorem word_nil_of {p q : Nat} {l : List Ev} (h : ∀ e ∈ l, e.about p q = false) : word p q l = [] := by
  rw [word, List.filter_eq_nil_iff.2 (fun e he => by rw [h e he]; simp)]; rfl

theorem word_all_of {p q : Nat} {l : List Ev} (h : ∀ e ∈ l, e.about p q = true) : word p q l = l.map (·.kind) := by
  rw [word, List.filter_eq_self.2 h]

namespace Sp
variable [GoFloat F]

/-- Under lock only bodies, components and the list of roused bodies change, and no mass. -/
structure Frame (s t : Sp F) : Prop where
  eq : t = { s with bodies := t.bodies, sleeping := t.sleeping, roused := t.roused }
  inf : ∀ b, (t.bodies b).infMass = (s.bodies b).infMass

omit [GoFloat F] in
theorem Frame.refl (s : Sp F) : Frame s s := ⟨rfl, fun _ => rfl⟩
omit [GoFloat F] in
theorem Frame.trans {s t u : Sp F} (h : Frame s t) (k : Frame t u) : Frame s u :=
  ⟨by rw [k.eq, h.eq], fun b => (k.inf b).trans (h.inf b)⟩
omit [GoFloat F] in
theorem Frame.locked {s t : Sp F} (h : Frame s t) : t.locked = s.locked := by rw [h.eq]

omit [GoFloat F] in
theorem frame_body (s : Sp F) (b : Nat) (f : BodyR F → BodyR F) (h : (f (s.bodies b)).infMass = (s.bodies b).infMass) : Frame s (s.setBody b f) := by
  refine ⟨rfl, fun y => ?_⟩
  simp only [setBody, Function.update_apply]
  split_ifs with e
  · rw [e, h]
  · rfl

omit [GoFloat F] in
theorem frame_foldl {α : Type} {f : Sp F → α → Sp F} (hf : ∀ s x, Frame s (f s x)) : ∀ (l : List α) (s : Sp F), Frame s (l.foldl f s)
  | [], s => .refl s
  | x :: l, s => (hf s x).trans (frame_foldl hf l (f s x))

theorem frame_wakeChain : ∀ (n : Nat) {s t : Sp F} {o : Option Nat}, s.locked ≠ 0 → wakeChain n s o = some t → Frame s t
  | _, s, t, none, _, e => by
    have : s = t := by simpa [wakeChain] using e
    rw [this]; exact .refl _
  | 0, s, t, some b, _, e => by simp [wakeChain] at e
  | n + 1, s, t, some b, hl, e => by
    simp only [wakeChain, activateBody] at e
    rw [if_pos (show (s.setBody b fun r => { r with idle := .time 0, root := none, next := none }).locked ≠ 0 from hl)] at e
    simp only [Option.bind_eq_bind, Option.bind_some] at e
    have f1 : Frame s (s.setBody b fun r => { r with idle := .time 0, root := none, next := none }) := frame_body s b _ rfl
    refine f1.trans (Frame.trans ?_ (frame_wakeChain n ?_ e))
    · split_ifs
      · exact .refl _
      · exact ⟨rfl, fun _ => rfl⟩
    · split_ifs <;> exact hl

theorem frame_bodyActivate {s t : Sp F} {b : Nat} (hl : s.locked ≠ 0) (e : s.bodyActivate b = some t) : Frame s t := by
  simp only [bodyActivate] at e
  split_ifs at e with ht
  · rw [Option.some.inj e]; exact .refl _
  have f1 : Frame s (s.zeroIdle b) := frame_body s b _ rfl
  refine f1.trans ?_
  have h1 : (s.zeroIdle b).locked ≠ 0 := hl
  obtain ⟨u, hu⟩ : ∃ u, u = s.zeroIdle b := ⟨_, rfl⟩
  rw [← hu] at e h1 ⊢
  have fin : ∀ v : Sp F, Frame u v → (v.arbList b).bind (fun l => some (l.foldl (fun s x =>
      if s.typ (s.otherBody b x) ≠ .static then s.zeroIdle (s.otherBody b x) else s) v)) = some t → Frame u t := by
    intro v f e
    cases ea : v.arbList b with
    | none => rw [ea] at e; simp at e
    | some l =>
      rw [ea] at e
      rw [← Option.some.inj e]
      refine f.trans (frame_foldl (fun s x => ?_) l v)
      split_ifs
      · exact frame_body _ _ _ rfl
      · exact .refl _
  cases hr : (u.bodies b).root with
  | none => rw [hr] at e; exact fin u (.refl u) e
  | some r =>
    rw [hr] at e
    simp only at e
    split_ifs at e with hs
    · cases ew : u.wakeChain u.nBodies (some r) with
      | none => rw [ew] at e; simp at e
      | some v =>
        rw [ew] at e
        exact fin { v with sleeping := v.sleeping.erase r } ((frame_wakeChain _ h1 ew).trans ⟨rfl, fun _ => rfl⟩) e
    · exact fin u (.refl u) e

theorem frame_runActs : ∀ (acts : List Nat) {s t : Sp F}, s.locked ≠ 0 → s.runActs acts = some t → Frame s t
  | [], s, t, _, e => by rw [show s = t from Option.some.inj e]; exact .refl _
  | b :: acts, s, t, hl, e => by
    simp only [runActs, List.foldlM_cons] at e
    cases e1 : s.bodyActivate b with
    | none => rw [e1] at e; simp at e
    | some u =>
      rw [e1] at e
      have f := frame_bodyActivate hl e1
      exact f.trans (frame_runActs acts (by rw [f.locked]; exact hl) e)

/-! ## States of pairs -/

/-- The arbiter of the pair. -/
def Live (s : Sp F) (p q x : Nat) : Prop := x < s.arbBound ∧ x ∉ s.pool ∧ s.samePair p q x = true

omit [GoFloat F] in
theorem open_iff (s : Sp F) (p q x : Nat) : Open s p q x ↔ Live s p q x ∧ ¬ (s.arbs x).state.closed := by
  simp only [Open, Live]; tauto

omit [GoFloat F] in
theorem arbOf_none {s : Sp F} {p q : Nat} (h : ∀ x, ¬ Open s p q x) : s.arbOf p q = none := by
  rw [arbOf, List.find?_eq_none]
  intro x hx hc
  simp only [Bool.and_eq_true, Bool.not_eq_true', decide_eq_true_eq] at hc
  obtain ⟨⟨h1, h2, h3⟩, h4⟩ := hc
  refine h x ⟨List.mem_range.1 hx, by simpa using h1, ?_, h4⟩
  cases e : (s.arbs x).state <;> simp_all [ArbState.closed]

omit [GoFloat F] in
theorem open_of_arbOf {s : Sp F} {p q x : Nat} (h : s.arbOf p q = some x) : Open s p q x := by
  rw [arbOf] at h
  have hm := List.mem_of_find?_eq_some h
  have hc := List.find?_some h
  simp only [Bool.and_eq_true, Bool.not_eq_true', decide_eq_true_eq] at hc
  obtain ⟨⟨h1, h2, h3⟩, h4⟩ := hc
  refine ⟨List.mem_range.1 hm, by simpa using h1, ?_, h4⟩
  cases e : (s.arbs x).state <;> simp_all [ArbState.closed]

theorem arbOf_some {L : Nat → List Nat} {rest : List Nat} {s : Sp F} (h : Inv L rest s) {p q x : Nat} (ho : Open s p q x) :
    s.arbOf p q = some x := by
  cases e : s.arbOf p q with
  | none =>
    rw [arbOf, List.find?_eq_none] at e
    exfalso
    refine e x (List.mem_range.2 ho.1) ?_
    simp only [Bool.and_eq_true, Bool.not_eq_true', decide_eq_true_eq]
    refine ⟨⟨by simpa using ho.2.1, ?_⟩, ho.2.2.2⟩
    have := ho.2.2.1
    cases e : (s.arbs x).state <;> simp_all [ArbState.closed]
  | some y =>
    have hy := open_of_arbOf e
    rw [h.open_unique ⟨hy.1, hy.2.1⟩ ⟨ho.1, ho.2.1⟩ hy.2.2.2 ho.2.2.2]

theorem listed_iff {L : Nat → List Nat} {rest : List Nat} {s : Sp F} (h : Inv L rest s) (x : Nat) : s.listed x = true ↔ InL L s x := by
  simp only [listed, h.full.core.arbList, Option.getD_some, InL]
  simp

theorem pairSt_apart {s : Sp F} {p q : Nat} (h : ∀ x, ¬ Open s p q x) : s.pairSt p q = .apart := by
  rw [pairSt, arbOf_none h]

open Classical in
theorem pairSt_open {L : Nat → List Nat} {rest : List Nat} {s : Sp F} (h : Inv L rest s) {p q x : Nat} (ho : Open s p q x) :
    s.pairSt p q = if InL L s x then .active else if (s.arbs x).state = .ignore then .ignored else .touching := by
  rw [pairSt, arbOf_some h ho]
  simp only [listed_iff h]

theorem pairSt_apart_iff {L : Nat → List Nat} {rest : List Nat} {s : Sp F} (h : Inv L rest s) {p q : Nat} :
    s.pairSt p q = .apart ↔ ∀ x, ¬ Open s p q x := by
  refine ⟨fun e x hx => ?_, pairSt_apart⟩
  rw [pairSt_open h hx] at e
  split_ifs at e

/-- The state of the pair as far as the collision phase can see it. -/
def Sig (s : Sp F) (p q : Nat) (σ : PairSt) : Prop :=
  (σ = .apart ∧ ∀ x, ¬ Open s p q x) ∨ (σ ≠ .apart ∧ ∃ x, Open s p q x ∧ (σ = .ignored ↔ (s.arbs x).state = .ignore))

/-- Nothing happens to the pair. -/
structure Still (p q : Nat) (s t : Sp F) : Prop where
  live : ∀ x, Live t p q x ↔ Live s p q x
  same : ∀ x, Live s p q x → (t.arbs x).state = (s.arbs x).state ∧ (t.arbs x).stamp = (s.arbs x).stamp ∧
    (t.arbs x).bodyA = (s.arbs x).bodyA ∧ (t.arbs x).bodyB = (s.arbs x).bodyB ∧ (x ∈ t.arbiters ↔ x ∈ s.arbiters)
  trace : ∃ new, t.trace = s.trace ++ new ∧ word p q new = []

omit [GoFloat F] in
theorem Still.refl (p q : Nat) (s : Sp F) : Still p q s s :=
  ⟨fun _ => .rfl, fun _ _ => ⟨rfl, rfl, rfl, rfl, .rfl⟩, [], by simp, rfl⟩

omit [GoFloat F] in
theorem Still.trans {p q : Nat} {s t u : Sp F} (h : Still p q s t) (k : Still p q t u) : Still p q s u := by
  refine ⟨fun x => (k.live x).trans (h.live x), fun x hx => ?_, ?_⟩
  · obtain ⟨a1, a2, a3, a4, a5⟩ := h.same x hx
    obtain ⟨b1, b2, b3, b4, b5⟩ := k.same x ((h.live x).2 hx)
    exact ⟨b1.trans a1, b2.trans a2, b3.trans a3, b4.trans a4, b5.trans a5⟩
  · obtain ⟨n, e1, e2⟩ := h.trace
    obtain ⟨m, e3, e4⟩ := k.trace
    exact ⟨n ++ m, by rw [e3, e1, List.append_assoc], by rw [word_append, e2, e4]; rfl⟩

omit [GoFloat F] in
theorem Still.opens {p q : Nat} {s t : Sp F} (h : Still p q s t) (x : Nat) : Open t p q x ↔ Open s p q x := by
  rw [open_iff, open_iff, h.live]
  constructor <;> rintro ⟨a, b⟩ <;> refine ⟨a, ?_⟩
  · rw [← (h.same x a).1]; exact b
  · rw [(h.same x a).1]; exact b

omit [GoFloat F] in
theorem Still.sig {p q : Nat} {s t : Sp F} (h : Still p q s t) {σ : PairSt} (hs : Sig s p q σ) : Sig t p q σ := by
  rcases hs with ⟨e, n⟩ | ⟨e, x, ho, hi⟩
  · exact .inl ⟨e, fun x hx => n x ((h.opens x).1 hx)⟩
  · exact .inr ⟨e, x, (h.opens x).2 ho, by rw [hi, (h.same x ((open_iff ..).1 ho).1).1]⟩

end Sp
end CP
