import Verif.Proofs.SpaceInv2
import Verif.Spec.Waking

/-! # Exactly what `Activate` does to the sleeping bodies and the idle times -/

namespace CP
variable {F : Type}
namespace Sp

theorem foldlM_bodies {α : Type} {f : Sp F → α → Option (Sp F)} (hf : ∀ s x t, f s x = some t → t.bodies = s.bodies) :
    ∀ (l : List α) (s t : Sp F), l.foldlM f s = some t → t.bodies = s.bodies
  | [], s, t, e => by cases e; rfl
  | x :: l, s, t, e => by
    rw [List.foldlM_cons] at e
    cases h : f s x with
    | none => rw [h] at e; cases e
    | some u =>
      rw [h] at e
      exact (foldlM_bodies hf l u t e).trans (hf s x u h)

theorem pushFresh_bodies (s : Sp F) : s.pushFresh.bodies = s.bodies := by
  unfold pushFresh; split
  · rfl
  · dsimp only; split <;> rfl

theorem restoreArb_bodies {s t : Sp F} {x : Nat} (e : s.restoreArb x = some t) : t.bodies = s.bodies := by
  simp only [restoreArb, getArray, Option.bind_eq_bind] at e
  cases h : s.head with
  | none => rw [h] at e; cases e
  | some k =>
    rw [h] at e
    simp only [Option.bind_some] at e
    obtain ⟨u, hu⟩ : ∃ u, u = (if bufSize < (s.bufs k).num + maxContacts then s.pushFresh else s) := ⟨_, rfl⟩
    have hb : u.bodies = s.bodies := by rw [hu]; split; exacts [pushFresh_bodies s, rfl]
    rw [← hu] at e
    cases h2 : u.head with
    | none => rw [h2] at e; cases e
    | some k2 =>
      rw [h2] at e
      simp only [Option.bind_some, Option.some.injEq] at e
      rw [← hb, ← e]
      have p1 : ∀ (s : Sp F) n, (s.pushContacts n).bodies = s.bodies := by intro s n; unfold pushContacts; split <;> rfl
      have p2 : ∀ (s : Sp F) x, (s.cacheInsert x).bodies = s.bodies := by intro s n; unfold cacheInsert; split <;> rfl
      simp only [setArb, p1, p2]

theorem activateBody_bodies {s t : Sp F} {b : Nat} (e : s.activateBody b = some t) : t.bodies = s.bodies := by
  unfold activateBody at e
  split at e
  · cases e; split <;> rfl
  · simp only [Option.bind_eq_bind, Option.bind_eq_some_iff] at e
    obtain ⟨u, e1, l, e2, v, e3, cl, e4, e5⟩ := e
    cases e5
    show v.bodies = s.bodies
    rw [foldlM_bodies (fun _ _ _ => restoreArb_bodies) _ _ _ e3, foldlM_bodies ?_ _ _ _ e1]
    intro s x t e
    unfold toDynamic at e
    split at e
    · cases e; rfl
    · cases e

variable [GoFloat F]

theorem wakeChain_bodies : ∀ (l : List Nat) (n : Nat) (s t : Sp F) (st : Option Nat),
    IsChain (fun b => (s.bodies b).next) st l → wakeChain n s st = some t → t.bodies = wakeAll l s.bodies
  | [], n, s, t, st, hc, e => by
    have : st = none := hc
    subst this
    have : wakeAll [] s.bodies = s.bodies := by funext y; simp [wakeAll]
    rw [this]
    cases n <;> (simp only [wakeChain, Option.some.injEq] at e; rw [e])
  | x :: l, 0, s, t, st, hc, e => by
    obtain ⟨rfl, _⟩ := hc; simp [wakeChain] at e
  | x :: l, n + 1, s, t, st, hc, e => by
    have hnd : (x :: l).Nodup := hc.nodup
    have hx : x ∉ l := (List.nodup_cons.1 hnd).1
    obtain ⟨rfl, hc'⟩ := hc
    simp only [wakeChain, Option.bind_eq_bind, Option.bind_eq_some_iff] at e
    obtain ⟨u, e1, e2⟩ := e
    have hb := activateBody_bodies e1
    have := wakeChain_bodies l n u t _ ?_ e2
    · rw [this, hb]
      simp only [setBody, wakeAll_cons]
    · refine hc'.congr fun y hy => ?_
      have hyx : y ≠ x := fun e => hx (e ▸ hy)
      rw [hb]
      simp [setBody, Function.update_of_ne hyx]

theorem zero_loop_idle (b : Nat) : ∀ (l : List Nat) (s : Sp F) (y : Nat),
    ((∃ x ∈ l, s.otherBody b x = y ∧ s.typ y ≠ .static) → ((l.foldl (fun s x =>
      if s.typ (s.otherBody b x) ≠ .static then s.zeroIdle (s.otherBody b x) else s) s).bodies y).idle = .time 0) ∧
    ((∀ x ∈ l, s.otherBody b x = y → s.typ y = .static) → ((l.foldl (fun s x =>
      if s.typ (s.otherBody b x) ≠ .static then s.zeroIdle (s.otherBody b x) else s) s).bodies y).idle = (s.bodies y).idle)
  | [], s, y => by simp
  | x :: l, s, y => by
    obtain ⟨u, hu⟩ : ∃ u, u = (if s.typ (s.otherBody b x) ≠ .static then s.zeroIdle (s.otherBody b x) else s) := ⟨_, rfl⟩
    have z : Zeroed s u := by
      rw [hu]; split_ifs with hs
      · exact zeroIdle_zeroed hs
      · exact .refl s
    have ho : ∀ a, u.otherBody b a = s.otherBody b a := by intro a; rw [z.eq]; rfl
    have ht : ∀ a, u.typ a = s.typ a := fun a => (z.bodyEq a).typ
    obtain ⟨i1, i2⟩ := zero_loop_idle b l u y
    rw [List.foldl_cons, ← hu]
    simp only [ho, ht] at i1 i2
    have hx : s.otherBody b x = y → s.typ y ≠ .static → (u.bodies y).idle = .time 0 := by
      intro e1 e2
      rw [hu, if_pos (by rw [e1]; exact e2), e1]
      simp [zeroIdle, setBody]
    constructor
    · rintro ⟨a, ha, e1, e2⟩
      by_cases hl : ∃ x ∈ l, s.otherBody b x = y ∧ s.typ y ≠ .static
      · exact i1 hl
      · rcases List.mem_cons.1 ha with rfl | ha
        · rw [i2 (fun x hx e => by by_contra q; exact hl ⟨x, hx, e, q⟩)]
          exact hx e1 e2
        · exact absurd ⟨a, ha, e1, e2⟩ hl
    · intro h
      rw [i2 (fun x hx => h x (by simp [hx])), hu]
      split_ifs with hs
      · by_cases e : s.otherBody b x = y
        · rw [e, h x (by simp) e] at hs; exact absurd rfl hs
        · simp [zeroIdle, setBody, Function.update_of_ne (Ne.symm e)]
      · rfl

theorem touches_iff {L : Nat → List Nat} {rest : List Nat} {s : Sp F} (h : Full L rest s) (b c : Nat) :
    s.Touching b c ↔ ∃ x ∈ L b, s.otherBody b x = c := by
  unfold Touching
  constructor
  · rintro ⟨l, e, x, hx, q⟩
    rw [h.core.arbList b] at e
    obtain rfl := Option.some.inj e
    refine ⟨x, hx, ?_⟩
    unfold otherBody
    rcases q with ⟨q1, q2⟩ | ⟨q1, q2⟩
    · rw [if_pos q1]; exact q2
    · split_ifs with e
      · rw [← q1, e, q2]
      · exact q1
  · rintro ⟨x, hx, q⟩
    refine ⟨_, h.core.arbList b, x, hx, ?_⟩
    unfold otherBody at q
    split_ifs at q with e
    · exact .inl ⟨e, q⟩
    · rcases h.core.thread.ends b x hx with e' | e'
      · exact absurd e' e
      · exact .inr ⟨q, e'⟩

/-- The state of `Body.Activate` before the last loop. -/
theorem bodyActivate_split {L : Nat → List Nat} {rest : List Nat} {s t : Sp F} (h : Full L rest s) {b : Nat} (hd : s.typ b = .dynamic)
    (e : s.bodyActivate b = some t) : ∃ u : Sp F, (∀ x, u.otherBody b x = s.otherBody b x) ∧ (∀ x, u.typ x = s.typ x) ∧
      t = (L b).foldl (fun s x => if s.typ (s.otherBody b x) ≠ .static then s.zeroIdle (s.otherBody b x) else s) u ∧
      ∀ x, (x = b ∨ ((s.bodies b).root ≠ none ∧ (s.bodies x).root = (s.bodies b).root) → (u.bodies x).idle = .time 0) ∧
        (¬ (x = b ∨ ((s.bodies b).root ≠ none ∧ (s.bodies x).root = (s.bodies b).root)) → (u.bodies x).idle = (s.bodies x).idle) := by
  have hns : s.typ b ≠ .static := by rw [hd]; simp
  have z0 := zeroIdle_zeroed hns
  have f0 := h.zeroed z0
  have hroot0 : ((s.zeroIdle b).bodies b).root = (s.bodies b).root := z0.root b
  have fin : ∀ u : Sp F, Full L rest u → ((u.arbList b).bind fun l => some (l.foldl (fun (s : Sp F) (x : Nat) =>
          if s.typ (s.otherBody b x) ≠ .static then s.zeroIdle (s.otherBody b x) else s) u)) = some t →
      t = (L b).foldl (fun s x => if s.typ (s.otherBody b x) ≠ .static then s.zeroIdle (s.otherBody b x) else s) u := by
    intro u hu e
    rw [hu.core.arbList b] at e
    exact (Option.some.inj e).symm
  rw [bodyActivate, if_neg (by simp [hd])] at e
  cases hr : (s.bodies b).root with
  | none =>
    rw [hr] at hroot0
    simp only [Option.bind_eq_bind] at e
    rw [hroot0] at e
    refine ⟨s.zeroIdle b, fun x => by rw [z0.eq]; rfl, fun x => (z0.bodyEq x).typ, fin _ f0 e, fun x => ⟨?_, ?_⟩⟩
    · rintro (rfl | ⟨q, -⟩)
      · simp [zeroIdle, setBody]
      · exact absurd rfl q
    · intro q
      have : x ≠ b := fun e => q (.inl e)
      simp [zeroIdle, setBody, Function.update_of_ne this]
  | some r =>
    rw [hr] at hroot0
    have hrs0 : r ∈ (s.zeroIdle b).sleeping := h.quiet b r hr
    obtain ⟨t1, e1, f1, w1, -, -⟩ := wake_component f0 hrs0
    obtain ⟨l, hc, hm⟩ := f0.sleep.chain r hrs0
    have hb := wakeChain_bodies l _ _ _ _ hc e1
    simp only [Option.bind_eq_bind] at e
    rw [hroot0] at e
    have hsl : (s.zeroIdle b).isSleeping r = true := by
      simp only [isSleeping]
      rw [f0.sleep.self_root hrs0]; rfl
    simp only [hsl, if_true] at e
    rw [e1] at e
    have w := z0.woke.trans w1
    refine ⟨_, fun x => ?_, fun x => w.typ x, fin _ f1 e, fun x => ?_⟩
    · have q1 : (t1.arbs x).bodyA = (s.arbs x).bodyA := (w.arbs x).bodyA
      have q2 : (t1.arbs x).bodyB = (s.arbs x).bodyB := (w.arbs x).bodyB
      simp only [otherBody, q1, q2]
    show (_ → (t1.bodies x).idle = _) ∧ (_ → (t1.bodies x).idle = _)
    rw [hb]
    have hmx := hm x
    rw [z0.root] at hmx
    constructor
    · intro q
      have : x ∈ l := by
        rw [hmx]
        rcases q with rfl | q
        · exact hr
        · exact q.2
      unfold wakeAll
      rw [if_pos this]
    · intro q
      have h1 : x ∉ l := fun hx => q (.inr ⟨by simp, hmx.1 hx⟩)
      have h2 : x ≠ b := fun e => q (.inl e)
      unfold wakeAll
      rw [if_neg h1]
      simp [zeroIdle, setBody, Function.update_of_ne h2]

/-- `Body.Activate` exactly. -/
theorem bodyActivate_stirred {L : Nat → List Nat} {rest : List Nat} {s t : Sp F} (h : Full L rest s) {b : Nat}
    (e : s.bodyActivate b = some t) : Stirred (· = b) s t := by
  obtain ⟨t', e', f, w, hr, -⟩ := bodyActivate_spec h b
  rw [e] at e'
  cases e'
  refine ⟨?_, ?_, ?_, ?_⟩
  · rintro x c rfl hd q
    rw [hr, if_pos ⟨hd, q⟩]
  · intro x hx
    rw [hr, if_neg (fun q => hx b rfl q.1 q.2)]
  · rintro x c rfl hd q
    obtain ⟨u, ho, hty, ht, hi⟩ := bodyActivate_split h hd e
    obtain ⟨i1, i2⟩ := zero_loop_idle c (L c) u x
    rw [← ht] at i1 i2
    simp only [ho, hty] at i1 i2
    by_cases hl : ∃ a ∈ L c, s.otherBody c a = x ∧ s.typ x ≠ .static
    · exact i1 hl
    · rw [i2 (fun a ha e => by by_contra q; exact hl ⟨a, ha, e, q⟩)]
      rcases q with q | q | ⟨q1, q2⟩
      · exact (hi x).1 (.inl q)
      · exact (hi x).1 (.inr q)
      · obtain ⟨a, ha, e⟩ := (touches_iff h c x).1 q1
        exact absurd ⟨a, ha, e, q2⟩ hl
  · intro x hx
    by_cases hd : s.typ b = .dynamic
    swap
    · rw [bodyActivate, if_pos hd] at e
      cases e; rfl
    have hx := hx b rfl hd
    obtain ⟨u, ho, hty, ht, hi⟩ := bodyActivate_split h hd e
    obtain ⟨i1, i2⟩ := zero_loop_idle b (L b) u x
    rw [← ht] at i1 i2
    simp only [ho, hty] at i1 i2
    rw [i2 (fun a ha e => by
      by_contra q
      exact hx (.inr (.inr ⟨(touches_iff h b x).2 ⟨a, ha, e⟩, q⟩)))]
    exact (hi x).2 (fun q => hx (q.imp id .inl))

theorem Stirred.congr {P Q : Nat → Prop} {s t : Sp F} (h : Stirred P s t) (e : ∀ c, P c ↔ Q c) : Stirred Q s t := by
  have : P = Q := funext fun c => propext (e c)
  rw [← this]; exact h

theorem Stirred.refl (s : Sp F) : Stirred (fun _ => False) s s :=
  ⟨fun _ _ h => h.elim, fun _ _ => rfl, fun _ _ h => h.elim, fun _ _ => rfl⟩

/-- What one wake-up and the next have in common. -/
structure Rous (s t : Sp F) : Prop where
  typ : ∀ b, t.typ b = s.typ b
  idle : ∀ b, (t.bodies b).idle = (s.bodies b).idle ∨ (t.bodies b).idle = .time 0
  root : ∀ b, (t.bodies b).root = (s.bodies b).root ∨ (t.bodies b).root = none
  comp : ∀ b c, (s.bodies b).root = (s.bodies c).root → (t.bodies b).root = (t.bodies c).root
  touch : ∀ b c, t.Touching b c ↔ s.Touching b c

theorem Rous.root_none {s t : Sp F} (w : Rous s t) {b : Nat} (h : (s.bodies b).root = none) : (t.bodies b).root = none := by
  rcases w.root b with e | e
  · rw [e, h]
  · exact e

theorem Rous.trans {s t u : Sp F} (w : Rous s t) (k : Rous t u) : Rous s u where
  typ b := (k.typ b).trans (w.typ b)
  idle b := by
    rcases k.idle b with e | e
    · rw [e]; exact w.idle b
    · exact .inr e
  root b := by
    rcases k.root b with e | e
    · rw [e]; exact w.root b
    · exact .inr e
  comp b c h := k.comp b c (w.comp b c h)
  touch b c := (k.touch b c).trans (w.touch b c)

theorem Rous.refl (s : Sp F) : Rous s s := ⟨fun _ => rfl, fun _ => .inl rfl, fun _ => .inl rfl, fun _ _ => id, fun _ _ => .rfl⟩

theorem Woke.rous {L : Nat → List Nat} {rest : List Nat} {s t : Sp F} (w : Woke s t) (hs : Full L rest s) (ht : Full L rest t) : Rous s t := by
  refine ⟨w.typ, w.idle, w.root, w.comp, fun b c => ?_⟩
  rw [touches_iff hs, touches_iff ht]
  simp only [w.otherBody]

/-- One wake-up after the other. -/
theorem Stirred.trans {P Q : Nat → Prop} {s t u : Sp F} (w : Rous s t) (w' : Rous t u) (h : Stirred P s t) (k : Stirred Q t u) :
    Stirred (fun c => P c ∨ Q c) s u := by
  have hto := w.touch
  refine ⟨?_, ?_, ?_, ?_⟩
  · rintro x c (hc | hc) hd q
    · exact w'.root_none (h.awake x c hc hd q)
    · exact k.awake x c hc (by rw [w.typ]; exact hd) (w.comp _ _ q)
  · intro x hx
    have e1 := h.asleep x (fun c hc hd => hx c (.inl hc) hd)
    rw [← e1]
    by_cases hn : (t.bodies x).root = none
    · rw [hn]; exact w'.root_none hn
    · refine k.asleep x (fun c hc hd q => hx c (.inr hc) (by rw [← w.typ]; exact hd) ?_)
      rw [← e1, q]
      rcases w.root c with e | e
      · exact e
      · rw [q] at hn; exact absurd e hn
  · rintro x c (hc | hc) hd q
    · have := h.restart x c hc hd q
      rcases w'.idle x with e | e
      · rw [e]; exact this
      · exact e
    · by_cases hq : ∃ c', P c' ∧ s.typ c' = .dynamic ∧ s.Restarts c' x
      · obtain ⟨c', h1, h2, h3⟩ := hq
        have := h.restart x c' h1 h2 h3
        rcases w'.idle x with e | e
        · rw [e]; exact this
        · exact e
      · refine k.restart x c hc (by rw [w.typ]; exact hd) ?_
        rcases q with q | ⟨q1, q2⟩ | ⟨q1, q2⟩
        · exact .inl q
        · refine .inr (.inl ⟨?_, w.comp _ _ q2⟩)
          rcases w.root c with e | e
          · rw [e]; exact q1
          · exfalso
            have : ¬ ∀ c', P c' → s.typ c' = .dynamic → (s.bodies c).root ≠ (s.bodies c').root := by
              intro hno
              exact q1 (by rw [← h.asleep c hno]; exact e)
            push Not at this
            obtain ⟨c', h1, h2, h3⟩ := this
            exact hq ⟨c', h1, h2, .inr (.inl ⟨by rw [← h3]; exact q1, by rw [q2, h3]⟩)⟩
        · exact .inr (.inr ⟨(hto c x).2 q1, by rw [w.typ]; exact q2⟩)
  · intro x hx
    rw [← h.idle x (fun c hc hd => hx c (.inl hc) hd)]
    refine k.idle x (fun c hc hd q => hx c (.inr hc) (by rw [← w.typ]; exact hd) ?_)
    rcases q with q | ⟨q1, q2⟩ | ⟨q1, q2⟩
    · exact .inl q
    · have hc1 : (t.bodies c).root = (s.bodies c).root := (w.root c).resolve_right q1
      have hx1 : (t.bodies x).root = (s.bodies x).root := (w.root x).resolve_right (by rw [q2]; exact q1)
      exact .inr (.inl ⟨by rw [← hc1]; exact q1, by rw [← hx1, ← hc1]; exact q2⟩)
    · exact .inr (.inr ⟨(hto c x).1 q1, by rw [← w.typ]; exact q2⟩)

/-- Waking several bodies. -/
theorem runActs_stirred {L : Nat → List Nat} {rest : List Nat} : ∀ (acts : List Nat) {s : Sp F}, Inv L rest s →
    ∃ t, s.runActs acts = some t ∧ Inv L rest t ∧ Woke s t ∧ Stirred (· ∈ acts) s t
  | [], s, h => ⟨s, rfl, h, .refl s, (Stirred.refl s).congr (by simp)⟩
  | b :: acts, s, h => by
    obtain ⟨t, e, i, w, -, -⟩ := bodyActivate_inv h b
    obtain ⟨u, e', i', w', k⟩ := runActs_stirred acts i
    refine ⟨u, ?_, i', w.trans w', (Stirred.trans (w.rous h.full i.full) (w'.rous i.full i'.full) (bodyActivate_stirred h.full e) k).congr (by simp)⟩
    rw [runActs, List.foldlM_cons, e]
    exact e'

end Sp
end CP
