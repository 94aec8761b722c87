import Verif.Proofs.SpaceIdle
import Verif.Proofs.SpaceReach

/-! # What the operations other than `Step` wake -/

namespace CP
variable {F : Type}
namespace Sp

/-- Nobody wakes or falls asleep, and no idle time changes. -/
def Undist (s t : Sp F) : Prop := ∀ x, (t.bodies x).root = (s.bodies x).root ∧ (t.bodies x).idle = (s.bodies x).idle

theorem Undist.refl (s : Sp F) : Undist s s := fun _ => ⟨rfl, rfl⟩
theorem Undist.trans {s t u : Sp F} (h : Undist s t) (k : Undist t u) : Undist s u :=
  fun x => ⟨(k x).1.trans (h x).1, (k x).2.trans (h x).2⟩
theorem Undist.of {s t : Sp F} (h : t.bodies = s.bodies) : Undist s t := fun x => by rw [h]; exact ⟨rfl, rfl⟩

theorem setBody_undist (s : Sp F) (b : Nat) (f : BodyR F → BodyR F) (h : (f (s.bodies b)).root = (s.bodies b).root)
    (k : (f (s.bodies b)).idle = (s.bodies b).idle) : Undist s (s.setBody b f) := by
  intro x
  simp only [setBody, Function.update_apply]
  split_ifs with e
  · subst e; exact ⟨h, k⟩
  · exact ⟨rfl, rfl⟩

theorem foldlM_undist {α : Type} {f : Sp F → α → Option (Sp F)} (hf : ∀ s x t, f s x = some t → Undist s t) :
    ∀ (l : List α) (s t : Sp F), l.foldlM f s = some t → Undist s t
  | [], s, t, e => by cases e; exact .refl s
  | x :: l, s, t, e => by
    rw [List.foldlM_cons] at e
    cases h : f s x with
    | none => rw [h] at e; cases e
    | some u =>
      rw [h] at e
      exact (hf s x u h).trans (foldlM_undist hf l u t e)

theorem unthreadHelper_undist (s : Sp F) (x b : Nat) : Undist s (s.unthreadHelper x b) := by
  have h1 : ∀ (s : Sp F) y c f, Undist s (s.setThread y c f) := fun s y c f => .of (by unfold setThread; rfl)
  obtain ⟨u, hu⟩ : ∃ u, u = (match (s.thread x b).prev with
    | some p => s.setThread p b fun u => { u with next := (s.thread x b).next }
    | none => if (s.bodies b).arbs = some x then s.setBody b fun r => { r with arbs := (s.thread x b).next } else s) := ⟨_, rfl⟩
  have h2 : Undist s u := by
    rw [hu]; split
    · exact h1 _ _ _ _
    · split_ifs
      · exact setBody_undist _ _ _ rfl rfl
      · exact .refl s
  have h3 : s.unthreadHelper x b = (match (s.thread x b).next with
    | some n => u.setThread n b fun w => { w with prev := (s.thread x b).prev }
    | none => u).setThread x b fun _ => {} := by rw [hu]; rfl
  rw [h3]
  refine Undist.trans (h2.trans ?_) (h1 _ _ _ _)
  split
  · exact h1 _ _ _ _
  · exact .refl _

theorem unthread_undist (s : Sp F) (x : Nat) : Undist s (s.unthread x) :=
  (unthreadHelper_undist s x _).trans (unthreadHelper_undist _ x _)

theorem unlock_undist {s t : Sp F} (e : s.unlock = some t) : Undist s t := by
  simp only [unlock] at e
  split_ifs at e with h1 h2
  · cases e; exact .of rfl
  · simp only [Option.bind_eq_bind, Option.bind_eq_some_iff] at e
    obtain ⟨u, e1, e2⟩ := e
    cases e2
    have := foldlM_bodies (fun _ _ _ => activateBody_bodies) _ _ _ e1
    exact .of this

theorem filterCons_bodies (b c : Nat) : ∀ (n : Nat) (s : Sp F) (o : Option Nat) (r : Sp F × Option Nat),
    filterCons b c n s o = some r → r.1.bodies = s.bodies
  | _, s, none, r, e => by unfold filterCons at e; cases e
  | 0, s, some x, r, e => by unfold filterCons at e; cases e
  | n + 1, s, some x, r, e => by
    unfold filterCons at e
    split_ifs at e
    · cases e; rfl
    all_goals
      simp only [Option.bind_eq_bind, Option.bind_eq_some_iff] at e
      obtain ⟨⟨u, h⟩, e1, e2⟩ := e
      cases e2
      have := filterCons_bodies b c n s _ _ e1
      exact this

theorem bodyRemoveCon_undist {s t : Sp F} {b c : Nat} (e : s.bodyRemoveCon b c = some t) : Undist s t := by
  simp only [bodyRemoveCon, Option.bind_eq_bind, Option.bind_eq_some_iff] at e
  obtain ⟨⟨u, h⟩, e1, e2⟩ := e
  cases e2
  exact (Undist.of (filterCons_bodies b c _ s _ _ e1)).trans (setBody_undist _ _ _ rfl rfl)

variable [GoFloat F]

theorem Stirred.post {P : Nat → Prop} {s t u : Sp F} (h : Stirred P s t) (k : Undist t u) : Stirred P s u where
  awake x c h1 h2 h3 := (k x).1.trans (h.awake x c h1 h2 h3)
  asleep x h1 := (k x).1.trans (h.asleep x h1)
  restart x c h1 h2 h3 := (k x).2.trans (h.restart x c h1 h2 h3)
  idle x h1 := (k x).2.trans (h.idle x h1)

theorem Undist.stirred {P : Nat → Prop} {s t : Sp F} (h : Undist s t) (k : ∀ c, P c → s.typ c ≠ .dynamic) : Stirred P s t where
  awake x c h1 h2 _ := absurd h2 (k c h1)
  asleep x _ := (h x).1
  restart x c h1 h2 _ := absurd h2 (k c h1)
  idle x _ := (h x).2

theorem shapeFilter_undist {b sh x : Nat} {acts : Nat → List Nat} (ha : ∀ x, acts x = []) {s : Sp F} {r : Sp F × Bool}
    (e : shapeFilter b sh acts s x = some r) : Undist s r.1 := by
  simp only [shapeFilter, ha, runActs, List.foldlM_nil, Option.bind_eq_bind] at e
  split_ifs at e with h1 h2
  · simp only [Option.bind_some, Option.pure_def, Option.some.injEq] at e
    rw [← e]
    exact Undist.trans (t := ((s.setArb x fun r => { r with state := .invalidated }).emit .separate x)) (.of rfl) (unthread_undist _ x)
  · simp only [Option.bind_some, Option.some.injEq] at e
    rw [← e]
    exact unthread_undist s x
  · cases e; exact .refl s

theorem filterArbiters_undist {b sh : Nat} {acts : Nat → List Nat} (ha : ∀ x, acts x = []) {s t : Sp F}
    (e : s.filterArbiters b sh acts = some t) : Undist s t := by
  simp only [filterArbiters, Option.bind_eq_bind, Option.bind_eq_some_iff, filterCached] at e
  obtain ⟨u, e1, e2⟩ := e
  refine Undist.trans (t := s.lock) (.of rfl) (Undist.trans (foldlM_undist ?_ _ _ _ e1) (unlock_undist e2))
  intro s x t e
  simp only [Option.bind_eq_some_iff] at e
  obtain ⟨⟨u, k⟩, e1, e2⟩ := e
  have := shapeFilter_undist ha e1
  cases k <;> cases e2 <;> exact this

/-- `ActivateStatic` exactly. -/
theorem activateStatic_stirred {L : Nat → List Nat} {rest : List Nat} {s t : Sp F} (h : Inv L rest s) {b : Nat} {fl : Option Nat}
    (e : s.activateStatic b fl = some t) : Stirred (fun c => ∃ x ∈ L b, (fl = none ∨ fl = some (s.arbs x).a ∨ fl = some (s.arbs x).b) ∧
      s.otherBody b x = c) s t := by
  have key : ∀ (l : List Nat) (s t : Sp F), Inv L rest s → l.foldlM (fun s x =>
      if fl = none ∨ fl = some (s.arbs x).a ∨ fl = some (s.arbs x).b then
        s.bodyActivate (s.otherBody b x) else some s) s = some t → Rous s t ∧ 
      Stirred (fun c => ∃ x ∈ l, (fl = none ∨ fl = some (s.arbs x).a ∨ fl = some (s.arbs x).b) ∧ s.otherBody b x = c) s t := by
    intro l
    induction l with
    | nil => intro s t h e; cases e; exact ⟨.refl _, (Stirred.refl _).congr (by simp)⟩
    | cons y l ih =>
      intro s t h e
      simp only [List.foldlM_cons, Option.bind_eq_bind, Option.bind_eq_some_iff] at e
      obtain ⟨u, e1, e2⟩ := e
      have step : Inv L rest u ∧ Woke s u ∧ Stirred (fun c => (fl = none ∨ fl = some (s.arbs y).a ∨ fl = some (s.arbs y).b) ∧ s.otherBody b y = c) s u := by
        split_ifs at e1 with hc
        · obtain ⟨t1, e1', h1, w1, -, -⟩ := bodyActivate_inv h (s.otherBody b y)
          rw [e1] at e1'; cases e1'
          exact ⟨h1, w1, (bodyActivate_stirred h.full e1).congr (fun c => ⟨fun q => ⟨hc, q.symm⟩, fun q => q.2.symm⟩)⟩
        · cases e1
          exact ⟨h, .refl s, (Stirred.refl s).congr (fun c => ⟨False.elim, fun q => hc q.1⟩)⟩
      obtain ⟨h1, w1, k1⟩ := step
      obtain ⟨r, k⟩ := ih u t h1 e2
      have w := w1.rous h.full h1.full
      refine ⟨w.trans r, (k1.trans w r k).congr fun c => ?_⟩
      simp only [(w1.arbs _).a, (w1.arbs _).b, w1.otherBody, List.mem_cons, exists_eq_or_imp]
  rw [activateStatic, h.full.core.arbList b] at e
  exact (key (L b) s t h e).2

theorem touchingBy_iff {L : Nat → List Nat} {rest : List Nat} {s : Sp F} (h : Full L rest s) (sh b c : Nat) :
    s.TouchingBy sh b c ↔ ∃ x ∈ L b, ((s.arbs x).a = sh ∨ (s.arbs x).b = sh) ∧ s.otherBody b x = c := by
  unfold TouchingBy
  constructor
  · rintro ⟨l, e, x, hx, hs, q⟩
    rw [h.core.arbList b] at e
    obtain rfl := Option.some.inj e
    refine ⟨x, hx, hs, ?_⟩
    unfold otherBody
    rcases q with ⟨q1, q2⟩ | ⟨q1, q2⟩
    · rw [if_pos q1]; exact q2
    · split_ifs with e
      · rw [← q1, e, q2]
      · exact q1
  · rintro ⟨x, hx, hs, q⟩
    refine ⟨_, h.core.arbList b, x, hx, hs, ?_⟩
    unfold otherBody at q
    split_ifs at q with e
    · exact .inl ⟨e, q⟩
    · rcases h.core.thread.ends b x hx with e' | e'
      · exact absurd e' e
      · exact .inr ⟨q, e'⟩

theorem two_stirred {L : Nat → List Nat} {rest : List Nat} {s u v : Sp F} (h : Inv L rest s) {a b : Nat} (e1 : s.bodyActivate a = some u)
    (e2 : u.bodyActivate b = some v) : Stirred (fun c => c = a ∨ c = b) s v := by
  obtain ⟨t1, e1', h1, w1, -, -⟩ := bodyActivate_inv h a
  rw [e1] at e1'; cases e1'
  obtain ⟨t2, e2', h2, w2, -, -⟩ := bodyActivate_inv h1 b
  rw [e2] at e2'; cases e2'
  exact (bodyActivate_stirred h.full e1).trans (w1.rous h.full h1.full) (w2.rous h1.full h2.full) (bodyActivate_stirred h1.full e2)

theorem script_stirred {L : Nat → List Nat} : ∀ (script : List LockOp) {s t : Sp F} {d : Nat}, Good L [] s →
    lockDepth s.locked script = some d → script.foldlM LockOp.run s = some t →
    Rous s t ∧ Stirred (fun c => LockOp.act c ∈ script) s t
  | [], s, t, d, h, ok, e => by cases e; exact ⟨.refl _, (Stirred.refl _).congr (by simp)⟩
  | o :: l, s, t, d, h, ok, e => by
    rw [lockDepth_cons] at ok
    obtain ⟨d1, ok1, ok2⟩ := Option.bind_eq_some_iff.1 ok
    obtain ⟨u, e1, g, hu, sc, -⟩ := lockOp_good h o ok1
    subst hu
    rw [List.foldlM_cons, e1] at e
    obtain ⟨r, k⟩ := script_stirred l g ok2 e
    have tch : ∀ b c, u.Touching b c ↔ s.Touching b c := by
      intro b c
      rw [touches_iff h.inv.full, touches_iff g.inv.full]
      have : ∀ x, u.otherBody b x = s.otherBody b x := fun x => by
        simp only [otherBody, (sc.arbs x).bodyA, (sc.arbs x).bodyB]
      simp only [this]
    have still : Undist s u → Rous s u := fun q => ⟨fun b => sc.keep.typ b, fun b => .inl (q b).2, fun b => .inl (q b).1,
      fun b c e => by rw [(q b).1, (q c).1]; exact e, tch⟩
    have main : Rous s u ∧ Stirred (fun c => LockOp.act c = o) s u := by
      cases o with
      | lock =>
        have q : Undist s u := by cases e1; exact .of rfl
        exact ⟨still q, q.stirred (by simp)⟩
      | unlock =>
        have q : Undist s u := unlock_undist e1
        exact ⟨still q, q.stirred (by simp)⟩
      | act b =>
        obtain ⟨t1, e1', h1, w1, -, -⟩ := bodyActivate_inv h.inv b
        have e1 : s.bodyActivate b = some u := e1
        rw [e1] at e1'; cases e1'
        exact ⟨w1.rous h.inv.full h1.full, (bodyActivate_stirred h.inv.full e1).congr (by simp)⟩
    refine ⟨main.1.trans r, (main.2.trans main.1 r k).congr (by simp)⟩

/-- What an operation wakes, and whose idle times it starts again. -/
theorem op_stirred {L : Nat → List Nat} {s t : Sp F} (h : World L s) (o : Op F) (ok : o.Allowed s) (hd : o.direct)
    (e : o.run s = some t) : Stirred (o.disturbs s) s t := by
  have hi := h.good.inv
  cases o with
  | setType b ty => exact hd.elim
  | setGravity => exact hd.elim
  | step i => exact hd.elim
  | addBody b =>
    refine Undist.stirred ?_ (fun c hc => hc.elim)
    simp only [Op.run, addBody] at e
    split_ifs at e <;> cases e <;> exact Undist.trans (.of rfl) (setBody_undist _ _ _ rfl rfl)
  | setThreshold th =>
    cases e
    exact Undist.stirred (.of rfl) (fun c hc => hc.elim)
  | removeBody b =>
    simp only [Op.run, removeBody, Option.bind_eq_bind] at e
    split_ifs at e with h1
    obtain ⟨u, e1, e2⟩ := Option.bind_eq_some_iff.1 e
    refine (bodyActivate_stirred hi.full e1).post ?_
    split_ifs at e2 <;> cases e2 <;> exact Undist.trans (.of rfl) (setBody_undist _ _ _ rfl rfl)
  | addShape sh =>
    simp only [Op.run, addShape, Option.bind_eq_bind] at e
    rw [if_neg (by simp [ok.1, h.unlocked])] at e
    by_cases hs : s.typ (s.shapes sh).body = .static
    · simp only [if_pos hs, Option.bind_some, Option.some.injEq] at e
      have q : Stirred (fun c => c = (s.shapes sh).body) s s := Undist.stirred (.refl _) (by rintro c rfl; rw [hs]; simp)
      refine q.post ?_
      rw [← e]; exact setBody_undist s (s.shapes sh).body (fun r => { r with shapes := r.shapes ++ [sh] }) rfl rfl
    · simp only [if_neg hs] at e
      obtain ⟨u, e1, e2⟩ := Option.bind_eq_some_iff.1 e
      refine (bodyActivate_stirred hi.full e1).post ?_
      cases e2; exact setBody_undist u (s.shapes sh).body (fun r => { r with shapes := r.shapes ++ [sh] }) rfl rfl
  | removeShape sh acts =>
    simp only [Op.run, removeShape, Option.bind_eq_bind] at e
    rw [if_neg (by simp [show (s.shapes sh).inSpace = true from ok, h.unlocked])] at e
    by_cases hs : s.typ (s.shapes sh).body = .static
    · simp only [if_pos hs] at e
      obtain ⟨u, e1, e2⟩ := Option.bind_eq_some_iff.1 e
      obtain ⟨v, e3, e4⟩ := Option.bind_eq_some_iff.1 e2
      have k := activateStatic_stirred hi e1
      have eq : ∀ c, s.typ c = .dynamic → ((Op.removeShape sh acts).disturbs s c ↔ ∃ x ∈ L (s.shapes sh).body,
          (some sh = none ∨ some sh = some (s.arbs x).a ∨ some sh = some (s.arbs x).b) ∧ s.otherBody (s.shapes sh).body x = c) := by
        intro c hc
        rw [Op.disturbs, touchingBy_iff hi.full]
        constructor
        · rintro (rfl | ⟨-, x, hx, q, q'⟩)
          · rw [hs] at hc; simp at hc
          · exact ⟨x, hx, .inr (by simpa [eq_comm] using q), q'⟩
        · rintro ⟨x, hx, q, q'⟩
          exact .inr ⟨hs, x, hx, by simpa [eq_comm] using q, q'⟩
      have q : Stirred ((Op.removeShape sh acts).disturbs s) s u :=
        ⟨fun x c h1 h2 h3 => k.awake x c ((eq c h2).1 h1) h2 h3, fun x h1 => k.asleep x (fun c hc hd => h1 c ((eq c hd).2 hc) hd),
          fun x c h1 h2 h3 => k.restart x c ((eq c h2).1 h1) h2 h3, fun x h1 => k.idle x (fun c hc hd => h1 c ((eq c hd).2 hc) hd)⟩
      refine q.post (Undist.trans (t := v) (Undist.trans (setBody_undist u (s.shapes sh).body _ ?_ ?_) (filterArbiters_undist hd e3)) ?_)
      · rfl
      · rfl
      · split_ifs at e4
        · cases e4; exact .of rfl
        · cases e4
    · simp only [if_neg hs] at e
      obtain ⟨u, e1, e2⟩ := Option.bind_eq_some_iff.1 e
      obtain ⟨v, e3, e4⟩ := Option.bind_eq_some_iff.1 e2
      have q : Stirred ((Op.removeShape sh acts).disturbs s) s u := by
        refine (bodyActivate_stirred hi.full e1).congr fun c => ?_
        simp [Op.disturbs, hs]
      refine q.post (Undist.trans (t := v) (Undist.trans (setBody_undist u (s.shapes sh).body _ ?_ ?_) (filterArbiters_undist hd e3)) ?_)
      · rfl
      · rfl
      · split_ifs at e4
        · cases e4; exact .of rfl
        · cases e4
  | addConstraint j =>
    simp only [Op.run, addConstraint, Option.bind_eq_bind] at e
    rw [if_neg (by simp [ok.1, h.unlocked])] at e
    obtain ⟨u, e1, e2⟩ := Option.bind_eq_some_iff.1 e
    obtain ⟨v, e3, e4⟩ := Option.bind_eq_some_iff.1 e2
    refine (two_stirred hi e1 e3).post ?_
    cases e4
    intro x
    simp only [setBody, setCon, Function.update_apply]
    split_ifs with q1 q2 <;> simp_all
  | removeConstraint j =>
    simp only [Op.run, removeConstraint, Option.bind_eq_bind] at e
    rw [if_neg (by simp [show (s.cons j).inSpace = true from ok, h.unlocked])] at e
    obtain ⟨u, e1, e2⟩ := Option.bind_eq_some_iff.1 e
    obtain ⟨v, e3, e4⟩ := Option.bind_eq_some_iff.1 e2
    obtain ⟨w, e5, e6⟩ := Option.bind_eq_some_iff.1 e4
    obtain ⟨y, e7, e8⟩ := Option.bind_eq_some_iff.1 e6
    refine (two_stirred hi e1 e3).post ?_
    refine Undist.trans (t := w) ?_ (Undist.trans (bodyRemoveCon_undist e7) ?_)
    · have := bodyRemoveCon_undist e5
      exact this
    cases e8; exact .of rfl
  | activate b => exact bodyActivate_stirred hi.full e
  | activateStatic b fl =>
    refine (activateStatic_stirred hi e).congr fun c => ?_
    cases fl with
    | none => rw [Op.disturbs, touches_iff hi.full]; simp
    | some sh => rw [Op.disturbs, touchingBy_iff hi.full]; simp [eq_comm]
  | query script =>
    exact (script_stirred script h.good (by rw [h.unlocked]; exact ok) e).2

end Sp
end CP
