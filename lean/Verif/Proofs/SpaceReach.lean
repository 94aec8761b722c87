import Verif.Proofs.SpaceStep
import Verif.Proofs.SpaceLock
import Verif.Proofs.SpaceOps2
import Verif.Proofs.SpaceType
import Verif.Proofs.SpaceCon
import Verif.Spec.History

/-! # Every reachable state satisfies the invariant, and no allowed operation fails -/

namespace CP
variable {F : Type}
namespace Sp
variable [GoFloat F]

/-- The invariant of the states between operations. -/
structure World (L : Nat → List Nat) (s : Sp F) : Prop where
  good : Good L [] s
  unlocked : s.locked = 0
  host : Hosted s

theorem ArbsKept.traceInv {L : Nat → List Nat} {s t : Sp F} (w : ArbsKept s t) (ht : t.trace = s.trace) (h : TraceInv L s) :
    TraceInv L t :=
  h.congr ht w.arbBound w.pool fun x => ⟨(w.arbs x).a, (w.arbs x).b, (w.arbs x).bodyA, by rw [(w.arbs x).state]⟩

theorem ArbsKept.valid {L : Nat → List Nat} {rest : List Nat} {s t : Sp F} (w : ArbsKept s t) (ht : t.stamp = s.stamp)
    (h : Valid L rest s) : Valid L rest t := by
  intro x
  have : InL L t x ↔ InL L s x := by simp only [InL, (w.arbs x).bodyA]
  rw [w.arbBound, w.pool, (w.arbs x).state, this, ht]
  intro h1 h2
  obtain ⟨a, b, c⟩ := h x h1 h2
  refine ⟨a, b, ?_⟩
  rcases w.stamps x with e | e
  · rw [e]; exact c
  · rw [e]

theorem Woke.kept {s t : Sp F} (w : Woke s t) : ArbsKept s t :=
  ⟨w.arbs, w.arbBound, w.pool, fun x => (w.stamps x).imp id And.left⟩

theorem Good.kept {L : Nat → List Nat} {s t : Sp F} (h : Good L [] s) (i : Inv L [] t) (w : ArbsKept s t)
    (ht : t.trace = s.trace) (hs : t.stamp = s.stamp) : Good L [] t :=
  ⟨i, w.traceInv ht h.tr, w.valid hs h.valid⟩

theorem World.woke {L : Nat → List Nat} {s t : Sp F} (h : World L s) (i : Inv L [] t) (w : Woke s t) : World L t :=
  ⟨h.good.kept i w.kept w.trace w.stamp, w.locked.trans h.unlocked,
    h.host.congr w.typ (fun b => (w.bodies b).inSpace) w.shapes w.cons⟩

theorem gravityLoop_good {L : Nat → List Nat} : ∀ (n i : Nat) (back : List Nat) (s : Sp F), World L s →
    ∃ t, gravityLoop n i back s = some t ∧ World L t ∧ Woke s t
  | 0, _, _, s, h => ⟨s, rfl, h, .refl s⟩
  | n + 1, i, back, s, h => by
    obtain ⟨u, e, g, w, -⟩ := bodyActivate_good h.good (back.getD i 0)
    obtain ⟨t, e2, h2, w2⟩ := gravityLoop_good n (i + 1) (u.sleeping ++ back.drop u.sleeping.length) u (h.woke g.inv w)
    exact ⟨t, by rw [gravityLoop, e]; exact e2, h2, w.trans w2⟩

omit [GoFloat F] in
theorem hasShapes_of_list {A : Nat → Prop} {s : Sp F} (h : ShapeInv A s) (b : Nat) : ¬ s.hasShapes b → (s.bodies b).shapes = [] := by
  intro hn
  rw [List.eq_nil_iff_forall_not_mem]
  intro sh hsh
  exact hn ⟨sh, (h.memList b sh).1 hsh⟩

omit [GoFloat F] in
theorem conList_congr {s t : Sp F} (hc : t.cons = s.cons) (hb : ∀ b, (t.bodies b).cons = (s.bodies b).cons)
    (hn : t.nCons = s.nCons) (b : Nat) : t.conList b = s.conList b := by
  have : t.conNext b = s.conNext b := by funext x; simp only [conNext, hc]
  simp only [Sp.conList, this, hn, hb]

/-- An operation that neither adds nor removes and keeps the types. -/
theorem Keep.effect {o : Op F} {s t : Sp F} (k : Keep s t) (hs : t.shapes = s.shapes)
    (h1 : ∀ f, o.bodyIn f = f) (h2 : ∀ f, o.shapeIn f = f) (h3 : ∀ f, o.conIn f = f) (h4 : ∀ f, o.types f = f)
    (h5 : ∀ a l, o.conOrder a l = l) : Effect o s t where
  bodyIn b := by rw [h1]; exact k.inSpace b
  types b := by rw [h4]; exact k.typ b
  shapeIn b := by rw [h2, hs]
  shapeBody b := by rw [hs]
  conIn b := by rw [h3, k.cons]
  ends c := by rw [k.cons]; exact ⟨rfl, rfl⟩
  conOrder b l h := by rw [h5, conList_congr k.cons k.conHead k.nCons]; exact h
  staticBody := k.staticBody
  locked := k.locked
  sensor b := by rw [hs]

theorem Inv.conListed {L : Nat → List Nat} {s : Sp F} (h : Inv L [] s) {Lc : Nat → List Nat} (hl : ConLists s Lc)
    (hm : ∀ b c, c ∈ Lc b → (s.cons c).inSpace = true) (b : Nat) : s.conList b = some (Lc b) :=
  walk_of_chain (hl b).1 (nodup_length_le (hl b).1.nodup fun c hcl => h.full.core.con.bound c (hm b c hcl))

set_option maxHeartbeats 1000000 in
/-- An allowed operation never fails and leads to a good state again. -/
theorem op_good {L : Nat → List Nat} {s : Sp F} (h : World L s) (o : Op F) (ok : o.Allowed s) :
    ∃ t L', o.run s = some t ∧ World L' t ∧ Effect o s t := by
  have hl := h.unlocked
  have hi := h.good.inv
  cases o with
  | addBody b =>
    obtain ⟨t, e, i, ht⟩ := addBody_inv hi ok.1 ok.2
    refine ⟨t, L, e, ⟨h.good.kept i ?_ (by rw [ht]) (by rw [ht]), by rw [ht]; exact hl, ?_⟩, ?_⟩
    · rw [ht]; exact ⟨fun _ => .refl _, rfl, rfl, fun _ => .inl rfl⟩
    · have ty : ∀ x, t.typ x = s.typ x := by
        intro x; rw [ht]; simp only [typ, Function.update_apply]; split_ifs with q
        · subst q; rfl
        · rfl
      have mono : ∀ x, (s.bodies x).inSpace = true → (t.bodies x).inSpace = true := by
        intro x hx; rw [ht]; simp only [Function.update_apply]; split_ifs
        · rfl
        · exact hx
      have e1 : t.shapes = s.shapes := by rw [ht]
      have e2 : t.cons = s.cons := by rw [ht]
      refine ⟨fun sh q1 q2 => ?_, fun c q1 => ⟨fun q2 => ?_, fun q2 => ?_⟩⟩
      · rw [e1] at q1 q2 ⊢; rw [ty] at q2; exact mono _ (h.host.shape sh q1 q2)
      · rw [e2] at q1 q2 ⊢; rw [ty] at q2; exact mono _ ((h.host.con c q1).1 q2)
      · rw [e2] at q1 q2 ⊢; rw [ty] at q2; exact mono _ ((h.host.con c q1).2 q2)
    · refine ⟨fun x => ?_, fun x => ?_, fun x => by rw [ht]; rfl, fun x => by rw [ht], fun c => by rw [ht]; rfl, fun c => by rw [ht]; exact ⟨rfl, rfl⟩,
        fun x l hx => ?_, by rw [ht], by rw [ht], fun x => by rw [ht]⟩
      · rw [ht]; simp only [Op.bodyIn, Function.update_apply]; split_ifs <;> rfl
      · rw [ht]; simp only [Op.types, typ, Function.update_apply]; split_ifs with q
        · subst q; rfl
        · rfl
      · rw [conList_congr (s := s) (by rw [ht]) (fun y => ?_) (by rw [ht])]
        · exact hx
        · rw [ht]; simp only [Function.update_apply]; split_ifs with q
          · subst q; rfl
          · rfl
  | removeBody b =>
    obtain ⟨t, u, e, i, w, ht⟩ := removeBody_inv hi hl ok.1 ok.2.1
    refine ⟨t, L, e, ⟨h.good.kept i ?_ (by rw [ht]; exact w.trace) (by rw [ht]; exact w.stamp), by rw [ht]; exact w.locked.trans hl, ?_⟩, ?_⟩
    · rw [ht]; exact ⟨w.arbs, w.arbBound, w.pool, fun x => (w.stamps x).imp id And.left⟩
    · have ty : ∀ x, t.typ x = s.typ x := by
        intro x; refine Eq.trans ?_ (w.typ x); rw [ht]; simp only [typ, Function.update_apply]; split_ifs with q
        · subst q; rfl
        · rfl
      have mono : ∀ x, x ≠ b → (s.bodies x).inSpace = true → (t.bodies x).inSpace = true := by
        intro x hx hs; rw [ht]; simp only [Function.update_apply, if_neg hx]
        rw [(w.bodies x).inSpace]; exact hs
      have e1 : t.shapes = s.shapes := by rw [ht]; exact w.shapes
      have e2 : t.cons = s.cons := by rw [ht]; exact w.cons
      refine ⟨fun sh q1 q2 => ?_, fun c q1 => ⟨fun q2 => ?_, fun q2 => ?_⟩⟩
      · rw [e1] at q1 q2 ⊢; rw [ty] at q2
        refine mono _ (fun q => ?_) (h.host.shape sh q1 q2)
        rw [q] at q2; exact (ok.2.2 q2).1 ⟨sh, q1, q⟩
      · rw [e2] at q1 q2 ⊢; rw [ty] at q2
        refine mono _ (fun q => ?_) ((h.host.con c q1).1 q2)
        rw [q] at q2; exact (ok.2.2 q2).2 ⟨c, q1, .inl q⟩
      · rw [e2] at q1 q2 ⊢; rw [ty] at q2
        refine mono _ (fun q => ?_) ((h.host.con c q1).2 q2)
        rw [q] at q2; exact (ok.2.2 q2).2 ⟨c, q1, .inr q⟩
    · refine ⟨fun x => ?_, fun x => ?_, fun x => by rw [ht]; show (u.shapes x).inSpace = _; rw [w.shapes]; rfl,
        fun x => by rw [ht]; show (u.shapes x).body = _; rw [w.shapes], fun c => by rw [ht]; show (u.cons c).inSpace = _; rw [w.cons]; rfl,
        fun c => by rw [ht]; show (u.cons c).a = _ ∧ (u.cons c).b = _; rw [w.cons]; exact ⟨rfl, rfl⟩,
        fun x l hx => ?_, by rw [ht]; exact w.staticBody, by rw [ht]; exact w.locked, fun x => by rw [ht]; show (u.shapes x).sensor = _; rw [w.shapes]⟩
      · rw [ht]; simp only [Op.bodyIn, Function.update_apply]; split_ifs
        · rfl
        · exact (w.bodies x).inSpace
      · refine Eq.trans ?_ (w.typ x)
        rw [ht]; simp only [typ, Function.update_apply]; split_ifs with q
        · subst q; rfl
        · rfl
      · rw [conList_congr (s := s) (by rw [ht]; exact w.cons) (fun y => ?_) (by rw [ht]; exact w.nCons)]
        · exact hx
        · rw [← (w.bodies y).cons, ht]; simp only [Function.update_apply]; split_ifs with q
          · subst q; rfl
          · rfl
  | setType b ty =>
    obtain ⟨o1, o2, o3, o4⟩ := ok
    have hlink : ∀ c, s.Linked b c ↔ (∃ x, InL L s x ∧ (((s.arbs x).bodyA = b ∧ (s.arbs x).bodyB = c) ∨ ((s.arbs x).bodyA = c ∧ (s.arbs x).bodyB = b))) ∨
        (∃ k, (s.cons k).inSpace = true ∧ (((s.cons k).a = b ∧ (s.cons k).b = c) ∨ ((s.cons k).a = c ∧ (s.cons k).b = b))) := by
      intro c
      obtain ⟨N, -, n1, n2⟩ := hi.full.core.graph
      rw [← n1, n2]
    have o3' : s.typ b = .static → ∀ c, s.Linked b c → (s.bodies c).root = none := by
      intro q c hc
      by_contra hr
      exact o3 q ⟨c, hc, hr⟩
    have hst : s.typ b = .static → (∀ x ∈ L b, (s.bodies (s.otherBody b x)).root = none) ∧
      ∀ c, (s.cons c).inSpace = true → (s.cons c).a = b ∨ (s.cons c).b = b → (s.bodies (s.otherCon b c)).root = none := by
      refine fun q => ⟨fun x hx => ?_, fun c q1 q2 => ?_⟩
      · refine o3' q _ ((hlink _).2 (.inl ⟨x, hi.full.core.thread.inL hx, ?_⟩))
        simp only [otherBody]
        rcases hi.full.core.thread.ends b x hx with e | e
        · rw [if_pos e]; exact .inl ⟨e, rfl⟩
        · split_ifs with q
          · exact .inl ⟨q, rfl⟩
          · exact .inr ⟨rfl, e⟩
      · refine o3' q _ ((hlink _).2 (.inr ⟨c, q1, ?_⟩))
        simp only [otherCon]
        rcases q2 with e | e
        · rw [if_pos e.symm]; exact .inl ⟨e, rfl⟩
        · split_ifs with q
          · exact .inl ⟨q.symm, rfl⟩
          · exact .inr ⟨rfl, e⟩
    obtain ⟨t, e, i, f⟩ := setType_inv hi hl o1 o2 hst
      (fun q => hasShapes_of_list hi.full.core.shape b (o4 q).1) ty
    refine ⟨t, L, e, ⟨h.good.kept i f.kept f.trace f.stamp, f.locked.trans hl, ?_⟩, ?_⟩
    swap
    · refine ⟨f.inSpace, fun x => ?_, fun x => by rw [f.shapes]; rfl, fun x => by rw [f.shapes], fun c => by rw [f.cons]; rfl,
        fun c => by rw [f.cons]; exact ⟨rfl, rfl⟩, fun x l hx => ?_, f.staticBody, f.locked, fun x => by rw [f.shapes]⟩
      · rw [f.typ]; simp only [Op.types, Function.update_apply]
      · rw [conList_congr f.cons f.bcons f.nCons]; exact hx
    · refine ⟨fun sh q1 q2 => ?_, fun c q1 => ⟨fun q2 => ?_, fun q2 => ?_⟩⟩
      · rw [f.shapes] at q1 q2 ⊢; rw [f.inSpace]
        by_cases hb : (s.shapes sh).body = b
        · by_contra hns
          rw [hb, Bool.not_eq_true] at hns
          exact (o4 hns).1 ⟨sh, q1, hb⟩
        · rw [f.typ, if_neg hb] at q2; exact h.host.shape sh q1 q2
      · rw [f.cons] at q1 q2 ⊢; rw [f.inSpace]
        by_cases hb : (s.cons c).a = b
        · by_contra hns
          rw [hb, Bool.not_eq_true] at hns
          rw [f.typ, if_pos hb] at q2
          exact (o4 hns).2 q2 ⟨c, q1, .inl hb⟩
        · rw [f.typ, if_neg hb] at q2; exact (h.host.con c q1).1 q2
      · rw [f.cons] at q1 q2 ⊢; rw [f.inSpace]
        by_cases hb : (s.cons c).b = b
        · by_contra hns
          rw [hb, Bool.not_eq_true] at hns
          rw [f.typ, if_pos hb] at q2
          exact (o4 hns).2 q2 ⟨c, q1, .inr hb⟩
        · rw [f.typ, if_neg hb] at q2; exact (h.host.con c q1).2 q2
  | addShape sh =>
    obtain ⟨t, u, e, i, w, ht⟩ := addShape_inv hi hl ok.1
    refine ⟨t, L, e, ⟨h.good.kept i ?_ (by rw [ht]; exact w.trace) (by rw [ht]; exact w.stamp), by rw [ht]; exact w.locked.trans hl, ?_⟩, ?_⟩
    · rw [ht]; exact ⟨w.arbs, w.arbBound, w.pool, fun x => (w.stamps x).imp id And.left⟩
    · have ty : ∀ x, t.typ x = s.typ x := by
        intro x; refine Eq.trans ?_ (w.typ x); rw [ht]; simp only [typ, Function.update_apply]; split_ifs with q
        · subst q; rfl
        · rfl
      have ins : ∀ x, (t.bodies x).inSpace = (s.bodies x).inSpace := by
        intro x; rw [ht, ← (w.bodies x).inSpace]; simp only [Function.update_apply]; split_ifs with q
        · subst q; rfl
        · rfl
      have e1 : ∀ y, (t.shapes y).body = (s.shapes y).body := by
        intro y; rw [ht]; simp only [Function.update_apply]; split_ifs with q
        · subst q; simp only [w.shapes]
        · rw [w.shapes]
      have e3 : ∀ y, y ≠ sh → (t.shapes y).inSpace = (s.shapes y).inSpace := by
        intro y hy; rw [ht]; simp only [Function.update_apply, if_neg hy]; rw [w.shapes]
      have e2 : t.cons = s.cons := by rw [ht]; exact w.cons
      refine ⟨fun y q1 q2 => ?_, fun c q1 => ⟨fun q2 => ?_, fun q2 => ?_⟩⟩
      · rw [e1, ty] at q2; rw [e1, ins]
        by_cases hy : y = sh
        · subst hy; exact ok.2 q2
        · rw [e3 y hy] at q1; exact h.host.shape y q1 q2
      · rw [e2] at q1 q2 ⊢; rw [ty] at q2; rw [ins]; exact (h.host.con c q1).1 q2
      · rw [e2] at q1 q2 ⊢; rw [ty] at q2; rw [ins]; exact (h.host.con c q1).2 q2
    · refine ⟨fun x => ?_, fun x => ?_, fun x => ?_,
        fun x => ?_, fun c => by rw [ht]; show (u.cons c).inSpace = _; rw [w.cons]; rfl,
        fun c => by rw [ht]; show (u.cons c).a = _ ∧ (u.cons c).b = _; rw [w.cons]; exact ⟨rfl, rfl⟩,
        fun x l hx => ?_, by rw [ht]; exact w.staticBody, by rw [ht]; exact w.locked, fun x => by
          rw [ht]; simp only [Function.update_apply, w.shapes]; split_ifs with q
          · subst q; rfl
          · rfl⟩
      · refine Eq.trans ?_ (w.bodies x).inSpace
        rw [ht]; simp only [Function.update_apply]; split_ifs with q
        · subst q; rfl
        · rfl
      · refine Eq.trans ?_ (w.typ x)
        rw [ht]; simp only [typ, Function.update_apply]; split_ifs with q
        · subst q; rfl
        · rfl
      · rw [ht]; simp only [Op.shapeIn, Function.update_apply, w.shapes]; split_ifs <;> rfl
      · rw [ht]; simp only [Function.update_apply, w.shapes]; split_ifs with q
        · subst q; rfl
        · rfl
      · rw [conList_congr (s := s) (by rw [ht]; exact w.cons) (fun y => ?_) (by rw [ht]; exact w.nCons)]
        · exact hx
        · refine Eq.trans ?_ (w.bodies y).cons
          rw [ht]; simp only [Function.update_apply]; split_ifs with q
          · subst q; rfl
          · rfl
  | removeShape sh acts =>
    obtain ⟨t, L', e, g, k, hs, -, -, -⟩ := removeShape_good h.good hl ok acts
    refine ⟨t, L', e, ⟨g, k.locked.trans hl, ?_⟩, ?_⟩
    swap
    · refine ⟨k.inSpace, k.typ, fun x => ?_, fun x => (k.shapeBody x).1, fun c => by rw [k.cons]; rfl,
        fun c => by rw [k.cons]; exact ⟨rfl, rfl⟩, fun x l hx => ?_, k.staticBody, k.locked, fun x => (k.shapeBody x).2⟩
      · rw [hs]; simp only [Op.shapeIn, Function.update_apply]
      · rw [conList_congr k.cons k.conHead k.nCons]; exact hx
    refine ⟨fun y q1 q2 => ?_, fun c q1 => ⟨fun q2 => ?_, fun q2 => ?_⟩⟩
    · rw [(k.shapeBody y).1, k.typ] at q2; rw [(k.shapeBody y).1, k.inSpace]
      rw [hs] at q1
      split_ifs at q1
      exact h.host.shape y q1 q2
    · rw [k.cons] at q1 q2 ⊢; rw [k.typ] at q2; rw [k.inSpace]; exact (h.host.con c q1).1 q2
    · rw [k.cons] at q1 q2 ⊢; rw [k.typ] at q2; rw [k.inSpace]; exact (h.host.con c q1).2 q2
  | addConstraint c =>
    obtain ⟨o1, o2, o3, o4, o5⟩ := ok
    obtain ⟨t, e, i, f, hs, hli⟩ := addConstraint_inv hi hl o1 o2 o3
    refine ⟨t, L, e, ⟨h.good.kept i f.kept f.trace f.stamp, f.locked.trans hl, ?_⟩, ?_⟩
    swap
    · refine ⟨f.inSpace, f.typ, fun x => by rw [f.shapes]; rfl, fun x => by rw [f.shapes], fun x => ?_, fun x => ⟨f.a x, f.b x⟩,
        fun x l hx => ?_, f.staticBody, f.locked, fun x => by rw [f.shapes]⟩
      · rw [hs]; simp only [Op.conIn, Function.update_apply]
      · obtain ⟨Lc, c1, c2⟩ := hi.conLists
        have hm : ∀ b k, k ∈ Lc b → (s.cons k).inSpace = true := fun b k hk => ((c2 b k).1 hk).1
        have e1 := hi.conListed c1 hm x
        rw [hx] at e1
        obtain rfl := Option.some.inj e1
        have hnin : ∀ b, c ∉ Lc b := fun b hb => by have := hm b c hb; rw [o1] at this; simp at this
        rw [i.conListed (hli Lc c1 hnin) (fun b k hk => ?_)]
        · simp only [Op.conOrder, joins, Bool.or_eq_true, beq_iff_eq]
        · rw [hs]
          split_ifs at hk with q
          · rcases List.mem_cons.1 hk with q | q
            · simp [q]
            · simp [hm b k q]
          · simp [hm b k hk]
    refine ⟨fun y q1 q2 => ?_, fun y q1 => ?_⟩
    · rw [f.shapes] at q1 q2 ⊢; rw [f.typ] at q2; rw [f.inSpace]; exact h.host.shape y q1 q2
    · rw [f.a, f.b, f.typ, f.typ, f.inSpace, f.inSpace]
      rw [hs] at q1
      split_ifs at q1 with q
      · subst q; exact ⟨o4, o5⟩
      · exact h.host.con y q1
  | removeConstraint c =>
    obtain ⟨t, e, i, f, hs, hli⟩ := removeConstraint_inv hi hl ok
    refine ⟨t, L, e, ⟨h.good.kept i f.kept f.trace f.stamp, f.locked.trans hl, ?_⟩, ?_⟩
    swap
    · refine ⟨f.inSpace, f.typ, fun x => by rw [f.shapes]; rfl, fun x => by rw [f.shapes], fun x => ?_, fun x => ⟨f.a x, f.b x⟩,
        fun x l hx => ?_, f.staticBody, f.locked, fun x => by rw [f.shapes]⟩
      · rw [hs]; simp only [Op.conIn, Function.update_apply]
      · obtain ⟨Lc, c1, c2⟩ := hi.conLists
        have hm : ∀ b k, k ∈ Lc b → (s.cons k).inSpace = true := fun b k hk => ((c2 b k).1 hk).1
        have e1 := hi.conListed c1 hm x
        rw [hx] at e1
        obtain rfl := Option.some.inj e1
        rw [i.conListed (hli Lc c1) (fun b k hk => ?_)]
        · rfl
        · have := (c1 b).1.nodup.mem_erase_iff.1 hk
          rw [hs, if_neg this.1]
          exact hm b k this.2
    refine ⟨fun y q1 q2 => ?_, fun y q1 => ?_⟩
    · rw [f.shapes] at q1 q2 ⊢; rw [f.typ] at q2; rw [f.inSpace]; exact h.host.shape y q1 q2
    · rw [f.a, f.b, f.typ, f.typ, f.inSpace, f.inSpace]
      rw [hs] at q1
      split_ifs at q1 with q
      exact h.host.con y q1
  | activate b =>
    obtain ⟨t, e, g, w, -⟩ := bodyActivate_good h.good b
    exact ⟨t, L, e, h.woke g.inv w, w.keep.effect w.shapes (fun _ => rfl) (fun _ => rfl) (fun _ => rfl) (fun _ => rfl) (fun _ _ => rfl)⟩
  | activateStatic b f =>
    obtain ⟨t, e, i, w, -⟩ := activateStatic_inv hi b f
    exact ⟨t, L, e, h.woke i w, w.keep.effect w.shapes (fun _ => rfl) (fun _ => rfl) (fun _ => rfl) (fun _ => rfl) (fun _ _ => rfl)⟩
  | setGravity =>
    obtain ⟨t, e, w, k⟩ := gravityLoop_good s.sleeping.length 0 s.sleeping s h
    exact ⟨t, L, e, w, k.keep.effect k.shapes (fun _ => rfl) (fun _ => rfl) (fun _ => rfl) (fun _ => rfl) (fun _ _ => rfl)⟩
  | setThreshold x =>
    refine ⟨_, L, rfl, ⟨?_, hl, h.host.congr (fun _ => rfl) (fun _ => rfl) rfl rfl⟩,
      ⟨fun _ => rfl, fun _ => rfl, fun _ => rfl, fun _ => rfl, fun _ => rfl, fun _ => ⟨rfl, rfl⟩, fun _ _ h => h, rfl, rfl, fun _ => rfl⟩⟩
    refine h.good.kept ?_ ⟨fun _ => .refl _, rfl, rfl, fun _ => .inl rfl⟩ rfl rfl
    refine ⟨⟨⟨⟨hi.full.core.body.dynNodup, hi.full.core.body.statNodup, hi.full.core.body.memDyn, hi.full.core.body.memStat,
      hi.full.core.body.off, hi.full.core.body.bound⟩, ⟨hi.full.core.shape.listNodup, hi.full.core.shape.memList, hi.full.core.shape.statNodup,
      hi.full.core.shape.dynNodup, hi.full.core.shape.memStat, hi.full.core.shape.memDyn⟩, ⟨hi.full.core.con.ne, hi.full.core.con.bound,
      hi.full.core.con.list, hi.full.core.con.nodup, hi.full.core.con.mem⟩, ?_, ?_⟩, ?_, hi.full.quiet⟩, ⟨hi.closed.arb, hi.closed.con⟩, ?_⟩
    · exact ⟨hi.full.core.thread.nodup, hi.full.core.thread.head, hi.full.core.thread.dl,
          hi.full.core.thread.ends, hi.full.core.thread.both, hi.full.core.thread.out⟩
    · have kr := hi.full.core.arb
      exact ⟨kr.mem, kr.nodup, kr.restNodup, kr.rest, kr.cachedIff, kr.cachedNodup, kr.uniq, kr.live, kr.poolNodup, kr.poolBound, kr.stamp, kr.head, kr.noLeak⟩
    · exact ⟨hi.full.sleep.aIff, hi.full.sleep.rousedNodup, hi.full.sleep.rousedRoot,
        hi.full.sleep.sleepNodup, hi.full.sleep.chain, hi.full.sleep.rootless, hi.full.sleep.rouseLock⟩
    · refine ⟨hi.num.kin, fun y hy => ?_, fun hy => ?_, hi.num.sb⟩
      · obtain rfl : x = .time y := hy
        exact ok
      · obtain rfl : x = .infinity := hy
        exact ok
  | query script =>
    obtain ⟨t, e, g, tl, sc, -⟩ := script_good script h.good (by rw [hl]; exact ok)
    have k := sc.keep
    have k : Keep s t := ⟨k.nBodies, k.nCons, k.typ, k.infMass, k.inSpace, k.conHead, k.shapeBody, k.cons, k.threshold, k.staticBody, tl.trans hl.symm⟩
    exact ⟨t, L, e, ⟨g, tl, h.host.congr k.typ k.inSpace sc.shapes k.cons⟩,
      k.effect sc.shapes (fun _ => rfl) (fun _ => rfl) (fun _ => rfl) (fun _ => rfl) (fun _ _ => rfl)⟩
  | step i =>
    by_cases hdt : i.dt = 0
    · exact ⟨s, L, by simp only [Op.run, step, if_pos hdt], h,
        (Keep.refl s).effect rfl (fun _ => rfl) (fun _ => rfl) (fun _ => rfl) (fun _ => rfl) (fun _ _ => rfl)⟩
    · obtain ⟨t, L', e, g, st⟩ := step_good h.good hl h.host hdt ok
      exact ⟨t, L', e, ⟨g, st.keep.locked.trans hl, h.host.congr st.keep.typ st.keep.inSpace st.shapes st.keep.cons⟩,
        st.keep.effect st.shapes (fun _ => rfl) (fun _ => rfl) (fun _ => rfl) (fun _ => rfl) (fun _ _ => rfl)⟩

theorem newSpace_good (n m : Nat) (type : Nat → BType) (shape : Nat → Nat × Bool) (con : Nat → Nat × Nat) :
    World (fun _ => []) (newSpace n m type shape con : Sp F) := by
  have hr : ∀ b, ((newSpace n m type shape con : Sp F).bodies b).root = none := by
    intro b; simp only [newSpace]; split_ifs <;> rfl
  have hin : ∀ b, ((newSpace n m type shape con : Sp F).bodies b).inSpace = true ↔ b = 0 := by
    intro b; simp only [newSpace]; split_ifs with h <;> simp [h]
  have h0 : (newSpace n m type shape con : Sp F).typ 0 = .static := by simp [typ, newSpace, BodyR.type]
  have hoff : ∀ b, ¬ (newSpace n m type shape con : Sp F).off b := by
    intro b hb
    rcases hb with ⟨r, hr1, -⟩ | hb
    · simp [newSpace] at hr1
    · simp [newSpace] at hb
  refine ⟨⟨⟨⟨⟨⟨by simp [newSpace], by simp [newSpace], ?_, ?_, ?_, ?_⟩, ⟨?_, ?_, by simp [newSpace], by simp [newSpace], ?_, ?_⟩, ⟨?_, ?_, ?_, by simp [newSpace], ?_⟩,
    ⟨by simp, ?_, by simp [DL], by simp, by simp, ?_⟩, ?_⟩, ?_, ?_⟩, ⟨?_, ?_⟩, ⟨?_, ?_, ?_, ?_, h0⟩⟩, ⟨?_, ?_⟩, ?_⟩, rfl, ⟨?_, ?_⟩⟩
  · intro b; constructor
    · intro h; simp [newSpace] at h
    · rintro ⟨h1, h2, -⟩; rw [(hin b).1 h1, h0] at h2; simp at h2
  · intro b; constructor
    · intro h; simp [newSpace] at h
    · rintro ⟨h1, h2, h3⟩; exact absurd ((hin b).1 h1) h3
  · intro b hb; exact absurd hb (hoff b)
  · intro b hb; rw [(hin b).1 hb]; simp [newSpace]
  · intro b; simp only [newSpace]; split_ifs <;> simp
  · intro b sh; simp only [newSpace]; split_ifs <;> simp
  · intro sh; simp [newSpace]
  · intro sh; simp [newSpace]
  · intro c hc; simp [newSpace] at hc
  · intro c hc; simp [newSpace] at hc
  · intro b; refine ⟨[], ?_, fun c => by simp [newSpace]⟩
    simp only [newSpace]; split_ifs <;> rfl
  · intro c; simp [newSpace]
  · intro b; simp only [newSpace]; split_ifs <;> rfl
  · intro x _; exact ⟨rfl, rfl⟩
  · constructor
    case mem => intro x; simp [newSpace, InL]
    all_goals simp [newSpace, InL]
  · constructor
    · intro b; exact .rfl
    · simp [newSpace]
    · simp [newSpace]
    · simp [newSpace]
    · simp [newSpace]
    · intro b _; simp only [newSpace]; split_ifs <;> rfl
    · intro _; rfl
  · intro b r h; rw [hr] at h; simp at h
  · intro x hx; simp [InL] at hx
  · intro c hc; simp [newSpace] at hc
  · intro b hb
    by_cases hb0 : b = 0
    · subst hb0; rw [h0] at hb; simp at hb
    · simp only [typ, newSpace, if_neg hb0, BodyR.type] at hb ⊢
      by_cases hty : type b = .static
      · simp [hty] at hb
      · simp [hty]
  · intro t ht; simp [newSpace] at ht
  · intro _; rfl
  · exact (hin _).2 rfl
  · intro p q; refine ⟨false, rfl, ?_⟩
    simp only [Bool.false_eq_true, false_iff, not_exists]
    intro x hx; have := hx.1; simp [newSpace] at this
  · intro x hx; simp [InL] at hx
  · intro x hx; simp [newSpace] at hx
  · intro sh hsh; simp [newSpace] at hsh
  · intro c hc; simp [newSpace] at hc

/-- Every reachable state satisfies the invariant. -/
theorem Reach.world {s : Sp F} (h : Reach s) : ∃ L, World L s := by
  induction h with
  | new n m type shape con => exact ⟨_, newSpace_good n m type shape con⟩
  | op o _ ok e ih =>
    obtain ⟨L, w⟩ := ih
    obtain ⟨t, L', e', w', -⟩ := op_good w o ok
    rw [e] at e'
    obtain rfl := Option.some.inj e'
    exact ⟨L', w'⟩

end Sp
end CP
