import Verif.Spec.Scene
import Verif.Props.Index
import Verif.Props.Space
import Verif.Props.Collide
import Verif.Props.Hashing

/-! # The indexes follow the space -/

namespace CP
open GoFloat
variable {F : Type} [GoFloat F]

/-- The two indexes hold the shapes of the lists of the space. -/
structure Sync (s : Spec F) (sc : Scene F) : Prop where
  box : s.box = fun o => (sc.shapes o).shp.bb
  dyn : ∀ o, s.idx false o ≠ none ↔ o ∈ sc.sp.dynamicShapes
  stat : ∀ o, s.idx true o ≠ none ↔ o ∈ sc.sp.staticShapes

theorem removes_some {h : Obj → Nat} (st : Bool) (l : List Nat) (hl : l.Nodup) (s : Spec F) (w : World F) (hh : Hist h s w)
    (hin : ∀ o ∈ l, s.idx st o ≠ none) :
    ∃ w', l.foldlM (fun w o => w.remove h st o) w = some w' ∧ ∃ s', Hist h s' w' ∧ s'.box = s.box ∧ s'.vel = s.vel ∧
      ∀ i x, s'.idx i x = if i = st ∧ x ∈ l then none else s.idx i x := by
  induction l generalizing s w with
  | nil => exact ⟨w, rfl, s, hh, rfl, rfl, by simp⟩
  | cons o l ih =>
    rw [List.nodup_cons] at hl
    have ok : s.ok (.remove st o) := hin o (by simp)
    obtain ⟨w1, e1⟩ : ∃ w1, w.step h (.remove st o) = some w1 := by
      by_contra hc
      have : w.step h (.remove st o) = none := by
        cases e : w.step h (.remove st o) with
        | none => rfl
        | some w1 => exact absurd ⟨w1, e⟩ hc
      obtain ⟨_, _, e, _⟩ := (C07_no_panic h s w hh _ ok).1 this
      cases e
    have h1 := Hist.step s w w1 _ hh ok e1
    obtain ⟨w', e', s', h', b', v', i'⟩ := ih hl.2 _ w1 h1 (by
      intro x hx
      have : x ≠ o := fun e => hl.1 (e ▸ hx)
      simp only [Spec.step, this, and_false, if_false]
      exact hin x (by simp [hx]))
    refine ⟨w', ?_, s', h', b', v', ?_⟩
    · rw [List.foldlM_cons]
      have : w.remove h st o = some w1 := e1
      rw [this]
      exact e'
    · intro i x
      rw [i']
      simp only [Spec.step, List.mem_cons]
      by_cases h1 : i = st <;> by_cases h2 : x = o <;> by_cases h3 : x ∈ l <;> simp [h1, h2, h3]

theorem inserts_some {h : Obj → Nat} (st : Bool) (l : List Nat) (hl : l.Nodup) (s : Spec F) (w w' : World F) (hh : Hist h s w)
    (hout : ∀ o ∈ l, ∀ i, s.idx i o = none) (he : l.foldlM (fun w o => w.insert h st o) w = some w') :
    ∃ s', Hist h s' w' ∧ s'.box = s.box ∧ s'.vel = s.vel ∧
      ∀ i x, s'.idx i x = if i = st ∧ x ∈ l then some (s.fresh st x) else s.idx i x := by
  induction l generalizing s w with
  | nil => cases he; exact ⟨s, hh, rfl, rfl, by simp⟩
  | cons o l ih =>
    rw [List.nodup_cons] at hl
    have ok : s.ok (.insert st o) := ⟨hout o (by simp) true, hout o (by simp) false⟩
    rw [List.foldlM_cons] at he
    cases e1 : w.insert h st o with
    | none => rw [e1] at he; cases he
    | some w1 =>
      rw [e1] at he
      have h1 := Hist.step s w w1 (.insert st o) hh ok e1
      obtain ⟨s', h', b', v', i'⟩ := ih hl.2 _ w1 h1 (by
        intro x hx i
        have : x ≠ o := fun e => hl.1 (e ▸ hx)
        simp only [Spec.step, this, and_false, if_false]
        exact hout x (by simp [hx]) i) he
      refine ⟨s', h', b', v', ?_⟩
      intro i x
      rw [i']
      simp only [Spec.step, List.mem_cons, Spec.fresh]
      by_cases h1 : i = st <;> by_cases h2 : x = o <;> by_cases h3 : x ∈ l <;> simp [h1, h2, h3]

theorem inserts_room {h : Obj → Nat} (st : Bool) (S : List Nat) (hS : S.length < 1610612740) (l : List Nat) (hl : l.Nodup) (s : Spec F)
    (w : World F) (hh : Hist h s w) (hout : ∀ o ∈ l, ∀ i, s.idx i o = none) (hlS : ∀ o ∈ l, o ∈ S)
    (hsub : ∀ x, s.idx st x ≠ none → x ∈ S) : ∃ w', l.foldlM (fun w o => w.insert h st o) w = some w' := by
  induction l generalizing s w with
  | nil => exact ⟨w, rfl⟩
  | cons o l ih =>
    rw [List.nodup_cons] at hl
    have ok : s.ok (.insert st o) := ⟨hout o (by simp) true, hout o (by simp) false⟩
    obtain ⟨n, m, c⟩ := C07_each h s w hh st
    have hc : w.count st ≤ S.length := by
      rw [c]
      exact (List.subperm_of_subset n fun x hx => hsub x ((m x).1 hx)).length_le
    cases e1 : w.step h (.insert st o) with
    | none =>
      obtain ⟨st', o', e, hf⟩ := (C07_no_panic h s w hh _ ok).1 e1
      cases e
      omega
    | some w1 =>
      have h1 := Hist.step s w w1 (.insert st o) hh ok e1
      obtain ⟨w', e'⟩ := ih hl.2 _ w1 h1 (by
        intro x hx i
        have : x ≠ o := fun e => hl.1 (e ▸ hx)
        simp only [Spec.step, this, and_false, if_false]
        exact hout x (by simp [hx]) i) (fun x hx => hlS x (by simp [hx])) (by
        intro x hx
        simp only [Spec.step] at hx
        by_cases q : x = o
        · exact hlS x (by simp [q])
        · simp only [q, and_false, if_false] at hx; exact hsub x hx)
      refine ⟨w', ?_⟩
      rw [List.foldlM_cons]
      have : w.insert h st o = some w1 := e1
      rw [this]
      exact e'

/-- The lists of the space as sets, in every reachable state. -/
theorem shape_lists {s : Sp F} (h : Sp.Reach s) : s.dynamicShapes.Nodup ∧ s.staticShapes.Nodup ∧
    (∀ x, x ∈ s.dynamicShapes ↔ (s.shapes x).inSpace = true ∧ s.typ (s.shapes x).body ≠ .static ∧
      s.isSleeping (s.shapes x).body = false) ∧
    (∀ x, x ∈ s.staticShapes ↔ (s.shapes x).inSpace = true ∧ ¬ (s.typ (s.shapes x).body ≠ .static ∧
      s.isSleeping (s.shapes x).body = false)) := by
  obtain ⟨L, w⟩ := h.world
  have f := w.good.inv.full.core.shape
  refine ⟨f.dynNodup, f.statNodup, fun x => ?_, fun x => ?_⟩
  · rw [f.memDyn, off_reach w]
    cases s.isSleeping (s.shapes x).body <;> simp
  · rw [f.memStat, off_reach w]
    cases s.isSleeping (s.shapes x).body <;> simp

theorem lists_disjoint {s : Sp F} (h : Sp.Reach s) (x : Nat) (h1 : x ∈ s.dynamicShapes) (h2 : x ∈ s.staticShapes) : False := by
  obtain ⟨-, -, m1, m2⟩ := shape_lists h
  exact ((m2 x).1 h2).2 ((m1 x).1 h1).2

/-- The effect of `follow` on the abstract index. -/
structure Followed (again : Nat → Bool) (u t : Sp F) (s s' : Spec F) : Prop where
  box : s'.box = s.box
  vel : s'.vel = s.vel
  dyn : ∀ x, s'.idx false x = if x ∈ t.dynamicShapes then
    if x ∈ u.dynamicShapes ∧ again x = false then s.idx false x else some (s.fresh false x) else none
  stat : ∀ x, s'.idx true x = if x ∈ t.staticShapes then
    if x ∈ u.staticShapes ∧ again x = false then s.idx true x else some (s.fresh true x) else none

theorem follow_spec {h : Obj → Nat} (again : Nat → Bool) {u t : Sp F} (hu : Sp.Reach u) (ht : Sp.Reach t) {s : Spec F} {w : World F}
    (hh : Hist h s w) (hd : ∀ o, s.idx false o ≠ none ↔ o ∈ u.dynamicShapes) (hs : ∀ o, s.idx true o ≠ none ↔ o ∈ u.staticShapes) :
    (∀ w', Scene.follow h again u t w = some w' → ∃ s', Hist h s' w' ∧ Followed again u t s s') ∧
    ((t.dynamicShapes ++ t.staticShapes).length < 1610612740 → ∃ w', Scene.follow h again u t w = some w') := by
  obtain ⟨nu1, nu2, mu1, mu2⟩ := shape_lists hu
  obtain ⟨nt1, nt2, mt1, mt2⟩ := shape_lists ht
  obtain ⟨w1, e1, s1, h1, b1, v1, i1⟩ := removes_some (h := h) false (u.dynamicShapes.filter fun o => decide (o ∉ t.dynamicShapes) || again o)
    (nu1.filter _) s w hh (fun o ho => (hd o).2 (List.mem_filter.1 ho).1)
  obtain ⟨w2, e2, s2, h2, b2, v2, i2⟩ := removes_some (h := h) true (u.staticShapes.filter fun o => decide (o ∉ t.staticShapes) || again o)
    (nu2.filter _) s1 w1 h1 (by
      intro o ho
      rw [i1]
      simp only [Bool.true_eq_false, false_and, if_false]
      exact (hs o).2 (List.mem_filter.1 ho).1)
  have none_d : ∀ o, o ∉ u.dynamicShapes → s.idx false o = none := fun o ho => by
    by_contra hc; exact ho ((hd o).1 hc)
  have none_s : ∀ o, o ∉ u.staticShapes → s.idx true o = none := fun o ho => by
    by_contra hc; exact ho ((hs o).1 hc)
  have d2 : ∀ x, s2.idx false x = if x ∈ t.dynamicShapes ∧ again x = false then s.idx false x else none := by
    intro x
    rw [i2, i1]
    simp only [Bool.false_eq_true, false_and, if_false, true_and, List.mem_filter, Bool.or_eq_true, decide_eq_true_eq]
    by_cases q : x ∈ u.dynamicShapes
    · by_cases q2 : x ∈ t.dynamicShapes <;> cases again x <;> simp [q, q2]
    · simp [q, none_d x q]
  have t2 : ∀ x, s2.idx true x = if x ∈ t.staticShapes ∧ again x = false then s.idx true x else none := by
    intro x
    rw [i2, i1]
    simp only [Bool.true_eq_false, false_and, if_false, true_and, List.mem_filter, Bool.or_eq_true, decide_eq_true_eq]
    by_cases q : x ∈ u.staticShapes
    · by_cases q2 : x ∈ t.staticShapes <;> cases again x <;> simp [q, q2]
    · simp [q, none_s x q]
  have out3 : ∀ o ∈ t.dynamicShapes.filter fun o => decide (o ∉ u.dynamicShapes) || again o, ∀ i, s2.idx i o = none := by
    intro o ho i
    obtain ⟨ho1, ho2⟩ := List.mem_filter.1 ho
    simp only [Bool.or_eq_true, decide_eq_true_eq] at ho2
    cases i with
    | false =>
      rw [d2]
      rcases ho2 with q | q
      · rw [none_d o q]; simp
      · simp [q]
    | true =>
      rw [t2, if_neg]
      exact fun q => lists_disjoint ht o ho1 q.1
  have out4 : ∀ s3 : Spec F, (∀ i x, s3.idx i x = if i = false ∧ x ∈ t.dynamicShapes.filter (fun o => decide (o ∉ u.dynamicShapes) || again o)
      then some (s2.fresh false x) else s2.idx i x) →
      ∀ o ∈ t.staticShapes.filter fun o => decide (o ∉ u.staticShapes) || again o, ∀ i, s3.idx i o = none := by
    intro s3 i3 o ho i
    obtain ⟨ho1, ho2⟩ := List.mem_filter.1 ho
    simp only [Bool.or_eq_true, decide_eq_true_eq] at ho2
    have hnd : o ∉ t.dynamicShapes := fun q => lists_disjoint ht o q ho1
    rw [i3, if_neg (fun q => hnd (List.mem_filter.1 q.2).1)]
    cases i with
    | true =>
      rw [t2]
      rcases ho2 with q | q
      · rw [none_s o q]; simp
      · simp [q]
    | false => rw [d2, if_neg (fun q => hnd q.1)]
  have fr : s2.fresh = s.fresh := by
    funext i x; simp only [Spec.fresh, b2, b1, v2, v1]
  have main : ∀ w', Scene.follow h again u t w = some w' → ∃ s', Hist h s' w' ∧ Followed again u t s s' := by
    intro w' he
    simp only [Scene.follow, Option.bind_eq_bind, e1, e2, Option.bind_some] at he
    obtain ⟨w3, e3, e4⟩ := Option.bind_eq_some_iff.1 he
    obtain ⟨s3, h3, b3, v3, i3⟩ := inserts_some (h := h) false _ (nt1.filter _) s2 w2 w3 h2 out3 e3
    obtain ⟨s4, h4, b4, v4, i4⟩ := inserts_some (h := h) true _ (nt2.filter _) s3 w3 w' h3 (out4 s3 i3) e4
    have fr3 : s3.fresh = s.fresh := by
      funext i x; simp only [Spec.fresh, b3, b2, b1, v3, v2, v1]
    refine ⟨s4, h4, by rw [b4, b3, b2, b1], by rw [v4, v3, v2, v1], fun x => ?_, fun x => ?_⟩
    · rw [i4, i3, d2, fr]
      simp only [Bool.false_eq_true, false_and, if_false, true_and, List.mem_filter, Bool.or_eq_true, decide_eq_true_eq]
      by_cases q1 : x ∈ t.dynamicShapes <;> by_cases q2 : x ∈ u.dynamicShapes <;> cases again x <;> simp [q1, q2, none_d]
    · rw [i4, i3, t2, fr3]
      simp only [Bool.true_eq_false, false_and, if_false, true_and, List.mem_filter, Bool.or_eq_true, decide_eq_true_eq]
      by_cases q1 : x ∈ t.staticShapes <;> by_cases q2 : x ∈ u.staticShapes <;> cases again x <;> simp [q1, q2, none_s]
  refine ⟨main, fun hroom => ?_⟩
  have sub3 : ∀ x, s2.idx false x ≠ none → x ∈ t.dynamicShapes ++ t.staticShapes := by
    intro x hx
    rw [d2] at hx
    by_cases q : x ∈ t.dynamicShapes
    · simp [q]
    · simp [q] at hx
  obtain ⟨w3, e3⟩ := inserts_room (h := h) false (t.dynamicShapes ++ t.staticShapes) hroom _ (nt1.filter _) s2 w2 h2 out3
    (fun o ho => List.mem_append_left _ (List.mem_filter.1 ho).1) sub3
  obtain ⟨s3, h3, b3, v3, i3⟩ := inserts_some (h := h) false _ (nt1.filter _) s2 w2 w3 h2 out3 e3
  obtain ⟨w4, e4⟩ := inserts_room (h := h) true (t.dynamicShapes ++ t.staticShapes) hroom _ (nt2.filter _) s3 w3 h3 (out4 s3 i3)
    (fun o ho => List.mem_append_right _ (List.mem_filter.1 ho).1) (by
      intro x hx
      rw [i3, t2] at hx
      by_cases q : x ∈ t.staticShapes
      · simp [q]
      · simp [q] at hx)
  exact ⟨w4, by simp only [Scene.follow, Option.bind_eq_bind, e1, e2, e3, e4, Option.bind_some]⟩

theorem Followed.dyn_iff {again : Nat → Bool} {u t : Sp F} {s s' : Spec F} (f : Followed again u t s s')
    (hd : ∀ o, s.idx false o ≠ none ↔ o ∈ u.dynamicShapes) (x : Nat) : s'.idx false x ≠ none ↔ x ∈ t.dynamicShapes := by
  rw [f.dyn]
  by_cases q : x ∈ t.dynamicShapes
  · rw [if_pos q]
    split_ifs with h
    · simp [q, hd, h.1]
    · simp [q]
  · simp [q]

theorem Followed.stat_iff {again : Nat → Bool} {u t : Sp F} {s s' : Spec F} (f : Followed again u t s s')
    (hd : ∀ o, s.idx true o ≠ none ↔ o ∈ u.staticShapes) (x : Nat) : s'.idx true x ≠ none ↔ x ∈ t.staticShapes := by
  rw [f.stat]
  by_cases q : x ∈ t.staticShapes
  · rw [if_pos q]
    split_ifs with h
    · simp [q, hd, h.1]
    · simp [q]
  · simp [q]

end CP

namespace CP
open GoFloat
variable {F : Type} [GoFloat F]

/-- Acceptance of a pair by `QueryReject`, in user terms. -/
structure Accepts (sc : Scene F) (x y : Nat) : Prop where
  bodies : (sc.sp.shapes x).body ≠ (sc.sp.shapes y).body
  filters : (sc.shapes x).filter.reject (sc.shapes y).filter = false
  boxes : (sc.shapes x).shp.bb.intersects (sc.shapes y).shp.bb = true
  joints : ∀ c, (sc.sp.cons c).inSpace = true → sc.sp.joins c (sc.sp.shapes x).body = true →
    sc.sp.joins c (sc.sp.shapes y).body = true → sc.collideBodies c = true

theorem Accepts.symm {sc : Scene F} {x y : Nat} (h : Accepts sc x y) : Accepts sc y x :=
  ⟨h.bodies.symm, by rw [C05_symm]; exact h.filters, by rw [BB.intersects_comm]; exact h.boxes,
    fun c h1 h2 h3 => h.joints c h1 h3 h2⟩

theorem queryReject_spec {sc : Scene F} (hr : Sp.Reach sc.sp) (x y : Nat) :
    ∃ r, sc.queryReject x y = some r ∧ (r = false ↔ Accepts sc x y) := by
  simp only [Scene.queryReject]
  by_cases h1 : (sc.sp.shapes x).body = (sc.sp.shapes y).body
  · rw [if_pos h1]
    exact ⟨true, rfl, by simp; exact fun a => a.bodies h1⟩
  rw [if_neg h1]
  cases h2 : (sc.shapes x).filter.reject (sc.shapes y).filter with
  | true => exact ⟨true, rfl, by simp; exact fun a => by have := a.filters; rw [h2] at this; cases this⟩
  | false =>
    cases h3 : (sc.shapes x).shp.bb.intersects (sc.shapes y).shp.bb with
    | false => exact ⟨true, rfl, by simp; exact fun a => by have := a.boxes; rw [h3] at this; cases this⟩
    | true =>
      simp only [Bool.false_eq_true, if_false, Bool.not_true]
      obtain ⟨l, e, -, m⟩ := C26_body hr (sc.sp.shapes x).body
      simp only [Scene.rejectConstraints, e, Option.map_some]
      refine ⟨_, rfl, ?_⟩
      rw [List.any_eq_false]
      constructor
      · intro hl
        refine ⟨h1, h2, h3, fun c hc j1 j2 => ?_⟩
        simp only [Sp.joins, Bool.or_eq_true, beq_iff_eq] at j1 j2
        have hm : c ∈ l := (m c).2 ⟨hc, j1⟩
        have := hl c hm
        cases hcb : sc.collideBodies c with
        | true => rfl
        | false =>
          exfalso
          apply this
          simp only [hcb, Bool.not_false, Bool.true_and, Bool.or_eq_true, Bool.and_eq_true, beq_iff_eq]
          rcases j1 with j1 | j1 <;> rcases j2 with j2 | j2
          · exact absurd (j1.symm.trans j2) h1
          · exact .inl ⟨j1, j2⟩
          · exact .inr ⟨j2, j1⟩
          · exact absurd (j1.symm.trans j2) h1
      · intro a c hc
        obtain ⟨hin, hj⟩ := (m c).1 hc
        intro hh
        simp only [Bool.and_eq_true, Bool.not_eq_true', Bool.or_eq_true, beq_iff_eq] at hh
        obtain ⟨hcb, hh⟩ := hh
        have := a.joints c hin (by simp only [Sp.joins, Bool.or_eq_true, beq_iff_eq]; exact hj) (by
          simp only [Sp.joins, Bool.or_eq_true, beq_iff_eq]
          rcases hh with ⟨_, h⟩ | ⟨h, _⟩
          · exact .inr h
          · exact .inl h)
        rw [hcb] at this; cases this

theorem collide_ok [FloatSigns F] (a b : Coll.Shp F) (ha : a.cls.nonempty = true) (hb : b.cls.nonempty = true) (id : Nat) :
    ∃ r, Coll.collide a b id = some r ∧ r.2.contacts.length ≤ 2 := by
  simp only [Coll.collide]
  split_ifs with h
  · obtain ⟨j, e, l⟩ := collideSorted_some b a (le_of_lt h) hb ha ⟨⟨0, 0⟩, id, []⟩ rfl
    exact ⟨(true, j), by rw [e]; rfl, l⟩
  · obtain ⟨j, e, l⟩ := collideSorted_some a b (not_lt.1 h) ha hb ⟨⟨0, 0⟩, id, []⟩ rfl
    exact ⟨(false, j), by rw [e]; rfl, l⟩

/-- One test: never a panic; a rejected pair gives nothing, an accepted one a result about the same two shapes. -/
theorem test_spec [FloatSigns F] {sc : Scene F} (hr : Sp.Reach sc.sp) (answer : Nat → Nat → Sp.CollideIn) (call : Obj × Obj × Cid)
    (h1 : (sc.shapes call.1).shp.cls.nonempty = true) (h2 : (sc.shapes call.2.1).shp.cls.nonempty = true) :
    (Accepts sc call.1 call.2.1 ∧ ∃ res e, Coll.collide (sc.shapes call.1).shp (sc.shapes call.2.1).shp call.2.2.toNat = some res ∧
      sc.test answer call = some (some e) ∧ e.count = res.2.contacts.length ∧ e.count ≤ 2 ∧
      ((e.a = call.1 ∧ e.b = call.2.1) ∨ (e.a = call.2.1 ∧ e.b = call.1)) ∧
      e.beginActs = (answer e.a e.b).beginActs ∧ e.preActs = (answer e.a e.b).preActs) ∨
    (¬ Accepts sc call.1 call.2.1 ∧ sc.test answer call = some none) := by
  obtain ⟨r, e, hi⟩ := queryReject_spec hr call.1 call.2.1
  simp only [Scene.test, e, Option.bind_some]
  cases r with
  | true => exact .inr ⟨fun a => (by have := hi.2 a; cases this), by simp⟩
  | false =>
    obtain ⟨res, er, hl⟩ := collide_ok _ _ h1 h2 call.2.2.toNat
    refine .inl ⟨hi.1 rfl, res, _, er, by rw [er]; rfl, rfl, hl, ?_, rfl, rfl⟩
    cases hb : res.1 <;> simp

theorem mapM_getD {α β : Type} (f : α → Option (Option β)) (l : List α) (h : ∀ a ∈ l, f a ≠ none) :
    l.mapM f = some (l.map fun a => (f a).getD none) := by
  induction l with
  | nil => rfl
  | cons a l ih =>
    obtain ⟨b, hb⟩ := Option.ne_none_iff_exists'.1 (h a (by simp))
    rw [List.mapM_cons, hb, ih (fun x hx => h x (by simp [hx]))]
    simp [hb]

theorem countP_filterMap' {α β : Type} (g : α → Option β) (p : β → Bool) (l : List α) :
    (l.filterMap g).countP p = l.countP fun a => (g a).any p := by
  induction l with
  | nil => rfl
  | cons a l ih =>
    rw [List.filterMap_cons, List.countP_cons]
    cases hg : g a with
    | none => simp [ih]
    | some b => simp [List.countP_cons, ih]

theorem countP_or (log : List (Obj × Obj × Cid)) (x y : Nat) (hxy : x ≠ y) :
    (log.countP fun c => decide ((c.1 = x ∧ c.2.1 = y) ∨ (c.1 = y ∧ c.2.1 = x))) = cntL log x y + cntL log y x := by
  induction log with
  | nil => rfl
  | cons c log ih =>
    simp only [cntL, List.countP_cons] at ih ⊢
    rw [ih]
    obtain ⟨a, b, d⟩ := c
    simp only
    by_cases h1 : a = x <;> by_cases h2 : b = y
    · subst h1 h2
      have : ¬ (a = b ∧ b = a) := fun h => hxy h.1
      simp [hxy]
      omega
    · subst h1
      have : ¬ (a = y) := hxy
      simp [h2, hxy]
    · subst h2
      have : ¬ (b = x) := fun h => hxy h.symm
      simp [h1, this]
    · simp [h1, h2]
      split_ifs <;> omega

/-- What the collision phase of a step does, in terms of the calls of the index. -/
structure Tests (sc : Scene F) (answer : Nat → Nat → Sp.CollideIn) (log : List (Obj × Obj × Cid)) (l : List Sp.CollideIn) : Prop where
  count : ∀ x y, x ≠ y → (Accepts sc x y → testCount l x y = cntL log x y + cntL log y x) ∧
    (¬ Accepts sc x y → testCount l x y = 0)
  mem : ∀ e ∈ l, ∃ c ∈ log, Accepts sc c.1 c.2.1 ∧ ∃ res, Coll.collide (sc.shapes c.1).shp (sc.shapes c.2.1).shp c.2.2.toNat = some res ∧
      e.count = res.2.contacts.length ∧ e.count ≤ 2 ∧ ((e.a = c.1 ∧ e.b = c.2.1) ∨ (e.a = c.2.1 ∧ e.b = c.1)) ∧
      e.beginActs = (answer e.a e.b).beginActs ∧ e.preActs = (answer e.a e.b).preActs

theorem tests_of_log [FloatSigns F] {sc : Scene F} (hr : Sp.Reach sc.sp) (answer : Nat → Nat → Sp.CollideIn)
    (log : List (Obj × Obj × Cid)) (hn : ∀ c ∈ log, (sc.shapes c.1).shp.cls.nonempty = true ∧ (sc.shapes c.2.1).shp.cls.nonempty = true) :
    ∃ l, (log.mapM (sc.test answer)).map (List.filterMap id) = some l ∧ Tests sc answer log l := by
  have hne : ∀ c ∈ log, sc.test answer c ≠ none := by
    intro c hc
    rcases test_spec hr answer c (hn c hc).1 (hn c hc).2 with ⟨_, _, _, _, e, _⟩ | ⟨_, e⟩ <;> simp [e]
  rw [mapM_getD _ _ hne]
  refine ⟨_, rfl, ?_⟩
  have hfm : (log.map fun a => (sc.test answer a).getD none).filterMap id = log.filterMap fun a => (sc.test answer a).getD none := by
    rw [List.filterMap_map]; rfl
  rw [hfm]
  constructor
  · intro x y hxy
    rw [testCount, countP_filterMap']
    constructor
    · intro a
      rw [← countP_or log x y hxy]
      apply List.countP_congr
      intro c hc
      rcases test_spec hr answer c (hn c hc).1 (hn c hc).2 with ⟨_, _, e, _, he, _, _, ho, _⟩ | ⟨na, he⟩
      · rw [he]
        simp only [Option.getD_some, Option.any_some, decide_eq_true_eq]
        rcases ho with ⟨p, q⟩ | ⟨p, q⟩ <;> rw [p, q] <;> tauto
      · rw [he]
        simp only [Option.getD_some, Option.any_none, Bool.false_eq_true, decide_eq_true_eq, false_iff]
        rintro (⟨p, q⟩ | ⟨p, q⟩)
        · exact na (by rw [p, q]; exact a)
        · exact na (by rw [p, q]; exact a.symm)
    · intro na
      rw [List.countP_eq_zero]
      intro c hc
      rcases test_spec hr answer c (hn c hc).1 (hn c hc).2 with ⟨ac, _, e, _, he, _, _, ho, _⟩ | ⟨_, he⟩
      · rw [he]
        simp only [Option.getD_some, Option.any_some, decide_eq_true_eq]
        intro hh
        apply na
        rcases ho with ⟨p, q⟩ | ⟨p, q⟩ <;> rw [p, q] at hh <;> rcases hh with ⟨u, v⟩ | ⟨u, v⟩ <;>
          first | (rw [← u, ← v]; first | exact ac | exact ac.symm)
      · rw [he]; simp
  · intro e he
    obtain ⟨c, hc, ec⟩ := List.mem_filterMap.1 he
    refine ⟨c, hc, ?_⟩
    rcases test_spec hr answer c (hn c hc).1 (hn c hc).2 with ⟨ac, res, e', r1, he', r2, r3, r4, r5, r6⟩ | ⟨_, he'⟩
    · rw [he'] at ec
      obtain rfl : e' = e := by simpa using ec
      exact ⟨ac, res, r1, r2, r3, r4, r5, r6⟩
    · rw [he'] at ec; simp at ec

end CP

namespace CP
open GoFloat
variable {F : Type} [GoFloat F]

/-- The state of a reachable scene: a reachable space, an index history, and both agree. -/
structure Scene.Ok (h : Obj → Nat) (sc : Scene F) (s : Spec F) : Prop where
  sp : Sp.Reach sc.sp
  hist : Hist h s sc.index
  sync : Sync s sc

theorem Scene.Ok.moved {h : Obj → Nat} {sc : Scene F} {s : Spec F} (k : sc.Ok h s) (shapes : Nat → QShape F) (vel : Nat → Vec F) :
    (sc.moved shapes vel).Ok h (s.step (.move (fun o => (shapes o).shp.bb) vel)) :=
  ⟨k.sp, Hist.step s sc.index _ (.move (fun o => (shapes o).shp.bb) vel) k.hist trivial rfl,
    ⟨rfl, k.sync.dyn, k.sync.stat⟩⟩

theorem reindexQuery_none {s : Spec F} (f : PairFn) (i : Bool) (x : Obj) :
    (s.step (.reindexQuery f)).idx i x ≠ none ↔ s.idx i x ≠ none := by
  cases i with
  | true => simp [Spec.step]
  | false => simp [Spec.step, Spec.refit]

/-- The collision phase of a step in a scene that is in order. -/
theorem broadPhase_spec [FloatSigns F] {h : Obj → Nat} {sc : Scene F} {s : Spec F} (k : sc.Ok h s) (answer : Nat → Nat → Sp.CollideIn)
    (hn : ∀ sh, (sc.sp.shapes sh).inSpace = true → (sc.shapes sh).shp.cls.nonempty = true) :
    ∃ w l log, sc.broadPhase answer = some (w, l) ∧ Hist h (s.step (.reindexQuery sc.nextId)) w ∧
      Reports (s.step (.reindexQuery sc.nextId)) log ∧ Tests sc answer log l := by
  obtain ⟨w, log, e, hw, hr⟩ := C08_reindexQuery h s sc.index k.hist sc.nextId
  obtain ⟨-, -, m1, m2⟩ := shape_lists k.sp
  have hin : ∀ x, ((s.step (.reindexQuery sc.nextId)).idx true x ≠ none ∨ (s.step (.reindexQuery sc.nextId)).idx false x ≠ none) →
      (sc.sp.shapes x).inSpace = true := by
    intro x hx
    rw [reindexQuery_none, reindexQuery_none, k.sync.dyn, k.sync.stat] at hx
    rcases hx with hx | hx
    · exact ((m2 x).1 hx).1
    · exact ((m1 x).1 hx).1
  obtain ⟨l, el, ht⟩ := tests_of_log k.sp answer log (fun c hc =>
    ⟨hn _ (hin _ (hr.sound c hc).2.1), hn _ (hin _ (hr.sound c hc).2.2.1)⟩)
  refine ⟨w, l, log, ?_, hw, hr, ht⟩
  simp only [Scene.broadPhase, e, Option.bind_some]
  obtain ⟨r, er, rfl⟩ := Option.map_eq_some_iff.1 el
  rw [er]; rfl

/-- A pair accepted by `QueryReject` and reported by the index is one that must be tested. -/
theorem mustTest_iff {h : Obj → Nat} {sc : Scene F} {s : Spec F} (k : sc.Ok h s) (x y : Nat) :
    sc.MustTest x y ↔ Accepts sc x y ∧ (s.idx true x ≠ none ∨ s.idx false x ≠ none) ∧ (s.idx true y ≠ none ∨ s.idx false y ≠ none) ∧
      (s.idx false x ≠ none ∨ s.idx false y ≠ none) := by
  obtain ⟨-, -, m1, m2⟩ := shape_lists k.sp
  have hin : ∀ x, (s.idx true x ≠ none ∨ s.idx false x ≠ none) ↔ (sc.sp.shapes x).inSpace = true := by
    intro x
    rw [k.sync.dyn, k.sync.stat, m1, m2]
    tauto
  rw [hin, hin]
  constructor
  · intro q
    refine ⟨⟨q.bodies, q.filters, q.boxes, q.joints⟩, q.inX, q.inY, ?_⟩
    rw [k.sync.dyn, k.sync.dyn, m1, m1]
    exact q.mobile.imp (fun h => ⟨q.inX, h.1, h.2⟩) (fun h => ⟨q.inY, h.1, h.2⟩)
  · rintro ⟨a, i1, i2, d⟩
    rw [k.sync.dyn, k.sync.dyn, m1, m1] at d
    exact ⟨i1, i2, d.imp (fun h => ⟨h.2.1, h.2.2⟩) (fun h => ⟨h.2.1, h.2.2⟩), a.bodies, a.filters, a.boxes, a.joints⟩

theorem cntL_zero {log : List (Obj × Obj × Cid)} {x y : Nat} (h : ∀ c ∈ log, ¬ (c.1 = x ∧ c.2.1 = y)) : cntL log x y = 0 := by
  rw [cntL, List.countP_eq_zero]
  intro c hc
  simp only [Bool.and_eq_true, decide_eq_true_eq]
  exact h c hc

theorem Reports.le_one {s : Spec F} {log : List (Obj × Obj × Cid)} (r : Reports s log) (x y : Nat) (hxy : x ≠ y) :
    cntL log x y + cntL log y x ≤ 1 := by
  by_cases h0 : ∃ c ∈ log, (c.1 = x ∧ c.2.1 = y) ∨ (c.1 = y ∧ c.2.1 = x)
  · obtain ⟨c, hc, ho⟩ := h0
    obtain ⟨-, h1, h2, h3⟩ := r.sound c hc
    have key : ∀ u v, u ≠ v → (s.idx true u ≠ none ∨ s.idx false u ≠ none) → s.idx false v ≠ none → cntL log u v + cntL log v u ≤ 1 := by
      intro u v huv hu hv
      obtain ⟨V, hV⟩ := Option.ne_none_iff_exists'.1 hv
      rcases hu with hu | hu
      · obtain ⟨U, hU⟩ := Option.ne_none_iff_exists'.1 hu
        rw [r.exact true u v U V huv hU hV]; split_ifs <;> omega
      · obtain ⟨U, hU⟩ := Option.ne_none_iff_exists'.1 hu
        rw [r.exact false u v U V huv hU hV]; split_ifs <;> omega
    rcases ho with ⟨rfl, rfl⟩ | ⟨rfl, rfl⟩
    · rcases h3 with h3 | h3
      · rw [Nat.add_comm]; exact key _ _ hxy.symm h2 h3
      · exact key _ _ hxy h1 h3
    · rcases h3 with h3 | h3
      · exact key _ _ hxy h2 h3
      · rw [Nat.add_comm]; exact key _ _ hxy.symm h1 h3
  · push Not at h0
    rw [cntL_zero fun c hc => fun q => (h0 c hc).1 q.1 q.2, cntL_zero fun c hc => fun q => (h0 c hc).2 q.1 q.2]
    omega

/-- Tested pairs are among those that must be tested, each at most once. -/
theorem tests_sound {h : Obj → Nat} {sc : Scene F} {s : Spec F} (k : sc.Ok h s) {answer : Nat → Nat → Sp.CollideIn}
    {log : List (Obj × Obj × Cid)} {l : List Sp.CollideIn} (f : PairFn) (hr : Reports (s.step (.reindexQuery f)) log)
    (ht : Tests sc answer log l) (x y : Nat) :
    testCount l x y ≤ 1 ∧ (testCount l x y ≠ 0 → sc.MustTest x y) := by
  have hmem : ∀ e ∈ l, e.a ≠ e.b ∧ sc.MustTest e.a e.b ∧ sc.MustTest e.b e.a := by
    intro e he
    obtain ⟨c, hc, ac, -, -, -, -, ho, -⟩ := ht.mem e he
    obtain ⟨hne, h1, h2, h3⟩ := hr.sound c hc
    rw [reindexQuery_none, reindexQuery_none] at h1 h2 h3
    have m1 : sc.MustTest c.1 c.2.1 := (mustTest_iff k _ _).2 ⟨ac, h1, h2, h3⟩
    have m2 : sc.MustTest c.2.1 c.1 := (mustTest_iff k _ _).2 ⟨ac.symm, h2, h1, h3.symm⟩
    rcases ho with ⟨p, q⟩ | ⟨p, q⟩ <;> rw [p, q]
    · exact ⟨hne, m1, m2⟩
    · exact ⟨hne.symm, m2, m1⟩
  have hpos : testCount l x y ≠ 0 → x ≠ y ∧ sc.MustTest x y := by
    intro hz
    rw [testCount, ne_eq, List.countP_eq_zero] at hz
    push Not at hz
    obtain ⟨e, he, hp⟩ := hz
    obtain ⟨q1, q2, q3⟩ := hmem e he
    simp only [decide_eq_true_eq] at hp
    rcases hp with ⟨rfl, rfl⟩ | ⟨rfl, rfl⟩
    · exact ⟨q1, q2⟩
    · exact ⟨q1.symm, q3⟩
  refine ⟨?_, fun hz => (hpos hz).2⟩
  by_cases hz : testCount l x y = 0
  · omega
  · obtain ⟨hxy, -⟩ := hpos hz
    by_cases ac : Accepts sc x y
    · rw [(ht.count x y hxy).1 ac]; exact hr.le_one x y hxy
    · rw [(ht.count x y hxy).2 ac]; omega

/-- The tested pairs meet the preconditions of the bookkeeping. -/
theorem tests_stepOk {h : Obj → Nat} {sc : Scene F} {s : Spec F} (k : sc.Ok h s) {answer : Nat → Nat → Sp.CollideIn}
    {log : List (Obj × Obj × Cid)} {l : List Sp.CollideIn} (f : PairFn) (hr : Reports (s.step (.reindexQuery f)) log)
    (ht : Tests sc answer log l) (i : Sp.StepIn F) (hpos : ∀ b ∈ i.posActs, (sc.sp.bodies b).root = none)
    (hans : ∀ x y, ∀ b ∈ (answer x y).beginActs ++ (answer x y).preActs, (sc.sp.bodies b).root = none) :
    Sp.StepOk sc.sp { i with pairs := l } := by
  obtain ⟨-, -, m1, m2⟩ := shape_lists k.sp
  refine ⟨hpos, fun e he => ?_, ?_⟩
  · obtain ⟨c, hc, ac, -, -, -, h2, ho, ha, hb⟩ := ht.mem e he
    obtain ⟨hne, q1, q2, q3⟩ := hr.sound c hc
    rw [reindexQuery_none, reindexQuery_none] at q1 q2 q3
    have ms : sc.MustTest e.a e.b := by
      rcases ho with ⟨p, q⟩ | ⟨p, q⟩ <;> rw [p, q]
      · exact (mustTest_iff k _ _).2 ⟨ac, q1, q2, q3⟩
      · exact (mustTest_iff k _ _).2 ⟨ac.symm, q2, q1, q3.symm⟩
    refine ⟨ms.inX, ms.inY, ms.bodies, ?_, h2, ?_⟩
    · rw [m1, m1]
      exact ms.mobile.imp (fun h => ⟨ms.inX, h.1, h.2⟩) (fun h => ⟨ms.inY, h.1, h.2⟩)
    · rw [ha, hb]; exact hans e.a e.b
  · rw [List.pairwise_iff_getElem]
    intro a b ha hb hab hs
    have h1 := (tests_sound k f hr ht (l[a]).a (l[a]).b).1
    have : 2 ≤ testCount l (l[a]).a (l[a]).b := by
      rw [testCount]
      have hsub : [l[a], l[b]].Sublist l := by
        have := List.sublist_iff_exists_fin_orderEmbedding_get_eq (l := [l[a], l[b]]) (l' := l)
        rw [this]
        refine ⟨OrderEmbedding.ofStrictMono (fun j : Fin 2 => if j = 0 then ⟨a, ha⟩ else ⟨b, hb⟩) ?_, ?_⟩
        · intro u v huv
          match u, v, huv with
          | ⟨0, _⟩, ⟨1, _⟩, _ => simpa using hab
          | ⟨0, _⟩, ⟨0, _⟩, q => exact absurd q (lt_irrefl _)
          | ⟨1, _⟩, ⟨0, _⟩, q => exact absurd q (by simp)
          | ⟨1, _⟩, ⟨1, _⟩, q => exact absurd q (lt_irrefl _)
        · intro j
          match j with
          | ⟨0, _⟩ => rfl
          | ⟨1, _⟩ => rfl
      refine le_trans ?_ (hsub.countP_le)
      rcases hs with ⟨p, q⟩ | ⟨p, q⟩
      · simp [List.countP_cons, ← p, ← q]
      · simp [List.countP_cons, ← p, ← q]
    omega

end CP
