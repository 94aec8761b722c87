import Verif.Proofs.BBTree5

/-! Reindexing, and the refinement for all histories. -/

namespace CP
open GoFloat
variable {F : Type} [GoFloat F]

theorem Mid.congr {h : Obj → Nat} {fr fr' : Leaf F → Bool} {w : World F} (m : Mid h fr w)
    (hf : ∀ l ∈ w.S ++ w.D, fr l = fr' l) : Mid h fr' w :=
  ⟨m.ws, m.wd, m.nodup, m.ss, m.sd, m.pairs.congr (List.Perm.refl _) (List.Perm.refl _) hf⟩

theorem TInv.midStamp {h : Obj → Nat} {w : World F} (i : TInv h w) :
    Mid h (fun l => decide (l.stamp = w.stamp)) w :=
  i.mid.congr (by intro l hl; have := i.stamps l hl; simp; omega)

theorem reindexObject_ref (h : Obj → Nat) (w : World F) (s : Spec F) (r : Ref h w s) (st : Bool) (o : Obj) :
    ∃ w', w.reindexObject h st o = some w' ∧ Ref h w' (s.step (.reindexObject st o)) := by
  obtain ⟨inv, hbox, hvel, hidx⟩ := r
  cases st with
  | false =>
    by_cases ho : o ∈ w.D.map Leaf.obj
    · obtain ⟨w1, upd, e, k1, k2, k3, k4, k5, k6, k7, k8, k9, _⟩ := leafUpdate_dyn h w o inv.midStamp ho
        (fun l hl => inv.stamps l (List.mem_append_left _ hl))
        (fun l hl => le_of_lt (inv.stamps l (List.mem_append_right _ hl)))
      have hS : w1.S = w.S := by simp only [World.S, k1]
      have idx' : ∀ w2 : World F, w2.stat = w1.stat → w2.dyn = w1.dyn →
          ∀ i x, (s.step (.reindexObject false o)).idx i x = bbOf (leavesOf (w2.tree i)) x := by
        intro w2 e1 e2 i x
        simp only [Spec.step]
        cases i with
        | true =>
          simp only [Bool.true_eq_false, false_and, if_false, World.tree, if_true, e1, k1]
          exact hidx true x
        | false =>
          have : bbOf (leavesOf (w2.tree false)) x = bbOf w1.D x := by
            simp [World.tree, e2]
          rw [this, k7 x]
          simp only [true_and]
          split
          · simp only [Spec.refit, Spec.fresh, World.getBB, hbox, hvel]
            rw [hidx false o]
            rfl
          · exact hidx false x
      cases hu : upd with
      | false =>
        have hw := k8 hu
        subst hw
        refine ⟨{ w1 with stamp := w1.stamp + 1 }, ?_, ⟨⟨?_, ?_⟩, hbox, hvel, idx' _ rfl rfl⟩⟩
        · simp only [World.reindexObject, World.set]
          rw [if_neg (by simp), inv.mid.sd.find o, if_pos ho]
          simp [e, hu]
        · exact ⟨inv.mid.ws, inv.mid.wd, inv.mid.nodup, inv.mid.ss, inv.mid.sd, inv.mid.pairs⟩
        · intro l hl; have := inv.stamps l hl; simp only []; omega
      | true =>
        obtain ⟨ps, q1, q2⟩ := addPairs_dyn w1 o k5.ws k5.wd k5.nodup
          (by rw [k4, hS]; exact fun l hl => inv.stamps l (List.mem_append_left _ hl))
          (by rw [k4]; exact k6)
          (by
            have := (bbOf_none (ls := w1.D) (o := o))
            by_contra hc
            have h1 := this.mpr hc
            rw [k7 o, if_pos rfl] at h1
            rw [Option.map_eq_none_iff, bbOf_none] at h1
            exact h1 ho)
          (by
            rw [k4]
            intro d hd
            obtain ⟨a1, a2⟩ := k9 hu d hd
            constructor
            · intro hs
              by_contra hc
              have := inv.stamps d (List.mem_append_right _ (a2 hc))
              omega
            · exact a1)
          (by rw [k4]; exact k5.pairs)
        refine ⟨{ w1 with pairs := ps, stamp := w1.stamp + 1 }, ?_,
          ⟨⟨⟨k5.ws, k5.wd, k5.nodup, k5.ss, k5.sd, q2⟩, ?_⟩, ?_, ?_, idx' _ rfl rfl⟩⟩
        · simp only [World.reindexObject, World.set]
          rw [if_neg (by simp), inv.mid.sd.find o, if_pos ho]
          simp [e, hu, q1]
        · intro l hl
          simp only []
          rcases List.mem_append.mp hl with hl | hl
          · have hl : l ∈ w.S := by rw [← hS]; exact hl
            have := inv.stamps l (List.mem_append_left _ hl); omega
          · have := k6 l hl; omega
        · exact k2.trans hbox
        · exact k3.trans hvel
    · refine ⟨w, ?_, ⟨inv, hbox, hvel, ?_⟩⟩
      · simp only [World.reindexObject, World.set]
        rw [if_neg (by simp), inv.mid.sd.find o, if_neg ho]
      · intro i x
        simp only [Spec.step]
        split
        · rename_i hh
          obtain ⟨rfl, rfl⟩ := hh
          have : s.idx false x = none := by rw [hidx]; exact bbOf_none.mpr ho
          rw [← hidx, this]
          simp [Spec.refit, this]
        · exact hidx i x
  | true =>
    by_cases ho : o ∈ w.S.map Leaf.obj
    · obtain ⟨w1, upd, e, k1, k2, k3, k4, k5, k6, k7, k8, k9⟩ := leafUpdate_stat h w o inv ho
      have hD : w1.D = w.D := by simp only [World.D, k1]
      have idx' : ∀ w2 : World F, w2.stat = w1.stat → w2.dyn = w1.dyn →
          ∀ i x, (s.step (.reindexObject true o)).idx i x = bbOf (leavesOf (w2.tree i)) x := by
        intro w2 e1 e2 i x
        simp only [Spec.step]
        cases i with
        | false =>
          simp only [Bool.false_eq_true, false_and, if_false, World.tree, e2, k1]
          exact hidx false x
        | true =>
          have : bbOf (leavesOf (w2.tree true)) x = bbOf w1.S x := by
            simp [World.tree, e1]
          rw [this, k7 x]
          simp only [true_and]
          split
          · simp only [Spec.refit, Spec.fresh, World.getBB, hbox]
            rw [hidx true o]
            rfl
          · exact hidx true x
      cases hu : upd with
      | false =>
        have hw := k8 hu
        subst hw
        refine ⟨{ w1 with stamp := w1.stamp + 1 }, ?_, ⟨⟨?_, ?_⟩, hbox, hvel, idx' _ rfl rfl⟩⟩
        · simp only [World.reindexObject, World.set]
          rw [if_pos trivial, inv.mid.ss.find o, if_pos ho]
          simp [e, hu]
        · exact ⟨inv.mid.ws, inv.mid.wd, inv.mid.nodup, inv.mid.ss, inv.mid.sd, inv.mid.pairs⟩
        · intro l hl; have := inv.stamps l hl; simp only []; omega
      | true =>
        subst hu
        obtain ⟨ps, q1, q2⟩ := addPairs_stat w1 o k5.ws k5.wd k5.nodup (k9.mem_iff.mpr ho)
          (by have := k5.pairs; simpa using this)
        refine ⟨{ w1 with pairs := ps, stamp := w1.stamp + 1 }, ?_,
          ⟨⟨⟨k5.ws, k5.wd, k5.nodup, k5.ss, k5.sd, q2⟩, ?_⟩, ?_, ?_, idx' _ rfl rfl⟩⟩
        · simp only [World.reindexObject, World.set]
          rw [if_pos trivial, inv.mid.ss.find o, if_pos ho]
          simp [e, q1]
        · intro l hl
          simp only []
          rcases List.mem_append.mp hl with hl | hl
          · have := k6 l hl; omega
          · have hl : l ∈ w.D := by rw [← hD]; exact hl
            have := inv.stamps l (List.mem_append_right _ hl); omega
        · exact k2.trans hbox
        · exact k3.trans hvel
    · refine ⟨w, ?_, ⟨inv, hbox, hvel, ?_⟩⟩
      · simp only [World.reindexObject, World.set]
        rw [if_pos trivial, inv.mid.ss.find o, if_neg ho]
      · intro i x
        simp only [Spec.step]
        split
        · rename_i hh
          obtain ⟨rfl, rfl⟩ := hh
          have : s.idx true x = none := by rw [hidx]; exact bbOf_none.mpr ho
          rw [← hidx, this]
          simp [Spec.refit, this]
        · exact hidx i x

/-- The update loop of `ReindexQuery`. -/
theorem updLoop (h : Obj → Nat) (os : List Obj) (w : World F) (hos : os.Nodup)
    (hsub : ∀ o ∈ os, o ∈ w.D.map Leaf.obj)
    (mid : Mid h (fun l => decide (l.stamp = w.stamp)) w)
    (ss : ∀ l ∈ w.S, l.stamp < w.stamp) (sd : ∀ l ∈ w.D, l.stamp ≤ w.stamp) :
    ∃ w', os.foldlM (fun (w : World F) o => (w.leafUpdate false o).map Prod.fst) w = some w' ∧
      w'.stat = w.stat ∧ w'.box = w.box ∧ w'.vel = w.vel ∧ w'.stamp = w.stamp ∧
      Mid h (fun l => decide (l.stamp = w.stamp)) w' ∧ (∀ l ∈ w'.D, l.stamp ≤ w.stamp) ∧
      (∀ x, bbOf w'.D x = if x ∈ os then
        (bbOf w.D x).map (fun B => if B.contains (w.box x) then B else w.getBB false x) else bbOf w.D x) ∧
      (w'.D.map Leaf.obj).Perm (w.D.map Leaf.obj) := by
  induction os generalizing w with
  | nil => exact ⟨w, rfl, rfl, rfl, rfl, rfl, mid, sd, by simp, List.Perm.refl _⟩
  | cons o os ih =>
    rw [List.nodup_cons] at hos
    obtain ⟨w1, upd, e, k1, k2, k3, k4, k5, k6, k7, k8, k9, k10⟩ := leafUpdate_dyn h w o mid
      (hsub o (by simp)) ss sd
    have hS : w1.S = w.S := by simp only [World.S, k1]
    obtain ⟨w2, f, j1, j2, j3, j4, j5, j6, j7, j8⟩ := ih w1 hos.2
      (fun x hx => k10.mem_iff.mpr (hsub x (by simp [hx]))) (by rw [k4]; exact k5)
      (by rw [k4, hS]; exact ss) (by rw [k4]; exact k6)
    rw [k4] at j4 j5 j6
    refine ⟨w2, ?_, j1.trans k1, j2.trans k2, j3.trans k3, j4, j5, j6, ?_, j8.trans k10⟩
    · rw [List.foldlM_cons, e]; exact f
    · intro x
      rw [j7 x, k7 x]
      by_cases hx : x = o
      · subst hx
        simp [hos.1]
      · have : w1.getBB false x = w.getBB false x := by simp [World.getBB, k2, k3]
        simp only [hx, if_false, List.mem_cons, false_or, k2, this]

theorem reindexQuery_ref (h : Obj → Nat) (w : World F) (s : Spec F) (r : Ref h w s) (f : PairFn) :
    ∃ w' log, w.reindexQuery f = some (w', log) ∧ Ref h w' (s.step (.reindexQuery f)) ∧
      Reports (s.step (.reindexQuery f)) log := by
  obtain ⟨inv, hbox, hvel, hidx⟩ := r
  cases hd : w.dyn with
  | none =>
    have hnone : ∀ x, s.idx false x = none := by
      intro x; rw [hidx]; simp [World.tree, hd, leavesOf, bbOf]
    have hstep : ∀ i x, (s.step (.reindexQuery f)).idx i x = s.idx i x := by
      intro i x
      simp only [Spec.step]
      split
      · rename_i hi; subst hi; simp [Spec.refit, hnone]
      · rfl
    refine ⟨w, [], by simp [World.reindexQuery, hd], ⟨inv, hbox, hvel, ?_⟩, ?_, ?_⟩
    · intro i x; rw [hstep]; exact hidx i x
    · intro e he; cases he
    · intro st x y X Y _ _ hy
      rw [hstep, hnone] at hy
      cases hy
  | some t0 =>
    have nd := inv.mid.nodup
    rw [List.map_append, List.nodup_append] at nd
    obtain ⟨w1, e, k1, k2, k3, k4, k5, k6, k7, k8⟩ := updLoop h w.dynSet.each w
      (inv.mid.sd.perm.nodup_iff.mpr nd.2.1) (fun o ho => inv.mid.sd.perm.mem_iff.mp ho) inv.midStamp
      (fun l hl => inv.stamps l (List.mem_append_left _ hl))
      (fun l hl => le_of_lt (inv.stamps l (List.mem_append_right _ hl)))
    have hS : w1.S = w.S := by simp only [World.S, k1]
    have hne : w.D ≠ [] := by
      intro hc
      have : ∀ t : Tree F, t.leaves ≠ [] := by
        intro t; induction t with
        | leaf l => simp [Tree.leaves]
        | node bb a b iha _ => simp [Tree.leaves, iha]
      exact this t0 (by simpa [World.D, hd, leavesOf] using hc)
    cases ht : w1.dyn with
    | none =>
      exfalso
      have : w1.D = [] := by simp [World.D, ht, leavesOf]
      rw [this] at k8
      have := k8.symm.eq_nil
      rw [List.map_eq_nil_iff] at this
      exact hne this
    | some t =>
      have hD1 : w1.D = t.leaves := by simp [World.D, ht, leavesOf]
      have hlog := mark_all w1.stamp w1.stat f t w1.pairs
        ⟨k5.ws, k5.wd t ht, by have := k5.nodup; rw [hD1] at this; exact this,
          by rw [k4]; have := (fun l hl => inv.stamps l (List.mem_append_left _ hl) : ∀ l ∈ w.S, _); rw [← hS] at this; exact this,
          by rw [k4, ← hD1]; exact k6⟩
        (by have := k5.pairs; rw [hD1] at this; rw [k4]; exact this)
      simp only [] at hlog
      obtain ⟨g1, g2, g3⟩ := hlog
      have hstep : ∀ i x, (s.step (.reindexQuery f)).idx i x = bbOf (leavesOf (w1.tree i)) x := by
        intro i x
        simp only [Spec.step]
        cases i with
        | true =>
          simp only [Bool.true_eq_false, if_false, World.tree, if_true, k1]
          exact hidx true x
        | false =>
          show s.refit false x = bbOf w1.D x
          rw [k7 x]
          simp only [Spec.refit, Spec.fresh]
          rw [hidx false x]
          simp only [hbox, hvel, World.getBB, Bool.false_eq_true, if_false]
          split
          · rfl
          · rename_i hx
            have : bbOf w.D x = none := bbOf_none.mpr (fun hc => hx (inv.mid.sd.perm.mem_iff.mpr hc))
            have h2 : bbOf (leavesOf (w.tree false)) x = none := this
            rw [this, h2]; rfl
      have nd1 := k5.nodup
      rw [List.map_append, List.nodup_append] at nd1
      refine ⟨{ w1 with pairs := (markSubtree w1.stamp w1.stat f t [] ⟨w1.pairs, []⟩).pairs,
                        stamp := w1.stamp + 1 },
        (markSubtree w1.stamp w1.stat f t [] ⟨w1.pairs, []⟩).log, ?_, ⟨⟨⟨k5.ws, k5.wd, k5.nodup, k5.ss, k5.sd, ?_⟩, ?_⟩,
          k2.trans hbox, k3.trans hvel, ?_⟩, ?_, ?_⟩
      · simp only [World.reindexQuery, hd, e, ht]
      · rw [← hD1] at g1; exact g1
      · intro l hl
        simp only []
        rcases List.mem_append.mp hl with hl | hl
        · have hl : l ∈ w.S := by rw [← hS]; exact hl
          have := inv.stamps l (List.mem_append_left _ hl); omega
        · have := k6 l hl; omega
      · intro i x; rw [hstep]; rfl
      · intro e he
        obtain ⟨d1, d2, d3, d4⟩ := g2 e he
        have key : ∀ o, (o ∈ (leavesOf w1.stat ++ t.leaves).map Leaf.obj →
            ((s.step (.reindexQuery f)).idx true o ≠ none ∨ (s.step (.reindexQuery f)).idx false o ≠ none)) ∧
            (o ∈ t.leaves.map Leaf.obj → (s.step (.reindexQuery f)).idx false o ≠ none) := by
          intro o
          rw [hstep, hstep]
          have a1 : ∀ o, o ∈ t.leaves.map Leaf.obj → bbOf (leavesOf (w1.tree false)) o ≠ none := by
            intro o ho hc
            exact (bbOf_none.mp hc) (by simpa [World.tree, ht, leavesOf] using ho)
          refine ⟨?_, a1 o⟩
          intro ho
          rw [List.map_append, List.mem_append] at ho
          rcases ho with ho | ho
          · left; intro hc; exact (bbOf_none.mp hc) ho
          · right; exact a1 o ho
        exact ⟨d1, (key _).1 d2, (key _).1 d3, d4.imp (key _).2 (key _).2⟩
      · intro st x y X Y hxy hX hY
        rw [hstep] at hX hY
        have hY' : bbOf w1.D y = some Y := hY
        obtain ⟨ly, hly, rfl, rfl⟩ := (bbOf_some nd1.2.1).mp hY'
        have : ∃ lx ∈ leavesOf w1.stat ++ t.leaves, lx.obj = x ∧ lx.bb = X := by
          cases st with
          | true =>
            have hX' : bbOf w1.S x = some X := hX
            obtain ⟨lx, h1, h2⟩ := (bbOf_some nd1.1).mp hX'
            exact ⟨lx, List.mem_append_left _ h1, h2⟩
          | false =>
            have hX' : bbOf w1.D x = some X := hX
            obtain ⟨lx, h1, h2⟩ := (bbOf_some nd1.2.1).mp hX'
            exact ⟨lx, List.mem_append_right _ (by rw [← hD1]; exact h1), h2⟩
        obtain ⟨lx, h1, rfl, rfl⟩ := this
        exact g3 lx h1 ly (by rw [← hD1]; exact hly) hxy

/-! ### Histories -/

theorem init_ref (h : Obj → Nat) (box : Obj → BB F) (vel : Obj → Vec F) :
    ∃ w, World.init box vel = some w ∧ Ref h w ⟨box, vel, fun _ _ => none⟩ := by
  obtain ⟨s, e, i, hfl⟩ := HashSet.inv_new (T := Obj) (U := Obj) (leafClient h)
  refine ⟨_, by rw [World.init, e], ⟨⟨⟨?_, ?_, ?_, ?_, ?_, ?_⟩, ?_⟩, rfl, rfl, ?_⟩⟩
  · intro t ht; cases ht
  · intro t ht; cases ht
  · simp [World.S, World.D, leavesOf]
  · exact ⟨i, by simp [HashSet.each, hfl, World.S, leavesOf]⟩
  · exact ⟨i, by simp [HashSet.each, hfl, World.D, leavesOf]⟩
  · refine ⟨?_, ?_, ?_⟩
    · intro p hp; cases hp
    · intro x hx; cases hx
    · intro x hx; cases hx
  · intro l hl; simp [World.S, World.D, leavesOf] at hl
  · intro st o
    cases st <;> simp [World.tree, leavesOf, bbOf]

theorem setOK_of_ref {h : Obj → Nat} {w : World F} {s : Spec F} (r : Ref h w s) (st : Bool) :
    SetOK h (w.set st) ((leavesOf (w.tree st)).map Leaf.obj) := by
  cases st with
  | true => exact r.inv.mid.ss
  | false => exact r.inv.mid.sd

theorem count_eq {h : Obj → Nat} {w : World F} {s : Spec F} (r : Ref h w s) (st : Bool) :
    w.count st = (leavesOf (w.tree st)).length := by
  have hs := setOK_of_ref r st
  unfold World.count HashSet.count
  have := hs.perm.length_eq
  unfold HashSet.each at this
  rw [List.length_map, List.length_map] at this
  rw [hs.inv.cnt, this]

/-- Every legal call succeeds (unless the index is full) and acts as on the abstract index. -/
theorem step_ref (h : Obj → Nat) (w : World F) (s : Spec F) (r : Ref h w s) (op : WOp F) (hok : s.ok op)
    (hroom : ∀ st o, op = .insert st o → w.count st ≠ 1610612740) :
    ∃ w', w.step h op = some w' ∧ Ref h w' (s.step op) := by
  cases op with
  | move box vel =>
    exact ⟨_, rfl, ⟨⟨⟨r.inv.mid.ws, r.inv.mid.wd, r.inv.mid.nodup, r.inv.mid.ss, r.inv.mid.sd, r.inv.mid.pairs⟩,
      r.inv.stamps⟩, rfl, rfl, fun st o => r.idx st o⟩⟩
  | insert st o =>
    refine insert_ref h w s r st o hok ?_
    have := hroom st o rfl
    rw [count_eq r] at this
    unfold Roomy
    omega
  | remove st o => exact remove_ref h w s r st o hok
  | reindexObject st o => exact reindexObject_ref h w s r st o
  | reindexQuery f =>
    obtain ⟨w', log, e, r', _⟩ := reindexQuery_ref h w s r f
    exact ⟨w', by simp [World.step, e], r'⟩

theorem insert_full (h : Obj → Nat) (w : World F) (s : Spec F) (r : Ref h w s) (st : Bool) (o : Obj)
    (hok : s.ok (.insert st o)) (hfull : w.count st = 1610612740) : w.insert h st o = none := by
  have hs := setOK_of_ref r st
  have ho : o ∉ (leavesOf (w.tree st)).map Leaf.obj := by
    apply bbOf_none.mp
    rw [← r.idx]
    cases st with
    | true => exact hok.1
    | false => exact hok.2
  rcases HashSet.insert_spec (leafClient h) (w.set st) hs.inv o o rfl with ⟨b, hb1, hb2, _⟩ | ⟨_, hp, _⟩
  · exfalso
    apply ho
    rw [← hs.perm.mem_iff]
    exact List.mem_map.mpr ⟨b, hb1, hb2⟩
  · have := hp (by
      have : (w.set st).entries = 1610612740 := hfull
      rw [this])
    have e : HashSet.insert leafEq (w.set st) (h o) o o = none := this
    simp [World.insert, e]

theorem hist_ref (h : Obj → Nat) (s : Spec F) (w : World F) (hh : Hist h s w) : Ref h w s := by
  induction hh with
  | init box vel w e =>
    obtain ⟨w', e', r⟩ := init_ref h box vel
    rw [e] at e'; cases e'; exact r
  | step s w w' op _ hok e ih =>
    by_cases hroom : ∀ st o, op = .insert st o → w.count st ≠ 1610612740
    · obtain ⟨w'', e'', r⟩ := step_ref h w s ih op hok hroom
      rw [e] at e''; cases e''; exact r
    · exfalso
      push Not at hroom
      obtain ⟨st, o, rfl, hc⟩ := hroom
      have := insert_full h w s ih st o hok hc
      rw [World.step, this] at e
      cases e

end CP
