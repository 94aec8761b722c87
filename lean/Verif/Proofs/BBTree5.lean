import Verif.Proofs.BBTree4

/-! Every operation on the indexes refines the abstract index. -/

namespace CP
open GoFloat
variable {F : Type} [GoFloat F]

theorem addPairs_dyn (w : World F) (o : Obj) (ws : WFo w.stat) (wd : WFo w.dyn)
    (nodup : ((w.S ++ w.D).map Leaf.obj).Nodup) (ss : ∀ s ∈ w.S, s.stamp < w.stamp)
    (sd : ∀ d ∈ w.D, d.stamp ≤ w.stamp) (ho : o ∈ w.D.map Leaf.obj)
    (hcur : ∀ d ∈ w.D, d.stamp = w.stamp ↔ d.obj = o)
    (hp : PairsMid (fun l => decide (l.stamp = w.stamp)) w.S w.D w.pairs) :
    ∃ ps, w.leafAddPairs false o = some { w with pairs := ps } ∧ PairsMid (fun _ => false) w.S w.D ps := by
  cases hd : w.dyn with
  | none => simp [World.D, hd, leavesOf] at ho
  | some t =>
    have hD : w.D = t.leaves := by simp [World.D, hd, leavesOf]
    rw [hD] at nodup sd ho hcur hp
    obtain ⟨l, q, e, k⟩ := mark_one w.stamp w.stat t w.pairs o ⟨ws, wd t hd, nodup, ss, sd⟩ ho hcur hp
    refine ⟨_, ?_, by rw [hD]; exact k⟩
    simp [World.leafAddPairs, hd, e]

theorem addPairs_stat (w : World F) (o : Obj) (ws : WFo w.stat) (wd : WFo w.dyn)
    (nodup : ((w.S ++ w.D).map Leaf.obj).Nodup) (ho : o ∈ w.S.map Leaf.obj)
    (hp : PairsMid (fun l => decide (l.obj = o)) w.S w.D w.pairs) :
    ∃ ps, w.leafAddPairs true o = some { w with pairs := ps } ∧ PairsMid (fun _ => false) w.S w.D ps := by
  cases hd : w.dyn with
  | none =>
    have e : w.leafAddPairs true o = some w := by simp [World.leafAddPairs, hd]
    refine ⟨w.pairs, by rw [e, ← hd], hp.dom, ?_, ?_⟩
    · intro x hx; simp [World.D, hd, leavesOf] at hx
    · intro s _ x hx; simp [World.D, hd, leavesOf] at hx
  | some d =>
    cases hs : w.stat with
    | none => simp [World.S, hs, leavesOf] at ho
    | some t =>
      have hS : w.S = t.leaves := by simp [World.S, hs, leavesOf]
      have hD : w.D = d.leaves := by simp [World.D, hd, leavesOf]
      rw [hS] at ho
      obtain ⟨l, q, e, hl, _, A, B, hsp, _⟩ := path_spec t o [] ho (ws t hs) (by intro s hs; cases hs)
      have hlS : l ∈ w.S := by rw [hS, hsp]; simp
      subst hl
      refine ⟨_, ?_, mark_static w.S w.D w.pairs l hlS nodup hp⟩
      simp [World.leafAddPairs, hd, hs, e, markLeafQuery_eq l true d (wd d hd), hD]

theorem nodup_move {S D E : List Obj} {o : Obj} (h : (S ++ D).Nodup) (hs : o ∉ S) (hd : o ∉ D)
    (hE : E.Perm (o :: D)) : (S ++ E).Nodup := by
  rw [(hE.append_left S).nodup_iff, List.perm_middle.nodup_iff, List.nodup_cons]
  exact ⟨by simp [hs, hd], h⟩

theorem nodup_move' {S D E : List Obj} {o : Obj} (h : (S ++ D).Nodup) (hs : o ∉ S) (hd : o ∉ D)
    (hE : E.Perm (o :: S)) : (E ++ D).Nodup := by
  rw [(hE.append_right D).nodup_iff, List.cons_append, List.nodup_cons]
  exact ⟨by simp [hs, hd], h⟩

theorem SetOK.congr {h : Obj → Nat} {s : HashSet Obj} {os os' : List Obj} (hs : SetOK h s os) (p : os.Perm os') :
    SetOK h s os' := ⟨hs.inv, hs.perm.trans p⟩

/-- Number of shapes in one index is below the point where the hash set cannot grow any more. -/
def Roomy (ls : List (Leaf F)) : Prop := ls.length + 1 ≠ 1610612741

theorem insert_ref (h : Obj → Nat) (w : World F) (s : Spec F) (r : Ref h w s) (st : Bool) (o : Obj)
    (hok : s.ok (.insert st o)) (hroom : Roomy (leavesOf (w.tree st))) :
    ∃ w', w.insert h st o = some w' ∧ Ref h w' (s.step (.insert st o)) := by
  obtain ⟨⟨mid, stm⟩, hbox, hvel, hidx⟩ := r
  have oS : o ∉ w.S.map Leaf.obj := by
    have := hok.1; rw [hidx] at this; exact bbOf_none.mp this
  have oD : o ∉ w.D.map Leaf.obj := by
    have := hok.2; rw [hidx] at this; exact bbOf_none.mp this
  have nd := mid.nodup
  rw [List.map_append] at nd
  cases st with
  | false =>
    obtain ⟨s', e1, e2⟩ := mid.sd.insert o oD (by rw [List.length_map]; exact hroom)
    let l : Leaf F := { obj := o, bb := w.getBB false o, stamp := w.stamp }
    let w1 : World F := { w with dynSet := s', dyn := some (insRoot w.dyn l) }
    have hper : w1.D.Perm (l :: w.D) := leaves_insRoot w.dyn l
    have hnd : ((w1.S ++ w1.D).map Leaf.obj).Nodup := by
      rw [List.map_append]
      exact nodup_move nd oS oD (hper.map Leaf.obj)
    have memD : ∀ d ∈ w1.D, d = l ∨ d ∈ w.D := by
      intro d hd; have := hper.mem_iff.mp hd; simpa using this
    have p0 : PairsMid (fun x => decide (x.stamp = w.stamp)) w.S w.D w.pairs :=
      mid.pairs.congr (List.Perm.refl _) (List.Perm.refl _) (by
        intro x hx; have := stm x hx; simp; omega)
    have p1 : PairsMid (fun x => decide (x.stamp = w1.stamp)) w1.S w1.D w1.pairs :=
      (p0.addDyn l (by simp [l]) oS oD).congr (List.Perm.refl _) hper (fun _ _ => rfl)
    obtain ⟨ps, q1, q2⟩ := addPairs_dyn w1 o mid.ws (WFo_insRoot mid.wd l) hnd
      (fun x hx => stm x (List.mem_append_left _ hx))
      (by
        intro d hd
        rcases memD d hd with rfl | hd
        · exact le_refl _
        · exact le_of_lt (stm d (List.mem_append_right _ hd)))
      (by rw [(hper.map Leaf.obj).mem_iff]; simp [l])
      (by
        intro d hd
        rcases memD d hd with rfl | hd
        · simp [l, w1]
        · have h1 := stm d (List.mem_append_right _ hd)
          constructor
          · intro h2
            have : d.stamp = w.stamp := h2
            omega
          · intro h2; exact absurd (List.mem_map.mpr ⟨d, hd, h2⟩) oD)
      p1
    refine ⟨{ w1 with pairs := ps, stamp := w.stamp + 1 }, ?_, ?_⟩
    · simp only [World.insert, World.set, World.tree, World.setSet, World.setTree]
      rw [if_neg (by simp), e1]
      simp only [Bool.false_eq_true, if_false]
      have : World.leafAddPairs w1 false o = some { w1 with pairs := ps } := q1
      simp only [w1, l] at this
      rw [this]
      rfl
    · refine ⟨⟨⟨mid.ws, WFo_insRoot mid.wd l, hnd, mid.ss, ?_, q2⟩, ?_⟩, hbox, hvel, ?_⟩
      · exact e2.congr (hper.map Leaf.obj).symm
      · intro x hx
        rcases List.mem_append.mp hx with hx | hx
        · have := stm x (List.mem_append_left _ hx); simp only []; omega
        · rcases memD x hx with rfl | hx
          · simp [l]
          · have := stm x (List.mem_append_right _ hx); simp only []; omega
      · intro i x
        simp only [Spec.step]
        cases i with
        | true => simp only [Bool.true_eq_false, false_and, if_false]; exact hidx true x
        | false =>
          have hb := bbOf_perm hper (by rw [List.map_append, List.nodup_append] at hnd; exact hnd.2.1) x
          show _ = bbOf w1.D x
          rw [hb, bbOf_cons]
          simp only [true_and, l, World.getBB, Spec.fresh, hbox, hvel]
          split
          · rfl
          · exact hidx false x
  | true =>
    obtain ⟨s', e1, e2⟩ := mid.ss.insert o oS (by rw [List.length_map]; exact hroom)
    let l : Leaf F := { obj := o, bb := w.getBB true o, stamp := w.stamp }
    let w1 : World F := { w with statSet := s', stat := some (insRoot w.stat l) }
    have hper : w1.S.Perm (l :: w.S) := leaves_insRoot w.stat l
    have hnd : ((w1.S ++ w1.D).map Leaf.obj).Nodup := by
      rw [List.map_append]
      exact nodup_move' nd oS oD (hper.map Leaf.obj)
    have memS : ∀ d ∈ w1.S, d = l ∨ d ∈ w.S := by
      intro d hd; have := hper.mem_iff.mp hd; simpa using this
    have p0 : PairsMid (fun x => decide (x.obj = o)) w.S w.D w.pairs :=
      mid.pairs.congr (List.Perm.refl _) (List.Perm.refl _) (by
        intro x hx
        symm
        rw [decide_eq_false_iff_not]
        intro he
        rcases List.mem_append.mp hx with hx | hx
        · exact oS (List.mem_map.mpr ⟨x, hx, he⟩)
        · exact oD (List.mem_map.mpr ⟨x, hx, he⟩))
    have p1 : PairsMid (fun x => decide (x.obj = o)) w1.S w1.D w1.pairs :=
      (p0.addStat l (by simp [l]) oS oD).congr hper (List.Perm.refl _) (fun _ _ => rfl)
    obtain ⟨ps, q1, q2⟩ := addPairs_stat w1 o (WFo_insRoot mid.ws l) mid.wd hnd
      (by rw [(hper.map Leaf.obj).mem_iff]; simp [l]) p1
    refine ⟨{ w1 with pairs := ps, stamp := w.stamp + 1 }, ?_, ?_⟩
    · simp only [World.insert, World.set, World.tree, World.setSet, World.setTree]
      rw [if_pos trivial, e1]
      simp only [if_true]
      have : World.leafAddPairs w1 true o = some { w1 with pairs := ps } := q1
      simp only [w1, l] at this
      rw [this]
      rfl
    · refine ⟨⟨⟨WFo_insRoot mid.ws l, mid.wd, hnd, ?_, mid.sd, q2⟩, ?_⟩, hbox, hvel, ?_⟩
      · exact e2.congr (hper.map Leaf.obj).symm
      · intro x hx
        rcases List.mem_append.mp hx with hx | hx
        · rcases memS x hx with rfl | hx
          · simp [l]
          · have := stm x (List.mem_append_left _ hx); simp only []; omega
        · have := stm x (List.mem_append_right _ hx); simp only []; omega
      · intro i x
        simp only [Spec.step]
        cases i with
        | false => simp only [Bool.false_eq_true, false_and, if_false]; exact hidx false x
        | true =>
          have hb := bbOf_perm hper (by rw [List.map_append, List.nodup_append] at hnd; exact hnd.1) x
          show _ = bbOf w1.S x
          rw [hb, bbOf_cons]
          simp only [true_and, l, World.getBB, Spec.fresh, hbox, if_true]
          split
          · rfl
          · exact hidx true x

theorem perm_drop {ls : List (Leaf F)} {o : Obj} (hn : (ls.map Leaf.obj).Nodup) (ho : o ∈ ls.map Leaf.obj) :
    (ls.map Leaf.obj).Perm (o :: (dropObj o ls).map Leaf.obj) := by
  have h1 : (dropObj o ls).map Leaf.obj = (ls.map Leaf.obj).filter (fun x => !decide (x = o)) := by
    rw [List.filter_map]; rfl
  rw [h1]
  have h2 : (ls.map Leaf.obj).filter (fun x => !decide (x = o)) = (ls.map Leaf.obj).erase o := by
    rw [hn.erase_eq_filter]
    congr 1
  rw [h2]
  exact List.perm_cons_erase ho

theorem drop_absent {ls : List (Leaf F)} {o : Obj} (h : o ∉ ls.map Leaf.obj) : dropObj o ls = ls :=
  Tree.filter_ne_of_not_mem h

theorem drop_map_not_mem {ls : List (Leaf F)} {o : Obj} : o ∉ (dropObj o ls).map Leaf.obj := by
  intro h
  obtain ⟨l, hl, e⟩ := List.mem_map.mp h
  exact (mem_dropObj.mp hl).2 e

theorem remove_ref (h : Obj → Nat) (w : World F) (s : Spec F) (r : Ref h w s) (st : Bool) (o : Obj)
    (hok : s.ok (.remove st o)) :
    ∃ w', w.remove h st o = some w' ∧ Ref h w' (s.step (.remove st o)) := by
  obtain ⟨⟨mid, stm⟩, hbox, hvel, hidx⟩ := r
  have nd := mid.nodup
  rw [List.map_append, List.nodup_append] at nd
  have ho : o ∈ (leavesOf (w.tree st)).map Leaf.obj := by
    by_contra hc
    exact hok (by rw [hidx]; exact bbOf_none.mpr hc)
  have hdr := mid.pairs.drop o
  cases st with
  | false =>
    have ho : o ∈ w.D.map Leaf.obj := ho
    have oS : o ∉ w.S.map Leaf.obj := fun hc => nd.2.2 o hc o ho rfl
    obtain ⟨s', b, e1, e2⟩ := mid.sd.remove o (perm_drop nd.2.1 ho)
    cases hd : w.dyn with
    | none => simp [World.D, hd, leavesOf] at ho
    | some t =>
      have hD : w.D = t.leaves := by simp [World.D, hd, leavesOf]
      obtain ⟨r1, r2⟩ := t.rem_spec o (by have := nd.2.1; rw [hD] at this; exact this) (mid.wd t hd)
      refine ⟨{ w with dynSet := s', dyn := t.rem o, pairs := pairsClear w.pairs o }, ?_, ?_⟩
      · simp only [World.remove, World.set, World.tree, World.setSet, World.setTree]
        rw [if_neg (by simp), e1]
        simp [hd]
      · have hD' : leavesOf (t.rem o) = dropObj o w.D := by rw [r1, hD]
        refine ⟨⟨⟨mid.ws, r2, ?_, mid.ss, ?_, ?_⟩, ?_⟩, hbox, hvel, ?_⟩
        · simp only [World.S, World.D, hD']
          exact mid.nodup.sublist (List.Sublist.map _ (List.Sublist.append_left List.filter_sublist _))
        · simp only [World.D, hD']; exact e2
        · simp only [World.S, World.D, hD']
          rw [drop_absent oS] at hdr
          exact hdr
        · intro x hx
          simp only [World.S, World.D, hD', List.mem_append, mem_dropObj] at hx
          exact stm x (by simp only [List.mem_append]; tauto)
        · intro i x
          simp only [Spec.step]
          cases i with
          | true => simp only [Bool.true_eq_false, false_and, if_false]; exact hidx true x
          | false =>
            show _ = bbOf (leavesOf (t.rem o)) x
            rw [hD', bbOf_drop]
            simp only [true_and]
            split
            · rfl
            · exact hidx false x
  | true =>
    have ho : o ∈ w.S.map Leaf.obj := ho
    have oD : o ∉ w.D.map Leaf.obj := fun hc => nd.2.2 o ho o hc rfl
    obtain ⟨s', b, e1, e2⟩ := mid.ss.remove o (perm_drop nd.1 ho)
    cases hd : w.stat with
    | none => simp [World.S, hd, leavesOf] at ho
    | some t =>
      have hD : w.S = t.leaves := by simp [World.S, hd, leavesOf]
      obtain ⟨r1, r2⟩ := t.rem_spec o (by have := nd.1; rw [hD] at this; exact this) (mid.ws t hd)
      refine ⟨{ w with statSet := s', stat := t.rem o, pairs := pairsClear w.pairs o }, ?_, ?_⟩
      · simp only [World.remove, World.set, World.tree, World.setSet, World.setTree]
        rw [if_pos trivial, e1]
        simp [hd]
      · have hD' : leavesOf (t.rem o) = dropObj o w.S := by rw [r1, hD]
        refine ⟨⟨⟨r2, mid.wd, ?_, ?_, mid.sd, ?_⟩, ?_⟩, hbox, hvel, ?_⟩
        · simp only [World.S, World.D, hD']
          exact mid.nodup.sublist (List.Sublist.map _ (List.Sublist.append_right List.filter_sublist _))
        · simp only [World.S, hD']; exact e2
        · simp only [World.S, World.D, hD']
          rw [drop_absent oD] at hdr
          exact hdr
        · intro x hx
          simp only [World.S, World.D, hD', List.mem_append, mem_dropObj] at hx
          exact stm x (by simp only [List.mem_append]; tauto)
        · intro i x
          simp only [Spec.step]
          cases i with
          | false => simp only [Bool.false_eq_true, false_and, if_false]; exact hidx false x
          | true =>
            show _ = bbOf (leavesOf (t.rem o)) x
            rw [hD', bbOf_drop]
            simp only [true_and]
            split
            · rfl
            · exact hidx true x

/-- State inside `ReindexQuery`/`ReindexObject` between updating leaves and adding pairs. -/
structure Upd (h : Obj → Nat) (fr : Leaf F → Bool) (w : World F) : Prop where
  mid : Mid h fr w
  ss : ∀ l ∈ w.S, l.stamp ≤ w.stamp
  sd : ∀ l ∈ w.D, l.stamp ≤ w.stamp

/-- `LeafUpdate` on the dynamic side. -/
theorem leafUpdate_dyn (h : Obj → Nat) (w : World F) (o : Obj)
    (mid : Mid h (fun l => decide (l.stamp = w.stamp)) w) (ho : o ∈ w.D.map Leaf.obj)
    (ss : ∀ l ∈ w.S, l.stamp < w.stamp) (sd : ∀ l ∈ w.D, l.stamp ≤ w.stamp) :
    ∃ w' upd, w.leafUpdate false o = some (w', upd) ∧
      w'.stat = w.stat ∧ w'.box = w.box ∧ w'.vel = w.vel ∧ w'.stamp = w.stamp ∧
      Mid h (fun l => decide (l.stamp = w.stamp)) w' ∧
      (∀ l ∈ w'.D, l.stamp ≤ w.stamp) ∧
      (∀ x, bbOf w'.D x = if x = o then (bbOf w.D o).map (fun B => if B.contains (w.box o) then B else w.getBB false o)
        else bbOf w.D x) ∧
      (upd = false → w' = w) ∧
      (upd = true → ∀ d ∈ w'.D, (d.obj = o → d.stamp = w.stamp) ∧ (d.obj ≠ o → d ∈ w.D)) ∧
      (w'.D.map Leaf.obj).Perm (w.D.map Leaf.obj) := by
  have nd := mid.nodup
  rw [List.map_append, List.nodup_append] at nd
  have oS : o ∉ w.S.map Leaf.obj := fun hc => nd.2.2 o hc o ho rfl
  cases hd : w.dyn with
  | none => simp [World.D, hd, leavesOf] at ho
  | some t =>
    have hD : w.D = t.leaves := by simp [World.D, hd, leavesOf]
    obtain ⟨r1, r2⟩ := t.rem_spec o (by have := nd.2.1; rw [hD] at this; exact this) (mid.wd t hd)
    rw [hD] at ho
    obtain ⟨l, q, e, hl, _, A, B, hsp, _⟩ := path_spec t o [] ho (mid.wd t hd) (by intro s hs; cases hs)
    have hlD : l ∈ w.D := by rw [hD, hsp]; simp
    have hbl : bbOf w.D o = some l.bb := by rw [← hl]; exact bbOf_of_mem nd.2.1 hlD
    by_cases hc : l.bb.contains (w.box o) = true
    · refine ⟨w, false, ?_, rfl, rfl, rfl, rfl, mid, sd, ?_, fun _ => rfl, (fun hh => by cases hh), List.Perm.refl _⟩
      · simp [World.leafUpdate, World.tree, hd, e, hc]
      · intro x
        split
        · rename_i hx; rw [hx, hbl]; simp [hc]
        · rfl
    · let l' : Leaf F := { l with bb := w.getBB false o, stamp := w.stamp }
      let w1 : World F := { w with dyn := some (insRoot (t.rem o) l'), pairs := pairsClear w.pairs o }
      have hD' : leavesOf (t.rem o) = dropObj o w.D := by rw [r1, hD]
      have hper : w1.D.Perm (l' :: dropObj o w.D) := by rw [← hD']; exact leaves_insRoot _ _
      have hl' : l'.obj = o := hl
      have hpo : (w1.D.map Leaf.obj).Perm (w.D.map Leaf.obj) := by
        refine (hper.map Leaf.obj).trans ?_
        rw [List.map_cons, hl']
        exact (perm_drop nd.2.1 (by rw [hD]; exact ho)).symm
      have hnd1 : (w1.D.map Leaf.obj).Nodup := hpo.nodup_iff.mpr nd.2.1
      have memD : ∀ d ∈ w1.D, d = l' ∨ (d ∈ w.D ∧ d.obj ≠ o) := by
        intro d hd; have := hper.mem_iff.mp hd; rwa [List.mem_cons, mem_dropObj] at this
      refine ⟨w1, true, ?_, rfl, rfl, rfl, rfl, ⟨mid.ws, ?_, ?_, mid.ss, ?_, ?_⟩, ?_, ?_, (fun hh => by cases hh), ?_, hpo⟩
      · simp [World.leafUpdate, World.tree, hd, e, hc, World.setTree, w1, l']
      · exact WFo_insRoot r2 l'
      · rw [List.map_append, List.nodup_append]
        refine ⟨nd.1, hnd1, ?_⟩
        intro a ha b hb
        exact nd.2.2 a ha b (hpo.mem_iff.mp hb)
      · exact mid.sd.congr hpo.symm
      · have hdr := mid.pairs.drop o
        rw [drop_absent oS] at hdr
        exact (hdr.addDyn l' (by simp [l']) (by rw [hl']; exact oS) (by rw [hl']; exact drop_map_not_mem)).congr
          (List.Perm.refl _) hper (fun _ _ => rfl)
      · intro d hd
        rcases memD d hd with rfl | hd
        · exact le_refl _
        · exact sd d hd.1
      · intro x
        rw [bbOf_perm hper hnd1, bbOf_cons, bbOf_drop, hl', hbl]
        by_cases hx : x = o
        · simp [hx, hc, l']
        · simp [hx]
      · intro _ d hd
        rcases memD d hd with rfl | hd
        · exact ⟨fun _ => rfl, fun hne => absurd hl' hne⟩
        · exact ⟨fun he => absurd he hd.2, fun _ => hd.1⟩

/-- `LeafUpdate` on the static side. -/
theorem leafUpdate_stat (h : Obj → Nat) (w : World F) (o : Obj)
    (inv : TInv h w) (ho : o ∈ w.S.map Leaf.obj) :
    ∃ w' upd, w.leafUpdate true o = some (w', upd) ∧
      w'.dyn = w.dyn ∧ w'.box = w.box ∧ w'.vel = w.vel ∧ w'.stamp = w.stamp ∧
      Mid h (fun l => decide (l.obj = o) && upd) w' ∧
      (∀ l ∈ w'.S, l.stamp ≤ w.stamp) ∧
      (∀ x, bbOf w'.S x = if x = o then (bbOf w.S o).map (fun B => if B.contains (w.box o) then B else w.getBB true o)
        else bbOf w.S x) ∧
      (upd = false → w' = w) ∧
      (w'.S.map Leaf.obj).Perm (w.S.map Leaf.obj) := by
  obtain ⟨mid, stm⟩ := inv
  have nd := mid.nodup
  rw [List.map_append, List.nodup_append] at nd
  have oD : o ∉ w.D.map Leaf.obj := fun hc => nd.2.2 o ho o hc rfl
  cases hd : w.stat with
  | none => simp [World.S, hd, leavesOf] at ho
  | some t =>
    have hD : w.S = t.leaves := by simp [World.S, hd, leavesOf]
    obtain ⟨r1, r2⟩ := t.rem_spec o (by have := nd.1; rw [hD] at this; exact this) (mid.ws t hd)
    rw [hD] at ho
    obtain ⟨l, q, e, hl, _, A, B, hsp, _⟩ := path_spec t o [] ho (mid.ws t hd) (by intro s hs; cases hs)
    have hlD : l ∈ w.S := by rw [hD, hsp]; simp
    have hbl : bbOf w.S o = some l.bb := by rw [← hl]; exact bbOf_of_mem nd.1 hlD
    by_cases hc : l.bb.contains (w.box o) = true
    · refine ⟨w, false, ?_, rfl, rfl, rfl, rfl, ?_, ?_, ?_, fun _ => rfl, List.Perm.refl _⟩
      · simp [World.leafUpdate, World.tree, hd, e, hc]
      · simpa using mid
      · intro x hx; exact le_of_lt (stm x (List.mem_append_left _ hx))
      · intro x
        split
        · rename_i hx; rw [hx, hbl]; simp [hc]
        · rfl
    · let l' : Leaf F := { l with bb := w.getBB true o, stamp := w.stamp }
      let w1 : World F := { w with stat := some (insRoot (t.rem o) l'), pairs := pairsClear w.pairs o }
      have hD' : leavesOf (t.rem o) = dropObj o w.S := by rw [r1, hD]
      have hper : w1.S.Perm (l' :: dropObj o w.S) := by rw [← hD']; exact leaves_insRoot _ _
      have hl' : l'.obj = o := hl
      have hpo : (w1.S.map Leaf.obj).Perm (w.S.map Leaf.obj) := by
        refine (hper.map Leaf.obj).trans ?_
        rw [List.map_cons, hl']
        exact (perm_drop nd.1 (by rw [hD]; exact ho)).symm
      have hnd1 : (w1.S.map Leaf.obj).Nodup := hpo.nodup_iff.mpr nd.1
      have memD : ∀ d ∈ w1.S, d = l' ∨ (d ∈ w.S ∧ d.obj ≠ o) := by
        intro d hd; have := hper.mem_iff.mp hd; rwa [List.mem_cons, mem_dropObj] at this
      refine ⟨w1, true, ?_, rfl, rfl, rfl, rfl, ⟨?_, mid.wd, ?_, ?_, mid.sd, ?_⟩, ?_, ?_, (fun hh => by cases hh), hpo⟩
      · simp [World.leafUpdate, World.tree, hd, e, hc, World.setTree, w1, l']
      · exact WFo_insRoot r2 l'
      · rw [List.map_append, List.nodup_append]
        refine ⟨hnd1, nd.2.1, ?_⟩
        intro a ha b hb
        exact nd.2.2 a (hpo.mem_iff.mp ha) b hb
      · exact mid.ss.congr hpo.symm
      · have hdr := mid.pairs.drop o
        rw [drop_absent oD] at hdr
        have hdr' : PairsMid (fun l => decide (l.obj = o) && true) (dropObj o w.S) w.D (pairsClear w.pairs o) := by
          refine hdr.congr (List.Perm.refl _) (List.Perm.refl _) ?_
          intro x hx
          symm
          rw [Bool.and_true, decide_eq_false_iff_not]
          intro he
          rcases List.mem_append.mp hx with hx | hx
          · exact (mem_dropObj.mp hx).2 he
          · exact oD (List.mem_map.mpr ⟨x, hx, he⟩)
        exact (hdr'.addStat l' (by simp [hl']) (by rw [hl']; exact drop_map_not_mem) (by rw [hl']; exact oD)).congr
          hper (List.Perm.refl _) (fun _ _ => rfl)
      · intro d hd
        rcases memD d hd with rfl | hd
        · exact le_refl _
        · exact le_of_lt (stm d (List.mem_append_left _ hd.1))
      · intro x
        rw [bbOf_perm hper hnd1, bbOf_cons, bbOf_drop, hl', hbl]
        by_cases hx : x = o
        · simp [hx, hc, l']
        · simp [hx]

end CP
