import Verif.Proofs.NodeSide

/-! # The indexes in memory behave as the indexes as values -/

namespace CP
open GoFloat
variable {F : Type} [GoFloat F]

/-- The two trees and the two pools in memory. -/
structure MemOk (m : NMem F) (T : Bool → Option (PT F)) (fs : Bool → List NId) : Prop where
  rooted : ∀ st, RootedO m.nd (T st)
  pooled : ∀ st, Pooled m.nd (m.pool st) (fs st)
  acc : ∀ st, Acc m (idsO (T st) ++ (fs st ++ (idsO (T (!st)) ++ fs (!st))))
  nodup : ∀ st, ((lvsO (T st) ++ lvsO (T (!st))).map fun x => x.2.obj).Nodup

theorem setAt_same {α : Type} (f : Bool → α) (st : Bool) (v : α) : setAt f st v st = v := by simp [setAt]
theorem setAt_not {α : Type} (f : Bool → α) (st : Bool) (v : α) : setAt f st v (!st) = f (!st) := by simp [setAt]

theorem bool_side (st st' : Bool) : st' = st ∨ st' = !st := by cases st <;> cases st' <;> simp

theorem RootedO.congr {nd nd' : NId → NRec F} {T : Option (PT F)} (h : RootedO nd T) (he : ∀ x ∈ idsO T, nd' x = nd x) : RootedO nd' T := by
  cases T with
  | none => trivial
  | some t => exact Rooted.congr (p := none) h he

theorem MemOk.side {m m' : NMem F} {T : Bool → Option (PT F)} {fs : Bool → List NId} (h : MemOk m T fs) (st : Bool) {T1 : Option (PT F)} {f1 : List NId}
    (h1 : RootedO m'.nd T1) (h2 : Pooled m'.nd (m'.pool st) f1) (h3 : Acc m' (idsO T1 ++ (f1 ++ (idsO (T (!st)) ++ fs (!st)))))
    (h4 : ∀ x ∈ idsO (T (!st)) ++ fs (!st), m'.nd x = m.nd x) (h5 : m'.pool (!st) = m.pool (!st))
    (h6 : ((lvsO T1 ++ lvsO (T (!st))).map fun x => x.2.obj).Nodup) : MemOk m' (setAt T st T1) (setAt fs st f1) := by
  refine ⟨fun st' => ?_, fun st' => ?_, fun st' => ?_, fun st' => ?_⟩
  · rcases bool_side st st' with rfl | rfl
    · rw [setAt_same]; exact h1
    · rw [setAt_not]; exact (h.rooted _).congr fun x hx => h4 x (by simp [hx])
  · rcases bool_side st st' with rfl | rfl
    · rw [setAt_same]; exact h2
    · rw [setAt_not, h5]; exact (h.pooled _).congr fun x hx => h4 x (by simp [hx])
  · rcases bool_side st st' with rfl | rfl
    · simp only [setAt_same, setAt_not]; exact h3
    · simp only [setAt_not, Bool.not_not, setAt_same]
      refine h3.congr rfl ?_
      rw [List.perm_iff_count]
      intro x
      simp only [List.count_append]
      omega
  · rcases bool_side st st' with rfl | rfl
    · simp only [setAt_same, setAt_not]; exact h6
    · simp only [setAt_not, Bool.not_not, setAt_same]
      rw [(List.Perm.map _ List.perm_append_comm).nodup_iff]
      exact h6

/-- The nodes that belong to one of the indexes: in its tree or its pool. -/
def tot (T : Bool → Option (PT F)) (fs : Bool → List NId) (st : Bool) : Nat := (idsO (T st)).length + (fs st).length

theorem idsO_len (T : Option (PT F)) : (idsO T).length = 2 * (lvsO T).length - 1 := by
  cases T with
  | none => rfl
  | some t => have := t.ids_len; simp only [idsO, lvsO]; omega

/-- The leaves of the two trees. -/
def LI (T : Bool → Option (PT F)) : List NId := (lvsO (T true) ++ lvsO (T false)).map Prod.fst

theorem mem_LI {T : Bool → Option (PT F)} {n : NId} : n ∈ LI T ↔ ∃ st L, (n, L) ∈ lvsO (T st) := by
  simp only [LI, List.mem_map, List.mem_append, Prod.exists, exists_and_right, exists_eq_right]
  constructor
  · rintro ⟨L, h | h⟩
    · exact ⟨true, L, h⟩
    · exact ⟨false, L, h⟩
  · rintro ⟨st, L, h⟩
    cases st
    · exact ⟨L, .inr h⟩
    · exact ⟨L, .inl h⟩

theorem RootedO.leaf {nd : NId → NRec F} {T : Option (PT F)} (h : RootedO nd T) : ∀ x ∈ lvsO T, AtLeaf nd x.1 x.2 := by
  cases T with
  | none => exact fun x hx => by cases hx
  | some t => exact Rooted.leaf (p := none) h

theorem MemOk.name {m : NMem F} {T : Bool → Option (PT F)} {fs : Bool → List NId} (h : MemOk m T fs) {st : Bool} {n : NId} {L : Leaf F}
    (hn : (n, L) ∈ lvsO (T st)) : m.name n = L.obj := ((h.rooted st).leaf _ hn).name

theorem MemOk.inj {m : NMem F} {T : Bool → Option (PT F)} {fs : Bool → List NId} (h : MemOk m T fs) :
    ∀ x ∈ LI T, ∀ y ∈ LI T, m.name x = m.name y → x = y := by
  intro x hx y hy e
  obtain ⟨s1, L1, h1⟩ := mem_LI.1 hx
  obtain ⟨s2, L2, h2⟩ := mem_LI.1 hy
  rw [h.name h1, h.name h2] at e
  have hh : ∀ s L k, (k, L) ∈ lvsO (T s) → (k, L) ∈ lvsO (T true) ++ lvsO (T false) := by
    intro s L k hk
    cases s
    · exact List.mem_append_right _ hk
    · exact List.mem_append_left _ hk
  have := List.inj_on_of_nodup_map (h.nodup true) (hh _ _ _ h1) (hh _ _ _ h2) e
  exact congrArg Prod.fst this

/-- The indexes in memory hold the indexes given as values. -/
structure SimT (nw : NWorld F) (w : World F) (T : Bool → Option (PT F)) (fs : Bool → List NId) : Prop where
  mem : MemOk nw.mem T fs
  box : nw.box = w.box
  vel : nw.vel = w.vel
  stamp : nw.stamp = w.stamp
  root : ∀ st, nw.root st = (T st).map PT.id
  tree : ∀ st, w.tree st = (T st).map PT.erase
  set : ∀ st, w.set st = (nw.leaves st).rename nw.mem.name
  sub : ∀ st, ∀ n ∈ (nw.leaves st).each, ∃ L, (n, L) ∈ lvsO (T st)
  pairs : MR nw.mem (LI T) ⟨nw.ph, []⟩ ⟨w.pairs, []⟩

theorem SimT.leavesOf {nw : NWorld F} {w : World F} {T : Bool → Option (PT F)} {fs : Bool → List NId} (h : SimT nw w T fs) (st : Bool) :
    CP.leavesOf (w.tree st) = (lvsO (T st)).map Prod.snd := by
  rw [h.tree st]
  cases T st with
  | none => rfl
  | some t => exact t.lvs_erase.symm

theorem World.tree_setTree (w : World F) (st : Bool) (t : Option (Tree F)) (st' : Bool) : (w.setTree st t).tree st' = setAt w.tree st t st' := by
  cases st <;> cases st' <;> rfl
theorem World.set_setTree (w : World F) (st : Bool) (t : Option (Tree F)) (st' : Bool) : (w.setTree st t).set st' = w.set st' := by
  cases st <;> cases st' <;> rfl
theorem World.set_setSet (w : World F) (st : Bool) (t : HashSet Obj) (st' : Bool) : (w.setSet st t).set st' = setAt w.set st t st' := by
  cases st <;> cases st' <;> rfl
theorem World.tree_setSet (w : World F) (st : Bool) (t : HashSet Obj) (st' : Bool) : (w.setSet st t).tree st' = w.tree st' := by
  cases st <;> cases st' <;> rfl
theorem World.setTree_fields (w : World F) (st : Bool) (t : Option (Tree F)) : (w.setTree st t).box = w.box ∧ (w.setTree st t).vel = w.vel ∧
    (w.setTree st t).stamp = w.stamp ∧ (w.setTree st t).pairs = w.pairs := by cases st <;> exact ⟨rfl, rfl, rfl, rfl⟩
theorem World.setSet_fields (w : World F) (st : Bool) (t : HashSet Obj) : (w.setSet st t).box = w.box ∧ (w.setSet st t).vel = w.vel ∧
    (w.setSet st t).stamp = w.stamp ∧ (w.setSet st t).pairs = w.pairs := by cases st <;> exact ⟨rfl, rfl, rfl, rfl⟩

theorem getBB_eq {nw : NWorld F} {w : World F} (h1 : nw.box = w.box) (h2 : nw.vel = w.vel) (st : Bool) (o : Obj) : nw.getBB st o = w.getBB st o := by
  simp only [NWorld.getBB, World.getBB, h1, h2]

theorem siblings {path : List (Fr F)} {n : NId} {L : Leaf F} (hnd : ((plug path (PT.leaf n L)).lvs.map fun x => x.2.obj).Nodup) :
    ∀ f ∈ path, f.sib.erase.has L.obj = false := by
  intro f hf
  rw [Bool.eq_false_iff]
  intro hc
  obtain ⟨x, hx, e⟩ := (erase_has _ _).1 hc
  rw [((plug_lvs path (PT.leaf n L)).map fun x => x.2.obj).nodup_iff] at hnd
  simp only [PT.lvs, List.cons_append, List.nil_append, List.map_cons, List.nodup_cons] at hnd
  exact hnd.1 (List.mem_map.2 ⟨x, List.mem_flatMap.2 ⟨f, hf, hx⟩, e⟩)

theorem path_leaf {path : List (Fr F)} {n : NId} {L : Leaf F} (hnd : ((plug path (PT.leaf n L)).lvs.map fun x => x.2.obj).Nodup) :
    (plug path (PT.leaf n L)).erase.path L.obj [] = some (L, path.map fun f => (f.isA, f.sib.erase)) := by
  rw [path_plug path (siblings hnd) (by simp [PT.erase, Tree.has])]
  simp [PT.erase, Tree.path]

theorem SimT.split {nw : NWorld F} {w : World F} {T : Bool → Option (PT F)} {fs : Bool → List NId} (h : SimT nw w T fs) {st : Bool} {n : NId} {L : Leaf F}
    (hn : (n, L) ∈ lvsO (T st)) : ∃ path, T st = some (plug path (.leaf n L)) ∧ ((plug path (PT.leaf n L)).lvs.map fun x => x.2.obj).Nodup := by
  cases ht : T st with
  | none => rw [ht] at hn; cases hn
  | some t =>
    rw [ht] at hn
    obtain ⟨path, rfl⟩ := plug_of_mem hn
    refine ⟨path, rfl, ?_⟩
    have := h.mem.nodup st
    rw [ht, List.map_append] at this
    exact this.of_append_left

/-- `LeafUpdate`. -/
theorem SimT.leafUpdate {nw : NWorld F} {w : World F} {T : Bool → Option (PT F)} {fs : Bool → List NId} (h : SimT nw w T fs) {st : Bool} {n : NId} {L : Leaf F}
    (hn : (n, L) ∈ lvsO (T st)) : ∃ nw' w' b T' fs', nw.leafUpdate st n = some (nw', b) ∧ w.leafUpdate st L.obj = some (w', b) ∧ SimT nw' w' T' fs' ∧
      nw'.leaves = nw.leaves ∧ (∀ st' k M, (k, M) ∈ lvsO (T st') → ∃ M', (k, M') ∈ lvsO (T' st') ∧ M'.obj = M.obj) ∧
      (∀ st', tot T' fs' st' = tot T fs st') := by
  obtain ⟨path, ht, hnd⟩ := h.split hn
  have hat := (h.mem.rooted st).leaf _ hn
  have hr : Rooted nw.mem.nd none (plug path (.leaf n L)) := by have := h.mem.rooted st; rw [ht] at this; exact this
  have hacc := h.mem.acc st
  rw [ht] at hacc
  have e1 : w.tree st = some (plug path (PT.leaf n L)).erase := by rw [h.tree st, ht]; rfl
  have e0 : nw.root st = some (plug path (PT.leaf n L)).id := by rw [h.root st, ht]; rfl
  simp only [NWorld.leafUpdate, World.leafUpdate, e1, path_leaf hnd, hat.1, hat.2.1, h.box]
  by_cases hc : L.bb.contains (w.box L.obj) = true
  · simp only [hc, Bool.not_true, Bool.false_eq_true, if_false]
    exact ⟨_, _, _, T, fs, rfl, rfl, h, rfl, fun st' k M hk => ⟨M, hk, rfl⟩, fun _ => rfl⟩
  · simp only [hc, Bool.not_false, if_true]
    obtain ⟨m1, r1, m2, t', f1, k1, k2, k3, k4, k5, k6, k7, k8, klen, rest, k9, k10⟩ :=
      NMem.reloc_spec (st := st) (nw.getBB st L.obj) nw.stamp hr (h.mem.pooled st) hacc hnd
    obtain ⟨ph', c1, c2⟩ := MR.clear hat (mem_LI.2 ⟨st, L, hn⟩) h.mem.inj h.pairs
    simp only [hat.1] at k1
    simp only [e0, k1, k2, c1]
    have hlv : ∀ st' k M, (k, M) ∈ lvsO (T st') → ∃ M', (k, M') ∈ lvsO (setAt T st (some t') st') ∧ M'.obj = M.obj := by
      intro st' k M hk
      rcases bool_side st st' with rfl | rfl
      · rw [setAt_same]
        rw [ht] at hk
        rcases List.mem_cons.1 (k9.mem_iff.1 hk) with e | hk
        · obtain ⟨rfl, rfl⟩ := Prod.mk.inj e
          exact ⟨_, k10.mem_iff.2 (List.mem_cons_self ..), rfl⟩
        · exact ⟨M, k10.mem_iff.2 (List.mem_cons_of_mem _ hk), rfl⟩
      · rw [setAt_not]
        exact ⟨M, hk, rfl⟩
    have hmem : MemOk (m2.set n { m2.nd n with stamp := nw.stamp }) (setAt T st (some t')) (setAt fs st f1) := by
      refine h.mem.side st k4 k5 k6 k7 k8 ?_
      have := h.mem.nodup st
      rw [ht] at this
      have p1 : ((lvsO (some t') ++ lvsO (T (!st))).map fun x => x.2.obj).Perm
          ((lvsO (some (plug path (.leaf n L))) ++ lvsO (T (!st))).map fun x => x.2.obj) := by
        simp only [List.map_append]
        refine List.Perm.append_right _ ?_
        refine (k10.map _).trans ((k9.map _).trans ?_).symm
        simp
      exact p1.nodup_iff.2 this
    have hnm : ∀ x ∈ LI T, (m2.set n { m2.nd n with stamp := nw.stamp }).name x = nw.mem.name x := by
      intro x hx
      obtain ⟨s, M, hM⟩ := mem_LI.1 hx
      obtain ⟨M', hM', e⟩ := hlv s x M hM
      rw [hmem.name hM', e, h.mem.name hM]
    refine ⟨_, _, _, setAt T st (some t'), setAt fs st f1, rfl, rfl, ?_, rfl, hlv, ?_⟩
    swap
    · intro st'
      rcases bool_side st st' with rfl | rfl
      · simp only [tot, setAt_same, klen, idsO_len, ht, lvsO, k9.length_eq, k10.length_eq, List.length_cons]
      · simp only [tot, setAt_not]
    refine ⟨hmem, ?_, ?_, ?_, ?_, ?_, ?_, ?_, ?_⟩
    · exact (World.setTree_fields ..).1.symm
    · simp only [h.vel, (World.setTree_fields ..).2.1]
    · simp only [h.stamp, (World.setTree_fields ..).2.2.1]
    · intro st'
      rcases bool_side st st' with rfl | rfl
      · simp only [setAt_same, Option.map_some]
      · simp only [setAt_not]; exact h.root _
    · intro st'
      show (w.setTree st _).tree st' = _
      rw [World.tree_setTree]
      rcases bool_side st st' with rfl | rfl
      · simp only [setAt_same, Option.map_some, k3, h.stamp, getBB_eq h.box h.vel]
      · simp only [setAt_not]; exact h.tree _
    · intro st'
      show (w.setTree st _).set st' = _
      rw [World.set_setTree, h.set st']
      refine HashSet.rename_congr fun x hx => ?_
      obtain ⟨M, hM⟩ := h.sub st' x hx
      exact (hnm x (mem_LI.2 ⟨st', M, hM⟩)).symm
    · intro st' x hx
      obtain ⟨M, hM⟩ := h.sub st' x hx
      obtain ⟨M', hM', _⟩ := hlv st' x M hM
      exact ⟨M', hM'⟩
    · have e2 : (w.setTree st (some (insRoot ((plug path (PT.leaf n L)).erase.rem L.obj) { L with bb := w.getBB st L.obj, stamp := w.stamp }))).pairs = w.pairs :=
        (World.setTree_fields ..).2.2.2
      simp only [e2]
      refine c2.congr (fun x hx => hnm x (List.mem_of_mem_filter hx)) fun x hx => ?_
      obtain ⟨s, M, hM⟩ := mem_LI.1 (List.mem_of_mem_filter hx)
      obtain ⟨M', hM', _⟩ := hlv s x M hM
      exact mem_LI.2 ⟨s, M', hM'⟩

/-- `LeafAddPairs`. -/
theorem SimT.leafAddPairs {nw : NWorld F} {w : World F} {T : Bool → Option (PT F)} {fs : Bool → List NId} (h : SimT nw w T fs) {st : Bool} {n : NId} {L : Leaf F}
    (hn : (n, L) ∈ lvsO (T st)) : ∃ nw' w', nw.leafAddPairs st n = some nw' ∧ w.leafAddPairs st L.obj = some w' ∧ SimT nw' w' T fs ∧
      nw'.leaves = nw.leaves := by
  obtain ⟨path, ht, hnd⟩ := h.split hn
  have hat := (h.mem.rooted st).leaf _ hn
  have hr : Rooted nw.mem.nd none (plug path (.leaf n L)) := by have := h.mem.rooted st; rw [ht] at this; exact this
  have hacc := h.mem.acc st
  rw [ht] at hacc
  have hlen := hacc.length
  have hndp := hacc.nodup
  have ndd : ((plug path (PT.leaf n L)).ids ++ idsO (T (!st))).Nodup := by
    refine hndp.sublist ?_
    exact List.Sublist.append_left ((List.sublist_append_left _ _).trans (List.sublist_append_right _ _)) _
  simp only [idsO, List.length_append] at hlen
  have out : ∀ {pm : PMark} {mk : Mark}, MR nw.mem (LI T) pm mk → SimT { nw with ph := pm.ph } { w with pairs := mk.pairs } T fs := by
    rintro pm mk ⟨qs, q1, q2, q3, q4⟩
    exact ⟨h.mem, h.box, h.vel, h.stamp, h.root, fun st => by cases st <;> exact h.tree _, fun st => by cases st <;> exact h.set _, h.sub, ⟨qs, q1, q2, rfl, q4⟩⟩
  cases st with
  | true =>
    have e1 : w.stat = some (plug path (PT.leaf n L)).erase := by have := h.tree true; rw [ht] at this; exact this
    simp only [NWorld.leafAddPairs, World.leafAddPairs, if_true, h.root false]
    have e2 : w.dyn = (T false).map PT.erase := h.tree false
    cases hd : T false with
    | none =>
      rw [hd] at e2
      simp only [e2, Option.map_none]
      exact ⟨_, _, rfl, rfl, h, rfl⟩
    | some d =>
      rw [hd] at e2
      simp only [Bool.not_true, hd, idsO] at hlen ndd
      have hd' : d.ids.length ≤ nw.mem.next := by rw [← hlen]; omega
      have hrd : Rooted nw.mem.nd none d := by have := h.mem.rooted false; rw [hd] at this; exact this
      have hnin : n ∉ d.ids := fun hc => by
        rw [List.nodup_append] at ndd
        exact ndd.2.2 n ((PT.lvs_ids _) _ (by rw [ht] at hn; exact hn)) n hc rfl
      obtain ⟨pm, k1, k2⟩ := MR.markLeafQuery (LI := LI T) hat (mem_LI.2 ⟨true, L, hn⟩) true d hrd hnin
        (fun x hx => mem_LI.2 ⟨false, x.2, by rw [hd]; exact hx⟩) hd' h.pairs
      simp only [e2, e1, Option.map_some, Option.bind_some, path_leaf hnd, k1]
      refine ⟨_, _, rfl, rfl, ?_, rfl⟩
      have hh := out k2
      simp only [e1, e2, Option.map_some] at hh
      exact hh
  | false =>
    have e1 : w.dyn = some (plug path (PT.leaf n L)).erase := by have := h.tree false; rw [ht] at this; exact this
    have e2 : w.stat = (T true).map PT.erase := h.tree true
    simp only [NWorld.leafAddPairs, World.leafAddPairs, Bool.false_eq_true, if_false, h.root true, e1, Option.bind_some, path_leaf hnd, e2]
    simp only [Bool.not_false] at hlen ndd
    have ok : MarkOk nw.mem (LI T) (T true) (plug path (.leaf n L)) := by
      refine ⟨h.mem.rooted true, hr, ndd, ?_, h.mem.inj, ?_, ?_⟩
      · intro x hx
        rcases List.mem_append.1 hx with hx | hx
        · exact mem_LI.2 ⟨false, x.2, by rw [ht]; exact hx⟩
        · exact mem_LI.2 ⟨true, x.2, hx⟩
      · rw [← hlen]; omega
      · rw [← hlen]; simp only [idsO]; omega
    obtain ⟨pm, k1, k2⟩ := MR.markLeaf ok nw.stamp (fun _ _ c => c) h.pairs
    rw [k1]
    rw [h.stamp] at k2
    refine ⟨_, _, rfl, rfl, ?_, rfl⟩
    have hh := out k2
    simp only [e1, e2] at hh
    exact hh

end CP
