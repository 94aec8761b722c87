import Verif.Proofs.NodeSim

/-! # The operations on indexes in memory -/

namespace CP
open GoFloat
variable {F : Type} [GoFloat F]

theorem PHeap.Reps.setHead {ph : PHeap} {qs : List Pair} (h : PHeap.Reps ph qs) {n : NId} (hn : ∀ q ∈ qs, q.a ≠ n ∧ q.b ≠ n) : ph.setHead n none = ph := by
  obtain ⟨ps, fs, r, e⟩ := h
  have : ph.head n = none := by
    rw [r.head n]
    have : ph.on n ps = [] := by
      rw [PHeap.on, List.filter_eq_nil_iff]
      intro p hp hc
      have : ph.val p ∈ qs.map PHeap.vals := by rw [← e]; exact List.mem_map.2 ⟨p, hp, rfl⟩
      obtain ⟨q, hq, e2⟩ := List.mem_map.1 this
      simp only [PHeap.val, PHeap.vals, Prod.mk.injEq] at e2
      simp only [PHeap.has, ← e2.1, ← e2.2.1, Option.some.injEq, Bool.or_eq_true, decide_eq_true_eq] at hc
      rcases hc with hc | hc
      · exact (hn q hq).1 hc
      · exact (hn q hq).2 hc
    rw [this]
    rfl
  simp only [PHeap.setHead]
  have : (fun x => if x = n then none else ph.head x) = ph.head := by
    funext x
    split
    · next e => rw [e, this]
    · rfl
  rw [this]

section
variable {nw : NWorld F} {w : World F} {T : Bool → Option (PT F)} {fs : Bool → List NId}

theorem SimT.eql (h : SimT nw w T fs) (st : Bool) (o : Obj) : ∀ n ∈ (nw.leaves st).each, nw.mem.eql o n = leafEq o (nw.mem.name n) := by
  intro n hn
  obtain ⟨L, hL⟩ := h.sub st n hn
  have := ((h.mem.rooted st).leaf _ hL).1
  simp only [NMem.eql, leafEq, NMem.name, this, Option.getD_some, Option.some.injEq, decide_eq_decide]
  exact eq_comm

theorem SimT.find (h : SimT nw w T fs) (st : Bool) (hash : Nat) (o : Obj) :
    HashSet.find leafEq (w.set st) hash o = (HashSet.find nw.mem.eql (nw.leaves st) hash o).map (Option.map nw.mem.name) := by
  rw [h.set st]
  exact HashSet.find_rename (h.eql st o)

/-- What a search finds. -/
theorem SimT.found (h : SimT nw w T fs) {st : Bool} {hash : Nat} {o : Obj} {n : NId}
    (hf : HashSet.find nw.mem.eql (nw.leaves st) hash o = some (some n)) : ∃ L, (n, L) ∈ lvsO (T st) ∧ L.obj = o := by
  obtain ⟨h1, h2⟩ := HashSet.mem_find hf
  obtain ⟨L, hL⟩ := h.sub st n h1
  refine ⟨L, hL, ?_⟩
  rw [h.eql st o n h1, h.mem.name hL] at h2
  simp only [leafEq, decide_eq_true_eq] at h2
  exact h2.symm

theorem SimT.bump (h : SimT nw w T fs) : SimT { nw with stamp := nw.stamp + 1 } { w with stamp := w.stamp + 1 } T fs :=
  ⟨h.mem, h.box, h.vel, by simp only [h.stamp], h.root, fun st => by cases st <;> exact h.tree _, fun st => by cases st <;> exact h.set _, h.sub, h.pairs⟩

/-- Either both panic or neither. The number of nodes of an index grows only if it has to. -/
def Agree (T : Bool → Option (PT F)) (fs : Bool → List NId) (a : Option (NWorld F)) (b : Option (World F)) : Prop :=
  match a, b with
  | none, none => True
  | some nw, some w => ∃ T' fs', SimT nw w T' fs' ∧ ∀ st, tot T' fs' st ≤ max (tot T fs st) (2 * (lvsO (T' st)).length + 1023)
  | _, _ => False

theorem tot_same {T T' : Bool → Option (PT F)} {fs fs' : Bool → List NId} (h : ∀ st, tot T' fs' st = tot T fs st) :
    ∀ st, tot T' fs' st ≤ max (tot T fs st) (2 * (lvsO (T' st)).length + 1023) := fun st => by rw [h st]; exact le_max_left _ _

theorem SimT.reindexObject (h : SimT nw w T fs) (hs : Obj → Nat) (st : Bool) (o : Obj) :
    Agree T fs (nw.reindexObject hs st o) (w.reindexObject hs st o) := by
  simp only [NWorld.reindexObject, World.reindexObject, h.find st]
  cases hf : HashSet.find nw.mem.eql (nw.leaves st) (hs o) o with
  | none => trivial
  | some r =>
    cases r with
    | none => exact ⟨T, fs, h, tot_same fun _ => rfl⟩
    | some n =>
      obtain ⟨L, hL, rfl⟩ := h.found hf
      simp only [Option.map_some]
      obtain ⟨nw1, w1, b, T1, fs1, e1, e2, h1, h2, h3, h5⟩ := h.leafUpdate hL
      simp only [e1, e2]
      obtain ⟨L', hL', e⟩ := h3 st n L hL
      cases b with
      | false =>
        simp only [Bool.false_eq_true, if_false, Option.map_some]
        exact ⟨T1, fs1, h1.bump, tot_same h5⟩
      | true =>
        obtain ⟨nw2, w2, e3, e4, h4, _⟩ := h1.leafAddPairs hL'
        rw [e] at e4
        simp only [if_true, e3, e4, Option.map_some]
        exact ⟨T1, fs1, h4.bump, tot_same h5⟩

theorem SimT.loop (ns : List NId) : ∀ {nw : NWorld F} {w : World F} {T : Bool → Option (PT F)} {fs : Bool → List NId}, SimT nw w T fs →
    (∀ n ∈ ns, ∃ L, (n, L) ∈ lvsO (T false)) → ∃ nw' w' T' fs',
      ns.foldlM (fun (w : NWorld F) n => (w.leafUpdate false n).map Prod.fst) nw = some nw' ∧
      (ns.map nw.mem.name).foldlM (fun (w : World F) o => (w.leafUpdate false o).map Prod.fst) w = some w' ∧ SimT nw' w' T' fs' ∧
      (∀ st' k M, (k, M) ∈ lvsO (T st') → ∃ M', (k, M') ∈ lvsO (T' st') ∧ M'.obj = M.obj) ∧ ∀ st', tot T' fs' st' = tot T fs st' := by
  induction ns with
  | nil => exact fun {nw w T fs} h _ => ⟨nw, w, T, fs, rfl, rfl, h, fun _ _ M hM => ⟨M, hM, rfl⟩, fun _ => rfl⟩
  | cons n ns ih =>
    intro nw w T fs h hn
    obtain ⟨L, hL⟩ := hn n (by simp)
    obtain ⟨nw1, w1, b, T1, fs1, e1, e2, h1, h2, h3, h6⟩ := h.leafUpdate hL
    have hn1 : ∀ k ∈ ns, ∃ L, (k, L) ∈ lvsO (T1 false) := fun k hk => by
      obtain ⟨M, hM⟩ := hn k (by simp [hk])
      obtain ⟨M', hM', _⟩ := h3 _ _ _ hM
      exact ⟨M', hM'⟩
    obtain ⟨nw2, w2, T2, fs2, e3, e4, h4, h5, h7⟩ := ih h1 hn1
    refine ⟨nw2, w2, T2, fs2, ?_, ?_, h4, ?_, fun st' => (h7 st').trans (h6 st')⟩
    · simp only [List.foldlM_cons, e1, Option.map_some, Option.bind_eq_bind, Option.bind_some, e3]
    · have hmap : ns.map nw.mem.name = ns.map nw1.mem.name := by
        refine List.map_congr_left fun k hk => ?_
        obtain ⟨M, hM⟩ := hn k (by simp [hk])
        obtain ⟨M', hM', e⟩ := h3 _ _ _ hM
        rw [h.mem.name hM, h1.mem.name hM', e]
      simp only [List.map_cons, List.foldlM_cons, h.mem.name hL, e2, Option.map_some, Option.bind_eq_bind, Option.bind_some, hmap, e4]
    · intro st' k M hM
      obtain ⟨M', hM', e⟩ := h3 _ _ _ hM
      obtain ⟨M2, hM2, e'⟩ := h5 _ _ _ hM'
      exact ⟨M2, hM2, e'.trans e⟩

theorem PT.lvs_ne (t : PT F) : ∃ x, x ∈ t.lvs := by
  induction t with
  | leaf n l => exact ⟨(n, l), by simp [lvs]⟩
  | node n bb a b iha ihb =>
    obtain ⟨x, hx⟩ := iha
    exact ⟨x, by simp [lvs, hx]⟩

theorem SimT.reindexQuery (h : SimT nw w T fs) (f : PairFn) :
    ∃ nw' w' log T' fs', nw.reindexQuery f = some (nw', log) ∧ w.reindexQuery f = some (w', log) ∧ SimT nw' w' T' fs' ∧
      ∀ st', tot T' fs' st' = tot T fs st' := by
  have hd : w.dyn = (T false).map PT.erase := h.tree false
  simp only [NWorld.reindexQuery, World.reindexQuery, h.root false, hd]
  cases ht : T false with
  | none => exact ⟨nw, w, [], T, fs, rfl, rfl, h, fun _ => rfl⟩
  | some t =>
    have hset : w.dynSet.each = (nw.leaves false).each.map nw.mem.name := by
      have := h.set false
      rw [← HashSet.each_rename, ← this]
      rfl
    obtain ⟨nw1, w1, T1, fs1, e1, e2, h1, h2, h3⟩ := SimT.loop (nw.leaves false).each h (h.sub false)
    obtain ⟨⟨k, M⟩, hx⟩ := t.lvs_ne
    obtain ⟨M', hM', _⟩ := h2 false k M (by rw [ht]; exact hx)
    cases ht1 : T1 false with
    | none => rw [ht1] at hM'; cases hM'
    | some t1 =>
      have hd1 : w1.dyn = some t1.erase := by have := h1.tree false; rw [ht1] at this; exact this
      have hs1 : w1.stat = (T1 true).map PT.erase := h1.tree true
      have hacc := h1.mem.acc false
      rw [ht1] at hacc
      simp only [Bool.not_false] at hacc
      have hlen := hacc.length
      simp only [List.length_append] at hlen
      have ok : MarkOk nw1.mem (LI T1) (T1 true) (plug [] t1) := by
        refine ⟨h1.mem.rooted true, ?_, ?_, ?_, h1.mem.inj, ?_, ?_⟩
        · have := h1.mem.rooted false; rw [ht1] at this; exact this
        · refine hacc.nodup.sublist ?_
          exact List.Sublist.append_left ((List.sublist_append_left _ _).trans (List.sublist_append_right _ _)) _
        · intro x hx
          rcases List.mem_append.1 hx with hx | hx
          · exact mem_LI.2 ⟨false, x.2, by rw [ht1]; exact hx⟩
          · exact mem_LI.2 ⟨true, x.2, hx⟩
        · rw [← hlen]; simp only [plug, idsO]; omega
        · rw [← hlen]; omega
      obtain ⟨pm, k1, k2⟩ := MR.markSubtree nw1.stamp f t1 (path := []) (fuel := nw1.mem.next) ok ok.lenT h1.pairs
      simp only [Option.map_some, hset, e1, e2, hd1, h1.root, ht1, k1]
      rw [h1.stamp] at k2
      obtain ⟨qs, q1, q2, q3, q4⟩ := k2
      refine ⟨_, { w1 with dyn := some t1.erase, pairs := (CP.markSubtree w1.stamp w1.stat f t1.erase [] ⟨w1.pairs, []⟩).pairs, stamp := w1.stamp + 1 },
        pm.log, T1, fs1, rfl, ?_, ?_, h3⟩
      · rw [← q3, hs1]
        rfl
      · rw [← hs1] at q2
        refine ⟨h1.mem, h1.box, h1.vel, by simp only [h1.stamp], h1.root, fun st => ?_,
          fun st => by cases st <;> exact h1.set _, h1.sub, ⟨qs, q1, q2, rfl, q4⟩⟩
        cases st
        · rw [ht1]; rfl
        · exact h1.tree true

theorem SimT.absent (h : SimT nw w T fs) {s : Spec F} {hs : Obj → Nat} (r : Ref hs w s) {o : Obj} (hok : s.idx true o = none ∧ s.idx false o = none) :
    ∀ st, ∀ x ∈ lvsO (T st), x.2.obj ≠ o := by
  intro st x hx e
  have h0 : s.idx st o = none := by cases st; exact hok.2; exact hok.1
  rw [r.idx] at h0
  have h1 := bbOf_none.mp h0
  rw [h.leavesOf st, List.map_map] at h1
  exact h1 (List.mem_map.2 ⟨x, hx, e⟩)

theorem SimT.insert (h : SimT nw w T fs) {s : Spec F} {hs : Obj → Nat} (r : Ref hs w s) (st : Bool) (o : Obj) (hok : s.ok (.insert st o)) :
    Agree T fs (nw.insert hs st o) (w.insert hs st o) := by
  have habs := h.absent r hok
  have hfind : HashSet.find nw.mem.eql (nw.leaves st) (hs o) o = some none := by
    have h1 := h.find st (hs o) o
    rw [(setOK_of_ref r st).find o, if_neg] at h1
    · cases hf : HashSet.find nw.mem.eql (nw.leaves st) (hs o) o with
      | none => rw [hf] at h1; cases h1
      | some x =>
        cases x with
        | none => rfl
        | some n => rw [hf] at h1; cases h1
    · rw [h.leavesOf st, List.map_map]
      intro hc
      obtain ⟨x, hx, e⟩ := List.mem_map.1 hc
      exact habs st x hx e
  obtain ⟨m1, n, f1, e1, q1, q2, q3, q4, q5, q6, q7⟩ := NMem.newLeaf_spec (st := st) (R := idsO (T st) ++ (idsO (T (!st)) ++ fs (!st))) o (nw.getBB st o)
    (h.mem.pooled st) ((h.mem.acc st).congr rfl (by
      rw [List.perm_iff_count]; intro x; simp only [List.count_append]; omega))
  have hnew : ∀ st', n ∉ idsO (T st') := by
    intro st' hc
    have := q2.nodup
    rw [List.cons_append, List.nodup_cons] at this
    refine this.1 ?_
    rcases bool_side st st' with rfl | rfl
    · simp [hc]
    · simp [hc]
  have hnm1 : ∀ st', ∀ x ∈ lvsO (T st'), m1.nd x.1 = nw.mem.nd x.1 := by
    intro st' x hx
    have hi := lvsO_ids _ x hx
    refine q3 _ ?_
    rcases bool_side st st' with rfl | rfl
    · simp [hi]
    · simp [hi]
  have hset1 : w.set st = (nw.leaves st).rename m1.name := by
    rw [h.set st]
    refine HashSet.rename_congr fun x hx => ?_
    obtain ⟨L, hL⟩ := h.sub st x hx
    simp only [NMem.name, hnm1 st _ hL]
  have heql1 : ∀ k ∈ (nw.leaves st).each, m1.eql o k = leafEq o (m1.name k) := by
    intro k hk
    obtain ⟨L, hL⟩ := h.sub st k hk
    have := h.eql st o k hk
    simp only [NMem.eql, NMem.name, hnm1 st _ hL] at this ⊢
    exact this
  have hins := HashSet.insert_rename (u := n) (hash := hs o) heql1
  rw [← hset1, q5.name] at hins
  have hph : nw.ph.setHead n none = nw.ph := by
    obtain ⟨qs, k1, _, _, k4⟩ := h.pairs
    refine PHeap.Reps.setHead k1 fun q hq => ?_
    have : ∀ x ∈ LI T, x ≠ n := by
      intro x hx e
      obtain ⟨st', M, hM⟩ := mem_LI.1 hx
      exact hnew st' (e ▸ lvsO_ids _ _ hM)
    exact ⟨this _ (k4 q hq).1, this _ (k4 q hq).2⟩
  simp only [NWorld.insert, World.insert, hfind, e1, hins, hph]
  cases hi : HashSet.insert m1.eql (nw.leaves st) (hs o) o n with
  | none => trivial
  | some rr =>
    obtain ⟨set', v⟩ := rr
    have hv : v = n := by
      rcases HashSet.insert_ret hi with e | ⟨e, e'⟩
      · exact e
      · exfalso
        rw [heql1 v e] at e'
        obtain ⟨L, hL⟩ := h.sub st v e
        simp only [leafEq, decide_eq_true_eq, NMem.name, hnm1 st _ hL] at e'
        have := h.mem.name hL
        simp only [NMem.name] at this
        rw [this] at e'
        exact habs st _ hL e'.symm
    subst hv
    obtain ⟨m2, t', f2, k1, k2, k3, k4, k5, k6, k7, k8, k9, k10⟩ := NMem.addLeaf_spec st v ⟨o, nw.getBB st o, 0⟩ nw.stamp (T st) (m := m1) (fs := f1)
      (R := idsO (T (!st)) ++ fs (!st)) ((h.mem.rooted st).congr fun x hx => q3 x (by simp [hx])) q5 (fun _ => q6) q1
      (q2.congr rfl (by rw [List.perm_iff_count]; intro x; simp only [List.count_append, List.count_cons, List.cons_append]; omega)) (habs st)
    simp only [Option.map_some, h.root st, k1]
    have hmem : MemOk (m2.set v { m2.nd v with stamp := nw.stamp }) (setAt T st (some t')) (setAt fs st f2) := by
      refine h.mem.side st k3 k4 k5 (fun x hx => ?_) ?_ ?_
      · rw [k6 x hx]
        exact q3 x (by simp only [List.mem_append] at hx ⊢; exact .inr hx)
      · show m2.pool (!st) = _
        rw [k7, q4]
      · rw [List.map_append]
        simp only [lvsO]
        rw [((k8.map fun x => x.2.obj).append_right _).nodup_iff]
        simp only [List.map_cons, List.cons_append, List.nodup_cons]
        rw [← List.map_append]
        refine ⟨fun hc => ?_, h.mem.nodup st⟩
        obtain ⟨x, hx, e⟩ := List.mem_map.1 hc
        rcases List.mem_append.1 hx with hx | hx
        · exact habs _ x hx e
        · exact habs _ x hx e
    have hlv : ∀ st' k M, (k, M) ∈ lvsO (T st') → (k, M) ∈ lvsO (setAt T st (some t') st') := by
      intro st' k M hk
      rcases bool_side st st' with rfl | rfl
      · rw [setAt_same]
        exact k8.mem_iff.2 (List.mem_cons_of_mem _ hk)
      · rw [setAt_not]
        exact hk
    have hnin : (v, (⟨o, nw.getBB st o, nw.stamp⟩ : Leaf F)) ∈ lvsO (setAt T st (some t') st) := by
      rw [setAt_same]
      exact k8.mem_iff.2 (List.mem_cons_self ..)
    have hnm : ∀ x ∈ LI T, (m2.set v { m2.nd v with stamp := nw.stamp }).name x = nw.mem.name x := by
      intro x hx
      obtain ⟨s, M, hM⟩ := mem_LI.1 hx
      rw [hmem.name (hlv s x M hM), h.mem.name hM]
    have hm1n : ∀ x ∈ set'.each, m1.name x = (m2.set v { m2.nd v with stamp := nw.stamp }).name x ∧ ∃ L, (x, L) ∈ lvsO (setAt T st (some t') st) := by
      intro x hx
      rcases HashSet.mem_insert hi x hx with rfl | hx
      · exact ⟨by rw [q5.name, hmem.name hnin], _, hnin⟩
      · obtain ⟨L, hL⟩ := h.sub st x hx
        refine ⟨?_, L, hlv _ _ _ hL⟩
        rw [hnm x (mem_LI.2 ⟨st, L, hL⟩)]
        simp only [NMem.name, hnm1 st _ hL]
    have hsim : SimT { nw with mem := m2.set v { m2.nd v with stamp := nw.stamp }, root := setAt nw.root st (some t'.id), leaves := setAt nw.leaves st set' }
        ((w.setSet st (set'.rename m1.name)).setTree st (some (insRoot (w.tree st) ⟨o, w.getBB st o, w.stamp⟩))) (setAt T st (some t')) (setAt fs st f2) := by
      refine ⟨hmem, ?_, ?_, ?_, ?_, ?_, ?_, ?_, ?_⟩
      · rw [(World.setTree_fields ..).1, (World.setSet_fields ..).1]; exact h.box
      · rw [(World.setTree_fields ..).2.1, (World.setSet_fields ..).2.1]; exact h.vel
      · rw [(World.setTree_fields ..).2.2.1, (World.setSet_fields ..).2.2.1]; exact h.stamp
      · intro st'
        rcases bool_side st st' with rfl | rfl
        · simp only [setAt_same, Option.map_some]
        · simp only [setAt_not]; exact h.root _
      · intro st'
        rw [World.tree_setTree]
        rcases bool_side st st' with rfl | rfl
        · simp only [setAt_same, Option.map_some, k2, h.tree st', h.stamp, getBB_eq h.box h.vel]
        · simp only [setAt_not, World.tree_setSet]; exact h.tree _
      · intro st'
        rw [World.set_setTree, World.set_setSet]
        rcases bool_side st st' with rfl | rfl
        · simp only [setAt_same]
          exact HashSet.rename_congr fun x hx => (hm1n x hx).1
        · simp only [setAt_not]
          rw [h.set]
          refine HashSet.rename_congr fun x hx => ?_
          obtain ⟨M, hM⟩ := h.sub _ x hx
          exact (hnm x (mem_LI.2 ⟨_, M, hM⟩)).symm
      · intro st' x hx
        rcases bool_side st st' with rfl | rfl
        · simp only [setAt_same] at hx
          exact (hm1n x hx).2
        · simp only [setAt_not] at hx ⊢
          exact h.sub _ x hx
      · rw [(World.setTree_fields ..).2.2.2, (World.setSet_fields ..).2.2.2]
        refine h.pairs.congr hnm fun x hx => ?_
        obtain ⟨s, M, hM⟩ := mem_LI.1 hx
        exact mem_LI.2 ⟨s, M, hlv _ _ _ hM⟩
    obtain ⟨nw2, w2, e3, e4, h4, _⟩ := hsim.leafAddPairs hnin
    simp only at e4
    have hst : (w.setSet st (set'.rename m1.name)).stamp = w.stamp := (World.setSet_fields ..).2.2.1
    simp only [World.tree_setSet, e3, e4, Option.map_some]
    refine ⟨_, _, h4.bump, fun st' => ?_⟩
    rcases bool_side st st' with rfl | rfl
    · simp only [tot, setAt_same, idsO_len, lvsO, k8.length_eq, List.length_cons]
      cases ht : T st' with
      | none =>
        rw [k9 ht]
        simp only [List.length_nil]
        rcases q7 with e | ⟨_, e⟩
        · refine le_trans ?_ (le_max_left _ _); omega
        · refine le_trans ?_ (le_max_right _ _); omega
      | some t =>
        have hpos : 0 < t.lvs.length := by obtain ⟨x, hx⟩ := t.lvs_ne; exact List.length_pos_of_mem hx
        simp only
        rcases q7 with e | ⟨e', e⟩
        · rcases k10 (by rw [ht]; simp) with e2 | ⟨e3, e2⟩
          · refine le_trans ?_ (le_max_left _ _); omega
          · refine le_trans ?_ (le_max_right _ _); omega
        · rcases k10 (by rw [ht]; simp) with e2 | ⟨e3, e2⟩
          · refine le_trans ?_ (le_max_right _ _); omega
          · rw [e3] at e; simp at e
    · simp only [tot, setAt_not]
      exact le_max_left _ _

theorem SimT.remove (h : SimT nw w T fs) {s : Spec F} {hs : Obj → Nat} (r : Ref hs w s) (st : Bool) (o : Obj) (hok : s.ok (.remove st o)) :
    Agree T fs (nw.remove hs st o) (w.remove hs st o) := by
  obtain ⟨w', ew, r'⟩ := remove_ref hs w s r st o hok
  have hren := HashSet.remove_rename (hash := hs o) (h.eql st o)
  rw [← h.set st] at hren
  rw [ew]
  simp only [World.remove, hren] at ew
  cases hi : HashSet.remove nw.mem.eql (nw.leaves st) (hs o) o with
  | none => rw [hi] at ew; cases ew
  | some rr =>
    obtain ⟨set', v⟩ := rr
    rw [hi] at ew
    cases v with
    | none => cases ew
    | some n =>
      simp only [Option.map_some] at ew
      obtain ⟨hsub, hv⟩ := HashSet.mem_remove hi
      obtain ⟨hv1, hv2⟩ := hv n rfl
      obtain ⟨L, hL⟩ := h.sub st n hv1
      have hLo : L.obj = o := by
        rw [h.eql st o n hv1, h.mem.name hL] at hv2
        simp only [leafEq, decide_eq_true_eq] at hv2
        exact hv2.symm
      obtain ⟨path, ht, hnd⟩ := h.split hL
      have hat := (h.mem.rooted st).leaf _ hL
      have hr : Rooted nw.mem.nd none (plug path (.leaf n L)) := by have := h.mem.rooted st; rw [ht] at this; exact this
      have hacc := h.mem.acc st
      rw [ht] at hacc
      obtain ⟨m1, T1, f1, k1, k2, k3, k4, k5, k6, k7, k8, k9, k10, k11, k12⟩ := NMem.removeO_spec hr (h.mem.pooled st) hacc hnd
      obtain ⟨ph', c1, c2⟩ := MR.clear hat (mem_LI.2 ⟨st, L, hL⟩) h.mem.inj h.pairs
      have e0 : nw.root st = some (plug path (PT.leaf n L)).id := by rw [h.root st, ht]; rfl
      have e1 : w.tree st = some (plug path (PT.leaf n L)).erase := by rw [h.tree st, ht]; rfl
      simp only [NWorld.remove, hi, e0, k1, c1]
      rw [e1] at ew
      simp only [Option.some.injEq] at ew
      have hnf : n ∉ f1 := fun hc => by
        have := k5.nodup
        rw [List.nodup_append] at this
        have := this.2.1
        rw [List.cons_append, List.nodup_cons] at this
        exact this.1 (by simp [hc])
      have hnR : ∀ x ∈ idsO (T (!st)) ++ fs (!st), x ≠ n := fun x hx e => by
        have := k5.nodup
        rw [List.nodup_append] at this
        have := this.2.1
        rw [List.cons_append, List.nodup_cons] at this
        exact this.1 (by rw [← e]; exact List.mem_append_right _ hx)
      have hnT : n ∉ idsO T1 := fun hc => by
        have := k5.nodup
        rw [List.nodup_append] at this
        exact this.2.2 n hc n (by simp) rfl
      obtain ⟨p1, p2, p3, p4⟩ := NMem.recycle_spec (st := st) (n := n) k4 hnf
      have hmem : MemOk (m1.recycle st n) (setAt T st T1) (setAt fs st (n :: f1)) := by
        refine h.mem.side st (k3.congr fun x hx => p3 x fun e => hnT (e ▸ hx)) p1 (k5.congr p2 (List.Perm.refl _)) (fun x hx => ?_) ?_ ?_
        · rw [p3 x (hnR x hx)]; exact k6 x hx
        · rw [p4, k7]
        · have := h.mem.nodup st
          rw [ht] at this
          simp only [lvsO] at this
          rw [((k10.append_right _).map fun x => x.2.obj).nodup_iff] at this
          simp only [List.cons_append, List.map_cons, List.nodup_cons] at this
          exact this.2
      have hlv : ∀ st' k M, (k, M) ∈ lvsO (T st') → k ≠ n → (k, M) ∈ lvsO (setAt T st T1 st') := by
        intro st' k M hk hne
        rcases bool_side st st' with rfl | rfl
        · rw [setAt_same]
          rw [ht] at hk
          rcases List.mem_cons.1 (k10.mem_iff.1 hk) with e | hk
          · exact absurd (congrArg Prod.fst e) hne
          · exact hk
        · rw [setAt_not]
          exact hk
      have hnm : ∀ x ∈ LI T, x ≠ n → (m1.recycle st n).name x = nw.mem.name x := by
        intro x hx hne
        obtain ⟨s, M, hM⟩ := mem_LI.1 hx
        rw [hmem.name (hlv s x M hM hne), h.mem.name hM]
      have hother : ∀ M, (n, M) ∉ lvsO (T (!st)) := by
        intro M hM
        exact hnR n (by simp [lvsO_ids _ _ hM]) rfl
      have hw'set : ∀ st', w'.set st' = setAt w.set st (set'.rename nw.mem.name) st' := by
        intro st'
        rw [← ew]
        show ((w.setSet st _).setTree st _).set st' = _
        rw [World.set_setTree, World.set_setSet]
      have hnset : n ∉ set'.each := by
        intro hc
        have hp := (setOK_of_ref r' st).perm
        rw [hw'set st, setAt_same, HashSet.each_rename] at hp
        have h1 : o ∈ set'.each.map nw.mem.name := List.mem_map.2 ⟨n, hc, by rw [h.mem.name hL, hLo]⟩
        have h2 := hp.mem_iff.1 h1
        have h3 : (s.step (.remove st o)).idx st o = none := by simp [Spec.step]
        rw [r'.idx] at h3
        exact bbOf_none.mp h3 h2
      refine ⟨setAt T st T1, setAt fs st (n :: f1), ?_, fun st' => ?_⟩
      swap
      · rcases bool_side st st' with rfl | rfl
        · refine le_trans ?_ (le_max_left _ _)
          have hl := k10.length_eq
          simp only [List.length_cons] at hl
          simp only [tot, setAt_same, idsO_len, ht, List.length_cons]
          cases hT : T1 with
          | none =>
            rw [hT] at hl
            rw [k11 hT]
            simp only [lvsO, List.length_nil] at hl ⊢
            omega
          | some t =>
            have hpos : 0 < t.lvs.length := by obtain ⟨x, hx⟩ := t.lvs_ne; exact List.length_pos_of_mem hx
            rw [hT] at hl
            rw [k12 (by rw [hT]; simp)]
            simp only [lvsO] at hl ⊢
            omega
        · simp only [tot, setAt_not]
          exact le_max_left _ _
      subst ew
      refine ⟨hmem, ?_, ?_, ?_, ?_, ?_, ?_, ?_, ?_⟩
      · show nw.box = ((w.setSet st _).setTree st _).box
        rw [(World.setTree_fields ..).1, (World.setSet_fields ..).1]; exact h.box
      · show nw.vel = ((w.setSet st _).setTree st _).vel
        rw [(World.setTree_fields ..).2.1, (World.setSet_fields ..).2.1]; exact h.vel
      · show nw.stamp = ((w.setSet st _).setTree st _).stamp
        rw [(World.setTree_fields ..).2.2.1, (World.setSet_fields ..).2.2.1]; exact h.stamp
      · intro st'
        rcases bool_side st st' with rfl | rfl
        · simp only [setAt_same]
        · simp only [setAt_not]; exact h.root _
      · intro st'
        show ((w.setSet st _).setTree st _).tree st' = _
        rw [World.tree_setTree]
        rcases bool_side st st' with rfl | rfl
        · simp only [setAt_same, k2, hLo]
        · simp only [setAt_not, World.tree_setSet]; exact h.tree _
      · intro st'
        rw [hw'set]
        rcases bool_side st st' with rfl | rfl
        · simp only [setAt_same]
          refine HashSet.rename_congr fun x hx => ?_
          obtain ⟨M, hM⟩ := h.sub st' x (hsub x hx)
          exact (hnm x (mem_LI.2 ⟨_, M, hM⟩) fun e => hnset (e ▸ hx)).symm
        · simp only [setAt_not]
          rw [h.set]
          refine HashSet.rename_congr fun x hx => ?_
          obtain ⟨M, hM⟩ := h.sub _ x hx
          exact (hnm x (mem_LI.2 ⟨_, M, hM⟩) fun e => hother M (e ▸ hM)).symm
      · intro st' x hx
        rcases bool_side st st' with rfl | rfl
        · simp only [setAt_same] at hx
          obtain ⟨M, hM⟩ := h.sub st' x (hsub x hx)
          exact ⟨M, hlv _ _ _ hM fun e => hnset (e ▸ hx)⟩
        · simp only [setAt_not] at hx
          obtain ⟨M, hM⟩ := h.sub _ x hx
          exact ⟨M, hlv _ _ _ hM fun e => hother M (e ▸ hM)⟩
      · have e2 : ((w.setSet st (set'.rename nw.mem.name)).setTree st ((plug path (PT.leaf n L)).erase.rem o)).pairs = w.pairs := by
          rw [(World.setTree_fields ..).2.2.2, (World.setSet_fields ..).2.2.2]
        rw [hLo] at c2
        simp only [e2]
        have hsplit : ∀ x ∈ (LI T).filter (fun x => decide (x ≠ n)), x ∈ LI T ∧ x ≠ n := fun x hx => by
          simpa only [List.mem_filter, decide_eq_true_eq] using hx
        refine c2.congr (fun x hx => hnm x (hsplit x hx).1 (hsplit x hx).2) fun x hx => ?_
        obtain ⟨s, M, hM⟩ := mem_LI.1 (hsplit x hx).1
        exact mem_LI.2 ⟨s, M, hlv _ _ _ hM (hsplit x hx).2⟩

/-! ### Reading -/

theorem query_pt {m : NMem F} (q : BB F) (t : PT F) : ∀ {p : Option NId} {fuel : Nat}, Rooted m.nd p t → t.ids.length ≤ fuel →
    m.query q fuel (some t.id) = some (t.erase.query q) := by
  induction t with
  | leaf n l =>
    intro p fuel h hf
    obtain ⟨fuel, rfl⟩ : ∃ g, fuel = g + 1 := ⟨fuel - 1, by simp [PT.ids] at hf; omega⟩
    simp only [NMem.query, PT.id_leaf, h.1.2.1, h.1.1, PT.erase, Tree.query]
    split <;> rfl
  | node n bb a b iha ihb =>
    intro p fuel h hf
    obtain ⟨fuel, rfl⟩ : ∃ g, fuel = g + 1 := ⟨fuel - 1, by simp [PT.ids] at hf; omega⟩
    obtain ⟨h1, h2, h3, h4, h5, h6, h7⟩ := h
    simp only [PT.ids, List.length_cons, List.length_append] at hf
    simp only [NMem.query, PT.id_node, h1, h2, h4, h5, PT.erase, Tree.query, iha h6 (by omega : a.ids.length ≤ fuel), ihb h7 (by omega : b.ids.length ≤ fuel)]
    split <;> rfl

theorem segQuery_pt {S : Type} {m : NMem F} (p q : Vec F) (f : Obj → S → S × F) (t : PT F) : ∀ {par : Option NId} {fuel : Nat} {tx : F} {s : S},
    Rooted m.nd par t → t.ids.length ≤ fuel → m.segQuery p q f fuel (some t.id) tx s = some (t.erase.segQuery p q f tx s) := by
  induction t with
  | leaf n l =>
    intro par fuel tx s h hf
    obtain ⟨fuel, rfl⟩ : ∃ g, fuel = g + 1 := ⟨fuel - 1, by simp [PT.ids] at hf; omega⟩
    simp only [NMem.segQuery, PT.id_leaf, h.1.1, PT.erase, Tree.segQuery]
  | node n bb a b iha ihb =>
    intro par fuel tx s h hf
    obtain ⟨fuel, rfl⟩ : ∃ g, fuel = g + 1 := ⟨fuel - 1, by simp [PT.ids] at hf; omega⟩
    obtain ⟨h1, h2, h3, h4, h5, h6, h7⟩ := h
    simp only [PT.ids, List.length_cons, List.length_append] at hf
    have ha : ∀ tx s, m.segQuery p q f fuel (some a.id) tx s = some (a.erase.segQuery p q f tx s) := fun tx s => iha h6 (by omega)
    have hb : ∀ tx s, m.segQuery p q f fuel (some b.id) tx s = some (b.erase.segQuery p q f tx s) := fun tx s => ihb h7 (by omega)
    simp only [NMem.segQuery, PT.id_node, h1, h4, h5, PT.erase, Tree.segQuery, ha, hb, h6.root.1, h7.root.1, PT.bb_erase, Option.map_some]
    by_cases e : a.bb.segmentQuery p q < b.bb.segmentQuery p q
    · simp only [if_pos e]
      by_cases e1 : a.bb.segmentQuery p q < tx
      · simp only [if_pos e1, Option.bind_some]
        split <;> rfl
      · simp only [if_neg e1, Option.bind_some]
        split <;> rfl
    · simp only [if_neg e]
      by_cases e1 : b.bb.segmentQuery p q < tx
      · simp only [if_pos e1, Option.bind_some]
        split <;> rfl
      · simp only [if_neg e1, Option.bind_some]
        split <;> rfl

theorem SimT.len (h : SimT nw w T fs) (st : Bool) : (idsO (T st)).length ≤ nw.mem.next := by
  rw [← (h.mem.acc st).length]
  simp only [List.length_append]
  omega

theorem SimT.query (h : SimT nw w T fs) (st : Bool) (q : BB F) : nw.query st q = some (queryRoot (w.tree st) q) := by
  have hl := h.len st
  have hr := h.mem.rooted st
  simp only [NWorld.query, h.root, h.tree]
  cases ht : T st with
  | none => rfl
  | some t =>
    rw [ht] at hl hr
    exact query_pt q t (p := none) hr hl

theorem SimT.segQuery {S : Type} (h : SimT nw w T fs) (st : Bool) (p q : Vec F) (f : Obj → S → S × F) (tExit : F) (s : S) :
    nw.segQuery st p q f tExit s = some (segQueryRoot p q f (w.tree st) tExit s) := by
  have hl := h.len st
  have hr := h.mem.rooted st
  simp only [NWorld.segQuery, h.root, h.tree]
  cases ht : T st with
  | none => rfl
  | some t =>
    rw [ht] at hl hr
    simp only [Option.map_some, segQuery_pt p q f t (par := none) hr hl, segQueryRoot]

theorem SimT.each (h : SimT nw w T fs) (st : Bool) : nw.each st = w.each st := by
  simp only [NWorld.each, World.each, h.set st, HashSet.each_rename]

theorem SimT.count (h : SimT nw w T fs) (st : Bool) : nw.count st = w.count st := by
  simp only [NWorld.count, World.count, h.set st]
  rfl

theorem SimT.contains (h : SimT nw w T fs) (hs : Obj → Nat) (st : Bool) (o : Obj) : nw.contains hs st o = w.contains hs st o := by
  simp only [NWorld.contains, World.contains, h.find st, Option.map_map]
  congr 1
  funext x
  cases x <;> rfl

theorem SimT.step (h : SimT nw w T fs) {s : Spec F} {hs : Obj → Nat} (r : Ref hs w s) (op : WOp F) (hok : s.ok op) :
    Agree T fs (nw.step hs op) (w.step hs op) := by
  cases op with
  | move box vel =>
    exact ⟨T, fs, ⟨h.mem, rfl, rfl, h.stamp, h.root, fun st => by cases st <;> exact h.tree _, fun st => by cases st <;> exact h.set _, h.sub, h.pairs⟩, tot_same fun _ => rfl⟩
  | insert st o => exact h.insert r st o hok
  | remove st o => exact h.remove r st o hok
  | reindexObject st o => exact h.reindexObject hs st o
  | reindexQuery f =>
    obtain ⟨nw', w', log, T', fs', e1, e2, h', ht⟩ := h.reindexQuery f
    simp only [NWorld.step, World.step, e1, e2, Option.map_some]
    exact ⟨T', fs', h', tot_same ht⟩

theorem sim_init (box : Obj → BB F) (vel : Obj → Vec F) : Agree (fun _ => none) (fun _ => []) (NWorld.init box vel) (World.init box vel) := by
  simp only [NWorld.init, World.init]
  cases e : (HashSet.new : Option (HashSet NId)) with
  | none => trivial
  | some s =>
    refine ⟨fun _ => none, fun _ => [], ⟨⟨fun _ => trivial, fun _ => rfl, fun _ x => ?_, fun _ => by simp [lvsO]⟩, rfl, rfl, rfl, fun _ => rfl, fun st => by cases st <;> rfl, fun st => ?_, fun st n hn => ?_, ⟨[], PHeap.reps_init, rfl, rfl, by simp⟩⟩, tot_same fun _ => rfl⟩
    · simp [idsO, NMem.init]
    · have : s.rename (NMem.name (NMem.init : NMem F)) = s := by
        simp only [HashSet.new, Option.map_eq_some_iff] at e
        obtain ⟨k, _, rfl⟩ := e
        simp [HashSet.rename]
      cases st <;> exact this.symm
    · simp only [HashSet.new, Option.map_eq_some_iff] at e
      obtain ⟨k, _, rfl⟩ := e
      simp [HashSet.each] at hn

end
end CP
