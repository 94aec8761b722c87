import Verif.Proofs.BBTree2

/-! The effect of marking a whole tree. -/

namespace CP
open GoFloat
variable {F : Type} [GoFloat F]

/-- What the index is when marking starts. -/
structure MarkPre (stamp : Nat) (stat : Option (Tree F)) (t : Tree F) : Prop where
  ws : WFo stat
  wt : t.WF
  nodup : ((leavesOf stat ++ t.leaves).map Leaf.obj).Nodup
  ss : ∀ s ∈ leavesOf stat, s.stamp < stamp
  ds : ∀ s ∈ t.leaves, s.stamp ≤ stamp

abbrev markStep (stamp : Nat) (stat : Option (Tree F)) (f : PairFn) (m : Mark) (c : Leaf F × Path F) : Mark :=
  markLeaf stamp stat f c.1 c.2 m

theorem mark_dom (stamp : Nat) (stat : Option (Tree F)) (f : PairFn) (t : Tree F) (m : Mark)
    (h : MarkPre stamp stat t)
    (hm : (∀ p ∈ m.pairs, domP (leavesOf stat) t.leaves p) ∧ (∀ e ∈ m.log, domL (leavesOf stat) t.leaves e)) :
    (∀ p ∈ (markSubtree stamp stat f t [] m).pairs, domP (leavesOf stat) t.leaves p) ∧
    (∀ e ∈ (markSubtree stamp stat f t [] m).log, domL (leavesOf stat) t.leaves e) := by
  rw [markSubtree_eq]
  refine foldl_inv _ (fun m : Mark => (∀ p ∈ m.pairs, domP (leavesOf stat) t.leaves p) ∧
    (∀ e ∈ m.log, domL (leavesOf stat) t.leaves e)) _ _ hm ?_
  intro c hc m hm
  obtain ⟨A, B, e⟩ := List.append_of_mem hc
  obtain ⟨r1, r2⟩ := ctxs_split t [] A B c.1 c.2 e
  have hD : t.leaves = A.map Prod.fst ++ c.1 :: B.map Prod.fst := by
    rw [← ctxs_fst t [], e]; simp
  exact markLeaf_dom stamp stat f c.1 c.2 m (A.map Prod.fst) (B.map Prod.fst) t.leaves h.ws
    (ctxs_wf t [] h.wt (by intro s hs; cases hs) c hc) hD h.nodup (by simpa [pathR] using r1)
    (by simpa [pathL] using r2) hm

theorem mark_two (stamp : Nat) (stat : Option (Tree F)) (f : PairFn) (t : Tree F) (ps : List Pair)
    (h : MarkPre stamp stat t) (x y : Leaf F) (qx qy : Path F) (A B C : List (Leaf F × Path F))
    (e : ctxs t [] = A ++ (x, qx) :: (B ++ (y, qy) :: C))
    (h0 : cntP ps x.obj y.obj + cntP ps y.obj x.obj =
      if (!decide (x.stamp = stamp) && !decide (y.stamp = stamp) && x.bb.intersects y.bb) = true then 1 else 0) :
    let m := markSubtree stamp stat f t [] ⟨ps, []⟩
    cntP m.pairs x.obj y.obj + cntP m.pairs y.obj x.obj = (if x.bb.intersects y.bb = true then 1 else 0) ∧
    cntL m.log x.obj y.obj + cntL m.log y.obj x.obj = (if x.bb.intersects y.bb = true then 1 else 0) := by
  obtain ⟨rx1, rx2⟩ := ctxs_split t [] A _ x qx e
  obtain ⟨ry1, ry2⟩ := ctxs_split t [] (A ++ (x, qx) :: B) C y qy (by rw [e]; simp)
  have wc := ctxs_wf t [] h.wt (by intro s hs; cases hs)
  rw [e] at wc
  have wx : WFp qx := wc (x, qx) (by simp)
  have wy : WFp qy := wc (y, qy) (by simp)
  have hD : t.leaves = A.map Prod.fst ++ x :: (B.map Prod.fst ++ y :: C.map Prod.fst) := by
    rw [← ctxs_fst t [], e]; simp
  have hn := h.nodup
  have hs := h.ws
  rw [hD] at hn
  simp only [List.map_append, List.map_cons, List.nodup_append, List.nodup_cons, List.map_map, List.mem_append,
    List.mem_cons, not_or] at hn
  obtain ⟨nS, ⟨nA, ⟨⟨xB, xy, xC⟩, nB, ⟨yC, nC⟩, dB⟩, dA⟩, dS⟩ := hn
  have hxy : x.obj ≠ y.obj := xy
  have xS : x.obj ∉ (leavesOf stat).map Leaf.obj := fun hc => dS _ hc x.obj (by simp) rfl
  have yS : y.obj ∉ (leavesOf stat).map Leaf.obj := fun hc => dS _ hc y.obj (by simp) rfl
  have xA : x.obj ∉ A.map (Leaf.obj ∘ Prod.fst) := fun hc => dA _ hc x.obj (by simp) rfl
  have yA : y.obj ∉ A.map (Leaf.obj ∘ Prod.fst) := fun hc => dA _ hc y.obj (by simp) rfl
  have yB : y.obj ∉ B.map (Leaf.obj ∘ Prod.fst) := fun hc => dB _ hc y.obj (by simp) rfl
  have tr : ∀ (Z : List (Leaf F × Path F)) (o : Obj), o ∉ Z.map (Leaf.obj ∘ Prod.fst) → ∀ c ∈ Z, c.1.obj ≠ o :=
    fun Z o ho c hc he => ho (List.mem_map.mpr ⟨c, hc, he⟩)
  -- the stages
  simp only []
  rw [markSubtree_eq, e, List.foldl_append, List.foldl_cons, List.foldl_append, List.foldl_cons]
  generalize hm1 : A.foldl (fun m c => markLeaf stamp stat f c.1 c.2 m) ⟨ps, []⟩ = m1
  obtain ⟨a1, a2⟩ := skip_ctxs stamp stat f A ⟨ps, []⟩ hs (fun c hc => wc c (by simp [hc])) x.obj y.obj hxy
    (tr A _ xA) (tr A _ yA)
  obtain ⟨a3, a4⟩ := skip_ctxs stamp stat f A ⟨ps, []⟩ hs (fun c hc => wc c (by simp [hc])) y.obj x.obj hxy.symm
    (tr A _ yA) (tr A _ xA)
  rw [hm1] at a1 a2 a3 a4
  simp only [show ∀ a b, cntL ([] : List (Obj × Obj × Cid)) a b = 0 from fun _ _ => rfl] at a2 a4
  generalize hm2 : markLeaf stamp stat f x qx m1 = m2
  generalize hm3 : B.foldl (fun m c => markLeaf stamp stat f c.1 c.2 m) m2 = m3
  obtain ⟨b1, b2⟩ := skip_ctxs stamp stat f B m2 hs (fun c hc => wc c (by simp [hc])) x.obj y.obj hxy
    (tr B _ xB) (tr B _ yB)
  obtain ⟨b3, b4⟩ := skip_ctxs stamp stat f B m2 hs (fun c hc => wc c (by simp [hc])) y.obj x.obj hxy.symm
    (tr B _ yB) (tr B _ xB)
  rw [hm3] at b1 b2 b3 b4
  generalize hm4 : markLeaf stamp stat f y qy m3 = m4
  obtain ⟨c1, c2⟩ := skip_ctxs stamp stat f C m4 hs (fun c hc => wc c (by simp [hc])) x.obj y.obj hxy
    (tr C _ xC) (tr C _ yC)
  obtain ⟨c3, c4⟩ := skip_ctxs stamp stat f C m4 hs (fun c hc => wc c (by simp [hc])) y.obj x.obj hxy.symm
    (tr C _ yC) (tr C _ xC)
  rw [c1, c2, c3, c4]
  -- the step at x
  have X : cntP m2.pairs x.obj y.obj = cntP m1.pairs x.obj y.obj +
        (if x.stamp = stamp then (if x.bb.intersects y.bb = true then 1 else 0) else 0) ∧
      cntP m2.pairs y.obj x.obj = cntP m1.pairs y.obj x.obj ∧
      cntL m2.log x.obj y.obj = cntL m1.log x.obj y.obj ∧
      cntL m2.log y.obj x.obj = cntL m1.log y.obj x.obj +
        (if x.stamp = stamp then 0 else cntP m1.pairs y.obj x.obj) := by
    rw [← hm2]
    by_cases hc : x.stamp = stamp
    · have r1 : (pathR qx).Perm (B.map Prod.fst ++ y :: C.map Prod.fst) := by simpa [pathR] using rx1
      have r2 : (pathL qx).Perm (A.map Prod.fst) := by simpa [pathL] using rx2
      have nR : ((B.map Prod.fst ++ y :: C.map Prod.fst).map Leaf.obj).Nodup := by
        simp only [List.map_append, List.map_cons, List.nodup_append, List.nodup_cons, List.map_map,
          List.mem_cons]
        exact ⟨nB, ⟨yC, nC⟩, dB⟩
      have k1 := cnt_side _ _ r1 nR y (by simp) (fun s => x.bb.intersects s.bb)
      have k2 : ∀ R : Leaf F → Bool, (leavesOf stat ++ pathL qx).countP (fun s => decide (s.obj = y.obj) && R s) = 0 := by
        intro R
        apply cnt_side_zero _ (leavesOf stat ++ A.map Prod.fst) (r2.append_left _)
        rw [List.map_append, List.mem_append, List.map_map]
        rintro (hh | hh)
        · exact yS hh
        · exact yA hh
      rw [cur_cntP stamp stat f x qx m1 hs wx hc _ _ hxy, cur_cntP stamp stat f x qx m1 hs wx hc _ _ hxy.symm,
        cur_cntL stamp stat f x qx m1 hs wx hc, cur_cntL stamp stat f x qx m1 hs wx hc]
      have k3 := k2 (fun s => x.bb.intersects s.bb && decide (s.stamp < stamp))
      have k4 := k2 (fun s => x.bb.intersects s.bb)
      simp only [if_true, hc, if_neg hxy, if_neg hxy.symm, k1, k3, k4]
      simp
    · rw [old_cntP stamp stat f x qx m1 hc, old_cntP stamp stat f x qx m1 hc,
        old_cntL stamp stat f x qx m1 hc, old_cntL stamp stat f x qx m1 hc]
      simp [hc, hxy]
  -- the step at y
  have Y : cntP m4.pairs x.obj y.obj = cntP m3.pairs x.obj y.obj +
        (if y.stamp = stamp then (if x.bb.intersects y.bb = true then (if x.stamp < stamp then 1 else 0) else 0)
          else 0) ∧
      cntP m4.pairs y.obj x.obj = cntP m3.pairs y.obj x.obj ∧
      cntL m4.log y.obj x.obj = cntL m3.log y.obj x.obj +
        (if y.stamp = stamp then (if x.bb.intersects y.bb = true then 1 else 0) else 0) ∧
      cntL m4.log x.obj y.obj = cntL m3.log x.obj y.obj +
        (if y.stamp = stamp then 0 else cntP m3.pairs x.obj y.obj) := by
    rw [← hm4]
    by_cases hc : y.stamp = stamp
    · have r1 : (pathR qy).Perm (C.map Prod.fst) := by simpa [pathR] using ry1
      have r2 : (leavesOf stat ++ pathL qy).Perm (leavesOf stat ++ (A.map Prod.fst ++ x :: B.map Prod.fst)) := by
        refine List.Perm.append_left _ ?_
        simpa [pathL] using ry2
      have nR : ((leavesOf stat ++ (A.map Prod.fst ++ x :: B.map Prod.fst)).map Leaf.obj).Nodup := by
        have := h.nodup
        rw [hD] at this
        refine this.sublist (List.Sublist.map _ ?_)
        refine List.Sublist.append_left (List.Sublist.append_left (List.Sublist.cons_cons _ ?_) _) _
        exact List.sublist_append_left _ _
      have k1 := cnt_side _ _ r2 nR x (by simp)
      have k2 := cnt_side_zero _ _ r1 x.obj (by rw [List.map_map]; exact xC) (fun s => y.bb.intersects s.bb)
      rw [cur_cntP stamp stat f y qy m3 hs wy hc _ _ hxy, cur_cntP stamp stat f y qy m3 hs wy hc _ _ hxy.symm,
        cur_cntL stamp stat f y qy m3 hs wy hc, cur_cntL stamp stat f y qy m3 hs wy hc]
      have k3 := k1 (fun s => y.bb.intersects s.bb && decide (s.stamp < stamp))
      have k4 := k1 (fun s => y.bb.intersects s.bb)
      simp only [if_true, hc, if_neg hxy, if_neg hxy.symm, k2, k3, k4]
      rw [BB.intersects_comm y.bb x.bb]
      cases x.bb.intersects y.bb <;> simp
    · rw [old_cntP stamp stat f y qy m3 hc, old_cntP stamp stat f y qy m3 hc,
        old_cntL stamp stat f y qy m3 hc, old_cntL stamp stat f y qy m3 hc]
      simp [hc, hxy.symm]
  have sx : x.stamp ≤ stamp := h.ds x (by rw [hD]; simp)
  obtain ⟨X1, X2, X3, X4⟩ := X
  obtain ⟨Y1, Y2, Y3, Y4⟩ := Y
  rw [Y1, Y2, Y3, Y4, b1, b2, b3, b4, X1, X2, X3, X4, a1, a2, a3, a4]
  simp only [] at h0 ⊢
  by_cases hx : x.stamp = stamp
  · by_cases hy : y.stamp = stamp
    · simp [hx, hy] at h0 ⊢
      omega
    · simp [hx, hy] at h0 ⊢
      omega
  · have sx' : x.stamp < stamp := by omega
    by_cases hy : y.stamp = stamp
    · simp [hx, hy, sx'] at h0 ⊢
      omega
    · simp [hx, hy] at h0 ⊢
      omega

theorem mark_stat (stamp : Nat) (stat : Option (Tree F)) (f : PairFn) (t : Tree F) (ps : List Pair)
    (h : MarkPre stamp stat t) (s y : Leaf F) (hsS : s ∈ leavesOf stat) (hy : y ∈ t.leaves)
    (h0 : cntP ps s.obj y.obj =
      if (!decide (s.stamp = stamp) && !decide (y.stamp = stamp) && s.bb.intersects y.bb) = true then 1 else 0) :
    let m := markSubtree stamp stat f t [] ⟨ps, []⟩
    cntP m.pairs s.obj y.obj = (if s.bb.intersects y.bb = true then 1 else 0) ∧
    cntL m.log s.obj y.obj + cntL m.log y.obj s.obj = (if s.bb.intersects y.bb = true then 1 else 0) := by
  rw [← ctxs_fst t []] at hy
  obtain ⟨⟨y', q⟩, hc, rfl⟩ := List.mem_map.mp hy
  obtain ⟨A, C, e⟩ := List.append_of_mem hc
  simp only at hc e h0 ⊢
  generalize y' = y at *
  clear hy
  obtain ⟨ry1, ry2⟩ := ctxs_split t [] A C y q e
  have wc := ctxs_wf t [] h.wt (by intro s hs; cases hs)
  rw [e] at wc
  have wy : WFp q := wc (y, q) (by simp)
  have hD : t.leaves = A.map Prod.fst ++ y :: C.map Prod.fst := by
    rw [← ctxs_fst t [], e]; simp
  have hn := h.nodup
  have hs := h.ws
  rw [hD] at hn
  simp only [List.map_append, List.map_cons, List.nodup_append, List.nodup_cons, List.map_map, List.mem_append,
    List.mem_cons] at hn
  obtain ⟨nS, ⟨nA, ⟨yC, nC⟩, dA⟩, dS⟩ := hn
  have so : s.obj ∈ (leavesOf stat).map Leaf.obj := List.mem_map.mpr ⟨s, hsS, rfl⟩
  have hxy : s.obj ≠ y.obj := dS _ so _ (by simp)
  have sA : s.obj ∉ A.map (Leaf.obj ∘ Prod.fst) := fun hc => dS _ so _ (Or.inl hc) rfl
  have sC : s.obj ∉ C.map (Leaf.obj ∘ Prod.fst) := fun hc => dS _ so _ (Or.inr (Or.inr hc)) rfl
  have yA : y.obj ∉ A.map (Leaf.obj ∘ Prod.fst) := fun hc => dA _ hc y.obj (by simp) rfl
  have tr : ∀ (Z : List (Leaf F × Path F)) (o : Obj), o ∉ Z.map (Leaf.obj ∘ Prod.fst) → ∀ c ∈ Z, c.1.obj ≠ o :=
    fun Z o ho c hc he => ho (List.mem_map.mpr ⟨c, hc, he⟩)
  rw [markSubtree_eq, e, List.foldl_append, List.foldl_cons]
  generalize hm1 : A.foldl (fun m c => markLeaf stamp stat f c.1 c.2 m) ⟨ps, []⟩ = m1
  obtain ⟨a1, a2⟩ := skip_ctxs stamp stat f A ⟨ps, []⟩ hs (fun c hc => wc c (by simp [hc])) s.obj y.obj hxy
    (tr A _ sA) (tr A _ yA)
  obtain ⟨a3, a4⟩ := skip_ctxs stamp stat f A ⟨ps, []⟩ hs (fun c hc => wc c (by simp [hc])) y.obj s.obj hxy.symm
    (tr A _ yA) (tr A _ sA)
  rw [hm1] at a1 a2 a3 a4
  simp only [show ∀ a b, cntL ([] : List (Obj × Obj × Cid)) a b = 0 from fun _ _ => rfl] at a2 a4
  generalize hm4 : markLeaf stamp stat f y q m1 = m4
  obtain ⟨c1, c2⟩ := skip_ctxs stamp stat f C m4 hs (fun c hc => wc c (by simp [hc])) s.obj y.obj hxy
    (tr C _ sC) (tr C _ yC)
  obtain ⟨c3, c4⟩ := skip_ctxs stamp stat f C m4 hs (fun c hc => wc c (by simp [hc])) y.obj s.obj hxy.symm
    (tr C _ yC) (tr C _ sC)
  rw [c1, c2, c4, ← hm4]
  have ss := h.ss s hsS
  have ss' : s.stamp ≠ stamp := by omega
  by_cases hc : y.stamp = stamp
  · have r2 : (leavesOf stat ++ pathL q).Perm (leavesOf stat ++ A.map Prod.fst) := by
      refine List.Perm.append_left _ ?_
      simpa [pathL] using ry2
    have nR : ((leavesOf stat ++ A.map Prod.fst).map Leaf.obj).Nodup := by
      have := h.nodup
      rw [hD] at this
      refine this.sublist (List.Sublist.map _ ?_)
      exact List.Sublist.append_left (List.sublist_append_left _ _) _
    have k1 := cnt_side _ _ r2 nR s (by simp [hsS])
    have k3 := k1 (fun s => y.bb.intersects s.bb && decide (s.stamp < stamp))
    have k4 := k1 (fun s => y.bb.intersects s.bb)
    rw [cur_cntP stamp stat f y q m1 hs wy hc _ _ hxy,
        cur_cntL stamp stat f y q m1 hs wy hc, cur_cntL stamp stat f y q m1 hs wy hc]
    simp only [if_true, hc, if_neg hxy.symm, k3, k4, a1, a2, a4]
    rw [BB.intersects_comm y.bb s.bb]
    rw [h0]
    simp [hc, ss]
  · rw [old_cntP stamp stat f y q m1 hc,
        old_cntL stamp stat f y q m1 hc, old_cntL stamp stat f y q m1 hc]
    rw [a1, a2, a4]
    simp only []
    rw [h0]
    simp [hc, ss', hxy.symm]

/-- Marking a tree: the pairs become exact and each overlapping pair is reported exactly once. -/
theorem mark_all (stamp : Nat) (stat : Option (Tree F)) (f : PairFn) (t : Tree F) (ps : List Pair)
    (h : MarkPre stamp stat t)
    (hp : PairsMid (fun l => decide (l.stamp = stamp)) (leavesOf stat) t.leaves ps) :
    let m := markSubtree stamp stat f t [] ⟨ps, []⟩
    PairsMid (fun _ => false) (leavesOf stat) t.leaves m.pairs ∧
    (∀ e ∈ m.log, domL (leavesOf stat) t.leaves e) ∧
    (∀ x ∈ leavesOf stat ++ t.leaves, ∀ y ∈ t.leaves, x.obj ≠ y.obj →
      cntL m.log x.obj y.obj + cntL m.log y.obj x.obj = if x.bb.intersects y.bb = true then 1 else 0) := by
  have hd := mark_dom stamp stat f t ⟨ps, []⟩ h ⟨hp.dom, by intro e he; cases he⟩
  have two : ∀ x ∈ t.leaves, ∀ y ∈ t.leaves, x.obj ≠ y.obj →
      let m := markSubtree stamp stat f t [] ⟨ps, []⟩
      cntP m.pairs x.obj y.obj + cntP m.pairs y.obj x.obj = (if x.bb.intersects y.bb = true then 1 else 0) ∧
      cntL m.log x.obj y.obj + cntL m.log y.obj x.obj = (if x.bb.intersects y.bb = true then 1 else 0) := by
    intro x hx y hy hxy
    have h0 := hp.dd x hx y hy hxy
    rw [← ctxs_fst t []] at hx hy
    obtain ⟨⟨x', qx⟩, hcx, rfl⟩ := List.mem_map.mp hx
    obtain ⟨⟨y', qy⟩, hcy, rfl⟩ := List.mem_map.mp hy
    rcases split_two _ _ _ hcx hcy (by rintro ⟨⟩; exact hxy rfl) with ⟨A, B, C, e⟩ | ⟨A, B, C, e⟩
    · exact mark_two stamp stat f t ps h x' y' qx qy A B C e h0
    · have := mark_two stamp stat f t ps h y' x' qy qx A B C e (by
        rw [Nat.add_comm, h0, BB.intersects_comm]
        simp only [Bool.and_comm (!decide (x'.stamp = stamp))])
      simp only at this ⊢
      rw [BB.intersects_comm x'.bb]
      omega
  have sta : ∀ s ∈ leavesOf stat, ∀ y ∈ t.leaves,
      let m := markSubtree stamp stat f t [] ⟨ps, []⟩
      cntP m.pairs s.obj y.obj = (if s.bb.intersects y.bb = true then 1 else 0) ∧
      cntL m.log s.obj y.obj + cntL m.log y.obj s.obj = (if s.bb.intersects y.bb = true then 1 else 0) :=
    fun s hs y hy => mark_stat stamp stat f t ps h s y hs hy (hp.sd s hs y hy)
  have ok : PairsMid (fun _ => false) (leavesOf stat) t.leaves (markSubtree stamp stat f t [] ⟨ps, []⟩).pairs := by
    refine ⟨hd.1, ?_, ?_⟩
    · intro x hx y hy hxy
      simpa using (two x hx y hy hxy).1
    · intro x hx y hy
      simpa using (sta x hx y hy).1
  refine ⟨ok, hd.2, ?_⟩
  intro x hx y hy hxy
  rcases List.mem_append.mp hx with hx | hx
  · exact (sta x hx y hy).2
  · exact (two x hx y hy hxy).2

end CP
