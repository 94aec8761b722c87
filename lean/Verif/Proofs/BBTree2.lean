import Verif.Proofs.BBTree

/-! Pair bookkeeping of the trees: the pairs invariant and the effect of marking. -/

namespace CP
open GoFloat
variable {F : Type} [GoFloat F]

theorem cur_cntP (stamp : Nat) (stat : Option (Tree F)) (f : PairFn) (l : Leaf F) (q : Path F) (m : Mark)
    (hs : WFo stat) (hp : WFp q) (hc : l.stamp = stamp) (x y : Obj) (hxy : x ≠ y) :
    cntP (markLeaf stamp stat f l q m).pairs x y = cntP m.pairs x y +
      (if l.obj = x then (pathR q).countP (fun s => decide (s.obj = y) && l.bb.intersects s.bb) else 0) +
      (if l.obj = y then (leavesOf stat ++ pathL q).countP
        (fun s => decide (s.obj = x) && (l.bb.intersects s.bb && decide (s.stamp < l.stamp))) else 0) := by
  rw [markLeaf_cur stamp stat f l q m hs hp hc, foldl_vis_cntP, countP_visits _ _ _ _ _ (visits_perm stat q)]
  by_cases h1 : l.obj = x
  · have h2 : l.obj ≠ y := fun h => hxy (h1.symm.trans h)
    simp [h1, h2, hxy, Bool.and_comm]
  · by_cases h2 : l.obj = y
    · simp only [h1, h2, Ne.symm hxy, decide_false, Bool.and_false, Bool.false_and, Bool.not_true, Bool.false_or, if_false,
        Bool.not_false, Bool.true_and, decide_true, Bool.and_true, if_true, List.countP_false,
        List.countP_append, Function.const]
      have : (fun s : Leaf F => l.bb.intersects s.bb && (decide (s.stamp < l.stamp) && decide (s.obj = x))) =
          (fun s => decide (s.obj = x) && (l.bb.intersects s.bb && decide (s.stamp < l.stamp))) := by
        funext s
        cases l.bb.intersects s.bb <;> cases decide (s.stamp < l.stamp) <;> cases decide (s.obj = x) <;> rfl
      rw [this]
      omega
    · simp [h1, h2]

theorem cur_cntL (stamp : Nat) (stat : Option (Tree F)) (f : PairFn) (l : Leaf F) (q : Path F) (m : Mark)
    (hs : WFo stat) (hp : WFp q) (hc : l.stamp = stamp) (x y : Obj) :
    cntL (markLeaf stamp stat f l q m).log x y = cntL m.log x y +
      (if l.obj = x then (leavesOf stat ++ pathL q).countP
        (fun s => decide (s.obj = y) && l.bb.intersects s.bb) else 0) := by
  rw [markLeaf_cur stamp stat f l q m hs hp hc, foldl_vis_cntL, countP_visits _ _ _ _ _ (visits_perm stat q)]
  by_cases h1 : l.obj = x
  · simp [h1, Bool.and_comm]
  · simp [h1]

theorem old_cntP (stamp : Nat) (stat : Option (Tree F)) (f : PairFn) (l : Leaf F) (q : Path F) (m : Mark)
    (hc : l.stamp ≠ stamp) (x y : Obj) :
    cntP (markLeaf stamp stat f l q m).pairs x y = cntP m.pairs x y := by
  unfold markLeaf
  rw [if_neg hc]
  simp only [cntP, List.countP_map]
  congr 1
  funext p
  simp only [Function.comp]
  split <;> rfl

theorem old_cntL (stamp : Nat) (stat : Option (Tree F)) (f : PairFn) (l : Leaf F) (q : Path F) (m : Mark)
    (hc : l.stamp ≠ stamp) (x y : Obj) :
    cntL (markLeaf stamp stat f l q m).log x y = cntL m.log x y + if l.obj = y then cntP m.pairs x y else 0 := by
  unfold markLeaf
  rw [if_neg hc]
  simp only [cntL, List.countP_append, List.countP_map, List.countP_filter, cntP]
  congr 1
  by_cases h : l.obj = y
  · rw [if_pos h]
    congr 1
    funext p
    simp [h]
  · rw [if_neg h, List.countP_eq_zero]
    intro p _
    simp [h]

/-- Contexts of other leaves change neither the pairs nor the log entries of `x`, `y`. -/
theorem skip_ctxs (stamp : Nat) (stat : Option (Tree F)) (f : PairFn) (Z : List (Leaf F × Path F)) (m : Mark)
    (hs : WFo stat) (hp : ∀ c ∈ Z, WFp c.2) (x y : Obj) (hxy : x ≠ y)
    (hx : ∀ c ∈ Z, c.1.obj ≠ x) (hy : ∀ c ∈ Z, c.1.obj ≠ y) :
    cntP (Z.foldl (fun m c => markLeaf stamp stat f c.1 c.2 m) m).pairs x y = cntP m.pairs x y ∧
    cntL (Z.foldl (fun m c => markLeaf stamp stat f c.1 c.2 m) m).log x y = cntL m.log x y := by
  induction Z generalizing m with
  | nil => exact ⟨rfl, rfl⟩
  | cons c Z ih =>
    simp only [List.foldl_cons]
    obtain ⟨i1, i2⟩ := ih (markLeaf stamp stat f c.1 c.2 m) (fun d hd => hp d (by simp [hd]))
      (fun d hd => hx d (by simp [hd])) (fun d hd => hy d (by simp [hd]))
    rw [i1, i2]
    have hx := hx c (by simp)
    have hy := hy c (by simp)
    by_cases hc : c.1.stamp = stamp
    · rw [cur_cntP stamp stat f c.1 c.2 m hs (hp c (by simp)) hc x y hxy,
        cur_cntL stamp stat f c.1 c.2 m hs (hp c (by simp)) hc x y]
      simp [hx, hy]
    · rw [old_cntP stamp stat f c.1 c.2 m hc, old_cntL stamp stat f c.1 c.2 m hc]
      simp [hy]

/-- The pairs held by the leaves: every overlapping (indexed) pair of which not both are static is recorded exactly
once, except pairs touching a `fresh` leaf, which are not recorded at all. -/
structure PairsMid (fresh : Leaf F → Bool) (S D : List (Leaf F)) (ps : List Pair) : Prop where
  dom : ∀ p ∈ ps, p.a ≠ p.b ∧ p.b ∈ D.map Leaf.obj ∧ p.a ∈ (S ++ D).map Leaf.obj
  dd : ∀ x ∈ D, ∀ y ∈ D, x.obj ≠ y.obj → cntP ps x.obj y.obj + cntP ps y.obj x.obj =
    if (!fresh x && !fresh y && x.bb.intersects y.bb) = true then 1 else 0
  sd : ∀ s ∈ S, ∀ y ∈ D, cntP ps s.obj y.obj =
    if (!fresh s && !fresh y && s.bb.intersects y.bb) = true then 1 else 0

theorem cntP_eq_zero {ps : List Pair} {x y : Obj} : cntP ps x y = 0 ↔ ∀ p ∈ ps, ¬ (p.a = x ∧ p.b = y) := by
  unfold cntP
  rw [List.countP_eq_zero]
  simp

theorem PairsMid.congr {fr fr' : Leaf F → Bool} {S S' D D' : List (Leaf F)} {ps : List Pair}
    (h : PairsMid fr S D ps) (hS : S'.Perm S) (hD : D'.Perm D) (hf : ∀ l ∈ S ++ D, fr l = fr' l) :
    PairsMid fr' S' D' ps := by
  refine ⟨?_, ?_, ?_⟩
  · intro p hp
    obtain ⟨h1, h2, h3⟩ := h.dom p hp
    exact ⟨h1, ((hD.map _).mem_iff).mpr h2, (((hS.append hD).map _).mem_iff).mpr h3⟩
  · intro x hx y hy hxy
    have hx := hD.mem_iff.mp hx
    have hy := hD.mem_iff.mp hy
    rw [h.dd x hx y hy hxy, hf x (by simp [hx]), hf y (by simp [hy])]
  · intro s hs y hy
    have hs := hS.mem_iff.mp hs
    have hy := hD.mem_iff.mp hy
    rw [h.sd s hs y hy, hf s (by simp [hs]), hf y (by simp [hy])]

theorem cntP_clear (ps : List Pair) (o x y : Obj) (hx : x ≠ o) (hy : y ≠ o) :
    cntP (pairsClear ps o) x y = cntP ps x y := by
  unfold cntP pairsClear
  rw [List.countP_filter]
  congr 1
  funext p
  by_cases h1 : p.a = x <;> by_cases h2 : p.b = y <;> simp [h1, h2, hx, hy]

theorem cntP_clear_left (ps : List Pair) (o y : Obj) : cntP (pairsClear ps o) o y = 0 := by
  rw [cntP_eq_zero]
  intro p hp hc
  simp [pairsClear, hc.1] at hp

theorem cntP_clear_right (ps : List Pair) (o y : Obj) : cntP (pairsClear ps o) y o = 0 := by
  rw [cntP_eq_zero]
  intro p hp hc
  simp [pairsClear, hc.2] at hp

abbrev dropObj (o : Obj) (ls : List (Leaf F)) : List (Leaf F) := ls.filter (fun l => !decide (l.obj = o))

theorem mem_dropObj {o : Obj} {ls : List (Leaf F)} {l : Leaf F} : l ∈ dropObj o ls ↔ l ∈ ls ∧ l.obj ≠ o := by
  simp [dropObj]

/-- Removing a leaf and its pairs. -/
theorem PairsMid.drop {fr : Leaf F → Bool} {S D : List (Leaf F)} {ps : List Pair} (h : PairsMid fr S D ps)
    (o : Obj) : PairsMid fr (dropObj o S) (dropObj o D) (pairsClear ps o) := by
  refine ⟨?_, ?_, ?_⟩
  · intro p hp
    simp only [pairsClear, List.mem_filter, Bool.not_eq_true', Bool.or_eq_false_iff,
      decide_eq_false_iff_not] at hp
    obtain ⟨hp, ha, hb⟩ := hp
    obtain ⟨h1, h2, h3⟩ := h.dom p hp
    refine ⟨h1, ?_, ?_⟩
    · obtain ⟨l, hl, e⟩ := List.mem_map.mp h2
      exact List.mem_map.mpr ⟨l, mem_dropObj.mpr ⟨hl, by rw [e]; exact hb⟩, e⟩
    · obtain ⟨l, hl, e⟩ := List.mem_map.mp h3
      refine List.mem_map.mpr ⟨l, ?_, e⟩
      rcases List.mem_append.mp hl with hl | hl
      · exact List.mem_append_left _ (mem_dropObj.mpr ⟨hl, by rw [e]; exact ha⟩)
      · exact List.mem_append_right _ (mem_dropObj.mpr ⟨hl, by rw [e]; exact ha⟩)
  · intro x hx y hy hxy
    rw [mem_dropObj] at hx hy
    rw [cntP_clear _ _ _ _ hx.2 hy.2, cntP_clear _ _ _ _ hy.2 hx.2, h.dd x hx.1 y hy.1 hxy]
  · intro s hs y hy
    rw [mem_dropObj] at hs hy
    rw [cntP_clear _ _ _ _ hs.2 hy.2, h.sd s hs.1 y hy.1]

/-- Adding a fresh leaf to the dynamic side. -/
theorem PairsMid.addDyn {fr : Leaf F → Bool} {S D : List (Leaf F)} {ps : List Pair} (h : PairsMid fr S D ps)
    (l : Leaf F) (hl : fr l = true) (hS : l.obj ∉ S.map Leaf.obj) (hD : l.obj ∉ D.map Leaf.obj) :
    PairsMid fr S (l :: D) ps := by
  have z1 : ∀ x, cntP ps x l.obj = 0 := fun x => cntP_eq_zero.mpr (fun p hp hc => hD (hc.2 ▸ (h.dom p hp).2.1))
  have z2 : ∀ x, cntP ps l.obj x = 0 := fun x => cntP_eq_zero.mpr (fun p hp hc => by
    have := (h.dom p hp).2.2
    rw [hc.1, List.map_append, List.mem_append] at this
    exact this.elim hS hD)
  refine ⟨?_, ?_, ?_⟩
  · intro p hp
    obtain ⟨h1, h2, h3⟩ := h.dom p hp
    refine ⟨h1, by simp at h2 ⊢; tauto, ?_⟩
    simp only [List.map_append, List.map_cons, List.mem_append, List.mem_cons] at h3 ⊢
    tauto
  · intro x hx y hy hxy
    rcases List.mem_cons.mp hx with rfl | hx'
    · rw [z1, z2]; simp [hl]
    · rcases List.mem_cons.mp hy with rfl | hy'
      · rw [z1, z2]; simp [hl]
      · exact h.dd x hx' y hy' hxy
  · intro s hs y hy
    rcases List.mem_cons.mp hy with rfl | hy'
    · rw [z1]; simp [hl]
    · exact h.sd s hs y hy'

/-- Adding a fresh leaf to the static side. -/
theorem PairsMid.addStat {fr : Leaf F → Bool} {S D : List (Leaf F)} {ps : List Pair} (h : PairsMid fr S D ps)
    (l : Leaf F) (hl : fr l = true) (hS : l.obj ∉ S.map Leaf.obj) (hD : l.obj ∉ D.map Leaf.obj) :
    PairsMid fr (l :: S) D ps := by
  have z2 : ∀ x, cntP ps l.obj x = 0 := fun x => cntP_eq_zero.mpr (fun p hp hc => by
    have := (h.dom p hp).2.2
    rw [hc.1, List.map_append, List.mem_append] at this
    exact this.elim hS hD)
  refine ⟨?_, h.dd, ?_⟩
  · intro p hp
    obtain ⟨h1, h2, h3⟩ := h.dom p hp
    refine ⟨h1, h2, ?_⟩
    simp only [List.map_append, List.map_cons, List.mem_append, List.mem_cons] at h3 ⊢
    tauto
  · intro s hs y hy
    rcases List.mem_cons.mp hs with rfl | hs'
    · rw [z2]; simp [hl]
    · exact h.sd s hs' y hy

/-! ### Membership of pairs after marking -/

theorem foldl_vis_dom (l : Leaf F) (V : List (Bool × Leaf F)) (m : Mark) (P : Pair → Prop)
    (h0 : ∀ p ∈ m.pairs, P p)
    (h1 : ∀ v ∈ V, v.1 = true → P ⟨l.obj, v.2.obj, 0#32⟩) (h2 : ∀ v ∈ V, v.1 = false → P ⟨v.2.obj, l.obj, 0#32⟩) :
    ∀ p ∈ (V.foldl (vis l) m).pairs, P p := by
  induction V generalizing m with
  | nil => exact h0
  | cons v V ih =>
    rw [List.foldl_cons]
    refine ih _ ?_ (fun w hw => h1 w (by simp [hw])) (fun w hw => h2 w (by simp [hw]))
    intro p hp
    unfold vis at hp
    split at hp
    · unfold visit at hp
      split at hp
      · rename_i hb
        simp only [Mark.pairInsert, List.mem_cons] at hp
        rcases hp with rfl | hp
        · exact h1 v (by simp) hb
        · exact h0 p hp
      · rename_i hb
        simp only [Mark.call] at hp
        split at hp
        · simp only [Mark.pairInsert, List.mem_cons] at hp
          rcases hp with rfl | hp
          · exact h2 v (by simp) (by simpa using hb)
          · exact h0 p hp
        · exact h0 p hp
    · exact h0 p hp

theorem foldl_vis_log (l : Leaf F) (V : List (Bool × Leaf F)) (m : Mark) (P : Obj × Obj × Cid → Prop)
    (h0 : ∀ e ∈ m.log, P e)
    (h1 : ∀ v ∈ V, v.1 = false → P (l.obj, v.2.obj, 0#32)) :
    ∀ e ∈ (V.foldl (vis l) m).log, P e := by
  induction V generalizing m with
  | nil => exact h0
  | cons v V ih =>
    rw [List.foldl_cons]
    refine ih _ ?_ (fun w hw => h1 w (by simp [hw]))
    intro e he
    unfold vis at he
    split at he
    · unfold visit at he
      split at he
      · exact h0 e he
      · rename_i hb
        simp only [Mark.call, List.mem_append, List.mem_singleton] at he
        rcases he with he | rfl
        · split at he
          · exact h0 e he
          · exact h0 e he
        · exact h1 v (by simp) (by simpa using hb)
    · exact h0 e he

theorem mem_visits {stat : Option (Tree F)} {p : Path F} {v : Bool × Leaf F} (h : v ∈ visits stat p) :
    (v.1 = true ∧ v.2 ∈ pathR p) ∨ (v.1 = false ∧ v.2 ∈ leavesOf stat ++ pathL p) := by
  have := (visits_perm stat p).mem_iff.mp h
  simp only [List.mem_append, List.mem_map] at this
  rcases this with ⟨s, hs, rfl⟩ | ⟨s, hs, rfl⟩ | ⟨s, hs, rfl⟩
  · right; simp [hs]
  · left; simp [hs]
  · right; simp [hs]

theorem foldl_inv {α β : Type} (f : β → α → β) (P : β → Prop) (l : List α) (b : β) (h0 : P b)
    (hs : ∀ a ∈ l, ∀ b, P b → P (f b a)) : P (l.foldl f b) := by
  induction l generalizing b with
  | nil => exact h0
  | cons a l ih => exact ih (f b a) (hs a (by simp) b h0) (fun x hx => hs x (by simp [hx]))

def domP (S D : List (Leaf F)) (p : Pair) : Prop :=
  p.a ≠ p.b ∧ p.b ∈ D.map Leaf.obj ∧ p.a ∈ (S ++ D).map Leaf.obj

def domL (S D : List (Leaf F)) (e : Obj × Obj × Cid) : Prop :=
  e.1 ≠ e.2.1 ∧ e.1 ∈ (S ++ D).map Leaf.obj ∧ e.2.1 ∈ (S ++ D).map Leaf.obj ∧
    (e.1 ∈ D.map Leaf.obj ∨ e.2.1 ∈ D.map Leaf.obj)

/-- Marking one leaf keeps pairs and calls between leaves of the index. -/
theorem markLeaf_dom (stamp : Nat) (stat : Option (Tree F)) (f : PairFn) (l : Leaf F) (q : Path F) (m : Mark)
    (A B D : List (Leaf F)) (hs : WFo stat) (hp : WFp q) (hD : D = A ++ l :: B)
    (hn : ((leavesOf stat ++ D).map Leaf.obj).Nodup)
    (hR : (pathR q).Perm B) (hL : (pathL q).Perm A)
    (hm : (∀ p ∈ m.pairs, domP (leavesOf stat) D p) ∧ (∀ e ∈ m.log, domL (leavesOf stat) D e)) :
    (∀ p ∈ (markLeaf stamp stat f l q m).pairs, domP (leavesOf stat) D p) ∧
    (∀ e ∈ (markLeaf stamp stat f l q m).log, domL (leavesOf stat) D e) := by
  have hlD : l ∈ D := by simp [hD]
  have hlo : l.obj ∈ D.map Leaf.obj := List.mem_map.mpr ⟨l, hlD, rfl⟩
  rw [List.map_append, List.nodup_append] at hn
  obtain ⟨n1, n2, n3⟩ := hn
  rw [hD, List.map_append, List.map_cons, List.nodup_append, List.nodup_cons] at n2
  obtain ⟨n4, ⟨n5, n6⟩, n7⟩ := n2
  have oS : ∀ s ∈ leavesOf stat, s.obj ≠ l.obj := fun s hs' =>
    n3 s.obj (List.mem_map.mpr ⟨s, hs', rfl⟩) l.obj hlo
  have oA : ∀ s ∈ A, s.obj ≠ l.obj := fun s hs' =>
    n7 s.obj (List.mem_map.mpr ⟨s, hs', rfl⟩) l.obj (by simp)
  have oB : ∀ s ∈ B, s.obj ≠ l.obj := fun s hs' he =>
    n5 (List.mem_map.mpr ⟨s, hs', he⟩)
  have hAD : ∀ s ∈ A, s.obj ∈ D.map Leaf.obj := fun s h => List.mem_map.mpr ⟨s, by simp [hD, h], rfl⟩
  have hBD : ∀ s ∈ B, s.obj ∈ D.map Leaf.obj := fun s h => List.mem_map.mpr ⟨s, by simp [hD, h], rfl⟩
  have inSD : ∀ o, o ∈ D.map Leaf.obj → o ∈ (leavesOf stat ++ D).map Leaf.obj := by
    intro o ho; rw [List.map_append]; exact List.mem_append_right _ ho
  have inSS : ∀ s ∈ leavesOf stat, s.obj ∈ (leavesOf stat ++ D).map Leaf.obj := by
    intro o ho; rw [List.map_append]; exact List.mem_append_left _ (List.mem_map.mpr ⟨o, ho, rfl⟩)
  by_cases hc : l.stamp = stamp
  · rw [markLeaf_cur stamp stat f l q m hs hp hc]
    constructor
    · apply foldl_vis_dom l _ m _ hm.1
      · intro v hv hb
        rcases mem_visits hv with ⟨_, h⟩ | ⟨h, _⟩
        · have h := hR.mem_iff.mp h
          exact ⟨(oB _ h).symm, hBD _ h, inSD _ hlo⟩
        · rw [hb] at h; cases h
      · intro v hv hb
        rcases mem_visits hv with ⟨h, _⟩ | ⟨_, h⟩
        · rw [hb] at h; cases h
        · rcases List.mem_append.mp h with h | h
          · exact ⟨oS _ h, hlo, inSS _ h⟩
          · have h := hL.mem_iff.mp h
            exact ⟨oA _ h, hlo, inSD _ (hAD _ h)⟩
    · apply foldl_vis_log l _ m _ hm.2
      intro v hv hb
      rcases mem_visits hv with ⟨h, _⟩ | ⟨_, h⟩
      · rw [hb] at h; cases h
      · rcases List.mem_append.mp h with h | h
        · exact ⟨(oS _ h).symm, inSD _ hlo, inSS _ h, Or.inl hlo⟩
        · have h := hL.mem_iff.mp h
          exact ⟨(oA _ h).symm, inSD _ hlo, inSD _ (hAD _ h), Or.inl hlo⟩
  · unfold markLeaf
    rw [if_neg hc]
    constructor
    · intro p hp
      obtain ⟨p', hp', rfl⟩ := List.mem_map.mp hp
      have := hm.1 p' hp'
      split <;> exact this
    · intro e he
      rcases List.mem_append.mp he with he | he
      · exact hm.2 e he
      · obtain ⟨p, hp, rfl⟩ := List.mem_map.mp he
        rw [List.mem_filter] at hp
        obtain ⟨h1, h2, h3⟩ := hm.1 p hp.1
        have hb : p.b = l.obj := by simpa using hp.2
        rw [hb] at h1 h2
        exact ⟨h1, h3, inSD _ hlo, Or.inr hlo⟩

theorem cnt_side (Q L : List (Leaf F)) (hq : Q.Perm L) (hn : (L.map Leaf.obj).Nodup) (y : Leaf F) (hy : y ∈ L)
    (R : Leaf F → Bool) : Q.countP (fun s => decide (s.obj = y.obj) && R s) = if R y = true then 1 else 0 := by
  rw [hq.countP_eq, countP_obj L y R hn hy]

theorem cnt_side_zero (Q L : List (Leaf F)) (hq : Q.Perm L) (y : Obj) (hy : y ∉ L.map Leaf.obj)
    (R : Leaf F → Bool) : Q.countP (fun s => decide (s.obj = y) && R s) = 0 := by
  rw [hq.countP_eq, countP_obj_zero L y R hy]

theorem split_two {α : Type} (L : List α) (x y : α) (hx : x ∈ L) (hy : y ∈ L) (h : x ≠ y) :
    (∃ A B C, L = A ++ x :: (B ++ y :: C)) ∨ (∃ A B C, L = A ++ y :: (B ++ x :: C)) := by
  obtain ⟨A, B, rfl⟩ := List.append_of_mem hx
  rcases List.mem_append.mp hy with hy | hy
  · obtain ⟨A1, A2, rfl⟩ := List.append_of_mem hy
    right; exact ⟨A1, A2, B, by simp⟩
  · rcases List.mem_cons.mp hy with rfl | hy
    · exact absurd rfl h
    · obtain ⟨B1, B2, rfl⟩ := List.append_of_mem hy
      left; exact ⟨A, B1, B2, rfl⟩

end CP
