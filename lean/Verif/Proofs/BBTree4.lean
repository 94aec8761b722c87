import Verif.Proofs.BBTree3
import Verif.Spec.Index

/-! The invariant of the pair of indexes and the refinement to the abstract index. -/

namespace CP
open GoFloat
variable {F : Type} [GoFloat F]

/-! ### Indexed boxes from leaves -/

def bbOf (ls : List (Leaf F)) (o : Obj) : Option (BB F) := (ls.find? (fun l => decide (l.obj = o))).map Leaf.bb

theorem bbOf_cons (l : Leaf F) (ls : List (Leaf F)) (o : Obj) :
    bbOf (l :: ls) o = if o = l.obj then some l.bb else bbOf ls o := by
  unfold bbOf
  rw [List.find?_cons]
  by_cases h : l.obj = o
  · simp [h]
  · simp [h, Ne.symm h]

theorem bbOf_none {ls : List (Leaf F)} {o : Obj} : bbOf ls o = none ↔ o ∉ ls.map Leaf.obj := by
  simp [bbOf, List.find?_eq_none]

theorem bbOf_some {ls : List (Leaf F)} (hn : (ls.map Leaf.obj).Nodup) {o : Obj} {B : BB F} :
    bbOf ls o = some B ↔ ∃ l ∈ ls, l.obj = o ∧ l.bb = B := by
  induction ls with
  | nil => simp [bbOf]
  | cons a ls ih =>
    rw [List.map_cons, List.nodup_cons] at hn
    rw [bbOf_cons]
    by_cases h : o = a.obj
    · subst h
      simp only [if_true, Option.some.injEq, List.mem_cons]
      constructor
      · rintro rfl; exact ⟨a, Or.inl rfl, rfl, rfl⟩
      · rintro ⟨l, rfl | hl, e, rfl⟩
        · rfl
        · exact absurd (List.mem_map.mpr ⟨l, hl, e⟩) hn.1
    · rw [if_neg h, ih hn.2]
      constructor
      · rintro ⟨l, hl, e⟩; exact ⟨l, by simp [hl], e⟩
      · rintro ⟨l, hl, e⟩
        rcases List.mem_cons.mp hl with rfl | hl
        · exact absurd e.1.symm h
        · exact ⟨l, hl, e⟩

theorem bbOf_perm {ls ms : List (Leaf F)} (h : ls.Perm ms) (hn : (ls.map Leaf.obj).Nodup) (o : Obj) :
    bbOf ls o = bbOf ms o := by
  have hn' : (ms.map Leaf.obj).Nodup := (h.map _).nodup_iff.mp hn
  apply Option.ext
  intro B
  rw [bbOf_some hn, bbOf_some hn']
  simp only [h.mem_iff]

theorem bbOf_drop (ls : List (Leaf F)) (o x : Obj) : bbOf (dropObj o ls) x = if x = o then none else bbOf ls x := by
  induction ls with
  | nil => simp [bbOf]
  | cons a ls ih =>
    unfold dropObj at *
    rw [List.filter_cons]
    by_cases h : a.obj = o
    · simp only [h, decide_true, Bool.not_true, Bool.false_eq_true, if_false, ih, bbOf_cons]
      by_cases hx : x = o <;> simp [hx]
    · simp only [h, decide_false, Bool.not_false, if_true, bbOf_cons, ih]
      by_cases hx : x = a.obj
      · have : x ≠ o := hx ▸ h
        simp [hx, this, h]
      · simp [hx]

theorem bbOf_of_mem {ls : List (Leaf F)} (hn : (ls.map Leaf.obj).Nodup) {l : Leaf F} (h : l ∈ ls) :
    bbOf ls l.obj = some l.bb := (bbOf_some hn).mpr ⟨l, h, rfl, rfl⟩

/-! ### Leaf sets -/

def leafClient (h : Obj → Nat) : HashSet.Client Obj Obj Obj := ⟨id, id, h⟩

theorem leafClient_eq (h : Obj → Nat) : (leafClient h).eq = leafEq := rfl

/-- The leaf set holds exactly the given shapes. -/
structure SetOK (h : Obj → Nat) (s : HashSet Obj) (os : List Obj) : Prop where
  inv : HashSet.Inv (leafClient h) s
  perm : s.each.Perm os

theorem SetOK.insert {h : Obj → Nat} {s : HashSet Obj} {os : List Obj} (hs : SetOK h s os) (o : Obj) (ho : o ∉ os)
    (hb : os.length + 1 ≠ 1610612741) :
    ∃ s', HashSet.insert leafEq s (h o) o o = some (s', o) ∧ SetOK h s' (o :: os) := by
  have hlen : s.entries = os.length := by
    rw [hs.inv.cnt, ← hs.perm.length_eq]; unfold HashSet.each; rw [List.length_map]
  rcases HashSet.insert_spec (leafClient h) s hs.inv o o rfl with ⟨b, hb1, hb2, _⟩ | ⟨_, _, hg⟩
  · exfalso
    apply ho
    rw [← hs.perm.mem_iff]
    exact List.mem_map.mpr ⟨b, hb1, hb2⟩
  · obtain ⟨s', e, i, p⟩ := hg (by rw [hlen]; exact hb)
    refine ⟨s', e, i, ?_⟩
    have := p.map Bin.elt
    exact this.trans (hs.perm.cons o)

theorem SetOK.remove {h : Obj → Nat} {s : HashSet Obj} {os os' : List Obj} (hs : SetOK h s os) (o : Obj)
    (ho : os.Perm (o :: os')) :
    ∃ s' b, HashSet.remove leafEq s (h o) o = some (s', some b) ∧ SetOK h s' os' := by
  rcases HashSet.remove_spec (leafClient h) s hs.inv o with ⟨b, hb1, hb2, s', e, i, p⟩ | ⟨hn, _⟩
  · refine ⟨s', b.elt, e, i, ?_⟩
    have hp := p.map Bin.elt
    have he : b.elt = o := hb2
    simp only [List.map_cons, he] at hp
    exact (List.perm_cons o).mp (hp.symm.trans (hs.perm.trans ho))
  · exfalso
    have : o ∈ s.each := by rw [hs.perm.mem_iff, ho.mem_iff]; simp
    obtain ⟨b, hb, e⟩ := List.mem_map.mp this
    exact hn b hb e

theorem SetOK.find {h : Obj → Nat} {s : HashSet Obj} {os : List Obj} (hs : SetOK h s os) (o : Obj) :
    HashSet.find leafEq s (h o) o = some (if o ∈ os then some o else none) := by
  rcases HashSet.find_spec (leafClient h) s hs.inv o with ⟨b, hb1, hb2, e⟩ | ⟨hn, e⟩
  · have he : b.elt = o := hb2
    have : o ∈ os := by rw [← hs.perm.mem_iff]; exact List.mem_map.mpr ⟨b, hb1, he⟩
    rw [if_pos this]
    rw [he] at e
    exact e
  · have : o ∉ os := by
      rw [← hs.perm.mem_iff]
      intro hc
      obtain ⟨b, hb, e⟩ := List.mem_map.mp hc
      exact hn b hb e
    rw [if_neg this]
    exact e

/-! ### Invariant -/

abbrev World.S (w : World F) : List (Leaf F) := leavesOf w.stat
abbrev World.D (w : World F) : List (Leaf F) := leavesOf w.dyn

/-- The trees are well formed; `fr` are the leaves whose pairs are still missing. -/
structure Mid (h : Obj → Nat) (fr : Leaf F → Bool) (w : World F) : Prop where
  ws : WFo w.stat
  wd : WFo w.dyn
  nodup : ((w.S ++ w.D).map Leaf.obj).Nodup
  ss : SetOK h w.statSet (w.S.map Leaf.obj)
  sd : SetOK h w.dynSet (w.D.map Leaf.obj)
  pairs : PairsMid fr w.S w.D w.pairs

structure TInv (h : Obj → Nat) (w : World F) : Prop where
  mid : Mid h (fun _ => false) w
  stamps : ∀ l ∈ w.S ++ w.D, l.stamp < w.stamp

structure Ref (h : Obj → Nat) (w : World F) (s : Spec F) : Prop where
  inv : TInv h w
  box : w.box = s.box
  vel : w.vel = s.vel
  idx : ∀ st o, s.idx st o = bbOf (leavesOf (w.tree st)) o

theorem WFo_insRoot {t : Option (Tree F)} (h : WFo t) (l : Leaf F) : WFo (some (insRoot t l)) := by
  intro t' e; cases e
  cases t with
  | none => trivial
  | some t => exact t.ins_WF l (h t rfl)

theorem leaves_insRoot (t : Option (Tree F)) (l : Leaf F) : (insRoot t l).leaves.Perm (l :: leavesOf t) := by
  cases t with
  | none => exact List.Perm.refl _
  | some t => exact t.ins_leaves l

/-! ### Pairs of a new leaf -/

theorem vis_pairs (l : Leaf F) (V : List (Bool × Leaf F)) (m m' : Mark) (h : m.pairs = m'.pairs) :
    (V.foldl (vis l) m).pairs = (V.foldl (vis l) m').pairs := by
  induction V generalizing m m' with
  | nil => exact h
  | cons v V ih =>
    rw [List.foldl_cons, List.foldl_cons]
    apply ih
    unfold vis
    split
    · unfold visit
      split
      · simp [Mark.pairInsert, h]
      · simp only [Mark.call]
        split
        · simp [Mark.pairInsert, h]
        · exact h
    · exact h

theorem path_ctxs (t : Tree F) (o : Obj) (p : Path F) (l : Leaf F) (q : Path F) (h : t.path o p = some (l, q)) :
    (l, q) ∈ ctxs t p := by
  induction t generalizing p with
  | leaf m =>
    unfold Tree.path at h
    split at h
    · cases h; simp [ctxs]
    · cases h
  | node bb a b iha ihb =>
    unfold Tree.path at h
    simp only [ctxs, List.mem_append]
    split at h
    · exact Or.inl (iha _ h)
    · exact Or.inr (ihb _ h)

theorem old_pairs (stamp : Nat) (stat : Option (Tree F)) (l : Leaf F) (q : Path F) (m : Mark) (hc : l.stamp ≠ stamp) :
    (markLeaf stamp stat (fun _ _ c => c) l q m).pairs = m.pairs := by
  unfold markLeaf
  rw [if_neg hc]
  show m.pairs.map _ = m.pairs
  conv_rhs => rw [← List.map_id m.pairs]
  apply List.map_congr_left
  intro p _
  split <;> rfl

theorem old_fold (stamp : Nat) (stat : Option (Tree F)) (Z : List (Leaf F × Path F)) (m : Mark)
    (hc : ∀ c ∈ Z, c.1.stamp ≠ stamp) :
    (Z.foldl (fun m c => markLeaf stamp stat (fun _ _ c => c) c.1 c.2 m) m).pairs = m.pairs := by
  induction Z generalizing m with
  | nil => rfl
  | cons c Z ih =>
    rw [List.foldl_cons, ih _ (fun d hd => hc d (by simp [hd])), old_pairs _ _ _ _ _ (hc c (by simp))]

/-- Adding the pairs of one new dynamic leaf. -/
theorem mark_one (stamp : Nat) (stat : Option (Tree F)) (t : Tree F) (ps : List Pair) (o : Obj)
    (h : MarkPre stamp stat t) (ho : o ∈ t.objs) (hcur : ∀ l ∈ t.leaves, l.stamp = stamp ↔ l.obj = o)
    (hp : PairsMid (fun l => decide (l.stamp = stamp)) (leavesOf stat) t.leaves ps) :
    ∃ l q, t.path o [] = some (l, q) ∧
      PairsMid (fun _ => false) (leavesOf stat) t.leaves
        (markLeaf stamp stat (fun _ _ c => c) l q ⟨ps, []⟩).pairs := by
  obtain ⟨l, q, e, hl, _, _⟩ := path_spec t o [] ho h.wt (by intro s hs; cases hs)
  refine ⟨l, q, e, ?_⟩
  have key := (mark_all stamp stat (fun _ _ c => c) t ps h hp).1
  rw [markSubtree_eq] at key
  have hmem := path_ctxs t o [] l q e
  obtain ⟨A, B, hs⟩ := List.append_of_mem hmem
  have hlv : t.leaves = A.map Prod.fst ++ l :: B.map Prod.fst := by
    rw [← ctxs_fst t [], hs]; simp
  have wq : WFp q := ctxs_wf t [] h.wt (by intro s hs; cases hs) _ hmem
  have hn := h.nodup
  rw [hlv, List.map_append, List.nodup_append] at hn
  obtain ⟨_, hn, _⟩ := hn
  rw [List.map_append, List.map_cons, List.nodup_append, List.nodup_cons] at hn
  obtain ⟨_, ⟨nB, _⟩, dA⟩ := hn
  have hlc : l.stamp = stamp := (hcur l (by rw [hlv]; simp)).mpr hl
  have cA : ∀ c ∈ A, c.1.stamp ≠ stamp := by
    intro c hc he
    have h1 : c.1 ∈ A.map Prod.fst := List.mem_map.mpr ⟨c, hc, rfl⟩
    have := (hcur c.1 (by rw [hlv]; simp only [List.mem_append]; exact Or.inl h1)).mp he
    exact dA c.1.obj (List.mem_map.mpr ⟨c.1, h1, rfl⟩) l.obj (by simp) (this.trans hl.symm)
  have cB : ∀ c ∈ B, c.1.stamp ≠ stamp := by
    intro c hc he
    have h1 : c.1 ∈ B.map Prod.fst := List.mem_map.mpr ⟨c, hc, rfl⟩
    have := (hcur c.1 (by rw [hlv]; simp only [List.mem_append, List.mem_cons]; exact Or.inr (Or.inr h1))).mp he
    exact nB (List.mem_map.mpr ⟨c.1, h1, this.trans hl.symm⟩)
  rw [hs, List.foldl_append, List.foldl_cons, old_fold _ _ _ _ cB,
    markLeaf_cur _ _ _ _ _ _ h.ws wq hlc] at key
  rw [markLeaf_cur _ _ _ _ _ _ h.ws wq hlc]
  have hA := old_fold stamp stat A ⟨ps, []⟩ cA
  rw [vis_pairs l (visits stat q) ⟨ps, []⟩ _ hA.symm]
  exact key

/-- Adding the pairs of one new static leaf. -/
theorem mark_static (S D : List (Leaf F)) (ps : List Pair) (l : Leaf F) (hl : l ∈ S)
    (hn : ((S ++ D).map Leaf.obj).Nodup)
    (hp : PairsMid (fun x => decide (x.obj = l.obj)) S D ps) :
    PairsMid (fun _ => false) S D ((D.map (fun s => (true, s))).foldl (vis l) ⟨ps, []⟩).pairs := by
  have hlo : l.obj ∈ S.map Leaf.obj := List.mem_map.mpr ⟨l, hl, rfl⟩
  rw [List.map_append, List.nodup_append] at hn
  obtain ⟨nS, nD, dis⟩ := hn
  have oD : ∀ d ∈ D, d.obj ≠ l.obj := fun d hd he => dis l.obj hlo d.obj (List.mem_map.mpr ⟨d, hd, rfl⟩) he.symm
  have cnt : ∀ x y, cntP ((D.map (fun s => (true, s))).foldl (vis l) ⟨ps, []⟩).pairs x y =
      cntP ps x y + if l.obj = x then D.countP (fun s => decide (s.obj = y) && l.bb.intersects s.bb) else 0 := by
    intro x y
    rw [foldl_vis_cntP, List.countP_map]
    congr 1
    by_cases h : l.obj = x
    · rw [if_pos h]
      congr 1
      funext s
      simp [h, Bool.and_comm]
    · rw [if_neg h, List.countP_eq_zero]
      intro s _
      simp [h]
  refine ⟨?_, ?_, ?_⟩
  · apply foldl_vis_dom
    · exact hp.dom
    · intro v hv _
      obtain ⟨s, hs, rfl⟩ := List.mem_map.mp hv
      refine ⟨(oD s hs).symm, List.mem_map.mpr ⟨s, hs, rfl⟩, ?_⟩
      rw [List.map_append]; exact List.mem_append_left _ hlo
    · intro v hv hb
      obtain ⟨s, hs, rfl⟩ := List.mem_map.mp hv
      cases hb
  · intro x hx y hy hxy
    rw [cnt, cnt, if_neg (oD x hx).symm, if_neg (oD y hy).symm, Nat.add_zero, Nat.add_zero,
      hp.dd x hx y hy hxy]
    simp [oD x hx, oD y hy]
  · intro s hs y hy
    rw [cnt, hp.sd s hs y hy]
    by_cases he : l.obj = s.obj
    · have : s = l := List.inj_on_of_nodup_map nS hs hl he.symm
      subst this
      rw [if_pos rfl, countP_obj D y (fun t => s.bb.intersects t.bb) nD hy]
      simp
    · rw [if_neg he]
      simp [oD y hy, Ne.symm he]

end CP
