import Verif.Proofs.NodeZip
import Verif.Proofs.HashRename
import Verif.Props.Pairs

/-! # Marking on trees in memory -/

namespace CP
open GoFloat
variable {F : Type} [GoFloat F]

theorem AtLeaf.name {m : NMem F} {n : NId} {l : Leaf F} (h : AtLeaf m.nd n l) : m.name n = l.obj := by
  simp [NMem.name, h.1]

/-- A pair of leaves, by their shapes. -/
def renP (m : NMem F) (q : Pair) : Pair := ⟨m.name q.a, m.name q.b, q.cid⟩

/-- The pairs in memory are the pairs of the values; all of them are between leaves of `LI`. -/
def MR (m : NMem F) (LI : List NId) (pm : PMark) (mk : Mark) : Prop :=
  ∃ qs, PHeap.Reps pm.ph qs ∧ mk.pairs = qs.map (renP m) ∧ mk.log = pm.log ∧ ∀ q ∈ qs, q.a ∈ LI ∧ q.b ∈ LI

theorem MR.congr {m m' : NMem F} {LI LI' : List NId} {pm : PMark} {mk : Mark} (h : MR m LI pm mk) (hn : ∀ x ∈ LI, m'.name x = m.name x)
    (hL : ∀ x ∈ LI, x ∈ LI') : MR m' LI' pm mk := by
  obtain ⟨qs, h1, h2, h3, h4⟩ := h
  refine ⟨qs, h1, ?_, h3, fun q hq => ⟨hL _ (h4 q hq).1, hL _ (h4 q hq).2⟩⟩
  rw [h2]
  refine List.map_congr_left fun q hq => ?_
  simp only [renP, hn _ (h4 q hq).1, hn _ (h4 q hq).2]

theorem MR.insert {m : NMem F} {LI : List NId} {pm : PMark} {mk : Mark} (h : MR m LI pm mk) {a b : NId} (hab : a ≠ b) (ha : a ∈ LI) (hb : b ∈ LI) :
    MR m LI { pm with ph := pm.ph.insert a b } (mk.pairInsert (m.name a) (m.name b)) := by
  obtain ⟨qs, h1, h2, h3, h4⟩ := h
  obtain ⟨h', e, r⟩ := PHeap.reps_step h1 (.insert a b) hab
  simp only [PHeap.step, Option.some.injEq] at e
  subst e
  refine ⟨_, r, ?_, h3, ?_⟩
  · simp only [Mark.pairInsert, pairStep, List.map_cons, h2, renP]
  · intro q hq
    rcases List.mem_cons.1 hq with rfl | hq
    · exact ⟨ha, hb⟩
    · exact h4 q hq

theorem MR.visit {m : NMem F} {LI : List NId} {pm : PMark} {mk : Mark} (h : MR m LI pm mk) {l s : NId} {L S : Leaf F} (hl : AtLeaf m.nd l L)
    (hs : AtLeaf m.nd s S) (hls : l ≠ s) (h1 : l ∈ LI) (h2 : s ∈ LI) (left : Bool) :
    MR m LI (m.visit l left pm s) (CP.visit L left mk S) := by
  have key : ∀ {pm : PMark} {mk : Mark}, MR m LI pm mk → MR m LI { pm with log := pm.log ++ [(m.name l, m.name s, 0#32)] } (mk.call L.obj S.obj 0#32) := by
    rintro pm mk ⟨qs, k1, k2, k3, k4⟩
    refine ⟨qs, k1, k2, ?_, k4⟩
    simp only [Mark.call, k3, hl.name, hs.name]
  unfold NMem.visit CP.visit
  cases left with
  | true =>
    have := h.insert hls h1 h2
    rw [hl.name, hs.name] at this
    exact this
  | false =>
    simp only [Bool.false_eq_true, if_false, hl.2.2, hs.2.2]
    by_cases e : S.stamp < L.stamp
    · simp only [if_pos e]
      have := h.insert hls.symm h2 h1
      rw [hl.name, hs.name] at this
      exact key this
    · simp only [if_neg e]
      exact key h

theorem MR.markLeafQuery {m : NMem F} {LI : List NId} {l : NId} {L : Leaf F} (hl : AtLeaf m.nd l L) (hL : l ∈ LI) (left : Bool) (t : PT F) :
    ∀ {p : Option NId} {fuel : Nat} {pm : PMark} {mk : Mark}, Rooted m.nd p t → l ∉ t.ids → (∀ x ∈ t.lvs, x.1 ∈ LI) → t.ids.length ≤ fuel →
      MR m LI pm mk → ∃ pm', m.markLeafQuery l left fuel (some t.id) pm = some pm' ∧ MR m LI pm' (CP.markLeafQuery L left t.erase mk) := by
  induction t with
  | leaf n S =>
    intro p fuel pm mk hr hn hI hf h
    obtain ⟨fuel, rfl⟩ : ∃ g, fuel = g + 1 := ⟨fuel - 1, by simp [PT.ids] at hf; omega⟩
    simp only [NMem.markLeafQuery, PT.id_leaf, hr.1.1, Option.isSome_some, if_true, hl.2.1, hr.1.2.1, PT.erase, CP.markLeafQuery]
    split
    · exact ⟨_, rfl, h.visit hl hr.1 (fun e => hn (by simp [PT.ids, e])) hL (hI (n, S) (by simp [PT.lvs])) left⟩
    · exact ⟨_, rfl, h⟩
  | node n bb a b iha ihb =>
    intro p fuel pm mk hr hn hI hf h
    obtain ⟨fuel, rfl⟩ : ∃ g, fuel = g + 1 := ⟨fuel - 1, by simp [PT.ids] at hf; omega⟩
    obtain ⟨h1, h2, h3, h4, h5, h6, h7⟩ := hr
    simp only [PT.ids, List.mem_cons, List.mem_append, not_or] at hn
    simp only [PT.ids, List.length_cons, List.length_append] at hf
    simp only [NMem.markLeafQuery, PT.id_node, h1, Option.isSome_none, Bool.false_eq_true, if_false, hl.2.1, h2, h4, h5, PT.erase, CP.markLeafQuery]
    split
    · obtain ⟨pm1, e1, k1⟩ := iha h6 hn.2.1 (fun x hx => hI x (by simp [PT.lvs, hx])) (by omega : a.ids.length ≤ fuel) h
      obtain ⟨pm2, e2, k2⟩ := ihb h7 hn.2.2 (fun x hx => hI x (by simp [PT.lvs, hx])) (by omega : b.ids.length ≤ fuel) k1
      exact ⟨pm2, by rw [e1]; exact e2, k2⟩
    · exact ⟨_, rfl, h⟩

theorem MR.markUp {m : NMem F} {LI : List NId} {l : NId} {L : Leaf F} (hl : AtLeaf m.nd l L) (hL : l ∈ LI) (path : List (Fr F)) :
    ∀ {u : PT F} {fuel : Nat} {pm : PMark} {mk : Mark}, Rooted m.nd (ptop path) u → RootedP m.nd path u.id → l ∉ pids path →
      (∀ x ∈ plvs path, x.1 ∈ LI) → (u.ids ++ pids path).Nodup → path.length < fuel → (pids path).length ≤ m.next → MR m LI pm mk →
      ∃ pm', m.markUp l fuel u.id pm = some pm' ∧
        MR m LI pm' ((path.map fun f => (f.isA, f.sib.erase)).foldl (fun mk s => CP.markLeafQuery L s.1 s.2 mk) mk) := by
  induction path with
  | nil =>
    intro u fuel pm mk hr _ _ _ _ hf _ h
    obtain ⟨fuel, rfl⟩ : ∃ g, fuel = g + 1 := ⟨fuel - 1, by simp at hf; omega⟩
    refine ⟨pm, ?_, h⟩
    have := hr.root.2.1
    simp only [ptop, List.head?_nil, Option.map_none] at this
    simp only [NMem.markUp, this]
  | cons f r ih =>
    intro u fuel pm mk hr hp hn hI nd hf hlen h
    obtain ⟨fuel, rfl⟩ : ∃ g, fuel = g + 1 := ⟨fuel - 1, by simp at hf; omega⟩
    have hpar : (m.nd u.id).parent = some f.n := hr.root.2.1
    have hwhole : Rooted m.nd (ptop r) (f.fill u) ∧ RootedP m.nd r (f.fill u).id := by
      have := (rooted_plug m.nd (f :: r) u).2 ⟨hr, hp⟩
      exact (rooted_plug m.nd r (f.fill u)).1 this
    obtain ⟨h1, h2, h3, h4, h5, h6, h7⟩ := hp
    rw [pids_cons] at hn nd hlen
    rw [plvs_cons] at hI
    simp only [List.mem_cons, List.mem_append, not_or] at hn
    have hsl : f.sib.ids.length ≤ m.next := by
      simp only [List.length_cons, List.length_append] at hlen
      exact le_trans (by omega) hlen
    have hne : f.sib.id ≠ u.id := fun e => by
      simp only [List.nodup_append, List.mem_cons, List.mem_append] at nd
      exact nd.2.2 u.id u.id_mem f.sib.id (.inr (.inl f.sib.id_mem)) e.symm
    obtain ⟨pm1, e1, k1⟩ := MR.markLeafQuery hl hL f.isA f.sib h6 hn.2.1 (fun x hx => hI x (by simp [hx])) hsl h
    have nd' : ((f.fill u).ids ++ pids r).Nodup := by
      refine (List.Perm.nodup_iff ?_).2 nd
      rw [List.perm_iff_count]
      intro x
      simp only [Fr.fill]
      split <;> simp only [PT.ids, List.count_append, List.count_cons, List.cons_append] <;> omega
    obtain ⟨pm2, e2, k2⟩ := ih (u := f.fill u) (fuel := fuel) hwhole.1 hwhole.2 hn.2.2 (fun x hx => hI x (by simp [hx])) nd'
      (by simp at hf; omega) (by
        simp only [List.length_cons, List.length_append] at hlen
        exact le_trans (by omega) hlen) k1
    rw [f.fill_id] at e2
    refine ⟨pm2, ?_, k2⟩
    simp only [NMem.markUp, hpar, h4, h5]
    by_cases e : f.isA = true
    · simp only [e, if_true] at e1 ⊢
      rw [e1]
      exact e2
    · have e' : f.isA = false := by simpa using e
      simp only [e', if_false, Bool.false_eq_true, Option.some.injEq, hne] at e1 ⊢
      rw [e1]
      exact e2

/-- The old pairs of a leaf. -/
theorem MR.old {m : NMem F} {LI : List NId} {l : NId} {L : Leaf F} (hl : AtLeaf m.nd l L) (hL : l ∈ LI)
    (inj : ∀ x ∈ LI, ∀ y ∈ LI, m.name x = m.name y → x = y) {pm : PMark} {mk : Mark} (h : MR m LI pm mk) (f : PairFn) :
    ∃ pm', ((pm.ph.mark l fun x y c => f (m.name x) (m.name y) c).map fun r =>
        (⟨r.1, pm.log ++ r.2.map fun e => (m.name e.1, m.name e.2.1, e.2.2)⟩ : PMark)) = some pm' ∧
      MR m LI pm' { pairs := mk.pairs.map fun p => if p.b = L.obj then { p with cid := f p.a L.obj p.cid } else p
                    log := mk.log ++ (mk.pairs.filter fun p => decide (p.b = L.obj)).map fun p => (p.a, L.obj, p.cid) } := by
  obtain ⟨qs, h1, h2, h3, h4⟩ := h
  obtain ⟨h', e, r⟩ := h1.mark l fun x y c => f (m.name x) (m.name y) c
  rw [e]
  have key : ∀ q ∈ qs, m.name q.b = L.obj ↔ q.b = l := fun q hq =>
    ⟨fun e => inj _ (h4 q hq).2 _ hL (by rw [e, hl.name]), fun e => by rw [e, hl.name]⟩
  refine ⟨_, rfl, _, r, ?_, ?_, ?_⟩
  · simp only [h2, pairStep, List.map_map]
    refine List.map_congr_left fun q hq => ?_
    simp only [Function.comp, renP, key q hq]
    split
    · next e => simp [hl.name]
    · rfl
  · simp only [h3, h2, List.map_map]
    congr 1
    rw [List.filter_map, List.map_map]
    have : (qs.filter ((fun p : Pair => decide (p.b = L.obj)) ∘ renP m)) = qs.filter fun q => decide (q.b = l) := by
      refine List.filter_congr fun q hq => ?_
      simp only [Function.comp, renP, key q hq]
    rw [this]
    refine List.map_congr_left fun q hq => ?_
    simp [renP, hl.name]
  · intro q hq
    obtain ⟨q0, hq0, rfl⟩ := List.mem_map.1 hq
    have := h4 q0 hq0
    split <;> exact this

/-- A tree that may be empty. -/
def idsO (T : Option (PT F)) : List NId := match T with | none => [] | some t => t.ids
def lvsO (T : Option (PT F)) : List (NId × Leaf F) := match T with | none => [] | some t => t.lvs
def RootedO (nd : NId → NRec F) (T : Option (PT F)) : Prop := match T with | none => True | some t => Rooted nd none t

theorem lvsO_ids (T : Option (PT F)) : ∀ x ∈ lvsO T, x.1 ∈ idsO T := by
  cases T with
  | none => simp [lvsO]
  | some t => exact t.lvs_ids

/-- The values above assume this of the leaf that is marked. -/
structure MarkOk (m : NMem F) (LI : List NId) (S : Option (PT F)) (T : PT F) : Prop where
  stat : RootedO m.nd S
  dyn : Rooted m.nd none T
  nodup : (T.ids ++ idsO S).Nodup
  li : ∀ x ∈ T.lvs ++ lvsO S, x.1 ∈ LI
  inj : ∀ x ∈ LI, ∀ y ∈ LI, m.name x = m.name y → x = y
  lenT : T.ids.length ≤ m.next
  lenS : (idsO S).length ≤ m.next

theorem MR.markLeaf {m : NMem F} {LI : List NId} {S : Option (PT F)} {path : List (Fr F)} {l : NId} {L : Leaf F}
    (ok : MarkOk m LI S (plug path (.leaf l L))) (stamp : Nat) (f : PairFn) {pm : PMark} {mk : Mark} (h : MR m LI pm mk) :
    ∃ pm', m.markLeaf stamp (S.map PT.id) f l pm = some pm' ∧
      MR m LI pm' (CP.markLeaf stamp (S.map PT.erase) f L (path.map fun f => (f.isA, f.sib.erase)) mk) := by
  have hr := (rooted_plug m.nd path (.leaf l L)).1 ok.dyn
  have hl : AtLeaf m.nd l L := hr.1.1
  have hmem : (l, L) ∈ (plug path (PT.leaf l L)).lvs := (plug_lvs path (.leaf l L)).mem_iff.2 (by simp [PT.lvs])
  have hL : l ∈ LI := ok.li _ (List.mem_append_left _ hmem)
  have ndT : (([l] : List NId) ++ pids path).Nodup := ((plug_ids path (.leaf l L)).nodup_iff).1 ok.nodup.of_append_left
  have hlp : l ∉ pids path := fun hc => by
    simp only [List.cons_append, List.nil_append, List.nodup_cons] at ndT
    exact ndT.1 hc
  have hlen := (plug_ids path (PT.leaf l L)).length_eq
  have hlenT := ok.lenT
  simp only [PT.ids, List.length_append, List.length_cons, List.length_nil] at hlen
  have hpl : path.length ≤ (pids path).length := by
    clear * -
    induction path with
    | nil => simp
    | cons f r ih => rw [pids_cons]; simp only [List.length_cons, List.length_append]; omega
  have hfuel : path.length < m.next := lt_of_lt_of_le (show path.length < (plug path (PT.leaf l L)).ids.length by omega) hlenT
  have hpn : (pids path).length ≤ m.next := le_trans (show (pids path).length ≤ (plug path (PT.leaf l L)).ids.length by omega) hlenT
  have hI : ∀ x ∈ plvs path, x.1 ∈ LI := fun x hx => ok.li x (List.mem_append_left _ ((plug_lvs path (.leaf l L)).mem_iff.2 (by simp [hx])))
  have up : ∀ {pm mk}, MR m LI pm mk → ∃ pm', m.markUp l m.next l pm = some pm' ∧
      MR m LI pm' ((path.map fun f => (f.isA, f.sib.erase)).foldl (fun mk s => CP.markLeafQuery L s.1 s.2 mk) mk) :=
    fun hh => MR.markUp hl hL path (u := .leaf l L) hr.1 hr.2 hlp hI ndT hfuel hpn hh
  simp only [NMem.markLeaf, CP.markLeaf, hl.2.2]
  split
  · cases S with
    | none => exact up h
    | some s =>
      have hls : l ∉ s.ids := fun hc => by
        have := ok.nodup
        rw [List.nodup_append] at this
        exact this.2.2 l ((PT.lvs_ids _) _ hmem) l hc rfl
      obtain ⟨pm1, e1, k1⟩ := MR.markLeafQuery hl hL false s ok.stat hls (fun x hx => ok.li x (List.mem_append_right _ hx)) ok.lenS h
      obtain ⟨pm2, e2, k2⟩ := up k1
      exact ⟨pm2, by simp only [Option.map_some, e1]; exact e2, k2⟩
  · exact MR.old hl hL ok.inj h f

theorem MR.markSubtree {m : NMem F} {LI : List NId} {S : Option (PT F)} (stamp : Nat) (f : PairFn) (t : PT F) :
    ∀ {path : List (Fr F)} {fuel : Nat} {pm : PMark} {mk : Mark}, MarkOk m LI S (plug path t) → t.ids.length ≤ fuel → MR m LI pm mk →
      ∃ pm', m.markSubtree stamp (S.map PT.id) f fuel (some t.id) pm = some pm' ∧
        MR m LI pm' (CP.markSubtree stamp (S.map PT.erase) f t.erase (path.map fun f => (f.isA, f.sib.erase)) mk) := by
  induction t with
  | leaf n L =>
    intro path fuel pm mk ok hf h
    obtain ⟨fuel, rfl⟩ : ∃ g, fuel = g + 1 := ⟨fuel - 1, by simp [PT.ids] at hf; omega⟩
    have hr := ((rooted_plug m.nd path (.leaf n L)).1 ok.dyn).1
    simp only [NMem.markSubtree, PT.id_leaf, hr.1.1, Option.isSome_some, if_true, PT.erase, CP.markSubtree]
    exact MR.markLeaf ok stamp f h
  | node n bb a b iha ihb =>
    intro path fuel pm mk ok hf h
    obtain ⟨fuel, rfl⟩ : ∃ g, fuel = g + 1 := ⟨fuel - 1, by simp [PT.ids] at hf; omega⟩
    obtain ⟨h1, h2, h3, h4, h5, h6, h7⟩ := ((rooted_plug m.nd path (.node n bb a b)).1 ok.dyn).1
    simp only [PT.ids, List.length_cons, List.length_append] at hf
    simp only [NMem.markSubtree, PT.id_node, h1, Option.isSome_none, Bool.false_eq_true, if_false, h4, h5, PT.erase, CP.markSubtree]
    obtain ⟨pm1, e1, k1⟩ := iha (path := ⟨true, n, bb, b⟩ :: path) (fuel := fuel) ok (by omega) h
    obtain ⟨pm2, e2, k2⟩ := ihb (path := ⟨false, n, bb, a⟩ :: path) (fuel := fuel) ok (by omega) k1
    rw [e1]
    exact ⟨pm2, e2, k2⟩

theorem MR.clear {m : NMem F} {LI : List NId} {l : NId} {L : Leaf F} (hl : AtLeaf m.nd l L) (hL : l ∈ LI)
    (inj : ∀ x ∈ LI, ∀ y ∈ LI, m.name x = m.name y → x = y) {ph : PHeap} {ps : List Pair} (h : MR m LI ⟨ph, []⟩ ⟨ps, []⟩) :
    ∃ ph', ph.clear l = some ph' ∧ MR m (LI.filter (fun x => decide (x ≠ l))) ⟨ph', []⟩ ⟨pairsClear ps L.obj, []⟩ := by
  obtain ⟨qs, h1, h2, h3, h4⟩ := h
  obtain ⟨ph', e, r⟩ := PHeap.reps_step h1 (.clear l) trivial
  refine ⟨ph', e, _, r, ?_, rfl, ?_⟩
  · simp only at h2
    simp only [h2, pairsClear, pairStep, List.filter_map]
    congr 1
    refine List.filter_congr fun q hq => ?_
    have ka : m.name q.a = L.obj ↔ q.a = l :=
      ⟨fun e => inj _ (h4 q hq).1 _ hL (by rw [e, hl.name]), fun e => by rw [e, hl.name]⟩
    have kb : m.name q.b = L.obj ↔ q.b = l :=
      ⟨fun e => inj _ (h4 q hq).2 _ hL (by rw [e, hl.name]), fun e => by rw [e, hl.name]⟩
    simp only [Function.comp, renP, ka, kb]
    by_cases e1 : q.a = l <;> by_cases e2 : q.b = l <;> simp [e1, e2]
  · intro q hq
    simp only [pairStep, List.mem_filter, decide_eq_true_eq] at hq
    have := h4 q hq.1
    simp only [List.mem_filter, decide_eq_true_eq]
    exact ⟨⟨this.1, hq.2.1⟩, this.2, hq.2.2⟩

end CP
