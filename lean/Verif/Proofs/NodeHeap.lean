import Verif.Model.NodeHeap
import Verif.Proofs.BBTree5
import Mathlib.Data.List.Count
import Mathlib.Tactic.Linarith

/-! # Trees in memory: insertion and removal of leaves -/

namespace CP
open GoFloat

/-- A tree with the nodes it is made of. -/
inductive PT (F : Type) where
  | leaf (n : NId) (l : Leaf F)
  | node (n : NId) (bb : BB F) (a b : PT F)

namespace PT
variable {F : Type}

def id : PT F → NId
  | leaf n _ => n
  | node n _ _ _ => n
def erase : PT F → Tree F
  | leaf _ l => .leaf l
  | node _ bb a b => .node bb a.erase b.erase
def ids : PT F → List NId
  | leaf n _ => [n]
  | node n _ a b => n :: (a.ids ++ b.ids)
def lvs : PT F → List (NId × Leaf F)
  | leaf n l => [(n, l)]
  | node _ _ a b => a.lvs ++ b.lvs
def isLeaf : PT F → Bool
  | leaf _ _ => true
  | node _ _ _ _ => false
def bb : PT F → BB F
  | leaf _ l => l.bb
  | node _ bb _ _ => bb

theorem id_node (n : NId) (bb : BB F) (a b : PT F) : (node n bb a b).id = n := rfl
theorem id_leaf (n : NId) (l : Leaf F) : (leaf n l).id = n := rfl
theorem bb_erase (t : PT F) : t.erase.bb = t.bb := by cases t <;> rfl
theorem id_mem (t : PT F) : t.id ∈ t.ids := by cases t <;> simp [id, ids]
theorem ids_pos (t : PT F) : 0 < t.ids.length := List.length_pos_of_mem t.id_mem
theorem lvs_erase [GoFloat F] (t : PT F) : t.lvs.map Prod.snd = t.erase.leaves := by
  induction t with
  | leaf => rfl
  | node n bb a b iha ihb => simp [lvs, erase, Tree.leaves, iha, ihb]
theorem lvs_ids (t : PT F) : ∀ x ∈ t.lvs, x.1 ∈ t.ids := by
  induction t with
  | leaf => simp [lvs, ids]
  | node n bb a b iha ihb =>
    intro x hx
    rcases List.mem_append.1 hx with h | h
    · simp [ids, iha x h]
    · simp [ids, ihb x h]

end PT

variable {F : Type} [GoFloat F]

/-- The leaf `l` in the node `n`. -/
def AtLeaf (nd : NId → NRec F) (n : NId) (l : Leaf F) : Prop :=
  (nd n).obj = some l.obj ∧ (nd n).bb = l.bb ∧ (nd n).stamp = l.stamp

/-- The memory holds the tree, whose root has the parent `p`. -/
def Rooted (nd : NId → NRec F) : Option NId → PT F → Prop
  | p, .leaf n l => AtLeaf nd n l ∧ (nd n).parent = p
  | p, .node n bb a b => (nd n).obj = none ∧ (nd n).bb = bb ∧ (nd n).parent = p ∧ (nd n).a = some a.id ∧ (nd n).b = some b.id ∧
      Rooted nd (some n) a ∧ Rooted nd (some n) b

/-- The pool that starts at `o`. -/
def Pooled (nd : NId → NRec F) : Option NId → List NId → Prop
  | o, [] => o = none
  | o, x :: t => o = some x ∧ Pooled nd (nd x).parent t

/-- Every node ever allocated is in the list, once. -/
def Acc (m : NMem F) (L : List NId) : Prop := ∀ x, L.count x = if x < m.next then 1 else 0

theorem Acc.nodup {m : NMem F} {L : List NId} (h : Acc m L) : L.Nodup := by
  rw [List.nodup_iff_count_le_one]
  intro x
  rw [h x]
  split <;> omega

theorem Acc.lt {m : NMem F} {L : List NId} (h : Acc m L) {x : NId} (hx : x ∈ L) : x < m.next := by
  have h1 := List.count_pos_iff.2 hx
  rw [h x] at h1
  by_contra hc
  rw [if_neg hc] at h1
  omega

theorem Acc.length {m : NMem F} {L : List NId} (h : Acc m L) : L.length = m.next := by
  have : L.Perm (List.range m.next) := by
    rw [List.perm_iff_count]
    intro x
    rw [h x, List.count_range]
  rw [this.length_eq, List.length_range]

theorem Acc.congr {m m' : NMem F} {L L' : List NId} (h : Acc m L) (hn : m'.next = m.next) (hL : L'.Perm L) : Acc m' L' := by
  intro x
  rw [hL.count_eq, hn]
  exact h x

theorem Rooted.congr {nd nd' : NId → NRec F} {t : PT F} : ∀ {p}, Rooted nd p t → (∀ x ∈ t.ids, nd' x = nd x) → Rooted nd' p t := by
  induction t with
  | leaf n l =>
    intro p h he
    have := he n (by simp [PT.ids])
    simpa only [Rooted, AtLeaf, this] using h
  | node n bb a b iha ihb =>
    intro p h he
    have := he n (by simp [PT.ids])
    obtain ⟨h1, h2, h3, h4, h5, h6, h7⟩ := h
    refine ⟨by rw [this, h1], by rw [this, h2], by rw [this, h3], by rw [this, h4], by rw [this, h5], ?_, ?_⟩
    · exact iha h6 fun x hx => he x (by simp [PT.ids, hx])
    · exact ihb h7 fun x hx => he x (by simp [PT.ids, hx])

/-- Another parent for the root. -/
theorem Rooted.reparent {nd nd' : NId → NRec F} {t : PT F} {p q : Option NId} (h : Rooted nd p t) (nd0 : t.ids.Nodup)
    (h1 : nd' t.id = { nd t.id with parent := q }) (h2 : ∀ x ∈ t.ids, x ≠ t.id → nd' x = nd x) : Rooted nd' q t := by
  cases t with
  | leaf n l =>
    simp only [PT.id] at h1
    simpa only [Rooted, AtLeaf, h1, and_true] using h.1
  | node n bb a b =>
    simp only [PT.id] at h1 h2
    simp only [PT.ids, List.nodup_cons, List.mem_append, not_or] at nd0
    obtain ⟨k1, k2, k3, k4, k5, k6, k7⟩ := h
    refine ⟨by rw [h1]; exact k1, by rw [h1]; exact k2, by rw [h1], by rw [h1]; exact k4, by rw [h1]; exact k5, ?_, ?_⟩
    · exact k6.congr fun x hx => h2 x (by simp [PT.ids, hx]) fun e => nd0.1.1 (e ▸ hx)
    · exact k7.congr fun x hx => h2 x (by simp [PT.ids, hx]) fun e => nd0.1.2 (e ▸ hx)

theorem Rooted.root {nd : NId → NRec F} {t : PT F} {p : Option NId} (h : Rooted nd p t) :
    (nd t.id).bb = t.bb ∧ (nd t.id).parent = p ∧ ((nd t.id).obj.isSome = t.isLeaf) := by
  cases t with
  | leaf n l => exact ⟨h.1.2.1, h.2, by simp [PT.id, h.1.1, PT.isLeaf]⟩
  | node n bb a b => exact ⟨h.2.1, h.2.2.1, by simp [PT.id, h.1, PT.isLeaf]⟩

theorem Rooted.leaf {nd : NId → NRec F} {t : PT F} : ∀ {p : Option NId}, Rooted nd p t → ∀ x ∈ t.lvs, AtLeaf nd x.1 x.2 := by
  induction t with
  | leaf n l =>
    intro p h x hx
    simp only [PT.lvs, List.mem_singleton] at hx
    subst hx
    exact h.1
  | node n bb a b iha ihb =>
    intro p h x hx
    rcases List.mem_append.1 hx with hx | hx
    · exact iha h.2.2.2.2.2.1 x hx
    · exact ihb h.2.2.2.2.2.2 x hx

theorem Pooled.congr {nd nd' : NId → NRec F} {fs : List NId} : ∀ {o}, Pooled nd o fs → (∀ x ∈ fs, nd' x = nd x) → Pooled nd' o fs := by
  induction fs with
  | nil => exact fun h _ => h
  | cons x t ih =>
    intro o h he
    refine ⟨h.1, ?_⟩
    rw [he x (by simp)]
    exact ih h.2 fun y hy => he y (by simp [hy])

theorem Pooled.head {nd : NId → NRec F} {fs : List NId} {o : Option NId} (h : Pooled nd o fs) : o = fs.head? := by
  cases fs with
  | nil => exact h
  | cons x t => exact h.1

namespace NMem

@[simp] theorem set_self (m : NMem F) (n : NId) (v : NRec F) : (m.set n v).nd n = v := by simp [set]
theorem set_ne (m : NMem F) (n : NId) (v : NRec F) {x : NId} (h : x ≠ n) : (m.set n v).nd x = m.nd x := by simp [set, h]
@[simp] theorem set_next (m : NMem F) (n : NId) (v : NRec F) : (m.set n v).next = m.next := rfl
@[simp] theorem set_pool (m : NMem F) (n : NId) (v : NRec F) : (m.set n v).pool = m.pool := rfl

/-- A node goes to the pool. -/
theorem recycle_spec {st : Bool} {m : NMem F} {n : NId} {fs : List NId} (hp : Pooled m.nd (m.pool st) fs) (hn : n ∉ fs) :
    Pooled (m.recycle st n).nd ((m.recycle st n).pool st) (n :: fs) ∧ (m.recycle st n).next = m.next ∧
    (∀ x, x ≠ n → (m.recycle st n).nd x = m.nd x) ∧ (m.recycle st n).pool (!st) = m.pool (!st) := by
  refine ⟨?_, rfl, ?_, ?_⟩
  · refine ⟨by simp [recycle, setAt], ?_⟩
    have : ((m.recycle st n).nd n).parent = m.pool st := by simp [recycle, set]
    rw [this]
    refine hp.congr fun x hx => ?_
    have hne : x ≠ n := fun e => hn (e ▸ hx)
    simp [recycle, set, hne]
  · intro x hx
    simp [recycle, set, hx]
  · simp [recycle, setAt, set]

theorem count_next (n x : Nat) : (if x < n then 1 else 0) + (if (n == x) = true then 1 else 0) = if x < n + 1 then 1 else 0 := by
  by_cases e : x = n
  · subst e; simp
  · have h1 : (n == x) = false := by simp; omega
    by_cases h : x < n
    · have : x < n + 1 := by omega
      simp [h, this, h1]
    · have : ¬ x < n + 1 := by omega
      simp [h, this, h1]

/-- What is left of a pool after one node was taken; an empty pool is filled first. -/
def Took (fs fs' : List NId) : Prop := fs.length = fs'.length + 1 ∨ (fs = [] ∧ fs'.length = 1024)

theorem grow (st : Bool) (R : List NId) (ks : List Nat) : ∀ {m : NMem F} {fs : List NId}, Pooled m.nd (m.pool st) fs → Acc m (fs ++ R) →
    ∃ fs', Pooled (ks.foldl (fun m _ => m.alloc.2.recycle st m.alloc.1) m).nd ((ks.foldl (fun m _ => m.alloc.2.recycle st m.alloc.1) m).pool st) fs' ∧
      Acc (ks.foldl (fun m _ => m.alloc.2.recycle st m.alloc.1) m) (fs' ++ R) ∧
      (∀ x ∈ R, (ks.foldl (fun m _ => m.alloc.2.recycle st m.alloc.1) m).nd x = m.nd x) ∧
      (ks.foldl (fun m _ => m.alloc.2.recycle st m.alloc.1) m).pool (!st) = m.pool (!st) ∧
      fs'.length = fs.length + ks.length := by
  induction ks with
  | nil => exact fun {m fs} h1 h2 => ⟨fs, h1, h2, fun _ _ => rfl, rfl, rfl⟩
  | cons k ks ih =>
    intro m fs h1 h2
    have hf : m.next ∉ fs := fun hc => absurd (h2.lt (List.mem_append_left _ hc)) (lt_irrefl _)
    have hR : m.next ∉ R := fun hc => absurd (h2.lt (List.mem_append_right _ hc)) (lt_irrefl _)
    have hp : Pooled m.alloc.2.nd (m.alloc.2.pool st) fs := h1.congr fun x hx => by
      have : x ≠ m.next := fun e => hf (e ▸ hx)
      simp [alloc, set, this]
    obtain ⟨q1, q2, q3, q4⟩ := recycle_spec (n := m.alloc.1) hp hf
    have hacc : Acc (m.alloc.2.recycle st m.alloc.1) (m.alloc.1 :: fs ++ R) := by
      intro x
      have := h2 x
      rw [q2]
      simp only [alloc, List.cons_append, List.count_cons, set_next]
      rw [this]
      exact count_next m.next x
    obtain ⟨fs', k1, k2, k3, k4, k5⟩ := ih q1 hacc
    refine ⟨fs', k1, k2, fun x hx => ?_, ?_, ?_⟩
    · have hne : x ≠ m.next := fun e => hR (e ▸ hx)
      have := k3 x hx
      simp only [List.foldl_cons]
      rw [this, q3 x hne]
      simp [alloc, set, hne]
    · simp only [List.foldl_cons]
      rw [k4, q4]
      simp [alloc]
    · rw [k5]
      simp only [List.length_cons]
      omega

theorem fromPool_spec {st : Bool} {m : NMem F} {fs R : List NId} (h1 : Pooled m.nd (m.pool st) fs) (h2 : Acc m (fs ++ R)) :
    ∃ fs', Pooled (m.fromPool st).2.nd ((m.fromPool st).2.pool st) fs' ∧ Acc (m.fromPool st).2 ((m.fromPool st).1 :: fs' ++ R) ∧
      (∀ x ∈ R, (m.fromPool st).2.nd x = m.nd x) ∧ (m.fromPool st).2.pool (!st) = m.pool (!st) ∧ Took fs fs' := by
  cases fs with
  | cons n t =>
    have e : m.fromPool st = (n, { m with pool := setAt m.pool st (m.nd n).parent }) := by
      simp only [fromPool, h1.1]
    rw [e]
    refine ⟨t, ?_, h2, fun _ _ => rfl, by simp [setAt], .inl rfl⟩
    simpa [setAt] using h1.2
  | nil =>
    have h0 : m.pool st = none := h1
    obtain ⟨fs', k1, k2, k3, k4, k5⟩ := grow st R (List.range 1024) h1 h2
    simp only [fromPool, h0]
    generalize (List.range 1024).foldl (fun m _ => m.alloc.2.recycle st m.alloc.1) m = m' at k1 k2 k3 k4
    have hf : m'.next ∉ fs' := fun hc => absurd (k2.lt (List.mem_append_left _ hc)) (lt_irrefl _)
    have hR : m'.next ∉ R := fun hc => absurd (k2.lt (List.mem_append_right _ hc)) (lt_irrefl _)
    refine ⟨fs', ?_, ?_, ?_, ?_, ?_⟩
    · refine k1.congr fun x hx => ?_
      have : x ≠ m'.next := fun e => hf (e ▸ hx)
      simp [alloc, set, this]
    · intro x
      have := k2 x
      simp only [alloc, List.cons_append, List.count_cons, set_next]
      rw [this]
      exact count_next m'.next x
    · intro x hx
      have : x ≠ m'.next := fun e => hR (e ▸ hx)
      simp [alloc, set, this, k3 x hx]
    · simpa [alloc] using k4
    · exact .inr ⟨rfl, by rw [k5, List.length_range]; rfl⟩


theorem setA_nd {m : NMem F} {n v : NId} (h : n ≠ v) : (m.setA n v).nd v = { m.nd v with parent := some n } ∧
    (m.setA n v).nd n = { m.nd n with a := some v } ∧ (∀ x, x ≠ n → x ≠ v → (m.setA n v).nd x = m.nd x) ∧
    (m.setA n v).next = m.next ∧ (m.setA n v).pool = m.pool := by
  refine ⟨?_, ?_, ?_, rfl, rfl⟩
  · simp [setA, set, h.symm]
  · simp [setA, set, h]
  · intro x h1 h2
    simp [setA, set, h1, h2]

theorem setB_nd {m : NMem F} {n v : NId} (h : n ≠ v) : (m.setB n v).nd v = { m.nd v with parent := some n } ∧
    (m.setB n v).nd n = { m.nd n with b := some v } ∧ (∀ x, x ≠ n → x ≠ v → (m.setB n v).nd x = m.nd x) ∧
    (m.setB n v).next = m.next ∧ (m.setB n v).pool = m.pool := by
  refine ⟨?_, ?_, ?_, rfl, rfl⟩
  · simp [setB, set, h.symm]
  · simp [setB, set, h]
  · intro x h1 h2
    simp [setB, set, h1, h2]

theorem newNode_spec {st : Bool} {m : NMem F} {l n : NId} {fs R : List NId} (h1 : Pooled m.nd (m.pool st) fs)
    (h2 : Acc m (n :: l :: fs ++ R)) :
    ∃ m' k fs', m.newNode st l n = (m', k) ∧ Pooled m'.nd (m'.pool st) fs' ∧ Acc m' (k :: l :: n :: fs' ++ R) ∧
      (∀ x ∈ R, m'.nd x = m.nd x) ∧ m'.pool (!st) = m.pool (!st) ∧ Took fs fs' ∧
      m'.nd l = { m.nd l with parent := some k } ∧ m'.nd n = { m.nd n with parent := some k } ∧
      (m'.nd k).obj = none ∧ (m'.nd k).bb = (m.nd l).bb.merge (m.nd n).bb ∧ (m'.nd k).parent = none ∧
      (m'.nd k).a = some l ∧ (m'.nd k).b = some n := by
  obtain ⟨fs', q1, q2, q3, q4, q5⟩ := fromPool_spec (R := n :: l :: R) h1 (h2.congr rfl (by
    rw [List.perm_iff_count]
    intro x
    simp only [List.count_append, List.count_cons, List.cons_append]
    omega))
  simp only [newNode]
  generalize m.fromPool st = r at q1 q2 q3 q4
  obtain ⟨k, m1⟩ := r
  simp only at q1 q2 q3 q4
  have nd := q2.nodup
  simp only [List.cons_append, List.nodup_cons, List.mem_cons, List.mem_append, List.nodup_append, not_or] at nd
  obtain ⟨⟨k1, k2, k3, k4⟩, k5, ⟨⟨n1, n2⟩, ⟨l1, k6⟩⟩, k7⟩ := nd
  have el := q3 l (by simp)
  have en := q3 n (by simp)
  have hkl : k ≠ l := k3
  have hkn : k ≠ n := k2
  have hnl : n ≠ l := n1
  obtain ⟨m2, hm2⟩ : ∃ m2, m2 = m1.set k { m1.nd k with obj := none, bb := (m1.nd l).bb.merge (m1.nd n).bb, parent := none } := ⟨_, rfl⟩
  rw [← hm2]
  obtain ⟨a1, a2, a3, a4, a5⟩ := setA_nd (m := m2) (n := k) (v := l) hkl
  obtain ⟨b1, b2, b3, b4, b5⟩ := setB_nd (m := m2.setA k l) (n := k) (v := n) hkn
  have e2 : ∀ x, x ≠ k → m2.nd x = m1.nd x := fun x hx => by rw [hm2]; exact set_ne _ _ _ hx
  have e3 : ∀ x, x ≠ k → x ≠ l → x ≠ n → ((m2.setA k l).setB k n).nd x = m1.nd x := fun x x1 x2 x3 => by
    rw [b3 x x1 x3, a3 x x1 x2, e2 x x1]
  have e4 : ((m2.setA k l).setB k n).nd k = { m2.nd k with a := some l, b := some n } := by rw [b2, a2]
  have e5 : ((m2.setA k l).setB k n).nd l = { m.nd l with parent := some k } := by
    rw [b3 l hkl.symm hnl.symm, a1, e2 l hkl.symm, el]
  have e6 : ((m2.setA k l).setB k n).nd n = { m.nd n with parent := some k } := by
    rw [b1, a3 n hkn.symm hnl, e2 n hkn.symm, en]
  refine ⟨_, k, fs', rfl, ?_, ?_, ?_, ?_, ?_, e5, e6, ?_, ?_, ?_, ?_, ?_⟩
  · rw [b5, a5, hm2]
    refine q1.congr fun x hx => ?_
    rw [← hm2]
    exact e3 x (fun e => k1 (e ▸ hx)) (fun e => (k7 x hx l (by simp)) e) (fun e => (k7 x hx n (by simp)) e)
  · refine q2.congr (by rw [b4, a4, hm2]; rfl) ?_
    rw [List.perm_iff_count]
    intro x
    simp only [List.count_append, List.count_cons, List.cons_append]
    omega
  · intro x hx
    rw [e3 x (fun e => k4 (e ▸ hx)) (fun e => l1 (e ▸ hx)) (fun e => n2 (e ▸ hx))]
    exact q3 x (by simp [hx])
  · rw [b5, a5, hm2]; exact q4
  · exact q5
  · rw [e4, hm2]; simp
  · rw [e4, hm2]; simp [el, en]
  · rw [e4, hm2]; simp
  · rw [e4]
  · rw [e4]

/-- `SubtreeInsert` on a tree in memory. -/
theorem insert_spec (st : Bool) (l : NId) (L : Leaf F) (t : PT F) : ∀ {m : NMem F} {p : Option NId} {fs R : List NId} {fuel : Nat},
    Rooted m.nd p t → AtLeaf m.nd l L → Pooled m.nd (m.pool st) fs → Acc m (t.ids ++ (l :: fs ++ R)) → t.ids.length ≤ fuel →
    ∃ m' t' fs', m.insert st fuel (some t.id) l = some (m', t'.id) ∧ t'.erase = t.erase.ins L ∧
      Rooted m'.nd (if t.isLeaf then none else p) t' ∧ Pooled m'.nd (m'.pool st) fs' ∧ Acc m' (t'.ids ++ (fs' ++ R)) ∧
      (∀ x ∈ R, m'.nd x = m.nd x) ∧ m'.pool (!st) = m.pool (!st) ∧ Took fs fs' ∧ AtLeaf m'.nd l L ∧ t'.lvs.Perm ((l, L) :: t.lvs) := by
  induction t with
  | leaf n M =>
    intro m p fs R fuel hr hl hp ha hf
    obtain ⟨fuel, rfl⟩ : ∃ g, fuel = g + 1 := ⟨fuel - 1, by simp [PT.ids] at hf; omega⟩
    obtain ⟨m', k, fs', e, q1, q2, q3, q4, q5, e1, e2, e3, e4, e5, e6, e7⟩ := newNode_spec (l := l) (n := n) hp ha
    refine ⟨m', .node k (L.bb.merge M.bb) (.leaf l L) (.leaf n M), fs', ?_, rfl, ?_, q1, ?_, q3, q4, q5, ?_, List.Perm.refl _⟩
    · simp only [insert, PT.id, hr.1.1, Option.isSome_some, if_true, e]
    · refine ⟨e3, ?_, e5, e6, e7, ⟨?_, ?_⟩, ⟨?_, ?_⟩⟩
      · rw [e4, hl.2.1, hr.1.2.1]
      · simp only [AtLeaf, e1]; exact hl
      · rw [e1]
      · simp only [AtLeaf, e2]; exact hr.1
      · rw [e2]
    · exact q2.congr rfl (by simp [PT.ids])
    · simp only [AtLeaf, e1]; exact hl
  | node n bb a b iha ihb =>
    intro m p fs R fuel hr hl hp ha hf
    obtain ⟨fuel, rfl⟩ : ∃ g, fuel = g + 1 := ⟨fuel - 1, by simp [PT.ids] at hf; omega⟩
    obtain ⟨h1, h2, h3, h4, h5, h6, h7⟩ := hr
    have hfa : a.ids.length ≤ fuel := by simp [PT.ids] at hf; omega
    have hfb : b.ids.length ≤ fuel := by simp [PT.ids] at hf; omega
    have goes : Tree.goesB (m.nd a.id).bb (m.nd b.id).bb (m.nd l).bb = Tree.goesB a.erase.bb b.erase.bb L.bb := by
      rw [h6.root.1, h7.root.1, hl.2.1, a.bb_erase, b.bb_erase]
    simp only [insert, PT.id_node, h1, Option.isSome_none, Bool.false_eq_true, if_false, h4, h5, goes]
    by_cases g : Tree.goesB a.erase.bb b.erase.bb L.bb = true
    · obtain ⟨m', t', fs', e, e1, q0, q1, q2, q3, q4, q5, q6, q7⟩ := ihb (R := n :: a.ids ++ R) (fs := fs) h7 hl hp (ha.congr rfl (by
        rw [List.perm_iff_count]
        intro x
        simp only [PT.ids, List.count_append, List.count_cons, List.cons_append]
        omega)) hfb
      simp only [g, if_true, e]
      have nd := q2.nodup
      simp only [List.cons_append, List.nodup_cons, List.mem_cons, List.mem_append, List.nodup_append, not_or] at nd
      obtain ⟨nt, ⟨nf, ⟨⟨na, nR⟩, nda, ndR, ndaR⟩, ndf⟩, ndt⟩ := nd
      have hnt : n ∉ t'.ids := fun hc => ndt n hc n (by simp) rfl
      have hnid : n ≠ t'.id := fun e => hnt (e ▸ t'.id_mem)
      obtain ⟨b1, b2, b3, b4, b5⟩ := setB_nd (m := m') (n := n) (v := t'.id) hnid
      have hln : l ≠ n := fun e => by
        have := ha.nodup
        simp only [PT.ids, List.cons_append, List.nodup_cons, List.mem_append, List.mem_cons, not_or] at this
        exact this.1.2.1 e.symm
      obtain ⟨m2, hm2⟩ : ∃ m2, m2 = (m'.setB n t'.id).set n { (m'.setB n t'.id).nd n with bb := ((m'.setB n t'.id).nd n).bb.merge ((m'.setB n t'.id).nd l).bb } := ⟨_, rfl⟩
      have elL : ((m'.setB n t'.id).nd l).bb = L.bb := by
        by_cases hlt : l = t'.id
        · rw [hlt, b1]; rw [hlt] at q6; exact q6.2.1
        · rw [b3 l hln hlt]; exact q6.2.1
      have enn : m'.nd n = m.nd n := q3 n (by simp)
      have c1 : m2.nd n = { m.nd n with b := some t'.id, bb := bb.merge L.bb } := by
        rw [hm2, set_self, elL, b2, enn, h2]
      have c2 : ∀ x, x ≠ n → x ≠ t'.id → m2.nd x = m'.nd x := fun x x1 x2 => by
        rw [hm2, set_ne _ _ _ x1, b3 x x1 x2]
      have c3 : m2.nd t'.id = { m'.nd t'.id with parent := some n } := by
        rw [hm2, set_ne _ _ _ hnid.symm, b1]
      rw [← hm2]
      refine ⟨m2, .node n (bb.merge L.bb) a t', fs', rfl, ?_, ?_, ?_, ?_, ?_, ?_, ?_, ?_, ?_⟩
      · simp only [PT.erase, e1, Tree.ins, g, if_true]
      · simp only [PT.isLeaf, Bool.false_eq_true, if_false]
        refine ⟨by rw [c1]; exact h1, by rw [c1], by rw [c1]; exact h3, by rw [c1]; exact h4, by rw [c1], ?_, ?_⟩
        · refine h6.congr fun x hx => ?_
          have x1 : x ≠ n := fun e => na (e ▸ hx)
          have x2 : x ≠ t'.id := fun e => ndt t'.id t'.id_mem x (by simp [hx]) e.symm
          rw [c2 x x1 x2, q3 x (by simp [hx])]
        · exact q0.reparent nt c3 fun x hx hne => c2 x (fun e => hnt (e ▸ hx)) hne
      · have : m2.pool = m'.pool := by rw [hm2]; exact b5
        rw [this]
        refine q1.congr fun x hx => c2 x (fun e => ndf x hx n (by simp) e) fun e => ndt t'.id t'.id_mem x (by simp [hx]) e.symm
      · refine q2.congr (by rw [hm2]; exact b4) ?_
        rw [List.perm_iff_count]
        intro x
        simp only [PT.ids, List.count_append, List.count_cons, List.cons_append]
        omega
      · intro x hx
        have x1 : x ≠ n := fun e => nR (e ▸ hx)
        have x2 : x ≠ t'.id := fun e => ndt t'.id t'.id_mem x (by simp [hx]) e.symm
        rw [c2 x x1 x2, q3 x (by simp [hx])]
      · rw [hm2]; simp only [set_pool, b5, q4]
      · exact q5
      · by_cases hlt : l = t'.id
        · rw [hlt] at q6 ⊢
          simp only [AtLeaf, c3]; exact q6
        · simp only [AtLeaf, c2 l hln hlt]; exact q6
      · simp only [PT.lvs]
        refine (List.Perm.append_left _ q7).trans ?_
        exact List.perm_middle
    · obtain ⟨m', t', fs', e, e1, q0, q1, q2, q3, q4, q5, q6, q7⟩ := iha (R := n :: b.ids ++ R) (fs := fs) h6 hl hp (ha.congr rfl (by
        rw [List.perm_iff_count]
        intro x
        simp only [PT.ids, List.count_append, List.count_cons, List.cons_append]
        omega)) hfa
      simp only [g, if_false, e, Bool.false_eq_true]
      have nd := q2.nodup
      simp only [List.cons_append, List.nodup_cons, List.mem_cons, List.mem_append, List.nodup_append, not_or] at nd
      obtain ⟨nt, ⟨nf, ⟨⟨na, nR⟩, nda, ndR, ndaR⟩, ndf⟩, ndt⟩ := nd
      have hnt : n ∉ t'.ids := fun hc => ndt n hc n (by simp) rfl
      have hnid : n ≠ t'.id := fun e => hnt (e ▸ t'.id_mem)
      obtain ⟨b1, b2, b3, b4, b5⟩ := setA_nd (m := m') (n := n) (v := t'.id) hnid
      have hln : l ≠ n := fun e => by
        have := ha.nodup
        simp only [PT.ids, List.cons_append, List.nodup_cons, List.mem_append, List.mem_cons, not_or] at this
        exact this.1.2.1 e.symm
      obtain ⟨m2, hm2⟩ : ∃ m2, m2 = (m'.setA n t'.id).set n { (m'.setA n t'.id).nd n with bb := ((m'.setA n t'.id).nd n).bb.merge ((m'.setA n t'.id).nd l).bb } := ⟨_, rfl⟩
      have elL : ((m'.setA n t'.id).nd l).bb = L.bb := by
        by_cases hlt : l = t'.id
        · rw [hlt, b1]; rw [hlt] at q6; exact q6.2.1
        · rw [b3 l hln hlt]; exact q6.2.1
      have enn : m'.nd n = m.nd n := q3 n (by simp)
      have c1 : m2.nd n = { m.nd n with a := some t'.id, bb := bb.merge L.bb } := by
        rw [hm2, set_self, elL, b2, enn, h2]
      have c2 : ∀ x, x ≠ n → x ≠ t'.id → m2.nd x = m'.nd x := fun x x1 x2 => by
        rw [hm2, set_ne _ _ _ x1, b3 x x1 x2]
      have c3 : m2.nd t'.id = { m'.nd t'.id with parent := some n } := by
        rw [hm2, set_ne _ _ _ hnid.symm, b1]
      rw [← hm2]
      refine ⟨m2, .node n (bb.merge L.bb) t' b, fs', rfl, ?_, ?_, ?_, ?_, ?_, ?_, ?_, ?_, ?_⟩
      · simp only [PT.erase, e1, Tree.ins, g, if_false, Bool.false_eq_true]
      · simp only [PT.isLeaf, Bool.false_eq_true, if_false]
        refine ⟨by rw [c1]; exact h1, by rw [c1], by rw [c1]; exact h3, by rw [c1], by rw [c1]; exact h5, ?_, ?_⟩
        · exact q0.reparent nt c3 fun x hx hne => c2 x (fun e => hnt (e ▸ hx)) hne
        · refine h7.congr fun x hx => ?_
          have x1 : x ≠ n := fun e => na (e ▸ hx)
          have x2 : x ≠ t'.id := fun e => ndt t'.id t'.id_mem x (by simp [hx]) e.symm
          rw [c2 x x1 x2, q3 x (by simp [hx])]
      · have : m2.pool = m'.pool := by rw [hm2]; exact b5
        rw [this]
        refine q1.congr fun x hx => c2 x (fun e => ndf x hx n (by simp) e) fun e => ndt t'.id t'.id_mem x (by simp [hx]) e.symm
      · refine q2.congr (by rw [hm2]; exact b4) ?_
        rw [List.perm_iff_count]
        intro x
        simp only [PT.ids, List.count_append, List.count_cons, List.cons_append]
        omega
      · intro x hx
        have x1 : x ≠ n := fun e => nR (e ▸ hx)
        have x2 : x ≠ t'.id := fun e => ndt t'.id t'.id_mem x (by simp [hx]) e.symm
        rw [c2 x x1 x2, q3 x (by simp [hx])]
      · rw [hm2]; simp only [set_pool, b5, q4]
      · exact q5
      · by_cases hlt : l = t'.id
        · rw [hlt] at q6 ⊢
          simp only [AtLeaf, c3]; exact q6
        · simp only [AtLeaf, c2 l hln hlt]; exact q6
      · simp only [PT.lvs]
        exact List.Perm.append_right _ q7

end NMem
end CP
