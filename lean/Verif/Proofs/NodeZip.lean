import Verif.Proofs.NodeHeap

/-! # Trees in memory: removal of leaves -/

namespace CP
open GoFloat

/-- An ancestor: is the way to the leaf through its child `a`, its node, its box, its other child. -/
structure Fr (F : Type) where
  isA : Bool
  n : NId
  bb : BB F
  sib : PT F

namespace Fr
variable {F : Type} [GoFloat F]
def fill (f : Fr F) (t : PT F) : PT F := if f.isA then .node f.n f.bb t f.sib else .node f.n f.bb f.sib t
def fillM (f : Fr F) (t : PT F) : PT F :=
  if f.isA then .node f.n (t.bb.merge f.sib.bb) t f.sib else .node f.n (f.sib.bb.merge t.bb) f.sib t
def ids (f : Fr F) : List NId := f.n :: f.sib.ids
end Fr

variable {F : Type} [GoFloat F]

/-- The tree with `t` at the end of the path (innermost ancestor first). -/
def plug : List (Fr F) → PT F → PT F
  | [], t => t
  | f :: r, t => plug r (f.fill t)
/-- The same with all boxes on the path recomputed. -/
def plugM : List (Fr F) → PT F → PT F
  | [], t => t
  | f :: r, t => plugM r (f.fillM t)

def pids (path : List (Fr F)) : List NId := path.flatMap Fr.ids
def plvs (path : List (Fr F)) : List (NId × Leaf F) := path.flatMap fun f => f.sib.lvs
/-- The parent of what is at the end of the path. -/
def ptop (path : List (Fr F)) : Option NId := path.head?.map Fr.n

theorem pids_cons (f : Fr F) (r : List (Fr F)) : pids (f :: r) = f.n :: (f.sib.ids ++ pids r) := by simp [pids, Fr.ids]
theorem plvs_cons (f : Fr F) (r : List (Fr F)) : plvs (f :: r) = f.sib.lvs ++ plvs r := by simp [plvs]

theorem plug_append (p q : List (Fr F)) (t : PT F) : plug (p ++ q) t = plug q (plug p t) := by
  induction p generalizing t with
  | nil => rfl
  | cons f r ih => exact ih _

theorem plug_of_mem {t : PT F} {n : NId} {l : Leaf F} (h : (n, l) ∈ t.lvs) : ∃ path, t = plug path (.leaf n l) := by
  induction t with
  | leaf k m =>
    simp only [PT.lvs, List.mem_singleton, Prod.mk.injEq] at h
    obtain ⟨rfl, rfl⟩ := h
    exact ⟨[], rfl⟩
  | node k bb a b iha ihb =>
    rcases List.mem_append.1 h with h | h
    · obtain ⟨p, rfl⟩ := iha h
      exact ⟨p ++ [⟨true, k, bb, b⟩], by rw [plug_append]; rfl⟩
    · obtain ⟨p, rfl⟩ := ihb h
      exact ⟨p ++ [⟨false, k, bb, a⟩], by rw [plug_append]; rfl⟩

theorem Fr.fill_id (f : Fr F) (t : PT F) : (f.fill t).id = f.n := by unfold Fr.fill; split <;> rfl
theorem Fr.fillM_id (f : Fr F) (t : PT F) : (f.fillM t).id = f.n := by unfold Fr.fillM; split <;> rfl

theorem plug_ids (path : List (Fr F)) : ∀ t, (plug path t).ids.Perm (t.ids ++ pids path) := by
  induction path with
  | nil => intro t; simp [plug, pids]
  | cons f r ih =>
    intro t
    refine (ih _).trans ?_
    rw [List.perm_iff_count]
    intro x
    rw [pids_cons]
    simp only [Fr.fill]
    split <;> simp only [PT.ids, List.count_append, List.count_cons, List.cons_append] <;> omega

theorem plugM_ids (path : List (Fr F)) : ∀ t, (plugM path t).ids.Perm (t.ids ++ pids path) := by
  induction path with
  | nil => intro t; simp [plugM, pids]
  | cons f r ih =>
    intro t
    refine (ih _).trans ?_
    rw [List.perm_iff_count]
    intro x
    rw [pids_cons]
    simp only [Fr.fillM]
    split <;> simp only [PT.ids, List.count_append, List.count_cons, List.cons_append] <;> omega

theorem plug_lvs (path : List (Fr F)) : ∀ t, (plug path t).lvs.Perm (t.lvs ++ plvs path) := by
  induction path with
  | nil => intro t; simp [plug, plvs]
  | cons f r ih =>
    intro t
    refine (ih _).trans ?_
    rw [plvs_cons, ← List.append_assoc]
    refine List.Perm.append_right _ ?_
    simp only [Fr.fill]
    split
    · exact List.Perm.refl _
    · exact List.perm_append_comm

theorem plugM_lvs (path : List (Fr F)) : ∀ t, (plugM path t).lvs.Perm (t.lvs ++ plvs path) := by
  induction path with
  | nil => intro t; simp [plugM, plvs]
  | cons f r ih =>
    intro t
    refine (ih _).trans ?_
    rw [plvs_cons, ← List.append_assoc]
    refine List.Perm.append_right _ ?_
    simp only [Fr.fillM]
    split
    · exact List.Perm.refl _
    · exact List.perm_append_comm

/-- The root of a plugged tree, by the path alone. -/
theorem plug_id (path : List (Fr F)) : ∀ t u : PT F, t.id = u.id → (plug path t).id = (plugM path u).id := by
  induction path with
  | nil => exact fun t u h => h
  | cons f r ih => exact fun t u _ => ih _ _ (by rw [f.fill_id, f.fillM_id])

theorem plug_id_mem (path : List (Fr F)) : ∀ t : PT F, path ≠ [] → (plug path t).id ∈ path.map Fr.n := by
  induction path with
  | nil => exact fun t h => absurd rfl h
  | cons f r ih =>
    intro t _
    cases r with
    | nil => simp [plug, f.fill_id]
    | cons g r => exact List.mem_cons_of_mem _ (ih _ (by simp))

/-- The path in memory, with the node `c` at its end. -/
def RootedP (nd : NId → NRec F) : List (Fr F) → NId → Prop
  | [], _ => True
  | f :: r, c => (nd f.n).obj = none ∧ (nd f.n).bb = f.bb ∧ (nd f.n).parent = ptop r ∧
      (nd f.n).a = some (if f.isA then c else f.sib.id) ∧ (nd f.n).b = some (if f.isA then f.sib.id else c) ∧
      Rooted nd (some f.n) f.sib ∧ RootedP nd r f.n

theorem rooted_plug (nd : NId → NRec F) (path : List (Fr F)) : ∀ t, Rooted nd none (plug path t) ↔ Rooted nd (ptop path) t ∧ RootedP nd path t.id := by
  induction path with
  | nil => intro t; simp [plug, ptop, RootedP]
  | cons f r ih =>
    intro t
    simp only [plug]
    rw [ih, f.fill_id]
    simp only [Fr.fill, RootedP, ptop, List.head?_cons, Option.map_some]
    by_cases h : f.isA = true
    · simp only [h, if_true, Rooted]
      tauto
    · simp only [h, if_false, Rooted, Bool.false_eq_true]
      tauto

theorem RootedP.congr {nd nd' : NId → NRec F} {path : List (Fr F)} : ∀ {c}, RootedP nd path c → (∀ x ∈ pids path, nd' x = nd x) → RootedP nd' path c := by
  induction path with
  | nil => exact fun _ _ => trivial
  | cons f r ih =>
    intro c h he
    rw [pids_cons] at he
    have hn := he f.n (by simp)
    obtain ⟨h1, h2, h3, h4, h5, h6, h7⟩ := h
    exact ⟨by rw [hn, h1], by rw [hn, h2], by rw [hn, h3], by rw [hn, h4], by rw [hn, h5],
      h6.congr fun x hx => he x (by simp [hx]), ih h7 fun x hx => he x (by simp [hx])⟩

namespace NMem

theorem refit_spec (path : List (Fr F)) : ∀ {m : NMem F} {t : PT F} {fuel : Nat}, Rooted m.nd (ptop path) t → RootedP m.nd path t.id →
    (t.ids ++ pids path).Nodup → path.length ≤ fuel →
    ∃ m', refit fuel m (ptop path) = some m' ∧ Rooted m'.nd none (plugM path t) ∧ (∀ x, x ∉ path.map Fr.n → m'.nd x = m.nd x) ∧
      m'.next = m.next ∧ m'.pool = m.pool := by
  induction path with
  | nil =>
    intro m t fuel h _ _ _
    exact ⟨m, by simp [ptop, refit], h, fun _ _ => rfl, rfl, rfl⟩
  | cons f r ih =>
    intro m t fuel h hp nd hf
    obtain ⟨fuel, rfl⟩ : ∃ g, fuel = g + 1 := ⟨fuel - 1, by simp at hf; omega⟩
    obtain ⟨h1, h2, h3, h4, h5, h6, h7⟩ := hp
    have hch : ∃ a b, (m.nd f.n).a = some a ∧ (m.nd f.n).b = some b ∧ (f.fillM t).bb = (m.nd a).bb.merge (m.nd b).bb := by
      refine ⟨_, _, h4, h5, ?_⟩
      by_cases e : f.isA = true
      · simp only [e, if_true, Fr.fillM, PT.bb, h.root.1, h6.root.1]
      · simp only [e, if_false, Fr.fillM, PT.bb, h.root.1, h6.root.1, Bool.false_eq_true]
    obtain ⟨a, b, ea, eb, ebb⟩ := hch
    obtain ⟨m1, hm1⟩ : ∃ m1, m1 = m.set f.n { m.nd f.n with bb := (m.nd a).bb.merge (m.nd b).bb } := ⟨_, rfl⟩
    rw [pids_cons] at nd
    have nd' := nd
    simp only [List.nodup_append, List.nodup_cons, List.mem_append, List.mem_cons, not_or] at nd'
    obtain ⟨ndt, ⟨⟨n1, n2⟩, nds, ndr, n3⟩, n4⟩ := nd'
    have hnt : f.n ∉ t.ids := fun hc => n4 _ hc f.n (by simp) rfl
    have e1 : m1.nd f.n = { m.nd f.n with bb := (m.nd a).bb.merge (m.nd b).bb } := by rw [hm1]; exact set_self ..
    have e2 : ∀ x, x ≠ f.n → m1.nd x = m.nd x := fun x hx => by rw [hm1]; exact set_ne _ _ _ hx
    have h' : Rooted m1.nd (ptop r) (f.fillM t) := by
      have k1 : Rooted m1.nd (some f.n) t := h.congr fun x hx => e2 x fun e => hnt (e ▸ hx)
      have k2 : Rooted m1.nd (some f.n) f.sib := h6.congr fun x hx => e2 x fun e => n1 (e ▸ hx)
      have ebb' := ebb
      simp only [Fr.fillM] at ebb' ⊢
      by_cases e : f.isA = true
      · simp only [e, if_true] at ebb' h4 h5 ⊢
        exact ⟨by rw [e1]; exact h1, by rw [e1]; exact ebb'.symm, by rw [e1]; exact h3, by rw [e1]; exact h4, by rw [e1]; exact h5, k1, k2⟩
      · simp only [e, if_false, Bool.false_eq_true] at ebb' h4 h5 ⊢
        exact ⟨by rw [e1]; exact h1, by rw [e1]; exact ebb'.symm, by rw [e1]; exact h3, by rw [e1]; exact h4, by rw [e1]; exact h5, k2, k1⟩
    have hp' : RootedP m1.nd r (f.fillM t).id := by
      rw [f.fillM_id]
      exact h7.congr fun x hx => e2 x fun e => n2 (e ▸ hx)
    have nd1 : ((f.fillM t).ids ++ pids r).Nodup := by
      refine (List.Perm.nodup_iff ?_).2 nd
      rw [List.perm_iff_count]
      intro x
      simp only [Fr.fillM]
      split <;> simp only [PT.ids, List.count_append, List.count_cons, List.cons_append] <;> omega
    obtain ⟨m', q1, q2, q3, q4, q5⟩ := ih (fuel := fuel) h' hp' nd1 (by simp at hf; omega)
    refine ⟨m', ?_, q2, ?_, ?_, ?_⟩
    · simp only [ptop, List.head?_cons, Option.map_some, refit, ea, eb]
      have hm2 : m1 = m.set f.n { m.nd f.n with bb := (m.nd a).bb.merge (m.nd b).bb, a := some a, b := some b } := by
        rw [hm1]
        congr 1
        simp only [← ea, ← eb]
      simp only at hm2
      rw [← hm2, e1, h3]
      exact q1
    · intro x hx
      simp only [List.map_cons, List.mem_cons, not_or] at hx
      rw [q3 x hx.2, e2 x hx.1]
    · rw [q4, hm1]; rfl
    · rw [q5, hm1]; rfl

theorem other_spec {m : NMem F} {f : Fr F} {r : List (Fr F)} {c : NId} (h : RootedP m.nd (f :: r) c) (hc : c ≠ f.sib.id) :
    m.other f.n c = some f.sib.id := by
  obtain ⟨h1, h2, h3, h4, h5, h6, h7⟩ := h
  simp only [other, h4, h5]
  by_cases e : f.isA = true
  · simp [e]
  · simp [e, hc.symm]

/-- `SubtreeRemove` on a tree in memory. -/
theorem remove_spec {st : Bool} {m : NMem F} {l : NId} {L : Leaf F} {f : Fr F} {r : List (Fr F)} {fs R : List NId}
    (h : Rooted m.nd none (plug (f :: r) (.leaf l L))) (hp : Pooled m.nd (m.pool st) fs)
    (ha : Acc m ((plug (f :: r) (.leaf l L)).ids ++ (fs ++ R))) :
    ∃ m' , m.remove st (some (plug (f :: r) (.leaf l L)).id) l = some (m', some (plugM r f.sib).id) ∧
      Rooted m'.nd none (plugM r f.sib) ∧ Pooled m'.nd (m'.pool st) (f.n :: fs) ∧ Acc m' ((plugM r f.sib).ids ++ (l :: (f.n :: fs) ++ R)) ∧
      (∀ x ∈ R, m'.nd x = m.nd x) ∧ m'.pool (!st) = m.pool (!st) ∧ m'.next = m.next ∧ AtLeaf m'.nd l L := by
  have hacc : Acc m ((l :: f.n :: (f.sib.ids ++ pids r)) ++ (fs ++ R)) := ha.congr rfl ((List.Perm.append_right _ (by
    have := plug_ids (f :: r) (PT.leaf l L)
    rw [pids_cons] at this
    exact this)).symm)
  have nd0 := hacc.nodup
  have nd := nd0
  simp only [List.cons_append, List.nodup_cons, List.mem_cons, List.mem_append, List.nodup_append, not_or] at nd
  obtain ⟨⟨hlf, ⟨hls, hlr⟩, hlF, hlR⟩, ⟨⟨hfs, hfr⟩, hfF, hfR⟩, ⟨nds, ndr, ndsr⟩, ⟨ndF, ndR, ndFR⟩, ndx⟩ := nd
  have hrid : ∀ x ∈ r.map Fr.n, x ∈ pids r := by
    intro x hx
    obtain ⟨g, hg, rfl⟩ := List.mem_map.1 hx
    exact List.mem_flatMap.2 ⟨g, hg, by simp [Fr.ids]⟩
  have hroot : (plug (f :: r) (PT.leaf l L)).id ∈ f.n :: r.map Fr.n := plug_id_mem (f :: r) _ (by simp)
  have hlroot : l ≠ (plug (f :: r) (PT.leaf l L)).id := fun e => by
    rcases List.mem_cons.1 hroot with h | h
    · exact hlf (e.trans h)
    · exact hlr (hrid _ (e ▸ h))
  rw [rooted_plug] at h
  obtain ⟨h0, hpath⟩ := h
  have hpar : (m.nd l).parent = some f.n := h0.2
  have hsib : l ≠ f.sib.id := fun e => hls (e ▸ f.sib.id_mem)
  have hoth := other_spec (c := l) hpath hsib
  have hsn : f.sib.id ≠ f.n := fun e => hfs (e ▸ f.sib.id_mem)
  obtain ⟨k1, k2, k3, k4, k5, k6, k7⟩ := hpath
  have hlr2 : (some l = some (plug (f :: r) (PT.leaf l L)).id) = False := by simpa using hlroot
  simp only [remove, hlr2, if_false, hpar]
  cases r with
  | nil =>
    have hid : (plug [f] (PT.leaf l L)).id = f.n := f.fill_id _
    simp only [hid, if_true, hoth]
    obtain ⟨m1, hm1⟩ : ∃ m1, m1 = m.set f.sib.id { m.nd f.sib.id with parent := (m.nd f.n).parent } := ⟨_, rfl⟩
    rw [← hm1]
    have e2 : ∀ x, x ≠ f.sib.id → m1.nd x = m.nd x := fun x hx => by rw [hm1]; exact set_ne _ _ _ hx
    have e1 : m1.nd f.sib.id = { m.nd f.sib.id with parent := none } := by rw [hm1, set_self, k3]; rfl
    have hp1 : Pooled m1.nd (m1.pool st) fs := by
      have : m1.pool = m.pool := by rw [hm1]; rfl
      rw [this]
      exact hp.congr fun x hx => e2 x fun e => ndx f.sib.id (.inl f.sib.id_mem) x (.inl hx) e.symm
    obtain ⟨q1, q2, q3, q4⟩ := recycle_spec hp1 hfF
    refine ⟨_, rfl, ?_, q1, ?_, ?_, ?_, ?_, ?_⟩
    · refine (k6.reparent nds e1 fun x _ hne => e2 x hne).congr fun x hx => q3 x fun e => hfs (e ▸ hx)
    · refine hacc.congr (by rw [q2, hm1]; rfl) ?_
      rw [List.perm_iff_count]
      intro x
      simp only [plugM, pids, List.flatMap_nil, List.append_nil, List.count_append, List.count_cons, List.cons_append]
      omega
    · intro x hx
      rw [q3 x fun e => hfR (e ▸ hx), e2 x fun e => ndx f.sib.id (.inl f.sib.id_mem) x (.inr hx) e.symm]
    · rw [q4, hm1]; rfl
    · rw [q2, hm1]; rfl
    · simp only [AtLeaf, q3 l hlf, e2 l hsib]
      exact h0.1
  | cons g r =>
    have hne : f.n ≠ (plug (f :: g :: r) (PT.leaf l L)).id := fun e => by
      have := plug_id_mem (g :: r) (f.fill (PT.leaf l L)) (by simp)
      exact hfr (hrid _ (e ▸ this))
    have hne2 : (some f.n = some (plug (f :: g :: r) (PT.leaf l L)).id) = False := by simpa using hne
    have k3' : (m.nd f.n).parent = some g.n := k3
    simp only [hne2, if_false, k3', hoth]
    obtain ⟨j1, j2, j3, j4, j5, j6, j7⟩ := k7
    rw [pids_cons] at ndr hfr hlr ndsr ndx
    simp only [List.nodup_cons, List.mem_append, List.nodup_append, not_or, List.mem_cons] at ndr hfr hlr
    obtain ⟨⟨gs, gr⟩, ndg, ndr', ndgr⟩ := ndr
    obtain ⟨hfg, hfgs, hfr'⟩ := hfr
    obtain ⟨hlg, hlgs, hlr'⟩ := hlr
    obtain ⟨q1, q2, q3, q4⟩ := recycle_spec (n := f.n) hp hfF
    have hsg : g.n ≠ f.sib.id := fun e => ndsr f.sib.id f.sib.id_mem g.n (by simp) e.symm
    -- the two cases of `ReplaceChild`
    have hrep : ∃ m1, m.replaceChild st g.n f.n f.sib.id = refit m.next m1 (some g.n) ∧
        m1.nd f.sib.id = { m.nd f.sib.id with parent := some g.n } ∧
        m1.nd g.n = { m.nd g.n with a := some (if g.isA then f.sib.id else g.sib.id), b := some (if g.isA then g.sib.id else f.sib.id) } ∧
        (∀ x, x ≠ g.n → x ≠ f.sib.id → m1.nd x = (m.recycle st f.n).nd x) ∧ m1.next = m.next ∧ m1.pool = (m.recycle st f.n).pool := by
      have hgs : g.sib.id ≠ f.n := fun e => hfgs (e ▸ g.sib.id_mem)
      simp only [replaceChild, j4]
      by_cases e : g.isA = true
      · obtain ⟨a1, a2, a3, a4, a5⟩ := setA_nd (m := m.recycle st f.n) (n := g.n) (v := f.sib.id) hsg
        simp only [e, if_true] at j5 ⊢
        refine ⟨_, rfl, ?_, ?_, a3, ?_, a5⟩
        · rw [a1, q3 _ hsn]
        · rw [a2, q3 _ (Ne.symm hfg)]
          simp [← j5]
        · rw [a4, q2]
      · obtain ⟨a1, a2, a3, a4, a5⟩ := setB_nd (m := m.recycle st f.n) (n := g.n) (v := f.sib.id) hsg
        simp only [e, if_false, Bool.false_eq_true, Option.some.injEq, hgs, j5] at j4 ⊢
        refine ⟨_, rfl, ?_, ?_, a3, ?_, a5⟩
        · rw [a1, q3 _ hsn]
        · rw [a2, q3 _ (Ne.symm hfg)]
          simp [← j4]
        · rw [a4, q2]
    obtain ⟨m1, er, e1, e2, e3, e4, e5⟩ := hrep
    have e6 : ∀ x, x ≠ g.n → x ≠ f.sib.id → x ≠ f.n → m1.nd x = m.nd x := fun x x1 x2 x3 => by rw [e3 x x1 x2, q3 x x3]
    have t1 : Rooted m1.nd (ptop (g :: r)) f.sib := k6.reparent nds e1 fun x hx hx' =>
      e6 x (fun e => ndsr x hx g.n (by simp) e) hx' (fun e => hfs (e ▸ hx))
    have t2 : RootedP m1.nd (g :: r) f.sib.id := by
      refine ⟨by rw [e2]; exact j1, by rw [e2]; exact j2, by rw [e2]; exact j3, by rw [e2], by rw [e2], ?_, ?_⟩
      · exact j6.congr fun x hx => e6 x (fun e => gs (e ▸ hx)) (fun e => ndsr f.sib.id f.sib.id_mem x (by simp [hx]) e.symm) (fun e => hfgs (e ▸ hx))
      · exact j7.congr fun x hx => e6 x (fun e => gr (e ▸ hx)) (fun e => ndsr f.sib.id f.sib.id_mem x (by simp [hx]) e.symm) (fun e => hfr' (e ▸ hx))
    have nd2 : (f.sib.ids ++ pids (g :: r)).Nodup := by
      have := nd0
      simp only [List.cons_append, List.nodup_cons] at this
      exact this.2.2.of_append_left
    have hlen : (g :: r).length ≤ m.next := by
      have h1 : ((g :: r).map Fr.n).Sublist (pids (g :: r)) := by
        clear * -
        generalize g :: r = p
        induction p with
        | nil => simp [pids]
        | cons f r ih =>
          rw [pids_cons]
          exact (ih.trans (List.sublist_append_right _ _)).cons_cons _
      have h2 := h1.length_le
      rw [List.length_map] at h2
      have h3 := hacc.length
      simp only [List.cons_append, List.length_cons, List.length_append] at h3
      simp only [List.length_cons] at h2 ⊢
      change r.length + 1 ≤ m.next
      rw [← h3]
      omega
    obtain ⟨m', p1, p2, p3, p4, p5⟩ := refit_spec (g :: r) (fuel := m.next) t1 t2 nd2 hlen
    have hin : ∀ x ∈ (g :: r).map Fr.n, x = g.n ∨ x ∈ pids r := fun x hx => by
      rcases List.mem_cons.1 hx with h | h
      · exact .inl h
      · obtain ⟨k, hk, rfl⟩ := List.mem_map.1 h
        exact .inr (List.mem_flatMap.2 ⟨k, hk, by simp [Fr.ids]⟩)
    refine ⟨m', ?_, p2, ?_, ?_, ?_, ?_, ?_, ?_⟩
    · rw [er]
      have p1' : refit m.next m1 (some g.n) = some m' := p1
      rw [p1']
      simp only [Option.map_some, Option.some.injEq, Prod.mk.injEq, true_and]
      change (plug (g :: r) (f.fill (PT.leaf l L))).id = (plugM r (g.fillM f.sib)).id
      change (plug r (g.fill (f.fill (PT.leaf l L)))).id = (plugM r (g.fillM f.sib)).id
      exact plug_id r _ _ (by rw [g.fill_id, g.fillM_id])
    · rw [p5, e5]
      refine q1.congr fun x hx => ?_
      have hx' : x ≠ g.n ∧ x ≠ f.sib.id ∧ x ∉ pids r := by
        rcases List.mem_cons.1 hx with rfl | hx
        · exact ⟨hfg, hsn.symm, hfr'⟩
        · refine ⟨fun e => ndx g.n (by simp) x (.inl hx) e.symm, fun e => ndx _ (.inl f.sib.id_mem) x (.inl hx) e.symm,
            fun hc => ndx x (by simp [hc]) x (.inl hx) rfl⟩
      rw [p3 x fun hc => (hin x hc).elim hx'.1 hx'.2.2, e3 x hx'.1 hx'.2.1]
    · refine hacc.congr (by rw [p4, e4]) ?_
      refine (List.Perm.append_right _ (plugM_ids (g :: r) f.sib)).trans ?_
      rw [List.perm_iff_count]
      intro x
      simp only [List.count_append, List.count_cons, List.cons_append]
      omega
    · intro x hx
      have n1 : x ≠ g.n := fun e => ndx g.n (by simp) x (.inr hx) e.symm
      rw [p3 x fun hc => (hin x hc).elim n1 fun hc => ndx x (by simp [hc]) x (.inr hx) rfl,
        e6 x n1 (fun e => ndx _ (.inl f.sib.id_mem) x (.inr hx) e.symm) (fun e => hfR (e ▸ hx))]
    · rw [p5, e5, q4]
    · rw [p4, e4]
    · have : m'.nd l = m.nd l := by
        rw [p3 l fun hc => (hin l hc).elim hlg hlr', e6 l hlg hsib hlf]
      simp only [AtLeaf, this]
      exact h0.1

end NMem

/-! ### The same on values -/

theorem has_fill_A {f : Fr F} {t : PT F} {o : Obj} (h : f.sib.erase.has o = false) (ht : t.erase.has o = true) {t' : PT F}
    (hr : t.erase.rem o = some t'.erase) : (f.fill t).erase.rem o = some (f.fillM t').erase := by
  simp only [Fr.fill, Fr.fillM]
  by_cases e : f.isA = true
  · simp [e, PT.erase, Tree.rem, ht, hr, PT.bb_erase]
  · simp [e, PT.erase, Tree.rem, ht, h, hr, PT.bb_erase]

theorem has_fill {f : Fr F} {t : PT F} {o : Obj} (ht : t.erase.has o = true) : (f.fill t).erase.has o = true := by
  simp only [Fr.fill]
  split <;> simp [PT.erase, Tree.has, ht]

theorem rem_plug {o : Obj} (path : List (Fr F)) : ∀ {t t' : PT F}, (∀ f ∈ path, f.sib.erase.has o = false) → t.erase.has o = true →
    t.erase.rem o = some t'.erase → (plug path t).erase.rem o = some (plugM path t').erase := by
  induction path with
  | nil => exact fun _ _ h => h
  | cons f r ih =>
    intro t t' h1 h2 h3
    exact ih (fun g hg => h1 g (by simp [hg])) (has_fill h2) (has_fill_A (h1 f (by simp)) h2 h3)

theorem rem_leaf {o : Obj} {f : Fr F} {r : List (Fr F)} {l : NId} {L : Leaf F} (h : ∀ g ∈ f :: r, g.sib.erase.has o = false) (hl : L.obj = o) :
    (plug (f :: r) (.leaf l L)).erase.rem o = some (plugM r f.sib).erase := by
  refine rem_plug r (fun g hg => h g (by simp [hg])) (has_fill (by simp [PT.erase, Tree.has, hl])) ?_
  simp only [Fr.fill]
  by_cases e : f.isA = true
  · simp [e, PT.erase, Tree.rem, Tree.has, hl]
  · simp [e, PT.erase, Tree.rem, Tree.has, hl, h f (by simp)]

theorem path_plug {o : Obj} (path : List (Fr F)) : ∀ {t : PT F} {p : Path F}, (∀ f ∈ path, f.sib.erase.has o = false) → t.erase.has o = true →
    (plug path t).erase.path o p = t.erase.path o (path.map (fun f => (f.isA, f.sib.erase)) ++ p) := by
  induction path with
  | nil => exact fun _ _ => rfl
  | cons f r ih =>
    intro t p h1 h2
    simp only [plug]
    rw [ih (fun g hg => h1 g (by simp [hg])) (has_fill h2)]
    simp only [Fr.fill]
    by_cases e : f.isA = true
    · simp [e, PT.erase, Tree.path, h2]
    · simp [e, PT.erase, Tree.path, h1 f (by simp)]

end CP
