import Verif.Proofs.NodeMark

/-! # Operations on one tree in memory -/

namespace CP
open GoFloat
variable {F : Type} [GoFloat F]

/-! ### Stamps -/

def Tree.restamp (o : Obj) (s : Nat) : Tree F → Tree F
  | .leaf l => .leaf (if l.obj = o then { l with stamp := s } else l)
  | .node bb a b => .node bb (a.restamp o s) (b.restamp o s)

def PT.restamp (n : NId) (s : Nat) : PT F → PT F
  | .leaf k l => .leaf k (if k = n then { l with stamp := s } else l)
  | .node k bb a b => .node k bb (a.restamp n s) (b.restamp n s)

theorem Tree.restamp_bb (o : Obj) (s : Nat) (t : Tree F) : (t.restamp o s).bb = t.bb := by
  cases t with
  | leaf l => simp only [restamp, bb]; split <;> rfl
  | node => rfl

theorem Tree.restamp_ins (o : Obj) (s : Nat) (L : Leaf F) (hL : L.obj = o) (t : Tree F) :
    (t.ins L).restamp o s = (t.restamp o s).ins { L with stamp := s } := by
  induction t with
  | leaf m =>
    simp only [ins, restamp, hL, if_true]
    split <;> rfl
  | node bb a b iha ihb =>
    simp only [ins, restamp, restamp_bb]
    split
    · simp only [restamp, ihb]
    · simp only [restamp, iha]

theorem Tree.restamp_absent (o : Obj) (s : Nat) (t : Tree F) (h : t.has o = false) : t.restamp o s = t := by
  induction t with
  | leaf m =>
    simp only [has, decide_eq_false_iff_not] at h
    simp [restamp, h]
  | node bb a b iha ihb =>
    simp only [has, Bool.or_eq_false_iff] at h
    simp [restamp, iha h.1, ihb h.2]

theorem PT.restamp_id (n : NId) (s : Nat) (t : PT F) : (t.restamp n s).id = t.id := by cases t <;> rfl
theorem PT.restamp_ids (n : NId) (s : Nat) (t : PT F) : (t.restamp n s).ids = t.ids := by
  induction t with
  | leaf => rfl
  | node k bb a b iha ihb => simp only [restamp, ids, iha, ihb]
theorem PT.restamp_lvs (n : NId) (s : Nat) (t : PT F) :
    (t.restamp n s).lvs = t.lvs.map fun x => (x.1, if x.1 = n then { x.2 with stamp := s } else x.2) := by
  induction t with
  | leaf => rfl
  | node k bb a b iha ihb => simp only [restamp, lvs, iha, ihb, List.map_append]
theorem PT.restamp_erase (n : NId) (o : Obj) (s : Nat) (t : PT F) (h : ∀ x ∈ t.lvs, x.1 = n ↔ x.2.obj = o) :
    (t.restamp n s).erase = t.erase.restamp o s := by
  induction t with
  | leaf k l =>
    have := h (k, l) (by simp [lvs])
    simp only [restamp, erase, Tree.restamp, Tree.leaf.injEq]
    by_cases e : k = n
    · rw [if_pos e, if_pos (this.1 e)]
    · rw [if_neg e, if_neg fun c => e (this.2 c)]
  | node k bb a b iha ihb =>
    simp only [restamp, erase, Tree.restamp]
    rw [iha fun x hx => h x (by simp [lvs, hx]), ihb fun x hx => h x (by simp [lvs, hx])]

theorem Rooted.restamp {m : NMem F} {n : NId} {s : Nat} {t : PT F} : ∀ {p : Option NId}, Rooted m.nd p t →
    Rooted (m.set n { m.nd n with stamp := s }).nd p (t.restamp n s) := by
  induction t with
  | leaf k l =>
    intro p h
    simp only [PT.restamp]
    by_cases e : k = n
    · subst e
      simp only [if_true, Rooted, AtLeaf, NMem.set_self]
      exact ⟨⟨h.1.1, h.1.2.1, trivial⟩, h.2⟩
    · simp only [if_neg e, Rooted, AtLeaf, NMem.set_ne _ _ _ e]
      exact h
  | node k bb a b iha ihb =>
    intro p h
    obtain ⟨h1, h2, h3, h4, h5, h6, h7⟩ := h
    simp only [PT.restamp, Rooted, PT.restamp_id]
    refine ⟨?_, ?_, ?_, ?_, ?_, iha h6, ihb h7⟩ <;>
    · by_cases e : k = n
      · subst e; simp only [NMem.set_self, *]
      · simp only [NMem.set_ne _ _ _ e, *]

/-! ### Insertion and removal -/

theorem has_leaves (t : Tree F) (o : Obj) : t.has o = true ↔ ∃ l ∈ t.leaves, l.obj = o := by
  induction t with
  | leaf m => simp [Tree.has, Tree.leaves]
  | node bb a b iha ihb =>
    simp only [Tree.has, Bool.or_eq_true, iha, ihb, Tree.leaves, List.mem_append]
    constructor
    · rintro (⟨l, h, e⟩ | ⟨l, h, e⟩)
      · exact ⟨l, .inl h, e⟩
      · exact ⟨l, .inr h, e⟩
    · rintro ⟨l, h | h, e⟩
      · exact .inl ⟨l, h, e⟩
      · exact .inr ⟨l, h, e⟩

theorem erase_has (t : PT F) (o : Obj) : t.erase.has o = true ↔ ∃ x ∈ t.lvs, x.2.obj = o := by
  rw [has_leaves, ← t.lvs_erase]
  constructor
  · rintro ⟨l, hl, e⟩
    obtain ⟨x, hx, rfl⟩ := List.mem_map.1 hl
    exact ⟨x, hx, e⟩
  · rintro ⟨x, hx, e⟩
    exact ⟨x.2, List.mem_map.2 ⟨x, hx, rfl⟩, e⟩

/-- A node is taken from the pool if there is a tree already. -/
def TookO (T : Option (PT F)) (fs fs' : List NId) : Prop := (T = none → fs' = fs) ∧ (T ≠ none → NMem.Took fs fs')

theorem PT.ids_len (t : PT F) : t.ids.length + 1 = 2 * t.lvs.length := by
  induction t with
  | leaf => rfl
  | node n bb a b iha ihb => simp only [ids, lvs, List.length_cons, List.length_append]; omega

namespace NMem

theorem insertO_spec (st : Bool) (l : NId) (L : Leaf F) (T : Option (PT F)) {m : NMem F} {fs R : List NId}
    (hr : RootedO m.nd T) (hl : AtLeaf m.nd l L) (hpar : T = none → (m.nd l).parent = none) (hp : Pooled m.nd (m.pool st) fs)
    (ha : Acc m (idsO T ++ (l :: fs ++ R))) :
    ∃ m' t' fs', m.insert st m.next (T.map PT.id) l = some (m', t'.id) ∧ t'.erase = insRoot (T.map PT.erase) L ∧
      Rooted m'.nd none t' ∧ Pooled m'.nd (m'.pool st) fs' ∧ Acc m' (t'.ids ++ (fs' ++ R)) ∧
      (∀ x ∈ R, m'.nd x = m.nd x) ∧ m'.pool (!st) = m.pool (!st) ∧ AtLeaf m'.nd l L ∧ t'.lvs.Perm ((l, L) :: lvsO T) ∧
      TookO T fs fs' := by
  cases T with
  | none =>
    refine ⟨m, .leaf l L, fs, by cases m.next <;> rfl, rfl, ⟨hl, hpar rfl⟩, hp, ha, fun _ _ => rfl, rfl, hl, List.Perm.refl _, fun _ => rfl, fun c => absurd rfl c⟩
  | some t =>
    have hlen : t.ids.length ≤ m.next := by
      rw [← ha.length]
      simp only [idsO, List.length_append]
      omega
    obtain ⟨m', t', fs', e, h1, h2, h3, h4, h5, h6, h9, h7, h8⟩ := insert_spec st l L t hr hl hp ha hlen
    refine ⟨m', t', fs', e, h1, ?_, h3, h4, h5, h6, h7, h8, (fun c => by cases c), fun _ => h9⟩
    rw [ite_self] at h2
    exact h2

theorem removeO_spec {st : Bool} {m : NMem F} {n : NId} {L : Leaf F} {path : List (Fr F)} {fs R : List NId}
    (h : Rooted m.nd none (plug path (.leaf n L))) (hp : Pooled m.nd (m.pool st) fs)
    (ha : Acc m ((plug path (.leaf n L)).ids ++ (fs ++ R))) (hnd : ((plug path (PT.leaf n L)).lvs.map fun x => x.2.obj).Nodup) :
    ∃ m' T' fs', m.remove st (some (plug path (.leaf n L)).id) n = some (m', T'.map PT.id) ∧
      T'.map PT.erase = (plug path (.leaf n L)).erase.rem L.obj ∧ RootedO m'.nd T' ∧ Pooled m'.nd (m'.pool st) fs' ∧
      Acc m' (idsO T' ++ (n :: fs' ++ R)) ∧ (∀ x ∈ R, m'.nd x = m.nd x) ∧ m'.pool (!st) = m.pool (!st) ∧ AtLeaf m'.nd n L ∧
      (T' = none → (m'.nd n).parent = none) ∧ (plug path (PT.leaf n L)).lvs.Perm ((n, L) :: lvsO T') ∧
      (T' = none → fs' = fs) ∧ (T' ≠ none → fs'.length = fs.length + 1) := by
  have hsib : ∀ f ∈ path, f.sib.erase.has L.obj = false := by
    intro f hf
    rw [Bool.eq_false_iff]
    intro hc
    obtain ⟨x, hx, e⟩ := (erase_has _ _).1 hc
    have p := (plug_lvs path (PT.leaf n L)).map fun x => x.2.obj
    rw [p.nodup_iff] at hnd
    simp only [PT.lvs, List.cons_append, List.nil_append, List.map_cons, List.nodup_cons] at hnd
    exact hnd.1 (List.mem_map.2 ⟨x, List.mem_flatMap.2 ⟨f, hf, hx⟩, e⟩)
  cases path with
  | nil =>
    refine ⟨m, none, fs, by simp [remove, plug, PT.id_leaf], by simp [plug, PT.erase, Tree.rem], trivial, hp, ha, fun _ _ => rfl, rfl, h.1, fun _ => h.2, ?_, fun _ => rfl, fun c => absurd rfl c⟩
    simp [plug, PT.lvs, lvsO]
  | cons f r =>
    obtain ⟨m', e, h1, h2, h3, h4, h5, h6, h7⟩ := remove_spec h hp ha
    refine ⟨m', some (plugM r f.sib), f.n :: fs, e, (rem_leaf hsib rfl).symm, h1, h2, h3, h4, h5, h7, (fun c => by cases c), ?_, (fun c => by cases c), fun _ => rfl⟩
    refine (plug_lvs (f :: r) (PT.leaf n L)).trans ?_
    rw [plvs_cons]
    simp only [PT.lvs, lvsO, List.cons_append, List.nil_append]
    exact List.Perm.cons _ (plugM_lvs r f.sib).symm

end NMem

/-- The leaf at the end of the path gets other data. -/
theorem Rooted.releaf {m : NMem F} {path : List (Fr F)} {n : NId} {L : Leaf F} (h : Rooted m.nd none (plug path (.leaf n L)))
    (nd : (plug path (PT.leaf n L)).ids.Nodup) (bb : BB F) :
    Rooted (m.set n { m.nd n with bb := bb }).nd none (plug path (.leaf n { L with bb := bb })) := by
  have hn := (plug_ids path (PT.leaf n L)).nodup_iff.1 nd
  simp only [PT.ids, List.cons_append, List.nil_append, List.nodup_cons] at hn
  obtain ⟨h1, h2⟩ := (rooted_plug m.nd path (.leaf n L)).1 h
  refine (rooted_plug _ path _).2 ⟨?_, ?_⟩
  · simp only [Rooted, AtLeaf, NMem.set_self]
    exact ⟨⟨h1.1.1, trivial, h1.1.2.2⟩, h1.2⟩
  · refine h2.congr fun x hx => NMem.set_ne _ _ _ fun e => hn.1 (e ▸ hx)

theorem erase_rem_congr {path : List (Fr F)} {n : NId} {L L' : Leaf F} (e : L'.obj = L.obj) (h : ∀ f ∈ path, f.sib.erase.has L.obj = false) :
    (plug path (.leaf n L')).erase.rem L.obj = (plug path (.leaf n L)).erase.rem L.obj := by
  cases path with
  | nil => simp [plug, PT.erase, Tree.rem, e]
  | cons f r => rw [rem_leaf h rfl, rem_leaf h e]

/-- A leaf goes into a tree and gets its stamp. -/
theorem NMem.addLeaf_spec (st : Bool) (n : NId) (L : Leaf F) (s : Nat) (T : Option (PT F)) {m : NMem F} {fs R : List NId}
    (hr : RootedO m.nd T) (hl : AtLeaf m.nd n L) (hpar : T = none → (m.nd n).parent = none) (hp : Pooled m.nd (m.pool st) fs)
    (ha : Acc m (idsO T ++ (n :: fs ++ R))) (hT : ∀ x ∈ lvsO T, x.2.obj ≠ L.obj) :
    ∃ m2 t' fs', m.insert st m.next (T.map PT.id) n = some (m2, t'.id) ∧ t'.erase = insRoot (T.map PT.erase) { L with stamp := s } ∧
      Rooted (m2.set n { m2.nd n with stamp := s }).nd none t' ∧ Pooled (m2.set n { m2.nd n with stamp := s }).nd (m2.pool st) fs' ∧
      Acc (m2.set n { m2.nd n with stamp := s }) (t'.ids ++ (fs' ++ R)) ∧ (∀ x ∈ R, (m2.set n { m2.nd n with stamp := s }).nd x = m.nd x) ∧
      m2.pool (!st) = m.pool (!st) ∧ t'.lvs.Perm ((n, { L with stamp := s }) :: lvsO T) ∧
      TookO T fs fs' := by
  obtain ⟨m2, t2, fs2, e2, k1, k2, k3, k4, k5, k6, k7, k8, k9⟩ := NMem.insertO_spec st n L T hr hl hpar hp ha
  have hn2 : n ∈ t2.ids := t2.lvs_ids _ (k8.mem_iff.2 (List.mem_cons_self ..))
  have hne2 : ∀ x ∈ fs2 ++ R, x ≠ n := fun x hx e => by
    have := k4.nodup
    rw [List.nodup_append] at this
    exact this.2.2 n hn2 x hx e.symm
  have hTn : ∀ x ∈ lvsO T, x.1 ≠ n := fun x hx e => by
    have := ha.nodup
    rw [List.nodup_append] at this
    exact this.2.2 x.1 (lvsO_ids T x hx) n (by simp) e
  have hinj : ∀ x ∈ t2.lvs, x.1 = n ↔ x.2.obj = L.obj := by
    intro x hx
    rcases List.mem_cons.1 (k8.mem_iff.1 hx) with rfl | hx
    · simp
    · exact ⟨fun e => absurd e (hTn x hx), fun e => absurd e (hT x hx)⟩
  refine ⟨m2, t2.restamp n s, fs2, by rw [t2.restamp_id]; exact e2, ?_, k2.restamp, ?_, ?_, ?_, k6, ?_, k9⟩
  · rw [PT.restamp_erase n L.obj s t2 hinj, k1]
    have hnone : ∀ t, T = some t → t.erase.has L.obj = false := by
      intro t ht
      rw [Bool.eq_false_iff]
      intro hc
      obtain ⟨x, hx, e⟩ := (erase_has _ _).1 hc
      exact hT x (by rw [ht]; exact hx) e
    cases T with
    | none => simp [insRoot, Tree.restamp]
    | some t =>
      simp only [Option.map_some, insRoot]
      have h1 := Tree.restamp_ins L.obj s L rfl t.erase
      rw [Tree.restamp_absent _ _ _ (hnone t rfl)] at h1
      exact h1
  · exact k3.congr fun x hx => NMem.set_ne _ _ _ (hne2 x (by simp [hx]))
  · rw [t2.restamp_ids]
    exact k4.congr rfl (List.Perm.refl _)
  · intro x hx
    rw [NMem.set_ne _ _ _ (hne2 x (by simp [hx])), k5 x hx]
  · rw [t2.restamp_lvs]
    refine (k8.map _).trans ?_
    simp only [List.map_cons, if_true]
    refine List.Perm.cons _ ?_
    rw [List.map_congr_left (g := fun x => x)]
    · simp
    · intro x hx
      simp [hTn x hx]

theorem NMem.newLeaf_spec {st : Bool} {m : NMem F} {fs R : List NId} (o : Obj) (bb : BB F) (h1 : Pooled m.nd (m.pool st) fs) (h2 : Acc m (fs ++ R)) :
    ∃ m' n fs', m.newLeaf st o bb = (m', n) ∧ Pooled m'.nd (m'.pool st) fs' ∧ Acc m' (n :: fs' ++ R) ∧ (∀ x ∈ R, m'.nd x = m.nd x) ∧
      m'.pool (!st) = m.pool (!st) ∧ AtLeaf m'.nd n ⟨o, bb, 0⟩ ∧ (m'.nd n).parent = none ∧ NMem.Took fs fs' := by
  obtain ⟨fs', q1, q2, q3, q4, q5⟩ := NMem.fromPool_spec h1 h2
  have hne : ∀ x ∈ fs' ++ R, x ≠ (m.fromPool st).1 := fun x hx e => by
    have := q2.nodup
    rw [List.cons_append, List.nodup_cons] at this
    exact this.1 (e ▸ hx)
  refine ⟨_, _, fs', rfl, ?_, ?_, ?_, q4, ?_, ?_, q5⟩
  · exact q1.congr fun x hx => NMem.set_ne _ _ _ (hne x (by simp [hx]))
  · exact q2.congr rfl (List.Perm.refl _)
  · intro x hx
    rw [NMem.set_ne _ _ _ (hne x (by simp [hx])), q3 x hx]
  · simp [AtLeaf]
  · simp

/-- `LeafUpdate` on a tree in memory, without the pairs. -/
theorem NMem.reloc_spec {st : Bool} {m : NMem F} {n : NId} {L : Leaf F} {path : List (Fr F)} {fs R : List NId} (bb : BB F) (s : Nat)
    (h : Rooted m.nd none (plug path (.leaf n L))) (hp : Pooled m.nd (m.pool st) fs)
    (ha : Acc m ((plug path (.leaf n L)).ids ++ (fs ++ R))) (hnd : ((plug path (PT.leaf n L)).lvs.map fun x => x.2.obj).Nodup) :
    ∃ m1 r1 m2 t' fs', (m.set n { m.nd n with bb := bb }).remove st (some (plug path (.leaf n L)).id) n = some (m1, r1) ∧
      m1.insert st m1.next r1 n = some (m2, t'.id) ∧
      t'.erase = insRoot ((plug path (.leaf n L)).erase.rem L.obj) { L with bb := bb, stamp := s } ∧
      Rooted (m2.set n { m2.nd n with stamp := s }).nd none t' ∧ Pooled (m2.set n { m2.nd n with stamp := s }).nd (m2.pool st) fs' ∧
      Acc (m2.set n { m2.nd n with stamp := s }) (t'.ids ++ (fs' ++ R)) ∧ (∀ x ∈ R, (m2.set n { m2.nd n with stamp := s }).nd x = m.nd x) ∧
      m2.pool (!st) = m.pool (!st) ∧
      fs'.length = fs.length ∧ ∃ rest, (plug path (PT.leaf n L)).lvs.Perm ((n, L) :: rest) ∧ t'.lvs.Perm ((n, { L with bb := bb, stamp := s }) :: rest) := by
  have ndi := ha.nodup.of_append_left
  have hnid : n ∈ (plug path (PT.leaf n L)).ids := (plug_ids path (PT.leaf n L)).mem_iff.2 (by simp [PT.ids])
  have hidseq : (plug path (PT.leaf n { L with bb := bb })).ids.Perm (plug path (PT.leaf n L)).ids :=
    (plug_ids path (PT.leaf n { L with bb := bb })).trans (plug_ids path (PT.leaf n L)).symm
  have hpl := plug_lvs path (PT.leaf n L)
  have hpl' := plug_lvs path (PT.leaf n { L with bb := bb })
  simp only [PT.lvs, List.cons_append, List.nil_append] at hpl hpl'
  have hnp := hnd
  rw [(hpl.map fun x => x.2.obj).nodup_iff] at hnp
  have hsib : ∀ f ∈ path, f.sib.erase.has L.obj = false := by
    intro f hf
    rw [Bool.eq_false_iff]
    intro hc
    obtain ⟨x, hx, e⟩ := (erase_has _ _).1 hc
    simp only [List.map_cons, List.nodup_cons] at hnp
    exact hnp.1 (List.mem_map.2 ⟨x, List.mem_flatMap.2 ⟨f, hf, hx⟩, e⟩)
  have hroot : (plug path (PT.leaf n { L with bb := bb })).id = (plug path (PT.leaf n L)).id :=
    (plug_id path (PT.leaf n { L with bb := bb }) (.leaf n L) rfl).trans (plug_id path (.leaf n L) (.leaf n L) rfl).symm
  have hdisj : ∀ x ∈ fs ++ R, x ≠ n := fun x hx e => by
    have := ha.nodup
    rw [List.nodup_append] at this
    exact this.2.2 n hnid x hx e.symm
  obtain ⟨m1, T1, fs1, e1, q1, q2, q3, q4, q5, q6, q7, q8, q9, q10, q11⟩ := NMem.removeO_spec (st := st) (fs := fs) (R := R) (h.releaf ndi bb)
    (hp.congr fun x hx => NMem.set_ne _ _ _ (hdisj x (by simp [hx]))) (ha.congr rfl (hidseq.append_right _))
    (by rw [(hpl'.map fun x => x.2.obj).nodup_iff]; exact hnp)
  obtain ⟨m2, t2, fs2, e2, k1, k2, k3, k4, k5, k6, k7, k8, k9, k10⟩ := NMem.insertO_spec st n { L with bb := bb } T1 q2 q7 q8 q3 q4
  rw [hroot] at e1
  have hn2 : n ∈ t2.ids := t2.lvs_ids _ (k8.mem_iff.2 (List.mem_cons_self ..))
  have hne2 : ∀ x ∈ fs2 ++ R, x ≠ n := fun x hx e => by
    have := k4.nodup
    rw [List.nodup_append] at this
    exact this.2.2 n hn2 x hx e.symm
  have q9' : (((n, L) : NId × Leaf F) :: plvs path).Perm ((n, L) :: lvsO T1) := by
    have := hpl'.symm.trans q9
    exact (List.Perm.cons_inv this).cons _
  have hT1 : ∀ x ∈ lvsO T1, x.1 ≠ n ∧ x.2.obj ≠ L.obj := by
    intro x hx
    have hx' : x ∈ plvs path := (List.Perm.cons_inv q9').mem_iff.2 hx
    refine ⟨fun e => ?_, fun e => ?_⟩
    · have hn := (plug_ids path (PT.leaf n L)).nodup_iff.1 ndi
      simp only [PT.ids, List.cons_append, List.nil_append, List.nodup_cons] at hn
      obtain ⟨f, hf, hxf⟩ := List.mem_flatMap.1 hx'
      refine hn.1 (List.mem_flatMap.2 ⟨f, hf, ?_⟩)
      rw [← e]
      simp [Fr.ids, f.sib.lvs_ids x hxf]
    · simp only [List.map_cons, List.nodup_cons] at hnp
      exact hnp.1 (List.mem_map.2 ⟨x, hx', e⟩)
  have hinj : ∀ x ∈ t2.lvs, x.1 = n ↔ x.2.obj = L.obj := by
    intro x hx
    rcases List.mem_cons.1 (k8.mem_iff.1 hx) with rfl | hx
    · simp
    · exact ⟨fun e => absurd e (hT1 x hx).1, fun e => absurd e (hT1 x hx).2⟩
  refine ⟨m1, T1.map PT.id, m2, t2.restamp n s, fs2, e1, by rw [t2.restamp_id]; exact e2, ?_, k2.restamp, ?_, ?_, ?_, ?_, ?_, lvsO T1, hpl.trans q9', ?_⟩
  · rw [PT.restamp_erase n L.obj s t2 hinj, k1]
    have hnone : ∀ t, T1 = some t → t.erase.has L.obj = false := by
      intro t ht
      rw [Bool.eq_false_iff]
      intro hc
      obtain ⟨x, hx, e⟩ := (erase_has _ _).1 hc
      exact (hT1 x (by rw [ht]; exact hx)).2 e
    have hq : T1.map PT.erase = (plug path (PT.leaf n L)).erase.rem L.obj := q1.trans (erase_rem_congr (L := L) (L' := { L with bb := bb }) rfl hsib)
    rw [← hq]
    cases T1 with
    | none => simp [insRoot, Tree.restamp]
    | some t =>
      simp only [Option.map_some, insRoot]
      have h1 := Tree.restamp_ins L.obj s { L with bb := bb } rfl t.erase
      rw [Tree.restamp_absent _ _ _ (hnone t rfl)] at h1
      exact h1
  · exact k3.congr fun x hx => NMem.set_ne _ _ _ (hne2 x (by simp [hx]))
  · rw [t2.restamp_ids]
    exact k4.congr rfl (List.Perm.refl _)
  · intro x hx
    rw [NMem.set_ne _ _ _ (hne2 x (by simp [hx])), k5 x hx, q5 x hx, NMem.set_ne _ _ _ (hdisj x (by simp [hx]))]
  · rw [k6, q6]
    rfl
  · by_cases e : T1 = none
    · rw [k9 e, q10 e]
    · have h1 := q11 e
      rcases k10 e with h2 | ⟨h2, _⟩
      · omega
      · rw [h2] at h1; simp at h1
  · rw [t2.restamp_lvs]
    refine (k8.map _).trans ?_
    simp only [List.map_cons, if_true]
    refine List.Perm.cons _ ?_
    rw [List.map_congr_left (g := fun x => x)]
    · simp
    · intro x hx
      simp [(hT1 x hx).1]

end CP
