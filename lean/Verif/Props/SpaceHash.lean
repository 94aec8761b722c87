import Verif.Spec.SpaceHash
import Verif.Proofs.SpaceHash3
import Verif.Proofs.HashRay
import Mathlib.Algebra.Order.Floor.Ring

/-! # C31: the spatial hash -/

namespace CP
open GoFloat
variable {F : Type} [GoFloat F]

/-! ### Histories -/

namespace SHash

theorem mem_intRange (l r i : Int) : i ∈ intRange l r ↔ l ≤ i ∧ i ≤ r := by
  simp only [intRange, List.mem_map, List.mem_range]
  constructor
  · rintro ⟨k, hk, rfl⟩; omega
  · rintro ⟨h1, h2⟩; exact ⟨(i - l).toNat, by omega, by omega⟩

theorem mem_cells (s : SHash F) (B : BB F) (k : Nat) :
    k ∈ s.cells B ↔ ∃ i j, Covers s.celldim B i j ∧ cellIndex s.numCells (i, j) = k := by
  simp only [cells, gridCells, List.mem_map, List.mem_flatMap, mem_intRange, Covers]
  constructor
  · rintro ⟨c, ⟨i, ⟨h1, h2⟩, j, ⟨h3, h4⟩, rfl⟩, e⟩; exact ⟨i, j, ⟨h1, h2, h3, h4⟩, e⟩
  · rintro ⟨i, j, ⟨h1, h2, h3, h4⟩, e⟩; exact ⟨(i, j), ⟨i, ⟨h1, h2⟩, j, ⟨h3, h4⟩, rfl⟩, e⟩

/-- The set of buckets of a box. -/
def buckets (dim : F) (count : Nat) (B : BB F) (k : Nat) : Prop := ∃ i j, Covers dim B i j ∧ cellIndex count (i, j) = k

/-- The relation between an index and what the user knows. -/
structure Rel (hash : Obj → Nat) (dim : F) (count : Nat) (idx : Obj → Option (BB F)) (s : SHash F) : Prop where
  inv : SInv hash s (fun o => (idx o).map (buckets dim count))
  num : s.numCells = count
  dim : s.celldim = dim

theorem Rel.cells_eq {hash : Obj → Nat} {dim : F} {count : Nat} {idx : Obj → Option (BB F)} {s : SHash F} (r : Rel hash dim count idx s) (B : BB F) :
    (fun k => k ∈ s.cells B) = buckets dim count B := by
  funext k
  rw [mem_cells, r.num, r.dim]
  rfl

theorem share_iff {dim : F} {count : Nat} {A B : BB F} : Share dim count A B ↔ ∃ k, buckets dim count A k ∧ buckets dim count B k := by
  constructor
  · rintro ⟨i, j, i', j', h1, h2, e⟩; exact ⟨_, ⟨i, j, h1, e⟩, ⟨i', j', h2, rfl⟩⟩
  · rintro ⟨k, ⟨i, j, h1, e⟩, ⟨i', j', h2, e'⟩⟩; exact ⟨i, j, i', j', h1, h2, e.trans e'.symm⟩

theorem Rel.new {hash : Obj → Nat} {dim : F} {count : Nat} (hc : 0 < count) :
    ∃ s, SHash.new dim count = some s ∧ Rel hash dim count (fun _ => none) s := by
  obtain ⟨set, e, hi, hf⟩ := HashSet.inv_new (cl hash)
  have hem : set.each = [] := by rw [HashSet.each, hf]; rfl
  refine ⟨_, by rw [SHash.new, e]; rfl, ⟨⟨⟨hc, by simp, hi, by simp [hem], ?_, by simp [hem], by simp [hem], ?_, ?_⟩, fun h => Nat.one_pos⟩, rfl, rfl⟩⟩
  · refine ⟨fun h => ?_, by simp, List.nodup_nil, by simp, fun h _ => ?_⟩ <;> simp [refOf, hem]
  · intro bin hb h hh
    rw [(List.mem_replicate.1 hb).2] at hh; cases hh
  · intro bin hb
    rw [(List.mem_replicate.1 hb).2]; exact List.nodup_nil

theorem Rel.ext {hash : Obj → Nat} {dim : F} {count : Nat} {idx idx' : Obj → Option (BB F)} {s : SHash F} (r : Rel hash dim count idx s)
    (h : ∀ o, idx' o = idx o) : Rel hash dim count idx' s := by
  rw [show idx' = idx from funext h]; exact r

theorem Rel.entries {hash : Obj → Nat} {dim : F} {count : Nat} {idx : Obj → Option (BB F)} {s : SHash F} (r : Rel hash dim count idx s) :
    s.set.entries = s.each.length := by
  rw [r.inv.set.cnt, each, HashSet.each, List.length_map, List.length_map]

theorem Rel.insert {hash : Obj → Nat} {dim : F} {count : Nat} {idx : Obj → Option (BB F)} {s : SHash F} (r : Rel hash dim count idx s)
    {o : Obj} (ho : idx o = none) (B : BB F) (pick : Nat) :
    (s.each.length = 1610612740 → s.insert hash o B pick = none) ∧
    (s.each.length ≠ 1610612740 → ∃ s', s.insert hash o B pick = some s' ∧ Rel hash dim count (fun x => if x = o then some B else idx x) s') := by
  obtain ⟨h1, h2⟩ := insert_spec r.inv (o := o) (by rw [ho]; rfl) B pick
  rw [r.entries] at h1 h2
  refine ⟨fun h => h1 (by omega), fun h => ?_⟩
  obtain ⟨s', e, c, d, -⟩ := h2 (by omega)
  refine ⟨s', e, ?_, d.num.trans r.num, d.dim.trans r.dim⟩
  convert c using 2 with x
  split
  · rw [r.cells_eq]; rfl
  · rfl

theorem Rel.remove {hash : Obj → Nat} {dim : F} {count : Nat} {idx : Obj → Option (BB F)} {s : SHash F} (r : Rel hash dim count idx s) (o : Obj) :
    ∃ s', s.remove hash o = some s' ∧ Rel hash dim count (fun x => if x = o then none else idx x) s' := by
  unfold SHash.remove
  cases ho : idx o with
  | none =>
    rw [remove_absent r.inv (o := o) (by rw [ho]; rfl)]
    refine ⟨s, rfl, r.ext fun x => ?_⟩
    split
    · next e => rw [e, ho]
    · rfl
  | some B =>
    obtain ⟨set, h, e, c, d, -⟩ := remove_present r.inv (o := o) (by rw [ho]; simp)
    rw [e]
    refine ⟨_, rfl, ?_, d.num.trans r.num, d.dim.trans r.dim⟩
    convert c using 2 with x
    split <;> rfl

theorem Rel.reindexObject {hash : Obj → Nat} {dim : F} {count : Nat} {idx : Obj → Option (BB F)} {s : SHash F} (r : Rel hash dim count idx s)
    (hs : s.each.length ≤ 1610612740) (o : Obj) (B : BB F) (pick : Nat) :
    ∃ s', s.reindexObject hash o B pick = some s' ∧ Rel hash dim count (fun x => if x = o then (idx x).map fun _ => B else idx x) s' := by
  unfold SHash.reindexObject
  cases ho : idx o with
  | none =>
    rw [remove_absent r.inv (o := o) (by rw [ho]; rfl)]
    refine ⟨s, rfl, r.ext fun x => ?_⟩
    split
    · next e => rw [e, ho]; rfl
    · rfl
  | some B0 =>
    obtain ⟨set, h, e, c, d, hp⟩ := remove_present r.inv (o := o) (by rw [ho]; simp)
    rw [e]
    simp only
    have r1 : Rel hash dim count (fun x => if x = o then none else idx x) ({ s with set := set }.orphan h) := by
      refine ⟨?_, d.num.trans r.num, d.dim.trans r.dim⟩
      convert c using 2 with x
      split <;> rfl
    obtain ⟨-, h2⟩ := r1.insert (o := o) (if_pos rfl) B pick
    have hl : ({ s with set := set }.orphan h : SHash F).each.length + 1 = s.each.length := by
      have h1 : ({ s with set := set }.orphan h : SHash F).set = set := (release_same _ _).set
      rw [each, h1, each]
      have := hp.length_eq
      simp at this ⊢
      omega
    obtain ⟨s', e', r'⟩ := h2 (by omega)
    refine ⟨s', e', r'.ext fun x => ?_⟩
    by_cases e : x = o
    · simp only [if_pos e]; rw [e, ho]; rfl
    · simp only [if_neg e]

theorem Rel.query {hash : Obj → Nat} {dim : F} {count : Nat} {idx : Obj → Option (BB F)} {s : SHash F} (r : Rel hash dim count idx s)
    (obj : Option Obj) (B : BB F) :
    ∃ s' log, s.query obj B = some (s', log) ∧ Rel hash dim count idx s' ∧ log.Nodup ∧
      ∀ x, x ∈ log ↔ obj ≠ some x ∧ ∃ X, idx x = some X ∧ Share dim count X B := by
  obtain ⟨s', log, e, c, d, -, n, x⟩ := query_spec r.inv obj B
  refine ⟨s', log, e, ⟨c, d.num.trans r.num, d.dim.trans r.dim⟩, n, fun y => ?_⟩
  rw [x y]
  refine and_congr_right fun _ => ?_
  constructor
  · rintro ⟨K, hK, k, hk, hk'⟩
    obtain ⟨X, hX, rfl⟩ := Option.map_eq_some_iff.1 hK
    refine ⟨X, hX, share_iff.2 ⟨k, hk', ?_⟩⟩
    rw [← r.cells_eq B]; exact hk
  · rintro ⟨X, hX, hs⟩
    obtain ⟨k, h1, h2⟩ := share_iff.1 hs
    refine ⟨_, by rw [hX]; rfl, k, ?_, h1⟩
    rw [← r.cells_eq B] at h2; exact h2

theorem Rel.reindexQuery {hash : Obj → Nat} {dim : F} {count : Nat} {idD idS : Obj → Option (BB F)} {dyn stat : SHash F}
    (rd : Rel hash dim count idD dyn) (rs : Rel hash dim count idS stat) (hdis : ∀ o, idS o = none ∨ idD o = none) (box : Obj → BB F) :
    ∃ dyn' stat' log, reindexQuery box dyn stat = some (dyn', stat', log) ∧
      Rel hash dim count (fun x => (idD x).map fun _ => box x) dyn' ∧ Rel hash dim count idS stat' ∧
      dyn'.each = dyn.each ∧ stat'.each = stat.each ∧
      log.Nodup ∧ (∀ x y, (x, y) ∈ log → (y, x) ∉ log) ∧
      (∀ x y, (x, y) ∈ log → x ≠ y ∧ idD x ≠ none ∧ ((idD y ≠ none ∧ Share dim count (box x) (box y)) ∨ ∃ Y, idS y = some Y ∧ Share dim count (box x) Y)) ∧
      (∀ x y, x ≠ y → idD x ≠ none → idD y ≠ none → Share dim count (box x) (box y) → (x, y) ∈ log ∨ (y, x) ∈ log) ∧
      (∀ x y Y, idD x ≠ none → idS y = some Y → Share dim count (box x) Y → (x, y) ∈ log) := by
  obtain ⟨dyn', stat', l1, l2, e, dd, ds, cd, cs, td, ts, p, n2, x2⟩ := reindexQuery_spec box rd.inv rs.inv
  have hown : ∀ x, (idD x).map (buckets dim count) ≠ none ↔ idD x ≠ none := fun x => by simp
  have hP : ∀ x, x ∈ dyn.set.each.map Prod.fst ↔ idD x ≠ none := by
    intro x
    rw [← hown x, rd.inv.idx x, List.mem_map]
    exact ⟨fun ⟨a, b, c⟩ => ⟨a.2, by rw [← c]; exact b⟩, fun ⟨h, hh⟩ => ⟨_, hh, rfl⟩⟩
  have hcd : ∀ x k, k ∈ dyn.cells (box x) ↔ buckets dim count (box x) k := fun x k => by
    rw [← rd.cells_eq]
  have hcs : ∀ x k, k ∈ stat.cells (box x) ↔ buckets dim count (box x) k := fun x k => by
    rw [← rs.cells_eq]
  have x2' : ∀ x y, (x, y) ∈ l2 ↔ idD x ≠ none ∧ x ≠ y ∧ ∃ Y, idS y = some Y ∧ Share dim count (box x) Y := by
    intro x y
    rw [x2, hown]
    refine and_congr_right fun _ => and_congr_right fun _ => ?_
    constructor
    · rintro ⟨K, hK, k, hk, hk'⟩
      obtain ⟨Y, hY, rfl⟩ := Option.map_eq_some_iff.1 hK
      exact ⟨Y, hY, share_iff.2 ⟨k, (hcs x k).1 hk, hk'⟩⟩
    · rintro ⟨Y, hY, hs⟩
      obtain ⟨k, h1, h2⟩ := share_iff.1 hs
      exact ⟨_, by rw [hY]; rfl, k, (hcs x k).2 h1, h2⟩
  have s1 : ∀ x y, (x, y) ∈ l1 → idD x ≠ none ∧ idD y ≠ none ∧ x ≠ y ∧ Share dim count (box x) (box y) := by
    intro x y h
    obtain ⟨a, b, c, k, hk, hk'⟩ := p.sound x y h
    exact ⟨(hP x).1 a, (hP y).1 b, c, share_iff.2 ⟨k, (hcd x k).1 hk, (hcd y k).1 hk'⟩⟩
  have dj : ∀ y, idD y ≠ none → ∀ Y, idS y = some Y → False := fun y h Y hY => by
    rcases hdis y with q | q
    · rw [q] at hY; cases hY
    · exact h q
  refine ⟨dyn', stat', l1 ++ l2, e, ⟨?_, dd.num.trans rd.num, dd.dim.trans rd.dim⟩, ⟨cs, ds.num.trans rs.num, ds.dim.trans rs.dim⟩, by rw [each, td]; rfl, by rw [each, ts]; rfl,
    ?_, fun x y hxy hyx => ?_, fun x y hxy => ?_, fun x y hne hx hy hs => ?_, fun x y Y hx hy hs => ?_⟩
  · convert cd using 2 with x
    cases idD x with
    | none => rfl
    | some B => simp only [Option.map_some]; rw [rd.cells_eq]
  · rw [List.nodup_append]
    refine ⟨p.nd, n2, fun a ha b hb => ?_⟩
    rintro rfl
    obtain ⟨x, y⟩ := a
    obtain ⟨-, h1, -⟩ := s1 x y ha
    obtain ⟨-, -, Y, hY, -⟩ := (x2' x y).1 hb
    exact dj y h1 Y hY
  · rcases List.mem_append.1 hxy with hxy | hxy <;> rcases List.mem_append.1 hyx with hyx | hyx
    · exact p.once x y hxy hyx
    · obtain ⟨h1, -⟩ := s1 x y hxy
      obtain ⟨-, -, Y, hY, -⟩ := (x2' y x).1 hyx
      exact dj x h1 Y hY
    · obtain ⟨h1, -⟩ := s1 y x hyx
      obtain ⟨-, -, Y, hY, -⟩ := (x2' x y).1 hxy
      exact dj y h1 Y hY
    · obtain ⟨h1, -, -⟩ := (x2' y x).1 hyx
      obtain ⟨-, -, Y, hY, -⟩ := (x2' x y).1 hxy
      exact dj y h1 Y hY
  · rcases List.mem_append.1 hxy with hxy | hxy
    · obtain ⟨a, b, c, d⟩ := s1 x y hxy
      exact ⟨c, a, Or.inl ⟨b, d⟩⟩
    · obtain ⟨a, b, c⟩ := (x2' x y).1 hxy
      exact ⟨b, a, Or.inr c⟩
  · obtain ⟨k, h1, h2⟩ := share_iff.1 hs
    exact (p.complete x ((hP x).2 hx) y ((hP y).2 hy) hne ⟨k, (hcd x k).2 h1, (hcd y k).2 h2⟩).imp (List.mem_append_left _) (List.mem_append_left _)
  · exact List.mem_append_right _ ((x2' x y).2 ⟨hx, by rintro rfl; exact dj x hx Y hy, Y, hy, hs⟩)

end SHash

open SHash

/-- What holds along every legal history. -/
structure HRel (hash : Obj → Nat) (dim : F) (count : Nat) (sp : HSpec F) (w : HWorld F) : Prop where
  box : w.box = sp.box
  rel : ∀ st, Rel hash dim count (sp.idx st) (w.index st)
  disj : ∀ o, sp.idx true o = none ∨ sp.idx false o = none
  small : ∀ st, (w.index st).each.length ≤ 1610612740

theorem SHash.Rel.smallOf {hash : Obj → Nat} {dim : F} {count : Nat} {idx : Obj → Option (BB F)} {s : SHash F} (r : Rel hash dim count idx s) :
    s.each.length ≤ 1610612740 := by
  rw [← r.entries]
  have h1 := r.inv.set.lt
  have h2 : s.set.size ≤ 1610612741 := by
    have := r.inv.set.prime
    have h3 : ∀ p ∈ primes, p ≤ 1610612741 := by decide
    exact h3 _ this
  omega

theorem HWorld.index_setIndex (w : HWorld F) (st i : Bool) (s : SHash F) : (w.setIndex st s).index i = if i = st then s else w.index i := by
  cases st <;> cases i <;> rfl

/-- A legal call on a state reached by a legal history. -/
theorem HRel.step {hash : Obj → Nat} {dim : F} {count : Nat} {sp : HSpec F} {w : HWorld F} (r : HRel hash dim count sp w) (op : HOp F) (hok : sp.ok op) :
    (∃ st o pick, op = .insert st o pick ∧ (w.index st).each.length = 1610612740 ∧ w.step hash op = none) ∨
    ((∀ st o pick, op = .insert st o pick → (w.index st).each.length ≠ 1610612740) ∧
      ∃ w', w.step hash op = some w' ∧ HRel hash dim count (sp.step op) w') := by
  have one : ∀ (st : Bool) (s : SHash F) (idx' : Bool → Obj → Option (BB F)), Rel hash dim count (idx' st) s → (∀ i, i ≠ st → idx' i = sp.idx i) →
      ∀ i, Rel hash dim count (idx' i) ((w.setIndex st s).index i) := by
    intro st s idx' h1 h2 i
    rw [HWorld.index_setIndex]
    split
    · next e => subst e; exact h1
    · next e => rw [h2 i e]; exact r.rel i
  have hb : ∀ st s, (w.setIndex st s).box = sp.box := fun st s => by cases st <;> exact r.box
  cases op with
  | move box =>
    exact Or.inr ⟨nofun, _, rfl, ⟨rfl, r.rel, r.disj, r.small⟩⟩
  | insert st o pick =>
    have hn : sp.idx st o = none := by cases st; exact hok.2; exact hok.1
    obtain ⟨h1, h2⟩ := (r.rel st).insert hn (w.box o) pick
    by_cases hl : (w.index st).each.length = 1610612740
    · exact Or.inl ⟨st, o, pick, rfl, hl, by simp only [HWorld.step, h1 hl]; rfl⟩
    · obtain ⟨s', e, rs⟩ := h2 hl
      have hr := one st s' (fun i x => if i = st ∧ x = o then some (sp.box o) else sp.idx i x) (rs.ext fun x => by simp [r.box]) (fun i hi => by simp [hi])
      refine Or.inr ⟨by rintro _ _ _ ⟨⟩; exact hl, _, by simp only [HWorld.step, e]; rfl, ⟨hb _ _, hr, fun x => ?_, fun i => (hr i).smallOf⟩⟩
      simp only [HSpec.step]
      by_cases e : x = o
      · subst e
        cases st
        · left; simpa using hok.1
        · right; simpa using hok.2
      · simpa [e] using r.disj x
  | remove st o =>
    obtain ⟨s', e, rs⟩ := (r.rel st).remove o
    have hr := one st s' (fun i x => if i = st ∧ x = o then none else sp.idx i x) (rs.ext fun x => by simp) (fun i hi => by simp [hi])
    refine Or.inr ⟨nofun, _, by simp only [HWorld.step, e]; rfl, ⟨hb _ _, hr, fun x => ?_, fun i => (hr i).smallOf⟩⟩
    simp only [HSpec.step]
    refine (r.disj x).imp (fun q => ?_) (fun q => ?_) <;> split <;> first | rfl | exact q
  | reindexObject st o pick =>
    obtain ⟨s', e, rs⟩ := (r.rel st).reindexObject (r.small st) o (w.box o) pick
    have hr := one st s' (fun i x => if i = st ∧ x = o then (sp.idx i x).map fun _ => sp.box x else sp.idx i x) (rs.ext fun x => by
      by_cases e : x = o
      · simp [e, r.box]
      · simp [e]) (fun i hi => by simp [hi])
    refine Or.inr ⟨nofun, _, by simp only [HWorld.step, e]; rfl, ⟨hb _ _, hr, fun x => ?_, fun i => (hr i).smallOf⟩⟩
    simp only [HSpec.step]
    refine (r.disj x).imp (fun q => ?_) (fun q => ?_) <;> rw [q] <;> split <;> rfl
  | query st obj bb =>
    obtain ⟨s', log, e, rs, -, -⟩ := (r.rel st).query obj bb
    have hr := one st s' sp.idx rs (fun i hi => rfl)
    exact Or.inr ⟨nofun, _, by simp only [HWorld.step, e]; rfl, ⟨hb _ _, hr, r.disj, fun i => (hr i).smallOf⟩⟩
  | reindexQuery =>
    obtain ⟨d', s', log, e, rd, rs, -⟩ := (r.rel false).reindexQuery (r.rel true) r.disj w.box
    have e' : SHash.reindexQuery w.box w.dyn w.stat = some (d', s', log) := e
    have hr : ∀ i, Rel hash dim count ((sp.step .reindexQuery).idx i) ((⟨w.box, s', d'⟩ : HWorld F).index i) := by
      intro i
      cases i
      · exact rd.ext fun x => by simp [HSpec.step, r.box]
      · exact rs.ext fun x => by simp [HSpec.step]
    refine Or.inr ⟨nofun, ⟨w.box, s', d'⟩, by simp only [HWorld.step, e']; rfl, ⟨r.box, hr, fun x => ?_, fun i => (hr i).smallOf⟩⟩
    simp only [HSpec.step]
    refine (r.disj x).imp (fun q => by simpa using q) (fun q => by simp [q])

theorem HHist.rel {hash : Obj → Nat} {dim : F} {count : Nat} (hc : 0 < count) {sp : HSpec F} {w : HWorld F} (h : HHist hash dim count sp w) :
    HRel hash dim count sp w := by
  induction h with
  | @init box w h =>
    obtain ⟨s, e, r⟩ := Rel.new (hash := hash) (dim := dim) hc
    rw [HWorld.init, e] at h
    simp only [Option.some.injEq] at h
    subst h
    have hr : ∀ st, Rel hash dim count (fun _ => none) ((⟨box, s, s⟩ : HWorld F).index st) := fun st => by cases st <;> exact r
    exact ⟨rfl, hr, fun _ => Or.inl rfl, fun st => (hr st).smallOf⟩
  | @step sp w w' op _ hok hs ih =>
    rcases ih.step op hok with ⟨_, _, _, -, -, q⟩ | ⟨-, w1, e, r⟩
    · rw [q] at hs; cases hs
    · rw [e] at hs; cases hs; exact r
  | @ray sp w σ st fuel f c a b tE r _ hE hs ih =>
    obtain ⟨log, n, i, d, t, -⟩ := segmentQuery_spec (ih.rel st).inv f c a b hE hs
    have hr : ∀ i, Rel hash dim count (sp.idx i) ((w.setIndex st r.1).index i) := by
      intro j
      rw [HWorld.index_setIndex]
      split
      · next e => subst e; exact ⟨i, d.num.trans (ih.rel j).num, d.dim.trans (ih.rel j).dim⟩
      · exact ih.rel j
    exact ⟨by cases st <;> exact ih.box, hr, ih.disj, fun j => (hr j).smallOf⟩

/-! ### The theorems -/

/-- C31: a legal call panics only when a shape is inserted into an index that already holds 1610612740 shapes. -/
theorem C31_no_panic {hash : Obj → Nat} {dim : F} {count : Nat} (hc : 0 < count) {sp : HSpec F} {w : HWorld F} (h : HHist hash dim count sp w)
    (op : HOp F) (hok : sp.ok op) :
    w.step hash op = none ↔ ∃ st o pick, op = .insert st o pick ∧ (w.index st).each.length = 1610612740 := by
  rcases (h.rel hc).step op hok with ⟨st, o, pick, e, hl, q⟩ | ⟨hn, w1, e, -⟩
  · exact ⟨fun _ => ⟨st, o, pick, e, hl⟩, fun _ => q⟩
  · rw [e]
    exact ⟨nofun, fun ⟨st, o, pick, e, hl⟩ => absurd hl (hn st o pick e)⟩

/-- C31: the indexes hold exactly the shapes that were inserted and not removed: `Each` visits each of them once, `Contains` finds exactly them. -/
theorem C31_members {hash : Obj → Nat} {dim : F} {count : Nat} (hc : 0 < count) {sp : HSpec F} {w : HWorld F} (h : HHist hash dim count sp w) (st : Bool) :
    (w.index st).each.Nodup ∧ (∀ o, o ∈ (w.index st).each ↔ sp.idx st o ≠ none) ∧
      ∀ o, (w.index st).contains hash o = some (decide (o ∈ (w.index st).each)) := by
  have r := (h.rel hc).rel st
  refine ⟨each_nodup r.inv.set, fun o => ?_, fun o => ?_⟩
  · have := r.inv.idx o
    rw [each, List.mem_map]
    constructor
    · rintro ⟨e, he, rfl⟩
      have := this.2 ⟨e.2, he⟩
      simpa using this
    · intro q
      obtain ⟨g, hg⟩ := this.1 (by simpa using q)
      exact ⟨_, hg, rfl⟩
  · unfold SHash.contains
    rcases HashSet.find_spec (cl hash) (w.index st).set r.inv.set o with ⟨b, hb, e, q⟩ | ⟨hn, q⟩
    · have q' : HashSet.find eqv (w.index st).set (hash o) o = some (some b.elt) := q
      rw [q']
      have : o ∈ (w.index st).each := List.mem_map.2 ⟨b.elt, List.mem_map.2 ⟨b, hb, rfl⟩, e⟩
      simp [this]
    · have q' : HashSet.find eqv (w.index st).set (hash o) o = some none := q
      rw [q']
      have : o ∉ (w.index st).each := by
        intro q
        obtain ⟨e, he, rfl⟩ := List.mem_map.1 q
        obtain ⟨b, hb, rfl⟩ := List.mem_map.1 he
        exact hn b hb rfl
      simp [this]

/-- C31: a query reports every shape of the index, other than the one given, that shares a bucket with the box, and no other, each once. -/
theorem C31_query {hash : Obj → Nat} {dim : F} {count : Nat} (hc : 0 < count) {sp : HSpec F} {w : HWorld F} (h : HHist hash dim count sp w)
    (st : Bool) (obj : Option Obj) (B : BB F) :
    ∃ s' log, (w.index st).query obj B = some (s', log) ∧ log.Nodup ∧
      ∀ x, x ∈ log ↔ obj ≠ some x ∧ ∃ X, sp.idx st x = some X ∧ Share dim count X B := by
  obtain ⟨s', log, e, -, n, x⟩ := ((h.rel hc).rel st).query obj B
  exact ⟨s', log, e, n, x⟩

/-- C31: `ReindexQuery` calls back for every two dynamic shapes whose current boxes share a bucket and for every dynamic and static shape that do, and for
no other pair, once each (in one order only; the dynamic shape first if the other one is static). -/
theorem C31_pairs {hash : Obj → Nat} {dim : F} {count : Nat} (hc : 0 < count) {sp : HSpec F} {w : HWorld F} (h : HHist hash dim count sp w) :
    ∃ dyn' stat' log, SHash.reindexQuery w.box w.dyn w.stat = some (dyn', stat', log) ∧
      log.Nodup ∧ (∀ x y, (x, y) ∈ log → (y, x) ∉ log) ∧
      (∀ x y, (x, y) ∈ log → x ≠ y ∧ sp.idx false x ≠ none ∧
        ((sp.idx false y ≠ none ∧ Share dim count (sp.box x) (sp.box y)) ∨ ∃ Y, sp.idx true y = some Y ∧ Share dim count (sp.box x) Y)) ∧
      (∀ x y, x ≠ y → sp.idx false x ≠ none → sp.idx false y ≠ none → Share dim count (sp.box x) (sp.box y) → (x, y) ∈ log ∨ (y, x) ∈ log) ∧
      (∀ x y Y, sp.idx false x ≠ none → sp.idx true y = some Y → Share dim count (sp.box x) Y → (x, y) ∈ log) := by
  have r := h.rel hc
  obtain ⟨d', s', log, e, -, -, -, -, a⟩ := (r.rel false).reindexQuery (r.rel true) r.disj w.box
  rw [r.box] at a
  exact ⟨d', s', log, e, a⟩

/-- `floor` of the code is the floor of a real number. -/
theorem goFloor_real (x : ℝ) : goFloor x = ⌊x⌋ := by
  have ht : (trunc x : Int) = if 0 ≤ x then ⌊x⌋ else ⌈x⌉ := rfl
  unfold goFloor
  simp only [ht, ofInt_real]
  by_cases h : 0 ≤ x
  · rw [if_pos h, if_neg (fun q => absurd q.1 (not_lt.2 h))]
  · rw [if_neg h]
    push Not at h
    by_cases e : ((⌈x⌉ : Int) : ℝ) = x
    · rw [if_neg (fun q => q.2 e)]
      rw [← e]; simp
    · rw [if_pos ⟨h, e⟩]
      symm
      rw [Int.floor_eq_iff]
      have h1 := Int.le_ceil x
      have h2 := Int.ceil_lt_add_one x
      have h3 : x < ⌈x⌉ := lt_of_le_of_ne h1 (Ne.symm e)
      push_cast
      constructor <;> linarith

/-- Boxes that intersect have a cell in common. -/
theorem share_of_intersects {dim : ℝ} (hd : 0 < dim) (count : Nat) {A B : BB ℝ} (hA : A.l ≤ A.r ∧ A.b ≤ A.t) (hB : B.l ≤ B.r ∧ B.b ≤ B.t)
    (h : A.intersects B = true) : Share dim count A B := by
  simp only [BB.intersects, Bool.and_eq_true, decide_eq_true_eq] at h
  obtain ⟨⟨⟨h1, h2⟩, h3⟩, h4⟩ := h
  have key : ∀ {a b c d : ℝ}, a ≤ b → c ≤ d → a ≤ d → c ≤ b → ∃ i : Int, ⌊a / dim⌋ ≤ i ∧ i ≤ ⌊b / dim⌋ ∧ ⌊c / dim⌋ ≤ i ∧ i ≤ ⌊d / dim⌋ := by
    intro a b c d p q u v
    have fl : ∀ {s t : ℝ}, s ≤ t → ⌊s / dim⌋ ≤ ⌊t / dim⌋ := fun hst => Int.floor_le_floor (div_le_div_of_nonneg_right hst hd.le)
    rcases le_total a c with w | w
    · exact ⟨_, fl w, fl v, le_refl _, fl q⟩
    · exact ⟨_, le_refl _, fl p, fl w, fl u⟩
  obtain ⟨i, i1, i2, i3, i4⟩ := key hA.1 hB.1 (by assumption) (by assumption)
  obtain ⟨j, j1, j2, j3, j4⟩ := key hA.2 hB.2 (by assumption) (by assumption)
  refine ⟨i, j, i, j, ?_, ?_, rfl⟩ <;> simp only [Covers, goFloor_real] <;> exact ⟨by assumption, by assumption, by assumption, by assumption⟩

/-- C31: over the reals, a query reports every shape (other than the one given) whose indexed box intersects the box of the query. -/
theorem C31_complete {hash : Obj → Nat} {dim : ℝ} {count : Nat} (hc : 0 < count) (hd : 0 < dim) {sp : HSpec ℝ} {w : HWorld ℝ}
    (h : HHist hash dim count sp w) (st : Bool) (obj : Option Obj) (B : BB ℝ) (hB : B.l ≤ B.r ∧ B.b ≤ B.t) :
    ∃ s' log, (w.index st).query obj B = some (s', log) ∧ log.Nodup ∧
      ∀ x X, sp.idx st x = some X → X.l ≤ X.r ∧ X.b ≤ X.t → X.intersects B = true → obj ≠ some x → x ∈ log := by
  obtain ⟨s', log, e, n, q⟩ := C31_query hc h st obj B
  exact ⟨s', log, e, n, fun x X hX hp hi ho => (q x).2 ⟨ho, X, hX, share_of_intersects hd count hp hB hi⟩⟩

/-- C31: over the reals, `ReindexQuery` calls back exactly once for two dynamic shapes whose boxes intersect, and for a dynamic and a static one. -/
theorem C31_pairs_complete {hash : Obj → Nat} {dim : ℝ} {count : Nat} (hc : 0 < count) (hd : 0 < dim) {sp : HSpec ℝ} {w : HWorld ℝ}
    (h : HHist hash dim count sp w) (hp : ∀ x, (sp.box x).l ≤ (sp.box x).r ∧ (sp.box x).b ≤ (sp.box x).t) :
    ∃ dyn' stat' log, SHash.reindexQuery w.box w.dyn w.stat = some (dyn', stat', log) ∧
      (∀ x y, x ≠ y → sp.idx false x ≠ none → sp.idx false y ≠ none → (sp.box x).intersects (sp.box y) = true → log.count (x, y) + log.count (y, x) = 1) ∧
      (∀ x y Y, sp.idx false x ≠ none → sp.idx true y = some Y → Y.l ≤ Y.r ∧ Y.b ≤ Y.t → (sp.box x).intersects Y = true →
        log.count (x, y) + log.count (y, x) = 1) := by
  obtain ⟨d', s', log, e, nd, once, -, c1, c2⟩ := C31_pairs hc h
  have key : ∀ x y, (x, y) ∈ log ∨ (y, x) ∈ log → log.count (x, y) + log.count (y, x) = 1 := by
    rintro x y (q | q)
    · rw [List.count_eq_one_of_mem nd q, List.count_eq_zero.2 (once _ _ q)]
    · rw [List.count_eq_one_of_mem nd q, List.count_eq_zero.2 (once _ _ q)]
  refine ⟨d', s', log, e, fun x y hne hx hy hi => key x y (c1 x y hne hx hy (share_of_intersects hd count (hp x) (hp y) hi)),
    fun x y Y hx hy hY hi => key x y (Or.inl (c2 x y Y hx hy (share_of_intersects hd count (hp x) hY hi)))⟩

/-- C31, violation: after `Reindex` the shapes are still in the index, but no query of any box reports any of them. -/
theorem C31_reindex_violated {hash : Obj → Nat} {dim : F} {count : Nat} (hc : 0 < count) {sp : HSpec F} {w : HWorld F} (h : HHist hash dim count sp w)
    (st : Bool) (obj : Option Obj) (B : BB F) :
    (w.index st).reindex.each = (w.index st).each ∧ ∃ s', (w.index st).reindex.query obj B = some (s', []) := by
  obtain ⟨c, -, t, -⟩ := clearTable_spec ((h.rel hc).rel st).inv
  refine ⟨by rw [each, each]; exact congrArg _ (congrArg _ t), ?_⟩
  obtain ⟨s', log, e, -, -, -, -, x⟩ := query_spec c obj B
  have : log = [] := by
    rw [List.eq_nil_iff_forall_not_mem]
    intro y hy
    obtain ⟨-, K, hK, k, -, hk⟩ := (x y).1 hy
    cases hx : sp.idx st y with
    | none => rw [hx] at hK; cases hK
    | some X => rw [hx] at hK; simp only [Option.map_some, Option.some.injEq] at hK; subst hK; exact hk
  rw [this] at e
  exact ⟨s', e⟩

/-! ### Concrete indexes -/

namespace HashDemo

/-- Shapes 0 and 1 overlap in two cells, shape 2 is far away, shape 3 is the ground. -/
def box : Obj → BB Rat
  | 0 => ⟨0, 0, 15, 5⟩
  | 1 => ⟨-2, 1, 16, 4⟩
  | 2 => ⟨100, 0, 105, 5⟩
  | 4 => ⟨1, 1, 14, 3⟩
  | _ => ⟨-50, -5, 50, 1⟩

def ops : List (HOp Rat) := [.insert false 0 0, .insert false 1 0, .insert false 2 0, .insert true 3 0, .remove false 2, .reindexObject false 1 0]

def run (w : HWorld Rat) (l : List (HOp Rat)) : Option (HWorld Rat) := l.foldlM (HWorld.step id) w

def world : Option (HWorld Rat) := (HWorld.init box 10 13).bind fun w => run w ops

/-- The world is reached by legal calls: shapes 0 and 1 are in the dynamic index, shape 3 in the static one. -/
theorem hist : ∃ sp w, world = some w ∧ HHist id 10 13 sp w ∧ sp.idx false 0 = some (box 0) ∧ sp.idx false 1 = some (box 1) ∧
    sp.idx true 3 = some (box 3) ∧ sp.idx false 2 = none := by
  have go : ∀ (l : List (HOp Rat)) {sp w w'}, HHist id (10 : Rat) 13 sp w → (∀ pre op post, l = pre ++ op :: post → (pre.foldl HSpec.step sp).ok op) →
      run w l = some w' → HHist id 10 13 (l.foldl HSpec.step sp) w' := by
    intro l
    induction l with
    | nil => rintro sp w w' h - e; cases e; exact h
    | cons op t ih =>
      intro sp w w' h hok e
      rw [run, List.foldlM_cons] at e
      obtain ⟨w1, e1, e2⟩ := Option.bind_eq_some_iff.1 e
      exact ih (.step op h (hok [] op t rfl) e1) (fun pre o post q => hok (op :: pre) o post (by rw [q]; rfl)) e2
  have hw : world.isSome = true := by decide +kernel
  obtain ⟨w, hw⟩ := Option.isSome_iff_exists.1 hw
  obtain ⟨w0, h0, h1⟩ := Option.bind_eq_some_iff.1 hw
  refine ⟨_, w, hw, go ops (.init h0) ?_ h1, rfl, rfl, rfl, rfl⟩
  intro pre op post e
  have hl : pre.length < 6 := by
    have := congrArg List.length e
    simp [ops] at this
    omega
  have hpre : pre = ops.take pre.length := by rw [e]; simp
  have hop : ops[pre.length]? = some op := by rw [e]; simp
  obtain ⟨n, hn⟩ : ∃ n, n = pre.length := ⟨_, rfl⟩
  rw [← hn] at hl hpre hop
  subst hpre
  rcases n with _ | _ | _ | _ | _ | _ | n <;> first | omega | (cases hop; first | trivial | exact ⟨rfl, rfl⟩)

/-- A query in the box of shape 0 reports shape 1 once, though they share two cells, and not the removed shape 2; `ReindexQuery` reports each
overlapping pair once. -/
example : (world.bind fun w => (w.dyn.query (some 0) (box 0)).map Prod.snd) = some [1] ∧
    (world.bind fun w => (w.stat.query (some 0) (box 0)).map Prod.snd) = some [3] ∧
    (world.bind fun w => (SHash.reindexQuery w.box w.dyn w.stat).map fun r => r.2.2) = some [(1, 0), (0, 3), (1, 3)] := by decide +kernel

/-- With one more shape in the two cells. -/
def world4 : Option (HWorld Rat) := world.bind fun w => w.step id (.insert false 4 0)

/-- A callback that queries the index it is called from. -/
def nested : Callback Rat := fun _ s => ((s.query none ⟨0, 0, 15, 5⟩).map Prod.fst).getD s

end HashDemo

/-- C31, violation: when the callback of a query makes a query of the same index, the outer query reports shapes more than once. -/
theorem C31_nested_violated : ∃ w, HashDemo.world = some w ∧
    (w.dyn.queryWith quiet none (HashDemo.box 0)).map (fun r => r.2) = some [1, 0] ∧
    (w.dyn.queryWith HashDemo.nested none (HashDemo.box 0)).map (fun r => r.2) = some [1, 0, 1, 0] := by
  obtain ⟨w, hw⟩ := Option.isSome_iff_exists.1 (show HashDemo.world.isSome = true by decide +kernel)
  refine ⟨w, hw, ?_⟩
  have h1 : HashDemo.world.bind (fun w => (w.dyn.queryWith quiet none (HashDemo.box 0)).map fun r => r.2) = some [1, 0] := by decide +kernel
  have h2 : HashDemo.world.bind (fun w => (w.dyn.queryWith HashDemo.nested none (HashDemo.box 0)).map fun r => r.2) = some [1, 0, 1, 0] := by decide +kernel
  rw [hw] at h1 h2
  exact ⟨h1, h2⟩

/-- C31, violation: when the callback of `ReindexQuery` makes such a query, a pair that shares two buckets is reported twice. -/
theorem C31_nested_pair_violated : ∃ w, HashDemo.world4 = some w ∧
    (SHash.reindexQueryWith quiet w.box w.dyn w.stat).map (fun r => r.2.2) = some [(1, 0), (4, 1), (4, 0), (0, 3), (1, 3), (4, 3)] ∧
    (SHash.reindexQueryWith HashDemo.nested w.box w.dyn w.stat).map (fun r => r.2.2) = some [(1, 0), (4, 1), (4, 0), (4, 1), (4, 0), (0, 3), (1, 3), (4, 3)] := by
  obtain ⟨w, hw⟩ := Option.isSome_iff_exists.1 (show HashDemo.world4.isSome = true by decide +kernel)
  refine ⟨w, hw, ?_⟩
  have h1 : HashDemo.world4.bind (fun w => (SHash.reindexQueryWith quiet w.box w.dyn w.stat).map fun r => r.2.2) = some [(1, 0), (4, 1), (4, 0), (0, 3), (1, 3), (4, 3)] := by decide +kernel
  have h2 : HashDemo.world4.bind (fun w => (SHash.reindexQueryWith HashDemo.nested w.box w.dyn w.stat).map fun r => r.2.2) = some [(1, 0), (4, 1), (4, 0), (4, 1), (4, 0), (0, 3), (1, 3), (4, 3)] := by decide +kernel
  rw [hw] at h1 h2
  exact ⟨h1, h2⟩

end CP
