import Verif.Spec.Pairs
import Verif.Spec.Index
import Verif.Proofs.PairHeap
import Verif.Proofs.BBTree6

/-! # C42: the pair lists of the broad phase as pointers -/

namespace CP
open PHeap

namespace PHeap

def vals (q : Pair) : Option Obj × Option Obj × Cid := (some q.a, some q.b, q.cid)

/-- The memory represents the list of live pairs. -/
def Reps (h : PHeap) (qs : List Pair) : Prop := ∃ ps fs, Rep h ps fs ∧ ps.map h.val = qs.map vals

theorem reps_init : Reps .init [] :=
  ⟨[], [], ⟨List.nodup_nil, nofun, nofun, fun _ => rfl, fun _ => trivial, rfl⟩, rfl⟩

theorem has_val {h : PHeap} {p : PId} {q : Pair} (e : h.val p = vals q) (l : Obj) : h.has l p = (decide (q.a = l) || decide (q.b = l)) := by
  simp only [val, vals, Prod.mk.injEq] at e
  simp only [has, e.1, e.2.1, Option.some.injEq]

theorem filter_vals {h : PHeap} (P : PId → Bool) (Q : Pair → Bool) (g : PHeap) : ∀ {ps : List PId} {qs : List Pair}, ps.map h.val = qs.map vals →
    (∀ p q, h.val p = vals q → P p = Q q) → (∀ p ∈ ps, P p = true → g.val p = h.val p) →
    (ps.filter P).map g.val = (qs.filter Q).map vals := by
  intro ps
  induction ps with
  | nil =>
    intro qs e _ _
    cases qs with
    | nil => rfl
    | cons => cases e
  | cons p t ih =>
    intro qs e hPQ hg
    cases qs with
    | nil => cases e
    | cons q r =>
      simp only [List.map_cons, List.cons.injEq] at e
      have := ih e.2 hPQ fun x hx => hg x (by simp [hx])
      rw [List.filter_cons, List.filter_cons, ← hPQ p q e.1]
      split
      · next hp => rw [List.map_cons, List.map_cons, this, hg p (by simp) hp, e.1]
      · exact this

theorem map_vals {h g : PHeap} (u : Pair → Pair) : ∀ {ps : List PId} {qs : List Pair}, ps.map h.val = qs.map vals →
    (∀ p ∈ ps, ∀ q, h.val p = vals q → g.val p = vals (u q)) → ps.map g.val = (qs.map u).map vals := by
  intro ps
  induction ps with
  | nil =>
    intro qs e _
    cases qs with
    | nil => rfl
    | cons => cases e
  | cons p t ih =>
    intro qs e hu
    cases qs with
    | nil => cases e
    | cons q r =>
      simp only [List.map_cons, List.cons.injEq] at e ⊢
      exact ⟨hu p (by simp) q e.1, ih e.2 fun x hx => hu x (by simp [hx])⟩

theorem Rep.mark {h : PHeap} {ps fs : List PId} (r : Rep h ps fs) (l : Obj) (f : PairFn) :
    ∃ h' log, h.mark l f = some (h', log) ∧ Rep h' ps fs ∧
      (∀ p ∈ ps, ∀ q, h.val p = vals q → h'.val p = vals (if q.b = l then { q with cid := f q.a l q.cid } else q)) ∧
      log = ((h.on l ps).filter fun p => decide ((h.pair p).b.leaf = some l)).map fun p => (((h.pair p).a.leaf).getD 0, l, (h.pair p).cid) := by
  unfold PHeap.mark
  rw [r.head l]
  obtain ⟨h', e, e1, e2, e3, e4, e5⟩ := markLoop_spec f (h.on l ps) [] (r.seg l) (fun p hp => ⟨r.two p (mem_on.1 hp).1, (mem_on.1 hp).2⟩)
    (((List.nodup_append.1 r.nd).1).filter _) (r.length l)
  rw [List.nil_append] at e
  have en : ∀ p, h'.ends p = h.ends p := fun p => by simp only [ends, (e4 p).1, (e4 p).2]
  refine ⟨h', _, e, ⟨r.nd, by rw [e3]; exact r.lt, fun p hp => two_ends (en p) (r.two p hp), fun l => ?_, fun l => ?_, ?_⟩, fun p hp q hq => ?_, rfl⟩
  · rw [e1, on_congr (fun p _ => en p)]; exact r.head l
  · rw [on_congr (fun p _ => en p)]
    refine (r.seg l).congr fun p _ => ?_
    simp only [nx, pv, thr, (e4 p).1, (e4 p).2, and_self]
  · rw [e2]; exact r.pool.congr fun p _ => by rw [(e4 p).1]
  · simp only [val, vals, Prod.mk.injEq] at hq
    obtain ⟨q1, q2, q3⟩ := hq
    have hmem : p ∈ h.on l ps ↔ q.a = l ∨ q.b = l := by
      rw [mem_on]
      simp [hp, has, q1, q2]
    simp only [val, (e4 p).1, (e4 p).2, e5 p, hmem, q1, q2, q3, Option.some.injEq, Option.getD_some]
    by_cases e : q.b = l
    · simp [e, vals]
    · simp [e, vals]

theorem reps_step {h : PHeap} {qs : List Pair} (r : Reps h qs) (op : POp) (hok : op.ok) :
    ∃ h', h.step op = some h' ∧ Reps h' (pairStep qs op) := by
  obtain ⟨ps, fs, r, e⟩ := r
  cases op with
  | insert a b =>
    obtain ⟨p, fs', r', v, vs⟩ := insert_spec r (a := a) (b := b) hok
    refine ⟨_, rfl, p :: ps, fs', r', ?_⟩
    simp only [pairStep, List.map_cons]
    rw [v, ← e]
    exact congrArg _ (List.map_congr_left vs)
  | clear l =>
    obtain ⟨h', fs', e', r', v⟩ := clear_spec r l
    refine ⟨h', e', _, fs', r', ?_⟩
    refine filter_vals _ _ h' e (fun p q hpq => ?_) fun p _ hp => v p (by simpa using hp)
    rw [has_val hpq]
    by_cases h1 : q.a = l <;> by_cases h2 : q.b = l <;> simp [h1, h2]
  | mark l f =>
    obtain ⟨h', log, e', r', v, -⟩ := r.mark l f
    refine ⟨h', by simp only [PHeap.step, e']; rfl, ps, fs, r', map_vals _ e v⟩

end PHeap

theorem PHist.reps {ps : List Pair} {h : PHeap} (p : PHist ps h) : Reps h ps := by
  induction p with
  | init => exact reps_init
  | step op _ hok hs ih =>
    obtain ⟨h', e, r⟩ := reps_step ih op hok
    rw [e] at hs
    cases hs
    exact r

theorem forall₂_of_vals {h : PHeap} : ∀ {ps : List PId} {qs : List Pair}, ps.map h.val = qs.map vals → List.Forall₂ h.holds ps qs := by
  intro ps
  induction ps with
  | nil =>
    intro qs e
    cases qs with
    | nil => exact .nil
    | cons => cases e
  | cons p t ih =>
    intro qs e
    cases qs with
    | nil => cases e
    | cons q r =>
      simp only [List.map_cons, List.cons.injEq] at e
      refine .cons ?_ (ih e.2)
      have := e.1
      simp only [val, vals, Prod.mk.injEq] at this
      exact this

theorem PHeap.Reps.mark {ps : List Pair} {h : PHeap} (p : PHeap.Reps h ps) (l : Obj) (f : PairFn) :
    ∃ h', h.mark l f = some (h', (ps.filter fun q => decide (q.b = l)).map fun q => (q.a, l, q.cid)) ∧ PHeap.Reps h' (pairStep ps (.mark l f)) := by
  obtain ⟨xs, fs, r, e⟩ := p
  obtain ⟨h', log, e', r', v, hl⟩ := r.mark l f
  refine ⟨h', ?_, xs, fs, r', map_vals _ e v⟩
  rw [e', hl]
  congr 2
  clear v r' e' hl h' log r
  induction xs generalizing ps with
  | nil =>
    cases ps with
    | nil => rfl
    | cons => cases e
  | cons x t ih =>
    cases ps with
    | nil => cases e
    | cons q u =>
      simp only [List.map_cons, List.cons.injEq] at e
      have ih := ih e.2
      have e1 := e.1
      simp only [val, vals, Prod.mk.injEq] at e1
      simp only [on, List.filter_cons, has_val e.1] at ih ⊢
      by_cases h1 : q.a = l <;> by_cases h2 : q.b = l <;> simpa [h1, h2, e1] using ih

/-! ### The theorems -/

/-- C42: no call with two different leaves dereferences `nil` or fails to end. -/
theorem C42_no_panic {ps : List Pair} {h : PHeap} (p : PHist ps h) (op : POp) (hok : op.ok) : ∃ h', h.step op = some h' := by
  obtain ⟨h', e, -⟩ := reps_step p.reps op hok
  exact ⟨h', e⟩

/-- C42: the list threaded through a leaf holds exactly the live pairs of that leaf, newest first, each once; a pair is in the lists of both its leaves. -/
theorem C42_lists {ps : List Pair} {h : PHeap} (p : PHist ps h) (l : Obj) :
    ∃ ids, h.pairsOf l = some ids ∧ ids.Nodup ∧ List.Forall₂ h.holds ids (ps.filter fun q => decide (q.a = l ∨ q.b = l)) ∧
      ∀ x ∈ ids, ∀ m, (h.pair x).a.leaf = some m ∨ (h.pair x).b.leaf = some m → ∃ ids', h.pairsOf m = some ids' ∧ x ∈ ids' := by
  obtain ⟨xs, fs, r, e⟩ := p.reps
  have hf : ∀ l, h.pairsOf l = some (h.on l xs) := fun l => by
    unfold PHeap.pairsOf
    rw [r.head l]
    exact follow_spec (h.on l xs) (r.seg l) (fun p hp => ⟨r.two p (mem_on.1 hp).1, (mem_on.1 hp).2⟩) (r.length l)
  refine ⟨h.on l xs, hf l, ((List.nodup_append.1 r.nd).1).filter _, forall₂_of_vals (filter_vals _ _ h e (fun x q hq => ?_) fun _ _ _ => rfl), fun x hx m hm => ⟨_, hf m, ?_⟩⟩
  · rw [has_val hq]
    by_cases h1 : q.a = l <;> by_cases h2 : q.b = l <;> simp [h1, h2]
  · refine mem_on.2 ⟨(mem_on.1 hx).1, ?_⟩
    simpa [has] using hm

/-- C42: the pool is a finite list without repetitions, and no pair in it is in the list of a leaf. -/
theorem C42_pool {ps : List Pair} {h : PHeap} (p : PHist ps h) :
    ∃ fs, h.pooled = some fs ∧ fs.Nodup ∧ ∀ l ids, h.pairsOf l = some ids → ∀ x ∈ ids, x ∉ fs := by
  obtain ⟨xs, fs, r, e⟩ := p.reps
  have nda := List.nodup_append.1 r.nd
  refine ⟨fs, ?_, nda.2.1, fun l ids hl x hx hxf => ?_⟩
  · exact followPool_spec fs r.pool (length_le_next nda.2.1 fun p hp => r.lt p (by simp [hp]))
  · have hf : h.pairsOf l = some (h.on l xs) := by
      unfold PHeap.pairsOf
      rw [r.head l]
      exact follow_spec (h.on l xs) (r.seg l) (fun p hp => ⟨r.two p (mem_on.1 hp).1, (mem_on.1 hp).2⟩) (r.length l)
    rw [hf] at hl
    cases hl
    exact nda.2.2 x (mem_on.1 hx).1 x hxf rfl

/-- C42: the loop over the pairs of a leaf calls back once for every live pair whose second leaf it is, newest first, with the stored collision id. -/
theorem C42_mark {ps : List Pair} {h : PHeap} (p : PHist ps h) (l : Obj) (f : PairFn) :
    ∃ h', h.mark l f = some (h', (ps.filter fun q => decide (q.b = l)).map fun q => (q.a, l, q.cid)) := by
  obtain ⟨h', e, -⟩ := p.reps.mark l f
  exact ⟨h', e⟩

/-! ### The broad phase uses the pairs in this way -/

/-- `Ins ps qs`: insertions and marks lead from `ps` to `qs`. -/
inductive Ins (ps : List Pair) : List Pair → Prop
  | refl : Ins ps ps
  | insert {qs} (a b : Obj) (h : Ins ps qs) : Ins ps (pairStep qs (.insert a b))
  | mark {qs} (l : Obj) (f : PairFn) (h : Ins ps qs) : Ins ps (pairStep qs (.mark l f))

theorem Ins.trans {ps qs rs : List Pair} (h1 : Ins ps qs) (h2 : Ins qs rs) : Ins ps rs := by
  induction h2 with
  | refl => exact h1
  | insert a b _ ih => exact .insert a b ih
  | mark l f _ ih => exact .mark l f ih

theorem Ins.hist {ps qs : List Pair} (i : Ins ps qs) : (∀ q ∈ qs, q.a ≠ q.b) → ∀ {hp}, PHist ps hp → ∃ hp', PHist qs hp' := by
  induction i with
  | refl => exact fun _ hp p => ⟨hp, p⟩
  | insert a b _ ih =>
    intro hq hp p
    obtain ⟨hp', p'⟩ := ih (fun q h => hq q (List.mem_cons_of_mem _ h)) p
    have hab : (POp.insert a b).ok := hq ⟨a, b, 0#32⟩ (List.mem_cons_self ..)
    exact ⟨_, .step (.insert a b) p' hab rfl⟩
  | mark l f _ ih =>
    intro hq hp p
    obtain ⟨hp', p'⟩ := ih (fun q h => by
      have := hq _ (List.mem_map_of_mem (f := fun p : Pair => if p.b = l then { p with cid := f p.a l p.cid } else p) h)
      revert this
      split <;> exact id) p
    obtain ⟨h', e⟩ := C42_no_panic p' (.mark l f) trivial
    exact ⟨h', .step (.mark l f) p' trivial e⟩

theorem PHist.clear {ps : List Pair} {hp : PHeap} (p : PHist ps hp) (l : Obj) : ∃ hp', PHist (pairsClear ps l) hp' := by
  obtain ⟨h', e⟩ := C42_no_panic p (.clear l) trivial
  have := PHist.step (.clear l) p trivial e
  refine ⟨h', ?_⟩
  convert this using 1
  unfold pairsClear pairStep
  refine List.filter_congr fun q _ => ?_
  by_cases h1 : q.a = l <;> by_cases h2 : q.b = l <;> simp [h1, h2]

section
variable {F : Type} [GoFloat F]

theorem ins_markLeafQuery (l : Leaf F) (left : Bool) (t : Tree F) : ∀ m, Ins m.pairs (markLeafQuery l left t m).pairs := by
  induction t with
  | leaf s =>
    intro m
    simp only [markLeafQuery]
    split
    · simp only [visit]
      split
      · exact .insert l.obj s.obj .refl
      · split
        · exact .insert s.obj l.obj .refl
        · exact .refl
    · exact .refl
  | node bb a b iha ihb =>
    intro m
    simp only [markLeafQuery]
    split
    · exact (iha m).trans (ihb _)
    · exact .refl

theorem ins_markLeaf (stamp : Nat) (stat : Option (Tree F)) (f : PairFn) (l : Leaf F) (path : Path F) (m : Mark) :
    Ins m.pairs (markLeaf stamp stat f l path m).pairs := by
  simp only [markLeaf]
  split
  · have h0 : Ins m.pairs (markLeafQueryRoot l false stat m).pairs := by
      unfold markLeafQueryRoot
      split
      · exact .refl
      · exact ins_markLeafQuery _ _ _ _
    revert h0
    generalize markLeafQueryRoot l false stat m = m1
    intro h0
    induction path generalizing m1 with
    | nil => exact h0
    | cons s p ih => exact ih _ (h0.trans (ins_markLeafQuery _ _ _ _))
  · exact .mark l.obj f .refl

theorem ins_markSubtree (stamp : Nat) (stat : Option (Tree F)) (f : PairFn) (t : Tree F) : ∀ path m,
    Ins m.pairs (markSubtree stamp stat f t path m).pairs := by
  induction t with
  | leaf l => exact fun path m => ins_markLeaf ..
  | node bb a b iha ihb => exact fun path m => (iha _ m).trans (ihb _ _)

theorem ins_leafAddPairs {w w' : World F} {st : Bool} {o : Obj} (e : w.leafAddPairs st o = some w') : Ins w.pairs w'.pairs := by
  unfold World.leafAddPairs at e
  split at e
  · split at e
    · cases e; exact .refl
    · split at e
      · cases e
      · next d _ _ l _ _ => cases e; exact ins_markLeafQuery l true d ⟨w.pairs, []⟩
  · split at e
    · cases e
    · next l p _ => cases e; exact ins_markLeaf w.stamp w.stat (fun _ _ c => c) l p ⟨w.pairs, []⟩

theorem setTree_pairs (w : World F) (st : Bool) (t : Option (Tree F)) : (w.setTree st t).pairs = w.pairs := by
  unfold World.setTree; split <;> rfl
theorem setSet_pairs (w : World F) (st : Bool) (t : HashSet Obj) : (w.setSet st t).pairs = w.pairs := by
  unfold World.setSet; split <;> rfl

theorem leafUpdate_pairs {w w' : World F} {st : Bool} {o : Obj} {b : Bool} (e : w.leafUpdate st o = some (w', b)) :
    w'.pairs = w.pairs ∨ w'.pairs = pairsClear w.pairs o := by
  unfold World.leafUpdate at e
  split at e
  · cases e
  · split at e
    · cases e
    · split at e
      · cases e
        exact .inr (by simp only [setTree_pairs])
      · cases e; exact .inl rfl

theorem PHist.leafUpdate {w w' : World F} {st : Bool} {o : Obj} {b : Bool} (e : w.leafUpdate st o = some (w', b)) {hp : PHeap} (p : PHist w.pairs hp) :
    ∃ hp', PHist w'.pairs hp' := by
  rcases leafUpdate_pairs e with h | h
  · rw [h]; exact ⟨hp, p⟩
  · rw [h]; exact p.clear o

theorem PHist.leafUpdates (os : List Obj) : ∀ {w w' : World F}, os.foldlM (fun (w : World F) o => (w.leafUpdate false o).map Prod.fst) w = some w' →
    ∀ {hp : PHeap}, PHist w.pairs hp → ∃ hp', PHist w'.pairs hp' := by
  induction os with
  | nil => intro w w' e hp p; cases e; exact ⟨hp, p⟩
  | cons o t ih =>
    intro w w' e hp p
    rw [List.foldlM_cons] at e
    rcases hu : w.leafUpdate false o with _ | ⟨w1, b⟩
    · rw [hu] at e; cases e
    · rw [hu] at e
      obtain ⟨hp1, p1⟩ := p.leafUpdate hu
      exact ih e p1

end

/-- C42: whatever happens to the two trees, the pairs they hold come from such a history of calls: the lists of the leaves, followed through memory, are as in `C42_lists`. -/
theorem C42_broadphase {F : Type} [GoFloat F] (h : Obj → Nat) (s : Spec F) (w : World F) (hh : Hist h s w) : ∃ hp, PHist w.pairs hp := by
  induction hh with
  | init box vel w e =>
    unfold World.init at e
    split at e
    · cases e
    · cases e; exact ⟨_, .init⟩
  | step s w w' op hw hok e ih =>
    obtain ⟨hp, p⟩ := ih
    have irr : ∀ q ∈ w'.pairs, q.a ≠ q.b := fun q hq => ((hist_ref h _ w' (.step s w w' op hw hok e)).inv.mid.pairs.dom q hq).1
    cases op with
    | move box vel => cases e; exact ⟨hp, p⟩
    | insert st o =>
      simp only [World.step, World.insert] at e
      split at e
      · cases e
      · rw [Option.map_eq_some_iff] at e
        obtain ⟨w1, hl, e⟩ := e
        have := ins_leafAddPairs hl
        rw [setTree_pairs, setSet_pairs] at this
        subst e
        exact this.hist irr p
    | remove st o =>
      simp only [World.step, World.remove] at e
      split at e
      · cases e
      · cases e
      · split at e
        · cases e
        · cases e
          simp only [setTree_pairs, setSet_pairs]
          exact p.clear o
    | reindexObject st o =>
      simp only [World.step, World.reindexObject] at e
      split at e
      · cases e
      · cases e; exact ⟨hp, p⟩
      · split at e
        · cases e
        · next w1 upd hu =>
          obtain ⟨hp1, p1⟩ := p.leafUpdate hu
          cases upd with
          | false => cases e; exact ⟨hp1, p1⟩
          | true =>
            rcases hl : World.leafAddPairs w1 st o with _ | w2
            · rw [if_pos rfl, hl] at e; cases e
            · rw [if_pos rfl, hl] at e; cases e
              exact (ins_leafAddPairs hl).hist irr p1
    | reindexQuery f =>
      simp only [World.step, World.reindexQuery] at e
      split at e
      · cases e; exact ⟨hp, p⟩
      · split at e
        · cases e
        · next w1 hu =>
          obtain ⟨hp1, p1⟩ := p.leafUpdates _ hu
          split at e
          · cases e
          · next t _ =>
            cases e
            exact (ins_markSubtree w1.stamp w1.stat f t [] ⟨w1.pairs, []⟩).hist irr p1

/-! ### A history with a clear in the middle of lists and the reuse of a pair -/

namespace PairDemo

def ops : List POp := [.insert 1 2, .insert 3 1, .insert 2 3, .insert 4 2, .clear 3, .insert 1 4, .mark 2 fun a b c => c + 7#32 + BitVec.ofNat 32 (a + b)]

def end? : Option PHeap := ops.foldlM PHeap.step .init
def live : List Pair := ops.foldl pairStep []

example : live = [⟨1, 4, 0#32⟩, ⟨4, 2, 13#32⟩, ⟨1, 2, 10#32⟩] := by decide
example : (end?.bind fun h => h.pairsOf 1) = some [1023, 1024] := by decide +kernel
example : (end?.bind fun h => h.pairsOf 2) = some [1021, 1024] := by decide +kernel
example : (end?.bind fun h => h.pairsOf 3) = some [] := by decide +kernel
example : (end?.bind fun h => h.pairsOf 4) = some [1023, 1021] := by decide +kernel
example : (end?.bind fun h => h.pooled.map (·.take 3)) = some [1022, 1020, 1019] := by decide +kernel

/-- The hypotheses of the theorems are met by this history. -/
example : ∃ hp, PHist live hp := by
  obtain ⟨h1, e1⟩ := C42_no_panic .init (.insert 1 2) (show 1 ≠ 2 by decide)
  have p1 := PHist.step (.insert 1 2) .init (show 1 ≠ 2 by decide) e1
  obtain ⟨h2, e2⟩ := C42_no_panic p1 (.insert 3 1) (show 3 ≠ 1 by decide)
  have p2 := PHist.step (.insert 3 1) p1 (show 3 ≠ 1 by decide) e2
  obtain ⟨h3, e3⟩ := C42_no_panic p2 (.insert 2 3) (show 2 ≠ 3 by decide)
  have p3 := PHist.step (.insert 2 3) p2 (show 2 ≠ 3 by decide) e3
  obtain ⟨h4, e4⟩ := C42_no_panic p3 (.insert 4 2) (show 4 ≠ 2 by decide)
  have p4 := PHist.step (.insert 4 2) p3 (show 4 ≠ 2 by decide) e4
  obtain ⟨h5, e5⟩ := C42_no_panic p4 (.clear 3) trivial
  have p5 := PHist.step (.clear 3) p4 trivial e5
  obtain ⟨h6, e6⟩ := C42_no_panic p5 (.insert 1 4) (show 1 ≠ 4 by decide)
  have p6 := PHist.step (.insert 1 4) p5 (show 1 ≠ 4 by decide) e6
  obtain ⟨h7, e7⟩ := C42_no_panic p6 (.mark 2 fun a b c => c + 7#32 + BitVec.ofNat 32 (a + b)) trivial
  exact ⟨_, PHist.step (.mark 2 _) p6 trivial e7⟩

end PairDemo

end CP
