import Verif.Spec.PolyLine
import Mathlib.Data.List.Perm.Basic
import Mathlib.Data.List.Nodup
import Mathlib.Tactic.Ring

/-! # C34: collecting segments -/

namespace CP
open GoFloat PL
variable {F : Type} [GoFloat F]

theorem vecEq_iff {v w : Vec F} : vecEq v w = true ↔ v = w := by
  simp only [vecEq, decide_eq_true_eq]
  exact ⟨fun h => Vec.ext h.1 h.2, fun h => by rw [h]; simp⟩

theorem findEnds_some {lines : List (Line F)} {v : Vec F} {b : Nat} (h : findEnds lines v = some b) :
    ∃ l, lines[b]? = some l ∧ l.getLast? = some v := by
  unfold findEnds at h
  rw [List.findIdx?_eq_some_iff_getElem] at h
  obtain ⟨hb, h1, _⟩ := h
  refine ⟨lines[b], by rw [List.getElem?_eq_getElem hb], ?_⟩
  cases e : lines[b].getLast? with
  | none => rw [e] at h1; cases h1
  | some w => rw [e] at h1; rw [vecEq_iff.1 h1]

theorem findEnds_none {lines : List (Line F)} {v : Vec F} (h : findEnds lines v = none) :
    ∀ l ∈ lines, l.getLast? ≠ some v := by
  unfold findEnds at h
  rw [List.findIdx?_eq_none_iff] at h
  intro l hl e
  have := h l hl
  rw [e] at this
  simp [vecEq] at this

theorem findStarts_some {lines : List (Line F)} {v : Vec F} {b : Nat} (h : findStarts lines v = some b) :
    ∃ l, lines[b]? = some l ∧ l.head? = some v := by
  unfold findStarts at h
  rw [List.findIdx?_eq_some_iff_getElem] at h
  obtain ⟨hb, h1, _⟩ := h
  refine ⟨lines[b], by rw [List.getElem?_eq_getElem hb], ?_⟩
  cases e : lines[b].head? with
  | none => rw [e] at h1; cases h1
  | some w => rw [e] at h1; rw [vecEq_iff.1 h1]

theorem findStarts_none {lines : List (Line F)} {v : Vec F} (h : findStarts lines v = none) :
    ∀ l ∈ lines, l.head? ≠ some v := by
  unfold findStarts at h
  rw [List.findIdx?_eq_none_iff] at h
  intro l hl e
  have := h l hl
  rw [e] at this
  simp [vecEq] at this

/-- What one call does, as a change of one or two lines. -/
inductive Collected (v0 v1 : Vec F) (lines lines' : List (Line F)) : Prop
  | loop (l rest) (p : lines.Perm (l :: rest)) (p' : lines'.Perm ((l ++ [v1]) :: rest)) (e : l.getLast? = some v0)
      (s : l.head? = some v1)
  | join (l m rest) (p : lines.Perm (l :: m :: rest)) (p' : lines'.Perm ((l ++ m) :: rest)) (e : l.getLast? = some v0)
      (s : m.head? = some v1)
  | push (l rest) (p : lines.Perm (l :: rest)) (p' : lines'.Perm ((l ++ [v1]) :: rest)) (e : l.getLast? = some v0)
      (s : ∀ m ∈ lines, m.head? ≠ some v1)
  | front (l rest) (p : lines.Perm (l :: rest)) (p' : lines'.Perm ((v0 :: l) :: rest)) (s : l.head? = some v1)
      (e : ∀ m ∈ lines, m.getLast? ≠ some v0)
  | fresh (p' : lines'.Perm ([v0, v1] :: lines)) (s : ∀ m ∈ lines, m.head? ≠ some v1) (e : ∀ m ∈ lines, m.getLast? ≠ some v0)

theorem perm_of_get {A : Type} {l : List A} {i : Nat} {a : A} (h : l[i]? = some a) : l.Perm (a :: l.eraseIdx i) := by
  obtain ⟨hi, e⟩ := List.getElem?_eq_some_iff.1 h
  rw [← e]
  exact (List.getElem_cons_eraseIdx_perm hi).symm

theorem collectSegment_cases (v0 v1 : Vec F) (lines : List (Line F)) :
    ∃ lines', collectSegment v0 v1 lines = some lines' ∧ Collected v0 v1 lines lines' := by
  unfold collectSegment
  cases hb : findEnds lines v0 with
  | none =>
    cases ha : findStarts lines v1 with
    | none => exact ⟨_, rfl, .fresh (List.perm_append_singleton _ _) (findStarts_none ha) (findEnds_none hb)⟩
    | some a =>
      obtain ⟨l, hl, e⟩ := findStarts_some ha
      simp only [hl, Option.bind_eq_bind, Option.bind_some]
      exact ⟨_, rfl, .front l _ (perm_of_get hl) (List.set_perm_cons_eraseIdx (List.getElem?_eq_some_iff.1 hl).1 _) e
        (findEnds_none hb)⟩
  | some b =>
    obtain ⟨l, hl, e⟩ := findEnds_some hb
    have hlt := (List.getElem?_eq_some_iff.1 hl).1
    cases ha : findStarts lines v1 with
    | none =>
      simp only [hl, Option.bind_eq_bind, Option.bind_some]
      exact ⟨_, rfl, .push l _ (perm_of_get hl) (List.set_perm_cons_eraseIdx hlt _) e (findStarts_none ha)⟩
    | some a =>
      obtain ⟨m, hm, s⟩ := findStarts_some ha
      have hmt := (List.getElem?_eq_some_iff.1 hm).1
      simp only
      by_cases hab : b = a
      · rw [if_pos hab]
        subst hab
        rw [hl] at hm
        cases hm
        simp only [hl, Option.bind_eq_bind, Option.bind_some]
        exact ⟨_, rfl, .loop l _ (perm_of_get hl) (List.set_perm_cons_eraseIdx hlt _) e s⟩
      · rw [if_neg hab]
        simp only [PL.join, hl, hm, Option.bind_eq_bind, Option.bind_some]
        refine ⟨_, rfl, .join l m ((lines.eraseIdx a).eraseIdx (if b < a then b else b - 1)) ?_ ?_ e s⟩
        · refine (perm_of_get hm).trans (List.Perm.trans (List.Perm.cons _ (perm_of_get (i := if b < a then b else b - 1) ?_))
            (List.Perm.swap _ _ _))
          rw [List.getElem?_eraseIdx]
          by_cases h : b < a
          · rw [if_pos h, if_pos h]; exact hl
          · rw [if_neg h, if_neg (by omega), show b - 1 + 1 = b by omega]; exact hl
        · have e1 : (lines.set b (l ++ m)).eraseIdx a = (lines.eraseIdx a).set (if b < a then b else b - 1) (l ++ m) := by
            apply List.ext_getElem?
            intro i
            simp only [List.getElem?_eraseIdx, List.getElem?_set, List.length_eraseIdx]
            split_ifs <;> first | rfl | omega
          rw [e1]
          exact List.set_perm_cons_eraseIdx (by rw [List.length_eraseIdx]; split_ifs <;> omega) _

theorem steps_cons (a : Vec F) (l : Line F) {b : Vec F} (h : l.head? = some b) : steps (a :: l) = (a, b) :: steps l := by
  cases l with
  | nil => cases h
  | cons c l => simp only [List.head?_cons, Option.some.injEq] at h; subst h; rfl

theorem steps_append (l m : Line F) {a b : Vec F} (hl : l.getLast? = some a) (hm : m.head? = some b) :
    steps (l ++ m) = steps l ++ (a, b) :: steps m := by
  induction l with
  | nil => cases hl
  | cons x l ih =>
    cases l with
    | nil =>
      simp only [List.getLast?_singleton, Option.some.injEq] at hl
      subst hl
      rw [List.singleton_append, steps_cons x m hm]; rfl
    | cons y l =>
      have := ih (by rw [← hl]; simp [List.getLast?_cons_cons])
      rw [List.cons_append, steps_cons x (y :: l ++ m) (by simp; rfl), this, steps_cons x (y :: l) (by simp; rfl)]
      rfl

theorem steps_push (l : Line F) {a : Vec F} (b : Vec F) (hl : l.getLast? = some a) :
    steps (l ++ [b]) = steps l ++ [(a, b)] := by
  rw [steps_append l [b] hl (by simp; rfl)]; rfl

/-- **One segment is added, none is lost**: the directed segments of the lines afterwards are those before and the new one,
each with its multiplicity. The call never panics. -/
theorem C34_collect (v0 v1 : Vec F) (lines : List (Line F)) :
    ∃ lines', collectSegment v0 v1 lines = some lines' ∧ (allSteps lines').Perm ((v0, v1) :: allSteps lines) := by
  obtain ⟨lines', h, hc⟩ := collectSegment_cases v0 v1 lines
  refine ⟨lines', h, ?_⟩
  unfold allSteps
  cases hc with
  | loop l rest p p' e s =>
    refine (p'.flatMap_right steps).trans (List.Perm.trans ?_ (List.Perm.cons _ (p.flatMap_right steps).symm))
    simp only [List.flatMap_cons, steps_push l v1 e, List.append_assoc, List.singleton_append]
    exact List.perm_middle
  | push l rest p p' e s =>
    refine (p'.flatMap_right steps).trans (List.Perm.trans ?_ (List.Perm.cons _ (p.flatMap_right steps).symm))
    simp only [List.flatMap_cons, steps_push l v1 e, List.append_assoc, List.singleton_append]
    exact List.perm_middle
  | join l m rest p p' e s =>
    refine (p'.flatMap_right steps).trans (List.Perm.trans ?_ (List.Perm.cons _ (p.flatMap_right steps).symm))
    simp only [List.flatMap_cons, steps_append l m e s, List.append_assoc, List.cons_append]
    exact List.perm_middle
  | front l rest p p' s e =>
    refine (p'.flatMap_right steps).trans (List.Perm.trans ?_ (List.Perm.cons _ (p.flatMap_right steps).symm))
    simp only [List.flatMap_cons, steps_cons v0 l s, List.cons_append]
    exact List.Perm.refl _
  | fresh p' s e =>
    refine (p'.flatMap_right steps).trans ?_
    simp only [List.flatMap_cons]
    exact List.Perm.refl _

/-- Collecting a sequence of segments, as `MarchSoft` and `MarchHard` do. -/
def collectAll (segs : List (Vec F × Vec F)) (lines : List (Line F)) : Option (List (Line F)) :=
  segs.foldlM (fun ls s => collectSegment s.1 s.2 ls) lines

/-- **Exactly the given segments**: collecting a sequence of segments, starting with an empty set, gives lines made of
exactly these segments. -/
theorem C34_all (segs : List (Vec F × Vec F)) (lines : List (Line F)) :
    ∃ lines', collectAll segs lines = some lines' ∧ (allSteps lines').Perm (segs ++ allSteps lines) := by
  induction segs generalizing lines with
  | nil => exact ⟨lines, rfl, List.Perm.refl _⟩
  | cons sg segs ih =>
    obtain ⟨l1, h1, p1⟩ := C34_collect sg.1 sg.2 lines
    obtain ⟨l2, h2, p2⟩ := ih l1
    refine ⟨l2, ?_, ?_⟩
    · simp only [collectAll, List.foldlM_cons, h1, Option.bind_eq_bind, Option.bind_some]; exact h2
    · exact p2.trans ((List.Perm.append_left segs p1).trans List.perm_middle)

/-! ### Simple closed contours come out as closed lines -/

theorem steps_fst (l : Line F) : (steps l).map Prod.fst = l.dropLast := by
  induction l with
  | nil => rfl
  | cons a l ih =>
    cases l with
    | nil => rfl
    | cons b l =>
      rw [steps_cons a (b :: l) (by simp; rfl), List.map_cons, ih]; rfl
theorem steps_snd (l : Line F) : (steps l).map Prod.snd = l.tail := by
  induction l with
  | nil => rfl
  | cons a l ih =>
    cases l with
    | nil => rfl
    | cons b l =>
      rw [steps_cons a (b :: l) (by simp; rfl), List.map_cons, ih]; rfl

theorem allSteps_fst (lines : List (Line F)) : (allSteps lines).map Prod.fst = lines.flatMap List.dropLast := by
  simp only [allSteps, List.map_flatMap, steps_fst]
theorem allSteps_snd (lines : List (Line F)) : (allSteps lines).map Prod.snd = lines.flatMap List.tail := by
  simp only [allSteps, List.map_flatMap, steps_snd]

/-- No line ends where another one starts, and every line has a segment. -/
def Tidy (lines : List (Line F)) : Prop :=
  (∀ l ∈ lines, 2 ≤ l.length) ∧ lines.Pairwise fun l m => l.getLast? ≠ m.head? ∧ m.getLast? ≠ l.head?

theorem Tidy.perm {lines lines' : List (Line F)} (p : lines.Perm lines') (h : Tidy lines) : Tidy lines' :=
  ⟨fun l hl => h.1 l (p.mem_iff.2 hl), h.2.perm p fun hh => ⟨hh.2, hh.1⟩⟩

theorem head_mem_dropLast {l : Line F} {v : Vec F} (h2 : 2 ≤ l.length) (h : l.head? = some v) : v ∈ l.dropLast := by
  cases l with
  | nil => cases h
  | cons a l =>
    cases l with
    | nil => simp at h2
    | cons b l => simp only [List.head?_cons, Option.some.injEq] at h; subst h; simp

theorem last_mem_tail {l : Line F} {v : Vec F} (h2 : 2 ≤ l.length) (h : l.getLast? = some v) : v ∈ l.tail := by
  cases l with
  | nil => cases h
  | cons a l =>
    cases l with
    | nil => simp at h2
    | cons b l => rw [List.getLast?_cons_cons] at h; exact List.mem_of_getLast? h

theorem tidy_collect {v0 v1 : Vec F} {lines lines' : List (Line F)} (hc : Collected v0 v1 lines lines') (ht : Tidy lines)
    (hs : ((allSteps lines).map Prod.fst).Nodup) (h1 : v1 ∉ (allSteps lines).map Prod.snd)
    : Tidy lines' := by
  have hend : ∀ l ∈ lines, l.getLast? ≠ some v1 := by
    intro l hl e
    apply h1
    rw [allSteps_snd, List.mem_flatMap]
    exact ⟨l, hl, last_mem_tail (ht.1 l hl) e⟩
  cases hc with
  | fresh p' s e =>
    refine Tidy.perm p'.symm ⟨?_, ?_⟩
    · intro l hl
      rcases List.mem_cons.1 hl with rfl | hl
      · simp
      · exact ht.1 l hl
    · refine List.pairwise_cons.2 ⟨fun m hm => ⟨?_, ?_⟩, ht.2⟩
      · have := s m hm
        simp only [List.getLast?_cons_cons, List.getLast?_singleton]; exact fun h => this h.symm
      · exact e m hm
  | push l rest p p' e s =>
    obtain ⟨t1, t2⟩ := ht.perm p
    obtain ⟨u1, u2⟩ := List.pairwise_cons.1 t2
    refine Tidy.perm p'.symm ⟨?_, ?_⟩
    · intro m hm
      rcases List.mem_cons.1 hm with rfl | hm
      · have := t1 l (by simp); simp; omega
      · exact t1 m (by simp [hm])
    · refine List.pairwise_cons.2 ⟨fun m hm => ⟨?_, ?_⟩, u2⟩
      · rw [List.getLast?_append]
        simp only [List.getLast?_singleton, Option.some_or]
        exact fun h => s m (p.mem_iff.2 (by simp [hm])) h.symm
      · rw [List.head?_append_of_ne_nil]
        · exact (u1 m hm).2
        · intro h; rw [h] at e; cases e
  | front l rest p p' s e =>
    obtain ⟨t1, t2⟩ := ht.perm p
    obtain ⟨u1, u2⟩ := List.pairwise_cons.1 t2
    refine Tidy.perm p'.symm ⟨?_, ?_⟩
    · intro m hm
      rcases List.mem_cons.1 hm with rfl | hm
      · have := t1 l (by simp); simp; omega
      · exact t1 m (by simp [hm])
    · refine List.pairwise_cons.2 ⟨fun m hm => ⟨?_, ?_⟩, u2⟩
      · have hne : l ≠ [] := by intro h; rw [h] at s; cases s
        obtain ⟨x, l', rfl⟩ := List.exists_cons_of_ne_nil hne
        rw [List.getLast?_cons_cons]
        exact (u1 m hm).1
      · exact fun h => e m (p.mem_iff.2 (by simp [hm])) h
  | join l m rest p p' e s =>
    obtain ⟨t1, t2⟩ := ht.perm p
    obtain ⟨u1, u2⟩ := List.pairwise_cons.1 t2
    obtain ⟨w1, w2⟩ := List.pairwise_cons.1 u2
    have hlne : l ≠ [] := by intro h; rw [h] at e; cases e
    have hmne : m ≠ [] := by intro h; rw [h] at s; cases s
    refine Tidy.perm p'.symm ⟨?_, ?_⟩
    · intro k hk
      rcases List.mem_cons.1 hk with rfl | hk
      · have := t1 l (by simp); simp; omega
      · exact t1 k (by simp [hk])
    · refine List.pairwise_cons.2 ⟨fun k hk => ⟨?_, ?_⟩, w2⟩
      · rw [List.getLast?_append_of_ne_nil _ hmne]; exact (w1 k hk).1
      · rw [List.head?_append_of_ne_nil _ hlne]; exact (u1 k (by simp [hk])).2
  | loop l rest p p' e s =>
    obtain ⟨t1, t2⟩ := ht.perm p
    obtain ⟨u1, u2⟩ := List.pairwise_cons.1 t2
    have hlne : l ≠ [] := by intro h; rw [h] at e; cases e
    refine Tidy.perm p'.symm ⟨?_, ?_⟩
    · intro m hm
      rcases List.mem_cons.1 hm with rfl | hm
      · have := t1 l (by simp); simp; omega
      · exact t1 m (by simp [hm])
    · refine List.pairwise_cons.2 ⟨fun m hm => ⟨?_, ?_⟩, u2⟩
      · rw [List.getLast?_append]
        simp only [List.getLast?_singleton, Option.some_or]
        intro h
        rw [allSteps_fst] at hs
        have hs' := (p.flatMap_right List.dropLast).nodup_iff.1 hs
        rw [List.flatMap_cons, List.nodup_append] at hs'
        refine hs'.2.2 v1 (head_mem_dropLast (t1 l (by simp)) s) v1 ?_ rfl
        exact List.mem_flatMap.2 ⟨m, hm, head_mem_dropLast (t1 m (by simp [hm])) h.symm⟩
      · rw [List.head?_append_of_ne_nil _ hlne]; exact (u1 m hm).2

theorem tidy_all (segs : List (Vec F × Vec F)) : ∀ (lines lines' : List (Line F)), Tidy lines →
    ((segs ++ allSteps lines).map Prod.fst).Nodup → ((segs ++ allSteps lines).map Prod.snd).Nodup →
    collectAll segs lines = some lines' → Tidy lines' := by
  induction segs with
  | nil => intro lines lines' ht _ _ h; cases h; exact ht
  | cons sg segs ih =>
    intro lines lines' ht hf hsn h
    obtain ⟨l1, h1, hc⟩ := collectSegment_cases sg.1 sg.2 lines
    obtain ⟨l1', h1', p1⟩ := C34_collect sg.1 sg.2 lines
    rw [h1] at h1'
    cases h1'
    simp only [collectAll, List.foldlM_cons, h1, Option.bind_eq_bind, Option.bind_some] at h
    have pp : (segs ++ allSteps l1).Perm (sg :: segs ++ allSteps lines) :=
      (List.Perm.append_left segs p1).trans List.perm_middle
    refine ih l1 lines' ?_ ((pp.map _).nodup_iff.2 hf) ((pp.map _).nodup_iff.2 hsn) h
    refine tidy_collect hc ht ?_ ?_
    · rw [List.map_append] at hf
      exact (List.nodup_append.1 hf).2.1
    · rw [List.map_append] at hsn
      intro hmem
      exact (List.nodup_append.1 hsn).2.2 sg.2 (by simp) sg.2 hmem rfl

/-- **Closed contours**: if no point is the start of two of the segments or the end of two, and every point where one ends is
the start of another, then every collected line is closed and passes through no point twice. -/
theorem C34_closed (segs : List (Vec F × Vec F)) (hf : (segs.map Prod.fst).Nodup) (hs : (segs.map Prod.snd).Nodup)
    (hb : ∀ p ∈ segs.map Prod.snd, p ∈ segs.map Prod.fst) {lines : List (Line F)} (h : collectAll segs [] = some lines) :
    ∀ l ∈ lines, Closed l ∧ l.tail.Nodup := by
  obtain ⟨lines', h', p⟩ := C34_all segs []
  rw [h] at h'
  cases h'
  simp only [allSteps, List.flatMap_nil, List.append_nil] at p
  have ht : Tidy lines := tidy_all segs [] lines ⟨by simp, List.Pairwise.nil⟩ (by simpa [allSteps] using hf)
    (by simpa [allSteps] using hs) h
  have pf : (lines.flatMap List.dropLast).Perm (segs.map Prod.fst) := by
    rw [← allSteps_fst]; exact p.map _
  have ps : (lines.flatMap List.tail).Perm (segs.map Prod.snd) := by
    rw [← allSteps_snd]; exact p.map _
  have nds := ps.nodup_iff.2 hs
  intro l hl
  have h2 := ht.1 l hl
  have ndl : l.tail.Nodup := by
    obtain ⟨rest, pr⟩ : ∃ rest, lines.Perm (l :: rest) := by
      obtain ⟨i, hi⟩ := List.mem_iff_getElem?.1 hl
      exact ⟨_, perm_of_get hi⟩
    have := (pr.flatMap_right List.tail).nodup_iff.1 nds
    rw [List.flatMap_cons, List.nodup_append] at this
    exact this.1
  refine ⟨⟨h2, ?_⟩, ndl⟩
  obtain ⟨e, he⟩ : ∃ e, l.getLast? = some e := by
    cases hg : l.getLast? with
    | none => rw [List.getLast?_eq_none_iff] at hg; rw [hg] at h2; simp at h2
    | some e => exact ⟨e, rfl⟩
  have hetail := last_mem_tail h2 he
  have hin : e ∈ lines.flatMap List.dropLast :=
    pf.mem_iff.2 (hb e (ps.mem_iff.1 (List.mem_flatMap.2 ⟨l, hl, hetail⟩)))
  obtain ⟨m, hm, hem⟩ := List.mem_flatMap.1 hin
  have hm2 := ht.1 m hm
  obtain ⟨rest, pr⟩ : ∃ rest, lines.Perm (l :: rest) := by
      obtain ⟨i, hi⟩ := List.mem_iff_getElem?.1 hl
      exact ⟨_, perm_of_get hi⟩
  have hcase : m.head? = some e ∨ e ∈ m.tail.dropLast := by
    cases m with
    | nil => simp at hm2
    | cons a m =>
      cases m with
      | nil => simp at hm2
      | cons b m =>
        rw [List.dropLast_cons_cons] at hem
        rcases List.mem_cons.1 hem with rfl | hem
        · left; rfl
        · right; exact hem
  by_cases hlm : m = l
  · subst hlm
    rcases hcase with hc | hc
    · rw [he, hc]
    · exfalso
      have e2 : m.tail.getLast? = some e := by
        cases m with
        | nil => simp at h2
        | cons a m =>
          cases m with
          | nil => simp at h2
          | cons b m => rw [List.getLast?_cons_cons] at he; exact he
      have e3 : m.tail = m.tail.dropLast ++ [e] := (List.dropLast_append_getLast? e e2).symm
      rw [e3, List.nodup_append] at ndl
      exact ndl.2.2 e hc e (by simp) rfl
  · have hmr : m ∈ rest := by
      rcases List.mem_cons.1 (pr.mem_iff.1 hm) with h | h
      · exact absurd h hlm
      · exact h
    exfalso
    rcases hcase with hc | hc
    · have := (ht.perm pr).2
      exact ((List.pairwise_cons.1 this).1 m hmr).1 (by rw [he, hc])
    · have := (pr.flatMap_right List.tail).nodup_iff.1 nds
      rw [List.flatMap_cons, List.nodup_append] at this
      exact this.2.2 e hetail e (List.mem_flatMap.2 ⟨m, hmr, List.dropLast_subset _ hc⟩) rfl

/-- A square, collected in an order that first gives two lines; the hypotheses of `C34_closed` are met. -/
example : ∃ segs : List (Vec Rat × Vec Rat), (segs.map Prod.fst).Nodup ∧ (segs.map Prod.snd).Nodup ∧
    (∀ p ∈ segs.map Prod.snd, p ∈ segs.map Prod.fst) ∧
    collectAll segs [] = some [[⟨0, 0⟩, ⟨2, 0⟩, ⟨2, 2⟩, ⟨0, 2⟩, ⟨0, 0⟩]] := by
  refine ⟨[(⟨0, 0⟩, ⟨2, 0⟩), (⟨2, 2⟩, ⟨0, 2⟩), (⟨2, 0⟩, ⟨2, 2⟩), (⟨0, 2⟩, ⟨0, 0⟩)], by simp, by simp, by simp, ?_⟩
  simp [collectAll, collectSegment, findEnds, findStarts, List.findIdx?, List.findIdx?.go, PL.join, vecEq]

/-! ### Contours that touch -/

/-- Starts less ends. -/
def flow (P : Vec F) (l : List (Vec F × Vec F)) : Int := (starts P l : Int) - ends P l

theorem flow_nil (P : Vec F) : flow P [] = 0 := rfl

theorem flow_append (P : Vec F) (l m : List (Vec F × Vec F)) : flow P (l ++ m) = flow P l + flow P m := by
  simp only [flow, starts, ends, List.filter_append, List.length_append]; push_cast; ring

theorem flow_perm (P : Vec F) {l m : List (Vec F × Vec F)} (h : l.Perm m) : flow P l = flow P m := by
  simp only [flow, starts, ends]
  rw [(h.filter _).length_eq, (h.filter _).length_eq]

/-- 1 at `v`, 0 elsewhere. -/
def at_ (P v : Vec F) : Int := if vecEq v P then 1 else 0

theorem at_nonneg (P v : Vec F) : 0 ≤ at_ P v := by unfold at_; split <;> omega
theorem at_le (P v : Vec F) : at_ P v ≤ 1 := by unfold at_; split <;> omega
theorem at_self (P : Vec F) : at_ P P = 1 := by rw [at_, if_pos (vecEq_iff.2 rfl)]
theorem at_ne {P v : Vec F} (h : v ≠ P) : at_ P v = 0 := by rw [at_, if_neg (fun e => h (vecEq_iff.1 e))]

theorem flow_single (P v w : Vec F) : flow P [(v, w)] = at_ P v - at_ P w := by
  simp only [flow, starts, ends, at_]
  by_cases h1 : vecEq v P = true <;> by_cases h2 : vecEq w P = true <;> simp [h1, h2]

theorem flow_cons (P : Vec F) (s : Vec F × Vec F) (l : List (Vec F × Vec F)) :
    flow P (s :: l) = at_ P s.1 - at_ P s.2 + flow P l := by
  rw [show s :: l = [(s.1, s.2)] ++ l from rfl, flow_append, flow_single]

theorem flow_steps (P : Vec F) : ∀ (l : Line F) (a b : Vec F), l.head? = some a → l.getLast? = some b →
    flow P (steps l) = at_ P a - at_ P b := by
  intro l
  induction l with
  | nil => intro a b h; cases h
  | cons x l ih =>
    intro a b ha hb
    cases ha
    cases l with
    | nil => simp at hb; subst hb; rw [show steps [x] = [] from rfl, flow_nil]; ring
    | cons y l =>
      rw [List.getLast?_cons_cons] at hb
      rw [show steps (x :: y :: l) = (x, y) :: steps (y :: l) from rfl, flow_cons, ih y b rfl hb]; simp

theorem ends_of_two {l : Line F} (h : 2 ≤ l.length) : ∃ a b, l.head? = some a ∧ l.getLast? = some b := by
  cases l with
  | nil => simp at h
  | cons a l =>
    exact ⟨a, _, rfl, List.getLast?_eq_getLast_of_ne_nil (by simp)⟩

/-- If no line ends at `P`, then the flow at `P` counts the lines that start there. -/
theorem flow_start {lines : List (Line F)} {P : Vec F} (h2 : ∀ l ∈ lines, 2 ≤ l.length)
    (he : ∀ l ∈ lines, l.getLast? ≠ some P) : 0 ≤ flow P (allSteps lines) ∧
      ((∃ l ∈ lines, l.head? = some P) → 1 ≤ flow P (allSteps lines)) := by
  induction lines with
  | nil => exact ⟨le_refl _, by simp⟩
  | cons l lines ih =>
    obtain ⟨i1, i2⟩ := ih (fun m hm => h2 m (by simp [hm])) (fun m hm => he m (by simp [hm]))
    obtain ⟨a, b, ha, hb⟩ := ends_of_two (h2 l (by simp))
    have hbP : b ≠ P := by intro e; exact he l (by simp) (by rw [hb, e])
    have e : flow P (allSteps (l :: lines)) = at_ P a + flow P (allSteps lines) := by
      rw [show allSteps (l :: lines) = steps l ++ allSteps lines from rfl, flow_append, flow_steps P l a b ha hb, at_ne hbP]; ring
    rw [e]
    refine ⟨by have := at_nonneg P a; omega, ?_⟩
    rintro ⟨m, hm, hh⟩
    rcases List.mem_cons.1 hm with rfl | hm
    · rw [ha] at hh; cases hh; rw [at_self]; omega
    · have := i2 ⟨m, hm, hh⟩; have := at_nonneg P a; omega

theorem flow_end {lines : List (Line F)} {P : Vec F} (h2 : ∀ l ∈ lines, 2 ≤ l.length)
    (he : ∀ l ∈ lines, l.head? ≠ some P) : flow P (allSteps lines) ≤ 0 ∧
      ((∃ l ∈ lines, l.getLast? = some P) → flow P (allSteps lines) ≤ -1) := by
  induction lines with
  | nil => exact ⟨le_refl _, by simp⟩
  | cons l lines ih =>
    obtain ⟨i1, i2⟩ := ih (fun m hm => h2 m (by simp [hm])) (fun m hm => he m (by simp [hm]))
    obtain ⟨a, b, ha, hb⟩ := ends_of_two (h2 l (by simp))
    have haP : a ≠ P := by intro e; exact he l (by simp) (by rw [ha, e])
    have e : flow P (allSteps (l :: lines)) = - at_ P b + flow P (allSteps lines) := by
      rw [show allSteps (l :: lines) = steps l ++ allSteps lines from rfl, flow_append, flow_steps P l a b ha hb, at_ne haP]; ring
    rw [e]
    refine ⟨by have := at_nonneg P b; omega, ?_⟩
    rintro ⟨m, hm, hh⟩
    rcases List.mem_cons.1 hm with rfl | hm
    · rw [hb] at hh; cases hh; rw [at_self]; omega
    · have := i2 ⟨m, hm, hh⟩; have := at_nonneg P b; omega

/-- The ends of different lines are different, in every way. -/
def Apart2 (l m : Line F) : Prop :=
  l.getLast? ≠ m.head? ∧ m.getLast? ≠ l.head? ∧ l.head? ≠ m.head? ∧ l.getLast? ≠ m.getLast?

def Tidy2 (lines : List (Line F)) : Prop := (∀ l ∈ lines, 2 ≤ l.length) ∧ lines.Pairwise Apart2

theorem Tidy2.perm {lines lines' : List (Line F)} (p : lines.Perm lines') (h : Tidy2 lines) : Tidy2 lines' :=
  ⟨fun l hl => h.1 l (p.mem_iff.2 hl), h.2.perm p fun hh => ⟨hh.2.1, hh.1, hh.2.2.1.symm, hh.2.2.2.symm⟩⟩

theorem head?_append' {l m : Line F} (h : l ≠ []) : (l ++ m).head? = l.head? := List.head?_append_of_ne_nil _ h

theorem tidy2_collect {v0 v1 : Vec F} {lines lines' : List (Line F)} (hc : Collected v0 v1 lines lines') (ht : Tidy2 lines)
    (h0 : flow v0 (allSteps lines) ≤ 0) (h1 : 0 ≤ flow v1 (allSteps lines)) : Tidy2 lines' := by
  have hA : (∀ l ∈ lines, l.getLast? ≠ some v0) → ∀ l ∈ lines, l.head? ≠ some v0 := by
    intro h l hl e
    have := (flow_start ht.1 h).2 ⟨l, hl, e⟩
    omega
  have hB : (∀ l ∈ lines, l.head? ≠ some v1) → ∀ l ∈ lines, l.getLast? ≠ some v1 := by
    intro h l hl e
    have := (flow_end ht.1 h).2 ⟨l, hl, e⟩
    omega
  cases hc with
  | fresh p' s e =>
    refine Tidy2.perm p'.symm ⟨?_, ?_⟩
    · intro l hl
      rcases List.mem_cons.1 hl with rfl | hl
      · simp
      · exact ht.1 l hl
    · refine List.pairwise_cons.2 ⟨fun m hm => ?_, ht.2⟩
      refine ⟨?_, ?_, ?_, ?_⟩
      · simpa using (s m hm).symm
      · simpa using e m hm
      · simpa using (hA e m hm).symm
      · simpa using (hB s m hm).symm
  | push l rest p p' e s =>
    obtain ⟨t1, t2⟩ := ht.perm p
    obtain ⟨u1, u2⟩ := List.pairwise_cons.1 t2
    have hl : l ≠ [] := by intro h; rw [h] at e; cases e
    have hmem : ∀ m ∈ rest, m ∈ lines := fun m hm => p.mem_iff.2 (by simp [hm])
    refine Tidy2.perm p'.symm ⟨?_, ?_⟩
    · intro m hm
      rcases List.mem_cons.1 hm with rfl | hm
      · have := t1 l (by simp); simp; omega
      · exact t1 m (by simp [hm])
    · refine List.pairwise_cons.2 ⟨fun m hm => ?_, u2⟩
      obtain ⟨a1, a2, a3, a4⟩ := u1 m hm
      unfold Apart2
      rw [List.getLast?_concat, head?_append' hl]
      exact ⟨(s m (hmem m hm)).symm, a2, a3, (hB s m (hmem m hm)).symm⟩
  | front l rest p p' s e =>
    obtain ⟨t1, t2⟩ := ht.perm p
    obtain ⟨u1, u2⟩ := List.pairwise_cons.1 t2
    have hmem : ∀ m ∈ rest, m ∈ lines := fun m hm => p.mem_iff.2 (by simp [hm])
    refine Tidy2.perm p'.symm ⟨?_, ?_⟩
    · intro m hm
      rcases List.mem_cons.1 hm with rfl | hm
      · have := t1 l (by simp); simp; omega
      · exact t1 m (by simp [hm])
    · refine List.pairwise_cons.2 ⟨fun m hm => ?_, u2⟩
      obtain ⟨a1, a2, a3, a4⟩ := u1 m hm
      have hne : l ≠ [] := by intro h; rw [h] at s; cases s
      obtain ⟨x, l', rfl⟩ := List.exists_cons_of_ne_nil hne
      unfold Apart2
      rw [List.getLast?_cons_cons]
      exact ⟨a1, e m (hmem m hm), (hA e m (hmem m hm)).symm, a4⟩
  | join l m rest p p' e s =>
    obtain ⟨t1, t2⟩ := ht.perm p
    obtain ⟨u1, u2⟩ := List.pairwise_cons.1 t2
    obtain ⟨w1, w2⟩ := List.pairwise_cons.1 u2
    have hlne : l ≠ [] := by intro h; rw [h] at e; cases e
    have hmne : m ≠ [] := by intro h; rw [h] at s; cases s
    refine Tidy2.perm p'.symm ⟨?_, ?_⟩
    · intro k hk
      rcases List.mem_cons.1 hk with rfl | hk
      · have := t1 l (by simp); simp; omega
      · exact t1 k (by simp [hk])
    · refine List.pairwise_cons.2 ⟨fun k hk => ?_, w2⟩
      obtain ⟨a1, a2, a3, a4⟩ := u1 k (by simp [hk])
      obtain ⟨b1, b2, b3, b4⟩ := w1 k hk
      unfold Apart2
      rw [List.getLast?_append_of_ne_nil _ hmne, head?_append' hlne]
      exact ⟨b1, a2, a3, b4⟩
  | loop l rest p p' e s =>
    obtain ⟨t1, t2⟩ := ht.perm p
    obtain ⟨u1, u2⟩ := List.pairwise_cons.1 t2
    have hlne : l ≠ [] := by intro h; rw [h] at e; cases e
    refine Tidy2.perm p'.symm ⟨?_, ?_⟩
    · intro m hm
      rcases List.mem_cons.1 hm with rfl | hm
      · have := t1 l (by simp); simp; omega
      · exact t1 m (by simp [hm])
    · refine List.pairwise_cons.2 ⟨fun m hm => ?_, u2⟩
      obtain ⟨a1, a2, a3, a4⟩ := u1 m hm
      rw [s] at a2 a3
      unfold Apart2
      rw [List.getLast?_concat, head?_append' hlne, s]
      exact ⟨a3, a2, a3, a2.symm⟩

theorem tidy2_all (segs : List (Vec F × Vec F)) : ∀ (lines lines' : List (Line F)), Tidy2 lines →
    (∀ pre P, pre <+: segs → -1 ≤ flow P (pre ++ allSteps lines) ∧ flow P (pre ++ allSteps lines) ≤ 1) →
    (∀ s ∈ segs, s.1 ≠ s.2) → collectAll segs lines = some lines' → Tidy2 lines' := by
  induction segs with
  | nil => intro lines lines' ht _ _ h; cases h; exact ht
  | cons sg segs ih =>
    intro lines lines' ht hp hne h
    obtain ⟨l1, h1, hc⟩ := collectSegment_cases sg.1 sg.2 lines
    obtain ⟨l1', h1', p1⟩ := C34_collect sg.1 sg.2 lines
    rw [h1] at h1'
    cases h1'
    simp only [collectAll, List.foldlM_cons, h1, Option.bind_eq_bind, Option.bind_some] at h
    have hsg := hne sg (by simp)
    refine ih l1 lines' ?_ ?_ (fun s hs => hne s (by simp [hs])) h
    · refine tidy2_collect hc ht ?_ ?_
      · have := (hp [sg] sg.1 (by simp)).2
        rw [List.singleton_append, flow_cons, at_self, at_ne hsg.symm] at this
        omega
      · have := (hp [sg] sg.2 (by simp)).1
        rw [List.singleton_append, flow_cons, at_self, at_ne hsg] at this
        omega
    · intro pre P hpre
      have pp : (pre ++ allSteps l1).Perm (sg :: pre ++ allSteps lines) :=
        (List.Perm.append_left pre p1).trans List.perm_middle
      rw [flow_perm P pp]
      exact hp (sg :: pre) P (List.prefix_cons_inj sg |>.2 hpre)

/-- **Closed contours that may touch**: if in the end as many segments start as end at every point, and at no time two more of
them start (or end) at a point than end (or start) there, then every collected line is closed. -/
theorem C34_closed_touching (segs : List (Vec F × Vec F)) (hne : ∀ s ∈ segs, s.1 ≠ s.2)
    (hpre : ∀ pre P, pre <+: segs → starts P pre ≤ ends P pre + 1 ∧ ends P pre ≤ starts P pre + 1)
    (hbal : ∀ P, starts P segs = ends P segs) {lines : List (Line F)} (h : collectAll segs [] = some lines) :
    ∀ l ∈ lines, Closed l := by
  obtain ⟨lines', h', p⟩ := C34_all segs []
  rw [h] at h'
  cases h'
  simp only [allSteps, List.flatMap_nil, List.append_nil] at p
  have ht : Tidy2 lines := tidy2_all segs [] lines ⟨by simp, List.Pairwise.nil⟩ (by
    intro pre P hp
    have := hpre pre P hp
    simp only [allSteps, List.flatMap_nil, List.append_nil, flow]
    omega) hne h
  intro l hl
  obtain ⟨a, b, ha, hb⟩ := ends_of_two (ht.1 l hl)
  refine ⟨ht.1 l hl, ?_⟩
  rw [ha, hb]
  by_contra hab
  have hab : a ≠ b := fun e => hab (by rw [e])
  -- nobody starts at `b`, so the flow there is negative
  obtain ⟨rest, pr⟩ : ∃ rest, lines.Perm (l :: rest) := by
    obtain ⟨i, hi⟩ := List.mem_iff_getElem?.1 hl
    exact ⟨_, perm_of_get hi⟩
  have u1 := (List.pairwise_cons.1 (ht.perm pr).2).1
  have hno : ∀ m ∈ lines, m.head? ≠ some b := by
    intro m hm e
    rcases List.mem_cons.1 (pr.mem_iff.1 hm) with rfl | hm
    · rw [ha] at e; cases e; exact hab rfl
    · exact (u1 m hm).1 (by rw [hb, e])
  have hneg := (flow_end ht.1 hno).2 ⟨l, hl, hb⟩
  have : flow b (allSteps lines) = 0 := by
    rw [show allSteps lines = lines.flatMap steps from rfl, flow_perm b p, flow, hbal b]; omega
  omega

end CP
