import Verif.Proofs.SpaceHash2

/-! # Queries of the spatial hash -/

namespace CP
open GoFloat
variable {F : Type} [GoFloat F]

namespace SHash

/-- Which handles are stamped in the course of a query that has reported `log`. -/
structure Mark (s : SHash F) (log : List Obj) : Prop where
  le : ∀ h, (s.hd h).stamp ≤ s.stamp
  on : ∀ o h, (o, h) ∈ s.set.each → ((s.hd h).stamp = s.stamp ↔ o ∈ log)
  off : ∀ h, (s.hd h).obj = none → (s.hd h).stamp ≠ s.stamp
  nd : log.Nodup

/-- Only stamps differ. -/
structure SameM (s s' : SHash F) : Prop extends SameT s s' where
  obj : ∀ h, (s'.hd h).obj = (s.hd h).obj
  ret : ∀ h, (s'.hd h).retains = (s.hd h).retains
  pool : s'.pool = s.pool
  next : s'.next = s.next

theorem SameM.refl (s : SHash F) : SameM s s := ⟨⟨rfl, rfl, rfl, rfl, rfl⟩, fun _ => rfl, fun _ => rfl, rfl, rfl⟩
theorem SameM.trans {a b c : SHash F} (h1 : SameM a b) (h2 : SameM b c) : SameM a c :=
  ⟨⟨h2.num.trans h1.num, h2.dim.trans h1.dim, h2.table.trans h1.table, h2.set.trans h1.set, h2.stamp.trans h1.stamp⟩,
    fun h => (h2.obj h).trans (h1.obj h), fun h => (h2.ret h).trans (h1.ret h), h2.pool.trans h1.pool, h2.next.trans h1.next⟩
theorem SameM.mem {s s' : SHash F} (h : SameM s s') {ref : HId → Nat} (m : Mem s ref) : Mem s' ref :=
  ⟨fun x => by rw [h.ret]; exact m.refs x, by rw [h.pool]; exact m.zero, by rw [h.pool]; exact m.nd, by rw [h.pool, h.next]; exact m.lt,
    by rw [h.next]; exact m.fresh⟩

/-- What a loop over some bins does to the log. -/
structure Adds (each : List (Obj × HId)) (obj : Option Obj) (bin : List HId) (log log' : List Obj) : Prop where
  mono : ∀ x ∈ log, x ∈ log'
  new : ∀ x ∈ log', x ∈ log ∨ (obj ≠ some x ∧ ∃ h ∈ bin, (x, h) ∈ each)

theorem scan_spec (obj : Option Obj) (bin : List HId) : ∀ (s : SHash F) (log : List Obj),
    (∀ e ∈ s.set.each, (s.hd e.2).obj = some e.1) → (∀ a b h, (a, h) ∈ s.set.each → (b, h) ∈ s.set.each → a = b) →
    (∀ a h g, (a, h) ∈ s.set.each → (a, g) ∈ s.set.each → h = g) →
    (∀ h ∈ bin, (s.hd h).obj = none ∨ ∃ o, (o, h) ∈ s.set.each) → Mark s log →
    ∃ s' log' fl, scan quiet obj bin s log = ((s', log'), fl) ∧ SameM s s' ∧ Mark s' log' ∧ Adds s.set.each obj bin log log' ∧
      (fl = true → ∃ h ∈ bin, (s.hd h).obj = none) ∧
      (fl = false → ∀ h ∈ bin, ∀ x, (x, h) ∈ s.set.each → obj ≠ some x → x ∈ log') := by
  induction bin with
  | nil =>
    intro s log _ _ _ _ m
    exact ⟨s, log, false, rfl, SameM.refl s, m, ⟨fun _ h => h, fun _ h => Or.inl h⟩, nofun, fun _ _ h => by cases h⟩
  | cons h t ih =>
    intro s log hl hi hj hb m
    rw [scan]
    have hbt : ∀ x ∈ t, (s.hd x).obj = none ∨ ∃ o, (o, x) ∈ s.set.each := fun x hx => hb x (by simp [hx])
    have widen : ∀ {log'}, Adds s.set.each obj t log log' → Adds s.set.each obj (h :: t) log log' := fun a =>
      ⟨a.mono, fun x hx => (a.new x hx).imp id fun ⟨p, g, hg, q⟩ => ⟨p, g, by simp [hg], q⟩⟩
    by_cases hst : (s.hd h).stamp = s.stamp
    · rw [if_pos hst]
      obtain ⟨s', log', fl, e, sm, mk, ad, f1, f2⟩ := ih s log hl hi hj hbt m
      refine ⟨s', log', fl, e, sm, mk, widen ad, fun q => ?_, fun q x hx y hy ho => ?_⟩
      · obtain ⟨g, hg, e⟩ := f1 q; exact ⟨g, by simp [hg], e⟩
      · rcases List.mem_cons.1 hx with rfl | hx
        · exact ad.mono y ((m.on y x hy).1 hst)
        · exact f2 q x hx y hy ho
    · rw [if_neg hst]
      cases ho : (s.hd h).obj with
      | none =>
        exact ⟨s, log, true, rfl, SameM.refl s, m, ⟨fun _ h => h, fun _ h => Or.inl h⟩, fun _ => ⟨h, by simp, ho⟩, nofun⟩
      | some other =>
        simp only
        have hlive : (other, h) ∈ s.set.each := by
          rcases hb h (by simp) with q | ⟨o, q⟩
          · rw [ho] at q; cases q
          · have := hl _ q
            simp only at this
            rw [ho] at this
            cases this
            exact q
        by_cases hobj : obj = some other
        · rw [if_pos hobj]
          obtain ⟨s', log', fl, e, sm, mk, ad, f1, f2⟩ := ih s log hl hi hj hbt m
          refine ⟨s', log', fl, e, sm, mk, widen ad, fun q => ?_, fun q x hx y hy hne => ?_⟩
          · obtain ⟨g, hg, e⟩ := f1 q; exact ⟨g, by simp [hg], e⟩
          · rcases List.mem_cons.1 hx with rfl | hx
            · rw [hi y other x hy hlive] at hne; exact absurd hobj hne
            · exact f2 q x hx y hy hne
        · rw [if_neg hobj]
          simp only [quiet]
          obtain ⟨s1, hs1⟩ : ∃ s1, s1 = s.setHd h { s.hd h with stamp := s.stamp } := ⟨_, rfl⟩
          rw [← hs1]
          have hd1 : ∀ x, s1.hd x = if x = h then { s.hd h with stamp := s.stamp } else s.hd x := fun x => by rw [hs1]; rfl
          have o1 : ∀ x, (s1.hd x).obj = (s.hd x).obj := fun x => by
            rw [hd1]; split
            · next e => rw [e]
            · rfl
          have r1 : ∀ x, (s1.hd x).retains = (s.hd x).retains := fun x => by
            rw [hd1]; split
            · next e => rw [e]
            · rfl
          have sm1 : SameM s s1 := ⟨⟨by rw [hs1]; rfl, by rw [hs1]; rfl, by rw [hs1]; rfl, by rw [hs1]; rfl, by rw [hs1]; rfl⟩, o1, r1, by rw [hs1]; rfl, by rw [hs1]; rfl⟩
          have hnl : other ∉ log := fun q => hst ((m.on other h hlive).2 q)
          have m1 : Mark s1 (log ++ [other]) := by
            refine ⟨fun x => ?_, fun o g hg => ?_, fun x hx => ?_, ?_⟩
            · rw [sm1.stamp, hd1]; split
              · exact le_refl _
              · exact m.le x
            · rw [sm1.set] at hg
              rw [sm1.stamp, hd1, List.mem_append, List.mem_singleton]
              by_cases e : g = h
              · subst e
                simp only [if_true, true_iff]
                exact Or.inr (hi o other g hg hlive)
              · rw [if_neg e, m.on o g hg]
                refine ⟨Or.inl, fun q => q.elim id fun q => absurd ?_ e⟩
                subst q
                exact hj o g h hg hlive
            · rw [o1] at hx
              rw [sm1.stamp, hd1, if_neg (by rintro rfl; rw [ho] at hx; cases hx)]
              exact m.off x hx
            · rw [List.nodup_append]
              exact ⟨m.nd, List.nodup_singleton _, fun a ha b hb => by rw [List.mem_singleton] at hb; subst hb; rintro rfl; exact hnl ha⟩
          obtain ⟨s', log', fl, e, sm, mk, ad, f1, f2⟩ := ih s1 (log ++ [other]) (by rw [sm1.set]; intro e he; rw [o1]; exact hl e he)
            (by rw [sm1.set]; exact hi) (by rw [sm1.set]; exact hj) (by rw [sm1.set]; intro x hx; rw [o1]; exact hbt x hx) m1
          rw [sm1.set] at ad f2
          refine ⟨s', log', fl, e, sm1.trans sm, mk, ⟨fun x hx => ad.mono x (by simp [hx]), fun x hx => ?_⟩, fun q => ?_, fun q x hx y hy hne => ?_⟩
          · rcases ad.new x hx with hx | ⟨p, g, hg, q⟩
            · rcases List.mem_append.1 hx with hx | hx
              · exact Or.inl hx
              · rw [List.mem_singleton] at hx
                subst hx
                exact Or.inr ⟨hobj, h, by simp, hlive⟩
            · exact Or.inr ⟨p, g, by simp [hg], q⟩
          · obtain ⟨g, hg, e⟩ := f1 q; rw [o1] at e; exact ⟨g, by simp [hg], e⟩
          · rcases List.mem_cons.1 hx with rfl | hx
            · rw [hi y other x hy hlive]; exact ad.mono _ (by simp)
            · exact f2 q x hx y hy hne

theorem removeOrphans_eq (bin : List HId) : ∀ (s : SHash F), s.removeOrphans bin =
    ((bin.filter fun h => (s.hd h).obj = none).foldl release s, bin.filter fun h => (s.hd h).obj ≠ none) := by
  induction bin with
  | nil => intro s; rfl
  | cons h t ih =>
    intro s
    rw [removeOrphans]
    by_cases hn : (s.hd h).obj = none
    · rw [if_pos hn, ih]
      have : ∀ x, ((s.release h).hd x).obj = (s.hd x).obj := (release_same s h).obj
      simp only [this, List.filter_cons, hn, decide_true, if_true, List.foldl_cons, ne_eq, not_true_eq_false, decide_false,
        Bool.false_eq_true, if_false]
    · rw [if_neg hn, ih]
      simp [List.filter_cons, hn]

theorem count_filter_split (bin : List HId) (p : HId → Prop) [DecidablePred p] (x : HId) :
    (bin.filter fun h => decide (p h)).count x = bin.count x - (bin.filter fun h => decide (¬ p h)).count x := by
  have h1 : (bin.filter fun h => decide (p h)).count x = if p x then bin.count x else 0 := by
    split
    · next h => exact List.count_filter (by simpa using h)
    · next h => exact List.count_eq_zero.2 (by simp [List.mem_filter, h])
  have h2 : (bin.filter fun h => decide (¬ p h)).count x = if p x then 0 else bin.count x := by
    split
    · next h => exact List.count_eq_zero.2 (by simp [List.mem_filter, h])
    · next h => exact List.count_filter (by simpa using h)
  rw [h1, h2]
  split <;> omega

theorem queryHelper_spec (obj : Option Obj) (bin : List HId) (s : SHash F) (log : List Obj) {ref : HId → Nat}
    (hl : ∀ e ∈ s.set.each, (s.hd e.2).obj = some e.1) (hi : ∀ a b h, (a, h) ∈ s.set.each → (b, h) ∈ s.set.each → a = b)
    (hj : ∀ a h g, (a, h) ∈ s.set.each → (a, g) ∈ s.set.each → h = g)
    (hb : ∀ h ∈ bin, (s.hd h).obj = none ∨ ∃ o, (o, h) ∈ s.set.each) (m : Mark s log) (hm : Mem s ref) (hc : ∀ x, bin.count x ≤ ref x) :
    ∃ bin' s' log', queryHelper quiet obj (bin.length + 1) bin s log = some (bin', s', log') ∧ SameT s s' ∧ (∀ h, (s'.hd h).obj = (s.hd h).obj) ∧
      Mark s' log' ∧ Adds s.set.each obj bin log log' ∧ (∀ h ∈ bin, ∀ x, (x, h) ∈ s.set.each → obj ≠ some x → x ∈ log') ∧
      bin'.Sublist bin ∧ (∀ h ∈ bin, (s.hd h).obj ≠ none → h ∈ bin') ∧ Mem s' (fun x => ref x - (bin.count x - bin'.count x)) := by
  obtain ⟨s1, log1, fl, e1, sm1, m1, a1, f1, f2⟩ := scan_spec obj bin s log hl hi hj hb m
  rw [queryHelper, e1]
  cases fl with
  | false =>
    simp only
    refine ⟨bin, s1, log1, rfl, sm1.toSameT, sm1.obj, m1, a1, f2 rfl, List.Sublist.refl _, fun _ h _ => h, ?_⟩
    simpa using sm1.mem hm
  | true =>
    obtain ⟨h0, hh0, -⟩ := f1 rfl
    obtain ⟨n, hn⟩ : ∃ n, bin.length = n + 1 := ⟨bin.length - 1, by have := List.length_pos_of_mem hh0; omega⟩
    simp only [removeOrphans_eq]
    rw [hn, queryHelper]
    have so1 := sm1.obj
    simp only [so1]
    obtain ⟨so, mem2⟩ := releases (bin.filter fun h => (s.hd h).obj = none) (sm1.mem hm) (fun x =>
      le_trans (List.Sublist.count_le x List.filter_sublist) (hc x))
    obtain ⟨s2, hs2⟩ : ∃ s2, s2 = (bin.filter fun h => (s.hd h).obj = none).foldl release s1 := ⟨_, rfl⟩
    rw [← hs2] at so mem2 ⊢
    have set2 : s2.set = s.set := so.set.trans sm1.set
    have obj2 : ∀ x, (s2.hd x).obj = (s.hd x).obj := fun x => (so.obj x).trans (so1 x)
    have mk2 : Mark s2 log1 := by
      refine ⟨fun x => ?_, fun o h hh => ?_, fun x hx => ?_, m1.nd⟩
      · rw [so.mark, so.stamp]; exact m1.le x
      · rw [so.mark, so.stamp]; exact m1.on o h (by rw [← so.set]; exact hh)
      · rw [so.mark, so.stamp]; exact m1.off x (by rw [← so.obj]; exact hx)
    have hsub : (bin.filter fun h => decide ((s.hd h).obj ≠ none)).Sublist bin := List.filter_sublist
    obtain ⟨s3, log3, fl, e3, sm3, m3, a3, g1, g2⟩ := scan_spec obj (bin.filter fun h => decide ((s.hd h).obj ≠ none)) s2 log1
      (by rw [set2]; intro e he; rw [obj2]; exact hl e he) (by rw [set2]; exact hi) (by rw [set2]; exact hj)
      (by rw [set2]; intro x hx; rw [obj2]; exact hb x (hsub.subset hx)) mk2
    rw [e3]
    cases fl with
    | true =>
      obtain ⟨x, hx, hx'⟩ := g1 rfl
      rw [obj2] at hx'
      simp [hx'] at hx
    | false =>
      simp only
      have g2 := g2 rfl
      rw [set2] at g2 a3
      refine ⟨_, s3, log3, rfl, ⟨?_, ?_, ?_, ?_, ?_⟩, fun x => (sm3.obj x).trans (obj2 x), m3, ⟨fun x hx => a3.mono x (a1.mono x hx), fun x hx => ?_⟩, fun h hh x hx hne => ?_, hsub,
        fun x hx hne => by simp [hx, hne], ?_⟩
      · exact sm3.num.trans (so.num.trans sm1.num)
      · exact sm3.dim.trans (so.dim.trans sm1.dim)
      · exact sm3.table.trans (so.table.trans sm1.table)
      · exact sm3.set.trans set2
      · exact sm3.stamp.trans (so.stamp.trans sm1.stamp)
      · rcases a3.new x hx with hx | ⟨p, g, hg, q⟩
        · exact a1.new x hx
        · exact Or.inr ⟨p, g, hsub.subset hg, q⟩
      · refine g2 h ?_ x hx hne
        have := hl _ hx
        simp only at this
        simp [hh, this]
      · refine (sm3.mem mem2).congr fun x => ?_
        rw [count_filter_split bin (fun h => (s.hd h).obj = none) x]

theorem Core.helper {hash : Obj → Nat} {s : SHash F} {own : Obj → Option (Nat → Prop)} (c : Core hash s own) {s1 : SHash F} {extra : HId → Nat}
    (h1 : SameM s { s1 with hd := fun x => { s1.hd x with retains := (s.hd x).retains } }) (hm : Mem s1 (fun x => refOf s.table s.set.each x + extra x))
    {log : List Obj} (m : Mark s1 log) (obj : Option Obj) {k : Nat} {bin : List HId} (hb : s.table[k]? = some bin) :
    ∃ bin' s' log', queryHelper quiet obj (bin.length + 1) bin s1 log = some (bin', s', log') ∧ SameT s s' ∧ (∀ h, (s'.hd h).obj = (s.hd h).obj) ∧
      Mark s' log' ∧ (∀ x, x ∈ log' ↔ x ∈ log ∨ (obj ≠ some x ∧ ∃ h ∈ bin, (x, h) ∈ s.set.each)) ∧
      bin'.Sublist bin ∧ (∀ h ∈ bin, (s.hd h).obj ≠ none → h ∈ bin') ∧
      Mem s' (fun x => refOf (s.table.set k bin') s.set.each x + extra x) := by
  have hset : s1.set = s.set := h1.set
  have hobj : ∀ x, (s1.hd x).obj = (s.hd x).obj := h1.obj
  obtain ⟨bin', s', log', e, st, ob, mk, ad, al, sub, kp, mm⟩ := queryHelper_spec obj bin s1 log (by rw [hset]; intro e he; rw [hobj]; exact c.live e he)
    (by rw [hset]; intro a b h; exact c.obj_inj) (by rw [hset]; intro a h g; exact each_inj c.set)
    (by rw [hset]; intro x hx; rw [hobj]; exact c.bins bin (List.mem_of_getElem? hb) x hx) m hm
    (fun x => by have := count_bin s.table k bin hb x; unfold refOf; omega)
  rw [hset] at ad al
  refine ⟨bin', s', log', e, ⟨st.num.trans h1.num, st.dim.trans h1.dim, st.table.trans h1.table, st.set.trans hset, st.stamp.trans h1.stamp⟩, fun x => (ob x).trans (hobj x), mk,
    fun x => ⟨ad.new x, fun q => q.elim (ad.mono x) fun ⟨p, h, hh, q⟩ => al h hh x q p⟩, sub, fun x hx hn => kp x hx (by rw [hobj]; exact hn), ?_⟩
  refine mm.congr fun x => ?_
  have h1 := count_set s.table k bin bin' hb x
  have h2 := count_bin s.table k bin hb x
  have h3 := List.Sublist.count_le x sub
  simp only [refOf]
  omega

theorem Core.prune {hash : Obj → Nat} {s s' : SHash F} {own : Obj → Option (Nat → Prop)} (c : Core hash s own)
    {k : Nat} {bin bin' : List HId} (hb : s.table[k]? = some bin)
    (hsub : bin'.Sublist bin) (hkeep : ∀ x ∈ bin, (s.hd x).obj ≠ none → x ∈ bin')
    (hnum : s'.numCells = s.numCells) (hset : s'.set = s.set) (hobj : ∀ x, (s'.hd x).obj = (s.hd x).obj)
    (htab : s'.table = s.table.set k bin') (hmem : Mem s' (refOf s'.table s.set.each)) :
    Core hash s' own := by
  have hbm : bin ∈ s.table := List.mem_of_getElem? hb
  refine ⟨by rw [hnum]; exact c.pos, by rw [htab, List.length_set, hnum, c.len], by rw [hset]; exact c.set,
    fun e he => by rw [hset] at he; rw [hobj]; exact c.live e he, by rw [hset]; exact hmem, fun x => by rw [hset]; exact c.idx x,
    fun x g K' hx hK' i b hib => ?_, fun b hb' x hx => ?_, fun b hb' => ?_⟩
  · rw [hset] at hx
    rw [htab, List.getElem?_set] at hib
    split at hib
    · next e =>
      subst e
      split at hib
      · simp only [Option.some.injEq] at hib
        subst hib
        rw [← c.cells x g K' hx hK' k bin hb]
        exact ⟨fun q => hsub.subset q, fun q => hkeep g q (by rw [c.live _ hx]; simp)⟩
      · cases hib
    · exact c.cells x g K' hx hK' i b hib
  · rw [htab] at hb'
    rw [hset, hobj]
    rcases mem_set_bin hb' with hb' | rfl
    · exact c.bins b hb' x hx
    · exact c.bins bin hbm x (hsub.subset hx)
  · rw [htab] at hb'
    rcases mem_set_bin hb' with hb' | rfl
    · exact c.nd b hb'
    · exact (c.nd bin hbm).sublist hsub

/-- The live handles of a bin are those of the shapes that own it. -/
theorem Core.inBin {hash : Obj → Nat} {s : SHash F} {own : Obj → Option (Nat → Prop)} (c : Core hash s own)
    {k : Nat} {bin : List HId} (hb : s.table[k]? = some bin) (x : Obj) :
    (∃ h ∈ bin, (x, h) ∈ s.set.each) ↔ ∃ K, own x = some K ∧ K k := by
  constructor
  · rintro ⟨h, hh, hx⟩
    obtain ⟨K, hK⟩ := Option.ne_none_iff_exists'.1 ((c.idx x).2 ⟨h, hx⟩)
    exact ⟨K, hK, (c.cells x h K hx hK k bin hb).1 hh⟩
  · rintro ⟨K, hK, hk⟩
    obtain ⟨h, hx⟩ := c.handle hK
    exact ⟨h, (c.cells x h K hx hK k bin hb).2 hk, hx⟩

theorem queryCell_spec {hash : Obj → Nat} {s : SHash F} {own : Obj → Option (Nat → Prop)} (c : Core hash s own) {log : List Obj}
    (m : Mark s log) (obj : Option Obj) {k : Nat} (hk : k < s.numCells) :
    ∃ s' log', queryCell quiet obj (s, log) k = some (s', log') ∧ Core hash s' own ∧ Mark s' log' ∧ Dim s s' ∧ s'.set = s.set ∧
      s'.stamp = s.stamp ∧ ∀ x, x ∈ log' ↔ x ∈ log ∨ (obj ≠ some x ∧ ∃ K, own x = some K ∧ K k) := by
  obtain ⟨bin, hb⟩ := c.bin hk
  obtain ⟨bin', s', log', e, st, ob, mk, ad, sub, kp, mm⟩ := c.helper (s1 := s) (extra := fun _ => 0) (SameM.refl s) c.mem m obj hb
  refine ⟨{ s' with table := s'.table.set k bin' }, log', by simp only [queryCell, hb, e]; rfl, ?_, ⟨mk.le, mk.on, mk.off, mk.nd⟩, ⟨st.num, st.dim⟩, st.set, st.stamp,
    fun x => by rw [ad x, c.inBin hb]⟩
  refine c.prune hb sub kp st.num st.set ob (by rw [← st.table]) (mm.ofTable ?_ ?_ ?_ |>.congr ?_) <;> try rfl
  intro x
  rw [← st.table]; rfl

theorem queryCells_spec {hash : Obj → Nat} {own : Obj → Option (Nat → Prop)} (obj : Option Obj) (ks : List Nat) :
    ∀ {s : SHash F}, Core hash s own → ∀ {log : List Obj}, Mark s log → (∀ k ∈ ks, k < s.numCells) →
    ∃ s' log', ks.foldlM (queryCell quiet obj) (s, log) = some (s', log') ∧ Core hash s' own ∧ Mark s' log' ∧ Dim s s' ∧ s'.set = s.set ∧
      s'.stamp = s.stamp ∧ ∀ x, x ∈ log' ↔ x ∈ log ∨ (obj ≠ some x ∧ ∃ K, own x = some K ∧ ∃ k ∈ ks, K k) := by
  induction ks with
  | nil => exact fun {s} c {log} m _ => ⟨s, log, rfl, c, m, Dim.refl s, rfl, rfl, fun x => by simp⟩
  | cons k t ih =>
    intro s c log m hks
    obtain ⟨s1, l1, e1, c1, m1, d1, t1, p1, x1⟩ := queryCell_spec c m obj (hks k (by simp))
    obtain ⟨s2, l2, e2, c2, m2, d2, t2, p2, x2⟩ := ih c1 m1 (fun i hi => by rw [d1.num]; exact hks i (by simp [hi]))
    refine ⟨s2, l2, by rw [List.foldlM_cons, e1]; exact e2, c2, m2, d1.trans d2, t2.trans t1, p2.trans p1, fun x => ?_⟩
    rw [x2, x1, or_assoc, ← and_or_left, ← exists_or]
    simp only [← and_or_left, List.mem_cons, exists_eq_or_imp]

theorem SInv.mark {hash : Obj → Nat} {s : SHash F} {own : Obj → Option (Nat → Prop)} (c : SInv hash s own) : Mark s [] :=
  ⟨fun h => (c.marks h).le, fun o h _ => ⟨fun q => absurd q (c.marks h).ne, nofun⟩, fun h _ => (c.marks h).ne, List.nodup_nil⟩

theorem Core.next {hash : Obj → Nat} {s : SHash F} {own : Obj → Option (Nat → Prop)} (c : Core hash s own) {log : List Obj} (m : Mark s log) :
    SInv hash { s with stamp := s.stamp + 1 } own :=
  ⟨⟨c.pos, c.len, c.set, c.live, ⟨c.mem.refs, c.mem.zero, c.mem.nd, c.mem.lt, c.mem.fresh⟩, c.idx, c.cells, c.bins, c.nd⟩, fun h => Nat.lt_succ_of_le (m.le h)⟩

theorem query_spec {hash : Obj → Nat} {s : SHash F} {own : Obj → Option (Nat → Prop)} (c : SInv hash s own) (obj : Option Obj) (bb : BB F) :
    ∃ s' log, s.query obj bb = some (s', log) ∧ SInv hash s' own ∧ Dim s s' ∧ s'.set = s.set ∧ log.Nodup ∧
      ∀ x, x ∈ log ↔ obj ≠ some x ∧ ∃ K, own x = some K ∧ ∃ k ∈ s.cells bb, K k := by
  obtain ⟨s', log, e, c', m', d, t, p, x⟩ := queryCells_spec obj (s.cells bb) c.toCore c.mark (cells_lt s c.pos bb)
  refine ⟨{ s' with stamp := s'.stamp + 1 }, log, by simp only [query, queryWith, e]; rfl, c'.next m', ⟨d.num, d.dim⟩, t, m'.nd, fun y => ?_⟩
  rw [x y]
  simp

/-! ### ReindexQuery -/

theorem rehashCell_spec {hash : Obj → Nat} {s : SHash F} {own : Obj → Option (Nat → Prop)} (c : Core hash s own) {log : List Obj}
    (m : Mark s log) {o : Obj} {h : HId} {K : Nat → Prop} (ho : (o, h) ∈ s.set.each) (hK : own o = some K) {k : Nat} (hk : k < s.numCells)
    (hold : ∀ i, K i → i < s.numCells → ∀ x, o ≠ x → (∃ K', own x = some K' ∧ K' i) → x ∈ log) :
    ∃ s' log', rehashCell quiet o h (s, log) k = some (s', log') ∧ Core hash s' (fun x => if x = o then some (fun i => K i ∨ i = k) else own x) ∧
      Mark s' log' ∧ Dim s s' ∧ s'.set = s.set ∧
      s'.stamp = s.stamp ∧ ∀ x, x ∈ log' ↔ x ∈ log ∨ (o ≠ x ∧ ∃ K, own x = some K ∧ K k) := by
  obtain ⟨bin, hb⟩ := c.bin hk
  simp only [rehashCell, hb]
  by_cases hc : bin.contains h = true
  · rw [if_pos hc]
    have hKk : K k := (c.cells o h K ho hK k bin hb).1 (by simpa using hc)
    refine ⟨s, log, rfl, c.congr (fun x => ?_) (fun x K1 K2 h1 h2 i hi => ?_), m, Dim.refl s, rfl, rfl, fun x => ?_⟩
    · split
      · next e => subst e; rw [hK]; simp
      · rfl
    · split at h2
      · next e =>
        subst e
        rw [hK] at h1
        simp only [Option.some.injEq] at h1 h2
        subst h1 h2
        refine ⟨Or.inl, fun q => q.elim id fun q => ?_⟩
        subst q
        exact hKk
      · rw [h1] at h2; cases h2; rfl
    · exact ⟨Or.inl, fun q => q.elim id fun ⟨p, q⟩ => hold k hKk hk x p q⟩
  · rw [if_neg hc]
    have hn : h ∉ bin := by simpa using hc
    have sr := retain_same s h
    have mr : Mark (s.retain h) log := ⟨fun x => by rw [sr.mark, sr.stamp]; exact m.le x, fun a b hab => by rw [sr.mark, sr.stamp]; exact m.on a b hab,
      fun x hx => by rw [sr.mark, sr.stamp]; exact m.off x (by rw [← sr.obj]; exact hx), m.nd⟩
    obtain ⟨bin', s', log', e, st, ob, mk, ad, sub, kp, mm⟩ := c.helper (s1 := s.retain h) (extra := fun x => if x = h then 1 else 0)
      ⟨⟨rfl, rfl, rfl, rfl, rfl⟩, sr.obj, fun _ => rfl, rfl, rfl⟩ (retain_mem c.mem (ref_live ho)) mr (some o) hb
    refine ⟨{ s' with table := s'.table.set k (h :: bin') }, log', by rw [e]; rfl, ?_, ⟨mk.le, mk.on, mk.off, mk.nd⟩, ⟨st.num, st.dim⟩, st.set, st.stamp,
      fun x => by rw [ad x, c.inBin hb]; simp⟩
    refine c.push ho hK hb hn sub kp st.num st.set ob (by rw [← st.table]) (mm.ofTable ?_ ?_ ?_ |>.congr ?_) <;> try rfl
    intro x
    have h1 := count_set s.table k bin (h :: bin') hb x
    have h2 := count_set s.table k bin bin' hb x
    have : ({ s' with table := s'.table.set k (h :: bin') } : SHash F).table = s.table.set k (h :: bin') := by rw [← st.table]
    rw [this]
    simp only [refOf]
    rw [List.count_cons] at h1
    by_cases e : x = h
    · subst e; simp at h1 ⊢; omega
    · rw [if_neg e]; simp [Ne.symm e] at h1; omega

theorem rehashCells_spec {hash : Obj → Nat} {o : Obj} {h : HId} (ks : List Nat) :
    ∀ {s : SHash F} {own : Obj → Option (Nat → Prop)}, Core hash s own → ∀ {log : List Obj}, Mark s log → ∀ {K : Nat → Prop}, (o, h) ∈ s.set.each → own o = some K →
    (∀ k ∈ ks, k < s.numCells) → (∀ i, K i → i < s.numCells → ∀ x, o ≠ x → (∃ K', own x = some K' ∧ K' i) → x ∈ log) →
    ∃ s' log', ks.foldlM (rehashCell quiet o h) (s, log) = some (s', log') ∧ Core hash s' (fun x => if x = o then some (fun i => K i ∨ i ∈ ks) else own x) ∧
      Mark s' log' ∧ Dim s s' ∧ s'.set = s.set ∧
      s'.stamp = s.stamp ∧ ∀ x, x ∈ log' ↔ x ∈ log ∨ (o ≠ x ∧ ∃ K, own x = some K ∧ ∃ k ∈ ks, K k) := by
  induction ks with
  | nil =>
    intro s own c log m K ho hK _ _
    refine ⟨s, log, rfl, ?_, m, Dim.refl s, rfl, rfl, fun x => by simp⟩
    convert c using 2 with x
    split
    · next e => subst e; rw [hK]; simp
    · rfl
  | cons k t ih =>
    intro s own c log m K ho hK hks hold
    obtain ⟨s1, l1, e1, c1, m1, d1, t1, p1, x1⟩ := rehashCell_spec c m ho hK (hks k (by simp)) hold
    obtain ⟨s2, l2, e2, c2, m2, d2, t2, p2, x2⟩ := ih c1 m1 (by rw [t1]; exact ho) (if_pos rfl) (fun i hi => by rw [d1.num]; exact hks i (by simp [hi]))
      (by
        intro i hi hlt x hx hK'
        rw [if_neg (Ne.symm hx)] at hK'
        rw [x1]
        rcases hi with hi | rfl
        · exact Or.inl (hold i hi (by rw [← d1.num]; exact hlt) x hx hK')
        · exact Or.inr ⟨hx, hK'⟩)
    refine ⟨s2, l2, by rw [List.foldlM_cons, e1]; exact e2, ?_, m2, d1.trans d2, t2.trans t1, p2.trans p1, fun x => ?_⟩
    · convert c2 using 2 with x
      by_cases e : x = o
      · simp only [if_pos e, List.mem_cons, or_assoc]
      · simp only [if_neg e]
    · rw [x2, x1, or_assoc]
      refine or_congr_right ?_
      rw [← and_or_left]
      refine and_congr_right fun hx => ?_
      rw [if_neg (Ne.symm hx), ← exists_or]
      simp only [← and_or_left, List.mem_cons, exists_eq_or_imp]

theorem rehash_spec {hash : Obj → Nat} {s : SHash F} {own : Obj → Option (Nat → Prop)} (c : SInv hash s own) (box : Obj → BB F) {o : Obj} {h : HId}
    (ho : (o, h) ∈ s.set.each) (hK : own o = some fun _ => False) (pairs : List (Obj × Obj)) :
    ∃ (s' : SHash F) (log : List Obj), rehash quiet box (s, pairs) (o, h) = some (s', pairs ++ log.map fun x => (o, x)) ∧
      SInv hash s' (fun x => if x = o then some (· ∈ s.cells (box o)) else own x) ∧ Dim s s' ∧ s'.set = s.set ∧ log.Nodup ∧
      ∀ x, x ∈ log ↔ o ≠ x ∧ ∃ K, own x = some K ∧ ∃ k ∈ s.cells (box o), K k := by
  obtain ⟨s', log, e, c', m', d, t, p, x⟩ := rehashCells_spec (o := o) (h := h) (s.cells (box o)) c.toCore c.mark ho hK (cells_lt s c.pos _)
    (fun i hi => hi.elim)
  refine ⟨{ s' with stamp := s'.stamp + 1 }, log, by simp only [rehash, e]; rfl, ?_, ⟨d.num, d.dim⟩, t, m'.nd, fun y => by rw [x y]; simp⟩
  convert c'.next m' using 2 with y
  simp

/-- The pairs reported for the shapes `P`, rehashed so far. -/
structure Pairs (cells : Obj → List Nat) (P : List Obj) (log : List (Obj × Obj)) : Prop where
  nd : log.Nodup
  sound : ∀ x y, (x, y) ∈ log → x ∈ P ∧ y ∈ P ∧ x ≠ y ∧ ∃ k ∈ cells x, k ∈ cells y
  complete : ∀ x ∈ P, ∀ y ∈ P, x ≠ y → (∃ k ∈ cells x, k ∈ cells y) → (x, y) ∈ log ∨ (y, x) ∈ log
  once : ∀ x y, (x, y) ∈ log → (y, x) ∉ log

open Classical in
theorem rehashes_spec {hash : Obj → Nat} (box : Obj → BB F) (s0 : SHash F) (L : List (Obj × HId)) :
    ∀ (P : List Obj) {s : SHash F} {pairs : List (Obj × Obj)}, Dim s0 s → (∀ e ∈ L, e ∈ s.set.each) → (P ++ L.map Prod.fst).Nodup →
    SInv hash s (fun x => if (∃ h, (x, h) ∈ s.set.each) then some (fun k => x ∈ P ∧ k ∈ s0.cells (box x)) else none) →
    (∀ x ∈ P, ∃ h, (x, h) ∈ s.set.each) →
    Pairs (fun x => s0.cells (box x)) P pairs →
    ∃ s' pairs', L.foldlM (rehash quiet box) (s, pairs) = some (s', pairs') ∧ Dim s0 s' ∧ s'.set = s.set ∧
      SInv hash s' (fun x => if (∃ h, (x, h) ∈ s.set.each) then some (fun k => (x ∈ P ∨ x ∈ L.map Prod.fst) ∧ k ∈ s0.cells (box x)) else none) ∧
      Pairs (fun x => s0.cells (box x)) (P ++ L.map Prod.fst) pairs' := by
  induction L with
  | nil =>
    intro P s pairs d _ _ c _ hp
    refine ⟨s, pairs, rfl, d, rfl, ?_, by simpa using hp⟩
    convert c using 2
    simp
  | cons e t ih =>
    intro P s pairs d hL hnd c hP hp
    obtain ⟨o, h⟩ := e
    have ho : (o, h) ∈ s.set.each := hL _ (by simp)
    have hoP : o ∉ P := by
      rw [List.nodup_append] at hnd
      intro hq
      exact hnd.2.2 o hq o (by simp) rfl
    have hown : (fun x => if (∃ h, (x, h) ∈ s.set.each) then some (fun k => x ∈ P ∧ k ∈ s0.cells (box x)) else none) o = some fun _ => False := by
      simp only
      rw [if_pos ⟨h, ho⟩]
      simp [hoP]
    obtain ⟨s1, log, e1, c1, d1, t1, n1, x1⟩ := rehash_spec c box ho hown pairs
    rw [d.cells] at x1 c1
    have hlog : ∀ x, x ∈ log ↔ x ∈ P ∧ ∃ k ∈ s0.cells (box o), k ∈ s0.cells (box x) := by
      intro x
      rw [x1]
      constructor
      · rintro ⟨_, K, hK, k, hk, hKk⟩
        split at hK
        · cases hK; exact ⟨hKk.1, k, hk, hKk.2⟩
        · cases hK
      · rintro ⟨hx, k, hk, hk'⟩
        exact ⟨by rintro rfl; exact hoP hx, _, if_pos (hP x hx), k, hk, hx, hk'⟩
    have hp1 : Pairs (fun x => s0.cells (box x)) (P ++ [o]) (pairs ++ log.map fun x => (o, x)) := by
      have hno : ∀ x y, (x, y) ∈ pairs → x ≠ o ∧ y ≠ o := fun x y hxy =>
        ⟨by rintro rfl; exact hoP (hp.sound _ _ hxy).1, by rintro rfl; exact hoP (hp.sound _ _ hxy).2.1⟩
      refine ⟨?_, fun x y hxy => ?_, fun x hx y hy hne hs => ?_, fun x y hxy hyx => ?_⟩
      · rw [List.nodup_append]
        refine ⟨hp.nd, n1.map (fun a b h => (Prod.mk.inj h).2), fun a ha b hb => ?_⟩
        rintro rfl
        obtain ⟨y, -, rfl⟩ := List.mem_map.1 hb
        exact (hno _ _ ha).1 rfl
      · rcases List.mem_append.1 hxy with hxy | hxy
        · obtain ⟨a, b, c, d⟩ := hp.sound x y hxy
          exact ⟨by simp [a], by simp [b], c, d⟩
        · obtain ⟨z, hz, e⟩ := List.mem_map.1 hxy
          obtain ⟨rfl, rfl⟩ := Prod.mk.inj e
          obtain ⟨a, b⟩ := (hlog z).1 hz
          exact ⟨by simp, by simp [a], by rintro rfl; exact hoP a, b⟩
      · rcases List.mem_append.1 hx with hx' | hx <;> rcases List.mem_append.1 hy with hy' | hy
        · exact (hp.complete x hx' y hy' hne hs).imp (fun q => by simp [q]) (fun q => by simp [q])
        · rw [List.mem_singleton] at hy
          subst hy
          obtain ⟨k, h1, h2⟩ := hs
          exact Or.inr (List.mem_append_right _ (List.mem_map.2 ⟨x, (hlog x).2 ⟨hx', k, h2, h1⟩, rfl⟩))
        · rw [List.mem_singleton] at hx
          subst hx
          exact Or.inl (List.mem_append_right _ (List.mem_map.2 ⟨y, (hlog y).2 ⟨hy', hs⟩, rfl⟩))
        · rw [List.mem_singleton] at hx hy
          exact absurd (hx.trans hy.symm) hne
      · rcases List.mem_append.1 hxy with hxy | hxy <;> rcases List.mem_append.1 hyx with hyx | hyx
        · exact hp.once x y hxy hyx
        · obtain ⟨z, -, e⟩ := List.mem_map.1 hyx
          exact (hno _ _ hxy).2 (Prod.mk.inj e).1.symm
        · obtain ⟨z, -, e⟩ := List.mem_map.1 hxy
          exact (hno _ _ hyx).2 (Prod.mk.inj e).1.symm
        · obtain ⟨z, hz, e⟩ := List.mem_map.1 hxy
          obtain ⟨z', hz', e'⟩ := List.mem_map.1 hyx
          obtain ⟨rfl, rfl⟩ := Prod.mk.inj e
          obtain ⟨rfl, rfl⟩ := Prod.mk.inj e'
          exact hoP ((hlog _).1 hz).1
    obtain ⟨s2, pairs2, e2, d2, t2, c2, p2⟩ := ih (P ++ [o]) (d.trans d1) (fun e he => by rw [t1]; exact hL e (by simp [he])) (by simpa using hnd)
      (by
        rw [t1]
        convert c1 using 2 with x
        by_cases e : x = o
        · subst e
          rw [if_pos rfl, if_pos ⟨h, ho⟩]
          simp
        · rw [if_neg e]
          simp [e])
      (by
        rw [t1]
        intro x hx
        rcases List.mem_append.1 hx with hx | hx
        · exact hP x hx
        · rw [List.mem_singleton] at hx; subst hx; exact ⟨h, ho⟩) hp1
    rw [t1] at t2 c2
    refine ⟨s2, pairs2, by rw [List.foldlM_cons, e1]; exact e2, d2, t2, ?_, by simpa using p2⟩
    convert c2 using 2 with x
    simp [or_assoc]

theorem collideStatic_spec {hash : Obj → Nat} {own : Obj → Option (Nat → Prop)} (box : Obj → BB F) (s0 : SHash F) (objs : List Obj) :
    ∀ {s : SHash F} (pairs : List (Obj × Obj)), Dim s0 s → SInv hash s own → objs.Nodup →
    ∃ s' log, objs.foldlM (fun (st : SHash F × List (Obj × Obj)) o =>
      (st.1.query (some o) (box o)).map fun r => (r.1, st.2 ++ r.2.map fun x => (o, x))) (s, pairs) = some (s', pairs ++ log) ∧
      Dim s0 s' ∧ SInv hash s' own ∧ s'.set = s.set ∧ log.Nodup ∧
      ∀ x y, (x, y) ∈ log ↔ x ∈ objs ∧ x ≠ y ∧ ∃ K, own y = some K ∧ ∃ k ∈ s0.cells (box x), K k := by
  induction objs with
  | nil => exact fun {s} pairs d c _ => ⟨s, [], by simp, d, c, rfl, List.nodup_nil, by simp⟩
  | cons o t ih =>
    intro s pairs d c nd
    obtain ⟨s1, l1, e1, c1, d1, t1, n1, x1⟩ := query_spec c (some o) (box o)
    rw [d.cells] at x1
    obtain ⟨s2, l2, e2, d2, c2, t2, n2, x2⟩ := ih (pairs ++ l1.map fun x => (o, x)) (d.trans d1) c1 (List.nodup_cons.1 nd).2
    refine ⟨s2, l1.map (fun x => (o, x)) ++ l2, ?_, d2, c2, t2.trans t1, ?_, fun x y => ?_⟩
    · rw [List.foldlM_cons]
      simp only [e1, Option.map_some, Option.bind_eq_bind, Option.bind_some]
      rw [e2, List.append_assoc]
    · rw [List.nodup_append]
      refine ⟨n1.map (fun a b h => (Prod.mk.inj h).2), n2, fun a ha b hb => ?_⟩
      rintro rfl
      obtain ⟨z, -, rfl⟩ := List.mem_map.1 ha
      exact (List.nodup_cons.1 nd).1 ((x2 _ _).1 hb).1
    · rw [List.mem_append, x2, List.mem_map, List.mem_cons]
      constructor
      · rintro (⟨z, hz, e⟩ | ⟨a, b⟩)
        · obtain ⟨rfl, rfl⟩ := Prod.mk.inj e
          obtain ⟨a, b⟩ := (x1 z).1 hz
          exact ⟨Or.inl rfl, fun q => a (by rw [q]), b⟩
        · exact ⟨Or.inr a, b⟩
      · rintro ⟨rfl | a, b, c⟩
        · exact Or.inl ⟨y, (x1 y).2 ⟨fun q => b (Option.some.inj q), c⟩, rfl⟩
        · exact Or.inr ⟨a, b, c⟩

theorem reindexQuery_spec {hash : Obj → Nat} {dyn stat : SHash F} {ownD ownS : Obj → Option (Nat → Prop)} (box : Obj → BB F)
    (cd : SInv hash dyn ownD) (cs : SInv hash stat ownS) :
    ∃ dyn' stat' log logS, reindexQuery box dyn stat = some (dyn', stat', log ++ logS) ∧ Dim dyn dyn' ∧ Dim stat stat' ∧
      SInv hash dyn' (fun x => (ownD x).map fun _ => (· ∈ dyn.cells (box x))) ∧ SInv hash stat' ownS ∧
      dyn'.set = dyn.set ∧ stat'.set = stat.set ∧
      Pairs (fun x => dyn.cells (box x)) (dyn.set.each.map Prod.fst) log ∧ logS.Nodup ∧
      ∀ x y, (x, y) ∈ logS ↔ ownD x ≠ none ∧ x ≠ y ∧ ∃ K, ownS y = some K ∧ ∃ k ∈ stat.cells (box x), K k := by
  classical
  obtain ⟨c0, d0, t0, -⟩ := clearTable_spec cd
  obtain ⟨s1, p1, e1, d1, t1, c1, x1⟩ := rehashes_spec (hash := hash) box dyn dyn.set.each [] (s := dyn.clearTable) (pairs := []) d0
    (by rw [t0]; exact fun e he => he) (by simpa using each_nodup cd.set)
    (by
      rw [t0]
      convert c0 using 2 with x
      by_cases h : ∃ h, (x, h) ∈ dyn.set.each
      · obtain ⟨K, hK⟩ := Option.ne_none_iff_exists'.1 ((cd.idx x).2 h)
        rw [if_pos h, hK]
        simp
      · rw [if_neg h]
        have : ownD x = none := by by_contra q; exact h ((cd.idx x).1 q)
        rw [this]; rfl)
    (by simp) ⟨List.nodup_nil, by simp, by simp, by simp⟩
  rw [t0] at t1 c1
  rw [List.nil_append] at x1
  have c1' : SInv hash s1 (fun x => (ownD x).map fun _ => (· ∈ dyn.cells (box x))) := by
    convert c1 using 2 with x
    by_cases h : ∃ h, (x, h) ∈ dyn.set.each
    · obtain ⟨K, hK⟩ := Option.ne_none_iff_exists'.1 ((cd.idx x).2 h)
      rw [if_pos h, hK]
      have : x ∈ dyn.set.each.map Prod.fst := by obtain ⟨g, hg⟩ := h; exact List.mem_map.2 ⟨_, hg, rfl⟩
      simp only [Option.map_some, this, or_true, true_and]
    · rw [if_neg h]
      have : ownD x = none := by by_contra q; exact h ((cd.idx x).1 q)
      rw [this]; rfl
  have hmem : ∀ x, x ∈ s1.each ↔ ownD x ≠ none := by
    intro x
    rw [cd.idx x, each, t1, List.mem_map]
    exact ⟨fun ⟨a, b, c⟩ => ⟨a.2, by rw [← c]; exact b⟩, fun ⟨h, hh⟩ => ⟨_, hh, rfl⟩⟩
  unfold reindexQuery reindexQueryWith
  rw [e1]
  simp only
  unfold collideStatic
  by_cases hcount : 0 < stat.set.count
  · rw [if_pos hcount]
    obtain ⟨s2, l2, e2, d2, c2, t2, n2, x2⟩ := collideStatic_spec box stat s1.each (s := stat) [] (Dim.refl stat) cs (by
      rw [each, t1]; exact each_nodup cd.set)
    rw [List.nil_append] at e2
    refine ⟨s1, s2, p1, l2, by rw [e2]; rfl, d1, d2, c1', c2, t1, t2, x1, n2, fun x y => ?_⟩
    rw [x2, hmem]
  · rw [if_neg hcount]
    have hempty : ∀ y, ownS y = none := by
      intro y
      by_contra q
      obtain ⟨h, hh⟩ := (cs.idx y).1 q
      have h0 : stat.set.entries = 0 := by unfold HashSet.count at hcount; omega
      rw [cs.set.cnt, List.length_eq_zero_iff] at h0
      rw [HashSet.each, h0] at hh
      cases hh
    refine ⟨s1, stat, p1, [], rfl, d1, Dim.refl _, c1', cs, t1, rfl, x1, List.nodup_nil, fun x y => ?_⟩
    simp [hempty y]

end SHash
end CP
