import Verif.Proofs.NodeSim2
import Verif.Props.Index
import Verif.Spec.Nodes

/-! # C56: the trees as linked nodes -/

namespace CP
open GoFloat
variable {F : Type} [GoFloat F]

/-! ### Histories -/

theorem nhist_sim {h : Obj → Nat} {s : Spec F} {nw : NWorld F} (hh : NHist h s nw) : ∃ w T fs, Hist h s w ∧ SimT nw w T fs := by
  induction hh with
  | init box vel nw e =>
    have := sim_init (F := F) box vel
    rw [e] at this
    cases e2 : World.init box vel with
    | none => rw [e2] at this; exact this.elim
    | some w =>
      rw [e2] at this
      obtain ⟨T, fs, hs, _⟩ := this
      exact ⟨w, T, fs, .init _ _ _ e2, hs⟩
  | step s nw nw' op _ hok e ih =>
    obtain ⟨w, T, fs, hw, hs⟩ := ih
    have := hs.step (hist_ref h s w hw) op hok
    rw [e] at this
    cases e2 : w.step h op with
    | none => rw [e2] at this; exact this.elim
    | some w' =>
      rw [e2] at this
      obtain ⟨T', fs', hs', _⟩ := this
      exact ⟨w', T', fs', .step _ _ _ _ hw hok e2, hs'⟩

theorem hist_sim {h : Obj → Nat} {s : Spec F} {w : World F} (hh : Hist h s w) : ∃ nw T fs, NHist h s nw ∧ SimT nw w T fs := by
  induction hh with
  | init box vel w e =>
    have := sim_init (F := F) box vel
    rw [e] at this
    cases e2 : NWorld.init box vel with
    | none => rw [e2] at this; exact this.elim
    | some nw =>
      rw [e2] at this
      obtain ⟨T, fs, hs, _⟩ := this
      exact ⟨nw, T, fs, .init _ _ _ e2, hs⟩
  | step s w w' op hw hok e ih =>
    obtain ⟨nw, T, fs, hn, hs⟩ := ih
    have := hs.step (hist_ref h s w hw) op hok
    rw [e] at this
    cases e2 : nw.step h op with
    | none => rw [e2] at this; exact this.elim
    | some nw' =>
      rw [e2] at this
      obtain ⟨T', fs', hs', _⟩ := this
      exact ⟨nw', T', fs', .step _ _ _ _ hn hok e2, hs'⟩

theorem nhist_max {h : Obj → Nat} {M : Bool → Nat} {s : Spec F} {nw : NWorld F} (hh : NHistMax h M s nw) :
    ∃ w T fs, Hist h s w ∧ SimT nw w T fs ∧ ∀ st, tot T fs st ≤ 2 * M st + 1023 := by
  induction hh with
  | init box vel nw e =>
    have := sim_init (F := F) box vel
    rw [e] at this
    cases e2 : World.init box vel with
    | none => rw [e2] at this; exact this.elim
    | some w =>
      rw [e2] at this
      obtain ⟨T, fs, hs, ht⟩ := this
      refine ⟨w, T, fs, .init _ _ _ e2, hs, fun st => (ht st).trans ?_⟩
      have : lvsO (T st) = [] := by
        have h1 := hs.leavesOf st
        simp only [World.init] at e2
        cases e3 : (HashSet.new : Option (HashSet Obj)) with
        | none => rw [e3] at e2; cases e2
        | some x =>
          rw [e3] at e2
          cases e2
          rw [← List.map_eq_nil_iff, ← h1]
          cases st <;> rfl
      rw [this]
      simp only [tot, idsO, List.length_nil]
      refine max_le ?_ ?_ <;> omega
  | step s nw nw' op _ hok e hM ih =>
    obtain ⟨w, T, fs, hw, hs, ht⟩ := ih
    have := hs.step (hist_ref h s w hw) op hok
    rw [e] at this
    cases e2 : w.step h op with
    | none => rw [e2] at this; exact this.elim
    | some w' =>
      rw [e2] at this
      obtain ⟨T', fs', hs', ht'⟩ := this
      have hw' : Hist h (s.step op) w' := .step _ _ _ _ hw hok e2
      refine ⟨w', T', fs', hw', hs', fun st => (ht' st).trans (max_le (ht st) ?_)⟩
      have h1 := hM st
      rw [hs'.count st, count_eq (hist_ref h _ w' hw') st, hs'.leavesOf st, List.length_map] at h1
      omega

/-! ### C56: what the calls do -/

/-- **C56**: after any legal history, the trees made of linked nodes that come from and go to the pools answer every call as the trees
of the model of C06-C09 do. -/
theorem C56_refines (h : Obj → Nat) (s : Spec F) (nw : NWorld F) (hh : NHist h s nw) :
    ∃ w, Hist h s w ∧ (∀ st, nw.count st = w.count st) ∧ (∀ st, nw.each st = w.each st) ∧ (∀ st o, nw.contains h st o = w.contains h st o) ∧
      (∀ st q, nw.query st q = some (queryRoot (w.tree st) q)) ∧
      (∀ (S : Type) st p q (f : Obj → S → S × F) t x, nw.segQuery st p q f t x = some (segQueryRoot p q f (w.tree st) t x)) ∧
      ∀ f, (nw.reindexQuery f).map Prod.snd = (w.reindexQuery f).map Prod.snd := by
  obtain ⟨w, T, fs, hw, hs⟩ := nhist_sim hh
  refine ⟨w, hw, hs.count, hs.each, hs.contains h, hs.query, fun S => hs.segQuery, fun f => ?_⟩
  obtain ⟨nw', w', log, T', fs', e1, e2, _⟩ := hs.reindexQuery f
  rw [e1, e2]
  rfl

/-- **C56**: a legal call follows no nil pointer and ends. It panics only where the hash set cannot grow any more. -/
theorem C56_no_panic (h : Obj → Nat) (s : Spec F) (nw : NWorld F) (hh : NHist h s nw) (op : WOp F) (hok : s.ok op) :
    nw.step h op = none ↔ ∃ st o, op = .insert st o ∧ nw.count st = 1610612740 := by
  obtain ⟨w, T, fs, hw, hs⟩ := nhist_sim hh
  have h1 := hs.step (hist_ref h s w hw) op hok
  have h2 := C07_no_panic h s w hw op hok
  simp only [hs.count]
  rw [← h2]
  cases e1 : nw.step h op <;> cases e2 : w.step h op <;> rw [e1, e2] at h1
  · simp
  · exact h1.elim
  · exact h1.elim
  · simp

/-- **C56**: `Query` calls back for exactly the shapes whose indexed box meets the query box, once each. -/
theorem C56_query (h : Obj → Nat) (s : Spec F) (nw : NWorld F) (hh : NHist h s nw) (st : Bool) (q : BB F) :
    ∃ l, nw.query st q = some l ∧ ∀ o, l.count o =
      match s.idx st o with
      | some B => if B.intersects q then 1 else 0
      | none => 0 := by
  obtain ⟨w, T, fs, hw, hs⟩ := nhist_sim hh
  exact ⟨_, hs.query st q, fun o => C06_query h s w hw st q o⟩

/-- **C56**: `Contains`, `Each` and `Count`. -/
theorem C56_each (h : Obj → Nat) (s : Spec F) (nw : NWorld F) (hh : NHist h s nw) (st : Bool) :
    (∀ o, nw.contains h st o = some (s.idx st o).isSome) ∧ (nw.each st).Nodup ∧ (∀ o, o ∈ nw.each st ↔ s.idx st o ≠ none) ∧
      nw.count st = (nw.each st).length := by
  obtain ⟨w, T, fs, hw, hs⟩ := nhist_sim hh
  obtain ⟨h1, h2, h3⟩ := C07_each h s w hw st
  rw [hs.each, hs.count]
  exact ⟨fun o => by rw [hs.contains]; exact C07_contains h s w hw st o, h1, h2, h3⟩

/-- **C56**: `ReindexQuery` reports each pair with intersecting indexed boxes once, and no other pair. -/
theorem C56_reindexQuery (h : Obj → Nat) (s : Spec F) (nw : NWorld F) (hh : NHist h s nw) (f : PairFn) :
    ∃ nw' log, nw.reindexQuery f = some (nw', log) ∧ NHist h (s.step (.reindexQuery f)) nw' ∧ Reports (s.step (.reindexQuery f)) log := by
  obtain ⟨w, T, fs, hw, hs⟩ := nhist_sim hh
  obtain ⟨nw', w', log, T', fs', e1, e2, _⟩ := hs.reindexQuery f
  obtain ⟨w2, log2, e3, _, hr⟩ := C08_reindexQuery h s w hw f
  rw [e2] at e3
  cases e3
  exact ⟨nw', log, e1, .step _ _ _ _ hh trivial (by simp only [NWorld.step, e1, Option.map_some]), hr⟩

/-- **C56**: `SegmentQueryFirst` finds the nearest hit of both indexes. -/
theorem C56_first (h : Obj → Nat) (s : Spec F) (nw : NWorld F) (hh : NHist h s nw) (p q : Vec F) (hit : Obj → Option (SegInfo F))
    (hr : ∀ st o B i, s.idx st o = some B → hit o = some i → ∀ B' : BB F, B'.contains B = true → B'.segmentQuery p q ≤ i.alpha) :
    ∃ r, nw.segmentQueryFirst p q hit = some r ∧ (∀ st o i, s.idx st o ≠ none → hit o = some i → r.alpha ≤ i.alpha) ∧
      ((r = ⟨none, q, ⟨0, 0⟩, 1⟩) ∨ ∃ st o, s.idx st o ≠ none ∧ hit o = some r ∧ r.alpha < 1) := by
  obtain ⟨w, T, fs, hw, hs⟩ := nhist_sim hh
  refine ⟨w.segmentQueryFirst p q hit, ?_, C09_first h s w hw p q hit hr⟩
  simp only [NWorld.segmentQueryFirst, hs.segQuery, World.segmentQueryFirst]
  rfl

/-! ### C56: the memory -/

theorem below_child {m : NMem F} {t : PT F} : ∀ {p : Option NId}, Rooted m.nd p t → ∀ n ∈ t.ids, (m.nd n).obj = none →
    ∃ a ∈ t.ids, ∃ b ∈ t.ids, (m.nd n).a = some a ∧ (m.nd n).b = some b ∧ (m.nd a).parent = some n ∧ (m.nd b).parent = some n := by
  induction t with
  | leaf k l =>
    intro p h n hn e
    simp only [PT.ids, List.mem_singleton] at hn
    subst hn
    rw [h.1.1] at e
    cases e
  | node k bb a b iha ihb =>
    intro p h n hn e
    obtain ⟨h1, h2, h3, h4, h5, h6, h7⟩ := h
    simp only [PT.ids, List.mem_cons, List.mem_append] at hn
    rcases hn with rfl | hn | hn
    · exact ⟨a.id, by simp [PT.ids, a.id_mem], b.id, by simp [PT.ids, b.id_mem], h4, h5, h6.root.2.1, h7.root.2.1⟩
    · obtain ⟨x, hx, y, hy, k⟩ := iha h6 n hn e
      exact ⟨x, by simp [PT.ids, hx], y, by simp [PT.ids, hy], k⟩
    · obtain ⟨x, hx, y, hy, k⟩ := ihb h7 n hn e
      exact ⟨x, by simp [PT.ids, hx], y, by simp [PT.ids, hy], k⟩

theorem below_iff {m : NMem F} {t : PT F} {p : Option NId} (h : Rooted m.nd p t) (n : NId) : Below m t.id n ↔ n ∈ t.ids := by
  constructor
  · intro hb
    induction hb with
    | root => exact t.id_mem
    | left n k _ e1 e2 ih =>
      obtain ⟨a, ha, b, hb, k1, k2, _⟩ := below_child h n ih e1
      rw [k1] at e2
      cases e2
      exact ha
    | right n k _ e1 e2 ih =>
      obtain ⟨a, ha, b, hb, k1, k2, _⟩ := below_child h n ih e1
      rw [k2] at e2
      cases e2
      exact hb
  · have key : ∀ (u : PT F) (p : Option NId), Rooted m.nd p u → Below m t.id u.id → ∀ n ∈ u.ids, Below m t.id n := by
      intro u
      induction u with
      | leaf k l =>
        intro p _ hb n hn
        simp only [PT.ids, List.mem_singleton] at hn
        subst hn
        exact hb
      | node k bb a b iha ihb =>
        intro p h hb n hn
        obtain ⟨h1, h2, h3, h4, h5, h6, h7⟩ := h
        simp only [PT.ids, List.mem_cons, List.mem_append] at hn
        rcases hn with rfl | hn | hn
        · exact hb
        · exact iha _ h6 (.left _ _ hb h1 h4) n hn
        · exact ihb _ h7 (.right _ _ hb h1 h5) n hn
    exact key t p h .root n

theorem chained_iff {m : NMem F} {fs : List NId} {o : Option NId} (h : Pooled m.nd o fs) (n : NId) : Chained m o n ↔ n ∈ fs := by
  have step : ∀ (fs : List NId) (o : Option NId), Pooled m.nd o fs → ∀ n ∈ fs, ∀ k, (m.nd n).parent = some k → k ∈ fs := by
    intro fs
    induction fs with
    | nil => exact fun _ _ n hn => by cases hn
    | cons x t ih =>
      intro o h n hn k e
      rcases List.mem_cons.1 hn with rfl | hn
      · have := h.2
        rw [e] at this
        cases t with
        | nil => cases this
        | cons y t => have := this.1; cases this; simp
      · exact List.mem_cons_of_mem _ (ih _ h.2 n hn k e)
  constructor
  · intro hc
    induction hc with
    | head n e =>
      cases fs with
      | nil => have h' : o = none := h; rw [h'] at e; cases e
      | cons x t => have := h.1; rw [this] at e; cases e; simp
    | next n k _ e ih => exact step fs o h n ih k e
  · have key : ∀ (gs : List NId) (o' : Option NId), Pooled m.nd o' gs → (∀ x, o' = some x → Chained m o x) → ∀ n ∈ gs, Chained m o n := by
      intro gs
      induction gs with
      | nil => exact fun _ _ _ n hn => by cases hn
      | cons x t ih =>
        intro o' h' hx n hn
        rcases List.mem_cons.1 hn with rfl | hn
        · exact hx _ h'.1
        · exact ih _ h'.2 (fun y hy => .next x y (hx x h'.1) hy) n hn
    exact key fs o h (fun x hx => .head x hx) n

section
variable {nw : NWorld F} {w : World F} {T : Bool → Option (PT F)} {fs : Bool → List NId}

def placeIds (T : Bool → Option (PT F)) (fs : Bool → List NId) : Place → List NId
  | .tree st => idsO (T st)
  | .pool st => fs st

theorem SimT.atPlace (h : SimT nw w T fs) (p : Place) (n : NId) : AtPlace nw p n ↔ n ∈ placeIds T fs p := by
  cases p with
  | pool st => exact chained_iff (h.mem.pooled st) n
  | tree st =>
    simp only [AtPlace, placeIds, h.root st]
    have hr := h.mem.rooted st
    cases ht : T st with
    | none => simp [idsO]
    | some t =>
      rw [ht] at hr
      simp only [Option.map_some, Option.some.injEq, idsO]
      rw [← below_iff (p := none) hr n]
      constructor
      · rintro ⟨r, rfl, hb⟩
        exact hb
      · exact fun hb => ⟨_, rfl, hb⟩

end

/-- **C56**: no node is lost and none is used twice: every node ever allocated is in one of the two trees or in one of the two pools,
and in one of these four places only. -/
theorem C56_places (h : Obj → Nat) (s : Spec F) (nw : NWorld F) (hh : NHist h s nw) :
    (∀ n, n < nw.mem.next ↔ ∃ p, AtPlace nw p n) ∧ ∀ n p q, AtPlace nw p n → AtPlace nw q n → p = q := by
  obtain ⟨w, T, fs, hw, hs⟩ := nhist_sim hh
  have ha := hs.mem.acc true
  simp only [Bool.not_true] at ha
  simp only [hs.atPlace]
  constructor
  · intro n
    constructor
    · intro hn
      have h1 := ha n
      rw [if_pos hn] at h1
      have h2 : n ∈ idsO (T true) ++ (fs true ++ (idsO (T false) ++ fs false)) := List.count_pos_iff.1 (by omega)
      simp only [List.mem_append] at h2
      rcases h2 with h2 | h2 | h2 | h2
      · exact ⟨.tree true, h2⟩
      · exact ⟨.pool true, h2⟩
      · exact ⟨.tree false, h2⟩
      · exact ⟨.pool false, h2⟩
    · rintro ⟨p, hp⟩
      refine ha.lt ?_
      simp only [List.mem_append]
      rcases p with (_ | _) | (_ | _) <;> simp only [placeIds] at hp <;> simp [hp]
  · have nd := ha.nodup
    simp only [List.nodup_append, List.mem_append] at nd
    obtain ⟨_, ⟨_, ⟨_, _, d3⟩, d2⟩, d1⟩ := nd
    intro n p q hp hq
    rcases p with (_ | _) | (_ | _) <;> rcases q with (_ | _) | (_ | _) <;> simp only [placeIds] at hp hq <;> try rfl
    · exact absurd rfl (d1 n hq n (.inr (.inl hp)))
    · exact absurd rfl (d3 n hp n hq)
    · exact absurd rfl (d2 n hq n (.inl hp))
    · exact absurd rfl (d1 n hp n (.inr (.inl hq)))
    · exact absurd rfl (d1 n hp n (.inr (.inr hq)))
    · exact absurd rfl (d1 n hp n (.inl hq))
    · exact absurd rfl (d3 n hq n hp)
    · exact absurd rfl (d1 n hq n (.inr (.inr hp)))
    · exact absurd rfl (d2 n hq n (.inr hp))
    · exact absurd rfl (d2 n hp n (.inl hq))
    · exact absurd rfl (d1 n hq n (.inl hp))
    · exact absurd rfl (d2 n hp n (.inr hq))

theorem rooted_parent {m : NMem F} {t : PT F} : ∀ {p : Option NId}, Rooted m.nd p t → ∀ n ∈ t.ids, n ≠ t.id →
    ∃ k ∈ t.ids, (m.nd n).parent = some k ∧ (m.nd k).obj = none ∧ ((m.nd k).a = some n ∨ (m.nd k).b = some n) := by
  induction t with
  | leaf k l =>
    intro p _ n hn e
    simp only [PT.ids, List.mem_singleton] at hn
    exact absurd hn e
  | node k bb a b iha ihb =>
    intro p h n hn e
    obtain ⟨h1, h2, h3, h4, h5, h6, h7⟩ := h
    simp only [PT.ids, List.mem_cons, List.mem_append] at hn
    rcases hn with rfl | hn | hn
    · exact absurd rfl e
    · by_cases ea : n = a.id
      · subst ea
        exact ⟨k, by simp [PT.ids], h6.root.2.1, h1, .inl h4⟩
      · obtain ⟨x, hx, q⟩ := iha h6 n hn ea
        exact ⟨x, by simp [PT.ids, hx], q⟩
    · by_cases eb : n = b.id
      · subst eb
        exact ⟨k, by simp [PT.ids], h7.root.2.1, h1, .inr h5⟩
      · obtain ⟨x, hx, q⟩ := ihb h7 n hn eb
        exact ⟨x, by simp [PT.ids, hx], q⟩

theorem rooted_boxes {m : NMem F} {t : PT F} : ∀ {p : Option NId}, Rooted m.nd p t → t.erase.WF → t.ids.Nodup → ∀ n ∈ t.ids, (m.nd n).obj = none →
    ∃ a b, (m.nd n).a = some a ∧ (m.nd n).b = some b ∧ a ≠ b ∧ (m.nd n).bb = (m.nd a).bb.merge (m.nd b).bb := by
  induction t with
  | leaf k l =>
    intro p h _ _ n hn e
    simp only [PT.ids, List.mem_singleton] at hn
    subst hn
    rw [h.1.1] at e
    cases e
  | node k bb a b iha ihb =>
    intro p h wf nd n hn e
    obtain ⟨h1, h2, h3, h4, h5, h6, h7⟩ := h
    obtain ⟨w1, w2, w3⟩ := wf
    simp only [PT.ids, List.mem_cons, List.mem_append] at hn
    simp only [PT.ids, List.nodup_cons, List.nodup_append] at nd
    rcases hn with rfl | hn | hn
    · refine ⟨a.id, b.id, h4, h5, nd.2.2.2 _ a.id_mem _ b.id_mem, ?_⟩
      rw [h2, h6.root.1, h7.root.1, ← a.bb_erase, ← b.bb_erase]
      exact w1
    · exact iha h6 w2 nd.2.1 n hn e
    · exact ihb h7 w3 nd.2.2.1 n hn e

/-- **C56**: the pointers of the trees agree: the root has no parent, every other node is a child of its parent, an inner node has two
different children, whose parent it is, and its box is the smallest that holds theirs. -/
theorem C56_links (h : Obj → Nat) (s : Spec F) (nw : NWorld F) (hh : NHist h s nw) (st : Bool) (n : NId) (hn : AtPlace nw (.tree st) n) :
    (nw.root st = some n ∧ (nw.mem.nd n).parent = none ∨
      ∃ k, AtPlace nw (.tree st) k ∧ (nw.mem.nd n).parent = some k ∧ (nw.mem.nd k).obj = none ∧ ((nw.mem.nd k).a = some n ∨ (nw.mem.nd k).b = some n)) ∧
    ((nw.mem.nd n).obj = none → ∃ a b, (nw.mem.nd n).a = some a ∧ (nw.mem.nd n).b = some b ∧ a ≠ b ∧ (nw.mem.nd a).parent = some n ∧
      (nw.mem.nd b).parent = some n ∧ (nw.mem.nd n).bb = (nw.mem.nd a).bb.merge (nw.mem.nd b).bb) := by
  obtain ⟨w, T, fs, hw, hs⟩ := nhist_sim hh
  have rf := hist_ref h s w hw
  have hwf : WFo (w.tree st) := by cases st; exact rf.inv.mid.wd; exact rf.inv.mid.ws
  have hr := hs.mem.rooted st
  have ha := (hs.mem.acc st).nodup.of_append_left
  have hroot := hs.root st
  have htree := hs.tree st
  simp only [hs.atPlace, placeIds] at hn ⊢
  cases ht : T st with
  | none => rw [ht] at hn; cases hn
  | some t =>
    rw [ht] at hn hr ha hroot htree
    refine ⟨?_, fun e => ?_⟩
    · by_cases e : n = t.id
      · exact .inl ⟨by rw [hroot, e]; rfl, by rw [e]; exact Rooted.root (p := none) hr |>.2.1⟩
      · obtain ⟨k, hk, q⟩ := rooted_parent (p := none) hr n hn e
        exact .inr ⟨k, hk, q⟩
    · obtain ⟨a, _, b, _, k1, k2, k3, k4⟩ := below_child (p := none) hr n hn e
      obtain ⟨a', b', j1, j2, j3, j4⟩ := rooted_boxes (p := none) hr (hwf _ htree) ha n hn e
      rw [k1] at j1
      rw [k2] at j2
      cases j1
      cases j2
      exact ⟨a, b, k1, k2, j3, k3, k4, j4⟩

theorem rooted_obj {m : NMem F} {t : PT F} : ∀ {p : Option NId}, Rooted m.nd p t → ∀ n ∈ t.ids, ∀ o, (m.nd n).obj = some o →
    ∃ L, (n, L) ∈ t.lvs ∧ L.obj = o ∧ (m.nd n).bb = L.bb := by
  induction t with
  | leaf k l =>
    intro p h n hn o e
    simp only [PT.ids, List.mem_singleton] at hn
    subst hn
    rw [h.1.1] at e
    cases e
    exact ⟨l, by simp [PT.lvs], rfl, h.1.2.1⟩
  | node k bb a b iha ihb =>
    intro p h n hn o e
    obtain ⟨h1, h2, h3, h4, h5, h6, h7⟩ := h
    simp only [PT.ids, List.mem_cons, List.mem_append] at hn
    rcases hn with rfl | hn | hn
    · rw [h1] at e; cases e
    · obtain ⟨L, hL, q⟩ := iha h6 n hn o e
      exact ⟨L, by simp [PT.lvs, hL], q⟩
    · obtain ⟨L, hL, q⟩ := ihb h7 n hn o e
      exact ⟨L, by simp [PT.lvs, hL], q⟩

/-- **C56**: a shape of an index has one leaf, in the tree of that index, with the box under which the shape is indexed; no other leaf
has that shape. -/
theorem C56_leaf (h : Obj → Nat) (s : Spec F) (nw : NWorld F) (hh : NHist h s nw) :
    (∀ st o B, s.idx st o = some B ↔ ∃ n, AtPlace nw (.tree st) n ∧ (nw.mem.nd n).obj = some o ∧ (nw.mem.nd n).bb = B) ∧
    ∀ st st' n n' o, AtPlace nw (.tree st) n → AtPlace nw (.tree st') n' → (nw.mem.nd n).obj = some o → (nw.mem.nd n').obj = some o → n = n' := by
  obtain ⟨w, T, fs, hw, hs⟩ := nhist_sim hh
  have hobj : ∀ st n o, AtPlace nw (.tree st) n → (nw.mem.nd n).obj = some o → ∃ L, (n, L) ∈ lvsO (T st) ∧ L.obj = o ∧ (nw.mem.nd n).bb = L.bb := by
    intro st n o hn e
    have hr := hs.mem.rooted st
    simp only [hs.atPlace, placeIds] at hn
    cases ht : T st with
    | none => rw [ht] at hn; cases hn
    | some t =>
      rw [ht] at hn hr
      exact rooted_obj (p := none) hr n hn o e
  refine ⟨fun st o B => ?_, ?_⟩
  · rw [(C07_leaves h s w hw st).2 o B, hs.leavesOf st]
    constructor
    · rintro ⟨L, hL, rfl, rfl⟩
      obtain ⟨⟨n, L'⟩, hx, rfl⟩ := List.mem_map.1 hL
      have hat := (hs.mem.rooted st).leaf _ hx
      exact ⟨n, (hs.atPlace _ _).2 (lvsO_ids _ _ hx), hat.1, hat.2.1⟩
    · rintro ⟨n, hn, e1, e2⟩
      obtain ⟨L, hL, k1, k2⟩ := hobj st n o hn e1
      exact ⟨L, List.mem_map.2 ⟨_, hL, rfl⟩, k1, by rw [← k2, e2]⟩
  · intro st st' n n' o hn hn' e e'
    obtain ⟨L, hL, k1, k2⟩ := hobj st n o hn e
    obtain ⟨L', hL', k1', k2'⟩ := hobj st' n' o hn' e'
    refine hs.mem.inj n (mem_LI.2 ⟨st, L, hL⟩) n' (mem_LI.2 ⟨st', L', hL'⟩) ?_
    rw [hs.mem.name hL, hs.mem.name hL', k1, k1']

/-- **C56**: a tree with `c` shapes has `2c - 1` nodes. -/
theorem C56_size (h : Obj → Nat) (s : Spec F) (nw : NWorld F) (hh : NHist h s nw) (st : Bool) :
    ∃ l : List NId, l.Nodup ∧ (∀ n, n ∈ l ↔ AtPlace nw (.tree st) n) ∧ l.length = 2 * nw.count st - 1 := by
  obtain ⟨w, T, fs, hw, hs⟩ := nhist_sim hh
  refine ⟨idsO (T st), (hs.mem.acc st).nodup.of_append_left, fun n => (hs.atPlace (.tree st) n).symm, ?_⟩
  rw [hs.count st, count_eq (hist_ref h _ w hw) st, hs.leavesOf st, List.length_map, idsO_len]

/-- **C56**: nodes are reused. If an index never had more than `M` shapes, no more than `2M + 1023` nodes were allocated for it, however
often shapes were added, moved and removed. -/
theorem C56_no_leak (h : Obj → Nat) (M : Bool → Nat) (s : Spec F) (nw : NWorld F) (hh : NHistMax h M s nw) :
    nw.mem.next ≤ (2 * M true + 1023) + (2 * M false + 1023) := by
  obtain ⟨w, T, fs, hw, hs, ht⟩ := nhist_max hh
  have h1 := (hs.mem.acc true).length
  have h2 := ht true
  have h3 := ht false
  have e : nw.mem.next = tot T fs true + tot T fs false := by
    rw [← h1]
    simp only [tot, Bool.not_true, List.length_append]
    generalize (idsO (T true)).length = a1, (idsO (T false)).length = a2, (fs true).length = a3, (fs false).length = a4
    omega
  omega

/-! ### The hypotheses are met -/

/-- Every history of C06-C09 is one of trees in memory. -/
theorem C56_histories (h : Obj → Nat) (s : Spec F) : (∃ w, Hist h s w) ↔ ∃ nw, NHist h s nw :=
  ⟨fun ⟨_, hw⟩ => let ⟨nw, _, _, hn, _⟩ := hist_sim hw; ⟨nw, hn⟩, fun ⟨_, hn⟩ => let ⟨w, _, _, hw, _⟩ := nhist_sim hn; ⟨w, hw⟩⟩

theorem NHistMax.hist {h : Obj → Nat} {M : Bool → Nat} {s : Spec F} {nw : NWorld F} (hh : NHistMax h M s nw) : NHist h s nw := by
  induction hh with
  | init box vel w e => exact .init box vel w e
  | step s w w' op _ hok e _ ih => exact .step s w w' op ih hok e

/-- A step that stops when an index has more than `M` shapes. -/
def stepMax (M : Bool → Nat) (w : NWorld F) (op : WOp F) : Option (NWorld F) :=
  (w.step id op).bind fun w' => if w'.count true ≤ M true ∧ w'.count false ≤ M false then some w' else none

theorem nhist_run (M : Bool → Nat) (ops : List (WOp F)) (s : Spec F) (w w' : NWorld F) (hh : NHistMax id M s w)
    (hl : Legal s ops) (he : ops.foldlM (stepMax M) w = some w') : NHistMax id M (ops.foldl Spec.step s) w' := by
  induction ops generalizing s w with
  | nil => cases he; exact hh
  | cons op ops ih =>
    rw [List.foldlM_cons] at he
    cases h1 : stepMax M w op with
    | none => rw [h1] at he; cases he
    | some w1 =>
      rw [h1] at he
      obtain ⟨w2, e2, h2⟩ := Option.bind_eq_some_iff.1 h1
      by_cases hc : w2.count true ≤ M true ∧ w2.count false ≤ M false
      · rw [if_pos hc] at h2
        cases h2
        exact ih (s.step op) w1 (.step s w w1 op hh hl.1 e2 (fun st => by cases st; exacts [hc.2, hc.1])) hl.2 he
      · rw [if_neg hc] at h2; cases h2

def exMax : Bool → Nat
  | true => 1
  | false => 3

def exNRun : Option (NWorld Rat) := (NWorld.init exBox (fun _ => ⟨0, 0⟩)).bind fun w => exOps.foldlM (stepMax exMax) w

/-- The history of `Verif.Props.Index` in memory: 1 static and 3 dynamic shapes, moved, reindexed twice and one removed, leave a
dynamic tree of two leaves (three nodes in a tree of five before); the same pairs and answers as those of the abstract run. -/
example : exNRun.map (fun w => (w.each false, w.count true, w.count false)) = some ([2, 4], 1, 2) := by decide +kernel

/-- It meets the hypotheses of the theorems above. -/
example : ∃ (s : Spec Rat) (w : NWorld Rat), NHistMax id exMax s w ∧ NHist id s w ∧ s.idx true 1 ≠ none ∧ s.idx false 2 ≠ none ∧
    s.idx false 4 ≠ none ∧ s.idx false 3 = none := by
  have hrun : exNRun.isSome = true := by decide +kernel
  obtain ⟨w', hw'⟩ := Option.isSome_iff_exists.mp hrun
  unfold exNRun at hw'
  cases hi : NWorld.init exBox (fun _ => (⟨0, 0⟩ : Vec Rat)) with
  | none => rw [hi] at hw'; cases hw'
  | some w0 =>
    rw [hi] at hw'
    have hm := nhist_run exMax exOps _ w0 w' (.init _ _ w0 hi) (by simp [Legal, exOps, Spec.ok, Spec.step, Spec.refit]) hw'
    refine ⟨_, w', hm, hm.hist, ?_, ?_, ?_, ?_⟩
    all_goals simp [exOps, Spec.step, Spec.refit]

end CP
