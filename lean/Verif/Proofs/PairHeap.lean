import Verif.Model.PairHeap
import Verif.Proofs.BBTree
import Mathlib.Data.List.Nodup

/-! # The pointer structure of the pairs represents the list of pairs -/

namespace CP
namespace PHeap

/-- A doubly linked list. -/
def Seg (nx pv : PId → Option PId) : Option PId → List PId → Prop
  | _, [] => True
  | p0, p :: t => pv p = p0 ∧ nx p = t.head? ∧ Seg nx pv (some p) t

theorem Seg.congr {nx pv nx' pv' : PId → Option PId} {ls : List PId} : ∀ {p0}, Seg nx pv p0 ls → (∀ p ∈ ls, nx' p = nx p ∧ pv' p = pv p) → Seg nx' pv' p0 ls := by
  induction ls with
  | nil => intros; trivial
  | cons p t ih =>
    intro p0 h e
    exact ⟨(e p (by simp)).2.trans h.1, (e p (by simp)).1.trans h.2.1, ih h.2.2 fun q hq => e q (by simp [hq])⟩

theorem Seg.mid {nx pv : PId → Option PId} {pre post : List PId} {p : PId} : ∀ {p0}, Seg nx pv p0 (pre ++ p :: post) → nx p = post.head? ∧ pv p = (pre.getLast?).or p0 := by
  induction pre with
  | nil => intro p0 h; exact ⟨h.2.1, h.1⟩
  | cons q t ih =>
    intro p0 h
    obtain ⟨a, b⟩ := ih h.2.2
    refine ⟨a, b.trans ?_⟩
    cases t with
    | nil => rfl
    | cons r t => simp [List.getLast?_cons]

theorem Seg.remove {nx pv : PId → Option PId} {post : List PId} {p : PId} {pre : List PId} : ∀ {p0}, Seg nx pv p0 (pre ++ p :: post) →
    (pre ++ p :: post).Nodup → (∀ z, p0 = some z → z ∉ pre ++ p :: post) →
    Seg (fun x => if pv p = some x then nx p else nx x) (fun x => if nx p = some x then pv p else pv x) p0 (pre ++ post) := by
  induction pre with
  | nil =>
    intro p0 h nd h0
    rw [List.nil_append] at h nd h0 ⊢
    obtain ⟨h1, h2, h3⟩ := h
    cases post with
    | nil => trivial
    | cons q r =>
      have hnx : ∀ x ∈ q :: r, (if pv p = some x then nx p else nx x) = nx x := by
        intro x hx
        rw [if_neg]
        rw [h1]
        intro q
        exact h0 x q (by simp at hx ⊢; tauto)
      refine ⟨?_, ?_, ?_⟩
      · simp only [h2, List.head?_cons, if_true, h1]
      · exact (hnx q (by simp)).trans h3.2.1
      · refine h3.2.2.congr fun x hx => ⟨hnx x (by simp [hx]), ?_⟩
        rw [if_neg]
        rw [h2, List.head?_cons, Option.some.injEq]
        rintro rfl
        simp at nd
        tauto
  | cons q t ih =>
    intro p0 h nd h0
    have hm := Seg.mid (pre := q :: t) h
    obtain ⟨h1, h2, h3⟩ := h
    have nd' := (List.nodup_cons.1 nd).2
    have hq := (List.nodup_cons.1 nd).1
    refine ⟨?_, ?_, ih h3 nd' (by rintro z ⟨⟩; exact hq)⟩
    · simp only
      rw [if_neg]
      · exact h1
      · rw [hm.1]
        intro e
        have : q ∈ post := List.mem_of_head? e
        exact hq (by simp [this])
    · cases t with
      | nil =>
        have : pv p = some q := by rw [hm.2]; rfl
        simp only
        rw [if_pos this]
        exact hm.1
      | cons r t =>
        simp only
        rw [if_neg]
        · exact h2
        · rw [hm.2, List.getLast?_cons_cons]
          intro e
          have e' : (r :: t).getLast? = some q := by
            cases hh : (r :: t).getLast? with
            | none => simp at hh
            | some z => rw [hh] at e; exact e
          have : q ∈ r :: t := List.mem_of_getLast? e'
          exact hq (by
            rcases List.mem_cons.1 this with q | q
            · simp [q]
            · simp [q])

theorem Seg.push {nx pv : PId → Option PId} {ls : List PId} {p : PId} (h : Seg nx pv none ls) (hp : p ∉ ls) (nd : ls.Nodup) :
    Seg (fun x => if x = p then ls.head? else nx x) (fun x => if x = p then none else if ls.head? = some x then some p else pv x) none (p :: ls) := by
  refine ⟨by simp, by simp, ?_⟩
  cases ls with
  | nil => trivial
  | cons q t =>
    have hpq : q ≠ p := fun e => hp (by simp [e])
    refine ⟨by simp [hpq], by simp [hpq, h.2.1], h.2.2.congr fun x hx => ?_⟩
    have hxp : x ≠ p := by rintro rfl; exact hp (by simp [hx])
    have hxq : q ≠ x := by rintro rfl; exact (List.nodup_cons.1 nd).1 hx
    simp [hxp, hxq]

/-! ### Threads -/

/-- The thread of a pair for one of its leaves. -/
def thr (h : PHeap) (l : Obj) (p : PId) : Thr := if (h.pair p).a.leaf = some l then (h.pair p).a else (h.pair p).b

def nx (h : PHeap) (l : Obj) (p : PId) : Option PId := (h.thr l p).next
def pv (h : PHeap) (l : Obj) (p : PId) : Option PId := (h.thr l p).prev

/-- The leaves of a pair. -/
def ends (h : PHeap) (p : PId) : Option Obj × Option Obj := ((h.pair p).a.leaf, (h.pair p).b.leaf)

def has (h : PHeap) (l : Obj) (p : PId) : Bool := decide ((h.pair p).a.leaf = some l) || decide ((h.pair p).b.leaf = some l)

/-- Two different leaves. -/
def Two (h : PHeap) (p : PId) : Prop := ∃ a b, (h.pair p).a.leaf = some a ∧ (h.pair p).b.leaf = some b ∧ a ≠ b

theorem has_ends {h h' : PHeap} {p : PId} (e : h'.ends p = h.ends p) (l : Obj) : h'.has l p = h.has l p := by
  have h1 := (Prod.mk.inj e).1
  have h2 := (Prod.mk.inj e).2
  simp only [has, h1, h2]

theorem two_ends {h h' : PHeap} {p : PId} (e : h'.ends p = h.ends p) (t : Two h p) : Two h' p := by
  obtain ⟨a, b, ha, hb, hn⟩ := t
  exact ⟨a, b, (Prod.mk.inj e).1.trans ha, (Prod.mk.inj e).2.trans hb, hn⟩

theorem upd_pair_ne (h : PHeap) (p : PId) (l : Option Obj) (f : Thr → Thr) {q : PId} (hq : q ≠ p) : (h.upd p l f).pair q = h.pair q := by
  unfold upd
  split <;> simp [setPair, hq]

theorem upd_rest (h : PHeap) (p : PId) (l : Option Obj) (f : Thr → Thr) : (h.upd p l f).head = h.head ∧ (h.upd p l f).pool = h.pool ∧ (h.upd p l f).next = h.next := by
  unfold upd
  split <;> exact ⟨rfl, rfl, rfl⟩

theorem upd_ends (h : PHeap) (p : PId) (l : Option Obj) (f : Thr → Thr) (hf : ∀ t, (f t).leaf = t.leaf) (q : PId) : (h.upd p l f).ends q = h.ends q := by
  by_cases e : q = p
  · subst e
    unfold upd
    split <;> simp [ends, setPair, hf]
  · rw [ends, upd_pair_ne h p l f e]; rfl

theorem upd_cid (h : PHeap) (p : PId) (l : Option Obj) (f : Thr → Thr) (q : PId) : ((h.upd p l f).pair q).cid = (h.pair q).cid := by
  by_cases e : q = p
  · subst e
    unfold upd
    split <;> simp [setPair]
  · rw [upd_pair_ne h p l f e]

/-- Writing through a thread changes only that thread. -/
theorem upd_thr (h : PHeap) {p : PId} {l : Obj} (f : Thr → Thr) (hf : ∀ t, (f t).leaf = t.leaf) (hp : h.has l p = true) {l' : Obj} {q : PId}
    (hq : h.has l' q = true) : (h.upd p (some l) f).thr l' q = if q = p ∧ l' = l then f (h.thr l p) else h.thr l' q := by
  by_cases e : q = p
  · subst e
    unfold upd thr
    simp only [has, Bool.or_eq_true, decide_eq_true_eq] at hp hq
    by_cases e' : l' = l
    · subst e'
      by_cases ha : (h.pair q).a.leaf = some l' <;> simp [ha, setPair, hf]
    · by_cases ha : (h.pair q).a.leaf = some l
      · have hb : (h.pair q).a.leaf ≠ some l' := by rw [ha]; simp [Ne.symm e']
        simp [ha, setPair, hf, e', Ne.symm e']
      · have hb := hp.resolve_left ha
        have hc : (h.pair q).a.leaf = some l' := hq.resolve_right (by rw [hb]; simp [Ne.symm e'])
        simp [ha, hc, setPair, hf, e']
  · rw [if_neg (fun q => e q.1)]
    simp only [thr, upd_pair_ne h p _ f e]

/-! ### Representation -/

/-- The pairs of a leaf. -/
def on (h : PHeap) (l : Obj) (ps : List PId) : List PId := ps.filter (h.has l)

def Pool (h : PHeap) : Option PId → List PId → Prop
  | o, [] => o = none
  | o, p :: t => o = some p ∧ h.Pool (h.pair p).a.next t

/-- `ps` are the live pairs, `fs` the pooled ones. -/
structure Rep (h : PHeap) (ps fs : List PId) : Prop where
  nd : (ps ++ fs).Nodup
  lt : ∀ p ∈ ps ++ fs, p < h.next
  two : ∀ p ∈ ps, h.Two p
  head : ∀ l, h.head l = (h.on l ps).head?
  seg : ∀ l, Seg (h.nx l) (h.pv l) none (h.on l ps)
  pool : h.Pool h.pool fs

theorem Pool.congr {h h' : PHeap} {fs : List PId} : ∀ {o}, h.Pool o fs → (∀ p ∈ fs, (h'.pair p).a.next = (h.pair p).a.next) → h'.Pool o fs := by
  induction fs with
  | nil => intro o h _; exact h
  | cons p t ih =>
    intro o hp e
    refine ⟨hp.1, ?_⟩
    rw [e p (by simp)]
    exact ih hp.2 fun q hq => e q (by simp [hq])

theorem on_congr {h h' : PHeap} {ps : List PId} (e : ∀ p ∈ ps, h'.ends p = h.ends p) (l : Obj) : h'.on l ps = h.on l ps :=
  List.filter_congr fun p hp => has_ends (e p hp) l

theorem mem_on {h : PHeap} {l : Obj} {ps : List PId} {p : PId} : p ∈ h.on l ps ↔ p ∈ ps ∧ h.has l p = true := List.mem_filter

/-- An allocation followed by recycling. -/
theorem alloc_recycle {h : PHeap} {ps fs : List PId} (r : Rep h ps fs) : Rep (h.alloc.2.recycle h.alloc.1) ps (h.next :: fs) := by
  have hne : ∀ p ∈ ps ++ fs, p ≠ h.next := fun p hp => Nat.ne_of_lt (r.lt p hp)
  have hpair : ∀ p, p ≠ h.next → (h.alloc.2.recycle h.alloc.1).pair p = h.pair p := fun p hp => by simp [alloc, recycle, setPair, hp]
  have hends : ∀ p ∈ ps, (h.alloc.2.recycle h.alloc.1).ends p = h.ends p := fun p hp => by
    simp only [ends, hpair p (hne p (by simp [hp]))]
  have hthr : ∀ l, ∀ p ∈ ps, (h.alloc.2.recycle h.alloc.1).thr l p = h.thr l p := fun l p hp => by
    simp only [thr, hpair p (hne p (by simp [hp]))]
  refine ⟨?_, fun p hp => ?_, fun p hp => two_ends (hends p hp) (r.two p hp), fun l => ?_, fun l => ?_, ?_⟩
  · rw [List.nodup_middle]
    exact List.nodup_cons.2 ⟨fun q => hne _ q rfl, r.nd⟩
  · have e : (h.alloc.2.recycle h.alloc.1).next = h.next + 1 := rfl
    rw [e]
    by_cases q : p = h.next
    · rw [q]; exact Nat.lt_succ_self _
    · exact Nat.lt_succ_of_lt (r.lt p (by simp at hp ⊢; tauto))
  · rw [on_congr hends]; exact r.head l
  · rw [on_congr hends]
    refine (r.seg l).congr fun p hp => ?_
    simp only [nx, pv, hthr l p (mem_on.1 hp).1, and_self]
  · refine ⟨rfl, ?_⟩
    have : ((h.alloc.2.recycle h.alloc.1).pair h.next).a.next = h.pool := by simp [alloc, recycle, setPair]
    rw [this]
    exact r.pool.congr fun p hp => by rw [hpair p (hne p (by simp [hp]))]

theorem grow (n : Nat) : ∀ {h : PHeap} {ps fs : List PId}, Rep h ps fs →
    ∃ fs', Rep ((List.range n).foldl (fun h _ => h.alloc.2.recycle h.alloc.1) h) ps fs' ∧
      ((List.range n).foldl (fun h _ => h.alloc.2.recycle h.alloc.1) h).head = h.head ∧
      (∀ p ∈ ps, ((List.range n).foldl (fun h _ => h.alloc.2.recycle h.alloc.1) h).pair p = h.pair p) := by
  induction n with
  | zero => intro h ps fs r; exact ⟨fs, r, rfl, fun _ _ => rfl⟩
  | succ n ih =>
    intro h ps fs r
    obtain ⟨fs', r', e, ep⟩ := ih r
    rw [List.range_succ, List.foldl_append]
    refine ⟨_, alloc_recycle r', e, fun p hp => ?_⟩
    rw [← ep p hp]
    rw [List.foldl_cons, List.foldl_nil]
    have : p ≠ ((List.range n).foldl (fun h _ => h.alloc.2.recycle h.alloc.1) h).next := Nat.ne_of_lt (r'.lt p (by simp [hp]))
    generalize (List.range n).foldl (fun h _ => h.alloc.2.recycle h.alloc.1) h = g at this ⊢
    simp [alloc, recycle, setPair, this]

/-- The pair given out by the pool is not in use. -/
theorem fromPool_spec {h : PHeap} {ps fs : List PId} (r : Rep h ps fs) :
    ∃ p h' fs', h.fromPool = (p, h') ∧ p ∉ ps ++ fs' ∧ p < h'.next ∧ h'.head = h.head ∧ (∀ q ∈ ps, h'.pair q = h.pair q) ∧ Rep h' ps fs' := by
  unfold fromPool
  cases hp : h.pool with
  | some p =>
    have hpl := r.pool
    cases fs with
    | nil => rw [hp] at hpl; cases hpl
    | cons q t =>
      obtain ⟨e, hpl⟩ := hpl
      rw [hp, Option.some.injEq] at e
      subst e
      have nd := r.nd
      rw [List.nodup_middle, List.nodup_cons] at nd
      refine ⟨p, { h with pool := (h.pair p).a.next }, t, rfl, nd.1, r.lt p (by simp), rfl, fun _ _ => rfl, ⟨nd.2, fun q hq => r.lt q (by simp at hq ⊢; tauto), r.two, r.head, r.seg, ?_⟩⟩
      exact hpl.congr fun _ _ => rfl
  | none =>
    obtain ⟨fs', r', eh, ep⟩ := grow 1024 r
    simp only
    obtain ⟨g, hg⟩ : ∃ g, g = (List.range 1024).foldl (fun h _ => h.alloc.2.recycle h.alloc.1) h := ⟨_, rfl⟩
    rw [← hg] at r' eh ep ⊢
    have hne : ∀ p ∈ ps ++ fs', p ≠ g.next := fun p hp => Nat.ne_of_lt (r'.lt p hp)
    have hpair : ∀ p, p ≠ g.next → (g.alloc.2).pair p = g.pair p := fun p hp => by simp [alloc, setPair, hp]
    have hends : ∀ p ∈ ps, (g.alloc.2).ends p = g.ends p := fun p hp => by simp only [ends, hpair p (hne p (by simp [hp]))]
    refine ⟨g.next, g.alloc.2, fs', rfl, fun q => hne _ q rfl, Nat.lt_succ_self _, eh, fun q hq => (hpair q (hne q (by simp [hq]))).trans (ep q hq), ⟨r'.nd, fun q hq => Nat.lt_succ_of_lt (r'.lt q hq),
      fun p hp => two_ends (hends p hp) (r'.two p hp), fun l => ?_, fun l => ?_, ?_⟩⟩
    · rw [on_congr hends]; exact r'.head l
    · rw [on_congr hends]
      refine (r'.seg l).congr fun p hp => ?_
      have := (mem_on.1 hp).1
      simp only [nx, pv, thr, hpair p (hne p (by simp [this])), and_self]
    · exact r'.pool.congr fun p hp => by rw [hpair p (hne p (by simp [hp]))]

/-- What the list-level model knows of a pair. -/
def val (h : PHeap) (p : PId) : Option Obj × Option Obj × Cid := ((h.pair p).a.leaf, (h.pair p).b.leaf, (h.pair p).cid)

theorem updO_rest (h : PHeap) (p : Option PId) (l : Option Obj) (f : Thr → Thr) :
    (h.updO p l f).head = h.head ∧ (h.updO p l f).pool = h.pool ∧ (h.updO p l f).next = h.next := by
  cases p with
  | none => exact ⟨rfl, rfl, rfl⟩
  | some p => exact upd_rest h p l f

theorem updO_pair_ne (h : PHeap) {p : Option PId} (l : Option Obj) (f : Thr → Thr) {q : PId} (hq : p ≠ some q) : (h.updO p l f).pair q = h.pair q := by
  cases p with
  | none => rfl
  | some p => exact upd_pair_ne h p l f (fun e => hq (by rw [e]))

theorem updO_ends (h : PHeap) (p : Option PId) (l : Option Obj) (f : Thr → Thr) (hf : ∀ t, (f t).leaf = t.leaf) (q : PId) : (h.updO p l f).ends q = h.ends q := by
  cases p with
  | none => rfl
  | some p => exact upd_ends h p l f hf q

theorem updO_cid (h : PHeap) (p : Option PId) (l : Option Obj) (f : Thr → Thr) (q : PId) : ((h.updO p l f).pair q).cid = (h.pair q).cid := by
  cases p with
  | none => rfl
  | some p => exact upd_cid h p l f q

theorem updO_thr (h : PHeap) {p : Option PId} {l : Obj} (f : Thr → Thr) (hf : ∀ t, (f t).leaf = t.leaf) (hp : ∀ x, p = some x → h.has l x = true) {l' : Obj} {q : PId}
    (hq : h.has l' q = true) : (h.updO p (some l) f).thr l' q = if p = some q ∧ l' = l then f (h.thr l q) else h.thr l' q := by
  cases p with
  | none => simp [updO]
  | some p =>
    rw [updO, upd_thr h f hf (hp p rfl) hq]
    by_cases e : q = p
    · subst e; simp
    · simp [e, Ne.symm e]

theorem insert_spec {h : PHeap} {ps fs : List PId} (r : Rep h ps fs) {a b : Obj} (hab : a ≠ b) :
    ∃ p fs', Rep (h.insert a b) (p :: ps) fs' ∧ (h.insert a b).val p = (some a, some b, 0#32) ∧ ∀ q ∈ ps, (h.insert a b).val q = h.val q := by
  obtain ⟨p, h1, fs', e, hp, hlt, eh, epair, r1⟩ := fromPool_spec r
  have hps : p ∉ ps := fun q => hp (by simp [q])
  have hfs : p ∉ fs' := fun q => hp (by simp [q])
  unfold insert
  simp only [e]
  have hda : h.head a = (h1.on a ps).head? := by rw [← eh]; exact r1.head a
  have hdb : h.head b = (h1.on b ps).head? := by rw [← eh]; exact r1.head b
  rw [hda, hdb]
  -- the state before the two writes through threads
  obtain ⟨g, hg⟩ : ∃ g, g = ((h1.setPair p ⟨⟨none, (h1.on a ps).head?, some a⟩, ⟨none, (h1.on b ps).head?, some b⟩, 0#32⟩).setHead a (some p)).setHead b (some p) := ⟨_, rfl⟩
  rw [← hg]
  have gp : g.pair p = ⟨⟨none, (h1.on a ps).head?, some a⟩, ⟨none, (h1.on b ps).head?, some b⟩, 0#32⟩ := by rw [hg]; simp [setPair, setHead]
  have gn : ∀ q, q ≠ p → g.pair q = h1.pair q := fun q hq => by rw [hg]; simp [setPair, setHead, hq]
  have gnps : ∀ q ∈ ps, g.pair q = h1.pair q := fun q hq => gn q (by rintro rfl; exact hps hq)
  have ghas : ∀ l, ∀ q ∈ ps, g.has l q = h1.has l q := fun l q hq => by simp only [has, gnps q hq]
  have gthr : ∀ l, ∀ q ∈ ps, g.thr l q = h1.thr l q := fun l q hq => by simp only [thr, gnps q hq]
  have headmem : ∀ l x, (h1.on l ps).head? = some x → x ∈ ps ∧ h1.has l x = true := fun l x hx => mem_on.1 (List.mem_of_head? hx)
  have pa : g.thr a p = ⟨none, (h1.on a ps).head?, some a⟩ := by simp [thr, gp]
  have pb : g.thr b p = ⟨none, (h1.on b ps).head?, some b⟩ := by simp [thr, gp, hab]
  have phas : ∀ l, g.has l p = true ↔ l = a ∨ l = b := by
    intro l
    simp only [has, gp, Bool.or_eq_true, decide_eq_true_eq, Option.some.injEq]
    tauto
  have hf : ∀ t : Thr, ({ t with prev := some p } : Thr).leaf = t.leaf := fun _ => rfl
  -- first write
  obtain ⟨g1, hg1⟩ : ∃ g1, g1 = g.updO (h1.on a ps).head? (some a) fun t => { t with prev := some p } := ⟨_, rfl⟩
  obtain ⟨g2, hg2⟩ : ∃ g2, g2 = g1.updO (h1.on b ps).head? (some b) fun t => { t with prev := some p } := ⟨_, rfl⟩
  rw [← hg1, ← hg2]
  have en : ∀ q, g2.ends q = g.ends q := fun q => by
    rw [hg2, updO_ends _ _ _ _ hf, hg1, updO_ends _ _ _ _ hf]
  have cid2 : ∀ q, (g2.pair q).cid = (g.pair q).cid := fun q => by rw [hg2, updO_cid, hg1, updO_cid]
  have th : ∀ l q, g.has l q = true → g2.thr l q =
      if (h1.on b ps).head? = some q ∧ l = b then { g.thr l q with prev := some p } else
      if (h1.on a ps).head? = some q ∧ l = a then { g.thr l q with prev := some p } else g.thr l q := by
    intro l q hq
    have s1 : ∀ l q, g.has l q = true → g1.thr l q = if (h1.on a ps).head? = some q ∧ l = a then { g.thr l q with prev := some p } else g.thr l q := by
      intro l q hq
      rw [hg1, updO_thr g _ hf (fun x hx => by
        obtain ⟨y, z⟩ := headmem a x hx
        rw [ghas a x y]; exact z) hq]
      split
      · next e => rw [e.2]
      · rfl
    have hh : ∀ l q, g1.has l q = g.has l q := fun l q => has_ends (by rw [hg1]; exact updO_ends _ _ _ _ hf q) l
    rw [hg2, updO_thr g1 _ hf (fun x hx => by
        obtain ⟨y, z⟩ := headmem b x hx
        rw [hh, ghas b x y]; exact z) (by rw [hh]; exact hq)]
    by_cases e1 : (h1.on b ps).head? = some q ∧ l = b
    · have e2 : ¬ ((h1.on a ps).head? = some q ∧ l = a) := fun e => hab (e.2.symm.trans e1.2)
      rw [if_pos e1, if_pos e1, ← e1.2, s1 l q hq, if_neg e2]
    · rw [if_neg e1, if_neg e1, s1 l q hq]
  have hon : ∀ l, g2.on l ps = h1.on l ps := fun l => on_congr (fun q hq => by rw [en q]; simp only [ends, gnps q hq]) l
  have h2p : ∀ l, g2.has l p = g.has l p := fun l => has_ends (en p) l
  have onc : ∀ l, g2.on l (p :: ps) = if l = a ∨ l = b then p :: h1.on l ps else h1.on l ps := by
    intro l
    rw [on, List.filter_cons, h2p]
    split
    · next q => rw [if_pos ((phas l).1 q)]; exact congrArg _ (hon l)
    · next q => rw [if_neg (fun z => q ((phas l).2 z))]; exact hon l
  have hrest : g2.head = g.head ∧ g2.pool = g.pool ∧ g2.next = g.next := by
    have r1 := updO_rest g (h1.on a ps).head? (some a) fun t => { t with prev := some p }
    have r2 := updO_rest g1 (h1.on b ps).head? (some b) fun t => { t with prev := some p }
    rw [← hg1] at r1
    rw [← hg2] at r2
    exact ⟨r2.1.trans r1.1, r2.2.1.trans r1.2.1, r2.2.2.trans r1.2.2⟩
  have hnd1 : ∀ l, (h1.on l ps).Nodup := fun l => ((List.nodup_append.1 r1.nd).1).filter _
  have hpon : ∀ l, p ∉ h1.on l ps := fun l q => hps (mem_on.1 q).1
  -- the lists of the two leaves
  have key : ∀ l, (l = a ∨ l = b) → g.thr l p = ⟨none, (h1.on l ps).head?, some l⟩ → Seg (g2.nx l) (g2.pv l) none (p :: h1.on l ps) := by
    intro l hl ht
    refine (Seg.push (r1.seg l) (hpon l) (hnd1 l)).congr fun q hq => ?_
    have hgq : g.has l q = true := by
      rcases List.mem_cons.1 hq with rfl | hq
      · exact (phas l).2 hl
      · obtain ⟨y, z⟩ := mem_on.1 hq
        rw [ghas l q y]; exact z
    have hthq : g2.thr l q = if (h1.on l ps).head? = some q then { g.thr l q with prev := some p } else g.thr l q := by
      rw [th l q hgq]
      rcases hl with rfl | rfl
      · simp [hab]
      · simp [hab.symm]
    simp only [nx, pv, hthq]
    rcases List.mem_cons.1 hq with rfl | hq'
    · have : (h1.on l ps).head? ≠ some q := fun e => hpon l (List.mem_of_head? e)
      simp [this, ht]
    · have hqp : q ≠ p := by rintro rfl; exact hpon l hq'
      have := gthr l q (mem_on.1 hq').1
      simp only [hqp, if_false]
      split <;> simp [this]
  refine ⟨p, fs', ⟨?_, ?_, ?_, ?_, ?_, ?_⟩, ?_, ?_⟩
  · rw [List.cons_append, List.nodup_cons]; exact ⟨hp, r1.nd⟩
  · have : g2.next = h1.next := by rw [hrest.2.2, hg]; rfl
    rw [this]
    intro q hq
    rcases List.mem_cons.1 hq with rfl | hq
    · exact hlt
    · exact r1.lt q hq
  · intro q hq
    rcases List.mem_cons.1 hq with rfl | hq
    · exact two_ends (en q) ⟨a, b, by rw [gp], by rw [gp], hab⟩
    · exact two_ends (h := h1) (by rw [en q]; simp only [ends, gnps q hq]) (r1.two q hq)
  · intro l
    rw [hrest.1, onc]
    have : g.head l = if l = a ∨ l = b then some p else h1.head l := by
      rw [hg]
      simp only [setHead, setPair]
      by_cases e1 : l = b
      · simp [e1]
      · by_cases e2 : l = a
        · simp [e2, hab]
        · simp [e1, e2]
    rw [this]
    split
    · rfl
    · exact r1.head l
  · intro l
    rw [onc]
    split
    · next hl =>
      refine key l hl ?_
      rcases hl with rfl | rfl
      · exact pa
      · exact pb
    · next hl =>
      refine (r1.seg l).congr fun q hq => ?_
      obtain ⟨y, z⟩ := mem_on.1 hq
      have hthq := th l q (by rw [ghas l q y]; exact z)
      rw [if_neg (fun e => hl (Or.inr e.2)), if_neg (fun e => hl (Or.inl e.2)), gthr l q y] at hthq
      simp only [nx, pv, hthq, and_self]
  · rw [hrest.2.1]
    have : g.pool = h1.pool := by rw [hg]; rfl
    rw [this]
    refine r1.pool.congr fun q hq => ?_
    have hqp : q ≠ p := by rintro rfl; exact hfs hq
    have hqs : q ∉ ps := fun z => (List.nodup_append.1 r1.nd).2.2 q z q hq rfl
    have hna : ∀ l, (h1.on l ps).head? ≠ some q := fun l e => hqs (headmem l q e).1
    rw [hg2, updO_pair_ne _ _ _ (hna b), hg1, updO_pair_ne _ _ _ (hna a), gn q hqp]
  · have h1 := Prod.mk.inj (en p)
    simp only [val, h1.1, h1.2, cid2, gp]
  · intro q hq
    have h1' := Prod.mk.inj (en q)
    simp only [val, h1'.1, h1'.2, cid2, gnps q hq, epair q hq]

/-! ### Unlink and PairsClear -/

theorem unlink_spec {h : PHeap} {m : Obj} {p : PId} {pre post : List PId} (hs : Seg (h.nx m) (h.pv m) none (pre ++ p :: post))
    (hh : ∀ q ∈ pre ++ p :: post, h.has m q = true) {t : Thr} (ht : t = h.thr m p) (hl : t.leaf = some m) :
    ∃ h', h.unlink t = some h' ∧ (∀ q, h'.ends q = h.ends q) ∧ (∀ q, (h'.pair q).cid = (h.pair q).cid) ∧ h'.pool = h.pool ∧ h'.next = h.next ∧
      (∀ q, q ∉ pre ++ p :: post → h'.pair q = h.pair q) ∧
      (∀ l, h'.head l = if l = m ∧ pre = [] then post.head? else h.head l) ∧
      (∀ l q, h.has l q = true → l ≠ m → h'.thr l q = h.thr l q) ∧
      (∀ q, h.has m q = true → h'.nx m q = (if h.pv m p = some q then h.nx m p else h.nx m q) ∧
        h'.pv m q = (if h.nx m p = some q then h.pv m p else h.pv m q)) := by
  obtain ⟨e1, e2⟩ := hs.mid
  rw [Option.or_none] at e2
  have tn : t.next = post.head? := by rw [ht]; exact e1
  have tp : t.prev = pre.getLast? := by rw [ht]; exact e2
  have hpost : ∀ x, post.head? = some x → x ∈ pre ++ p :: post := fun x hx => by
    have := List.mem_of_head? hx; simp [this]
  have hpre : ∀ x, pre.getLast? = some x → x ∈ pre ++ p :: post := fun x hx => by
    have := List.mem_of_getLast? hx; simp [this]
  unfold unlink
  simp only [hl, tn, tp]
  obtain ⟨g, hg⟩ : ∃ g, g = h.updO post.head? (some m) fun x => { x with prev := pre.getLast? } := ⟨_, rfl⟩
  rw [← hg]
  have hf : ∀ t : Thr, ({ t with prev := pre.getLast? } : Thr).leaf = t.leaf := fun _ => rfl
  have hf2 : ∀ t : Thr, ({ t with next := post.head? } : Thr).leaf = t.leaf := fun _ => rfl
  have gen : ∀ q, g.ends q = h.ends q := fun q => by rw [hg]; exact updO_ends _ _ _ _ hf q
  have ghas : ∀ l q, g.has l q = h.has l q := fun l q => has_ends (gen q) l
  have gcid : ∀ q, (g.pair q).cid = (h.pair q).cid := fun q => by rw [hg]; exact updO_cid _ _ _ _ q
  have grest : g.head = h.head ∧ g.pool = h.pool ∧ g.next = h.next := by rw [hg]; exact updO_rest _ _ _ _
  have gpair : ∀ q, q ∉ pre ++ p :: post → g.pair q = h.pair q := fun q hq => by
    rw [hg]; exact updO_pair_ne _ _ _ (fun e => hq (hpost q e))
  have gthr : ∀ l q, h.has l q = true → g.thr l q = if post.head? = some q ∧ l = m then { h.thr m q with prev := pre.getLast? } else h.thr l q := by
    intro l q hq
    rw [hg, updO_thr h _ hf (fun x hx => hh x (hpost x hx)) hq]
  cases hlast : pre.getLast? with
  | none =>
    have hpre0 : pre = [] := List.getLast?_eq_none_iff.1 hlast
    simp only [Option.map_some]
    have hthr : ∀ l q, (g.setHead m post.head?).thr l q = g.thr l q := fun l q => rfl
    refine ⟨_, rfl, gen, gcid, grest.2.1, grest.2.2, gpair, fun l => ?_, fun l q hq hlm => ?_, fun q hq => ?_⟩
    · simp only [setHead, grest.1, hpre0, and_true]
    · rw [hthr, gthr l q hq, if_neg (fun e => hlm e.2)]
    · simp only [nx, pv, hthr, gthr m q hq, and_true]
      simp only [nx, pv] at e1 e2
      rw [hlast] at e2 ⊢
      simp only [e1, e2]
      constructor <;> split <;> simp_all
  | some z =>
    have hz := hpre z hlast
    have hpre0 : pre ≠ [] := by rintro rfl; cases hlast
    simp only
    have hthr : ∀ l q, h.has l q = true → (g.upd z (some m) fun x => { x with next := post.head? }).thr l q =
        if q = z ∧ l = m then { g.thr m z with next := post.head? } else g.thr l q := fun l q hq =>
      upd_thr g (fun x => { x with next := post.head? }) hf2 (by rw [ghas]; exact hh z hz) (by rw [ghas]; exact hq)
    have ur := upd_rest g z (some m) fun x => { x with next := post.head? }
    refine ⟨_, rfl, fun q => (upd_ends _ _ _ _ hf2 q).trans (gen q), fun q => (upd_cid _ _ _ _ q).trans (gcid q), ur.2.1.trans grest.2.1, ur.2.2.trans grest.2.2,
      fun q hq => ?_, fun l => ?_, fun l q hq hlm => ?_, fun q hq => ?_⟩
    · rw [upd_pair_ne _ _ _ _ (by rintro rfl; exact hq hz)]; exact gpair q hq
    · rw [ur.1, grest.1, if_neg (fun e => hpre0 e.2)]
    · rw [hthr l q hq, if_neg (fun e => hlm e.2), gthr l q hq, if_neg (fun e => hlm e.2)]
    · simp only [nx, pv, hthr m q hq, and_true]
      rw [gthr m q hq, gthr m z (hh z hz)]
      simp only [nx, pv] at e1 e2
      rw [hlast] at e2 ⊢
      simp only [e1, e2, and_true, Option.some.injEq]
      by_cases hq' : q = z
      · subst hq'
        simp only [if_true]
        constructor
        · trivial
        · split <;> rfl
      · simp only [if_neg hq', if_neg (Ne.symm hq')]
        constructor <;> split <;> rfl

/-- The state of the loop of `PairsClear`: the list of leaf `l0` is only intact from `rest` on. -/
structure RepX (h : PHeap) (ps fs : List PId) (l0 : Obj) (p0 : Option PId) (rest : List PId) : Prop where
  nd : (ps ++ fs).Nodup
  lt : ∀ p ∈ ps ++ fs, p < h.next
  two : ∀ p ∈ ps, h.Two p
  head : ∀ l, l ≠ l0 → h.head l = (h.on l ps).head?
  head0 : h.head l0 = none
  seg : ∀ l, l ≠ l0 → Seg (h.nx l) (h.pv l) none (h.on l ps)
  isRest : h.on l0 ps = rest
  seg0 : Seg (h.nx l0) (h.pv l0) p0 rest
  pool : h.Pool h.pool fs

theorem nodup_split {α : Type} [DecidableEq α] {l : List α} {a : α} (h : a ∈ l) (nd : l.Nodup) : ∃ s t, l = s ++ a :: t ∧ l.filter (fun x => decide (x ≠ a)) = s ++ t := by
  obtain ⟨s, t, rfl⟩ := List.append_of_mem h
  refine ⟨s, t, rfl, ?_⟩
  rw [List.nodup_append] at nd
  obtain ⟨-, n2, n3⟩ := nd
  rw [List.nodup_cons] at n2
  rw [List.filter_append, List.filter_cons]
  simp only [ne_eq, not_true_eq_false, decide_false, Bool.false_eq_true, if_false]
  congr 1
  · rw [List.filter_eq_self]
    intro x hx
    simpa using n3 x hx a (by simp)
  · rw [List.filter_eq_self]
    intro x hx
    simp only [decide_eq_true_eq]
    rintro rfl
    exact n2.1 hx

/-- One turn. -/
theorem clear_turn {h : PHeap} {ps fs : List PId} {l0 : Obj} {p0 : Option PId} {p : PId} {rest : List PId} (r : RepX h ps fs l0 p0 (p :: rest))
    {m : Obj} {t : Thr} (hm : m ≠ l0) (hpm : h.has m p = true) (ht : t = h.thr m p) (hl : t.leaf = some m)
    (hnot : ∀ l, l ≠ m → l ≠ l0 → h.has l p = false) :
    ∃ h', h.unlink t = some h' ∧ RepX (h'.recycle p) (ps.filter fun x => decide (x ≠ p)) (p :: fs) l0 (some p) rest ∧ (h'.recycle p).next = h.next ∧
      (∀ q, q ≠ p → (h'.recycle p).val q = h.val q) := by
  have hp : p ∈ ps := by
    have : p ∈ h.on l0 ps := by rw [r.isRest]; simp
    exact (mem_on.1 this).1
  have ndps := (List.nodup_append.1 r.nd).1
  have hpon : p ∈ h.on m ps := mem_on.2 ⟨hp, hpm⟩
  obtain ⟨pre, post, hsplit, hfil⟩ := nodup_split hpon (ndps.filter _)
  have hL : ∀ q ∈ pre ++ p :: post, q ∈ ps ∧ h.has m q = true := fun q hq => by rw [← hsplit] at hq; exact mem_on.1 hq
  have hseg := r.seg m hm
  rw [hsplit] at hseg
  have hnd : (pre ++ p :: post).Nodup := by rw [← hsplit]; exact ndps.filter _
  obtain ⟨g, eu, gen, gcid, gpool, gnext, gpair, ghead, gthr, gm⟩ := unlink_spec hseg (fun q hq => (hL q hq).2) ht hl
  refine ⟨g, eu, ?_⟩
  have rp : ∀ q, q ≠ p → (g.recycle p).pair q = g.pair q := fun q hq => by simp [recycle, setPair, hq]
  have rends : ∀ q, (g.recycle p).ends q = h.ends q := fun q => by
    rw [← gen q]
    by_cases e : q = p
    · subst e; simp [recycle, setPair, ends]
    · simp only [ends, rp q e]
  have mem' : ∀ {q}, q ∈ (ps.filter fun x => decide (x ≠ p)) ↔ q ∈ ps ∧ q ≠ p := fun {q} => by simp
  have on' : ∀ l, (g.recycle p).on l (ps.filter fun x => decide (x ≠ p)) = (h.on l ps).filter fun x => decide (x ≠ p) := by
    intro l
    rw [on_congr (h := h) (fun q _ => rends q)]
    simp only [on, List.filter_filter]
    exact List.filter_congr fun x _ => Bool.and_comm _ _
  have onother : ∀ l, l ≠ m → l ≠ l0 → (h.on l ps).filter (fun x => decide (x ≠ p)) = h.on l ps := by
    intro l h1 h2
    rw [List.filter_eq_self]
    intro x hx
    simp only [decide_eq_true_eq]
    rintro rfl
    have := (mem_on.1 hx).2
    rw [hnot l h1 h2] at this
    cases this
  have rthr : ∀ l q, q ≠ p → (g.recycle p).thr l q = g.thr l q := fun l q hq => by simp only [thr, rp q hq]
  refine ⟨⟨?_, ?_, ?_, ?_, ?_, ?_, ?_, ?_, ?_⟩, gnext, fun q hq => ?_⟩
  · rw [List.nodup_middle, List.nodup_cons]
    have nda := List.nodup_append.1 r.nd
    refine ⟨?_, ?_⟩
    · simp only [List.mem_append, mem', ne_eq, not_true_eq_false, and_false, false_or]
      exact fun hq => nda.2.2 p hp p hq rfl
    · rw [List.nodup_append]
      exact ⟨nda.1.filter _, nda.2.1, fun a ha b hb => nda.2.2 a (mem'.1 ha).1 b hb⟩
  · intro q hq
    have : (g.recycle p).next = h.next := gnext
    rw [this]
    apply r.lt
    simp only [List.mem_append, List.mem_cons, mem'] at hq ⊢
    rcases hq with hq | rfl | hq
    · exact Or.inl hq.1
    · exact Or.inl hp
    · exact Or.inr hq
  · intro q hq
    exact two_ends (rends q) (r.two q (mem'.1 hq).1)
  · intro l hl0
    have : (g.recycle p).head l = g.head l := rfl
    rw [this, ghead, on']
    by_cases e : l = m
    · subst e
      rw [hfil]
      simp only [true_and]
      split
      · next q => rw [q]; rfl
      · next q =>
        rw [r.head l hl0, hsplit]
        cases pre with
        | nil => exact absurd rfl q
        | cons a b => rfl
    · rw [if_neg (fun q => e q.1), r.head l hl0, onother l e hl0]
  · have : (g.recycle p).head l0 = g.head l0 := rfl
    rw [this, ghead, if_neg (fun q => hm q.1.symm)]
    exact r.head0
  · intro l hl0
    rw [on']
    by_cases e : l = m
    · subst e
      rw [hfil]
      refine (hseg.remove hnd (by simp)).congr fun q hq => ?_
      have hq' : q ∈ pre ++ p :: post := by simp at hq ⊢; tauto
      have hqp : q ≠ p := by
        rintro rfl
        rw [← hfil] at hq
        simp at hq
      simp only [nx, pv, rthr l q hqp]
      exact gm q (hL q hq').2
    · rw [onother l e hl0]
      refine (r.seg l hl0).congr fun q hq => ?_
      obtain ⟨y, z⟩ := mem_on.1 hq
      have hqp : q ≠ p := by
        rintro rfl
        rw [hnot l e hl0] at z
        cases z
      simp only [nx, pv, rthr l q hqp, gthr l q z e, and_self]
  · rw [on', r.isRest]
    have nd0 : (p :: rest).Nodup := by rw [← r.isRest]; exact ndps.filter _
    rw [List.filter_cons]
    simp only [ne_eq, not_true_eq_false, decide_false, Bool.false_eq_true, if_false]
    rw [List.filter_eq_self]
    intro x hx
    simp only [decide_eq_true_eq]
    rintro rfl
    exact (List.nodup_cons.1 nd0).1 hx
  · have nd0 : (p :: rest).Nodup := by rw [← r.isRest]; exact ndps.filter _
    refine r.seg0.2.2.congr fun q hq => ?_
    have hqp : q ≠ p := by rintro rfl; exact (List.nodup_cons.1 nd0).1 hq
    have hh0 : h.has l0 q = true := by
      have : q ∈ h.on l0 ps := by rw [r.isRest]; simp [hq]
      exact (mem_on.1 this).2
    simp only [nx, pv, rthr l0 q hqp, gthr l0 q hh0 (Ne.symm hm), and_self]
  · refine ⟨rfl, ?_⟩
    have : ((g.recycle p).pair p).a.next = h.pool := by rw [← gpool]; simp [recycle, setPair]
    rw [this]
    refine r.pool.congr fun q hq => ?_
    have nda := List.nodup_append.1 r.nd
    have hqp : q ≠ p := by rintro rfl; exact nda.2.2 q hp q hq rfl
    rw [rp q hqp, gpair q (fun z => nda.2.2 q (hL q z).1 q hq rfl)]
  · have e1 := Prod.mk.inj (rends q)
    simp only [val]
    rw [e1.1, e1.2, rp q hq, gcid q]

theorem clearLoop_spec {l0 : Obj} (rest : List PId) : ∀ {h : PHeap} {ps fs : List PId} {p0 : Option PId} {fuel : Nat}, RepX h ps fs l0 p0 rest → rest.length ≤ fuel →
    ∃ h' fs', clearLoop l0 fuel rest.head? h = some h' ∧ Rep h' (ps.filter fun q => !h.has l0 q) fs' ∧
      (∀ q, h.has l0 q = false → h'.val q = h.val q) := by
  induction rest with
  | nil =>
    intro h ps fs p0 fuel r _
    have hno : ∀ q ∈ ps, h.has l0 q = false := by
      intro q hq
      have := r.isRest
      rw [on, List.filter_eq_nil_iff] at this
      simpa using this q hq
    have hps : (ps.filter fun q => !h.has l0 q) = ps := by
      rw [List.filter_eq_self]
      intro q hq
      simp [hno q hq]
    rw [hps]
    refine ⟨h, fs, by rw [List.head?_nil, clearLoop], ⟨r.nd, r.lt, r.two, fun l => ?_, fun l => ?_, r.pool⟩, fun _ _ => rfl⟩
    · by_cases e : l = l0
      · subst e; rw [r.head0, r.isRest]; rfl
      · exact r.head l e
    · by_cases e : l = l0
      · subst e; rw [r.isRest]; trivial
      · exact r.seg l e
  | cons p t ih =>
    intro h ps fs p0 fuel r hfuel
    obtain ⟨n, rfl⟩ : ∃ n, fuel = n + 1 := ⟨fuel - 1, by simp at hfuel; omega⟩
    rw [List.head?_cons, clearLoop]
    have hpon : p ∈ h.on l0 ps := by rw [r.isRest]; simp
    obtain ⟨hp, hp0⟩ := mem_on.1 hpon
    obtain ⟨x, y, hx, hy, hxy⟩ := r.two p hp
    have hnext : ∀ o, o = h.nx l0 p → o = t.head? := fun o e => e.trans r.seg0.2.1
    have fin : ∀ {g : PHeap}, RepX (g.recycle p) (ps.filter fun x => decide (x ≠ p)) (p :: fs) l0 (some p) t →
        (∀ q, q ≠ p → (g.recycle p).val q = h.val q) →
        ∃ h' fs', clearLoop l0 n t.head? (g.recycle p) = some h' ∧ Rep h' (ps.filter fun q => !h.has l0 q) fs' ∧
          (∀ q, h.has l0 q = false → h'.val q = h.val q) := by
      intro g rx rv
      obtain ⟨h', fs', e, r', v'⟩ := ih rx (fuel := n) (by simp at hfuel; omega)
      have hhas : ∀ q, q ≠ p → (g.recycle p).has l0 q = h.has l0 q := by
        intro q hq
        have := rv q hq
        simp only [val, Prod.mk.injEq] at this
        exact has_ends (by simp only [ends, this.1, this.2.1]) l0
      refine ⟨h', fs', e, ?_, fun q hq => ?_⟩
      · convert r' using 1
        rw [List.filter_filter]
        refine List.filter_congr fun q hq => ?_
        by_cases e : q = p
        · subst e; simp [hp0]
        · simp [e, hhas q e]
      · have hqp : q ≠ p := by rintro rfl; rw [hp0] at hq; cases hq
        rw [v' q (by rw [hhas q hqp]; exact hq), rv q hqp]
    by_cases hc : (h.pair p).a.leaf = some l0
    · rw [if_pos hc]
      have hxl : x = l0 := by rw [hx] at hc; exact Option.some.inj hc
      have ht : (h.pair p).b = h.thr y p := by simp [thr, hx, hxy]
      obtain ⟨g, eu, rx, -, rv⟩ := clear_turn r (m := y) (t := (h.pair p).b) (fun e => hxy (hxl.trans e.symm)) (by simp [has, hy]) ht hy
        (fun l h1 h2 => by simp [has, hx, hy, hxl, Ne.symm h1, Ne.symm h2])
      rw [hnext (h.pair p).a.next (by simp [nx, thr, hc])]
      simp only [eu]
      exact fin rx rv
    · rw [if_neg hc]
      have hyl : y = l0 := by
        simp only [has, Bool.or_eq_true, decide_eq_true_eq] at hp0
        have := hp0.resolve_left hc
        rw [hy] at this
        exact Option.some.inj this
      have ht : (h.pair p).a = h.thr x p := by simp [thr, hx]
      obtain ⟨g, eu, rx, -, rv⟩ := clear_turn r (m := x) (t := (h.pair p).a) (fun e => hxy (e.trans hyl.symm)) (by simp [has, hx]) ht hx
        (fun l h1 h2 => by simp [has, hx, hy, hyl, Ne.symm h1, Ne.symm h2])
      rw [hnext (h.pair p).b.next (by simp [nx, thr, hc])]
      simp only [eu]
      exact fin rx rv

theorem length_le_next {l : List PId} {n : Nat} (nd : l.Nodup) (h : ∀ p ∈ l, p < n) : l.length ≤ n := by
  have : l ⊆ List.range n := fun p hp => List.mem_range.2 (h p hp)
  have := (List.subperm_of_subset nd this).length_le
  simpa using this

theorem Rep.length {h : PHeap} {ps fs : List PId} (r : Rep h ps fs) (l : Obj) : (h.on l ps).length ≤ h.next :=
  length_le_next (((List.nodup_append.1 r.nd).1).filter _) fun p hp => r.lt p (by simp [(mem_on.1 hp).1])

theorem clear_spec {h : PHeap} {ps fs : List PId} (r : Rep h ps fs) (l : Obj) :
    ∃ h' fs', h.clear l = some h' ∧ Rep h' (ps.filter fun q => !h.has l q) fs' ∧ (∀ q, h.has l q = false → h'.val q = h.val q) := by
  unfold clear
  rw [r.head l]
  have rx : RepX (h.setHead l none) ps fs l none (h.on l ps) :=
    ⟨r.nd, r.lt, r.two, fun x hx => by
      have : (h.setHead l none).head x = h.head x := by simp [setHead, hx]
      rw [this]; exact r.head x, by simp [setHead], fun x _ => r.seg x, rfl, r.seg l, r.pool.congr fun _ _ => rfl⟩
  exact clearLoop_spec (h.on l ps) rx (r.length l)

/-! ### Following the lists -/

theorem follow_spec {h : PHeap} {l : Obj} (rest : List PId) : ∀ {p0 : Option PId} {fuel : Nat}, Seg (h.nx l) (h.pv l) p0 rest → (∀ p ∈ rest, h.Two p ∧ h.has l p = true) →
    rest.length ≤ fuel → h.follow l fuel rest.head? = some rest := by
  induction rest with
  | nil => intro p0 fuel _ _ _; rw [List.head?_nil, follow]
  | cons p t ih =>
    intro p0 fuel hs ht hf
    obtain ⟨n, rfl⟩ : ∃ n, fuel = n + 1 := ⟨fuel - 1, by simp at hf; omega⟩
    rw [List.head?_cons, follow]
    obtain ⟨⟨a, b, ha, hb, hab⟩, hl⟩ := ht p (by simp)
    have : (if (h.pair p).b.leaf = some l then (h.pair p).b.next else (h.pair p).a.next) = t.head? := by
      rw [← hs.2.1]
      simp only [has, Bool.or_eq_true, decide_eq_true_eq, ha, hb, Option.some.injEq] at hl
      simp only [nx, thr, ha, hb, Option.some.injEq]
      rcases hl with rfl | rfl
      · simp [hab.symm]
      · simp [hab]
    rw [this, ih hs.2.2 (fun q hq => ht q (by simp [hq])) (by simp at hf; omega)]
    rfl

theorem followPool_spec {h : PHeap} (fs : List PId) : ∀ {o : Option PId} {fuel : Nat}, h.Pool o fs → fs.length ≤ fuel → h.followPool fuel o = some fs := by
  induction fs with
  | nil => intro o fuel hp _; rw [show o = none from hp, followPool]
  | cons p t ih =>
    intro o fuel hp hf
    obtain ⟨n, rfl⟩ : ∃ n, fuel = n + 1 := ⟨fuel - 1, by simp at hf; omega⟩
    rw [hp.1, followPool, ih hp.2 (by simp at hf; omega)]
    rfl

theorem markLoop_spec {l : Obj} (f : PairFn) (rest : List PId) : ∀ {h : PHeap} {p0 : Option PId} {fuel : Nat} (log : List (Obj × Obj × Cid)), Seg (h.nx l) (h.pv l) p0 rest →
    (∀ p ∈ rest, h.Two p ∧ h.has l p = true) → rest.Nodup → rest.length ≤ fuel →
    ∃ h', markLoop l f fuel rest.head? (h, log) = some (h', log ++ (rest.filter fun p => decide ((h.pair p).b.leaf = some l)).map
        fun p => (((h.pair p).a.leaf).getD 0, l, (h.pair p).cid)) ∧
      h'.head = h.head ∧ h'.pool = h.pool ∧ h'.next = h.next ∧ (∀ p, (h'.pair p).a = (h.pair p).a ∧ (h'.pair p).b = (h.pair p).b) ∧
      (∀ p, (h'.pair p).cid = if p ∈ rest ∧ (h.pair p).b.leaf = some l then f (((h.pair p).a.leaf).getD 0) l (h.pair p).cid else (h.pair p).cid) := by
  induction rest with
  | nil =>
    intro h p0 fuel log _ _ _ _
    exact ⟨h, by rw [List.head?_nil, markLoop]; simp, rfl, rfl, rfl, fun _ => ⟨rfl, rfl⟩, fun _ => by simp⟩
  | cons p t ih =>
    intro h p0 fuel log hs ht nd hf
    obtain ⟨n, rfl⟩ : ∃ n, fuel = n + 1 := ⟨fuel - 1, by simp at hf; omega⟩
    rw [List.head?_cons, markLoop]
    obtain ⟨⟨a, b, ha, hb, hab⟩, hl⟩ := ht p (by simp)
    have hpt := (List.nodup_cons.1 nd).1
    have hlen : t.length ≤ n := by simp at hf; omega
    by_cases hc : (h.pair p).b.leaf = some l
    · rw [if_pos hc]
      simp only [ha]
      obtain ⟨g, hg⟩ : ∃ g, g = h.setPair p { h.pair p with cid := f a l (h.pair p).cid } := ⟨_, rfl⟩
      rw [← hg]
      have gab : ∀ q, (g.pair q).a = (h.pair q).a ∧ (g.pair q).b = (h.pair q).b := fun q => by
        rw [hg]
        by_cases e : q = p
        · subst e; simp [setPair]
        · simp [setPair, e]
      have gcid : ∀ q, (g.pair q).cid = if q = p then f a l (h.pair p).cid else (h.pair q).cid := fun q => by
        rw [hg]
        by_cases e : q = p
        · subst e; simp [setPair]
        · simp [setPair, e]
      have hbl : b = l := by rw [hb] at hc; exact Option.some.inj hc
      have hn : (g.pair p).b.next = t.head? := by
        rw [(gab p).2, ← hs.2.1]
        simp [nx, thr, ha, ← hbl, hab]
      rw [hn]
      obtain ⟨h', e, e1, e2, e3, e4, e5⟩ := ih (h := g) (p0 := some p) (fuel := n) (log ++ [(a, l, (h.pair p).cid)]) (hs.2.2.congr fun q _ => by
          simp only [nx, pv, thr, (gab q).1, (gab q).2, and_self]) (fun q hq => by
          obtain ⟨h1, h2⟩ := ht q (by simp [hq])
          have : g.ends q = h.ends q := by simp only [ends, (gab q).1, (gab q).2]
          exact ⟨two_ends this h1, by rw [has_ends this]; exact h2⟩) (List.nodup_cons.1 nd).2 hlen
      refine ⟨h', ?_, e1.trans (by rw [hg]; rfl), e2.trans (by rw [hg]; rfl), e3.trans (by rw [hg]; rfl), fun q => ⟨(e4 q).1.trans (gab q).1, (e4 q).2.trans (gab q).2⟩, fun q => ?_⟩
      · rw [e]
        simp only [(gab _).1, (gab _).2, List.filter_cons, hc, decide_true, if_true, List.map_cons, ha, Option.getD_some, List.append_assoc, List.singleton_append]
        congr 4
        refine List.map_congr_left fun q hq => ?_
        have : q ≠ p := by rintro rfl; exact hpt (List.mem_of_mem_filter hq)
        rw [gcid, if_neg this]
      · rw [e5, (gab q).1, (gab q).2, gcid]
        by_cases e : q = p
        · subst e
          rw [if_neg (fun z => hpt z.1), if_pos rfl, if_pos ⟨by simp, hc⟩, ha]; rfl
        · simp [e]
    · rw [if_neg hc]
      have hal : a = l := by
        simp only [has, Bool.or_eq_true, decide_eq_true_eq] at hl
        have := hl.resolve_right hc
        rw [ha] at this
        exact Option.some.inj this
      have hn : (h.pair p).a.next = t.head? := by
        rw [← hs.2.1]
        simp [nx, thr, ha, hal]
      rw [hn]
      obtain ⟨h', e, e1, e2, e3, e4, e5⟩ := ih (h := h) (p0 := some p) (fuel := n) log hs.2.2 (fun q hq => ht q (by simp [hq])) (List.nodup_cons.1 nd).2 hlen
      refine ⟨h', ?_, e1, e2, e3, e4, fun q => ?_⟩
      · rw [e, List.filter_cons]
        simp [hc]
      · rw [e5]
        by_cases e : q = p
        · subst e; simp [hc]
        · simp [e]

end PHeap
end CP
