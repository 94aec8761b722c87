import Verif.Proofs.SpaceFlood

/-! # The loop of `ProcessComponents` over the bodies -/

namespace CP
variable {F : Type}
namespace Sp

/-- The bodies of the sleeping components. -/
def asl (s : Sp F) (b : Nat) : Prop := ∃ r ∈ s.sleeping, (s.bodies b).root = some r

/-- What the loop over the components leaves alone. -/
structure Fr (u s : Sp F) : Prop where
  nBodies : s.nBodies = u.nBodies
  nCons : s.nCons = u.nCons
  bodies : ∀ b, s.bodies b = { u.bodies b with root := (s.bodies b).root, next := (s.bodies b).next }
  shapes : s.shapes = u.shapes
  cons : s.cons = u.cons
  arbs : ∀ x, ArbEq (u.arbs x) (s.arbs x)
  arbBound : s.arbBound = u.arbBound
  threshold : s.threshold = u.threshold
  staticBody : s.staticBody = u.staticBody
  staticBodies : s.staticBodies = u.staticBodies
  pool : s.pool = u.pool
  locked : s.locked = u.locked
  stamp : s.stamp = u.stamp
  trace : s.trace = u.trace
  roused : s.roused = u.roused
  head : u.head ≠ none → s.head ≠ none
  stamps : ∀ x, (s.arbs x).stamp = (u.arbs x).stamp ∨ ((s.arbs x).stamp = u.stamp ∧ u.Threaded x)

theorem Fr.refl (u : Sp F) : Fr u u :=
  ⟨rfl, rfl, fun _ => rfl, rfl, rfl, fun _ => .refl _, rfl, rfl, rfl, rfl, rfl, rfl, rfl, rfl, rfl, id, fun _ => .inl rfl⟩

theorem Fr.mapBodies {u s t : Sp F} (h : Fr u s) (e : t = { s with bodies := t.bodies })
    (hb : ∀ b, t.bodies b = { s.bodies b with root := (t.bodies b).root, next := (t.bodies b).next }) : Fr u t := by
  constructor
  case bodies => intro b; have := hb b; rw [h.bodies b] at this; exact this
  case arbs => rw [e]; exact h.arbs
  case head => rw [e]; exact h.head
  case stamps => rw [e]; exact h.stamps
  case nBodies => rw [e]; exact h.nBodies
  case nCons => rw [e]; exact h.nCons
  case shapes => rw [e]; exact h.shapes
  case cons => rw [e]; exact h.cons
  case arbBound => rw [e]; exact h.arbBound
  case threshold => rw [e]; exact h.threshold
  case staticBody => rw [e]; exact h.staticBody
  case staticBodies => rw [e]; exact h.staticBodies
  case pool => rw [e]; exact h.pool
  case locked => rw [e]; exact h.locked
  case stamp => rw [e]; exact h.stamp
  case trace => rw [e]; exact h.trace
  case roused => rw [e]; exact h.roused

theorem Fr.setSleeping {u s : Sp F} (h : Fr u s) (R : List Nat) : Fr u { s with sleeping := R } :=
  ⟨h.nBodies, h.nCons, h.bodies, h.shapes, h.cons, h.arbs, h.arbBound, h.threshold, h.staticBody, h.staticBodies, h.pool,
    h.locked, h.stamp, h.trace, h.roused, h.head, h.stamps⟩

theorem Fr.same {u s t : Sp F} (h : Fr u s) (w : Same s t) (hr : t.roused = s.roused) : Fr u t where
  nBodies := w.nBodies.trans h.nBodies
  nCons := w.nCons.trans h.nCons
  bodies b := by rw [w.bodies]; exact h.bodies b
  shapes := w.shapes.trans h.shapes
  cons := w.cons.trans h.cons
  arbs x := (h.arbs x).trans (w.arbs x)
  arbBound := w.arbBound.trans h.arbBound
  threshold := w.threshold.trans h.threshold
  staticBody := w.staticBody.trans h.staticBody
  staticBodies := w.staticBodies.trans h.staticBodies
  pool := w.pool.trans h.pool
  locked := w.locked.trans h.locked
  stamp := w.stamp.trans h.stamp
  trace := w.trace.trans h.trace
  roused := hr.trans h.roused
  head e := w.head (h.head e)
  stamps := stamps_trans (threaded_congr h.arbs h.arbBound fun b => by rw [h.bodies b]) h.stamp h.stamps w.stamps

theorem Fr.typ {u s : Sp F} (h : Fr u s) (b : Nat) : s.typ b = u.typ b := by
  simp only [Sp.typ, BodyR.type]; rw [h.bodies b]

theorem Fr.idle {u s : Sp F} (h : Fr u s) (b : Nat) : (s.bodies b).idle = (u.bodies b).idle := by
  rw [h.bodies b]

theorem Fr.arbList {u s : Sp F} (h : Fr u s) (b : Nat) : s.arbList b = u.arbList b :=
  arbList_congr h.arbs h.arbBound (fun b => by rw [h.bodies b]) b

theorem Fr.conList {u s : Sp F} (h : Fr u s) (b : Nat) : s.conList b = u.conList b := by
  have : s.conNext b = u.conNext b := by funext c; simp only [conNext, h.cons]
  simp only [Sp.conList, this, h.nCons]
  rw [h.bodies b]

theorem Fr.graph {u s : Sp F} (h : Fr u s) {N : Nat → List Nat} (g : Graph u N) : Graph s N := by
  intro b
  obtain ⟨l, cl, e1, e2, e3⟩ := g b
  refine ⟨l, cl, by rw [h.arbList, e1], by rw [h.conList, e2], ?_⟩
  have i1 : s.otherBody b = u.otherBody b := by funext c; simp only [otherBody, (h.arbs c).bodyA, (h.arbs c).bodyB]
  have i2 : s.otherCon b = u.otherCon b := by funext c; simp only [otherCon, h.cons]
  rw [i1, i2]; exact e3

variable [GoFloat F]

/-- Deactivating a list of bodies. -/
theorem deactivate_loop {L : Nat → List Nat} : ∀ (l : List Nat) (A : Nat → Prop) (s : Sp F), Core A L [] s → l.Nodup →
    (∀ b ∈ l, ¬ A b ∧ (s.bodies b).inSpace = true ∧ s.typ b = .dynamic) →
    ∃ t, l.foldlM deactivateBody s = some t ∧ Core (fun x => A x ∨ x ∈ l) L [] t ∧ Same s t ∧ t.roused = s.roused ∧
      t.dynamicBodies = s.dynamicBodies.filter fun x => decide (x ∉ l)
  | [], A, s, h, _, _ => ⟨s, rfl, by simpa using h, .refl s, rfl, by simp⟩
  | b :: l, A, s, h, hn, hl => by
    obtain ⟨h1, h2, h3⟩ := hl b (by simp)
    obtain ⟨t, e, c, w, r, d⟩ := deactivateBody_core h h1 h2 h3
    have hn' := List.nodup_cons.1 hn
    obtain ⟨v, e', c', w', r', d'⟩ := deactivate_loop l _ t c hn'.2 (fun x hx => by
      obtain ⟨q1, q2, q3⟩ := hl x (by simp [hx])
      refine ⟨?_, by rw [w.bodies]; exact q2, by rw [w.typ]; exact q3⟩
      rintro (z | rfl)
      · exact q1 z
      · exact hn'.1 hx)
    refine ⟨v, by rw [List.foldlM_cons, e]; exact e', c'.congrA (fun x => by simp only [List.mem_cons]; tauto), w.trans w',
      r'.trans r, ?_⟩
    rw [d', d, h.body.dynNodup.erase_eq_filter, List.filter_filter]
    congr 1
    funext x
    by_cases e1 : x = b
    · simp [e1]
    · by_cases e2 : x ∈ l
      · simp [e2]
      · simp [e1, e2]

/-- Connected in the graph `N` of dynamic bodies. -/
abbrev Conn (D : Nat → Prop) (N : Nat → List Nat) : Nat → Nat → Prop :=
  Relation.ReflTransGen (fun p q => D p ∧ D q ∧ q ∈ N p)

/-- The state of the loop: `pre` has been visited, `suf` not yet; `u` is the state before the loop. -/
structure CL (u : Sp F) (L : Nat → List Nat) (D : Nat → Prop) (N : Nat → List Nat) (pre suf : List Nat) (s : Sp F) :
    Prop where
  fr : Fr u s
  list : s.dynamicBodies = pre ++ suf
  core : Core s.asl L [] s
  sleepNodup : s.sleeping.Nodup
  chain : ∀ r ∈ s.sleeping, ∃ l, IsChain (fun b => (s.bodies b).next) (some r) l ∧ ∀ b, b ∈ l ↔ (s.bodies b).root = some r
  rootless : ∀ b, (s.bodies b).root = none → (s.bodies b).next = none
  mark : ∀ b r, (s.bodies b).root = some r → r ∈ s.sleeping ∨ (r ∈ pre ∧ b ∈ suf ∧ D b)
  preRoot : ∀ b ∈ pre, (s.bodies b).root = none
  asleepClosed : ∀ b r, r ∈ s.sleeping → (s.bodies b).root = some r → ∀ c ∈ N b, D c → (s.bodies c).root = some r
  freeClosed : ∀ b ∈ suf, D b → (s.bodies b).root = none → ∀ c ∈ N b, D c → c ∈ suf ∧ (s.bodies c).root = none
  old : ∀ b r, (u.bodies b).root = some r → (s.bodies b).root = some r ∧ r ∈ s.sleeping
  active : ∀ b, D b → (b ∈ pre ∨ (∃ r ∈ pre, (s.bodies b).root = some r)) →
    ∃ c, Conn D N b c ∧ ((u.bodies c).idle).lt u.threshold = true
  newly : ∀ b r, (s.bodies b).root = some r → r ∈ s.sleeping → (u.bodies b).root = none →
    ∀ c, (Conn D N b c ↔ (s.bodies c).root = some r) ∧ (Conn D N b c → ((u.bodies c).idle).lt u.threshold = false)

theorem CL.self_root {u : Sp F} {L : Nat → List Nat} {D : Nat → Prop} {N : Nat → List Nat} {pre suf : List Nat} {s : Sp F}
    (h : CL u L D N pre suf s) {r : Nat} (hr : r ∈ s.sleeping) : (s.bodies r).root = some r := by
  obtain ⟨l, hc, hm⟩ := h.chain r hr
  cases l with
  | nil => simp [IsChain] at hc
  | cons x l =>
    have : r = x := by simpa using hc.1
    subst this
    exact (hm r).1 (by simp)

omit [GoFloat F] in
theorem Conn.symm {D : Nat → Prop} {N : Nat → List Nat} (hsym : ∀ p q, D p → D q → q ∈ N p → p ∈ N q) {b c : Nat}
    (h : Conn D N b c) : Conn D N c b := by
  induction h with
  | refl => exact .refl
  | tail _ h2 ih => exact Relation.ReflTransGen.head ⟨h2.2.1, h2.1, hsym _ _ h2.1 h2.2.1 h2.2.2⟩ ih

set_option maxHeartbeats 2000000 in
/-- The loop visits all bodies and never fails. -/
theorem component_loop {u : Sp F} {L : Nat → List Nat} {D : Nat → Prop} {N : Nat → List Nat}
    (hg : Graph u N) (htyp : ∀ b, u.typ b = .dynamic ↔ D b) (hsym : ∀ p q, D p → D q → q ∈ N p → p ∈ N q)
    (hkin : ∀ b, u.typ b = .kinematic → ((u.bodies b).idle).lt u.threshold = true) :
    ∀ (n : Nat) (pre suf : List Nat) (s : Sp F), CL u L D N pre suf s → suf.length ≤ n →
      ∃ t pre', componentLoop n pre.length s = some t ∧ CL u L D N pre' [] t
  | 0, pre, suf, s, h, hn => by
    have : suf = [] := List.length_eq_zero_iff.1 (by omega)
    subst this
    exact ⟨s, pre, rfl, h⟩
  | n + 1, pre, [], s, h, _ => by
    refine ⟨s, pre, ?_, h⟩
    simp only [componentLoop]
    rw [h.list]
    simp
  | n + 1, pre, b :: suf, s, h, hn => by
    have hnd : (pre ++ b :: suf).Nodup := by rw [← h.list]; exact h.core.body.dynNodup
    have hbpre : b ∉ pre := fun q => (List.nodup_append.1 hnd).2.2 b q b (by simp) rfl
    have hbsuf : b ∉ suf := (List.nodup_cons.1 (List.nodup_append.1 hnd).2.1).1
    have hbd : b ∈ s.dynamicBodies := by rw [h.list]; simp
    have hget : s.dynamicBodies[pre.length]? = some b := by rw [h.list]; simp
    have hstep : ∀ v : Sp F, (pre ++ [b]).length = pre.length + 1 := by simp
    -- moving on to the next body
    have next : ∀ v : Sp F, Fr u v → v.dynamicBodies = pre ++ b :: suf → Core v.asl L [] v → v.sleeping = s.sleeping →
        (∀ c, (v.bodies c).root = none → (v.bodies c).next = none) →
        (∀ r ∈ v.sleeping, ∃ l, IsChain (fun c => (v.bodies c).next) (some r) l ∧ ∀ c, c ∈ l ↔ (v.bodies c).root = some r) →
        (∀ c r, (v.bodies c).root = some r → r ∈ v.sleeping ∨ ((r ∈ pre ∨ r = b) ∧ c ∈ b :: suf ∧ D c)) →
        (∀ c ∈ pre, (v.bodies c).root = none) →
        (∀ c r, r ∈ v.sleeping → ((v.bodies c).root = some r ↔ (s.bodies c).root = some r)) →
        (∀ c ∈ suf, D c → (v.bodies c).root = none → ∀ d ∈ N c, D d → d ∈ suf ∧ (v.bodies d).root = none) →
        (∀ c, D c → (c ∈ pre ∨ c = b ∨ (∃ r, (r ∈ pre ∨ r = b) ∧ (v.bodies c).root = some r)) →
          ∃ d, Conn D N c d ∧ ((u.bodies d).idle).lt u.threshold = true) →
        ∃ t pre', componentLoop n (pre.length + 1) (v.setBody b fun r => { r with root := none, next := none }) = some t ∧ CL u L D N pre' [] t := by
      intro v h1 h2 h3 h4 h5 h6 h7 h8 h9 h10 h11
      obtain ⟨w, hw⟩ : ∃ w, w = v.setBody b fun r => { r with root := none, next := none } := ⟨_, rfl⟩
      rw [← hw]
      have ew : w = { v with bodies := w.bodies } := by rw [hw]; rfl
      have wb : w.bodies b = { v.bodies b with root := none, next := none } := by rw [hw]; simp [setBody]
      have wo : ∀ c, c ≠ b → w.bodies c = v.bodies c := fun c hc => by rw [hw]; simp [setBody, hc]
      have wbody : ∀ c, w.bodies c = { v.bodies c with root := (w.bodies c).root, next := (w.bodies c).next } := by
        intro c; by_cases e : c = b
        · rw [e, wb]
        · rw [wo c e]
      have wsl : w.sleeping = v.sleeping := by rw [ew]
      have bna : ∀ r ∈ v.sleeping, (v.bodies b).root ≠ some r := by
        intro r hr hb
        have h3' := (h3.body.memDyn b).1 (by rw [h2]; simp)
        exact h3'.2.2 ⟨r, hr, hb⟩
      have wroot : ∀ c, (w.bodies c).root = if c = b then none else (v.bodies c).root := by
        intro c; split_ifs with e
        · rw [e, wb]
        · rw [wo c e]
      have wasl : ∀ c r, r ∈ v.sleeping → ((w.bodies c).root = some r ↔ (v.bodies c).root = some r) := by
        intro c r hr
        rw [wroot]; split_ifs with e
        · subst e; simp [bna r hr]
        · exact .rfl
      rw [← hstep v]
      refine component_loop hg htyp hsym hkin n (pre ++ [b]) suf w ⟨h1.mapBodies ew wbody, ?_, ?_, ?_, ?_, ?_, ?_, ?_, ?_, ?_, ?_, ?_, ?_⟩ ?_
      · rw [ew]; show v.dynamicBodies = _; rw [h2]; simp
      · have := h3.mapBodies w.bodies (fun c => by rw [wbody c]; exact ⟨rfl, rfl, rfl, rfl, rfl, rfl⟩)
        rw [← ew] at this
        refine this.congrA fun c => ?_
        simp only [asl, wsl]
        exact exists_congr fun r => and_congr_right fun hr => (wasl c r hr).symm
      · rw [wsl, h4]; exact h.sleepNodup
      · intro r hr
        rw [wsl] at hr
        obtain ⟨l, hc, hm⟩ := h6 r hr
        refine ⟨l, hc.congr fun x hx => ?_, fun c => by rw [hm, wasl c r hr]⟩
        have : x ≠ b := by rintro rfl; exact bna r hr ((hm x).1 hx)
        show (w.bodies x).next = _
        rw [wo x this]
      · intro c hc
        by_cases e : c = b
        · rw [e, wb]
        · rw [wo c e] at hc ⊢; exact h5 c hc
      · intro c r hc
        rw [wroot] at hc
        split_ifs at hc with e
        rw [wsl]
        rcases h7 c r hc with q | ⟨q1, q2, q3⟩
        · exact .inl q
        · refine .inr ⟨by simpa using q1, ?_, q3⟩
          rcases List.mem_cons.1 q2 with z | z
          · exact absurd z e
          · exact z
      · intro c hc
        rw [wroot]
        split_ifs with e
        · rfl
        · rcases List.mem_append.1 hc with z | z
          · exact h8 c z
          · exact absurd (by simpa using z) e
      · intro c r hr hc d hd hdd
        rw [wsl] at hr
        rw [wasl _ r hr, h9 _ r hr] at hc ⊢
        exact h.asleepClosed c r (by rw [← h4]; exact hr) hc d hd hdd
      · intro c hc hD hr d hd hdd
        have e : c ≠ b := by rintro rfl; exact hbsuf hc
        rw [wroot, if_neg e] at hr
        obtain ⟨z1, z2⟩ := h10 c hc hD hr d hd hdd
        refine ⟨z1, ?_⟩
        rw [wroot]; split_ifs
        · rfl
        · exact z2
      · intro c r hc
        obtain ⟨z1, z2⟩ := h.old c r hc
        have hr : r ∈ v.sleeping := by rw [h4]; exact z2
        rw [wsl, wasl c r hr, h9 c r hr]
        exact ⟨z1, hr⟩
      · intro c hD hc
        refine h11 c hD ?_
        rcases hc with z | ⟨r, z, z'⟩
        · rcases List.mem_append.1 z with z | z
          · exact .inl z
          · exact .inr (.inl (by simpa using z))
        · rw [wroot] at z'
          split_ifs at z'
          exact .inr (.inr ⟨r, by simpa using z, z'⟩)
      · intro c r hc hr hu d
        rw [wsl] at hr
        rw [wasl _ r hr, h9 _ r hr] at hc
        rw [wasl _ r hr, h9 _ r hr]
        exact h.newly c r hc (by rw [← h4]; exact hr) hu d
      · simp only [List.length_cons] at hn; omega
    simp only [componentLoop]
    rw [hget]
    simp only []
    cases hroot : (s.bodies b).root with
    | some r =>
      simp only [Option.bind_eq_bind, Option.bind_some, if_false, Bool.false_eq_true]
      have hrb : r ∈ pre := by
        rcases h.mark b r hroot with q | ⟨q, -⟩
        · exact absurd ⟨r, q, hroot⟩ ((h.core.body.memDyn b).1 hbd).2.2
        · exact q
      refine next s h.fr h.list h.core rfl h.rootless h.chain ?_ h.preRoot (fun _ _ _ => .rfl) ?_ ?_
      · intro c r' hc
        rcases h.mark c r' hc with q | ⟨q1, q2, q3⟩
        · exact .inl q
        · exact .inr ⟨.inl q1, q2, q3⟩
      · intro c hc hD hr d hd hdd
        obtain ⟨z1, z2⟩ := h.freeClosed c (by simp [hc]) hD hr d hd hdd
        refine ⟨?_, z2⟩
        rcases List.mem_cons.1 z1 with z | z
        · rw [z, hroot] at z2; simp at z2
        · exact z
      · intro c hD hc
        refine h.active c hD ?_
        rcases hc with z | rfl | ⟨q, z | rfl, z'⟩
        · exact .inl z
        · exact .inr ⟨r, hrb, hroot⟩
        · exact .inr ⟨q, z, z'⟩
        · rcases h.mark c q z' with y | ⟨y, -⟩
          · have := h.self_root y
            exact absurd ⟨q, y, this⟩ ((h.core.body.memDyn q).1 hbd).2.2
          · exact absurd y hbpre
    | none =>
      have hno : ∀ c, (s.bodies c).root ≠ some b := by
        intro c hc
        rcases h.mark c b hc with q | ⟨q, -⟩
        · rw [h.self_root q] at hroot; simp at hroot
        · exact hbpre q
      have hst : s.typ b ≠ .static := ((h.core.body.memDyn b).1 hbd).2.1
      by_cases hD : D b
      swap
      · -- a kinematic body
        have hty : s.typ b ≠ .dynamic := by rw [h.fr.typ, ne_eq, htyp]; exact hD
        have hk : u.typ b = .kinematic := by
          rw [h.fr.typ] at hst hty
          cases e : u.typ b <;> simp_all
        have hff : floodFill (s.nBodies + 1) s b b = some s := by
          simp only [floodFill]; rw [if_pos hty]
        have hcl : s.compList b = some [b] := by
          refine walk_of_chain ⟨rfl, ?_⟩ ?_
          · exact h.rootless b hroot
          · have := h.core.body.bound b ((h.core.body.memDyn b).1 hbd).1
            simp only [List.length_singleton]; omega
        have hca : s.componentActive [b] = true := by
          simp only [componentActive, List.any_cons, List.any_nil, Bool.or_false]
          rw [h.fr.idle, h.fr.threshold]; exact hkin b hk
        simp only [hff, hcl, Option.bind_eq_bind, Option.bind_some, hca, if_true, if_false, Bool.false_eq_true]
        refine next s h.fr h.list h.core rfl h.rootless h.chain ?_ h.preRoot (fun _ _ _ => .rfl) ?_ ?_
        · intro c r' hc
          rcases h.mark c r' hc with q | ⟨q1, q2, q3⟩
          · exact .inl q
          · exact .inr ⟨.inl q1, q2, q3⟩
        · intro c hc hDc hr d hd hdd
          obtain ⟨z1, z2⟩ := h.freeClosed c (by simp [hc]) hDc hr d hd hdd
          refine ⟨?_, z2⟩
          rcases List.mem_cons.1 z1 with rfl | z
          · exact absurd hdd hD
          · exact z
        · intro c hDc hc
          refine h.active c hDc ?_
          rcases hc with z | rfl | ⟨q, z | rfl, z'⟩
          · exact .inl z
          · exact absurd hDc hD
          · exact .inr ⟨q, z, z'⟩
          · exact absurd z' (hno c)
      · -- a dynamic body: flood fill
        obtain ⟨t, l, e1, e2, e3, e4, e5, e6, e7, e8, e9⟩ := flood_top (s := s) (b := b) (D := D) (N := N)
          (K := fun c => D c ∧ c ∈ b :: suf ∧ (s.bodies c).root = none)
          (fun c hc d hd hdd => ⟨hdd, h.freeClosed c hc.2.1 hc.1 hc.2.2 d hd hdd⟩)
          (fun c hc => h.core.body.bound c ((h.core.body.memDyn c).1 (by rw [h.list]; simp only [List.mem_append]; exact .inr hc.2.1)).1)
          (fun c => by rw [h.fr.typ, htyp]) (h.fr.graph hg) (fun c hc => hc.2.2) hno h.rootless hD ⟨hD, by simp, hroot⟩
        have hbl : b ∈ l := (e6 b).2 .refl
        have frt : Fr u t := h.fr.mapBodies e2 e3
        have tsl : t.sleeping = s.sleeping := by rw [e2]
        have tdl : t.dynamicBodies = s.dynamicBodies := by rw [e2]
        have lna : ∀ c ∈ l, ∀ r, (s.bodies c).root ≠ some r := fun c hc r => by rw [(e7 c hc).2.2]; simp
        have tasl : ∀ c r, r ∈ s.sleeping → ((t.bodies c).root = some r ↔ (s.bodies c).root = some r) := by
          intro c r hr
          rw [e8]; split_ifs with e
          · refine ⟨fun z => ?_, fun z => absurd z (lna c e r)⟩
            simp only [Option.some.injEq] at z
            subst z
            rw [h.self_root hr] at hroot; simp at hroot
          · exact .rfl
        have tcore : Core s.asl L [] t := by
          have := h.core.mapBodies t.bodies (fun c => by rw [e3 c]; exact ⟨rfl, rfl, rfl, rfl, rfl, rfl⟩)
          rw [← e2] at this
          exact this
        have tchain : ∀ r ∈ s.sleeping, ∃ l, IsChain (fun c => (t.bodies c).next) (some r) l ∧ ∀ c, c ∈ l ↔ (t.bodies c).root = some r := by
          intro r hr
          obtain ⟨l', hc, hm⟩ := h.chain r hr
          refine ⟨l', hc.congr fun x hx => ?_, fun c => by rw [hm, tasl c r hr]⟩
          exact e9 x fun z => lna x z r ((hm x).1 hx)
        have trl : ∀ c, (t.bodies c).root = none → (t.bodies c).next = none := by
          intro c hc
          rw [e8] at hc
          split_ifs at hc with e
          rw [e9 c e]; exact h.rootless c hc
        simp only [e1, e5, Option.bind_eq_bind, Option.bind_some]
        by_cases hact : t.componentActive l = true
        · -- active
          simp only [hact, if_true, Option.bind_some, if_false, Bool.false_eq_true]
          have hex : ∃ d ∈ l, ((u.bodies d).idle).lt u.threshold = true := by
            simp only [componentActive, List.any_eq_true] at hact
            obtain ⟨d, hd, hx⟩ := hact
            exact ⟨d, hd, by rw [frt.idle, frt.threshold] at hx; exact hx⟩
          obtain ⟨d0, hd0, hi0⟩ := hex
          have hl0 : ∀ c ∈ l, ∃ d, Conn D N c d ∧ ((u.bodies d).idle).lt u.threshold = true := by
            intro c hc
            exact ⟨d0, (Conn.symm hsym ((e6 c).1 hc)).trans ((e6 d0).1 hd0), hi0⟩
          refine next t frt (by rw [tdl]; exact h.list) (tcore.congrA fun c => ?_) tsl trl (by rw [tsl]; exact tchain) ?_ ?_ ?_ ?_ ?_
          · simp only [asl, tsl]
            exact exists_congr fun r => and_congr_right fun hr => (tasl c r hr).symm
          · intro c r hc
            rw [tsl]
            rw [e8] at hc
            split_ifs at hc with e
            · simp only [Option.some.injEq] at hc
              exact .inr ⟨.inr hc.symm, (e7 c e).2.1, (e7 c e).1⟩
            · rcases h.mark c r hc with q | ⟨q1, q2, q3⟩
              · exact .inl q
              · exact .inr ⟨.inl q1, q2, q3⟩
          · intro c hc
            rw [e8, if_neg]
            · exact h.preRoot c hc
            · intro z
              exact (List.nodup_append.1 hnd).2.2 c hc c (e7 c z).2.1 rfl
          · intro c r hr
            rw [tsl] at hr
            exact tasl c r hr
          · intro c hc hDc hr d hd hdd
            rw [e8] at hr
            split_ifs at hr with e
            obtain ⟨z1, z2⟩ := h.freeClosed c (by simp [hc]) hDc hr d hd hdd
            have hdl : d ∉ l := by
              intro z
              refine e ((e6 c).2 (((e6 d).1 z).tail ⟨hdd, hDc, hsym c d hDc hdd hd⟩))
            refine ⟨?_, ?_⟩
            · rcases List.mem_cons.1 z1 with rfl | z
              · exact absurd hbl hdl
              · exact z
            · rw [e8, if_neg hdl]; exact z2
          · intro c hDc hc
            rcases hc with z | rfl | ⟨q, z, z'⟩
            · exact h.active c hDc (.inl z)
            · exact hl0 c hbl
            · rw [e8] at z'
              split_ifs at z' with e
              · exact hl0 c e
              · rcases z with z | rfl
                · exact h.active c hDc (.inr ⟨q, z, z'⟩)
                · exact absurd z' (hno c)
        · -- falls asleep
          have hact' : t.componentActive l = false := by simpa using hact
          simp only [hact', Bool.false_eq_true, if_false]
          have hidle : ∀ d ∈ l, ((u.bodies d).idle).lt u.threshold = false := by
            intro d hd
            simp only [componentActive, List.any_eq_false] at hact'
            have := hact' d hd
            rw [frt.idle, frt.threshold] at this
            simpa using this
          obtain ⟨t1, ht1⟩ : ∃ t1, t1 = { t with sleeping := t.sleeping ++ [b] } := ⟨_, rfl⟩
          have c1 : Core s.asl L [] t1 := by rw [ht1]; exact tcore.setSleeping _
          have f1 : Fr u t1 := by rw [ht1]; exact frt.setSleeping _
          obtain ⟨v, a1, a2, a3, a4, a5⟩ := deactivate_loop l s.asl t1 c1 e4.nodup (fun c hc => by
            obtain ⟨q1, q2, q3⟩ := e7 c hc
            refine ⟨?_, ?_, ?_⟩
            · rintro ⟨r, -, hr⟩; exact lna c hc r hr
            · have := (h.core.body.memDyn c).1 (by rw [h.list]; simp only [List.mem_append]; exact .inr q2)
              rw [f1.bodies c, ← this.1, h.fr.bodies c]
            · rw [f1.typ, htyp]; exact q1)
          rw [ht1] at a1
          rw [a1]
          simp only [Option.bind_some, if_true]
          have vb : v.bodies = t.bodies := by rw [a3.bodies, ht1]
          have vsl : v.sleeping = s.sleeping ++ [b] := by rw [a3.sleeping, ht1]; show t.sleeping ++ [b] = _; rw [tsl]
          have hbs : b ∉ s.sleeping := by
            intro z; rw [h.self_root z] at hroot; simp at hroot
          have hdl : v.dynamicBodies = pre ++ suf.filter fun x => decide (x ∉ l) := by
            rw [a5]
            have : t1.dynamicBodies = pre ++ b :: suf := by rw [ht1]; show t.dynamicBodies = _; rw [tdl]; exact h.list
            rw [this, List.filter_append]
            congr 1
            · rw [List.filter_eq_self]
              intro c hc
              simp only [decide_eq_true_eq]
              intro z
              exact (List.nodup_append.1 hnd).2.2 c hc c (e7 c z).2.1 rfl
            · rw [List.filter_cons_of_neg]
              simp [hbl]
          have rootv : ∀ c r, (v.bodies c).root = some r ↔ (c ∈ l ∧ r = b) ∨ (s.bodies c).root = some r := by
            intro c r
            rw [vb, e8]
            split_ifs with e
            · simp only [Option.some.injEq, e, true_and]
              refine ⟨fun z => .inl z.symm, ?_⟩
              rintro (z | z)
              · exact z.symm
              · exact absurd z (lna c e r)
            · simp [e]
          refine component_loop hg htyp hsym hkin n pre (suf.filter fun x => decide (x ∉ l)) v ⟨f1.same a3 a4, hdl, ?_, ?_, ?_, ?_, ?_, ?_, ?_, ?_, ?_, ?_, ?_⟩ ?_
          · refine a2.congrA fun c => ?_
            simp only [asl, vsl, rootv, List.mem_append, List.mem_singleton]
            constructor
            · rintro (⟨r, z1, z2⟩ | z)
              · exact ⟨r, .inl z1, .inr z2⟩
              · exact ⟨b, .inr rfl, .inl ⟨z, rfl⟩⟩
            · rintro ⟨r, z1, z2 | z2⟩
              · exact .inr z2.1
              · rcases z1 with z1 | rfl
                · exact .inl ⟨r, z1, z2⟩
                · exact absurd z2 (hno c)
          · rw [vsl]; exact nodup_concat h.sleepNodup hbs
          · intro r hr
            rw [vsl, List.mem_append, List.mem_singleton] at hr
            rcases hr with hr | rfl
            · rw [vb]; exact tchain r hr
            · refine ⟨l, by rw [vb]; exact e4, fun c => ?_⟩
              rw [rootv]
              simp [hno c]
          · rw [vb]; exact trl
          · intro c r hc
            rw [vsl, List.mem_append, List.mem_singleton]
            rw [rootv] at hc
            rcases hc with ⟨-, z⟩ | z
            · exact .inl (.inr z)
            · rcases h.mark c r z with q | ⟨q1, q2, q3⟩
              · exact .inl (.inl q)
              · refine .inr ⟨q1, ?_, q3⟩
                simp only [List.mem_filter, decide_eq_true_eq]
                refine ⟨?_, fun y => lna c y r z⟩
                rcases List.mem_cons.1 q2 with rfl | y
                · rw [hroot] at z; simp at z
                · exact y
          · intro c hc
            rw [vb, e8, if_neg]
            · exact h.preRoot c hc
            · intro z
              exact (List.nodup_append.1 hnd).2.2 c hc c (e7 c z).2.1 rfl
          · intro c r hr hc d hd hdd
            rw [vsl, List.mem_append, List.mem_singleton] at hr
            rw [rootv] at hc ⊢
            rcases hc with ⟨z, rfl⟩ | z
            · exact .inl ⟨(e6 d).2 (((e6 c).1 z).tail ⟨(e7 c z).1, hdd, hd⟩), rfl⟩
            · right
              rcases hr with hr | rfl
              · exact h.asleepClosed c r hr z d hd hdd
              · exact absurd z (hno c)
          · intro c hc hDc hr d hd hdd
            simp only [List.mem_filter, decide_eq_true_eq] at hc ⊢
            rw [vb, e8, if_neg hc.2] at hr
            obtain ⟨z1, z2⟩ := h.freeClosed c (by simp [hc.1]) hDc hr d hd hdd
            have hdl : d ∉ l := by
              intro z
              exact hc.2 ((e6 c).2 (((e6 d).1 z).tail ⟨hdd, hDc, hsym c d hDc hdd hd⟩))
            refine ⟨⟨?_, hdl⟩, ?_⟩
            · rcases List.mem_cons.1 z1 with rfl | z
              · exact absurd hbl hdl
              · exact z
            · rw [vb, e8, if_neg hdl]; exact z2
          · intro c r hc
            obtain ⟨z1, z2⟩ := h.old c r hc
            rw [rootv, vsl]
            exact ⟨.inr z1, by simp [z2]⟩
          · intro c hDc hc
            refine h.active c hDc ?_
            rcases hc with z | ⟨r, z, z'⟩
            · exact .inl z
            · rw [rootv] at z'
              rcases z' with ⟨-, rfl⟩ | z'
              · exact absurd z hbpre
              · exact .inr ⟨r, z, z'⟩
          · intro c r hc hr hu d
            rw [rootv] at hc
            rcases hc with ⟨z, rfl⟩ | z
            · have hcc : Conn D N c d ↔ d ∈ l := by
                rw [e6]
                exact ⟨fun q => ((e6 c).1 z).trans q, fun q => (Conn.symm hsym ((e6 c).1 z)).trans q⟩
              rw [rootv, hcc]
              refine ⟨by simp [hno d], fun q => hidle d q⟩
            · have hrs : r ∈ s.sleeping := by
                rw [vsl, List.mem_append, List.mem_singleton] at hr
                rcases hr with hr | rfl
                · exact hr
                · exact absurd z (hno c)
              obtain ⟨y1, y2⟩ := h.newly c r z hrs hu d
              refine ⟨?_, y2⟩
              rw [y1, rootv]
              refine ⟨.inr, ?_⟩
              rintro (⟨-, rfl⟩ | y)
              · exact absurd hrs hbs
              · exact y
          · have := List.length_filter_le (fun x => decide (x ∉ l)) suf
            simp only [List.length_cons] at hn
            omega

end Sp
end CP
