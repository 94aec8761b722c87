import Verif.Proofs.Sim2
import Verif.Proofs.SpaceEvents5

/-! # What the solver gets: the contents of the arbiters after the collision phase -/

namespace CP
variable {F : Type} [GoFloat F]

namespace Sp

/-- One collision with contacts, seen from the arbiter it uses. -/
theorem collide_at {L : Nat → List Nat} {s0 s t : Sp F} {done : List CollideIn} (h : Col L s0 done s) {e : CollideIn}
    (hd : ∀ d ∈ done, ¬ d.sameAs e) (hc : e.count ≠ 0) (ht : s.collide e = some t) :
    (s.lookupArb e.a e.b e.pick).2 ∉ s.arbiters ∧
    (∀ y, y ≠ (s.lookupArb e.a e.b e.pick).2 → t.arbs y = s.arbs y ∧ (y ∈ t.cached → y ∈ s.cached)) ∧
    (t.arbs (s.lookupArb e.a e.b e.pick).2).a = e.a ∧ (t.arbs (s.lookupArb e.a e.b e.pick).2).b = e.b ∧
    (t.arbiters = s.arbiters ∨
      (t.arbiters = s.arbiters ++ [(s.lookupArb e.a e.b e.pick).2] ∧ (t.arbs (s.lookupArb e.a e.b e.pick).2).count = e.count)) := by
  obtain ⟨s1, k, o, eg, hk, B, n, hs1⟩ := s.getArray_spec h.head
  rw [collide_eq s e eg, if_neg hc] at ht
  have c1 : Col L s0 done s1 := h.buffers (by rw [hs1]) (by rw [hk]; simp)
  obtain ⟨s2, hs2⟩ : ∃ s2, s2 = s1.pushContacts e.count := ⟨_, rfl⟩
  have q2 : s2 = { s1 with bufs := s2.bufs } := by
    obtain ⟨f, hf⟩ : ∃ f, s1.pushContacts e.count = { s1 with bufs := f } := by
      rw [pushContacts]; split <;> exact ⟨_, rfl⟩
    rw [hs2, hf]
  have c2 : Col L s0 done s2 := c1.buffers (by rw [q2]) (by rw [q2]; exact c1.head)
  rw [← hs2] at ht
  have es : s2 = { s with bufs := s2.bufs, bufBound := s2.bufBound, head := s2.head } := by
    rw [q2, hs1]
  have el : (s.lookupArb e.a e.b e.pick).2 = (s2.lookupArb e.a e.b e.pick).2 := by
    rw [es]
    simp only [lookupArb]
    show _ = (match s.cached.find? (s.samePair e.a e.b) with | some x => _ | none => _ : Sp F × Nat).2
    cases s.cached.find? (s.samePair e.a e.b) with
    | some x => rfl
    | none => 
      cases e.pick with
      | none => rfl
      | some x => 
        dsimp only
        by_cases hx : x ∈ s.pool
        · rw [if_pos hx, if_pos hx]
        · rw [if_neg hx, if_neg hx]
  have g2 := c2.good
  have kk := g2.inv.full.core.arb
  have hoff : ∀ x, InL L s2 x → x ∉ s2.cached := fun x hx hxc => (kk.cachedIff x hx).1 hxc (c2.offs x hx)
  obtain ⟨v, x, et, ex, n2, hni, hcnt, hmem, hcase⟩ := lookup_enter g2.inv hoff e.a e.b e.count k o e.pick
  have hxr : x ∉ s2.arbiters := by
    intro q
    rcases hcase with ⟨-, c3, -⟩ | ⟨c3, -, -⟩
    · obtain ⟨d, hdm, hdp⟩ := c2.listed x q
      refine hd d hdm ?_
      rw [samePair_iff] at c3 hdp
      simp only [CollideIn.sameAs]
      omega
    · have := (kk.rest x q).2
      obtain ⟨l1, l2, l3, l4, l5, l6, l7⟩ := kk.live x (Or.inl this)
      rcases c3 with z | z
      · exact l7 z
      · omega
  have hlv : v.locked ≠ 0 := by rw [n2.eq]; show s2.locked ≠ 0; rw [c2.locked]; simp
  rw [el, ex]
  rw [ex] at et
  simp only [ex, et] at ht
  have esa : s2.arbs = s.arbs := by rw [es]
  have esr : s2.arbiters = s.arbiters := by rw [es]
  refine ⟨by rw [← esr]; exact hxr, ?_⟩
  cases eb : beginPart v e x with
  | none => rw [eb] at ht; simp at ht
  | some u =>
    rw [eb] at ht
    simp only [Option.bind_some] at ht
    obtain ⟨⟨u', fu, eu⟩, ou, xu, tu⟩ := beginPart_ev hlv eb
    have hlu : u.locked ≠ 0 := by rw [eu]; show u'.locked ≠ 0; rw [fu.locked]; exact hlv
    cases ep : prePart u e x with
    | none => rw [ep] at ht; simp at ht
    | some pr =>
      obtain ⟨w, ok⟩ := pr
      rw [ep] at ht
      have ht := Option.some.inj ht
      simp only at ht
      obtain ⟨⟨w', fw, ew⟩, ow, xw, tw, hok⟩ := prePart_ev hlu ep
      have f := finPart_ev w e x ok
      rw [ht] at f
      obtain ⟨f1, f2, f3, f4, f5, f6, f7, f8, f9⟩ := f
      have e3 : w.arbiters = s.arbiters := by
        rw [ew]; show w'.arbiters = _; rw [fw.eq]; show u.arbiters = _; rw [eu]; show u'.arbiters = _; rw [fu.eq]; show v.arbiters = _
        rw [n2.eq, es]
      have xua : (u.arbs x).a = e.a ∧ (u.arbs x).b = e.b := by rw [xu]; exact ⟨n2.ends.1, n2.ends.2.1⟩
      have hcw : (w.arbs x).count = e.count := by rw [xw]; show (u.arbs x).count = _; rw [xu]; exact hcnt
      have e4 : t.cached = v.cached := by
        rw [f1]; show w.cached = _
        rw [ew]; show w'.cached = _; rw [fw.eq]; show u.cached = _; rw [eu]; show u'.cached = _; rw [fu.eq]
      have esc : s2.cached = s.cached := by rw [es]
      refine ⟨fun y hy => ⟨by rw [f2 y hy, ow y hy, ou y hy, n2.others y hy, esa], fun hyc => ?_⟩, by rw [f4, xw]; exact xua.1, by rw [f5, xw]; exact xua.2, ?_⟩
      · rw [e4, n2.cached, esc] at hyc
        exact hyc.resolve_right hy
      rw [f9, e3]
      by_cases q : ok = true ∧ (w.arbs x).state ≠ .ignore ∧ w.inert e.a e.b = false
      · rw [if_pos q]
        refine .inr ⟨rfl, ?_⟩
        have hi : ((w.shapes e.a).sensor || (w.shapes e.b).sensor) = false ∧
            ((w.bodies (w.shapes e.a).body).infMass && (w.bodies (w.shapes e.b).body).infMass) = false := by
          have := q.2.2
          simp only [inert, Bool.or_eq_false_iff] at this ⊢
          exact this
        rw [← ht]
        simp only [finPart]
        rw [if_pos ⟨q.1, q.2.1, hi.1, hi.2⟩]
        simp [setArb, hcw]
      · rw [if_neg q]; exact .inl rfl

end Sp

namespace Sim
open Sp

/-- What the arbiters contain after some of the pairs of a step have been dealt with. -/
structure Filled (surf : Nat → Surface F) (adjust : Nat → Nat → Arb F → Arb F) (h : Bodies F) (s0 : Sp F) (arbs0 : Nat → Arb F)
    (done : List (CollideIn × Coll.Info F)) (t : Sp F) (arbs : Nat → Arb F) : Prop where
  old : ∀ x, (arbs x = arbs0 x ∧ t.arbs x = s0.arbs x ∧ (x ∈ t.cached → x ∈ s0.cached)) ∨ ∃ d ∈ done, (t.arbs x).a = d.1.a ∧ (t.arbs x).b = d.1.b
  new : ∀ x ∈ t.arbiters, ∃ d ∈ done, d.1.count ≠ 0 ∧ (t.arbs x).a = d.1.a ∧ (t.arbs x).b = d.1.b ∧
    ∃ old, ((old = arbs0 x ∧ x ∈ s0.cached ∧ s0.samePair d.1.a d.1.b x = true) ∨ old = Arb.blank) ∧ arbs x = meet surf adjust h s0 old d.1.a d.1.b d.2

theorem touch_filled {surf : Nat → Surface F} {adjust : Nat → Nat → Arb F → Arb F} {h : Bodies F} {L : Nat → List Nat} {s0 s t : Sp F}
    {arbs0 arbs arbs' : Nat → Arb F} {done : List (CollideIn × Coll.Info F)} {d : CollideIn × Coll.Info F}
    (c : Col L s0 (done.map Prod.fst) s) (f : Filled surf adjust h s0 arbs0 done s arbs)
    (hd : ∀ e ∈ done.map Prod.fst, ¬ e.sameAs d.1) (e : touch surf adjust h (s, arbs) d = some (t, arbs')) :
    Filled surf adjust h s0 arbs0 (done ++ [d]) t arbs' := by
  simp only [touch, Option.bind_eq_bind] at e
  obtain ⟨t', e1, e2⟩ := Option.bind_eq_some_iff.1 e
  by_cases hc : d.1.count = 0
  · rw [if_pos hc] at e2
    obtain ⟨rfl, rfl⟩ := Prod.mk.inj (Option.some.inj e2)
    obtain ⟨s1, k, o, eg, hk, B, n, hs1⟩ := s.getArray_spec c.head
    rw [collide_eq s d.1 eg, if_pos hc] at e1
    obtain rfl := Option.some.inj e1
    have ea : s1.arbs = s.arbs := by rw [hs1]
    have er : s1.arbiters = s.arbiters := by rw [hs1]
    have ec : s1.cached = s.cached := by rw [hs1]
    refine ⟨fun x => ?_, fun x hx => ?_⟩
    · rw [ea, ec]
      rcases f.old x with q | ⟨d', q1, q2⟩
      · exact .inl q
      · exact .inr ⟨d', by simp [q1], q2⟩
    · rw [ea]
      rw [er] at hx
      obtain ⟨d', q1, q2⟩ := f.new x hx
      exact ⟨d', by simp [q1], q2⟩
  · rw [if_neg hc] at e2
    obtain ⟨a1, a2, a3, a4, a5⟩ := collide_at c hd hc e1
    obtain ⟨rfl, rfl⟩ := Prod.mk.inj (Option.some.inj e2)
    obtain ⟨X, hX⟩ : ∃ X, X = (s.lookupArb d.1.a d.1.b d.1.pick).2 := ⟨_, rfl⟩
    rw [← hX] at a1 a2 a3 a4 a5
    simp only [← hX]
    have hold : ((if (s.cached.find? (s.samePair d.1.a d.1.b)).isSome then arbs X else Arb.blank) = arbs0 X ∧ X ∈ s0.cached ∧ s0.samePair d.1.a d.1.b X = true) ∨
        (if (s.cached.find? (s.samePair d.1.a d.1.b)).isSome then arbs X else Arb.blank) = Arb.blank := by
      cases hf : s.cached.find? (s.samePair d.1.a d.1.b) with
      | none => exact .inr rfl
      | some y =>
        have hy : X = y := by rw [hX]; simp only [lookupArb, hf]
        left
        simp only [Option.isSome_some, if_true]
        have hp := List.find?_some hf
        rcases f.old X with ⟨q, q', qc⟩ | ⟨d', q1, q2, q3⟩
        · refine ⟨q, qc (by rw [hy]; exact List.mem_of_find?_eq_some hf), ?_⟩
          rw [← hy] at hp
          simp only [samePair] at hp ⊢
          rw [← q']; exact hp
        · exfalso
          rw [← hy, samePair_iff] at hp
          refine hd d'.1 (List.mem_map_of_mem q1) ?_
          simp only [CollideIn.sameAs]
          omega
    refine ⟨fun x => ?_, fun x hx => ?_⟩
    · by_cases hx : x = X
      · subst hx; exact .inr ⟨d, by simp, a3, a4⟩
      · rw [Function.update_of_ne hx, (a2 x hx).1]
        rcases f.old x with q | ⟨d', q1, q2⟩
        · exact .inl ⟨q.1, q.2.1, fun h => q.2.2 ((a2 x hx).2 h)⟩
        · exact .inr ⟨d', by simp [q1], q2⟩
    · by_cases hx' : x = X
      · subst hx'
        rcases a5 with q | ⟨-, q⟩
        · rw [q] at hx; exact absurd hx a1
        · rw [Function.update_self, if_neg (by rw [q]; exact hc)]
          refine ⟨d, by simp, hc, a3, a4, _, hold, ?_⟩
          simp only [meet, c.move.shapes]
      · have hxs : x ∈ s.arbiters := by
          rcases a5 with q | ⟨q, -⟩
          · rwa [q] at hx
          · rw [q] at hx
            rcases List.mem_append.1 hx with z | z
            · exact z
            · exact absurd (List.mem_singleton.1 z) hx'
        rw [Function.update_of_ne hx', (a2 x hx').1]
        obtain ⟨d', q1, q2⟩ := f.new x hxs
        exact ⟨d', by simp [q1], q2⟩

theorem touches_filled {surf : Nat → Surface F} {adjust : Nat → Nat → Arb F → Arb F} {h : Bodies F} {L : Nat → List Nat} {s0 : Sp F}
    {arbs0 : Nat → Arb F} (l : List (CollideIn × Coll.Info F)) (done : List (CollideIn × Coll.Info F)) (s t : Sp F)
    (arbs arbs' : Nat → Arb F) (c : Col L s0 (done.map Prod.fst) s) (f : Filled surf adjust h s0 arbs0 done s arbs)
    (ho : ∀ e ∈ l.map Prod.fst, PairOk s0 e) (hd : ∀ d ∈ done.map Prod.fst, ∀ e ∈ l.map Prod.fst, ¬ d.sameAs e)
    (hp : (l.map Prod.fst).Pairwise (fun d e => ¬ d.sameAs e))
    (e : l.foldlM (touch surf adjust h) (s, arbs) = some (t, arbs')) :
    Filled surf adjust h s0 arbs0 (done ++ l) t arbs' := by
  induction l generalizing done s arbs with
  | nil =>
    obtain ⟨rfl, rfl⟩ := Prod.mk.inj (Option.some.inj e)
    simpa using f
  | cons d l ih =>
    rw [List.foldlM_cons, Option.bind_eq_bind] at e
    obtain ⟨⟨s1, arbs1⟩, e1, e2⟩ := Option.bind_eq_some_iff.1 e
    have hd1 : ∀ e ∈ done.map Prod.fst, ¬ e.sameAs d.1 := fun e he => hd e he _ (by simp)
    have f1 := touch_filled c f hd1 e1
    obtain ⟨s1', e3, c1⟩ := collide_col c (ho d.1 (by simp)) hd1
    obtain ⟨arbs2, e4⟩ := touch_fst (surf := surf) (adjust := adjust) (h := h) (st := (s, arbs)) e3
    rw [e4] at e1
    obtain ⟨rfl, -⟩ := Prod.mk.inj (Option.some.inj e1)
    rw [List.map_cons, List.pairwise_cons] at hp
    have := ih (done ++ [d]) s1' arbs1 (by simpa using c1) f1 (fun e he => ho e (List.mem_cons_of_mem _ he)) ?_ hp.2 e2
    · simpa using this
    · intro d' hd' e he
      rw [List.map_append, List.mem_append] at hd'
      rcases hd' with q | q
      · exact hd d' q e (List.mem_cons_of_mem _ he)
      · rw [List.map_cons, List.map_nil, List.mem_singleton] at q
        subst q
        exact hp.1 e he

theorem opening_begun (s : Sp F) (l : List Nat) : s.opening l = (s.begun.lock.runActs l).map fun v => v.pushFresh := by
  show ((s.begun.lock.runActs l).bind fun v => some v.pushFresh) = _
  cases s.begun.lock.runActs l <;> rfl

set_option maxHeartbeats 1000000 in
/-- The arbiters the solver works with. -/
theorem handed {hash : Obj → Nat} {s : Sim F} (k : s.Ok hash) {i : SimIn F} {found : List (CollideIn × Coll.Info F)} {arbs : Nat → Arb F}
    {w : CP.World F} {start mid sp : Sp F} (T : Took hash s i found arbs w start mid sp) :
    (∀ x ∈ mid.arbiters, (s.mobile (mid.arbs x).bodyA ∨ s.mobile (mid.arbs x).bodyB) →
      ∃ d ∈ found, d.1.count ≠ 0 ∧ (mid.arbs x).a = d.1.a ∧ (mid.arbs x).b = d.1.b ∧ (mid.arbs x).bodyA = (s.sc.sp.shapes d.1.a).body ∧ (mid.arbs x).bodyB = (s.sc.sp.shapes d.1.b).body ∧
        ((mid.arbs x).state = .first ↔ s.sc.sp.pairSt d.1.a d.1.b = .apart) ∧
        ∃ old, ((old = s.arbs x ∧ x ∈ s.sc.sp.cached ∧ s.sc.sp.samePair d.1.a d.1.b x = true) ∨ old = Arb.blank) ∧
          arbs x = meet s.surf i.adjust (Motion.move s.mo.bodies i.dt s.sc.sp.dynamicBodies) s.sc.sp old d.1.a d.1.b d.2) ∧
    (∀ d ∈ found, d.1.count ≠ 0 → ((s.sc.sp.pairSt d.1.a d.1.b).onContact d.1 (s.sc.sp.inert d.1.a d.1.b) true).2 = .active →
      (∃ b, (b = (s.sc.sp.shapes d.1.a).body ∨ b = (s.sc.sp.shapes d.1.b).body) ∧ s.sc.sp.typ b ≠ .static ∧ (mid.bodies b).root = none) →
      ∃ x ∈ mid.arbiters, mid.samePair d.1.a d.1.b x = true ∧ (mid.arbs x).bodyA = (s.sc.sp.shapes (mid.arbs x).a).body ∧
        (mid.arbs x).bodyB = (s.sc.sp.shapes (mid.arbs x).b).body) ∧
    (∀ x ∈ mid.arbiters, ∀ y ∈ mid.arbiters, mid.samePair (mid.arbs y).a (mid.arbs y).b x = true → x = y) := by
  obtain ⟨r, fit⟩ := k.eng.good
  have r : Sp.Reach s.sc.sp := r
  obtain ⟨L, wd⟩ := r.world
  have h := wd.good
  have hl := wd.unlocked
  obtain ⟨j, hj⟩ : ∃ j, j = (SimIn.engine i (found.map Prod.fst) arbs).acts (Motion.move s.mo.bodies i.dt s.sc.sp.dynamicBodies) := ⟨_, rfl⟩
  have ok : StepOk s.sc.sp j := by rw [hj]; exact ⟨T.stepOk.pos, T.stepOk.pairs, T.stepOk.once⟩
  have jp : j.pairs = found.map Prod.fst := by rw [hj]; rfl
  obtain ⟨v, L1, u0, ev, st, eu, eun, hu⟩ := hits_full h hl ok
  have est : start = v.pushFresh := by
    have := T.opening
    rw [opening_begun, show i.posActs = j.posActs by rw [hj]; rfl, ev] at this
    exact (Option.some.inj this).symm
  obtain ⟨u, eu'⟩ : ∃ u : Sp F, u = { u0 with locked := 0 } := ⟨_, rfl⟩
  rw [← eu'] at hu
  have host1 : Hosted u := wd.host.congr hu.keep.typ hu.keep.inSpace hu.shapes hu.keep.cons
  have hlu : u.locked = 0 := hu.keep.locked.trans hl
  obtain ⟨m, L2, em, gm, pm, -, -, -⟩ := processComponents_good hu.good hlu hu.head hu.opens host1 hu.offs j.dt j.moving
  have hlm : m.locked = 0 := pm.keep.locked.trans hlu
  obtain rfl : m = mid := by
    have := T.half
    rw [← hj, half_opening, opening_begun, ev] at this
    simp only [Option.map_some, Option.bind_some, eu, eun] at this
    rw [← eu', em] at this
    exact Option.some.inj this
  rw [← est] at st eu
  have hst : ∀ y, (start.arbs y).a = (s.sc.sp.arbs y).a ∧ (start.arbs y).b = (s.sc.sp.arbs y).b := fun y => by
    rw [st.arbs, st.arb y]; exact ⟨rfl, rfl⟩
  have hsp : ∀ p q y, start.samePair p q y = s.sc.sp.samePair p q y := fun p q y => by
    simp only [samePair, (hst y).1, (hst y).2]
  have hcach : start.cached = s.sc.sp.cached := by
    obtain ⟨_, -, -, -, -, -, -, hca, -⟩ := begun_good h hl
    have hf := frame_runActs _ (by simp [lock]) ev
    rw [est, ← hca]
    show v.pushFresh.cached = s.sc.sp.begun.lock.cached
    have e1 : v.cached = s.sc.sp.begun.lock.cached := by rw [hf.eq]
    rw [← e1, pushFresh]
    split
    · rfl
    · dsimp only; split <;> rfl
  have hshape : start.shapes = s.sc.sp.shapes := by rw [st.move.shapes]; exact st.around.move.shapes
  obtain ⟨t0, et⟩ := T.touch
  have ok1 := ok.once
  rw [jp] at ok1
  have hpairs := st.pairs
  rw [jp] at hpairs
  obtain ⟨arbs2, et2⟩ := touches_fst (surf := s.surf) (adjust := i.adjust) (h := Motion.move s.mo.bodies i.dt s.sc.sp.dynamicBodies) found s.arbs
    (by rw [← jp]; exact eu)
  rw [et] at et2
  obtain ⟨rfl, rfl⟩ := Prod.mk.inj (Option.some.inj et2)
  have F0 : Filled s.surf i.adjust (Motion.move s.mo.bodies i.dt s.sc.sp.dynamicBodies) start s.arbs [] start s.arbs :=
    ⟨fun x => .inl ⟨rfl, rfl, id⟩, fun x hx => by rw [st.empty] at hx; cases hx⟩
  have F1 := touches_filled found [] start t0 s.arbs arbs st.col F0 hpairs (by simp) ok1 et
  rw [List.nil_append] at F1
  -- the state of the pairs
  have hsig : ∀ d ∈ j.pairs, Sig start d.a d.b (s.sc.sp.pairSt d.a d.b) := by
    intro d hd
    obtain ⟨g1, g2, g3, g4⟩ := start_sig (p := d.a) (q := d.b) h st
    have pok := ok.pairs d hd
    have noff : ∀ x, Open s.sc.sp d.a d.b x → InL L s.sc.sp x → ¬ s.sc.sp.off (s.sc.sp.owner x) := by
      intro x hx hi ho
      rw [off_frozen h.inv hl ((open_iff ..).1 hx).1 hi] at ho
      have hd := pok.dyn
      rw [h.inv.full.core.shape.memDyn, h.inv.full.core.shape.memDyn, h.inv.off_iff hl, h.inv.off_iff hl] at hd
      rw [frozen, Bool.and_eq_true, rests_iff] at ho
      replace ho := ho.1
      simp only [resting, isSleeping, Option.isSome_iff_ne_none] at ho
      tauto
    by_cases hx : ∃ x, Open s.sc.sp d.a d.b x
    · obtain ⟨x, hx⟩ := hx
      refine .inr ⟨fun e => (pairSt_apart_iff h.inv).1 e x hx, x, (g1 x).2 hx, ?_⟩
      rw [pairSt_open h.inv hx]
      by_cases hi : InL L s.sc.sp x
      · rw [if_pos hi, g2 x hi (noff x hx hi)]; simp
      · rw [if_neg hi, g3 x hi]; split_ifs with e <;> simp [e]
    · have hno : ∀ x, ¬ Open s.sc.sp d.a d.b x := by simpa using hx
      exact .inl ⟨pairSt_apart hno, fun x e => hno x ((g1 x).1 e)⟩
  have hinert : ∀ p q, start.inert p q = s.sc.sp.inert p q := fun p q =>
    inert_congr hshape (fun b => (st.move.keep.infMass b).trans (st.around.move.keep.infMass b)) _ _
  have hau : u.arbiters = t0.arbiters := by rw [eu']
  have harb : u.arbs = t0.arbs := by rw [eu']
  have hmeet : ∀ d ∈ found, d.1.count ≠ 0 → ∃ x, Met L1 d.1 ((s.sc.sp.pairSt d.1.a d.1.b).onContact d.1 (s.sc.sp.inert d.1.a d.1.b) true) x start t0 := by
    intro d hd hc
    have hd' : d.1 ∈ j.pairs := by rw [jp]; exact List.mem_map_of_mem hd
    obtain ⟨x, m⟩ := loop_met st.col st.pairs ok.once eu hd' hc (hsig _ hd')
    rw [hinert] at m
    exact ⟨x, m⟩
  have hbegin : ∀ (d : CollideIn) b σ, (PairSt.onContact d b true σ).1.head? = some .begin ↔ σ = .apart := by
    intro d b σ
    simp only [PairSt.onContact]
    cases σ <;> simp <;> split_ifs <;> simp
  have hlive : ∀ x ∈ u.arbiters, x < u.arbBound ∧ x ∉ u.pool := fun x hx => by
    have hcu := (hu.good.inv.full.core.arb.rest x hx).2
    obtain ⟨-, -, -, -, -, l6, l7⟩ := hu.good.inv.full.core.arb.live x (.inl hcu)
    exact ⟨l6, l7⟩
  refine ⟨?_, ?_, ?_⟩
  rotate_left 2
  · have hlv : ∀ x ∈ m.arbiters, x < m.arbBound ∧ x ∉ m.pool := fun x hx => by
      obtain ⟨hin, -⟩ := ((gm.inv.full.core.arb.mem x).1 hx).resolve_right (by simp)
      obtain ⟨-, -, -, -, -, l6, l7⟩ := gm.inv.full.core.arb.live x (.inr hin)
      exact ⟨l6, l7⟩
    intro x hx y hy hxy
    exact gm.inv.open_unique (hlv x hx) (hlv y hy) hxy ((samePair_iff ..).2 (.inl ⟨rfl, rfl⟩))
  · intro x hx hend
    have hxu : x ∈ u.arbiters := by
      have hm := ((gm.inv.full.core.arb.mem x).1 hx).resolve_right (by simp)
      obtain ⟨hin, -⟩ := hm
      refine ((pm.inl x).1 hin).resolve_left fun hi => ?_
      rw [(pm.arbs x).2.2.1, (pm.arbs x).2.2.2.1] at hend
      have hroot : ∀ b, s.mobile b → u.typ b ≠ .static ∧ (u.bodies b).root = none := fun b hb => by
        rw [hu.keep.typ, hu.roots]; exact ⟨hb.1, not_not.1 hb.2⟩
      have ho := hu.offs x hi
      rw [hu.good.inv.off_iff hlu] at ho
      obtain ⟨c1, c2⟩ := hu.good.inv.closed.arb x hi
      by_cases hA : u.typ (u.arbs x).bodyA = .static
      · have e : u.owner x = (u.arbs x).bodyB := by simp [owner, hA]
        rw [e] at ho
        rcases hend with q | q
        · exact (hroot _ q).1 hA
        · exact ho (hroot _ q).2
      · have e : u.owner x = (u.arbs x).bodyA := by simp [owner, hA]
        rw [e] at ho
        rcases hend with q | q
        · exact ho (hroot _ q).2
        · rcases c1 ho with e' | e'
          · exact (hroot _ q).1 e'
          · exact ho (e'.symm.trans (hroot _ q).2)
    obtain ⟨d, q1, q2, q3, q4, old, q5, q6⟩ := F1.new x (by rw [← hau]; exact hxu)
    have hcu := (hu.good.inv.full.core.arb.rest x hxu).2
    obtain ⟨l1, l2, -⟩ := hu.good.inv.full.core.arb.live x (.inl hcu)
    rw [hu.shapes, harb] at l1 l2
    obtain ⟨y, my⟩ := hmeet d q1 q2
    have hy : x = y := by
      obtain ⟨b1, b2⟩ := hlive x hxu
      obtain ⟨c1, c2, c3⟩ := my.live
      refine hu.good.inv.open_unique (p := d.1.a) (q := d.1.b) ⟨b1, b2⟩ ⟨by rw [eu']; exact c1, by rw [eu']; exact c2⟩ ?_ ?_
      · rw [samePair_iff, harb]; exact .inl ⟨q3, q4⟩
      · rw [eu']; exact c3
    subst hy
    refine ⟨d, q1, q2, ?_, ?_, ?_, ?_, ?_, old, ?_, ?_⟩
    · rw [(pm.arbs x).1, harb, q3]
    · rw [(pm.arbs x).2.1, harb, q4]
    · rw [(pm.arbs x).2.2.1, harb, l1, q3]
    · rw [(pm.arbs x).2.2.2.1, harb, l2, q4]
    · rw [(pm.arbs x).2.2.2.2.2, harb, my.first (by rw [← hau]; exact hxu), hbegin]
    · rw [← hsp, ← hcach]; exact q5
    · rw [q6]; simp only [meet, hshape]
  · rintro d hd hc hact ⟨b, hb, hb1, hb2⟩
    obtain ⟨x, mx⟩ := hmeet d hd hc
    have hxu : x ∈ u.arbiters := by rw [hau]; exact mx.active.2 hact
    have hcu := (hu.good.inv.full.core.arb.rest x hxu).2
    obtain ⟨l1, l2, -⟩ := hu.good.inv.full.core.arb.live x (.inl hcu)
    rw [hu.shapes] at l1 l2
    have hpair : m.samePair d.1.a d.1.b x = true := by
      simp only [samePair, (pm.arbs x).1, (pm.arbs x).2.1, harb]
      exact mx.live.2.2
    refine ⟨x, (gm.inv.full.core.arb.mem x).2 (.inl ⟨(pm.inl x).2 (.inr hxu), ?_⟩), hpair,
      by rw [(pm.arbs x).2.2.1, (pm.arbs x).1, l1], by rw [(pm.arbs x).2.2.2.1, (pm.arbs x).2.1, l2]⟩
    have hin := (pm.inl x).2 (.inr hxu)
    obtain ⟨c1, c2⟩ := gm.inv.closed.arb x hin
    rw [gm.inv.off_iff hlm, not_not]
    have hb1 : m.typ b ≠ .static := by rw [pm.keep.typ, hu.keep.typ]; exact hb1
    have hbend : b = (m.arbs x).bodyA ∨ b = (m.arbs x).bodyB := by
      rw [(pm.arbs x).2.2.1, (pm.arbs x).2.2.2.1, l1, l2]
      rcases (samePair_iff t0 d.1.a d.1.b x).1 mx.live.2.2 with ⟨e1, e2⟩ | ⟨e1, e2⟩
      · rw [harb, e1, e2]; exact hb
      · rw [harb, e1, e2]; exact hb.symm
    by_cases hA : m.typ (m.arbs x).bodyA = .static
    · have e : m.owner x = (m.arbs x).bodyB := by simp [owner, hA]
      rw [e]
      rcases hbend with q | q
      · rw [q] at hb1; exact absurd hA hb1
      · rw [← q]; exact hb2
    · have e : m.owner x = (m.arbs x).bodyA := by simp [owner, hA]
      rw [e]
      rcases hbend with q | q
      · rw [← q]; exact hb2
      · by_contra hne
        rcases c1 hne with e' | e'
        · rw [q] at hb1; exact hb1 e'
        · rw [← q, hb2] at e'; exact hne e'.symm

end Sim
end CP
