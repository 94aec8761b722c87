import Verif.Proofs.SpaceEvents

/-! # The callbacks of one collision -/

namespace CP
variable {F : Type}
namespace Sp
variable [GoFloat F]

/-- The events of the Begin callback. -/
theorem beginPart_ev {s t : Sp F} {e : CollideIn} {x : Nat} (hl : s.locked ≠ 0) (h : beginPart s e x = some t) :
    (∃ v, Frame s v ∧ t = { v with arbs := t.arbs, trace := t.trace }) ∧
    (∀ y, y ≠ x → t.arbs y = s.arbs y) ∧
    t.arbs x = { s.arbs x with state := if (s.arbs x).state = .first ∧ (e.beginRet = false ∨ e.beginIgnore = true) then .ignore else (s.arbs x).state } ∧
    t.trace = s.trace ++ (if (s.arbs x).state = .first then [⟨.begin, (s.arbs x).a, (s.arbs x).b, s.stamp⟩] else []) := by
  rw [beginPart] at h
  by_cases hf : (s.arbs x).state = .first
  · rw [if_pos hf] at h
    cases er : (s.emit .begin x).runActs e.beginActs with
    | none => rw [er] at h; simp at h
    | some u =>
      rw [er] at h
      have h := Option.some.inj h
      have f := frame_runActs e.beginActs (s := s.emit .begin x) hl er
      have ea : u.arbs = s.arbs := by rw [f.eq]; rfl
      have et : u.trace = s.trace ++ [⟨.begin, (s.arbs x).a, (s.arbs x).b, s.stamp⟩] := by rw [f.eq]; rfl
      have fr : Frame s ({ u with trace := s.trace } : Sp F) := ⟨by rw [f.eq]; rfl, f.inf⟩
      simp only [hf, true_and, if_true]
      by_cases hi : e.beginRet = false ∨ e.beginIgnore = true
      · rw [if_pos hi] at h
        rw [← h, if_pos hi]
        refine ⟨⟨_, fr, rfl⟩, fun y hy => ?_, ?_, et⟩
        · simp [setArb, hy, ea]
        · simp [setArb, ea]
      · rw [if_neg hi] at h
        rw [← h, if_neg hi]
        refine ⟨⟨_, fr, rfl⟩, fun y hy => by rw [ea], ?_, et⟩
        rw [ea, ← hf]
  · rw [if_neg hf] at h
    rw [← Option.some.inj h]
    simp only [hf, false_and, if_false, List.append_nil]
    exact ⟨⟨s, .refl s, rfl⟩, fun _ _ => trivial, trivial, trivial⟩

/-- The events of the PreSolve callback. -/
theorem prePart_ev {s t : Sp F} {e : CollideIn} {x : Nat} {ok : Bool} (hl : s.locked ≠ 0) (h : prePart s e x = some (t, ok)) :
    (∃ v, Frame s v ∧ t = { v with arbs := t.arbs, trace := t.trace }) ∧
    (∀ y, y ≠ x → t.arbs y = s.arbs y) ∧
    t.arbs x = { s.arbs x with state := if (s.arbs x).state = .ignore ∨ e.preIgnore = true then .ignore else (s.arbs x).state } ∧
    t.trace = s.trace ++ (if (s.arbs x).state = .ignore then [] else [⟨.preSolve, (s.arbs x).a, (s.arbs x).b, s.stamp⟩]) ∧
    ok = (decide ((s.arbs x).state ≠ .ignore) && e.preRet) := by
  rw [prePart] at h
  by_cases hf : (s.arbs x).state = .ignore
  · rw [if_neg (not_not.2 hf)] at h
    have h := Option.some.inj h
    obtain ⟨rfl, rfl⟩ := Prod.mk.inj h
    simp only [hf, true_or, if_true, List.append_nil, ne_eq, not_true_eq_false, decide_false, Bool.false_and]
    refine ⟨⟨s, .refl s, rfl⟩, fun _ _ => trivial, ?_, trivial, trivial⟩
    rw [← hf]
  · rw [if_pos hf] at h
    cases er : (s.emit .preSolve x).runActs e.preActs with
    | none => rw [er] at h; simp at h
    | some u =>
      rw [er] at h
      have h := Option.some.inj h
      obtain ⟨h2, rfl⟩ := Prod.mk.inj h
      have f := frame_runActs e.preActs (s := s.emit .preSolve x) hl er
      have ea : u.arbs = s.arbs := by rw [f.eq]; rfl
      have et : u.trace = s.trace ++ [⟨.preSolve, (s.arbs x).a, (s.arbs x).b, s.stamp⟩] := by rw [f.eq]; rfl
      have fr : Frame s ({ u with trace := s.trace } : Sp F) := ⟨by rw [f.eq]; rfl, f.inf⟩
      simp only [hf, false_or, if_false, ne_eq, not_false_eq_true, decide_true, Bool.true_and, and_true]
      by_cases hi : e.preIgnore = true
      · rw [if_pos hi] at h2
        rw [← h2, if_pos hi]
        refine ⟨⟨_, fr, rfl⟩, fun y hy => ?_, ?_, et⟩
        · simp [setArb, hy, ea]
        · simp [setArb, ea]
      · rw [if_neg hi] at h2
        rw [← h2, if_neg hi]
        exact ⟨⟨_, fr, rfl⟩, fun y hy => by rw [ea], by rw [ea], et⟩

/-- What one collision does to its pair. -/
structure Hit (L : Nat → List Nat) (e : CollideIn) (σ : PairSt) (x : Nat) (s t : Sp F) : Prop where
  trace : ∃ new, t.trace = s.trace ++ new ∧ (∀ ev ∈ new, ev.about e.a e.b = true) ∧ new.map (·.kind) = (σ.onContact e (s.inert e.a e.b) true).1
  others : ∀ y, y ≠ x → t.arbs y = s.arbs y
  live : Live t e.a e.b x
  out : ¬ InL L s x ∧ ¬ InL L t x
  stamp : (t.arbs x).stamp = s.stamp
  use : ∀ y, y ≠ x → ((y < t.arbBound ∧ y ∉ t.pool) ↔ (y < s.arbBound ∧ y ∉ s.pool))
  arbiters : t.arbiters = s.arbiters ∨ t.arbiters = s.arbiters ++ [x]
  notIn : x ∉ s.arbiters
  before : (x < s.arbBound ∧ x ∉ s.pool) → s.samePair e.a e.b x = true
  opn : ¬ (t.arbs x).state.closed
  active : x ∈ t.arbiters ↔ (σ.onContact e (s.inert e.a e.b) true).2 = .active
  ignored : (t.arbs x).state = .ignore ↔ (σ.onContact e (s.inert e.a e.b) true).2 = .ignored
  first : x ∈ t.arbiters → ((t.arbs x).state = .first ↔ σ = .apart)

theorem finPart_ev (s : Sp F) (e : CollideIn) (x : Nat) (ok : Bool) :
    (finPart s e x ok) = { s with arbs := (finPart s e x ok).arbs, arbiters := (finPart s e x ok).arbiters, bufs := (finPart s e x ok).bufs } ∧
    (∀ y, y ≠ x → (finPart s e x ok).arbs y = s.arbs y) ∧
    ((finPart s e x ok).arbs x).stamp = s.stamp ∧ ((finPart s e x ok).arbs x).a = (s.arbs x).a ∧ ((finPart s e x ok).arbs x).b = (s.arbs x).b ∧
    ((finPart s e x ok).arbs x).bodyA = (s.arbs x).bodyA ∧
    (((finPart s e x ok).arbs x).state = .ignore ↔ (s.arbs x).state = .ignore) ∧
    (¬ (s.arbs x).state.closed → ¬ ((finPart s e x ok).arbs x).state.closed) ∧
    (finPart s e x ok).arbiters = (if ok = true ∧ (s.arbs x).state ≠ .ignore ∧ s.inert e.a e.b = false then s.arbiters ++ [x] else s.arbiters) := by
  have hi : (((s.shapes e.a).sensor || (s.shapes e.b).sensor) = false ∧ ((s.bodies (s.shapes e.a).body).infMass && (s.bodies (s.shapes e.b).body).infMass) = false) ↔ s.inert e.a e.b = false := by
    simp only [inert, Bool.or_eq_false_iff]
  simp only [finPart, hi]
  split_ifs with hc
  · refine ⟨rfl, fun y hy => by simp [setArb, hy], by simp [setArb], by simp [setArb], by simp [setArb], by simp [setArb], by simp [setArb], by simp [setArb], rfl⟩
  · obtain ⟨B, hB⟩ : ∃ B, s.popContacts e.count = { s with bufs := B } := by
      rw [popContacts]; split <;> exact ⟨_, rfl⟩
    rw [hB]
    refine ⟨rfl, fun y hy => by simp [setArb, hy], by simp [setArb], by simp [setArb], by simp [setArb], by simp [setArb], ?_, ?_, rfl⟩
    · simp only [setArb, Function.update_self]; split_ifs with q <;> simp [q]
    · simp only [setArb, Function.update_self]
      by_cases q : (s.arbs x).state ≠ .ignore
      · rw [if_pos q]; simp [ArbState.closed]
      · rw [if_neg q]; exact id

omit [GoFloat F] in
theorem inert_congr {s t : Sp F} (h1 : t.shapes = s.shapes) (h2 : ∀ b, (t.bodies b).infMass = (s.bodies b).infMass) (p q : Nat) :
    t.inert p q = s.inert p q := by simp only [inert, h1, h2]

set_option maxHeartbeats 1000000 in
theorem collide_hit {L : Nat → List Nat} {s0 s t : Sp F} {done : List CollideIn} (h : Col L s0 done s) {e : CollideIn}
    (he : PairOk s0 e) (hd : ∀ d ∈ done, ¬ d.sameAs e) (hc : e.count ≠ 0) (ht : s.collide e = some t) {σ : PairSt}
    (hσ : Sig s e.a e.b σ) : ∃ x, Hit L e σ x s t := by
  obtain ⟨s1, k, o, eg, hk, B, n, hs1⟩ := s.getArray_spec h.head
  rw [collide_eq s e eg, if_neg hc] at ht
  have c1 : Col L s0 done s1 := h.buffers (by rw [hs1]) (by rw [hk]; simp)
  obtain ⟨s2, hs2⟩ : ∃ s2, s2 = s1.pushContacts e.count := ⟨_, rfl⟩
  have q2 : s2 = { s1 with bufs := s2.bufs } := by
    obtain ⟨f, hf⟩ : ∃ f, s1.pushContacts e.count = { s1 with bufs := f } := by
      rw [pushContacts]; split <;> exact ⟨_, rfl⟩
    rw [hs2, hf]
  have c2 : Col L s0 done s2 := c1.buffers (by rw [q2]) (by rw [q2]; exact c1.head)
  rw [← hs2] at ht
  have es : s2 = { s with bufs := s2.bufs, bufBound := s2.bufBound, head := s2.head } := by
    rw [q2, hs1]
  have g2 := c2.good
  have kk := g2.inv.full.core.arb
  have hoff : ∀ x, InL L s2 x → x ∉ s2.cached := fun x hx hxc => (kk.cachedIff x hx).1 hxc (c2.offs x hx)
  obtain ⟨v, x, et, ex, n2, hni, hcnt, hmem, hcase⟩ := lookup_enter g2.inv hoff e.a e.b e.count k o e.pick
  have hxb := g2.inv.not_inL_of_free hni
  have hdyn : s2.dynamicShapes = s0.dynamicShapes := c2.move.dynamicShapes
  have hin : ∀ y, InL L s2 y → s2.samePair e.a e.b y = false := by
    intro y hy
    obtain ⟨q1, q2⟩ := g2.inv.inL_static c2.roused hy (c2.offs y hy)
    rw [Bool.eq_false_iff, Ne, samePair_iff]
    rw [hdyn] at q1 q2
    rintro (⟨r1, r2⟩ | ⟨r1, r2⟩)
    · rw [r1] at q1; rw [r2] at q2; exact he.dyn.elim q1 q2
    · rw [r1] at q1; rw [r2] at q2; exact he.dyn.elim q2 q1
  have hxr : x ∉ s2.arbiters := by
    intro q
    rcases hcase with ⟨-, c3, -⟩ | ⟨c3, -, -⟩
    · obtain ⟨d, hdm, hdp⟩ := c2.listed x q
      refine hd d hdm ?_
      rw [samePair_iff] at c3 hdp
      simp only [CollideIn.sameAs]
      omega
    · have := (kk.rest x q).2
      obtain ⟨l1, l2, l3, l4, l5, l6, l7⟩ := kk.live x (Or.inl this)
      rcases c3 with z | z
      · exact l7 z
      · omega
  have hl2 : s2.locked ≠ 0 := by rw [c2.locked]; simp
  have hlv : v.locked ≠ 0 := by rw [n2.eq]; exact hl2
  -- first contact?
  have hfirst : (v.arbs x).state = .first ↔ σ = .apart := by
    have hσ2 : Sig s2 e.a e.b σ := by rw [es]; exact hσ
    rcases hcase with ⟨c3, c4, -, c5⟩ | ⟨c3, c4, c5, -⟩
    · obtain ⟨l1, l2, l3, l4, l5, l6, l7⟩ := kk.live x (Or.inl c3)
      have hnf : (s2.arbs x).state ≠ .first := by
        intro q
        rcases (g2.valid x l6 l7).2.1 q with y | y
        · exact hni y
        · exact hxr y
      have ho : Open s2 e.a e.b x ↔ (s2.arbs x).state ≠ .cached := by
        rw [← not_iff_not, not_not, ← ArbState.closed_iff (g2.valid x l6 l7).1]
        simp only [Open]
        tauto
      rcases hσ2 with ⟨w1, w2⟩ | ⟨w1, y, hy, -⟩
      · have : (s2.arbs x).state = .cached := by
          by_contra q; exact w2 x (ho.2 q)
        rw [c5, if_pos this]; simp [w1]
      · have : y = x := g2.inv.open_unique ⟨hy.1, hy.2.1⟩ ⟨l6, l7⟩ hy.2.2.2 c4
        subst this
        have := ho.1 hy
        rw [c5, if_neg this]; simp [w1, hnf]
    · rcases hσ2 with ⟨w1, w2⟩ | ⟨w1, y, hy, -⟩
      · simp [c5, w1]
      · exfalso
        rcases kk.noLeak y hy.1 hy.2.1 with z | z
        · have := c4 y z; rw [hy.2.2.2] at this; simp at this
        · have := hin y z; rw [hy.2.2.2] at this; simp at this
  have hign : (v.arbs x).state = .ignore ↔ σ = .ignored := by
    have hσ2 : Sig s2 e.a e.b σ := by rw [es]; exact hσ
    rcases hcase with ⟨c3, c4, -, c5⟩ | ⟨c3, c4, c5, -⟩
    · obtain ⟨l1, l2, l3, l4, l5, l6, l7⟩ := kk.live x (Or.inl c3)
      rcases hσ2 with ⟨w1, w2⟩ | ⟨w1, y, hy, hi⟩
      · rw [hfirst.2 w1, w1]; simp
      · have : y = x := g2.inv.open_unique ⟨hy.1, hy.2.1⟩ ⟨l6, l7⟩ hy.2.2.2 c4
        subst this
        have hnc : (s2.arbs y).state ≠ .cached := by
          intro q; exact hy.2.2.1 (by rw [q]; trivial)
        rw [c5, if_neg hnc, hi]
    · rw [c5]
      have := hfirst.1 c5
      rw [this]; simp
  have hopn : ¬ (v.arbs x).state.closed := by
    rcases hcase with ⟨c3, -, -, c4⟩ | ⟨-, -, c4, -⟩
    · obtain ⟨l1, l2, l3, l4, l5, l6, l7⟩ := kk.live x (Or.inl c3)
      rw [c4]
      split_ifs with z
      · simp [ArbState.closed]
      · rw [ArbState.closed_iff (g2.valid x l6 l7).1]; exact z
    · rw [c4]; simp [ArbState.closed]
  rw [ex] at et
  simp only [ex, et] at ht
  cases eb : beginPart v e x with
  | none => rw [eb] at ht; simp at ht
  | some u =>
    rw [eb] at ht
    simp only [Option.bind_some] at ht
    obtain ⟨⟨u', fu, eu⟩, ou, xu, tu⟩ := beginPart_ev hlv eb
    have hlu : u.locked ≠ 0 := by rw [eu]; show u'.locked ≠ 0; rw [fu.locked]; exact hlv
    cases ep : prePart u e x with
    | none => rw [ep] at ht; simp at ht
    | some pr =>
      obtain ⟨w, ok⟩ := pr
      rw [ep] at ht
      have ht := Option.some.inj ht
      simp only at ht
      obtain ⟨⟨w', fw, ew⟩, ow, xw, tw, hok⟩ := prePart_ev hlu ep
      obtain ⟨f1, f2, f3, f4, f5, f6, f7, f8, f9⟩ := finPart_ev w e x ok
      rw [ht] at f1 f2 f3 f4 f5 f6 f7 f8 f9
      -- fields that never change
      have sh : w.shapes = s.shapes := by
        rw [ew]; show w'.shapes = _; rw [fw.eq]; show u.shapes = _; rw [eu]; show u'.shapes = _; rw [fu.eq]; show v.shapes = _
        rw [n2.eq, es]
      have im : ∀ b, (w.bodies b).infMass = (s.bodies b).infMass := by
        intro b
        rw [ew]; show (w'.bodies b).infMass = _; rw [fw.inf, eu]; show (u'.bodies b).infMass = _; rw [fu.inf, n2.eq, es]
      have hin2 : w.inert e.a e.b = s.inert e.a e.b := inert_congr sh im _ _
      have e1 : w.arbBound = v.arbBound := by rw [ew]; show w'.arbBound = _; rw [fw.eq]; show u.arbBound = _; rw [eu]; show u'.arbBound = _; rw [fu.eq]
      have e2 : w.pool = v.pool := by rw [ew]; show w'.pool = _; rw [fw.eq]; show u.pool = _; rw [eu]; show u'.pool = _; rw [fu.eq]
      have e3 : w.arbiters = s.arbiters := by
        rw [ew]; show w'.arbiters = _; rw [fw.eq]; show u.arbiters = _; rw [eu]; show u'.arbiters = _; rw [fu.eq]; show v.arbiters = _
        rw [n2.eq, es]
      have e4u : u.stamp = v.stamp := by rw [eu]; show u'.stamp = _; rw [fu.eq]
      have e4v : v.stamp = s.stamp := by rw [n2.eq, es]
      have e4 : w.stamp = s.stamp := by
        rw [ew]; show w'.stamp = _; rw [fw.eq]; show u.stamp = _; rw [e4u, e4v]
      have e5 : v.trace = s.trace := by rw [n2.eq, es]
      have etx : t.trace = w.trace := by rw [f1]
      have eta : t.arbBound = v.arbBound := by rw [f1]; exact e1
      have etp : t.pool = v.pool := by rw [f1]; exact e2
      have esb : s2.arbBound = s.arbBound := by rw [es]
      have esp : s2.pool = s.pool := by rw [es]
      have esa : s2.arbs = s.arbs := by rw [es]
      have esr : s2.arbiters = s.arbiters := by rw [es]
      have xua : (u.arbs x).a = e.a ∧ (u.arbs x).b = e.b := by rw [xu]; exact ⟨n2.ends.1, n2.ends.2.1⟩
      have xus : (u.arbs x).state = .ignore ↔ σ = .ignored ∨ (σ = .apart ∧ (e.beginRet = false ∨ e.beginIgnore = true)) := by
        rw [xu]
        show (if _ then _ else _ : ArbState) = _ ↔ _
        by_cases q : (v.arbs x).state = .first ∧ (e.beginRet = false ∨ e.beginIgnore = true)
        · rw [if_pos q, ← hfirst]; simp [q]
        · rw [if_neg q, hign, ← hfirst]; tauto
      have xws : (w.arbs x).state = .ignore ↔ (u.arbs x).state = .ignore ∨ e.preIgnore = true := by
        rw [xw]
        show (if _ then _ else _ : ArbState) = _ ↔ _
        split_ifs with q
        · simp [q]
        · rw [not_or] at q; simp [q.1, q.2]
      refine ⟨x, ?_⟩
      have hon : ((σ.onContact e (s.inert e.a e.b) true).2 = .active ↔ ok = true ∧ (w.arbs x).state ≠ .ignore ∧ w.inert e.a e.b = false) ∧
          ((σ.onContact e (s.inert e.a e.b) true).2 = .ignored ↔ (w.arbs x).state = .ignore) := by
        rw [hok, hin2, xws]
        simp only [ne_eq, xws, xus, PairSt.onContact]
        cases σ <;> cases e.beginRet <;> cases e.beginIgnore <;> cases e.preRet <;> cases e.preIgnore <;> cases s.inert e.a e.b <;> simp
      have hat : x ∈ t.arbiters ↔ (σ.onContact e (s.inert e.a e.b) true).2 = .active := by
        rw [hon.1, f9, e3]
        have : x ∉ s.arbiters := by rw [← esr]; exact hxr
        split_ifs with q
        · simp [q]
        · simp [this, q]
      refine ⟨?_, fun y hy => ?_, ⟨by rw [eta]; exact n2.bound.2.1, ?_, ?_⟩, ⟨?_, ?_⟩, f3.trans e4, fun y hy => ?_, ?_, by rw [← esr]; exact hxr, ?_, ?_, hat, ?_, ?_⟩
      · refine ⟨(if (v.arbs x).state = .first then [⟨.begin, (v.arbs x).a, (v.arbs x).b, v.stamp⟩] else []) ++
          (if (u.arbs x).state = .ignore then [] else [⟨.preSolve, (u.arbs x).a, (u.arbs x).b, u.stamp⟩]), ?_, ?_, ?_⟩
        · rw [etx, tw, tu, e5, List.append_assoc]
        · intro ev hev
          rw [xua.1, xua.2, n2.ends.1, n2.ends.2.1] at hev
          rcases List.mem_append.1 hev with q | q
          · split_ifs at q
            · rw [List.mem_singleton.1 q]; simp [Ev.about]
            · simp at q
          · split_ifs at q
            · simp at q
            · rw [List.mem_singleton.1 q]; simp [Ev.about]
        · simp only [hfirst, xus, PairSt.onContact]
          cases σ <;> cases e.beginRet <;> cases e.beginIgnore <;> simp
      · rw [f2 y hy, ow y hy, ou y hy, n2.others y hy, esa]
      · rw [etp, n2.pool]; simp
      · rw [samePair_iff]; left
        rw [f4, f5, xw]; exact xua
      · have := hni; simp only [InL, esa] at this; exact this
      · simp only [InL]; exact hxb _
      · rw [eta, etp, ← esb, ← esp, n2.pool]
        constructor
        · rintro ⟨a, b⟩
          refine ⟨(n2.bound.2.2 y a).resolve_right hy, fun q => b ⟨q, hy⟩⟩
        · rintro ⟨a, b⟩
          exact ⟨lt_of_lt_of_le a n2.bound.1, fun q => b q.1⟩
      · rw [f9, e3]; split_ifs
        · exact .inr rfl
        · exact .inl rfl
      · rintro ⟨a, b⟩
        rcases hcase with ⟨-, c4, -⟩ | ⟨c3, -⟩
        · simp only [samePair, esa] at c4 ⊢; exact c4
        · rw [← esb] at a; rw [← esp] at b
          rcases c3 with z | z
          · exact absurd z b
          · omega
      · refine f8 ?_
        rw [xw, xu]
        show ¬ (if _ then _ else (if _ then _ else _ : ArbState) : ArbState).closed
        split_ifs
        all_goals first | exact hopn | (simp [ArbState.closed])
      · rw [f7, hon.2]
      · intro hx
        have q := hon.1.1 (hat.1 hx)
        have hi : ((w.shapes e.a).sensor || (w.shapes e.b).sensor) = false ∧
            ((w.bodies (w.shapes e.a).body).infMass && (w.bodies (w.shapes e.b).body).infMass) = false := by
          have := q.2.2
          simp only [inert, Bool.or_eq_false_iff] at this ⊢
          exact this
        have e6 : (t.arbs x).state = (w.arbs x).state := by
          rw [← ht]
          simp only [finPart]
          rw [if_pos ⟨q.1, q.2.1, hi.1, hi.2⟩]
          simp [setArb]
        have nu : ¬ ((u.arbs x).state = .ignore ∨ e.preIgnore = true) := fun z => q.2.1 (xws.2 z)
        have e7 : (w.arbs x).state = (u.arbs x).state := by
          rw [xw]
          show (if _ then _ else _ : ArbState) = _
          rw [if_neg nu]
        have e8 : (u.arbs x).state = (v.arbs x).state := by
          have := xu
          have nv : ¬ ((v.arbs x).state = .first ∧ (e.beginRet = false ∨ e.beginIgnore = true)) := by
            intro z
            refine nu (.inl ?_)
            rw [xu]
            show (if _ then _ else _ : ArbState) = _
            rw [if_pos z]
          rw [xu]
          show (if _ then _ else _ : ArbState) = _
          rw [if_neg nv]
        rw [e6, e7, e8]
        exact hfirst

/-- A collision of another pair. -/
theorem Hit.still {L : Nat → List Nat} {s t : Sp F} {e : CollideIn} {σ : PairSt} {x : Nat} (h : Hit L e σ x s t) {p q : Nat}
    (hn : ¬ ((e.a = p ∧ e.b = q) ∨ (e.a = q ∧ e.b = p))) : Still p q s t := by
  have hxs : ∀ y, Live s p q y → y ≠ x := by
    rintro y ⟨a, b, c⟩ rfl
    have := h.before ⟨a, b⟩
    rw [samePair_iff] at this c
    omega
  have hxt : ∀ y, Live t p q y → y ≠ x := by
    rintro y ⟨a, b, c⟩ rfl
    have := h.live.2.2
    rw [samePair_iff] at this c
    omega
  refine ⟨fun y => ⟨fun hy => ?_, fun hy => ?_⟩, fun y hy => ?_, ?_⟩
  · have hne := hxt y hy
    obtain ⟨a, b⟩ := (h.use y hne).1 ⟨hy.1, hy.2.1⟩
    refine ⟨a, b, ?_⟩
    have := hy.2.2
    simp only [samePair, h.others y hne] at this ⊢; exact this
  · have hne := hxs y hy
    obtain ⟨a, b⟩ := (h.use y hne).2 ⟨hy.1, hy.2.1⟩
    refine ⟨a, b, ?_⟩
    have := hy.2.2
    simp only [samePair, h.others y hne] at this ⊢; exact this
  · have hne := hxs y hy
    rw [h.others y hne]
    refine ⟨rfl, rfl, rfl, rfl, ?_⟩
    rcases h.arbiters with z | z
    · rw [z]
    · rw [z]; simp [hne]
  · obtain ⟨new, e1, e2, -⟩ := h.trace
    refine ⟨new, e1, word_nil_of fun ev hev => ?_⟩
    have := e2 ev hev
    simp only [Ev.about, Bool.or_eq_true, Bool.and_eq_true, beq_iff_eq] at this
    rw [Bool.eq_false_iff]
    simp only [Ev.about, ne_eq, Bool.or_eq_true, Bool.and_eq_true, beq_iff_eq]
    omega

/-- A report without contacts. -/
theorem collide_none {L : Nat → List Nat} {s0 s t : Sp F} {done : List CollideIn} (h : Col L s0 done s) {e : CollideIn}
    (hc : e.count = 0) (ht : s.collide e = some t) (p q : Nat) : Still p q s t ∧ t.stamp = s.stamp := by
  obtain ⟨s1, k, o, eg, hk, B, n, hs1⟩ := s.getArray_spec h.head
  rw [collide_eq s e eg, if_pos hc] at ht
  have ht := Option.some.inj ht
  subst ht
  rw [hs1]
  exact ⟨⟨fun _ => .rfl, fun _ _ => ⟨rfl, rfl, rfl, rfl, .rfl⟩, [], by simp, rfl⟩, rfl⟩

end Sp
end CP
