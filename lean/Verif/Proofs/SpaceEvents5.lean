import Verif.Proofs.SpaceEvents4

/-! # The callbacks of one pair in a whole step -/

namespace CP
variable {F : Type}

theorem about_comm (e : Ev) (p q : Nat) : e.about p q = e.about q p := by
  simp only [Ev.about, Bool.or_comm]

theorem onContact_snd (d : Sp.CollideIn) (inert rest : Bool) (σ : PairSt) : (σ.onContact d inert rest).2 = (σ.onContact d inert true).2 := rfl

theorem onContact_fst (d : Sp.CollideIn) (inert rest : Bool) (σ : PairSt) : (σ.onContact d inert rest).1 =
    (σ.onContact d inert true).1 ++ if (σ.onContact d inert true).2 = .active ∧ rest = false then [.postSolve] else [] := by
  simp only [PairSt.onContact, Bool.not_true, Bool.and_false, Bool.false_eq_true, if_false, List.append_nil]
  congr 1
  cases d.preRet <;> cases inert <;> cases rest <;> simp <;> split_ifs <;> simp_all

theorem onContact_ne (d : Sp.CollideIn) (inert rest : Bool) (σ : PairSt) : (σ.onContact d inert rest).2 ≠ .apart := by
  simp only [PairSt.onContact]
  split_ifs <;> simp

theorem word_comm (p q : Nat) (l : List Ev) : word p q l = word q p l := by
  simp only [word, about_comm _ p q]

namespace Sp

theorem rests_iff (s : Sp F) (p q : Nat) : s.rests p q = true ↔ s.resting (s.shapes p).body ∧ s.resting (s.shapes q).body := by
  simp only [rests, Bool.and_eq_true, decide_eq_true_eq]

theorem rests_comm (s : Sp F) (p q : Nat) : s.rests p q = s.rests q p := by simp only [rests, Bool.and_comm]
theorem inert_comm (s : Sp F) (p q : Nat) : s.inert p q = s.inert q p := by
  simp only [inert, Bool.and_comm, Bool.or_comm]
theorem samePair_comm (s : Sp F) (p q x : Nat) : s.samePair p q x = s.samePair q p x := by
  rw [Bool.eq_iff_iff, samePair_iff, samePair_iff]; tauto
theorem open_comm (s : Sp F) (p q x : Nat) : Open s p q x ↔ Open s q p x := by
  simp only [Open, samePair_comm s p q]
theorem live_comm (s : Sp F) (p q x : Nat) : Live s p q x ↔ Live s q p x := by
  simp only [Live, samePair_comm s p q]

theorem contact_some {i : StepIn F} {p q : Nat} {d : CollideIn} (h : i.contact p q = some d) :
    d ∈ i.pairs ∧ d.count ≠ 0 ∧ ((d.a = p ∧ d.b = q) ∨ (d.a = q ∧ d.b = p)) := by
  rw [StepIn.contact] at h
  have h1 := List.mem_of_find?_eq_some h
  have h2 := List.find?_some h
  simp only [Bool.and_eq_true, decide_eq_true_eq, Bool.or_eq_true, beq_iff_eq] at h2
  exact ⟨h1, h2.1, h2.2⟩

theorem contact_none {i : StepIn F} {p q : Nat} (h : i.contact p q = none) :
    ∀ d ∈ i.pairs, d.count ≠ 0 → ¬ ((d.a = p ∧ d.b = q) ∨ (d.a = q ∧ d.b = p)) := by
  intro d hd hc hh
  rw [StepIn.contact, List.find?_eq_none] at h
  refine h d hd ?_
  simp only [Bool.and_eq_true, decide_eq_true_eq, Bool.or_eq_true, beq_iff_eq]
  exact ⟨hc, hh⟩

variable [GoFloat F]

/-- The state of the pair as the collision phase finds it. -/
theorem start_sig {L L' : Nat → List Nat} {i : StepIn F} {s a : Sp F} (h : Good L [] s) (st : Start L L' i s a) {p q : Nat} :
    (∀ x, Open a p q x ↔ Open s p q x) ∧ (∀ x, InL L s x → ¬ s.off (s.owner x) → (a.arbs x).state = .normal) ∧
      (∀ x, ¬ InL L s x → (a.arbs x).state = (s.arbs x).state) ∧ (∀ x, (a.arbs x).stamp = (s.arbs x).stamp) := by
  have k := h.inv.full.core.arb
  have hmem : ∀ x, x ∈ s.arbiters ↔ InL L s x ∧ ¬ s.off (s.owner x) := fun x => by rw [k.mem]; simp
  have hs : ∀ x, (a.arbs x).state = if x ∈ s.arbiters then .normal else (s.arbs x).state := fun x => by
    rw [st.arbs, st.arb x]
  have hab : ∀ x, (a.arbs x).a = (s.arbs x).a ∧ (a.arbs x).b = (s.arbs x).b ∧ (a.arbs x).stamp = (s.arbs x).stamp := fun x => by
    rw [st.arbs, st.arb x]; exact ⟨rfl, rfl, rfl⟩
  refine ⟨fun x => ?_, fun x h1 h2 => by rw [hs, if_pos ((hmem x).2 ⟨h1, h2⟩)],
    fun x h1 => by rw [hs, if_neg (fun e => h1 ((hmem x).1 e).1)], fun x => (hab x).2.2⟩
  have e : a.samePair p q x = s.samePair p q x := by
    simp only [samePair, (hab x).1, (hab x).2.1]
  simp only [Open, st.pool, st.arbBound, e, hs]
  split_ifs with hx
  · have := h.tr.threaded x ((hmem x).1 hx).1
    have h2 : ¬ (ArbState.normal).closed := id
    simp only [this, h2]
  · rfl

set_option maxHeartbeats 2000000 in
theorem step_events {L : Nat → List Nat} {s : Sp F} (h : Good L [] s) (hl : s.locked = 0) (host : Hosted s) {i : StepIn F}
    (hdt : i.dt ≠ 0) (ok : StepOk s i) (q1 : ∀ y, i.sepActs y = []) (q2 : i.lateActs = []) :
    ∃ t, s.step i = some t ∧ ∃ new, t.trace = s.trace ++ new ∧ ∀ p q, (word p q new, t.pairSt p q) =
      match i.contact p q with
      | some d => (s.pairSt p q).onContact d (s.inert p q) (t.rests p q)
      | none => (s.pairSt p q).onNone (s.frozen p q) (t.rests p q) := by
  obtain ⟨v, L1, u0, ev, st, eu, eun, hu⟩ := hits_full h hl ok
  set a := v.pushFresh with ha
  set u : Sp F := { u0 with locked := 0 } with hu0
  have host1 : Hosted u := host.congr hu.keep.typ hu.keep.inSpace hu.shapes hu.keep.cons
  obtain ⟨w, L2, ew, gw, pw, -, -, -⟩ := processComponents_good hu.good (hu.keep.locked.trans hl) hu.head hu.opens host1 hu.offs i.dt i.moving
  have hlw : w.locked = 0 := pw.keep.locked.trans (hu.keep.locked.trans hl)
  obtain ⟨t, et, gt, tt⟩ := tail_good gw hlw i.sepActs i.lateActs
  refine ⟨t, ?_, ?_⟩
  · simp only [step]
    rw [if_neg hdt]
    simp only [Option.bind_eq_bind, Option.bind_eq_some_iff] at et ⊢
    obtain ⟨w4, e4, w5, e5, e6⟩ := et
    exact ⟨v, ev, u0, eu, u, eun, w, ew, w4, e4, w5, e5, e6⟩
  have quiet : (∀ y, i.sepActs y = []) ∧ i.lateActs = [] := ⟨q1, q2⟩
  have htb := tt.bodies quiet
  have hsh : w.shapes = s.shapes := pw.shapes.trans hu.shapes
  have hty : ∀ b, w.typ b = s.typ b := fun b => (pw.keep.typ b).trans (hu.keep.typ b)
  have hrest : ∀ p q, t.rests p q = w.rests p q := by
    intro p q
    rw [Bool.eq_iff_iff, rests_iff, rests_iff]
    simp only [resting, tt.shapes, typ, isSleeping, htb]
  have hpar : ∀ p q x, w.samePair p q x = u.samePair p q x := by
    intro p q x
    simp only [samePair, (pw.arbs x).1, (pw.arbs x).2.1]
  have hlw' : ∀ p q x, Live w p q x ↔ Live u p q x := by
    intro p q x; simp only [Live, pw.arbBound, pw.pool, hpar]
  have how : ∀ p q x, Open w p q x ↔ Open u p q x := by
    intro p q x; rw [open_iff, open_iff, hlw', (pw.arbs x).2.2.2.2.2]
  have hst : ∀ x, (u.arbs x).stamp = u.stamp → (w.arbs x).stamp = w.stamp := by
    intro x hx
    rw [pw.stamp]
    rcases pw.stamps x with e | e
    · rw [e, hx]
    · exact e.1
  obtain ⟨c, ec, cu⟩ := collide_loop i.pairs [] a st.col st.pairs (by simp) ok.once
  obtain rfl : c = u0 := by rw [eu] at ec; exact (Option.some.inj ec).symm
  simp only [List.nil_append] at cu
  have hinlu : ∀ x, InL L1 u x ↔ InL L s x ∧ s.off (s.owner x) := fun x => (cu.inl x).trans (st.inl x)
  have sigs := fun p q => start_sig (p := p) (q := q) h st
  have hnone : ∃ n, c.trace = a.trace ++ n := by
    have := loop_still (p := 0) (q := 0) i.pairs [] a c st.col st.pairs (by simp) ok.once eu (fun e he _ hh => by
      have := (ok.pairs e he).ne
      rcases hh with ⟨x1, x2⟩ | ⟨x1, x2⟩ <;> rw [x1, x2] at this <;> exact this rfl)
    obtain ⟨n, e, -⟩ := this.trace
    exact ⟨n, e⟩
  obtain ⟨n1, en1⟩ := hnone
  obtain ⟨n2, en2, -⟩ := tail_events quiet gw hlw gt tt 0 0
  have etr : t.trace = s.trace ++ (n1 ++ n2) := by
    rw [en2, pw.trace]
    show c.trace ++ n2 = _
    rw [en1, st.trace, List.append_assoc]
  refine ⟨_, etr, fun p q => ?_⟩
  obtain ⟨n2', en2', T1, T2, T3, T4⟩ := tail_events quiet gw hlw gt tt p q
  obtain rfl : n2 = n2' := List.append_cancel_left (en2.symm.trans en2')
  rw [word_append]
  cases hcon : i.contact p q with
  | none =>
    have hc := contact_none hcon
    have still : Still p q a c := loop_still i.pairs [] a c st.col st.pairs (by simp) ok.once eu hc
    have w1 : word p q n1 = [] := by
      obtain ⟨n, e, hn⟩ := still.trace
      obtain rfl : n1 = n := List.append_cancel_left (en1.symm.trans e)
      exact hn
    rw [w1, List.nil_append]
    simp only
    obtain ⟨g1, g2, g3, g4⟩ := sigs p q
    have hopw : ∀ x, Open w p q x ↔ Open s p q x := fun x => by
      rw [how, ← g1, ← still.opens]; rfl
    by_cases hx : ∃ x, Open s p q x
    swap
    · have hno : ∀ x, ¬ Open s p q x := by simpa using hx
      rw [pairSt_apart hno]
      obtain ⟨r1, r2⟩ := T1 (fun x hx => hno x ((hopw x).1 hx))
      rw [r1, r2]; rfl
    obtain ⟨x, hx⟩ := hx
    have hxw := (hopw x).2 hx
    have hxa : Live a p q x := ((open_iff ..).1 ((g1 x).2 hx)).1
    have hxs : Live s p q x := ((open_iff ..).1 hx).1
    obtain ⟨b1, b2, b3, b4, b5⟩ := still.same x hxa
    have hna : x ∉ u.arbiters := by
      show x ∉ c.arbiters
      rw [b5, st.empty]; simp
    have hinw : InL L2 w x ↔ InL L s x ∧ s.off (s.owner x) := by
      rw [pw.inl, hinlu]; simp [hna]
    have hstate : (w.arbs x).state = (a.arbs x).state := ((pw.arbs x).2.2.2.2.2).trans b1
    rw [hrest]
    by_cases hi : InL L s x
    · -- active
      have hof := off_frozen h.inv hl hxs hi
      rw [pairSt_open h.inv hx, if_pos hi]
      by_cases hf : s.frozen p q = true
      · obtain ⟨r1, r2⟩ := T2 x hxw (hinw.2 ⟨hi, hof.2 hf⟩)
        have hfw : w.frozen p q = true ↔ w.rests p q = true := by
          rw [frozen, Bool.and_eq_true]
          refine ⟨fun z => z.1, fun z => ⟨z, ?_⟩⟩
          rw [frozen, Bool.and_eq_true, Bool.or_eq_true] at hf
          obtain ⟨-, hf⟩ := hf
          rw [rests_iff, hsh] at z
          rw [hsh]
          simp only [resting] at z
          have st0 : ∀ b, s.isSleeping b = true → w.typ b ≠ .static := by
            intro b hb
            rw [hty, (h.inv.full.root_dynamic (by simpa [isSleeping, Option.isSome_iff_ne_none] using hb)).2]; simp
          rw [Bool.or_eq_true]
          rcases hf with hf | hf
          · exact .inl (z.1.resolve_left (st0 _ hf))
          · exact .inr (z.2.resolve_left (st0 _ hf))
        rw [r1, r2, hf]
        simp only [PairSt.onNone, if_true]
        by_cases hr : w.rests p q = true
        · rw [if_pos hr, if_pos (hfw.2 hr)]
        · rw [if_neg hr, if_neg (fun e => hr (hfw.1 e))]
      · have hniw : ¬ InL L2 w x := fun e => hf (hof.1 (hinw.1 e).2)
        have hnof : ¬ s.off (s.owner x) := fun e => hf (hof.1 e)
        have hns : (w.arbs x).stamp ≠ w.stamp := by
          have hv := (h.valid x hxs.1 hxs.2.1).2.2
          have e1 : (w.arbs x).stamp = (u.arbs x).stamp := by
            rcases pw.stamps x with e | ⟨-, e | e⟩
            · exact e
            · exact absurd ((hinlu x).1 e).2 hnof
            · exact absurd e hna
          have e2 : (u.arbs x).stamp = (s.arbs x).stamp := by
            show (c.arbs x).stamp = _
            rw [b2, g4]
          rw [e1, e2, pw.stamp, hu.stamp]; omega
        have hf' : s.frozen p q = false := by simpa using hf
        rw [hf']
        simp only [PairSt.onNone, Bool.false_eq_true, if_false]
        by_cases hr : w.rests p q = true
        · obtain ⟨r1, r2⟩ := T3 x hxw hniw (.inr hr)
          rw [if_pos hr, r1, r2, hstate, g2 x hi hnof]; rfl
        · obtain ⟨r1, r2⟩ := T4 x hxw hniw hns (by simpa using hr)
          rw [if_neg hr, r1, r2]
    · have hniw : ¬ InL L2 w x := fun e => hi (hinw.1 e).1
      have hns : (w.arbs x).stamp ≠ w.stamp := by
        have hv := (h.valid x hxs.1 hxs.2.1).2.2
        have e1 : (w.arbs x).stamp = (u.arbs x).stamp := by
          rcases pw.stamps x with e | ⟨-, e | e⟩
          · exact e
          · exact absurd ((hinlu x).1 e).1 hi
          · exact absurd e hna
        have e2 : (u.arbs x).stamp = (s.arbs x).stamp := by
          show (c.arbs x).stamp = _
          rw [b2, g4]
        rw [e1, e2, pw.stamp, hu.stamp]; omega
      rw [pairSt_open h.inv hx, if_neg hi]
      by_cases hr : w.rests p q = true
      · obtain ⟨r1, r2⟩ := T3 x hxw hniw (.inr hr)
        rw [r1, r2, hstate, g3 x hi, hr]
        split_ifs <;> rfl
      · obtain ⟨r1, r2⟩ := T4 x hxw hniw hns (by simpa using hr)
        rw [r1, r2]
        have hr' : w.rests p q = false := by simpa using hr
        rw [hr']
        split_ifs <;> rfl
  | some d =>
    obtain ⟨d1, d2, d3⟩ := contact_some hcon
    simp only
    obtain ⟨g1, g2, g3, g4⟩ := sigs p q
    have pok := ok.pairs d d1
    have noff : ∀ x, Open s p q x → InL L s x → ¬ s.off (s.owner x) := by
      intro x hx hi ho
      rw [off_frozen h.inv hl ((open_iff ..).1 hx).1 hi] at ho
      have hd := pok.dyn
      rw [h.inv.full.core.shape.memDyn, h.inv.full.core.shape.memDyn, h.inv.off_iff hl, h.inv.off_iff hl] at hd
      rw [frozen, Bool.and_eq_true, rests_iff] at ho
      replace ho := ho.1
      simp only [resting, isSleeping, Option.isSome_iff_ne_none] at ho
      rcases d3 with ⟨x1, x2⟩ | ⟨x1, x2⟩ <;> rw [x1, x2] at hd <;> tauto
    have hσ : Sig a p q (s.pairSt p q) := by
      by_cases hx : ∃ x, Open s p q x
      · obtain ⟨x, hx⟩ := hx
        refine .inr ⟨fun e => (pairSt_apart_iff h.inv).1 e x hx, x, (g1 x).2 hx, ?_⟩
        rw [pairSt_open h.inv hx]
        by_cases hi : InL L s x
        · rw [if_pos hi, g2 x hi (noff x hx hi)]; simp
        · rw [if_neg hi, g3 x hi]; split_ifs with e <;> simp [e]
      · have hno : ∀ x, ¬ Open s p q x := by simpa using hx
        exact .inl ⟨pairSt_apart hno, fun x e => hno x ((g1 x).1 e)⟩
    have hσd : Sig a d.a d.b (s.pairSt p q) := by
      rcases d3 with ⟨x1, x2⟩ | ⟨x1, x2⟩ <;> rw [x1, x2]
      · exact hσ
      · rcases hσ with ⟨e, n⟩ | ⟨e, x, ho, hi⟩
        · exact .inl ⟨e, fun x hx => n x ((open_comm ..).1 hx)⟩
        · exact .inr ⟨e, x, (open_comm ..).1 ho, hi⟩
    obtain ⟨x, m⟩ := loop_met st.col st.pairs ok.once eu d1 d2 hσd
    have hin : a.inert d.a d.b = s.inert p q := by
      have : a.inert d.a d.b = s.inert d.a d.b := by
        refine inert_congr (st.move.shapes.trans st.around.shapes) (fun b => ?_) _ _
        exact (st.move.keep.infMass b).trans (st.around.move.keep.infMass b)
      rw [this]
      rcases d3 with ⟨x1, x2⟩ | ⟨x1, x2⟩ <;> rw [x1, x2]
      rw [inert_comm]
    rw [hin] at m
    have hw1 : word p q n1 = ((s.pairSt p q).onContact d (s.inert p q) true).1 := by
      obtain ⟨n, e, hn⟩ := m.trace
      obtain rfl : n1 = n := List.append_cancel_left (en1.symm.trans e)
      rw [← hn]
      rcases d3 with ⟨x1, x2⟩ | ⟨x1, x2⟩ <;> rw [x1, x2]
      rw [word_comm]
    have hlx : Live u p q x := by
      have := m.live
      rcases d3 with ⟨x1, x2⟩ | ⟨x1, x2⟩ <;> rw [x1, x2] at this
      · exact this
      · exact (live_comm ..).1 this
    have hxw : Open w p q x := by rw [how, open_iff]; exact ⟨hlx, m.opn⟩
    have hinw : InL L2 w x ↔ ((s.pairSt p q).onContact d (s.inert p q) true).2 = .active := by
      rw [pw.inl, ← m.active]
      exact ⟨fun e => e.resolve_left m.out, .inr⟩
    have hstw : (w.arbs x).stamp = w.stamp := hst x m.stamp
    have hsw : (w.arbs x).state = .ignore ↔ ((s.pairSt p q).onContact d (s.inert p q) true).2 = .ignored := by
      rw [(pw.arbs x).2.2.2.2.2]; exact m.ignored
    have hfw : w.frozen p q = w.rests p q := by
      rw [Bool.eq_iff_iff, frozen, Bool.and_eq_true]
      refine ⟨fun z => z.1, fun z => ⟨z, ?_⟩⟩
      have hd := pok.dyn
      rw [h.inv.full.core.shape.memDyn, h.inv.full.core.shape.memDyn] at hd
      rw [rests_iff] at z
      simp only [resting] at z
      rw [hty, hty, hsh] at z
      rw [Bool.or_eq_true, hsh]
      rcases d3 with ⟨x1, x2⟩ | ⟨x1, x2⟩ <;> rw [x1, x2] at hd <;> tauto
    rw [hw1, hrest]
    refine Prod.ext ?_ ?_
    · rw [onContact_fst d _ (w.rests p q)]
      show _ ++ word p q n2 = _
      congr 1
      by_cases hi : InL L2 w x
      · rw [(T2 x hxw hi).1, hfw, hinw.1 hi]
        cases w.rests p q <;> simp
      · rw [(T3 x hxw hi (.inl hstw)).1, if_neg (fun e => hi (hinw.2 e.1))]
    · show t.pairSt p q = _
      rw [onContact_snd]
      by_cases hi : InL L2 w x
      · rw [(T2 x hxw hi).2, hinw.1 hi]
      · rw [(T3 x hxw hi (.inl hstw)).2]
        have h1 : ¬ ((s.pairSt p q).onContact d (s.inert p q) true).2 = .active := fun e => hi (hinw.2 e)
        have h2 := onContact_ne d (s.inert p q) true (s.pairSt p q)
        revert h1 h2 hsw
        generalize ((s.pairSt p q).onContact d (s.inert p q) true).2 = τ
        intro hsw h1 h2
        cases τ with
        | apart => exact absurd rfl h2
        | active => exact absurd rfl h1
        | ignored => rw [if_pos (hsw.2 rfl)]
        | touching => rw [if_neg (fun e => by have := hsw.1 e; simp at this)]

end Sp
end CP
