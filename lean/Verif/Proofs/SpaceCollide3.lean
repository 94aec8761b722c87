import Verif.Proofs.SpaceCollide2

/-! # Collisions: the loop over the reported pairs -/

namespace CP
variable {F : Type}
namespace Sp
variable [GoFloat F]

/-- The Begin callback. -/
def beginPart (s : Sp F) (e : CollideIn) (x : Nat) : Option (Sp F) :=
  if (s.arbs x).state = .first then ((s.emit .begin x).runActs e.beginActs).bind fun s =>
    some (if e.beginRet = false ∨ e.beginIgnore then s.setArb x (fun r => { r with state := .ignore }) else s)
  else some s

/-- The PreSolve callback. -/
def prePart (s : Sp F) (e : CollideIn) (x : Nat) : Option (Sp F × Bool) :=
  if (s.arbs x).state ≠ .ignore then ((s.emit .preSolve x).runActs e.preActs).bind fun s =>
    some (if e.preIgnore then s.setArb x (fun r => { r with state := .ignore }) else s, e.preRet)
  else some (s, false)

/-- Accepting or dropping the contacts. -/
def finPart (s : Sp F) (e : CollideIn) (x : Nat) (ok : Bool) : Sp F :=
  let sensor := (s.shapes e.a).sensor || (s.shapes e.b).sensor
  let inf := (s.bodies (s.shapes e.a).body).infMass && (s.bodies (s.shapes e.b).body).infMass
  let s := if ok ∧ (s.arbs x).state ≠ .ignore ∧ sensor = false ∧ inf = false then
      { s with arbiters := s.arbiters ++ [x] }
    else
      let s := s.popContacts e.count
      s.setArb x fun r => { r with mem := .nil, count := 0, state := (if r.state ≠ .ignore then .normal else r.state) }
  s.setArb x fun r => { r with stamp := s.stamp }

theorem collide_eq (s : Sp F) (e : CollideIn) {s1 : Sp F} {k o : Nat} (h : s.getArray = some (s1, k, o)) :
    s.collide e = if e.count = 0 then some s1 else
      let l := (s1.pushContacts e.count).lookupArb e.a e.b e.pick
      (beginPart (l.1.updateArb l.2 e.a e.b e.count k o) e l.2).bind fun s => (prePart s e l.2).bind fun p =>
        some (finPart p.1 e l.2 p.2) := by
  simp only [collide, h, Option.bind_eq_bind, Option.bind_some]
  by_cases hc : e.count = 0
  · rw [if_pos hc, if_pos hc]
  rw [if_neg hc, if_neg hc]
  obtain ⟨l, hl⟩ : ∃ l, l = (s1.pushContacts e.count).lookupArb e.a e.b e.pick := ⟨_, rfl⟩
  rw [← hl]
  obtain ⟨v, x⟩ := l
  simp only
  obtain ⟨t, ht⟩ : ∃ t, t = v.updateArb x e.a e.b e.count k o := ⟨_, rfl⟩
  rw [← ht]
  have tail : ∀ u : Sp F, (if (u.arbs x).state ≠ .ignore then
        ((u.emit .preSolve x).runActs e.preActs).bind fun s => some (finPart (if e.preIgnore then s.setArb x (fun r => { r with state := .ignore }) else s) e x e.preRet)
      else some (finPart u e x false)) = (prePart u e x).bind fun p => some (finPart p.1 e x p.2) := by
    intro u
    simp only [prePart]
    by_cases hi : (u.arbs x).state ≠ .ignore
    · rw [if_pos hi, if_pos hi]
      cases (u.emit .preSolve x).runActs e.preActs <;> rfl
    · rw [if_neg hi, if_neg hi]; rfl
  simp only [beginPart]
  by_cases hf : (t.arbs x).state = .first
  · rw [if_pos hf, if_pos hf]
    cases (t.emit .begin x).runActs e.beginActs with
    | none => rfl
    | some u => exact tail _
  · rw [if_neg hf, if_neg hf]
    exact tail _

theorem collide_col {L : Nat → List Nat} {s0 s : Sp F} {done : List CollideIn} (h : Col L s0 done s) {e : CollideIn}
    (he : PairOk s0 e) (hd : ∀ d ∈ done, ¬ d.sameAs e) :
    ∃ t, s.collide e = some t ∧ Col L s0 (done ++ [e]) t := by
  obtain ⟨s1, k, o, eg, hk, B, n, hs1⟩ := s.getArray_spec h.head
  rw [collide_eq s e eg]
  have c1 : Col L s0 done s1 := h.buffers (by rw [hs1]) (by rw [hk]; simp)
  by_cases hc : e.count = 0
  · rw [if_pos hc]
    refine ⟨s1, rfl, c1.good, c1.offs, c1.locked, c1.roused, c1.head, c1.move, c1.roots, c1.stamp, c1.inl, ?_, ?_, ?_⟩
    · intro x hx
      obtain ⟨d, hd, hp⟩ := c1.listed x hx
      exact ⟨d, by simp [hd], hp⟩
    · intro x hx hs
      obtain ⟨d, hd, hp⟩ := c1.seen x hx hs
      exact ⟨d, by simp [hd], hp⟩
    · intro d hd hcd
      rcases List.mem_append.1 hd with q | q
      · exact c1.hit d q hcd
      · rw [List.mem_singleton.1 q] at hcd; exact absurd hc hcd
  rw [if_neg hc]
  obtain ⟨s2, hs2⟩ : ∃ s2, s2 = s1.pushContacts e.count := ⟨_, rfl⟩
  have c2 : Col L s0 done s2 := by
    have q : s2 = { s1 with bufs := s2.bufs } := by
      obtain ⟨f, hf⟩ : ∃ f, s1.pushContacts e.count = { s1 with bufs := f } := by
        rw [pushContacts]; split <;> exact ⟨_, rfl⟩
      rw [hs2, hf]
    exact c1.buffers (by rw [q]) (by rw [q]; exact c1.head)
  rw [← hs2]
  have g2 := c2.good
  have kk := g2.inv.full.core.arb
  have hoff : ∀ x, InL L s2 x → x ∉ s2.cached := fun x hx hxc => (kk.cachedIff x hx).1 hxc (c2.offs x hx)
  obtain ⟨t, x, et, ex, n2, hni, hcnt, hmem, hcase⟩ := lookup_enter g2.inv hoff e.a e.b e.count k o e.pick
  have hxb := g2.inv.not_inL_of_free hni
  have hshp : s2.shapes = s0.shapes := c2.move.shapes
  have hdyn : s2.dynamicShapes = s0.dynamicShapes := c2.move.dynamicShapes
  have hin : ∀ y, InL L s2 y → s2.samePair e.a e.b y = false := by
    intro y hy
    obtain ⟨q1, q2⟩ := g2.inv.inL_static c2.roused hy (c2.offs y hy)
    rw [Bool.eq_false_iff, Ne, samePair_iff]
    rw [hdyn] at q1 q2
    rintro (⟨r1, r2⟩ | ⟨r1, r2⟩)
    · rw [r1] at q1; rw [r2] at q2; exact he.dyn.elim q1 q2
    · rw [r1] at q1; rw [r2] at q2; exact he.dyn.elim q2 q1
  have hxr : x ∉ s2.arbiters := by
    intro q
    rcases hcase with ⟨-, c3, -⟩ | ⟨c3, -, -⟩
    · obtain ⟨d, hdm, hdp⟩ := c2.listed x q
      refine hd d hdm ?_
      rw [samePair_iff] at c3 hdp
      simp only [CollideIn.sameAs]
      omega
    · have := (kk.rest x q).2
      obtain ⟨l1, l2, l3, l4, l5, l6, l7⟩ := kk.live x (Or.inl this)
      rcases c3 with z | z
      · exact l7 z
      · omega
  have it : Inv L s2.arbiters t := g2.inv.enter n2 hni hxb hxr (by rw [hshp]; exact he.inA) (by rw [hshp]; exact he.inB)
    (by rw [hshp]; exact he.ne) hin
  have w := n2.around
  have hxc : x ∈ t.cached := (n2.cached x).2 (Or.inr rfl)
  have tin : ∀ y, InL L t y ↔ InL L s2 y := by
    intro y
    by_cases q : y = x
    · subst q; exact ⟨fun z => absurd z (hxb _), fun z => absurd z hni⟩
    · simp only [InL, n2.others y q]
  have est : t.stamp = s2.stamp := by rw [n2.eq]
  have hval : Valid L (x :: s2.arbiters) t := by
    intro y hy hp
    by_cases q : y = x
    · subst q
      refine ⟨?_, fun _ => Or.inr (by simp), ?_⟩
      · rcases hcase with ⟨c3, -, -, c4⟩ | ⟨-, -, c4, -⟩
        · obtain ⟨l1, l2, l3, l4, l5, l6, l7⟩ := kk.live y (Or.inl c3)
          rw [c4]
          split_ifs
          · simp
          · exact (g2.valid y l6 l7).1
        · rw [c4]; simp
      · rw [est]
        rcases hcase with ⟨c3, -, c4, -⟩ | ⟨-, -, -, c4⟩
        · obtain ⟨l1, l2, l3, l4, l5, l6, l7⟩ := kk.live y (Or.inl c3)
          rw [c4]; exact (g2.valid y l6 l7).2.2
        · rw [c4]; exact Nat.zero_le _
    · have hyb : y < s2.arbBound := by
        rcases n2.bound.2.2 y hy with z | z
        · exact z
        · exact absurd z q
      obtain ⟨v1, v2, v3⟩ := g2.valid y hyb (fun z => hp ((n2.pool y).2 ⟨z, q⟩))
      rw [n2.others y q, tin, est]
      exact ⟨v1, fun z => (v2 z).imp id (fun z => by simp [z]), v3⟩
  have hopn : ¬ (t.arbs x).state.closed := by
    rcases hcase with ⟨c3, -, -, c4⟩ | ⟨-, -, c4, -⟩
    · obtain ⟨l1, l2, l3, l4, l5, l6, l7⟩ := kk.live x (Or.inl c3)
      rw [c4]
      split_ifs with z
      · simp [ArbState.closed]
      · rw [ArbState.closed_iff (g2.valid x l6 l7).1]; exact z
    · rw [c4]; simp [ArbState.closed]
  have mid0 : ∀ u : Sp F, Inv L s2.arbiters u → TraceInv L u → (∃ tr, u = { t with trace := tr }) → Mid L s2 e x u := by
    rintro u iu tu ⟨tr, rfl⟩
    refine ⟨iu, tu, hval, hxc, hxr, hxb _, hopn, w.move.trans ?_, fun b => w.root b, by show t.locked = 1; rw [w.locked]; exact c2.locked,
      by show t.roused = _; rw [w.roused]; exact c2.roused, ⟨n2.ends.1, n2.ends.2.1⟩, n2.others, ?_, est, n2.cached, ?_⟩
    · exact Around.move ⟨rfl, rfl, fun _ => rfl, rfl, rfl, rfl, rfl, rfl, rfl, rfl, rfl, rfl, rfl, rfl, rfl⟩
    · show t.arbiters = _; rw [n2.eq]
    · show t.head ≠ _; rw [n2.eq]; exact c2.head
  have hroot : ∀ b ∈ e.beginActs ++ e.preActs, (s2.bodies b).root = none := fun b hb => by
    rw [c2.roots]; exact he.acts b hb
  have hbeg : ∃ u, beginPart t e x = some u ∧ Mid L s2 e x u := by
    rw [beginPart]
    by_cases hf : (t.arbs x).state = .first
    · rw [if_pos hf]
      have htr : TraceInv L (t.emit .begin x) := by
        refine g2.tr.enter_new g2.inv n2 hxb hin (fun z1 z2 => ?_) hopn
        rcases hcase with ⟨c3, -, -, c4⟩ | ⟨c4, -⟩
        · rw [c4] at hf
          split_ifs at hf with z
          · rw [z]; trivial
          · rcases (g2.valid x z1 z2).2.1 hf with y | y
            · exact absurd y hni
            · exact absurd y hxr
        · rcases c4 with y | y
          · exact absurd y z2
          · omega
      have m0 := mid0 (t.emit .begin x) (emit_inv it _ _) htr ⟨_, rfl⟩
      obtain ⟨u, eu, mu⟩ := m0.acts e.beginActs (fun b hb => hroot b (by simp [hb]))
      rw [eu]
      refine ⟨_, rfl, ?_⟩
      split_ifs
      · refine mu.touch rfl (fun y hy => by simp [setArb, hy]) (by simp [setArb]) (by simp [setArb, ArbState.closed]) ?_
        obtain ⟨l1, l2, l3, l4, l5, l6, l7⟩ := mu.inv.full.core.arb.live x (Or.inl mu.cached)
        simpa [setArb] using (mu.valid x l6 l7).2.2
      · exact mu
    · rw [if_neg hf]
      refine ⟨t, rfl, mid0 t it ?_ ⟨t.trace, rfl⟩⟩
      rcases hcase with ⟨c3, c5, -, c4⟩ | ⟨-, -, c4, -⟩
      · obtain ⟨l1, l2, l3, l4, l5, l6, l7⟩ := kk.live x (Or.inl c3)
        have hnc : (s2.arbs x).state ≠ .cached := by
          intro z; rw [if_pos z] at c4; exact hf c4
        rw [if_neg hnc] at c4
        exact g2.tr.enter_old n2 hni hxb l6 l7 c5 (by rw [ArbState.closed_iff (g2.valid x l6 l7).1]; exact hnc) c4
      · exact absurd c4 hf
  obtain ⟨u, eu, mu⟩ := hbeg
  have hpre : ∃ v ok, prePart u e x = some (v, ok) ∧ Mid L s2 e x v := by
    rw [prePart]
    by_cases hf : (u.arbs x).state ≠ .ignore
    · rw [if_pos hf]
      obtain ⟨v, ev, mv⟩ := mu.pre.acts e.preActs (fun b hb => hroot b (by simp [hb]))
      rw [ev]
      refine ⟨_, _, rfl, ?_⟩
      split_ifs
      · refine mv.touch rfl (fun y hy => by simp [setArb, hy]) (by simp [setArb]) (by simp [setArb, ArbState.closed]) ?_
        obtain ⟨l1, l2, l3, l4, l5, l6, l7⟩ := mv.inv.full.core.arb.live x (Or.inl mv.cached)
        simpa [setArb] using (mv.valid x l6 l7).2.2
      · exact mv
    · rw [if_neg hf]; exact ⟨_, _, rfl, mu⟩
  obtain ⟨v, ok, ev, mv⟩ := hpre
  refine ⟨finPart v e x ok, ?_, ?_⟩
  · rw [ex] at et
    simp only [ex, et, eu, ev, Option.bind_some]
  -- the result without the new entry of the list
  have hresult : ∃ r : Sp F, Mid L s2 e x r ∧ (r.arbs x).stamp = r.stamp ∧
      ((finPart v e x ok = { r with arbiters := r.arbiters ++ [x] }) ∨
        (finPart v e x ok = r ∧ (r.arbs x).state ≠ .first)) := by
    simp only [finPart]
    obtain ⟨hh, hhv⟩ := Option.ne_none_iff_exists'.1 mv.head
    split_ifs with hok
    · refine ⟨v.setArb x fun r => { r with stamp := v.stamp }, mv.touch rfl (fun y hy => by simp [setArb, hy])
        (by simp [setArb]) (by simpa [setArb] using mv.opn) (by simp [setArb]), by simp [setArb], Or.inl rfl⟩
    · refine ⟨_, mv.touch ?_ (fun y hy => ?_) ?_ ?_ ?_, ?_, Or.inr ⟨rfl, ?_⟩⟩
      · simp only [setArb, popContacts, hhv, setBuf]
      · simp [setArb, popContacts, hhv, setBuf, hy]
      · simp [setArb, popContacts, hhv, setBuf]
      · simp only [setArb, popContacts, hhv, setBuf, Function.update_self]
        split_ifs with q
        · simp [ArbState.closed]
        · exact mv.opn
      · simp [setArb, popContacts, hhv, setBuf]
      · simp [setArb, popContacts, hhv, setBuf]
      · simp only [setArb, popContacts, hhv, setBuf, Function.update_self]
        split_ifs with q
        · simp
        · rw [not_not.1 q]; simp
  obtain ⟨r, mr, hrs, hfin⟩ := hresult
  have kr := mr.inv.full.core.arb
  obtain ⟨l1, l2, l3, l4, l5, l6, l7⟩ := kr.live x (Or.inl mr.cached)
  have rown : ∀ y, InL L r y → InL L s2 y ∧ r.owner y = s2.owner y := by
    intro y hy
    have q : y ≠ x := by rintro rfl; exact mr.notIn hy
    refine ⟨by simpa only [InL, mr.others y q] using hy, ?_⟩
    simp only [owner, mr.others y q, mr.move.typ]
  have rin : ∀ y, InL L r y ↔ InL L s0 y := by
    intro y
    rw [← c2.inl y]
    by_cases q : y = x
    · subst q; exact ⟨fun z => absurd z mr.notIn, fun z => absurd z hni⟩
    · simp only [InL, mr.others y q]
  have rpx : r.samePair e.a e.b x = true := by rw [samePair_iff]; exact Or.inl mr.ends
  have rpair : ∀ a b y, y ≠ x → r.samePair a b y = s2.samePair a b y := fun a b y q => by
    simp only [samePair, mr.others y q]
  have base : ∀ t' : Sp F, (∃ A, t' = { r with arbiters := A }) → Good L t'.arbiters t' →
      (∀ y ∈ t'.arbiters, y ∈ r.arbiters ∨ y = x) → Col L s0 (done ++ [e]) t' := by
    rintro t' ⟨A, rfl⟩ gt hA
    refine ⟨gt, fun y hy => ?_, mr.locked, mr.roused, mr.head, (c2.move.trans mr.move).trans ?_,
      fun b => (mr.roots b).trans (c2.roots b), mr.stamp.trans c2.stamp, rin, ?_, ?_, ?_⟩
    · obtain ⟨q1, q2⟩ := rown y hy
      show r.off (r.owner y)
      rw [mr.move.off, q2]
      exact c2.offs y q1
    · exact Around.move ⟨rfl, rfl, fun _ => rfl, rfl, rfl, rfl, rfl, rfl, rfl, rfl, rfl, rfl, rfl, rfl, rfl⟩
    · intro y hy
      rcases hA y hy with q | q
      · have hyx : y ≠ x := by rintro rfl; rw [mr.arbiters] at q; exact mr.notRest q
        rw [mr.arbiters] at q
        obtain ⟨d, hd, hp⟩ := c2.listed y q
        exact ⟨d, by simp [hd], by show r.samePair _ _ _ = _; rw [rpair _ _ _ hyx]; exact hp⟩
      · subst q; exact ⟨e, by simp, rpx⟩
    · intro y hy hs
      by_cases q : y = x
      · subst q; exact ⟨e, by simp, hc, rpx⟩
      · have hyc : y ∈ s2.cached := by
          rcases (mr.mem y).1 hy with z | z
          · exact z
          · exact absurd z q
        have hs' : (s2.arbs y).stamp = s2.stamp := by
          rw [← mr.others y q, ← mr.stamp]; exact hs
        obtain ⟨d, hd, hdc, hp⟩ := c2.seen y hyc hs'
        exact ⟨d, by simp [hd], hdc, by show r.samePair _ _ _ = _; rw [rpair _ _ _ q]; exact hp⟩
    · intro d hdm hdc
      rcases List.mem_append.1 hdm with q | q
      · obtain ⟨y, hy, hp, hst, hcl⟩ := c2.hit d q hdc
        have hyx : y ≠ x := by
          rintro rfl
          refine hd d q ?_
          rcases hcase with ⟨-, c3, -⟩ | ⟨c3, -, -⟩
          · rw [samePair_iff] at c3 hp
            simp only [CollideIn.sameAs]
            omega
          · obtain ⟨_, _, _, _, _, m6, m7⟩ := kk.live y (Or.inl hy)
            rcases c3 with z | z
            · exact absurd z m7
            · omega
        refine ⟨y, (mr.mem y).2 (Or.inl hy), by show r.samePair _ _ _ = _; rw [rpair _ _ _ hyx]; exact hp, ?_, ?_⟩
        · show (r.arbs y).stamp = r.stamp; rw [mr.others y hyx, mr.stamp]; exact hst
        · show ¬ (r.arbs y).state.closed; rw [mr.others y hyx]; exact hcl
      · rw [List.mem_singleton.1 q]
        exact ⟨x, mr.cached, rpx, hrs, mr.opn⟩
  rcases hfin with hfin | ⟨hfin, hnf⟩
  · rw [hfin]
    refine base _ ⟨_, rfl⟩ ⟨?_, ?_, ?_⟩ (fun y hy => by simpa using hy)
    · refine mr.inv.editArbs ⟨rfl, rfl, fun _ => rfl, rfl, rfl, rfl, rfl, rfl, rfl, rfl, rfl, rfl, rfl, rfl, rfl⟩
        ⟨mr.inv.full.core.thread.nodup, mr.inv.full.core.thread.head, mr.inv.full.core.thread.dl,
          mr.inv.full.core.thread.ends, mr.inv.full.core.thread.both, mr.inv.full.core.thread.out⟩
        ⟨?_, ?_, ?_, ?_, kr.cachedIff, kr.cachedNodup, kr.uniq, kr.live, kr.poolNodup, kr.poolBound, ?_, kr.head, kr.noLeak⟩
        mr.inv.closed.arb
      · intro y
        show y ∈ r.arbiters ++ [x] ↔ (InL L r y ∧ ¬ r.off (r.owner y)) ∨ y ∈ r.arbiters ++ [x]
        refine ⟨Or.inr, ?_⟩
        rintro (⟨q1, q2⟩ | q)
        · exact List.mem_append_left _ ((kr.mem y).2 (Or.inl ⟨q1, q2⟩))
        · exact q
      · exact nodup_concat kr.nodup (by rw [mr.arbiters]; exact mr.notRest)
      · exact nodup_concat kr.nodup (by rw [mr.arbiters]; exact mr.notRest)
      · intro y hy
        rcases List.mem_append.1 hy with q | q
        · rw [mr.arbiters] at q; exact kr.rest y q
        · rw [List.mem_singleton.1 q]; exact ⟨mr.notIn, mr.cached⟩
      · intro y hy
        rcases List.mem_append.1 hy with q | q
        · exact kr.stamp y q
        · rw [List.mem_singleton.1 q]; exact hrs
    · exact mr.tr.congr rfl rfl rfl fun _ => ⟨rfl, rfl, rfl, .rfl⟩
    · intro y hy hp
      obtain ⟨v1, v2, v3⟩ := mr.valid y hy hp
      refine ⟨v1, fun z => (v2 z).imp id fun z => ?_, v3⟩
      show y ∈ r.arbiters ++ [x]
      rw [mr.arbiters]
      simp at z ⊢; tauto
  · rw [hfin]
    refine base r ⟨_, rfl⟩ ⟨by rw [mr.arbiters]; exact mr.inv, mr.tr, ?_⟩ (fun y hy => Or.inl hy)
    intro y hy hp
    obtain ⟨v1, v2, v3⟩ := mr.valid y hy hp
    refine ⟨v1, fun z => (v2 z).imp id fun q => ?_, v3⟩
    rcases List.mem_cons.1 q with q | q
    · rw [q] at z; exact absurd z hnf
    · rw [mr.arbiters]; exact q

/-- The loop over all reported pairs. -/
theorem collide_loop {L : Nat → List Nat} {s0 : Sp F} : ∀ (l done : List CollideIn) (s : Sp F), Col L s0 done s →
    (∀ e ∈ l, PairOk s0 e) → (∀ d ∈ done, ∀ e ∈ l, ¬ d.sameAs e) → l.Pairwise (fun d e => ¬ d.sameAs e) →
    ∃ t, l.foldlM collide s = some t ∧ Col L s0 (done ++ l) t
  | [], done, s, h, _, _, _ => ⟨s, rfl, by simpa using h⟩
  | e :: l, done, s, h, ho, hd, hp => by
    obtain ⟨t1, e1, h1⟩ := collide_col h (ho e (by simp)) (fun d hdm => hd d hdm e (by simp))
    obtain ⟨t, e2, h2⟩ := collide_loop l (done ++ [e]) t1 h1 (fun x hx => ho x (by simp [hx]))
      (fun d hdm x hx => by
        rcases List.mem_append.1 hdm with q | q
        · exact hd d q x (by simp [hx])
        · rw [List.mem_singleton.1 q]; exact (List.pairwise_cons.1 hp).1 x hx)
      (List.pairwise_cons.1 hp).2
    refine ⟨t, ?_, by simpa using h2⟩
    rw [List.foldlM_cons, e1]; exact e2

end Sp
end CP
