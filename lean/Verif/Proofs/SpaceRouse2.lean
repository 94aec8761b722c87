import Verif.Proofs.SpaceRouse
import Verif.Proofs.SpaceEvents5

/-! # What a step wakes -/

namespace CP
variable {F : Type}
namespace Sp
variable [GoFloat F]

set_option maxHeartbeats 2000000 in
/-- The arbiters of the solver after the collision phase are those of the pressed pairs. -/
theorem arbiters_iff {L L1 : Nat → List Nat} {s v u0 : Sp F} (h : Good L [] s) (hl : s.locked = 0) {i : StepIn F} (ok : StepOk s i)
    (st : Start L L1 i s v.pushFresh) (eu : i.pairs.foldlM collide v.pushFresh = some u0) (hu : Hits L1 i s { u0 with locked := 0 }) (p q : Nat) :
    (∃ x ∈ u0.arbiters, u0.samePair p q x = true) ↔ i.presses s p q := by
  set a := v.pushFresh with ha
  set u : Sp F := { u0 with locked := 0 } with hu0
  obtain ⟨g1, g2, g3, g4⟩ := start_sig (p := p) (q := q) h st
  have key : ∀ d, i.contact p q = some d → ∃ x, Live u p q x ∧ (x ∈ u0.arbiters ↔ ((s.pairSt p q).onContact d (s.inert p q) true).2 = .active) := by
    intro d hcon
    obtain ⟨d1, d2, d3⟩ := contact_some hcon
    have pok := ok.pairs d d1
    have noff : ∀ x, Open s p q x → InL L s x → ¬ s.off (s.owner x) := by
      intro x hx hi ho
      rw [off_frozen h.inv hl ((open_iff ..).1 hx).1 hi] at ho
      have hd := pok.dyn
      rw [h.inv.full.core.shape.memDyn, h.inv.full.core.shape.memDyn, h.inv.off_iff hl, h.inv.off_iff hl] at hd
      rw [frozen, Bool.and_eq_true, rests_iff] at ho
      replace ho := ho.1
      simp only [resting, isSleeping, Option.isSome_iff_ne_none] at ho
      rcases d3 with ⟨x1, x2⟩ | ⟨x1, x2⟩ <;> rw [x1, x2] at hd <;> tauto
    have hσ : Sig a p q (s.pairSt p q) := by
      by_cases hx : ∃ x, Open s p q x
      · obtain ⟨x, hx⟩ := hx
        refine .inr ⟨fun e => (pairSt_apart_iff h.inv).1 e x hx, x, (g1 x).2 hx, ?_⟩
        rw [pairSt_open h.inv hx]
        by_cases hi : InL L s x
        · rw [if_pos hi, g2 x hi (noff x hx hi)]; simp
        · rw [if_neg hi, g3 x hi]; split_ifs with e <;> simp [e]
      · have hno : ∀ x, ¬ Open s p q x := by simpa using hx
        exact .inl ⟨pairSt_apart hno, fun x e => hno x ((g1 x).1 e)⟩
    have hσd : Sig a d.a d.b (s.pairSt p q) := by
      rcases d3 with ⟨x1, x2⟩ | ⟨x1, x2⟩ <;> rw [x1, x2]
      · exact hσ
      · rcases hσ with ⟨e, n⟩ | ⟨e, x, ho, hi⟩
        · exact .inl ⟨e, fun x hx => n x ((open_comm ..).1 hx)⟩
        · exact .inr ⟨e, x, (open_comm ..).1 ho, hi⟩
    obtain ⟨x, m⟩ := loop_met st.col st.pairs ok.once eu d1 d2 hσd
    have hin : a.inert d.a d.b = s.inert p q := by
      have : a.inert d.a d.b = s.inert d.a d.b := by
        refine inert_congr (st.move.shapes.trans st.around.shapes) (fun b => ?_) _ _
        exact (st.move.keep.infMass b).trans (st.around.move.keep.infMass b)
      rw [this]
      rcases d3 with ⟨x1, x2⟩ | ⟨x1, x2⟩ <;> rw [x1, x2]
      rw [inert_comm]
    rw [hin] at m
    refine ⟨x, ?_, m.active⟩
    have := m.live
    rcases d3 with ⟨x1, x2⟩ | ⟨x1, x2⟩ <;> rw [x1, x2] at this
    · exact this
    · exact (live_comm ..).1 this
  constructor
  · rintro ⟨x, hx, hp⟩
    have hxu : x ∈ u.arbiters := hx
    have hc := (hu.good.inv.full.core.arb.rest x hxu).2
    have hs := hu.good.inv.full.core.arb.stamp x hxu
    obtain ⟨l1, l2, l3, l4, l5, l6, l7⟩ := hu.good.inv.full.core.arb.live x (.inl hc)
    obtain ⟨d, hd, hdc, hdp⟩ := hu.seen x hc hs
    have hpu : u.samePair p q x = true := hp
    have hdpq : (d.a = p ∧ d.b = q) ∨ (d.a = q ∧ d.b = p) := by
      rw [samePair_iff] at hdp hpu; omega
    cases hcon : i.contact p q with
    | none => exact absurd hdpq (contact_none hcon d hd hdc)
    | some d' =>
      obtain ⟨y, hy, ha⟩ := key d' hcon
      have : x = y := hu.good.inv.open_unique ⟨l6, l7⟩ ⟨hy.1, hy.2.1⟩ hpu hy.2.2
      exact ⟨d', hcon, ha.1 (this ▸ hx)⟩
  · rintro ⟨d, hcon, ha⟩
    obtain ⟨y, hy, ha'⟩ := key d hcon
    exact ⟨y, ha'.2 ha, hy.2.2⟩

omit [GoFloat F] in
theorem getArray_bodies {s t : Sp F} {k o : Nat} (e : s.getArray = some (t, k, o)) : t.bodies = s.bodies := by
  simp only [getArray, Option.bind_eq_bind] at e
  cases h : s.head with
  | none => rw [h] at e; cases e
  | some k =>
    rw [h] at e
    simp only [Option.bind_some] at e
    obtain ⟨u, hu⟩ : ∃ u, u = (if bufSize < (s.bufs k).num + maxContacts then s.pushFresh else s) := ⟨_, rfl⟩
    have hb : u.bodies = s.bodies := by rw [hu]; split; exacts [pushFresh_bodies s, rfl]
    rw [← hu] at e
    cases h2 : u.head with
    | none => rw [h2] at e; cases e
    | some k2 =>
      rw [h2] at e
      simp only [Option.bind_some, Option.some.injEq, Prod.mk.injEq] at e
      rw [← e.1]; exact hb

omit [GoFloat F] in
theorem lookupArb_bodies (s : Sp F) (a b : Nat) (pick : Option Nat) : (s.lookupArb a b pick).1.bodies = s.bodies := by
  simp only [lookupArb]
  split
  · rfl
  · split
    · split_ifs <;> rfl
    · rfl

theorem collide_bodies {s t : Sp F} {d : CollideIn} (h1 : d.beginActs = []) (h2 : d.preActs = []) (e : s.collide d = some t) :
    t.bodies = s.bodies := by
  simp only [collide, Option.bind_eq_bind, h1, h2, runActs, List.foldlM_nil, Option.pure_def, Option.bind_some] at e
  obtain ⟨⟨u, k, o⟩, e1, e⟩ := Option.bind_eq_some_iff.1 e
  have hu := getArray_bodies e1
  have hp : ∀ (s : Sp F) n, (s.pushContacts n).bodies = s.bodies := by intro s n; unfold pushContacts; split <;> rfl
  have hq : ∀ (s : Sp F) n, (s.popContacts n).bodies = s.bodies := by intro s n; unfold popContacts; split <;> rfl
  have hl := lookupArb_bodies (u.pushContacts d.count) d.a d.b d.pick
  rw [hp, hu] at hl
  simp only at e
  split_ifs at e <;> simp only [Option.bind_some, Option.some.injEq] at e <;> (try split_ifs at e) <;>
    (rw [← e]; first | exact hu | (simp only [setArb, emit, updateArb, hq]; exact hl))

theorem collide_loop_bodies : ∀ (l : List CollideIn) (s t : Sp F), (∀ d ∈ l, d.beginActs = [] ∧ d.preActs = []) →
    l.foldlM collide s = some t → t.bodies = s.bodies
  | [], s, t, _, e => by cases e; rfl
  | d :: l, s, t, h, e => by
    rw [List.foldlM_cons] at e
    obtain ⟨u, e1, e2⟩ := Option.bind_eq_some_iff.1 e
    exact (collide_loop_bodies l u t (fun d hd => h d (by simp [hd])) e2).trans (collide_bodies (h d (by simp)).1 (h d (by simp)).2 e1)

set_option maxHeartbeats 2000000 in
theorem step_wakes {L : Nat → List Nat} {s t : Sp F} (h : Good L [] s) (hl : s.locked = 0) (host : Hosted s) {i : StepIn F}
    (hdt : i.dt ≠ 0) (ok : StepOk s i) (q1 : ∀ y, i.sepActs y = []) (q2 : i.lateActs = []) (e : s.step i = some t) :
    (∀ b, (s.bodies b).root ≠ none → ((t.bodies b).root = none ↔ ∃ c, i.pushes s c ∧ (s.bodies b).root = (s.bodies c).root)) ∧
    (∀ b, (s.bodies b).root ≠ none → (t.bodies b).root ≠ none → (t.bodies b).root = (s.bodies b).root) ∧
    (∀ b, (s.bodies b).root ≠ none → (t.bodies b).root = none → (t.bodies b).idle = .time 0) ∧
    (s.threshold ≠ .infinity → (∀ c, i.pushes s c ∨ s.pulled c → (t.bodies c).idle = .time 0) ∧
      (i.calm → ∀ b, (t.bodies b).idle = i.idles s b ∨ ((s.bodies b).root ≠ none ∧ (t.bodies b).root = none) ∨
        ∃ c, (i.pushes s c ∨ s.pulled c) ∧ (b = c ∨ t.Touching c b))) := by
  obtain ⟨v, L1, u0, ev, st, eu, eun, hu⟩ := hits_full h hl ok
  set u : Sp F := { u0 with locked := 0 } with hu0
  have host1 : Hosted u := host.congr hu.keep.typ hu.keep.inSpace hu.shapes hu.keep.cons
  obtain ⟨w, L2, ew, gw, pw, -, -, -⟩ := processComponents_good hu.good (hu.keep.locked.trans hl) hu.head hu.opens host1 hu.offs i.dt i.moving
  have hlw : w.locked = 0 := pw.keep.locked.trans (hu.keep.locked.trans hl)
  obtain ⟨t', et, gt, tt⟩ := tail_good gw hlw i.sepActs i.lateActs
  have est : s.step i = some t' := by
    simp only [step]
    rw [if_neg hdt]
    simp only [Option.bind_eq_bind, Option.bind_eq_some_iff] at et ⊢
    obtain ⟨w4, e4, w5, e5, e6⟩ := et
    exact ⟨v, ev, u0, eu, u, eun, w, ew, w4, e4, w5, e5, e6⟩
  rw [e] at est
  obtain rfl := Option.some.inj est
  have htb := tt.bodies ⟨q1, q2⟩
  by_cases hon : s.sleepOn = true
  swap
  · have hth : s.threshold = .infinity := by
      cases e : s.threshold with
      | infinity => rfl
      | time x => simp [sleepOn, e] at hon
    have hno : ∀ b, (s.bodies b).root = none := by
      intro b
      by_contra hne
      obtain ⟨r, hr⟩ := Option.ne_none_iff_exists'.1 hne
      have := h.inv.full.quiet b r hr
      rw [h.inv.num.inf hth] at this; simp at this
    exact ⟨fun b hb => absurd (hno b) hb, fun b hb => absurd (hno b) hb, fun b hb => absurd (hno b) hb, fun z => absurd hth z⟩
  have onu : u.sleepOn = true := by simp only [sleepOn, hu.keep.threshold]; exact hon
  obtain ⟨k1, k2, k3, k4, k5⟩ := processComponents_wakes hu.good (hu.keep.locked.trans hl) hu.head hu.opens host1 hu.offs onu i.dt i.moving ew
  have live : ∀ x ∈ u.arbiters, (u.arbs x).bodyA = (s.shapes (u.arbs x).a).body ∧ (u.arbs x).bodyB = (s.shapes (u.arbs x).b).body := by
    intro x hx
    have hc := (hu.good.inv.full.core.arb.rest x hx).2
    obtain ⟨l1, l2, -⟩ := hu.good.inv.full.core.arb.live x (.inl hc)
    rw [hu.shapes] at l1 l2
    exact ⟨l1, l2⟩
  have hpu : ∀ c, PushedBy u.arbiters u c ↔ i.pushes s c := by
    intro c
    simp only [PushedBy, StepIn.pushes, hu.keep.typ, hu.roots]
    refine and_congr_right fun hd => ⟨?_, ?_⟩
    · rintro ⟨x, hx, q⟩
      obtain ⟨l1, l2⟩ := live x hx
      have pr : i.presses s (u.arbs x).a (u.arbs x).b := (arbiters_iff h hl ok st eu hu _ _).1 ⟨x, hx, (samePair_iff ..).2 (.inl ⟨rfl, rfl⟩)⟩
      have pr' : i.presses s (u.arbs x).b (u.arbs x).a := (arbiters_iff h hl ok st eu hu _ _).1 ⟨x, hx, (samePair_iff ..).2 (.inr ⟨rfl, rfl⟩)⟩
      rcases q with ⟨x1, x2⟩ | ⟨x1, x2⟩
      · exact ⟨_, _, pr, by rw [← l1]; exact x1, by rw [← l2]; exact x2.symm⟩
      · exact ⟨_, _, pr', by rw [← l2]; exact x1, by rw [← l1]; exact x2.symm⟩
    · rintro ⟨p, q, pr, hp, hq⟩
      obtain ⟨x, hx, hpq⟩ := (arbiters_iff h hl ok st eu hu p q).2 pr
      obtain ⟨l1, l2⟩ := live x hx
      refine ⟨x, hx, ?_⟩
      have hpq : u.samePair p q x = true := hpq
      rw [samePair_iff] at hpq
      rw [l1, l2]
      rcases hpq with ⟨x1, x2⟩ | ⟨x1, x2⟩ <;> rw [x1, x2]
      · exact .inl ⟨hp, hq.symm⟩
      · exact .inr ⟨hp, hq.symm⟩
  have hpl : ∀ c, PulledBy u c ↔ s.pulled c := by
    intro c
    simp only [PulledBy, pulled, hu.keep.typ, hu.keep.cons]
  simp only [hpu, hpl, hu.roots] at k1 k2 k3 k4 k5
  rw [htb]
  refine ⟨k1, k2, k3, fun _ => ⟨k4, ?_⟩⟩
  rintro ⟨c1, c2, -, -⟩ b
  have hub : ∀ b, (u.bodies b).idle = (s.bodies b).idle := by
    intro b
    rw [c1] at ev
    have hv : v = s.begun.lock := (Option.some.inj ev).symm
    have e1 : u.bodies = s.begun.bodies := by
      show u0.bodies = _
      rw [collide_loop_bodies i.pairs v.pushFresh u0 c2 eu, pushFresh_bodies, hv]; rfl
    rw [e1, st.around.body b]
  rcases k5 b with z | z | ⟨c, hc, z⟩
  · left
    rw [z]
    have hm : b ∈ u.dynamicBodies ↔ (s.bodies b).inSpace = true ∧ s.typ b ≠ .static ∧ (s.bodies b).root = none := by
      rw [hu.dynamicBodies, h.inv.full.core.body.memDyn, h.inv.off_iff hl]; tauto
    rw [hu.keep.typ, hub]
    simp only [StepIn.idles, idleAfter, hub, hm]
    by_cases hd : s.typ b = .dynamic
    · cases (s.bodies b).idle <;> simp [hd]
    · simp [hd]
  · exact .inr (.inl z)
  · refine .inr (.inr ⟨c, hc, z.imp id fun z => ?_⟩)
    rw [near_iff gw.inv.full] at z
    rw [near_iff gt.inv.full]
    obtain ⟨y, hy, q⟩ := z
    exact ⟨y, (tt.inl y).2 hy, by rw [(tt.ends y).2.2.1, (tt.ends y).2.2.2]; exact q⟩

end Sp
end CP
