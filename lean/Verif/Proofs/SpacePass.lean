import Verif.Proofs.SpaceComp

/-! # `ProcessComponents` as a whole -/

namespace CP
variable {F : Type}
namespace Sp

/-- Dynamic bodies that have shapes or joints in the space are themselves in the space. -/
structure Hosted (s : Sp F) : Prop where
  shape : ∀ sh, (s.shapes sh).inSpace = true → s.typ (s.shapes sh).body = .dynamic → (s.bodies (s.shapes sh).body).inSpace = true
  con : ∀ c, (s.cons c).inSpace = true → (s.typ (s.cons c).a = .dynamic → (s.bodies (s.cons c).a).inSpace = true) ∧
    (s.typ (s.cons c).b = .dynamic → (s.bodies (s.cons c).b).inSpace = true)

theorem Hosted.congr {s t : Sp F} (h : Hosted s) (ht : ∀ b, t.typ b = s.typ b)
    (hi : ∀ b, (t.bodies b).inSpace = (s.bodies b).inSpace) (hs : t.shapes = s.shapes) (hc : t.cons = s.cons) : Hosted t := by
  constructor
  · intro sh; rw [hs, ht, hi]; exact h.shape sh
  · intro c; rw [hc, ht, ht, hi, hi]; exact h.con c

/-- The neighbours in the contact graph. -/
theorem Core.graph {A : Nat → Prop} {L : Nat → List Nat} {rest : List Nat} {s : Sp F} (h : Core A L rest s) :
    ∃ N, Graph s N ∧ (∀ b c, c ∈ N b ↔ s.Linked b c) ∧
      (∀ b c, c ∈ N b ↔ (∃ x, InL L s x ∧ (((s.arbs x).bodyA = b ∧ (s.arbs x).bodyB = c) ∨ ((s.arbs x).bodyA = c ∧ (s.arbs x).bodyB = b))) ∨
        (∃ k, (s.cons k).inSpace = true ∧ (((s.cons k).a = b ∧ (s.cons k).b = c) ∨ ((s.cons k).a = c ∧ (s.cons k).b = b)))) := by
  choose C c1 c2 c3 using h.con.conList
  have h1 : ∀ {c : Nat} (b x), x ∈ L b → (s.otherBody b x = c ↔ ((s.arbs x).bodyA = b ∧ (s.arbs x).bodyB = c) ∨ ((s.arbs x).bodyA = c ∧ (s.arbs x).bodyB = b)) := by
    intro c b x hx
    have hin := h.thread.inL hx
    have ne := (h.arb.live x (Or.inr hin)).2.2.2.2.1
    simp only [otherBody]
    rcases h.thread.ends b x hx with e | e
    · rw [if_pos e]
      have : (s.arbs x).bodyB ≠ b := by rw [← e]; exact Ne.symm ne
      tauto
    · have : (s.arbs x).bodyA ≠ b := by rw [← e]; exact ne
      rw [if_neg this]
      tauto
  have h2 : ∀ {c : Nat} (b k), k ∈ C b → (s.otherCon b k = c ↔ ((s.cons k).a = b ∧ (s.cons k).b = c) ∨ ((s.cons k).a = c ∧ (s.cons k).b = b)) := by
    intro c b k hk
    obtain ⟨q1, q2⟩ := (c3 b k).1 hk
    have ne := h.con.ne k q1
    simp only [otherCon]
    rcases q2 with e | e
    · rw [if_pos e.symm]
      have : (s.cons k).b ≠ b := by rw [← e]; exact Ne.symm ne
      tauto
    · have : b ≠ (s.cons k).a := by rw [← e]; exact Ne.symm ne
      rw [if_neg this]
      have := this.symm
      tauto
  refine ⟨fun b => (L b).map (s.otherBody b) ++ (C b).map (s.otherCon b), fun b => ⟨L b, C b, h.arbList b, c1 b, rfl⟩, fun b c => ?_, fun b c => ?_⟩
  · simp only [List.mem_append, List.mem_map, Linked, h.arbList b, c1 b, Option.some.injEq]
    constructor
    · rintro (⟨x, hx, e⟩ | ⟨k, hk, e⟩)
      · exact .inl ⟨_, rfl, x, hx, (h1 b x hx).1 e⟩
      · exact .inr ⟨_, rfl, k, hk, (h2 b k hk).1 e⟩
    · rintro (⟨_, rfl, x, hx, e⟩ | ⟨_, rfl, k, hk, e⟩)
      · exact .inl ⟨x, hx, (h1 b x hx).2 e⟩
      · exact .inr ⟨k, hk, (h2 b k hk).2 e⟩
  · simp only [List.mem_append, List.mem_map]
    constructor
    · rintro (⟨x, hx, e⟩ | ⟨k, hk, e⟩)
      · exact .inl ⟨x, h.thread.inL hx, (h1 b x hx).1 e⟩
      · exact .inr ⟨k, ((c3 b k).1 hk).1, (h2 b k hk).1 e⟩
    · rintro (⟨x, hx, e⟩ | ⟨k, hk, e⟩)
      · have hm : x ∈ L b := by
          rcases e with ⟨e, -⟩ | ⟨-, e⟩
          · rw [← e]; exact hx
          · rw [← e, ← h.thread.both]; exact hx
        exact .inl ⟨x, hm, (h1 b x hm).2 e⟩
      · have hm : k ∈ C b := (c3 b k).2 ⟨hk, by tauto⟩
        exact .inr ⟨k, hm, (h2 b k hm).2 e⟩

variable [GoFloat F]

/-- The loop over the components: invariants, and which bodies fall asleep. -/
theorem components_good {L : Nat → List Nat} {u : Sp F} (h : Good L [] u) (hl : u.locked = 0) (hon : u.sleepOn = true)
    (host : Hosted u)
    (held : (∀ x, InL L u x → Held u (u.arbs x).bodyA (u.arbs x).bodyB ∧ Held u (u.arbs x).bodyB (u.arbs x).bodyA))
    (heldc : ∀ c, (u.cons c).inSpace = true → Held u (u.cons c).a (u.cons c).b ∧ Held u (u.cons c).b (u.cons c).a) :
    ∃ t, componentLoop u.dynamicBodies.length 0 u = some t ∧ Good L [] t ∧ Fr u t ∧
      (∀ b r, (u.bodies b).root = some r → (t.bodies b).root = some r) ∧
      (∀ b, (u.bodies b).root = none → u.typ b = .dynamic → (u.bodies b).inSpace = true →
        ((t.bodies b).root ≠ none ↔ ∀ c, t.Connected b c → ((t.bodies c).idle).lt t.threshold = false)) ∧
      (∀ b r, (u.bodies b).root = none → (t.bodies b).root = some r → ∀ c, t.Connected b c ↔ (t.bodies c).root = some r) := by
  have hro : u.roused = [] := h.inv.full.sleep.rouseLock hl
  have hoff : ∀ b, u.off b ↔ u.asl b := fun b => by simp only [off, asl, hro]; simp
  obtain ⟨th, hth⟩ : ∃ th, u.threshold = .time th := by
    cases e : u.threshold with
    | infinity => simp [sleepOn, e] at hon
    | time x => exact ⟨x, rfl⟩
  have hpos := h.inv.num.pos th hth
  have lt0 : (Idle.time (0 : F)).lt u.threshold = true := by rw [hth]; simpa [Idle.lt] using hpos
  obtain ⟨N, g, gl, gm⟩ := h.inv.full.core.graph
  have hsym : ∀ p q, q ∈ N p → p ∈ N q := by
    intro p q; rw [gm, gm]
    rintro (⟨x, h1, h2⟩ | ⟨x, h1, h2⟩)
    · exact .inl ⟨x, h1, by tauto⟩
    · exact .inr ⟨x, h1, by tauto⟩
  have bnd : ∀ b c, c ∈ N b → Bound u b c := by
    intro b c
    rw [gm]
    rintro (⟨x, h1, ⟨rfl, rfl⟩ | ⟨rfl, rfl⟩⟩ | ⟨x, h1, ⟨rfl, rfl⟩ | ⟨rfl, rfl⟩⟩)
    · exact (h.inv.closed.arb x h1).1
    · exact (h.inv.closed.arb x h1).2
    · exact (h.inv.closed.con x h1).1
    · exact (h.inv.closed.con x h1).2
  have hst : ∀ b c, c ∈ N b → Held u b c := by
    intro b c
    rw [gm]
    rintro (⟨x, h1, ⟨rfl, rfl⟩ | ⟨rfl, rfl⟩⟩ | ⟨x, h1, ⟨rfl, rfl⟩ | ⟨rfl, rfl⟩⟩)
    · exact (held x h1).1
    · exact (held x h1).2
    · exact (heldc x h1).1
    · exact (heldc x h1).2
  have hin : ∀ b c, c ∈ N b → u.typ c = .dynamic → (u.bodies c).inSpace = true := by
    intro b c
    rw [gm]
    rintro (⟨x, h1, h2⟩ | ⟨x, h1, h2⟩) hd
    · obtain ⟨l1, l2, l3, l4, -⟩ := h.inv.full.core.arb.live x (Or.inr h1)
      rcases h2 with ⟨rfl, rfl⟩ | ⟨rfl, rfl⟩
      · rw [l2] at hd ⊢; exact host.shape _ l4 hd
      · rw [l1] at hd ⊢; exact host.shape _ l3 hd
    · rcases h2 with ⟨rfl, rfl⟩ | ⟨rfl, rfl⟩
      · exact (host.con x h1).2 hd
      · exact (host.con x h1).1 hd
  have base : CL u L (fun b => u.typ b = .dynamic) N [] u.dynamicBodies u := by
    refine ⟨.refl u, rfl, h.inv.full.core.congrA hoff, h.inv.full.sleep.sleepNodup, h.inv.full.sleep.chain,
      h.inv.full.sleep.rootless, fun b r hr => .inl (h.inv.full.quiet b r hr), by simp, ?_, ?_, ?_, by simp, ?_⟩
    · intro b r hr hb c hc hD
      rcases bnd b c hc (by rw [hb]; simp) with q | q
      · rw [q] at hD; simp at hD
      · rw [q]; exact hb
    · intro b hb hD hr c hc hDc
      have hcr : (u.bodies c).root = none := by
        by_contra hne
        rcases bnd c b (hsym b c hc) hne with q | q
        · rw [q] at hD; simp at hD
        · exact hne (q.symm.trans hr)
      refine ⟨(h.inv.full.core.body.memDyn c).2 ⟨hin b c hc hDc, by rw [hDc]; simp, ?_⟩, hcr⟩
      rw [h.inv.full.off_iff, hcr, hro]; simp
    · intro b r hr; exact ⟨hr, h.inv.full.quiet b r hr⟩
    · intro b r hr hs hn; rw [hn] at hr; simp at hr
  obtain ⟨t, pre, et, ct⟩ := component_loop (D := fun b => u.typ b = .dynamic) g (fun _ => .rfl) (fun p q _ _ => hsym p q)
    (fun b hb => by rw [h.inv.num.kin b hb]; exact lt0) _ [] u.dynamicBodies u base le_rfl
  have fr := ct.fr
  have hrt : t.roused = [] := fr.roused.trans hro
  have hq : Quiet t := by
    intro b r hr
    rcases ct.mark b r hr with q | ⟨-, q, -⟩
    · exact q
    · simp at q
  have hofft : ∀ b, t.asl b ↔ t.off b := fun b => by simp only [off, asl, hrt]; simp
  have core : Core t.off L [] t := ct.core.congrA hofft
  have sl : SleepInv t.off t := by
    refine ⟨fun _ => .rfl, by rw [hrt]; simp, by rw [hrt]; simp, ct.sleepNodup, ct.chain, ct.rootless, fun _ => hrt⟩
  have bndt : ∀ b c, c ∈ N b → Bound t b c := by
    intro b c hc hne
    obtain ⟨r, hr⟩ := Option.ne_none_iff_exists'.1 hne
    have hrs := hq b r hr
    have hbd : u.typ b = .dynamic := by
      rw [← fr.typ]; exact (core.body.off b (.inl ⟨r, hrs, hr⟩)).2
    rw [fr.typ]
    cases hty : u.typ c with
    | static => exact .inl rfl
    | dynamic => exact .inr (by rw [hr]; exact ct.asleepClosed b r hrs hr c hc hty)
    | kinematic =>
      exfalso
      by_cases hu : (u.bodies b).root = none
      · have := ((ct.newly b r hr hrs hu b).2) .refl
        rw [hst b c hc hbd hty, lt0] at this
        simp at this
      · rcases bnd b c hc hu with q | q
        · rw [hty] at q; simp at q
        · rw [← q] at hu
          have := (h.inv.full.root_dynamic hu).2
          rw [hty] at this; simp at this
  have hinl : ∀ x, InL L t x ↔ InL L u x := fun x => by simp only [InL, (fr.arbs x).bodyA]
  have hgood : Good L [] t := by
    refine ⟨⟨⟨core, sl, hq⟩, ⟨fun x hx => ?_, fun c hc => ?_⟩, ?_⟩, h.tr.congr fr.trace fr.arbBound fr.pool fun x => ⟨(fr.arbs x).a, (fr.arbs x).b, (fr.arbs x).bodyA, by rw [(fr.arbs x).state]⟩, ?_⟩
    · rw [hinl] at hx
      rw [(fr.arbs x).bodyA, (fr.arbs x).bodyB]
      exact ⟨bndt _ _ ((gm _ _).2 (.inl ⟨x, hx, .inl ⟨rfl, rfl⟩⟩)), bndt _ _ ((gm _ _).2 (.inl ⟨x, hx, .inr ⟨rfl, rfl⟩⟩))⟩
    · rw [fr.cons] at hc ⊢
      exact ⟨bndt _ _ ((gm _ _).2 (.inr ⟨c, hc, .inl ⟨rfl, rfl⟩⟩)), bndt _ _ ((gm _ _).2 (.inr ⟨c, hc, .inr ⟨rfl, rfl⟩⟩))⟩
    · refine ⟨fun b hb => ?_, fun x hx => ?_, fun hx => ?_, ?_⟩
      · rw [fr.typ] at hb; rw [fr.idle]; exact h.inv.num.kin b hb
      · rw [fr.threshold] at hx; exact h.inv.num.pos x hx
      · rw [fr.threshold, hth] at hx; simp at hx
      · rw [fr.staticBody, fr.typ, fr.bodies]; exact h.inv.num.sb
    · intro x
      rw [fr.arbBound, fr.pool, (fr.arbs x).state, hinl, fr.stamp]
      intro h1 h2
      obtain ⟨a, b, c⟩ := h.valid x h1 h2
      refine ⟨a, b, ?_⟩
      rcases fr.stamps x with e | ⟨e, -⟩
      · rw [e]; exact c
      · rw [e]
  have hlk : ∀ b c, t.Linked b c ↔ c ∈ N b := by
    intro b c
    rw [gl]
    simp only [Linked, fr.arbList, fr.conList, fr.cons, (fr.arbs _).bodyA, (fr.arbs _).bodyB]
  have hcon : ∀ b c, t.Connected b c ↔ Conn (fun b => u.typ b = .dynamic) N b c := by
    intro b c
    simp only [Connected, hlk, fr.typ]
  refine ⟨t, et, hgood, fr, fun b r hr => (ct.old b r hr).1, fun b hu hd hi => ⟨fun hne c hc => ?_, fun hall => ?_⟩, fun b r hu hr c => ?_⟩
  · obtain ⟨r, hr⟩ := Option.ne_none_iff_exists'.1 hne
    rw [fr.idle, fr.threshold]
    exact (ct.newly b r hr (hq b r hr) hu c).2 ((hcon b c).1 hc)
  · intro hne
    have hbm : b ∈ t.dynamicBodies := (core.body.memDyn b).2 ⟨by rw [fr.bodies b]; exact hi, by rw [fr.typ, hd]; simp, by
      rw [← hofft]; rintro ⟨r, -, hr⟩; rw [hne] at hr; simp at hr⟩
    rw [ct.list, List.append_nil] at hbm
    obtain ⟨c, hc, hi⟩ := ct.active b hd (.inl hbm)
    have := hall c ((hcon b c).2 hc)
    rw [fr.idle, fr.threshold, hi] at this
    simp at this
  · rw [hcon]
    exact (ct.newly b r hr (hq b r hr) hu c).1

/-- What `ProcessComponents` leaves alone, and which contacts are in the lists of the bodies afterwards. -/
structure Pass (L L' : Nat → List Nat) (s t : Sp F) : Prop where
  keep : Keep s t
  shapes : t.shapes = s.shapes
  arbs : ∀ y, (t.arbs y).a = (s.arbs y).a ∧ (t.arbs y).b = (s.arbs y).b ∧ (t.arbs y).bodyA = (s.arbs y).bodyA ∧
    (t.arbs y).bodyB = (s.arbs y).bodyB ∧ (t.arbs y).count = (s.arbs y).count ∧ (t.arbs y).state = (s.arbs y).state
  inl : ∀ y, InL L' t y ↔ InL L s y ∨ y ∈ s.arbiters
  stamp : t.stamp = s.stamp
  trace : t.trace = s.trace
  pool : t.pool = s.pool
  arbBound : t.arbBound = s.arbBound
  stamps : ∀ y, (t.arbs y).stamp = (s.arbs y).stamp ∨ ((t.arbs y).stamp = s.stamp ∧ (InL L s y ∨ y ∈ s.arbiters))
  head : t.head ≠ none

/-- `ProcessComponents` never fails. A body that was awake falls asleep exactly if everything it is connected to has been
idle long enough, and then together with exactly those bodies. -/
theorem processComponents_good {L : Nat → List Nat} {s : Sp F} (h : Good L s.arbiters s) (hl : s.locked = 0)
    (hh : s.head ≠ none) (hopen : ∀ x ∈ s.arbiters, ¬ (s.arbs x).state.closed) (host : Hosted s)
    (offs : ∀ x, InL L s x → s.off (s.owner x)) (dt : F) (moving : Nat → Bool) :
    ∃ t L', s.processComponents dt moving = some t ∧ Good L' [] t ∧ Pass L L' s t ∧
      (∀ b, (t.bodies b).idle = .time 0 ∨
        (t.bodies b).idle = if s.sleepOn = true ∧ s.typ b = .dynamic ∧ b ∈ s.dynamicBodies then s.idleAfter dt moving b else (s.bodies b).idle) ∧
      (∀ b, (s.bodies b).root = none → s.typ b = .dynamic → (s.bodies b).inSpace = true →
        ((t.bodies b).root ≠ none ↔ ∀ c, t.Connected b c → ((t.bodies c).idle).lt t.threshold = false)) ∧
      (∀ b r, (s.bodies b).root = none → (t.bodies b).root = some r → ∀ c, t.Connected b c ↔ (t.bodies c).root = some r) := by
  have hro : s.roused = [] := h.inv.full.sleep.rouseLock hl
  -- idle times
  have st1 : ∃ s1, s1 = (if s.sleepOn = true then s.dynamicBodies.foldl (fun s b => s.updateIdle dt moving b) s else s) ∧
      Good L s.arbiters s1 ∧ (∃ B, s1 = { s with bodies := B }) ∧ (∀ b, BodyEq (s.bodies b) (s1.bodies b)) ∧
      (∀ b, (s1.bodies b).root = (s.bodies b).root) ∧
      (∀ b, (s1.bodies b).idle = if s.sleepOn = true ∧ s.typ b = .dynamic ∧ b ∈ s.dynamicBodies then s.idleAfter dt moving b else (s.bodies b).idle) := by
    by_cases hon : s.sleepOn = true
    · obtain ⟨B, e, b1, b2, b3, b4, b5⟩ := updateIdle_loop dt moving s.dynamicBodies s h.inv.full.core.body.dynNodup
      refine ⟨{ s with bodies := B }, by rw [if_pos hon, e], h.mapIdle B b1 b2 b3 b4, ⟨B, rfl⟩, b1, b2, fun b => ?_⟩
      rw [show ({ s with bodies := B } : Sp F).bodies b = B b from rfl, b5]
      simp [hon]
    · exact ⟨s, by rw [if_neg hon], h, ⟨s.bodies, rfl⟩, fun _ => .refl _, fun _ => rfl, fun b => by simp [hon]⟩
  obtain ⟨s1, e1, g1, ⟨B, eB⟩, hB, hR, hI⟩ := st1
  have k1 : Keep s s1 := by
    constructor
    case typ => exact fun b => (hB b).typ
    case infMass => exact fun b => (hB b).infMass
    case inSpace => exact fun b => (hB b).inSpace
    case conHead => exact fun b => (hB b).cons
    case shapeBody => intro x; rw [eB]; exact ⟨rfl, rfl⟩
    all_goals rw [eB]
  have a1 : s1.arbiters = s.arbiters := by rw [eB]
  have ar1 : s1.arbs = s.arbs := by rw [eB]
  have on1 : s1.sleepOn = s.sleepOn := by simp only [sleepOn, k1.threshold]
  have inl1 : ∀ y, InL L s1 y ↔ InL L s y := fun y => by simp only [InL, ar1]
  obtain ⟨s2, L', e2, g2, p2, r2, d2⟩ := push_loop s.arbiters L s1 g1 (by rw [k1.locked]; exact hl) (by rw [eB]; exact hh)
    (fun x hx => by rw [ar1]; exact hopen x hx)
  rw [on1] at e2 d2
  have inl2 : ∀ y, InL L' s2 y ↔ InL L s y ∨ y ∈ s.arbiters := fun y => by rw [p2.inl, inl1]
  have arb2 : ∀ y, (s2.arbs y).a = (s.arbs y).a ∧ (s2.arbs y).b = (s.arbs y).b ∧ (s2.arbs y).bodyA = (s.arbs y).bodyA ∧
      (s2.arbs y).bodyB = (s.arbs y).bodyB ∧ (s2.arbs y).count = (s.arbs y).count ∧ (s2.arbs y).state = (s.arbs y).state := fun y => by
    have := p2.arbs y; rw [ar1] at this; exact this
  have k2 : Keep s s2 := k1.trans p2.keep
  have hpass2 : Pass L L' s s2 := by
    refine ⟨k2, by rw [p2.shapes, eB], arb2, inl2, by rw [p2.stamp, eB], by rw [p2.trace, eB], by rw [p2.pool, eB], by rw [p2.arbBound, eB],
      fun y => ?_, p2.head (by rw [eB]; exact hh)⟩
    have := p2.stamps y
    rw [ar1, inl1] at this
    rw [eB] at this; exact this
  by_cases hon : s.sleepOn = true
  swap
  · -- sleeping is switched off
    have hthr : s.threshold = .infinity := by
      cases e : s.threshold with
      | infinity => rfl
      | time x => simp [sleepOn, e] at hon
    have hnoroot : ∀ b, (s2.bodies b).root = none := by
      intro b
      have hsl := g2.inv.num.inf (by rw [k2.threshold]; exact hthr)
      by_contra hne
      obtain ⟨r, hr⟩ := Option.ne_none_iff_exists'.1 hne
      have := g2.inv.full.quiet b r hr
      rw [hsl] at this; simp at this
    refine ⟨s2, L', ?_, g2, hpass2, fun b => ?_, fun b hu hd hi => ?_, fun b r hu hr => ?_⟩
    · simp only [processComponents]
      rw [← e1, a1, e2]
      simp only [Option.bind_eq_bind, Option.bind_some]
      rw [if_neg hon]
    · rcases p2.idle b with q | q
      · right; rw [q, hI]
      · exact .inl q
    · rw [hnoroot b]
      simp only [ne_eq, not_true_eq_false, false_iff, not_forall]
      refine ⟨b, .refl, ?_⟩
      rw [k2.threshold, hthr]
      have : s2.typ b = .dynamic := by rw [k2.typ]; exact hd
      simp only [typ, BodyR.type] at this
      cases e : (s2.bodies b).idle with
      | infinity => rw [e] at this; simp at this
      | time x => simp [Idle.lt]
    · rw [hnoroot b] at hr; simp at hr
  · obtain ⟨s3, e3, g3, w3, d3⟩ := con_loop s2.constraints s2 g2
    have hl2 : s2.locked = 0 := by rw [k2.locked]; exact hl
    have hl3 : s3.locked = 0 := by rw [w3.locked]; exact hl2
    have k3 : Keep s s3 := k2.trans w3.keep
    have sh3 : s3.shapes = s.shapes := by rw [w3.shapes, p2.shapes, eB]
    have inl3 : ∀ y, InL L' s3 y ↔ InL L' s2 y := w3.inL L'
    have on3 : s3.sleepOn = true := by simp only [sleepOn, k3.threshold]; exact hon
    have heldA : ∀ x, InL L' s3 x → Held s3 (s3.arbs x).bodyA (s3.arbs x).bodyB ∧ Held s3 (s3.arbs x).bodyB (s3.arbs x).bodyA := by
      intro x hx
      rw [inl3, inl2] at hx
      have eA : (s3.arbs x).bodyA = (s.arbs x).bodyA := by rw [(w3.arbs x).bodyA]; exact (arb2 x).2.2.1
      have eB' : (s3.arbs x).bodyB = (s.arbs x).bodyB := by rw [(w3.arbs x).bodyB]; exact (arb2 x).2.2.2.1
      rw [eA, eB']
      rcases hx with hx | hx
      · -- owned by a sleeping body: the other end is static or asleep, not kinematic
        have ho := offs x hx
        rw [h.inv.full.off_iff, hro] at ho
        simp only [List.not_mem_nil, or_false] at ho
        obtain ⟨c1, c2⟩ := h.inv.closed.arb x hx
        have nk : ∀ p q, (s.bodies p).root ≠ none → Bound s p q → s.typ p ≠ .kinematic ∧ s.typ q ≠ .kinematic := by
          intro p q hp hb
          refine ⟨by rw [(h.inv.full.root_dynamic hp).2]; simp, ?_⟩
          rcases hb hp with z | z
          · rw [z]; simp
          · rw [← z] at hp; rw [(h.inv.full.root_dynamic hp).2]; simp
        have : s.typ (s.arbs x).bodyA ≠ .kinematic ∧ s.typ (s.arbs x).bodyB ≠ .kinematic := by
          rcases owner_ends s x with e | e
          · rw [← e] at ho; exact nk _ _ ho c1
          · rw [← e] at ho; exact (nk _ _ ho c2).symm
        exact ⟨fun _ z => absurd (by rw [← k3.typ]; exact z) this.2, fun _ z => absurd (by rw [← k3.typ]; exact z) this.1⟩
      · have := d2 hon x hx
        rw [ar1] at this
        exact ⟨w3.held this.1, w3.held this.2⟩
    have heldC : ∀ c, (s3.cons c).inSpace = true → Held s3 (s3.cons c).a (s3.cons c).b ∧ Held s3 (s3.cons c).b (s3.cons c).a := by
      intro c hc
      have ec : s3.cons = s2.cons := w3.cons
      rw [ec] at hc ⊢
      by_cases hm : c ∈ s2.constraints
      · exact d3 c hm
      · -- owned by a sleeping body
        rw [g2.inv.full.core.con.mem] at hm
        have ho : s2.off (s2.conOwner c) := by
          by_contra z; exact hm ⟨hc, z⟩
        rw [g2.inv.full.off_iff, g2.inv.full.sleep.rouseLock hl2] at ho
        simp only [List.not_mem_nil, or_false] at ho
        obtain ⟨c1, c2⟩ := g2.inv.closed.con c hc
        have nk : ∀ p q, (s2.bodies p).root ≠ none → Bound s2 p q → s2.typ p ≠ .kinematic ∧ s2.typ q ≠ .kinematic := by
          intro p q hp hb
          refine ⟨by rw [(g2.inv.full.root_dynamic hp).2]; simp, ?_⟩
          rcases hb hp with z | z
          · rw [z]; simp
          · rw [← z] at hp; rw [(g2.inv.full.root_dynamic hp).2]; simp
        have : s2.typ (s2.cons c).a ≠ .kinematic ∧ s2.typ (s2.cons c).b ≠ .kinematic := by
          simp only [conOwner] at ho
          split_ifs at ho
          · exact (nk _ _ ho c2).symm
          · exact nk _ _ ho c1
        exact ⟨fun _ z => absurd (by rw [← w3.typ]; exact z) this.2, fun _ z => absurd (by rw [← w3.typ]; exact z) this.1⟩
    obtain ⟨t, e4, g4, fr, o4, i4, c4⟩ := components_good g3 hl3 on3
      (host.congr k3.typ k3.inSpace sh3 k3.cons) heldA heldC
    have k4 : Keep s3 t := ⟨fr.nBodies, fr.nCons, fr.typ, fun b => by rw [fr.bodies b], fun b => by rw [fr.bodies b], fun b => by rw [fr.bodies b],
      fun x => by rw [fr.shapes]; exact ⟨rfl, rfl⟩, fr.cons, fr.threshold, fr.staticBody, fr.locked⟩
    have rt3 : ∀ b, (s.bodies b).root = none → (s3.bodies b).root = none := by
      intro b hb
      refine w3.root_none ?_
      rcases p2.root b with q | q
      · rw [q, hR]; exact hb
      · exact q
    refine ⟨t, L', ?_, g4, ⟨k3.trans k4, by rw [fr.shapes, sh3], fun y => ?_, fun y => ?_, ?_, ?_, ?_, ?_, fun y => ?_, ?_⟩, fun b => ?_, fun b hu hd hi => ?_, fun b r hu hr => ?_⟩
    · simp only [processComponents]
      rw [← e1, a1, e2]
      simp only [Option.bind_eq_bind, Option.bind_some]
      rw [if_pos hon, e3]
      simp only [Option.bind_some]
      exact e4
    · obtain ⟨q1, q2, q3, q4, q5, q6⟩ := arb2 y
      have h3 := w3.arbs y
      have h4 := fr.arbs y
      exact ⟨by rw [h4.a, h3.a, q1], by rw [h4.b, h3.b, q2], by rw [h4.bodyA, h3.bodyA, q3], by rw [h4.bodyB, h3.bodyB, q4],
        by rw [h4.count, h3.count, q5], by rw [h4.state, h3.state, q6]⟩
    · rw [← inl2, ← inl3]; simp only [InL, (fr.arbs y).bodyA]
    · rw [fr.stamp, w3.stamp]; exact hpass2.stamp
    · rw [fr.trace, w3.trace]; exact hpass2.trace
    · rw [fr.pool, w3.pool]; exact hpass2.pool
    · rw [fr.arbBound, w3.arbBound]; exact hpass2.arbBound
    · have p3 := w3.proc g2.inv.full
      have th : ∀ x, s3.Threaded x → InL L s x ∨ x ∈ s.arbiters := fun x hx => by
        rw [← inl2, ← inl3]; exact g3.inv.full.threaded hx
      have th2 : ∀ x, s2.Threaded x → InL L s x ∨ x ∈ s.arbiters := fun x hx => by
        rw [← inl2]; exact g2.inv.full.threaded hx
      rcases fr.stamps y with q | ⟨q, q'⟩
      · rcases w3.stamps y with z | ⟨z, z'⟩
        · rw [q, z]; exact hpass2.stamps y
        · right; rw [q, z, hpass2.stamp]; exact ⟨rfl, th2 y z'⟩
      · right; rw [q, w3.stamp, hpass2.stamp]; exact ⟨rfl, th y q'⟩
    · exact fr.head (w3.head hpass2.head)
    · rw [fr.idle]
      rcases w3.idle b with q | q
      · rw [q]
        rcases p2.idle b with q | q
        · right; rw [q, hI]
        · exact .inl q
      · exact .inl q
    · exact i4 b (rt3 b hu) (by rw [k3.typ]; exact hd) (by rw [k3.inSpace]; exact hi)
    · exact c4 b r (rt3 b hu) hr

end Sp
end CP
