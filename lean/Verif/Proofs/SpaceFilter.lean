import Verif.Proofs.SpacePass

/-! # The filter over the cached arbiters at the end of a step -/

namespace CP
variable {F : Type}
namespace Sp

/-- Both ends are static or asleep: the filter leaves the arbiter alone. -/
def Exempt (s : Sp F) (x : Nat) : Prop :=
  (s.typ (s.arbs x).bodyA = .static ∨ (s.bodies (s.arbs x).bodyA).root ≠ none) ∧
  (s.typ (s.arbs x).bodyB = .static ∨ (s.bodies (s.arbs x).bodyB).root ≠ none)

theorem popL_out {L : Nat → List Nat} {s : Sp F} (h : ThreadInv L s) {x : Nat} (hn : ¬ InL L s x) : popL L x = L := by
  funext c
  refine List.erase_of_not_mem fun hx => hn (h.inL hx)

variable [GoFloat F]

/-- What the filter does; `V` are the arbiters already visited, `quiet` says that the callbacks wake nobody. -/
structure Filt (L : Nat → List Nat) (V : Nat → Prop) (quiet : Prop) (s t : Sp F) : Prop where
  move : Move s t
  inl : ∀ y, InL L t y ↔ InL L s y
  ends : SameEnds s t
  stamp : t.stamp = s.stamp
  arbiters : t.arbiters = s.arbiters
  arbBound : t.arbBound = s.arbBound
  head : t.head = s.head
  bodies : quiet → t.bodies = s.bodies
  same : ∀ y, ¬ V y → t.arbs y = s.arbs y ∧ (y ∈ t.cached ↔ y ∈ s.cached) ∧ (y ∈ t.pool ↔ y ∈ s.pool)
  eff : ∀ y, V y → (t.arbs y = s.arbs y ∧ y ∈ t.cached ∧ y ∉ t.pool ∧
      ((s.arbs y).stamp = s.stamp ∨ Exempt s y ∨ (s.arbs y).state.closed)) ∨
    ((t.arbs y).state.closed ∧ (s.arbs y).stamp < s.stamp ∧ (quiet → ¬ Exempt s y))
  emits : ∃ new, t.trace = s.trace ++ new ∧ ∀ e ∈ new, e.kind = .separate

theorem Filt.refl (L : Nat → List Nat) (quiet : Prop) (s : Sp F) : Filt L (fun _ => False) quiet s s :=
  ⟨.refl s, fun _ => .rfl, fun _ => ⟨rfl, rfl, rfl, rfl⟩, rfl, rfl, rfl, rfl, fun _ => rfl,
    fun _ _ => ⟨rfl, .rfl, .rfl⟩, by simp, [], by simp⟩

theorem Filt.trans {L : Nat → List Nat} {V W : Nat → Prop} {quiet : Prop} {s t u : Sp F} (h : Filt L V quiet s t)
    (k : Filt L W quiet t u) (hd : ∀ y, V y → ¬ W y) : Filt L (fun y => V y ∨ W y) quiet s u where
  move := h.move.trans k.move
  inl y := (k.inl y).trans (h.inl y)
  ends y := by
    obtain ⟨a1, a2, a3, a4⟩ := k.ends y
    obtain ⟨b1, b2, b3, b4⟩ := h.ends y
    exact ⟨a1.trans b1, a2.trans b2, a3.trans b3, a4.trans b4⟩
  stamp := k.stamp.trans h.stamp
  arbiters := k.arbiters.trans h.arbiters
  arbBound := k.arbBound.trans h.arbBound
  head := k.head.trans h.head
  bodies q := (k.bodies q).trans (h.bodies q)
  same y hy := by
    rw [not_or] at hy
    obtain ⟨a1, a2, a3⟩ := k.same y hy.2
    obtain ⟨b1, b2, b3⟩ := h.same y hy.1
    exact ⟨a1.trans b1, a2.trans b2, a3.trans b3⟩
  eff y hy := by
    by_cases hv : V y
    · obtain ⟨a1, a2, a3⟩ := k.same y (hd y hv)
      rcases h.eff y hv with ⟨b1, b2, b3, b4⟩ | ⟨b1, b2⟩
      · exact .inl ⟨a1.trans b1, a2.2 b2, fun z => b3 (a3.1 z), b4⟩
      · exact .inr ⟨by rw [a1]; exact b1, b2⟩
    · have hw : W y := by tauto
      obtain ⟨a1, a2, a3⟩ := h.same y hv
      rcases k.eff y hw with ⟨b1, b2, b3, b4⟩ | ⟨b1, b2⟩
      · refine .inl ⟨b1.trans a1, b2, b3, ?_⟩
        rw [a1, h.stamp] at b4
        rcases b4 with z | z | z
        · exact .inl z
        · right; left
          have en := h.ends y
          simp only [Exempt, h.move.typ, en.2.2.1, en.2.2.2] at z ⊢
          have nr : ∀ b, (t.bodies b).root ≠ none → (s.bodies b).root ≠ none := by
            intro b hb
            rcases h.move.root b with e | e
            · rw [← e]; exact hb
            · exact absurd e hb
          exact ⟨z.1.imp id (nr _), z.2.imp id (nr _)⟩
        · exact .inr (.inr z)
      · rw [a1, h.stamp] at b2
        refine .inr ⟨b1, b2.1, fun q z' => b2.2 q ?_⟩
        have en := h.ends y
        simp only [Exempt, h.move.typ, en.2.2.1, en.2.2.2, h.bodies q] at z' ⊢
        exact z'
  emits := by
    obtain ⟨n, e1, e2⟩ := h.emits
    obtain ⟨m, e3, e4⟩ := k.emits
    refine ⟨n ++ m, by rw [e3, e1, List.append_assoc], fun e he => ?_⟩
    rcases List.mem_append.1 he with z | z
    · exact e2 e z
    · exact e4 e z

/-- One arbiter in the filter. -/
theorem filterRound {L : Nat → List Nat} {s : Sp F} (h : Good L [] s) (hl : s.locked ≠ 0) {x : Nat} (hx : x ∈ s.cached)
    (acts : Nat → List Nat) :
    ∃ t, (do
      let (s, keep) ← setFilter acts s x
      some (if keep then s else { s with cached := s.cached.erase x })) = some t ∧
      Good L [] t ∧ Filt L (fun y => y = x) (∀ y, acts y = []) s t := by
  have k := h.inv.full.core.arb
  obtain ⟨l1, l2, l3, l4, l5, l6, l7⟩ := k.live x (Or.inl hx)
  have keepCase : (Exempt s x ∨ (s.arbs x).stamp = s.stamp ∨ (s.arbs x).state.closed) → Filt L (fun y => y = x) (∀ y, acts y = []) s s := by
    intro hc
    exact ⟨.refl s, fun _ => .rfl, fun _ => ⟨rfl, rfl, rfl, rfl⟩, rfl, rfl, rfl, rfl, fun _ => rfl,
      fun _ _ => ⟨rfl, .rfl, .rfl⟩, fun y hy => by subst hy; exact .inl ⟨rfl, hx, l7, by tauto⟩, [], by simp⟩
  by_cases hex : Exempt s x
  · refine ⟨s, ?_, h, keepCase (.inl hex)⟩
    have : (s.typ (s.arbs x).bodyA = .static ∨ s.isSleeping (s.arbs x).bodyA) ∧ (s.typ (s.arbs x).bodyB = .static ∨ s.isSleeping (s.arbs x).bodyB) := by
      simpa only [Exempt, isSleeping, Option.isSome_iff_ne_none] using hex
    simp only [setFilter]
    rw [if_pos this]
    rfl
  have hcond : ¬ ((s.typ (s.arbs x).bodyA = .static ∨ s.isSleeping (s.arbs x).bodyA) ∧ (s.typ (s.arbs x).bodyB = .static ∨ s.isSleeping (s.arbs x).bodyB)) := by
    simpa only [Exempt, isSleeping, Option.isSome_iff_ne_none] using hex
  by_cases hti : 1 ≤ s.stamp - (s.arbs x).stamp
  swap
  · -- touched in this step
    have he : (s.arbs x).stamp = s.stamp := by
      have := (h.valid x l6 l7).2.2
      omega
    refine ⟨s, ?_, h, keepCase (.inr (.inl he))⟩
    have h3 : ¬ persistence ≤ s.stamp - (s.arbs x).stamp := by simp only [persistence]; omega
    simp only [setFilter]
    rw [if_neg hcond, if_neg (fun q => hti q.1)]
    simp only [Option.bind_eq_bind, Option.bind_some]
    rw [if_neg h3]
    rfl
  have hlt : (s.arbs x).stamp < s.stamp := by omega
  have hnin : ¬ InL L s x := by
    intro hin
    have ho := (k.cachedIff x hin).1 hx
    have hm : x ∈ s.arbiters := (k.mem x).2 (.inl ⟨hin, ho⟩)
    have := k.stamp x hm
    omega
  -- the callback
  have hstep : ∃ u, (if 1 ≤ s.stamp - (s.arbs x).stamp ∧ (s.arbs x).state ≠ .cached then
        ((s.setArb x fun r => { r with state := .cached }).emit .separate x).runActs (acts x)
      else some s) = some u ∧ Good L [] u ∧ Move s u ∧ (∀ y, InL L u y ↔ InL L s y) ∧ u.cached = s.cached ∧
      (u.arbs x).state = .cached ∧ (u.arbs x).stamp = (s.arbs x).stamp ∧ u.pool = s.pool ∧ u.arbBound = s.arbBound ∧ u.arbiters = s.arbiters ∧ u.stamp = s.stamp ∧ u.head = s.head ∧
      (∀ y, y ≠ x → u.arbs y = s.arbs y) ∧ SameEnds s u ∧ ((∀ y, acts y = []) → u.bodies = s.bodies) ∧
      (∃ new, u.trace = s.trace ++ new ∧ ∀ e ∈ new, e.kind = .separate) := by
    by_cases hst : (s.arbs x).state ≠ .cached
    · rw [if_pos ⟨hti, hst⟩]
      have hst2 : ¬ (s.arbs x).state.closed := by
        rw [ArbState.closed_iff (h.valid x l6 l7).1]; exact hst
      have tr1 := separate_trace h.inv h.tr (st := .cached) trivial l6 l7 hst2
      rw [popL_out h.inv.full.core.thread hnin] at tr1
      set v := (s.setArb x fun r => { r with state := .cached }).emit .separate x with hv
      have w1 : Around s v := ⟨rfl, rfl, fun _ => rfl, rfl, rfl, rfl, rfl, rfl, rfl, rfl, rfl, rfl, rfl, rfl, rfl⟩
      have hva : ∀ y, v.arbs y = { s.arbs y with count := (v.arbs y).count, mem := (v.arbs y).mem, stamp := (v.arbs y).stamp, state := (v.arbs y).state } := by
        intro y
        by_cases e : y = x
        · subst e; simp [hv, emit, setArb]
        · simp [hv, emit, setArb, e]
      have hvs : ∀ y, (v.arbs y).stamp = (s.arbs y).stamp := by
        intro y
        by_cases e : y = x
        · subst e; simp [hv, emit, setArb]
        · simp [hv, emit, setArb, e]
      have hvo : ∀ y, y ≠ x → v.arbs y = s.arbs y := fun y hy => by simp [hv, emit, setArb, hy]
      have hvx : (v.arbs x).state = .cached := by simp [hv, emit, setArb]
      have hvi : ∀ y, InL L v y ↔ InL L s y := fun y => by simp only [InL]; rw [hva y]
      have hv1 : Inv L [] v := h.inv.touchArbs w1 (fun _ => rfl) hva rfl rfl rfl rfl
        (fun y hy => by rw [hvs]; exact k.stamp y hy) id
      have hvv : Valid L [] v := by
        intro y hy hp
        obtain ⟨v1, v2, v3⟩ := h.valid y hy hp
        by_cases e : y = x
        · subst e
          refine ⟨by rw [hvx]; simp, fun q => by rw [hvx] at q; simp at q, by rw [hvs]; exact v3⟩
        · rw [hvi, hvo y e]; exact ⟨v1, v2, v3⟩
      obtain ⟨u, e, hu, w, -, rr⟩ := runActs_inv (acts x) hv1
      have hlv : v.locked ≠ 0 := hl
      have eq := w.lockedEq hlv
      have ea : u.arbs = v.arbs := by rw [eq]
      refine ⟨u, e, ⟨hu, w.traceInv tr1, w.valid hvv⟩, w1.move.trans (w.move hlv), fun y => by rw [w.inL]; exact hvi y, by rw [eq]; rfl,
        by rw [ea]; exact hvx, by rw [ea]; exact hvs x, by rw [eq]; rfl, by rw [eq]; rfl, by rw [eq]; rfl, by rw [eq]; rfl, by rw [eq]; rfl,
        fun y hy => by rw [ea]; exact hvo y hy, fun y => by rw [ea, hva y]; exact ⟨rfl, rfl, rfl, rfl⟩, fun q => ?_,
        [⟨.separate, (v.arbs x).a, (v.arbs x).b, v.stamp⟩], ?_, by simp⟩
      · rw [q x] at e
        obtain rfl : v = u := Option.some.inj e
        rfl
      · rw [eq]; rfl
    · rw [if_neg (fun q => hst q.2)]
      exact ⟨s, rfl, h, .refl s, fun _ => .rfl, rfl, by simpa using hst, rfl, rfl, rfl, rfl, rfl, rfl, fun _ _ => rfl,
        fun _ => ⟨rfl, rfl, rfl, rfl⟩, fun _ => rfl, [], by simp⟩
  obtain ⟨u, e, gu, mv, hiu, hcu, hsu, hsts, hpu, hbu, hau, hstu, hhu, hou, heu, hru, hem⟩ := hstep
  have hclo : (u.arbs x).state.closed := by rw [hsu]; trivial
  by_cases hper : persistence ≤ s.stamp - (s.arbs x).stamp
  swap
  · refine ⟨u, ?_, gu, ⟨mv, hiu, heu, hstu, hau, hbu, hhu, hru, fun y hy => ⟨hou y hy, by rw [hcu], by rw [hpu]⟩, fun y hy => ?_, hem⟩⟩
    · simp only [setFilter]
      rw [if_neg hcond]
      by_cases hst : 1 ≤ s.stamp - (s.arbs x).stamp ∧ (s.arbs x).state ≠ .cached
      · rw [if_pos hst] at e ⊢
        simp only [e, Option.bind_eq_bind, Option.bind_some]
        rw [if_neg hper]; rfl
      · rw [if_neg hst] at e ⊢
        simp only [e, Option.bind_eq_bind, Option.bind_some]
        rw [if_neg hper]; rfl
    · subst hy; exact .inr ⟨hclo, hlt, fun _ => hex⟩
  -- dropped
  obtain ⟨v, hv⟩ : ∃ v, v = u.setArb x fun r => { r with mem := .nil, count := 0 } := ⟨_, rfl⟩
  have hva : ∀ y, v.arbs y = { u.arbs y with count := (v.arbs y).count, mem := (v.arbs y).mem } := by
    intro y
    by_cases e : y = x
    · subst e; simp [hv, setArb]
    · simp [hv, setArb, e]
  have ev : v = { u with arbs := v.arbs } := by rw [hv]; rfl
  have wv : Around u v := by
    constructor
    case body => intro b; rw [ev]
    all_goals rw [ev]
  have iv : Inv L [] v := gu.inv.touchArbs wv (fun b => by rw [ev]) (fun y => by rw [hva y]) (by rw [ev]) (by rw [ev]) (by rw [ev]) (by rw [ev])
    (fun y hy => by rw [hva y, ev]; exact gu.inv.full.core.arb.stamp y hy) (by rw [ev]; exact id)
  have hiv : ∀ y, InL L v y ↔ InL L s y := fun y => by rw [← hiu]; simp only [InL]; rw [hva y]
  have hnv : ¬ InL L v x := by rw [hiv]; exact hnin
  have hun := unthread_out iv.full.core.thread hnv
  have hxa : x ∉ v.arbiters := by
    have : v.arbiters = s.arbiters := by rw [ev]; exact hau
    rw [this, k.mem]
    simp [hnin]
  obtain ⟨t, ht⟩ : ∃ t : Sp F, t = { v with pool := v.pool ++ [x], cached := v.cached.erase x } := ⟨_, rfl⟩
  have hvc : v.cached = s.cached := by rw [ev]; exact hcu
  have hvp : v.pool = s.pool := by rw [ev]; exact hpu
  have ht' : t = { v.unthread x with arbiters := v.arbiters.erase x, pool := v.pool ++ [x], cached := v.cached.erase x } := by
    rw [hun, List.erase_of_not_mem hxa]; exact ht
  obtain ⟨d1, d2, d3, d4⟩ := iv.drop (by rw [hvc]; exact hx) (by simp) ht'
  rw [popL_out iv.full.core.thread hnv] at d1 d3
  have hta : t.arbs = v.arbs := by rw [ht]
  have htp : t.pool = s.pool ++ [x] := by rw [ht]; show v.pool ++ [x] = _; rw [hvp]
  have htb : t.arbBound = u.arbBound := by rw [ht]; show v.arbBound = _; rw [ev]
  have htt : t.trace = u.trace := by rw [ht]; show v.trace = _; rw [ev]
  have hti' : ∀ y, InL L t y ↔ InL L s y := fun y => by rw [← hiv]; simp only [InL, hta]
  have hst : ∀ y, (t.arbs y).state = (u.arbs y).state ∧ (t.arbs y).a = (u.arbs y).a ∧ (t.arbs y).b = (u.arbs y).b ∧
      (t.arbs y).bodyA = (u.arbs y).bodyA ∧ (t.arbs y).bodyB = (u.arbs y).bodyB ∧ (t.arbs y).stamp = (u.arbs y).stamp := fun y => by
    rw [hta, hva y]; exact ⟨rfl, rfl, rfl, rfl, rfl, rfl⟩
  have hpar : ∀ a b y, t.samePair a b y = u.samePair a b y := fun a b y => by
    simp only [samePair]; rw [(hst y).2.1, (hst y).2.2.1]
  refine ⟨t, ?_, ⟨d1, ⟨fun p q => ?_, fun y hy => ?_⟩, fun y hy hp => ?_⟩, ⟨mv.trans (wv.move.trans d2.move), hti', fun y => ?_, ?_, ?_, by rw [htb, hbu], ?_, fun q => ?_, fun y hy => ?_, fun y hy => ?_, by rw [htt]; exact hem⟩⟩
  · have fin : (do
        let (s, keep) ← some (({ (u.setArb x fun r => { r with mem := .nil, count := 0 }) with pool := (u.setArb x fun r => { r with mem := .nil, count := 0 }).pool ++ [x] } : Sp F), false)
        some (if keep then s else { s with cached := s.cached.erase x })) = some t := by
      rw [← hv]
      simp only [Option.bind_eq_bind, Option.bind_some, Bool.false_eq_true, if_false]
      rw [ht]
    simp only [setFilter]
    rw [if_neg hcond]
    by_cases hst : 1 ≤ s.stamp - (s.arbs x).stamp ∧ (s.arbs x).state ≠ .cached
    · rw [if_pos hst] at e ⊢
      simp only [e, Option.bind_eq_bind, Option.bind_some]
      rw [if_pos hper]; exact fin
    · rw [if_neg hst] at e ⊢
      simp only [e, Option.bind_eq_bind, Option.bind_some]
      rw [if_pos hper]; exact fin
  · obtain ⟨z, e1, hz⟩ := gu.tr.agree p q
    refine ⟨z, by rw [htt]; exact e1, ?_⟩
    rw [hz]
    constructor
    · rintro ⟨y, hy⟩
      have hyx : y ≠ x := by rintro rfl; exact hy.2.2.1 hclo
      refine ⟨y, by rw [htb]; exact hy.1, ?_, by rw [(hst y).1]; exact hy.2.2.1, by rw [hpar]; exact hy.2.2.2⟩
      rw [htp, ← hpu]; simp [hy.2.1, hyx]
    · rintro ⟨y, hy⟩
      have := hy.2.1
      rw [htp, ← hpu] at this
      simp only [List.mem_append, List.mem_singleton, not_or] at this
      exact ⟨y, by rw [← htb]; exact hy.1, this.1, by rw [← (hst y).1]; exact hy.2.2.1, by rw [← hpar]; exact hy.2.2.2⟩
  · rw [(hst y).1]; rw [hti', ← hiu] at hy; exact gu.tr.threaded y hy
  · rw [htp] at hp
    simp only [List.mem_append, List.mem_singleton, not_or] at hp
    obtain ⟨v1, v2, v3⟩ := gu.valid y (by rw [← htb]; exact hy) (by rw [hpu]; exact hp.1)
    have est : t.stamp = u.stamp := by rw [ht]; show v.stamp = _; rw [ev]
    rw [(hst y).1, (hst y).2.2.2.2.2, hti', est]
    rw [hiu] at v2
    exact ⟨v1, v2, v3⟩
  · obtain ⟨-, q2, q3, q4, q5, -⟩ := hst y
    obtain ⟨p1, p2, p3, p4⟩ := heu y
    exact ⟨q2.trans p1, q3.trans p2, q4.trans p3, q5.trans p4⟩
  · rw [ht]; show v.stamp = _; rw [ev]; exact hstu
  · rw [ht]; show v.arbiters = _; rw [ev]; exact hau
  · rw [ht]; show v.head = _; rw [ev]; exact hhu
  · rw [← hru q, ht]; show v.bodies = _; rw [ev]
  · refine ⟨?_, ?_, ?_⟩
    · rw [hta, hv]; simp only [setArb, Function.update_of_ne hy]; exact hou y hy
    · rw [ht]; show y ∈ v.cached.erase x ↔ _; rw [hvc, List.mem_erase_of_ne hy]
    · rw [htp]; simp [hy]
  · subst hy
    exact .inr ⟨by rw [(hst y).1]; exact hclo, hlt, fun _ => hex⟩

/-- The filter over all cached arbiters. -/
theorem filter_loop {L : Nat → List Nat} (acts : Nat → List Nat) : ∀ (l : List Nat) (s : Sp F), Good L [] s → s.locked ≠ 0 →
    l.Nodup → (∀ x ∈ l, x ∈ s.cached) →
    ∃ t, l.foldlM (fun s x => do
        let (s, keep) ← setFilter acts s x
        some (if keep then s else { s with cached := s.cached.erase x })) s = some t ∧
      Good L [] t ∧ Filt L (· ∈ l) (∀ y, acts y = []) s t
  | [], s, h, _, _, _ => ⟨s, rfl, h, by simpa using Filt.refl L _ s⟩
  | x :: l, s, h, hl, hn, hc => by
    have hn' := List.nodup_cons.1 hn
    obtain ⟨t, e, g, f⟩ := filterRound h hl (hc x (by simp)) acts
    obtain ⟨u, e', g', f'⟩ := filter_loop acts l t g (by rw [f.move.locked]; exact hl) hn'.2 (fun y hy =>
      (f.same y (by rintro rfl; exact hn'.1 hy)).2.1.2 (hc y (by simp [hy])))
    refine ⟨u, ?_, g', ?_⟩
    · rw [List.foldlM_cons, e]; exact e'
    · have := f.trans f' (fun y hy hy' => by subst hy; exact hn'.1 hy')
      have e2 : (fun y => y = x ∨ y ∈ l) = (· ∈ x :: l) := by funext y; simp
      rw [e2] at this
      exact this

theorem filterCached_good {L : Nat → List Nat} {s : Sp F} (h : Good L [] s) (hl : s.locked ≠ 0) (acts : Nat → List Nat) :
    ∃ t, filterCached (setFilter acts) s = some t ∧ Good L [] t ∧ Filt L (· ∈ s.cached) (∀ y, acts y = []) s t :=
  filter_loop acts s.cached s h hl h.inv.full.core.arb.cachedNodup (fun _ => id)

end Sp
end CP
