import Verif.Proofs.SpaceEvents3

/-! # The callbacks of one pair at the end of a step -/

namespace CP
variable {F : Type}

theorem proto_append (p q : Nat) (tr l : List Ev) : proto p q (tr ++ l) = (word p q l).foldl protoNext (proto p q tr) := by
  rw [proto, List.foldl_append]
  show l.foldl (protoStep p q) (proto p q tr) = _
  generalize proto p q tr = st
  induction l generalizing st with
  | nil => rfl
  | cons e l ih =>
    rw [List.foldl_cons, ih]
    by_cases h : e.about p q = true
    · simp [word, protoStep, h]
    · simp [word, protoStep, h]

theorem proto_stuck (W : List EvKind) : W.foldl protoNext none = none := by
  induction W with
  | nil => rfl
  | cons k W ih => rw [List.foldl_cons]; cases k <;> exact ih

theorem proto_separates {W : List EvKind} (h : ∀ k ∈ W, k = .separate) {z z' : Bool} (e : W.foldl protoNext (some z) = some z') :
    (z' = true → z = true) ∧ W = if z = true ∧ z' = false then [.separate] else [] := by
  cases W with
  | nil => obtain rfl : z = z' := by simpa using e
           cases z <;> simp
  | cons k W =>
    obtain rfl := h k (by simp)
    cases z with
    | false => rw [List.foldl_cons] at e; simp [protoNext, proto_stuck] at e
    | true =>
      rw [List.foldl_cons] at e
      cases W with
      | nil => simp [protoNext] at e; subst e; simp
      | cons k W =>
        obtain rfl := h k (by simp)
        rw [List.foldl_cons] at e; simp [protoNext, proto_stuck] at e

theorem proto_posts {W : List EvKind} (h : ∀ k ∈ W, k = .postSolve) {z z' : Bool} (e : W.foldl protoNext (some z) = some z') : z = z' := by
  induction W with
  | nil => simpa using e
  | cons k W ih =>
    obtain rfl := h k (by simp)
    cases z with
    | false => rw [List.foldl_cons] at e; simp [protoNext, proto_stuck] at e
    | true => exact ih (fun k hk => h k (by simp [hk])) (by simpa [protoNext] using e)

theorem word_kind {p q : Nat} {l : List Ev} {k : EvKind} (h : ∀ e ∈ l, e.kind = k) : ∀ x ∈ word p q l, x = k := by
  intro x hx
  obtain ⟨e, he, rfl⟩ := List.mem_map.1 hx
  exact h e (List.mem_filter.1 he).1

theorem filter_single {l : List Nat} (hn : l.Nodup) {P : Nat → Bool} {x : Nat} (h : ∀ y ∈ l, P y = true ↔ y = x) :
    l.filter P = if x ∈ l then [x] else [] := by
  have e : l.filter P = l.filter (· == x) := List.filter_congr fun y hy => by
    rw [Bool.eq_iff_iff, h y hy]; simp
  rw [e, List.filter_beq]
  split_ifs with hx
  · rw [List.count_eq_one_of_mem hn hx]; rfl
  · rw [List.count_eq_zero_of_not_mem hx]; rfl

namespace Sp
variable [GoFloat F]

theorem ends_pair {L : Nat → List Nat} {rest : List Nat} {w : Sp F} (i : Inv L rest w) {p q x : Nat} (hx : Live w p q x) :
    ((w.arbs x).bodyA = (w.shapes p).body ∧ (w.arbs x).bodyB = (w.shapes q).body) ∨
      ((w.arbs x).bodyA = (w.shapes q).body ∧ (w.arbs x).bodyB = (w.shapes p).body) := by
  obtain ⟨l1, l2, -⟩ := i.full.core.arb.live x (i.full.core.arb.noLeak x hx.1 hx.2.1)
  rcases (samePair_iff w p q x).1 hx.2.2 with ⟨e1, e2⟩ | ⟨e1, e2⟩
  · left; rw [l1, l2, e1, e2]; exact ⟨rfl, rfl⟩
  · right; rw [l1, l2, e1, e2]; exact ⟨rfl, rfl⟩

theorem exempt_rests {L : Nat → List Nat} {rest : List Nat} {w : Sp F} (i : Inv L rest w) {p q x : Nat} (hx : Live w p q x) :
    Exempt w x ↔ w.rests p q = true := by
  simp only [Exempt, rests, resting, isSleeping, Bool.and_eq_true, decide_eq_true_eq, Option.isSome_iff_ne_none]
  rcases ends_pair i hx with ⟨e1, e2⟩ | ⟨e1, e2⟩ <;> rw [e1, e2] <;> tauto

theorem off_frozen {L : Nat → List Nat} {rest : List Nat} {w : Sp F} (i : Inv L rest w) (hl : w.locked = 0) {p q x : Nat}
    (hx : Live w p q x) (hi : InL L w x) : w.off (w.owner x) ↔ w.frozen p q = true := by
  have hf : w.frozen p q = true ↔ Exempt w x ∧ ((w.bodies (w.arbs x).bodyA).root ≠ none ∨ (w.bodies (w.arbs x).bodyB).root ≠ none) := by
    rw [exempt_rests i hx, frozen, Bool.and_eq_true, Bool.or_eq_true, isSleeping, isSleeping, Option.isSome_iff_ne_none, Option.isSome_iff_ne_none]
    rcases ends_pair i hx with ⟨e1, e2⟩ | ⟨e1, e2⟩ <;> rw [e1, e2] <;> tauto
  rw [hf, i.off_iff hl]
  obtain ⟨c1, c2⟩ := i.closed.arb x hi
  have st : ∀ b, w.typ b = .static → (w.bodies b).root = none := by
    intro b hb
    by_contra hne
    have := (i.full.root_dynamic hne).2
    rw [hb] at this; simp at this
  by_cases hA : w.typ (w.arbs x).bodyA = .static
  · have e : w.owner x = (w.arbs x).bodyB := by simp [owner, hA]
    rw [e, Exempt]
    constructor
    · intro ho; exact ⟨⟨.inl hA, .inr ho⟩, .inr ho⟩
    · rintro ⟨-, z | z⟩
      · exact absurd (st _ hA) z
      · exact z
  · have e : w.owner x = (w.arbs x).bodyA := by simp [owner, hA]
    rw [e, Exempt]
    constructor
    · intro ho
      refine ⟨⟨.inr ho, ?_⟩, .inl ho⟩
      rcases c1 ho with e | e
      · exact .inl e
      · exact .inr (by rw [e]; exact ho)
    · rintro ⟨⟨z, -⟩, -⟩
      exact z.resolve_left hA

/-- What the end of a step does to a pair. -/
theorem tail_events {L : Nat → List Nat} {w t : Sp F} {quiet : Prop} (hq : quiet) (g : Good L [] w) (hl : w.locked = 0) (gt : Good L [] t)
    (tt : Tail L quiet w t) (p q : Nat) : ∃ new, t.trace = w.trace ++ new ∧
      ((∀ x, ¬ Open w p q x) → word p q new = [] ∧ t.pairSt p q = .apart) ∧
      (∀ x, Open w p q x → InL L w x → word p q new = (if w.frozen p q = true then [] else [.postSolve]) ∧ t.pairSt p q = .active) ∧
      (∀ x, Open w p q x → ¬ InL L w x → ((w.arbs x).stamp = w.stamp ∨ w.rests p q = true) →
        word p q new = [] ∧ t.pairSt p q = if (w.arbs x).state = .ignore then .ignored else .touching) ∧
      (∀ x, Open w p q x → ¬ InL L w x → (w.arbs x).stamp ≠ w.stamp → w.rests p q = false →
        word p q new = [.separate] ∧ t.pairSt p q = .apart) := by
  obtain ⟨sep, et, hsep⟩ := tt.emits
  set post : List Ev := w.arbiters.map fun x => ⟨.postSolve, (w.arbs x).a, (w.arbs x).b, w.stamp⟩ with hpost
  have k := g.inv.full.core.arb
  have hpk : ∀ e ∈ post, e.kind = .postSolve := by
    intro e he
    obtain ⟨x, -, rfl⟩ := List.mem_map.1 he
    rfl
  have habout : ∀ x, (⟨.postSolve, (w.arbs x).a, (w.arbs x).b, w.stamp⟩ : Ev).about p q = w.samePair p q x := by
    intro x
    rw [Bool.eq_iff_iff, samePair_iff]
    simp [Ev.about]
  have hwp : word p q post = (w.arbiters.filter (w.samePair p q)).map fun _ => .postSolve := by
    rw [hpost, word, List.filter_map, List.map_map]
    have : (w.arbiters.filter ((fun e : Ev => e.about p q) ∘ fun x => (⟨.postSolve, (w.arbs x).a, (w.arbs x).b, w.stamp⟩ : Ev))) = w.arbiters.filter (w.samePair p q) :=
      List.filter_congr fun x _ => habout x
    rw [this]; rfl
  have harb : ∀ x, x ∈ w.arbiters → InL L w x ∧ x < w.arbBound ∧ x ∉ w.pool := by
    intro x hx
    have h1 := ((k.mem x).1 hx).resolve_right (by simp)
    have := k.live x (.inr h1.1)
    exact ⟨h1.1, this.2.2.2.2.2.1, this.2.2.2.2.2.2⟩
  have hsingle : ∀ x, Live w p q x → word p q post = if x ∈ w.arbiters then [.postSolve] else [] := by
    intro x hx
    rw [hwp, filter_single k.nodup (x := x) (fun y hy => ⟨fun e => ?_, fun e => by rw [e]; exact hx.2.2⟩)]
    · split_ifs <;> rfl
    · obtain ⟨-, a1, a2⟩ := harb y hy
      exact g.inv.open_unique ⟨a1, a2⟩ ⟨hx.1, hx.2.1⟩ e hx.2.2
  -- the protocol counts the Separate events
  obtain ⟨z, e1, hz⟩ := g.tr.agree p q
  obtain ⟨z', e2, hz'⟩ := gt.tr.agree p q
  have hpr : (word p q post).foldl protoNext ((word p q sep).foldl protoNext (some z)) = some z' := by
    rw [← e2, et, proto_append, word_append, List.foldl_append, e1]
  obtain ⟨y, hy⟩ : ∃ y, (word p q sep).foldl protoNext (some z) = some y := by
    cases e : (word p q sep).foldl protoNext (some z) with
    | none => rw [e, proto_stuck] at hpr; simp at hpr
    | some y => exact ⟨y, rfl⟩
  rw [hy] at hpr
  obtain rfl := proto_posts (word_kind hpk) hpr
  obtain ⟨s1, s2⟩ := proto_separates (word_kind hsep) hy
  refine ⟨_, et, ?_, ?_, ?_, ?_⟩
  · intro hno
    have hz0 : z = false := by
      cases z with
      | false => rfl
      | true => obtain ⟨x, hx⟩ := hz.1 rfl; exact absurd hx (hno x)
    have hno' : ∀ x, ¬ Open t p q x := fun x hx => hno x (tt.closes p q x hx).1
    refine ⟨?_, pairSt_apart hno'⟩
    rw [word_append, s2, hz0, hwp]
    simp only [Bool.false_eq_true, false_and, if_false, List.nil_append, List.map_eq_nil_iff, List.filter_eq_nil_iff]
    intro x hx hs
    obtain ⟨a0, a1, a2⟩ := harb x hx
    exact hno x ⟨a1, a2, g.tr.threaded x a0, hs⟩
  · intro x hx hi
    have hlv : Live w p q x := ((open_iff ..).1 hx).1
    have hm : x ∈ w.arbiters ↔ ¬ w.frozen p q = true := by
      rw [k.mem, ← off_frozen g.inv hl hlv hi]; simp [hi]
    have hot : Open t p q x := by
      by_cases hf : w.frozen p q = true
      · refine tt.stays hq p q x hx fun _ => ?_
        rw [exempt_rests g.inv hlv]
        rw [frozen, Bool.and_eq_true] at hf; exact hf.1
      · exact tt.opens p q x hx (k.stamp x (hm.2 hf))
    have hy : y = true := hz'.2 ⟨x, hot⟩
    refine ⟨?_, ?_⟩
    · rw [word_append, s2, hy, hsingle x hlv]
      by_cases hf : w.frozen p q = true
      · rw [if_neg (fun e => (hm.1 e) hf)]; simp [hf]
      · rw [if_pos (hm.2 hf)]; simp [hf]
    · rw [pairSt_open gt.inv hot, if_pos ((tt.inl x).2 hi)]
  · intro x hx hi hc
    have hlv : Live w p q x := ((open_iff ..).1 hx).1
    have hm : x ∉ w.arbiters := fun e => hi (harb x e).1
    have hot : Open t p q x := by
      rcases hc with hc | hc
      · exact tt.opens p q x hx hc
      · exact tt.stays hq p q x hx fun _ => (exempt_rests g.inv hlv).2 hc
    have hy : y = true := hz'.2 ⟨x, hot⟩
    refine ⟨?_, ?_⟩
    · rw [word_append, s2, hy, hsingle x hlv, if_neg hm]; simp
    · rw [pairSt_open gt.inv hot, if_neg (fun e => hi ((tt.inl x).1 e)), tt.states p q x hot]
  · intro x hx hi h1 h2
    have hlv : Live w p q x := ((open_iff ..).1 hx).1
    have hm : x ∉ w.arbiters := fun e => hi (harb x e).1
    have hcach : x ∈ w.cached := (k.noLeak x hx.1 hx.2.1).resolve_right hi
    have hno : ∀ a, ¬ Open t p q a := by
      intro a ha
      obtain ⟨b1, b2⟩ := tt.closes p q a ha
      have : a = x := g.inv.open_unique ⟨b1.1, b1.2.1⟩ ⟨hx.1, hx.2.1⟩ b1.2.2.2 hx.2.2.2
      subst this
      rcases b2 hcach with e | e
      · exact h1 e
      · rw [exempt_rests g.inv hlv, h2] at e; simp at e
    have hy : y = false := by
      cases y with
      | false => rfl
      | true => obtain ⟨a, ha⟩ := hz'.1 rfl; exact absurd ha (hno a)
    have hz1 : z = true := hz.2 ⟨x, hx⟩
    refine ⟨?_, pairSt_apart hno⟩
    rw [word_append, s2, hy, hz1, hsingle x hlv, if_neg hm]; simp

end Sp
end CP
