import Verif.Proofs.SpaceBase

/-! # The invariant of the space -/

namespace CP
variable {F : Type}
namespace Sp

/-- The body that owns an arbiter: body A, unless it is static. -/
def owner (s : Sp F) (x : Nat) : Nat :=
  if s.typ (s.arbs x).bodyA = .static then (s.arbs x).bodyB else (s.arbs x).bodyA

/-- The body that owns a constraint. -/
def conOwner (s : Sp F) (c : Nat) : Nat :=
  if s.typ (s.cons c).a = .static then (s.cons c).b else (s.cons c).a

/-- Body lists; `A` is the set of deactivated bodies. -/
structure BodyInv (A : Nat → Prop) (s : Sp F) : Prop where
  dynNodup : s.dynamicBodies.Nodup
  statNodup : s.staticBodies.Nodup
  memDyn : ∀ b, b ∈ s.dynamicBodies ↔ (s.bodies b).inSpace = true ∧ s.typ b ≠ .static ∧ ¬ A b
  memStat : ∀ b, b ∈ s.staticBodies ↔ (s.bodies b).inSpace = true ∧ s.typ b = .static ∧ b ≠ s.staticBody
  off : ∀ b, A b → (s.bodies b).inSpace = true ∧ s.typ b = .dynamic
  bound : ∀ b, (s.bodies b).inSpace = true → b < s.nBodies

/-- Shapes and indexes. -/
structure ShapeInv (A : Nat → Prop) (s : Sp F) : Prop where
  listNodup : ∀ b, (s.bodies b).shapes.Nodup
  memList : ∀ b sh, sh ∈ (s.bodies b).shapes ↔ (s.shapes sh).inSpace = true ∧ (s.shapes sh).body = b
  statNodup : s.staticShapes.Nodup
  dynNodup : s.dynamicShapes.Nodup
  memStat : ∀ sh, sh ∈ s.staticShapes ↔ (s.shapes sh).inSpace = true ∧
    (s.typ (s.shapes sh).body = .static ∨ A (s.shapes sh).body)
  memDyn : ∀ sh, sh ∈ s.dynamicShapes ↔ (s.shapes sh).inSpace = true ∧
    ¬ (s.typ (s.shapes sh).body = .static ∨ A (s.shapes sh).body)

/-- Constraint lists. -/
structure ConInv (A : Nat → Prop) (s : Sp F) : Prop where
  ne : ∀ c, (s.cons c).inSpace = true → (s.cons c).a ≠ (s.cons c).b
  bound : ∀ c, (s.cons c).inSpace = true → c < s.nCons
  list : ∀ b, ∃ l, IsChain (s.conNext b) (s.bodies b).cons l ∧
    ∀ c, c ∈ l ↔ (s.cons c).inSpace = true ∧ ((s.cons c).a = b ∨ (s.cons c).b = b)
  nodup : s.constraints.Nodup
  mem : ∀ c, c ∈ s.constraints ↔ (s.cons c).inSpace = true ∧ ¬ A (s.conOwner c)

/-- The arbiter lists of the bodies are the doubly linked lists `L`. -/
structure ThreadInv (L : Nat → List Nat) (s : Sp F) : Prop where
  nodup : ∀ b, (L b).Nodup
  head : ∀ b, (s.bodies b).arbs = (L b).head?
  dl : ∀ b, DL (fun x => s.thread x b) none (L b)
  ends : ∀ b x, x ∈ L b → (s.arbs x).bodyA = b ∨ (s.arbs x).bodyB = b
  both : ∀ x, x ∈ L (s.arbs x).bodyA ↔ x ∈ L (s.arbs x).bodyB
  out : ∀ x, x ∉ L (s.arbs x).bodyA → (s.arbs x).thA = {} ∧ (s.arbs x).thB = {}

/-- Arbiter `x` is in the lists of its bodies. -/
def InL (L : Nat → List Nat) (s : Sp F) (x : Nat) : Prop := x ∈ L (s.arbs x).bodyA

/-- The arbiters; `rest` are those of the current step that are not yet in the lists of their bodies. -/
structure ArbInv (A : Nat → Prop) (L : Nat → List Nat) (rest : List Nat) (s : Sp F) : Prop where
  mem : ∀ x, x ∈ s.arbiters ↔ (InL L s x ∧ ¬ A (s.owner x)) ∨ x ∈ rest
  nodup : s.arbiters.Nodup
  restNodup : rest.Nodup
  rest : ∀ x ∈ rest, ¬ InL L s x ∧ x ∈ s.cached
  cachedIff : ∀ x, InL L s x → (x ∈ s.cached ↔ ¬ A (s.owner x))
  cachedNodup : s.cached.Nodup
  uniq : ∀ x y, (x ∈ s.cached ∨ InL L s x) → (y ∈ s.cached ∨ InL L s y) →
    s.samePair (s.arbs x).a (s.arbs x).b y = true → x = y
  live : ∀ x, (x ∈ s.cached ∨ InL L s x) →
    (s.arbs x).bodyA = (s.shapes (s.arbs x).a).body ∧ (s.arbs x).bodyB = (s.shapes (s.arbs x).b).body ∧
    (s.shapes (s.arbs x).a).inSpace = true ∧ (s.shapes (s.arbs x).b).inSpace = true ∧
    (s.arbs x).bodyA ≠ (s.arbs x).bodyB ∧ x < s.arbBound ∧ x ∉ s.pool
  poolNodup : s.pool.Nodup
  poolBound : ∀ x ∈ s.pool, x < s.arbBound
  stamp : ∀ x ∈ s.arbiters, (s.arbs x).stamp = s.stamp
  head : ∀ x, InL L s x → s.head ≠ none
  noLeak : ∀ x, x < s.arbBound → x ∉ s.pool → x ∈ s.cached ∨ InL L s x

/-- Everything that is kept relative to the set `A` of deactivated bodies. -/
structure Core (A : Nat → Prop) (L : Nat → List Nat) (rest : List Nat) (s : Sp F) : Prop where
  body : BodyInv A s
  shape : ShapeInv A s
  con : ConInv A s
  thread : ThreadInv L s
  arb : ArbInv A L rest s

/-- Two arbiters differ at most in the place of the contacts and the time stamp. -/
structure ArbEq (r r' : ArbR) : Prop where
  a : r'.a = r.a
  b : r'.b = r.b
  bodyA : r'.bodyA = r.bodyA
  bodyB : r'.bodyB = r.bodyB
  thA : r'.thA = r.thA
  thB : r'.thB = r.thB
  count : r'.count = r.count
  state : r'.state = r.state

/-- The arbiters are the same except for the places of their contacts and their stamps. -/
structure ArbsKept (s t : Sp F) : Prop where
  arbs : ∀ x, ArbEq (s.arbs x) (t.arbs x)
  arbBound : t.arbBound = s.arbBound
  pool : t.pool = s.pool
  stamps : ∀ x, (t.arbs x).stamp = (s.arbs x).stamp ∨ (t.arbs x).stamp = s.stamp

theorem ArbEq.refl (r : ArbR) : ArbEq r r := ⟨rfl, rfl, rfl, rfl, rfl, rfl, rfl, rfl⟩
theorem ArbEq.trans {r r' r'' : ArbR} (h : ArbEq r r') (h' : ArbEq r' r'') : ArbEq r r'' :=
  ⟨h'.a.trans h.a, h'.b.trans h.b, h'.bodyA.trans h.bodyA, h'.bodyB.trans h.bodyB, h'.thA.trans h.thA,
   h'.thB.trans h.thB, h'.count.trans h.count, h'.state.trans h.state⟩

/-- Arbiter `x` is in the arbiter list of some body. -/
def Threaded (s : Sp F) (x : Nat) : Prop := ∃ b l, s.arbList b = some l ∧ x ∈ l

/-- What `Space.Activate` and `Deactivate` leave alone. -/
structure Same (s s' : Sp F) : Prop where
  nBodies : s'.nBodies = s.nBodies
  nCons : s'.nCons = s.nCons
  bodies : s'.bodies = s.bodies
  shapes : s'.shapes = s.shapes
  cons : s'.cons = s.cons
  arbs : ∀ x, ArbEq (s.arbs x) (s'.arbs x)
  arbBound : s'.arbBound = s.arbBound
  threshold : s'.threshold = s.threshold
  staticBody : s'.staticBody = s.staticBody
  staticBodies : s'.staticBodies = s.staticBodies
  sleeping : s'.sleeping = s.sleeping
  pool : s'.pool = s.pool
  locked : s'.locked = s.locked
  stamp : s'.stamp = s.stamp
  trace : s'.trace = s.trace
  head : s.head ≠ none → s'.head ≠ none
  stamps : ∀ x, (s'.arbs x).stamp = (s.arbs x).stamp ∨ ((s'.arbs x).stamp = s.stamp ∧ s.Threaded x)

theorem Same.refl (s : Sp F) : Same s s :=
  ⟨rfl, rfl, rfl, rfl, rfl, fun _ => .refl _, rfl, rfl, rfl, rfl, rfl, rfl, rfl, rfl, rfl, id, fun _ => .inl rfl⟩

theorem arbList_congr {s t : Sp F} (h1 : ∀ x, ArbEq (s.arbs x) (t.arbs x)) (h2 : t.arbBound = s.arbBound)
    (h3 : ∀ b, (t.bodies b).arbs = (s.bodies b).arbs) (b : Nat) : t.arbList b = s.arbList b := by
  have e : t.arbNext b = s.arbNext b := by
    funext x; simp only [Sp.arbNext, (h1 x).bodyA, (h1 x).thA, (h1 x).thB]
  simp only [Sp.arbList, e, h2, h3]

theorem threaded_congr {s t : Sp F} (h1 : ∀ x, ArbEq (s.arbs x) (t.arbs x)) (h2 : t.arbBound = s.arbBound)
    (h3 : ∀ b, (t.bodies b).arbs = (s.bodies b).arbs) (x : Nat) : t.Threaded x ↔ s.Threaded x := by
  simp only [Threaded, arbList_congr h1 h2 h3]

theorem stamps_trans {s t u : Sp F} (ht : ∀ x, t.Threaded x ↔ s.Threaded x) (hs : t.stamp = s.stamp)
    (h : ∀ x, (t.arbs x).stamp = (s.arbs x).stamp ∨ ((t.arbs x).stamp = s.stamp ∧ s.Threaded x))
    (h' : ∀ x, (u.arbs x).stamp = (t.arbs x).stamp ∨ ((u.arbs x).stamp = t.stamp ∧ t.Threaded x)) (x : Nat) :
    (u.arbs x).stamp = (s.arbs x).stamp ∨ ((u.arbs x).stamp = s.stamp ∧ s.Threaded x) := by
  rcases h' x with e | ⟨e, e'⟩
  · rw [e]; exact h x
  · right; rw [e, hs]; exact ⟨rfl, (ht x).1 e'⟩
theorem Same.trans {s s' s'' : Sp F} (h : Same s s') (h' : Same s' s'') : Same s s'' :=
  ⟨h'.nBodies.trans h.nBodies, h'.nCons.trans h.nCons, h'.bodies.trans h.bodies, h'.shapes.trans h.shapes,
   h'.cons.trans h.cons, fun x => (h.arbs x).trans (h'.arbs x), h'.arbBound.trans h.arbBound,
   h'.threshold.trans h.threshold, h'.staticBody.trans h.staticBody, h'.staticBodies.trans h.staticBodies,
   h'.sleeping.trans h.sleeping, h'.pool.trans h.pool, h'.locked.trans h.locked,
   h'.stamp.trans h.stamp, h'.trace.trans h.trace, fun e => h'.head (h.head e),
   stamps_trans (threaded_congr h.arbs h.arbBound fun b => by rw [h.bodies]) h.stamp h.stamps h'.stamps⟩

namespace Same
variable {s s' : Sp F} (h : Same s s')
include h
theorem typ (b : Nat) : s'.typ b = s.typ b := by simp only [Sp.typ, h.bodies]
theorem isSleeping (b : Nat) : s'.isSleeping b = s.isSleeping b := by simp only [Sp.isSleeping, h.bodies]
theorem owner (x : Nat) : s'.owner x = s.owner x := by
  simp only [Sp.owner, h.typ, (h.arbs x).bodyA, (h.arbs x).bodyB]
theorem conOwner (c : Nat) : s'.conOwner c = s.conOwner c := by simp only [Sp.conOwner, h.typ, h.cons]
theorem conNext (b : Nat) : s'.conNext b = s.conNext b := by funext c; simp only [Sp.conNext, h.cons]
theorem thread (x b : Nat) : s'.thread x b = s.thread x b := by
  simp only [Sp.thread, (h.arbs x).bodyA, (h.arbs x).thA, (h.arbs x).thB]
theorem arbNext (b : Nat) : s'.arbNext b = s.arbNext b := by
  funext x; simp only [Sp.arbNext, (h.arbs x).bodyA, (h.arbs x).thA, (h.arbs x).thB]
theorem samePair (a b x : Nat) : s'.samePair a b x = s.samePair a b x := by
  simp only [Sp.samePair, (h.arbs x).a, (h.arbs x).b]
theorem inL (L : Nat → List Nat) (x : Nat) : InL L s' x ↔ InL L s x := by
  simp only [InL, (h.arbs x).bodyA]
theorem arbList (b : Nat) : s'.arbList b = s.arbList b := by
  simp only [Sp.arbList, h.arbNext, h.arbBound, h.bodies]
theorem conList (b : Nat) : s'.conList b = s.conList b := by
  simp only [Sp.conList, h.conNext, h.nCons, h.bodies]
theorem ownsArb (b x : Nat) : s'.ownsArb b x = s.ownsArb b x := by
  simp only [Sp.ownsArb, h.typ, (h.arbs x).bodyA]
theorem ownsCon (b c : Nat) : s'.ownsCon b c = s.ownsCon b c := by
  simp only [Sp.ownsCon, h.typ, h.cons]
theorem threadInv {L : Nat → List Nat} (t : ThreadInv L s) : ThreadInv L s' where
  nodup := t.nodup
  head b := by rw [h.bodies]; exact t.head b
  dl b := (t.dl b).congr fun x _ => h.thread x b
  ends b x hx := by rw [(h.arbs x).bodyA, (h.arbs x).bodyB]; exact t.ends b x hx
  both x := by rw [(h.arbs x).bodyA, (h.arbs x).bodyB]; exact t.both x
  out x hx := by
    rw [(h.arbs x).bodyA] at hx
    rw [(h.arbs x).thA, (h.arbs x).thB]; exact t.out x hx
end Same

theorem samePair_self (s : Sp F) (x : Nat) : s.samePair (s.arbs x).a (s.arbs x).b x = true := by
  simp [samePair]

theorem ThreadInv.chain {L : Nat → List Nat} {s : Sp F} (t : ThreadInv L s) (b : Nat) :
    IsChain (s.arbNext b) (s.bodies b).arbs (L b) := by
  rw [t.head b]
  have := (t.dl b).chain
  refine this.congr fun x _ => ?_
  simp only [arbNext, thread]
  split_ifs <;> rfl

/-- In all reachable states the loop over the arbiters of a body visits exactly its list. -/
theorem Core.arbList {A : Nat → Prop} {L : Nat → List Nat} {rest : List Nat} {s : Sp F} (h : Core A L rest s)
    (b : Nat) : s.arbList b = some (L b) := by
  refine walk_of_chain (h.thread.chain b) (nodup_length_le (h.thread.nodup b) fun x hx => ?_)
  have hin : InL L s x := by
    rcases h.thread.ends b x hx with e | e
    · show x ∈ L _; rw [e]; exact hx
    · show x ∈ L _; rw [h.thread.both, e]; exact hx
  exact (h.arb.live x (Or.inr hin)).2.2.2.2.2.1

theorem ThreadInv.inL {L : Nat → List Nat} {s : Sp F} (t : ThreadInv L s) {b x : Nat} (hx : x ∈ L b) :
    InL L s x := by
  rcases t.ends b x hx with e | e
  · show x ∈ L _; rw [e]; exact hx
  · show x ∈ L _; rw [t.both, e]; exact hx

theorem ConInv.conList {A : Nat → Prop} {s : Sp F} (h : ConInv A s) (b : Nat) :
    ∃ l, s.conList b = some l ∧ l.Nodup ∧
      ∀ c, c ∈ l ↔ (s.cons c).inSpace = true ∧ ((s.cons c).a = b ∨ (s.cons c).b = b) := by
  obtain ⟨l, hc, hm⟩ := h.list b
  exact ⟨l, walk_of_chain hc (nodup_length_le hc.nodup fun c hcl => h.bound c ((hm c).1 hcl).1), hc.nodup, hm⟩

theorem ownsArb_iff {s : Sp F} {b x : Nat} (hb : s.typ b = .dynamic)
    (he : (s.arbs x).bodyA = b ∨ (s.arbs x).bodyB = b) :
    s.ownsArb b x = true ↔ s.owner x = b := by
  simp only [ownsArb, owner, Bool.or_eq_true, decide_eq_true_eq]
  split_ifs with h
  · constructor
    · intro _
      rcases he with e | e
      · rw [e, hb] at h; simp at h
      · exact e
    · intro _; exact Or.inr h
  · constructor
    · rintro (e | e)
      · exact e.symm
      · exact absurd e h
    · intro e; exact Or.inl e.symm

theorem ownsCon_iff {s : Sp F} {b c : Nat} (hb : s.typ b = .dynamic)
    (he : (s.cons c).a = b ∨ (s.cons c).b = b) :
    s.ownsCon b c = true ↔ s.conOwner c = b := by
  simp only [ownsCon, conOwner, Bool.or_eq_true, decide_eq_true_eq]
  split_ifs with h
  · constructor
    · intro _
      rcases he with e | e
      · rw [e, hb] at h; simp at h
      · exact e
    · intro _; exact Or.inr h
  · constructor
    · rintro (e | e)
      · exact e.symm
      · exact absurd e h
    · intro e; exact Or.inl e.symm

theorem owner_ends (s : Sp F) (x : Nat) : (s.arbs x).bodyA = s.owner x ∨ (s.arbs x).bodyB = s.owner x := by
  simp only [owner]; split_ifs <;> simp
theorem conOwner_ends (s : Sp F) (c : Nat) : (s.cons c).a = s.conOwner c ∨ (s.cons c).b = s.conOwner c := by
  simp only [conOwner]; split_ifs <;> simp

/-- The arbiters of a dynamic body that it owns. -/
theorem Core.owned {A : Nat → Prop} {L : Nat → List Nat} {rest : List Nat} {s : Sp F} (h : Core A L rest s)
    {b : Nat} (hb : s.typ b = .dynamic) (x : Nat) :
    x ∈ (L b).filter (s.ownsArb b) ↔ InL L s x ∧ s.owner x = b := by
  rw [List.mem_filter]
  constructor
  · rintro ⟨hx, ho⟩
    exact ⟨h.thread.inL hx, (ownsArb_iff hb (h.thread.ends b x hx)).1 ho⟩
  · rintro ⟨hi, ho⟩
    have he := s.owner_ends x
    rw [ho] at he
    refine ⟨?_, (ownsArb_iff hb he).2 ho⟩
    rcases he with e | e
    · rw [← e]; exact hi
    · rw [← e]; exact (h.thread.both x).1 hi

end Sp
end CP
