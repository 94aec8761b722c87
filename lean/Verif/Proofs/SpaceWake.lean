import Verif.Proofs.SpaceAct2

/-! # `Body.Activate`, locks, roused bodies -/

namespace CP
variable {F : Type}
namespace Sp

/-- The parts of a body that waking up does not touch. -/
structure BodyEq (r r' : BodyR F) : Prop where
  typ : r'.type = r.type
  infMass : r'.infMass = r.infMass
  inSpace : r'.inSpace = r.inSpace
  shapes : r'.shapes = r.shapes
  arbs : r'.arbs = r.arbs
  cons : r'.cons = r.cons

theorem BodyEq.refl (r : BodyR F) : BodyEq r r := ⟨rfl, rfl, rfl, rfl, rfl, rfl⟩
theorem BodyEq.trans {r r' r'' : BodyR F} (h : BodyEq r r') (h' : BodyEq r' r'') : BodyEq r r'' :=
  ⟨h'.typ.trans h.typ, h'.infMass.trans h.infMass, h'.inSpace.trans h.inSpace, h'.shapes.trans h.shapes,
   h'.arbs.trans h.arbs, h'.cons.trans h.cons⟩

theorem Core.mapBodies {A : Nat → Prop} {L : Nat → List Nat} {rest : List Nat} {s : Sp F} (h : Core A L rest s)
    (B : Nat → BodyR F) (hB : ∀ b, BodyEq (s.bodies b) (B b)) : Core A L rest { s with bodies := B } := by
  have htyp : ∀ b, ({ s with bodies := B } : Sp F).typ b = s.typ b := fun b => (hB b).typ
  have hown : ∀ x, ({ s with bodies := B } : Sp F).owner x = s.owner x := by
    intro x; simp only [owner, htyp]
  have hcown : ∀ x, ({ s with bodies := B } : Sp F).conOwner x = s.conOwner x := by
    intro x; simp only [conOwner, htyp]
  constructor
  · constructor
    · exact h.body.dynNodup
    · exact h.body.statNodup
    · intro b
      rw [htyp]
      show b ∈ s.dynamicBodies ↔ (B b).inSpace = true ∧ _
      rw [(hB b).inSpace]; exact h.body.memDyn b
    · intro b
      rw [htyp]
      show b ∈ s.staticBodies ↔ (B b).inSpace = true ∧ _
      rw [(hB b).inSpace]; exact h.body.memStat b
    · intro b hb
      rw [htyp]
      show (B b).inSpace = true ∧ _
      rw [(hB b).inSpace]; exact h.body.off b hb
    · intro b hb
      refine h.body.bound b ?_
      rw [← (hB b).inSpace]; exact hb
  · constructor
    · intro b; show (B b).shapes.Nodup; rw [(hB b).shapes]; exact h.shape.listNodup b
    · intro b sh; show sh ∈ (B b).shapes ↔ _; rw [(hB b).shapes]; exact h.shape.memList b sh
    · exact h.shape.statNodup
    · exact h.shape.dynNodup
    · intro sh; rw [htyp]; exact h.shape.memStat sh
    · intro sh; rw [htyp]; exact h.shape.memDyn sh
  · constructor
    · exact h.con.ne
    · exact h.con.bound
    · intro b; show ∃ l, IsChain (s.conNext b) (B b).cons l ∧ _; rw [(hB b).cons]; exact h.con.list b
    · exact h.con.nodup
    · intro c; rw [hcown]; exact h.con.mem c
  · constructor
    · exact h.thread.nodup
    · intro b; show (B b).arbs = _; rw [(hB b).arbs]; exact h.thread.head b
    · exact h.thread.dl
    · exact h.thread.ends
    · exact h.thread.both
    · exact h.thread.out
  · constructor
    · intro x; rw [hown]; exact h.arb.mem x
    · exact h.arb.nodup
    · exact h.arb.restNodup
    · exact h.arb.rest
    · intro x hx; rw [hown]; exact h.arb.cachedIff x hx
    · exact h.arb.cachedNodup
    · exact h.arb.uniq
    · exact h.arb.live
    · exact h.arb.poolNodup
    · exact h.arb.poolBound
    · exact h.arb.stamp
    · exact h.arb.head
    · exact h.arb.noLeak

theorem Core.roused {A : Nat → Prop} {L : Nat → List Nat} {rest : List Nat} {s : Sp F} (h : Core A L rest s)
    (R : List Nat) : Core A L rest { s with roused := R } :=
  ⟨⟨h.body.dynNodup, h.body.statNodup, h.body.memDyn, h.body.memStat, h.body.off, h.body.bound⟩,
   ⟨h.shape.listNodup, h.shape.memList, h.shape.statNodup, h.shape.dynNodup, h.shape.memStat, h.shape.memDyn⟩,
   ⟨h.con.ne, h.con.bound, h.con.list, h.con.nodup, h.con.mem⟩,
   ⟨h.thread.nodup, h.thread.head, h.thread.dl, h.thread.ends, h.thread.both, h.thread.out⟩,
   ⟨h.arb.mem, h.arb.nodup, h.arb.restNodup, h.arb.rest, h.arb.cachedIff, h.arb.cachedNodup, h.arb.uniq, h.arb.live,
    h.arb.poolNodup, h.arb.poolBound, h.arb.stamp, h.arb.head, h.arb.noLeak⟩⟩

theorem Core.setSleeping {A : Nat → Prop} {L : Nat → List Nat} {rest : List Nat} {s : Sp F} (h : Core A L rest s)
    (R : List Nat) : Core A L rest { s with sleeping := R } :=
  ⟨⟨h.body.dynNodup, h.body.statNodup, h.body.memDyn, h.body.memStat, h.body.off, h.body.bound⟩,
   ⟨h.shape.listNodup, h.shape.memList, h.shape.statNodup, h.shape.dynNodup, h.shape.memStat, h.shape.memDyn⟩,
   ⟨h.con.ne, h.con.bound, h.con.list, h.con.nodup, h.con.mem⟩,
   ⟨h.thread.nodup, h.thread.head, h.thread.dl, h.thread.ends, h.thread.both, h.thread.out⟩,
   ⟨h.arb.mem, h.arb.nodup, h.arb.restNodup, h.arb.rest, h.arb.cachedIff, h.arb.cachedNodup, h.arb.uniq, h.arb.live,
    h.arb.poolNodup, h.arb.poolBound, h.arb.stamp, h.arb.head, h.arb.noLeak⟩⟩

theorem Core.setLocked {A : Nat → Prop} {L : Nat → List Nat} {rest : List Nat} {s : Sp F} (h : Core A L rest s)
    (n : Nat) : Core A L rest { s with locked := n } :=
  ⟨⟨h.body.dynNodup, h.body.statNodup, h.body.memDyn, h.body.memStat, h.body.off, h.body.bound⟩,
   ⟨h.shape.listNodup, h.shape.memList, h.shape.statNodup, h.shape.dynNodup, h.shape.memStat, h.shape.memDyn⟩,
   ⟨h.con.ne, h.con.bound, h.con.list, h.con.nodup, h.con.mem⟩,
   ⟨h.thread.nodup, h.thread.head, h.thread.dl, h.thread.ends, h.thread.both, h.thread.out⟩,
   ⟨h.arb.mem, h.arb.nodup, h.arb.restNodup, h.arb.rest, h.arb.cachedIff, h.arb.cachedNodup, h.arb.uniq, h.arb.live,
    h.arb.poolNodup, h.arb.poolBound, h.arb.stamp, h.arb.head, h.arb.noLeak⟩⟩

theorem Core.congrA {A A' : Nat → Prop} {L : Nat → List Nat} {rest : List Nat} {s : Sp F} (h : Core A L rest s)
    (e : ∀ b, A b ↔ A' b) : Core A' L rest s := by
  have : A = A' := funext fun b => propext (e b)
  exact this ▸ h

/-- Sleeping components and bodies waiting to be woken. -/
structure SleepInv (A : Nat → Prop) (s : Sp F) : Prop where
  aIff : ∀ b, A b ↔ (∃ r ∈ s.sleeping, (s.bodies b).root = some r) ∨ b ∈ s.roused
  rousedNodup : s.roused.Nodup
  rousedRoot : ∀ b ∈ s.roused, (s.bodies b).root = none
  sleepNodup : s.sleeping.Nodup
  chain : ∀ r ∈ s.sleeping, ∃ l, IsChain (fun b => (s.bodies b).next) (some r) l ∧
    ∀ b, b ∈ l ↔ (s.bodies b).root = some r
  rootless : ∀ b, (s.bodies b).root = none → (s.bodies b).next = none
  rouseLock : s.locked = 0 → s.roused = []

/-- No body outside the sleeping components has a component pointer. -/
def Quiet (s : Sp F) : Prop := ∀ b r, (s.bodies b).root = some r → r ∈ s.sleeping

theorem SleepInv.self_root {A : Nat → Prop} {s : Sp F} (h : SleepInv A s) {r : Nat} (hr : r ∈ s.sleeping) :
    (s.bodies r).root = some r := by
  obtain ⟨l, hc, hm⟩ := h.chain r hr
  cases l with
  | nil => simp [IsChain] at hc
  | cons x l =>
    have : r = x := by simpa using hc.1
    subst this
    exact (hm r).1 (by simp)

variable [GoFloat F]

/-- The bodies of a list after waking up. -/
def wakeAll (l : List Nat) (B : Nat → BodyR F) : Nat → BodyR F := fun x =>
  if x ∈ l then { B x with idle := .time 0, root := none, next := none } else B x

theorem type_zero {r : BodyR F} (h : r.type ≠ .static) :
    ({ r with idle := .time 0 } : BodyR F).type = r.type := by
  cases hr : r.idle with
  | infinity => simp [BodyR.type, hr] at h
  | time t => simp [BodyR.type, hr]

theorem type_zero' {r : BodyR F} (h : r.type ≠ .static) :
    ({ r with idle := .time 0, root := none, next := none } : BodyR F).type = r.type := by
  cases hr : r.idle with
  | infinity => simp [BodyR.type, hr] at h
  | time t => simp [BodyR.type, hr]

theorem bodyEq_zero {r : BodyR F} (h : r.type ≠ .static) : BodyEq r { r with idle := .time 0 } :=
  ⟨type_zero h, rfl, rfl, rfl, rfl, rfl⟩

theorem bodyEq_wakeAll {s : Sp F} {l : List Nat} (h : ∀ b ∈ l, s.typ b ≠ .static) (b : Nat) :
    BodyEq (s.bodies b) (wakeAll l s.bodies b) := by
  unfold wakeAll
  split_ifs with hb
  · exact ⟨type_zero' (h b hb), rfl, rfl, rfl, rfl, rfl⟩
  · exact .refl _

theorem wakeAll_cons (x : Nat) (l : List Nat) (B : Nat → BodyR F) :
    wakeAll l (Function.update B x { B x with idle := .time 0, root := none, next := none }) = wakeAll (x :: l) B := by
  funext y
  unfold wakeAll
  by_cases hy : y = x
  · subst hy; simp
  · simp [hy]

/-- Waking a chain in an unlocked space. -/
theorem wakeChain_unlocked {L : Nat → List Nat} {rest : List Nat} : ∀ (l : List Nat) (n : Nat) (t : Sp F)
    (st : Option Nat) (A : Nat → Prop), l.length ≤ n → IsChain (fun b => (t.bodies b).next) st l →
    Core A L rest t → t.locked = 0 → (∀ b ∈ l, A b) →
    ∃ t', wakeChain n t st = some t' ∧ Core (fun x => A x ∧ x ∉ l) L rest t' ∧
      Same { t with bodies := wakeAll l t.bodies } t' ∧ t'.roused = t.roused ∧
      t'.dynamicBodies = t.dynamicBodies ++ l
  | [], n, t, st, A, _, hc, h, _, _ => by
    have : st = none := hc
    subst this
    refine ⟨t, by cases n <;> rfl, h.congrA (by simp), ?_, rfl, by simp⟩
    have : wakeAll [] t.bodies = t.bodies := by funext y; simp [wakeAll]
    rw [this]; exact .refl t
  | x :: l, 0, _, _, _, hn, _, _, _, _ => by simp at hn
  | x :: l, n + 1, t, st, A, hn, hc, h, hl, hA => by
    have hnd : (x :: l).Nodup := hc.nodup
    have hx : x ∉ l := (List.nodup_cons.1 hnd).1
    obtain ⟨rfl, hc'⟩ := hc
    have hAx := hA x (by simp)
    have hd := (h.body.off x hAx).2
    have h1 : Core A L rest (t.setBody x fun r => { r with idle := .time 0, root := none, next := none }) :=
      h.mapBodies _ (fun b => by
        by_cases hb : b = x
        · subst hb
          simp only [Function.update_self]
          exact ⟨type_zero' (by show t.typ b ≠ _; rw [hd]; simp), rfl, rfl, rfl, rfl, rfl⟩
        · simp only [Function.update_of_ne hb]; exact .refl _)
    obtain ⟨t1, e1, c1, s1, r1, d1⟩ := activateBody_core h1 hl hAx
    have hch : IsChain (fun b => (t1.bodies b).next) ((t.bodies x).next) l := by
      refine hc'.congr fun y hy => ?_
      have hyx : y ≠ x := fun e => hx (e ▸ hy)
      rw [s1.bodies]
      simp [setBody, Function.update_of_ne hyx]
    obtain ⟨t2, e2, c2, s2, r2, d2⟩ := wakeChain_unlocked l n t1 _ _ (by simpa using hn) hch c1
      (by rw [s1.locked]; exact hl)
      (fun b hb => ⟨hA b (by simp [hb]), fun e => hx (e ▸ hb)⟩)
    refine ⟨t2, ?_, c2.congrA ?_, ?_, r2.trans r1, ?_⟩
    · simp only [wakeChain, Option.bind_eq_bind]
      rw [e1]; exact e2
    · intro b; simp only [List.mem_cons]; tauto
    · have e : wakeAll l t1.bodies = wakeAll (x :: l) t.bodies := by
        rw [s1.bodies]; exact wakeAll_cons x l t.bodies
      rw [e] at s2
      refine Same.trans ?_ s2
      refine ⟨s1.nBodies, s1.nCons, rfl, s1.shapes, s1.cons, s1.arbs, s1.arbBound, s1.threshold, s1.staticBody,
        s1.staticBodies, s1.sleeping, s1.pool, s1.locked, s1.stamp, s1.trace, s1.head, fun y => ?_⟩
      rcases s1.stamps y with q | ⟨q, q'⟩
      · exact .inl q
      · refine .inr ⟨q, ?_⟩
        refine (threaded_congr (t := { t with bodies := wakeAll (x :: l) t.bodies }) (s := t.setBody x fun r => { r with idle := .time 0, root := none, next := none }) (fun _ => .refl _) rfl (fun b => ?_) y).2 q'
        show (wakeAll (x :: l) t.bodies b).arbs = ((Function.update t.bodies x _) b).arbs
        unfold wakeAll
        by_cases e1 : b = x
        · subst e1; simp
        · by_cases e2 : b ∈ l <;> simp [e1, e2]
    · rw [d2, d1]; simp [setBody]

/-- Waking a chain in a locked space only records the bodies. -/
theorem wakeChain_locked : ∀ (l : List Nat) (n : Nat) (t : Sp F) (st : Option Nat), l.length ≤ n →
    IsChain (fun b => (t.bodies b).next) st l → t.locked ≠ 0 → (∀ b ∈ l, b ∉ t.roused) →
    wakeChain n t st = some { t with bodies := wakeAll l t.bodies, roused := t.roused ++ l }
  | [], n, t, st, _, hc, _, _ => by
    have : st = none := hc
    subst this
    have : wakeAll [] t.bodies = t.bodies := by funext y; simp [wakeAll]
    rw [this]
    cases n <;> simp [wakeChain]
  | x :: l, 0, _, _, hn, _, _, _ => by simp at hn
  | x :: l, n + 1, t, st, hn, hc, hl, hR => by
    have hnd : (x :: l).Nodup := hc.nodup
    have hx : x ∉ l := (List.nodup_cons.1 hnd).1
    obtain ⟨rfl, hc'⟩ := hc
    simp only [wakeChain, Option.bind_eq_bind]
    have e1 : (t.setBody x fun r => { r with idle := .time 0, root := none, next := none }).activateBody x
        = some { t.setBody x fun r => { r with idle := .time 0, root := none, next := none } with
            roused := t.roused ++ [x] } := by
      rw [activateBody, if_pos (by exact hl), if_neg (by exact hR x (by simp))]
      rfl
    rw [e1]
    simp only [Option.bind_some]
    rw [wakeChain_locked l n _ _ (by simpa using hn)]
    · simp only [setBody, wakeAll_cons, List.append_assoc, List.singleton_append]
    · refine hc'.congr fun y hy => ?_
      have hyx : y ≠ x := fun e => hx (e ▸ hy)
      simp [setBody, Function.update_of_ne hyx]
    · exact hl
    · intro b hb
      show b ∉ t.roused ++ [x]
      rw [List.mem_append, not_or]
      exact ⟨hR b (by simp [hb]), by simp; rintro rfl; exact hx hb⟩

end Sp
end CP
