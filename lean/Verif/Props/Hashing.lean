import Verif.Proofs.HashSet
import Verif.Model.Handlers
import Mathlib.Data.List.Induction

/-!
# C01–C05: hash set, collision handlers, shape filters

Specification of the hash set: a function from classes to `Option` element.
-/

namespace CP
open HashSet

/-! ## Specification: a finite map -/

section spec
variable {T U C : Type} [DecidableEq C]

/-- What a call returns (specification). -/
inductive HashOut (U : Type) where
  | elt (u : U)            -- Insert
  | opt (u : Option U)     -- Remove, Find
  | unit                   -- Filter

/-- The specification: a map from classes to elements. -/
def mapStep (cl : Client T U C) (m : C → Option U) : HashOp T U → (C → Option U) × HashOut U
  | .insert t u => match m (cl.kc t) with
    | some v => (m, .elt v)
    | none => (fun c => if c = cl.kc t then some u else m c, .elt u)
  | .remove t => (fun c => if c = cl.kc t then none else m c, .opt (m (cl.kc t)))
  | .find t => (m, .opt (m (cl.kc t)))
  | .filter p => (fun c => (m c).filter p, .unit)

/-- The implementation's step: `none` is a panic. -/
def hashStep (cl : Client T U C) (s : HashSet U) : HashOp T U → Option (HashSet U × HashOut U)
  | .insert t u => (HashSet.insert cl.eq s (cl.h (cl.kc t)) t u).map fun r => (r.1, .elt r.2)
  | .remove t => (HashSet.remove cl.eq s (cl.h (cl.kc t)) t).map fun r => (r.1, .opt r.2)
  | .find t => (HashSet.find cl.eq s (cl.h (cl.kc t)) t).map fun r => (s, .opt r)
  | .filter p => some (s.filter p, .unit)

/-- The new element belongs to the class of its key (all clients in /repo build it that way). -/
def OpOk (cl : Client T U C) : HashOp T U → Prop
  | .insert t u => cl.ec u = cl.kc t
  | _ => True

/-- Run a history from the empty set, collecting outputs. -/
def hashRun (cl : Client T U C) (s : HashSet U) : List (HashOp T U) → Option (HashSet U × List (HashOut U))
  | [] => some (s, [])
  | op :: ops => (hashStep cl s op).bind fun r => (hashRun cl r.1 ops).map fun q => (q.1, r.2 :: q.2)

def mapRun (cl : Client T U C) (m : C → Option U) : List (HashOp T U) → (C → Option U) × List (HashOut U)
  | [] => (m, [])
  | op :: ops => let r := mapStep cl m op; let q := mapRun cl r.1 ops; (q.1, r.2 :: q.2)

/-- The simulation relation. -/
def Rep (cl : Client T U C) (s : HashSet U) (m : C → Option U) : Prop :=
  Inv cl s ∧ ∀ c u, m c = some u ↔ cl.ec u = c ∧ u ∈ s.each

theorem mem_each {s : HashSet U} {u : U} : u ∈ s.each ↔ ∃ b ∈ s.table.flatten, b.elt = u := by
  simp only [HashSet.each, List.mem_map]

theorem Rep.none_iff {cl : Client T U C} {s : HashSet U} {m : C → Option U} (h : Rep cl s m) (c : C) :
    m c = none ↔ ∀ b ∈ s.table.flatten, cl.ec b.elt ≠ c := by
  constructor
  · intro hn b hb he
    have := (h.2 c b.elt).mpr ⟨he, mem_each.mpr ⟨b, hb, rfl⟩⟩
    rw [hn] at this; simp at this
  · intro hall
    cases hm : m c with
    | none => rfl
    | some u =>
      obtain ⟨h1, h2⟩ := (h.2 c u).mp hm
      obtain ⟨b, hb, rfl⟩ := mem_each.mp h2
      exact absurd h1 (hall b hb)

theorem step_refines (cl : Client T U C) (s : HashSet U) (m : C → Option U) (h : Rep cl s m)
    (op : HashOp T U) (hok : OpOk cl op) :
    (hashStep cl s op = none ∧ s.entries + 1 = 1610612741 ∧
      ∃ t u, op = .insert t u ∧ m (cl.kc t) = none) ∨
    ∃ s', hashStep cl s op = some (s', (mapStep cl m op).2) ∧ Rep cl s' (mapStep cl m op).1 := by
  obtain ⟨hi, hm⟩ := h
  cases op with
  | insert t u =>
    rcases insert_spec cl s hi t u hok with ⟨b, hb, hc, he⟩ | ⟨habs, hpanic, hgood⟩
    · right
      have hmt : m (cl.kc t) = some b.elt := (hm _ _).mpr ⟨hc, mem_each.mpr ⟨b, hb, rfl⟩⟩
      refine ⟨s, ?_, ?_⟩
      · simp [hashStep, he, mapStep, hmt]
      · simp only [mapStep, hmt]; exact ⟨hi, hm⟩
    · have hmt : m (cl.kc t) = none := (Rep.none_iff ⟨hi, hm⟩ _).mpr habs
      by_cases hmax : s.entries + 1 = 1610612741
      · left
        exact ⟨by simp [hashStep, hpanic hmax], hmax, t, u, rfl, hmt⟩
      · right
        obtain ⟨s', he, hi', hperm⟩ := hgood hmax
        refine ⟨s', ?_, ?_⟩
        · simp [hashStep, he, mapStep, hmt]
        · simp only [mapStep, hmt]
          refine ⟨hi', ?_⟩
          intro c v
          have hmem : v ∈ s'.each ↔ v = u ∨ v ∈ s.each := by
            rw [mem_each, mem_each]
            constructor
            · rintro ⟨b, hb, rfl⟩
              rcases List.mem_cons.mp (hperm.mem_iff.mp hb) with rfl | hb
              · left; rfl
              · right; exact ⟨b, hb, rfl⟩
            · rintro (rfl | ⟨b, hb, rfl⟩)
              · exact ⟨⟨cl.h (cl.kc t), v⟩, hperm.mem_iff.mpr List.mem_cons_self, rfl⟩
              · exact ⟨b, hperm.mem_iff.mpr (by simp [hb]), rfl⟩
          rw [hmem]
          show (if c = cl.kc t then some u else m c) = some v ↔ _
          split
          · rename_i hc
            subst hc
            constructor
            · intro h1; simp only [Option.some.injEq] at h1; subst h1; exact ⟨hok, Or.inl rfl⟩
            · rintro ⟨h1, rfl | h2⟩
              · rfl
              · obtain ⟨b, hb, rfl⟩ := mem_each.mp h2
                exact absurd h1 (habs b hb)
          · rename_i hc
            rw [hm]
            constructor
            · rintro ⟨h1, h2⟩; exact ⟨h1, Or.inr h2⟩
            · rintro ⟨h1, rfl | h2⟩
              · exact absurd (hok.symm.trans h1).symm (fun h => hc h)
              · exact ⟨h1, h2⟩
  | remove t =>
    right
    rcases remove_spec cl s hi t with ⟨b, hb, hc, s', he, hi', hperm⟩ | ⟨habs, he⟩
    · have hmt : m (cl.kc t) = some b.elt := (hm _ _).mpr ⟨hc, mem_each.mpr ⟨b, hb, rfl⟩⟩
      refine ⟨s', ?_, hi', ?_⟩
      · simp [hashStep, he, mapStep, hmt]
      · intro c v
        simp only [mapStep]
        have hnd := hi.nodup
        rw [(hperm.map _).nodup_iff, List.map_cons, List.nodup_cons] at hnd
        have hno : ∀ b' ∈ s'.table.flatten, cl.ec b'.elt ≠ cl.kc t := by
          intro b' hb' hc'
          exact hnd.1 (List.mem_map.mpr ⟨b', hb', by rw [hc', hc]⟩)
        split
        · rename_i hcc
          subst hcc
          constructor
          · intro h; simp at h
          · rintro ⟨h1, h2⟩
            obtain ⟨b', hb', rfl⟩ := mem_each.mp h2
            exact absurd h1 (hno b' hb')
        · rename_i hcc
          rw [hm, mem_each, mem_each]
          constructor
          · rintro ⟨h1, b', hb', rfl⟩
            refine ⟨h1, b', ?_, rfl⟩
            rcases List.mem_cons.mp (hperm.mem_iff.mp hb') with rfl | h
            · exact absurd (h1.symm.trans hc) hcc
            · exact h
          · rintro ⟨h1, b', hb', rfl⟩
            exact ⟨h1, b', hperm.mem_iff.mpr (by simp [hb']), rfl⟩
    · have hmt : m (cl.kc t) = none := (Rep.none_iff ⟨hi, hm⟩ _).mpr habs
      refine ⟨s, ?_, hi, ?_⟩
      · simp [hashStep, he, mapStep, hmt]
      · intro c v
        simp only [mapStep]
        split
        · rename_i hcc; subst hcc
          rw [← hm, hmt]
        · exact hm c v
  | find t =>
    right
    rcases find_spec cl s hi t with ⟨b, hb, hc, he⟩ | ⟨habs, he⟩
    · have hmt : m (cl.kc t) = some b.elt := (hm _ _).mpr ⟨hc, mem_each.mpr ⟨b, hb, rfl⟩⟩
      exact ⟨s, by simp [hashStep, he, mapStep, hmt], hi, hm⟩
    · have hmt : m (cl.kc t) = none := (Rep.none_iff ⟨hi, hm⟩ _).mpr habs
      exact ⟨s, by simp [hashStep, he, mapStep, hmt], hi, hm⟩
  | filter p =>
    right
    obtain ⟨hi', hfl⟩ := filter_spec cl s hi p
    refine ⟨s.filter p, rfl, hi', ?_⟩
    intro c v
    simp only [mapStep, mem_each, hfl, List.mem_filter]
    rw [Option.filter_eq_some_iff, hm, mem_each]
    constructor
    · rintro ⟨⟨h1, b, hb, rfl⟩, h2⟩; exact ⟨h1, b, ⟨hb, h2⟩, rfl⟩
    · rintro ⟨h1, b, ⟨hb, h2⟩, rfl⟩; exact ⟨⟨h1, b, hb, rfl⟩, h2⟩

theorem run_refines (cl : Client T U C) (ops : List (HashOp T U)) (s : HashSet U) (m : C → Option U)
    (h : Rep cl s m) (hok : ∀ op ∈ ops, OpOk cl op) (hlen : s.entries + ops.length < 1610612741) :
    ∃ s', hashRun cl s ops = some (s', (mapRun cl m ops).2) ∧ Rep cl s' (mapRun cl m ops).1 := by
  induction ops generalizing s m with
  | nil => exact ⟨s, rfl, h⟩
  | cons op ops ih =>
    simp only [List.length_cons] at hlen
    rcases step_refines cl s m h op (hok op (by simp)) with ⟨_, h2, _⟩ | ⟨s1, h1, h2⟩
    · omega
    · have hle : s1.entries ≤ s.entries + 1 := by
        cases op with
        | insert t u =>
          rcases insert_spec cl s h.1 t u (hok (.insert t u) (by simp)) with ⟨b, hb, hc, he⟩ | ⟨habs, hpanic, hgood⟩
          · simp only [hashStep, he, Option.map_some, Option.some.injEq, Prod.mk.injEq] at h1
            rw [← h1.1]; omega
          · obtain ⟨s', he, hi', hp⟩ := hgood (by omega)
            simp only [hashStep, he, Option.map_some, Option.some.injEq, Prod.mk.injEq] at h1
            rw [← h1.1, hi'.cnt, hp.length_eq, List.length_cons, ← h.1.cnt]
            exact Nat.le_refl _
        | remove t =>
          rcases remove_spec cl s h.1 t with ⟨b, hb, hc, s', he, hi', hp⟩ | ⟨habs, he⟩
          · simp only [hashStep, he, Option.map_some, Option.some.injEq, Prod.mk.injEq] at h1
            have := hp.length_eq
            rw [List.length_cons, ← h.1.cnt, ← hi'.cnt] at this
            rw [← h1.1]; omega
          · simp only [hashStep, he, Option.map_some, Option.some.injEq, Prod.mk.injEq] at h1
            rw [← h1.1]; omega
        | find t =>
          simp only [hashStep] at h1
          rcases find_spec cl s h.1 t with ⟨b, hb, hc, he⟩ | ⟨habs, he⟩ <;>
          · simp only [he, Option.map_some, Option.some.injEq, Prod.mk.injEq] at h1
            rw [← h1.1]; omega
        | filter p =>
          simp only [hashStep, Option.some.injEq, Prod.mk.injEq] at h1
          rw [← h1.1]
          show s.entries - _ ≤ _
          omega
      obtain ⟨s2, h3, h4⟩ := ih s1 (mapStep cl m op).1 h2 (fun o ho => hok o (by simp [ho])) (by omega)
      refine ⟨s2, ?_, h4⟩
      simp [hashRun, h1, h3, mapRun]

/-- **C01**: any history of Insert/Remove/Find/Filter on a new hash set returns exactly what a finite map
returns, without panicking, and the final set represents the final map.
(The length bound only keeps the number of elements below the end of the prime table; see C03.) -/
theorem C01_hashset_is_map (cl : Client T U C) (ops : List (HashOp T U))
    (hok : ∀ op ∈ ops, OpOk cl op) (hlen : ops.length < 1610612741) :
    ∃ s0, (HashSet.new : Option (HashSet U)) = some s0 ∧
    ∃ s', hashRun cl s0 ops = some (s', (mapRun cl (fun _ => none) ops).2) ∧
      ∀ t, HashSet.find cl.eq s' (cl.h (cl.kc t)) t = some ((mapRun cl (fun _ => none) ops).1 (cl.kc t)) := by
  obtain ⟨s0, h0, hi, hfl⟩ := inv_new (U := U) cl
  have hrep : Rep cl s0 (fun _ => none) := by
    refine ⟨hi, ?_⟩
    intro c u
    simp [mem_each, hfl]
  have he0 : s0.entries = 0 := by rw [hi.cnt, hfl]; rfl
  obtain ⟨s', h1, h2⟩ := run_refines cl ops s0 _ hrep hok (by omega)
  refine ⟨s0, h0, s', h1, ?_⟩
  intro t
  rcases find_spec cl s' h2.1 t with ⟨b, hb, hc, he⟩ | ⟨habs, he⟩
  · rw [he, (h2.2 _ _).mpr ⟨hc, mem_each.mpr ⟨b, hb, rfl⟩⟩]
  · rw [he, (Rep.none_iff h2 _).mpr habs]

/-- **C02**: after any history `Count` is the number of elements, and `Each` calls its function exactly once for
every element of the map and for nothing else. -/
theorem C02_count_each (cl : Client T U C) (ops : List (HashOp T U))
    (hok : ∀ op ∈ ops, OpOk cl op) (hlen : ops.length < 1610612741) :
    ∃ s0 s' outs, (HashSet.new : Option (HashSet U)) = some s0 ∧ hashRun cl s0 ops = some (s', outs) ∧
      s'.each.Nodup ∧ s'.count = s'.each.length ∧
      ∀ u, u ∈ s'.each ↔ (mapRun cl (fun _ => none) ops).1 (cl.ec u) = some u := by
  obtain ⟨s0, h0, hi, hfl⟩ := inv_new (U := U) cl
  have hrep : Rep cl s0 (fun _ => none) := by
    refine ⟨hi, ?_⟩
    intro c u
    simp [mem_each, hfl]
  have he0 : s0.entries = 0 := by rw [hi.cnt, hfl]; rfl
  obtain ⟨s', h1, h2⟩ := run_refines cl ops s0 _ hrep hok (by omega)
  refine ⟨s0, s', _, h0, h1, ?_, ?_, ?_⟩
  · have hn := h2.1.nodup
    have : s'.table.flatten.map (fun b => cl.ec b.elt) = s'.each.map cl.ec := by
      simp [HashSet.each, List.map_map, Function.comp_def]
    rw [this] at hn
    exact hn.of_map
  · rw [HashSet.count, HashSet.each, List.length_map, h2.1.cnt]
  · intro u
    rw [h2.2]; simp

/-- States reachable by a history (specification). -/
def HashReachable (cl : Client T U C) (s : HashSet U) : Prop :=
  ∃ s0 ops outs, HashSet.new = some s0 ∧ (∀ op ∈ ops, OpOk cl op) ∧ hashRun cl s0 ops = some (s, outs)

theorem reachable_inv (cl : Client T U C) (s : HashSet U) (h : HashReachable cl s) :
    ∃ m, Rep cl s m := by
  obtain ⟨s0, ops, outs, h0, hok, hrun⟩ := h
  obtain ⟨s0', h0', hi, hfl⟩ := inv_new (U := U) cl
  rw [h0] at h0'; cases h0'
  have hrep : Rep cl s0 (fun _ => none) := ⟨hi, by intro c u; simp [mem_each, hfl]⟩
  clear h0 hi hfl
  generalize (fun _ : C => (none : Option U)) = m at hrep
  induction ops generalizing s0 m outs with
  | nil => simp [hashRun] at hrun; rw [← hrun.1]; exact ⟨m, hrep⟩
  | cons op ops ih =>
    rcases step_refines cl s0 m hrep op (hok op (by simp)) with ⟨h1, _⟩ | ⟨s1, h1, h2⟩
    · simp [hashRun, h1] at hrun
    · simp only [hashRun, h1, Option.bind_some] at hrun
      cases hr : hashRun cl s1 ops with
      | none => rw [hr] at hrun; simp at hrun
      | some q =>
        rw [hr] at hrun
        simp only [Option.map_some, Option.some.injEq, Prod.mk.injEq] at hrun
        exact ih s1 q.2 (fun o ho => hok o (by simp [ho])) (by rw [hr, ← hrun.1]) _ h2

/-- **C03**: in every reachable state, the table is never full (entries < size), and Insert panics exactly when it would
store element number 1610612741; no other call panics. -/
theorem C03_growth (cl : Client T U C) (s : HashSet U) (h : HashReachable cl s) :
    s.count < s.size ∧ s.size ≤ 1610612741 ∧
    (∀ t u, cl.ec u = cl.kc t →
      (HashSet.insert cl.eq s (cl.h (cl.kc t)) t u = none ↔
        s.count + 1 = 1610612741 ∧ ∀ v ∈ s.each, cl.ec v ≠ cl.kc t)) ∧
    (∀ t, HashSet.remove cl.eq s (cl.h (cl.kc t)) t ≠ none) ∧
    (∀ t, HashSet.find cl.eq s (cl.h (cl.kc t)) t ≠ none) := by
  obtain ⟨m, hi, hm⟩ := reachable_inv cl s h
  refine ⟨hi.lt, ?_, ?_, ?_, ?_⟩
  · have : ∀ p ∈ primes, p ≤ 1610612741 := by decide
    exact this _ hi.prime
  · intro t u hu
    rcases insert_spec cl s hi t u hu with ⟨b, hb, hc, he⟩ | ⟨habs, hpanic, hgood⟩
    · rw [he]
      constructor
      · intro h; simp at h
      · rintro ⟨_, h2⟩; exact absurd hc (h2 _ (mem_each.mpr ⟨b, hb, rfl⟩))
    · by_cases hmax : s.entries + 1 = 1610612741
      · simp only [hpanic hmax, true_iff]
        refine ⟨hmax, ?_⟩
        intro v hv
        obtain ⟨b, hb, rfl⟩ := mem_each.mp hv
        exact habs b hb
      · obtain ⟨s', he, _⟩ := hgood hmax
        rw [he]
        constructor
        · intro h; simp at h
        · rintro ⟨h1, _⟩; exact absurd h1 hmax
  · intro t
    rcases remove_spec cl s hi t with ⟨b, hb, hc, s', he, hi', hp⟩ | ⟨habs, he⟩ <;> simp [he]
  · intro t
    rcases find_spec cl s hi t with ⟨b, hb, hc, he⟩ | ⟨habs, he⟩ <;> simp [he]

end spec

/-- Non-vacuity: a client in which different keys collide, and a history with every call, growing the table. -/
example : ∃ (cl : Client Nat Nat Nat) (ops : List (HashOp Nat Nat)),
    (∀ op ∈ ops, OpOk cl op) ∧ ops.length = 9 ∧
    ∃ s0 s' outs, HashSet.new = some s0 ∧ hashRun cl s0 ops = some (s', outs) ∧ s'.size = 13 ∧
      s'.count = 4 := by
  refine ⟨⟨id, id, fun c => c % 2⟩,
    [.insert 1 1, .insert 3 3, .insert 5 5, .insert 7 7, .insert 9 9, .insert 3 3, .remove 5, .find 7,
      .filter (fun u => decide (u ≠ 100))], ?_, rfl, ?_⟩
  · intro op hop
    simp only [List.mem_cons, List.not_mem_nil, or_false] at hop
    rcases hop with rfl | rfl | rfl | rfl | rfl | rfl | rfl | rfl | rfl <;> simp [OpOk]
  · refine ⟨_, _, _, rfl, rfl, ?_, ?_⟩ <;> decide

/-! ## C04 -/

theorem hashPair_comm (a b : Word) : hashPair a b = hashPair b a := by
  unfold hashPair; rw [BitVec.xor_comm]

/-- The unordered pair of types, as a sorted pair. -/
def sortPair (a b : Word) : Word × Word := if a.toNat ≤ b.toNat then (a, b) else (b, a)

theorem sortPair_eq (a b c d : Word) :
    sortPair a b = sortPair c d ↔ (a = c ∧ b = d) ∨ (a = d ∧ b = c) := by
  unfold sortPair
  constructor
  · intro h
    split at h <;> split at h <;> simp only [Prod.mk.injEq] at h
    · exact Or.inl h
    · exact Or.inr ⟨h.1, h.2⟩
    · exact Or.inr ⟨h.2, h.1⟩
    · exact Or.inl ⟨h.2, h.1⟩
  · rintro (⟨rfl, rfl⟩ | ⟨rfl, rfl⟩)
    · rfl
    · split <;> split
      · rename_i h1 h2
        have : a = b := BitVec.eq_of_toNat_eq (Nat.le_antisymm h1 h2)
        subst this; rfl
      · rfl
      · rfl
      · omega

def handlerClient : Client Handler Handler (Word × Word) where
  kc h := sortPair h.typeA h.typeB
  ec h := sortPair h.typeA h.typeB
  h c := (hashPair c.1 c.2).toNat

theorem handlerEq_eq : handlerEq = handlerClient.eq := by
  funext a b
  show handlerEq a b = decide (sortPair a.typeA a.typeB = sortPair b.typeA b.typeB)
  unfold handlerEq
  by_cases h : sortPair a.typeA a.typeB = sortPair b.typeA b.typeB
  · rw [decide_eq_true h]
    rcases (sortPair_eq _ _ _ _).mp h with h | h
    · simp [h]
    · by_cases h1 : a.typeA = b.typeA ∧ a.typeB = b.typeB
      · simp [h1]
      · simp [h.1, h.2]
  · rw [decide_eq_false h]
    rw [sortPair_eq] at h
    push Not at h
    have h1 : ¬ (a.typeA = b.typeA ∧ a.typeB = b.typeB) := fun hh => h.1 hh.1 hh.2
    have h2 : ¬ (a.typeB = b.typeA ∧ a.typeA = b.typeB) := fun hh => h.2 hh.2 hh.1
    simp [h1, h2]

theorem handler_hash (h : Handler) :
    (hashPair h.typeA h.typeB).toNat = handlerClient.h (handlerClient.kc h) := by
  simp only [handlerClient, sortPair]
  split
  · rfl
  · rw [hashPair_comm]

/-- Specification: index of the first registration of the unordered pair {a,b} in the history. -/
def firstReg (hist : List (Word × Word)) (a b : Word) : Option Nat :=
  hist.findIdx? (fun p => decide (p = (a, b) ∨ p = (b, a)))

/-- The handler a space should use for {a,b}: the one created by the first registration. -/
def specHandler (hist : List (Word × Word)) (a b : Word) : Option Handler :=
  (firstReg hist a b).bind fun i => (hist[i]?).map fun p => ⟨p.1, p.2, i⟩

theorem firstReg_class (hist : List (Word × Word)) (a b c d : Word) (h : sortPair a b = sortPair c d) :
    firstReg hist a b = firstReg hist c d := by
  rcases (sortPair_eq _ _ _ _).mp h with ⟨rfl, rfl⟩ | ⟨rfl, rfl⟩
  · rfl
  · simp only [firstReg]
    congr 1
    funext p
    simp only [decide_eq_decide]
    tauto

theorem firstReg_append (hist : List (Word × Word)) (a b c d : Word) :
    firstReg (hist ++ [(a, b)]) c d =
      (firstReg hist c d).or (if sortPair a b = sortPair c d then some hist.length else none) := by
  simp only [firstReg, List.findIdx?_append]
  congr 1
  simp only [sortPair_eq, List.findIdx?_singleton, Prod.mk.injEq]
  by_cases h : (a = c ∧ b = d) ∨ (a = d ∧ b = c)
  · simp [h]
  · simp [h]

theorem firstReg_lt {hist : List (Word × Word)} {a b : Word} {i : Nat} (h : firstReg hist a b = some i) :
    i < hist.length ∧ ∃ p, hist[i]? = some p ∧ (p = (a, b) ∨ p = (b, a)) := by
  simp only [firstReg, List.findIdx?_eq_some_iff_getElem] at h
  obtain ⟨hlt, hp, _⟩ := h
  exact ⟨hlt, _, List.getElem?_eq_getElem hlt, by simpa using hp⟩

/-- `specHandler` as a map on classes. -/
def specMap (hist : List (Word × Word)) (c : Word × Word) : Option Handler :=
  if sortPair c.1 c.2 = c then specHandler hist c.1 c.2 else none

theorem sortPair_idem (a b : Word) : sortPair (sortPair a b).1 (sortPair a b).2 = sortPair a b := by
  unfold sortPair; split
  · rename_i h; simp [*]
  · rename_i h; simp; omega

theorem specHandler_class (hist : List (Word × Word)) (a b c d : Word) (h : sortPair a b = sortPair c d) :
    specHandler hist a b = specHandler hist c d := by
  simp only [specHandler, firstReg_class hist a b c d h]

theorem specMap_sort (hist : List (Word × Word)) (a b : Word) :
    specMap hist (sortPair a b) = specHandler hist a b := by
  unfold specMap
  rw [if_pos (sortPair_idem a b)]
  exact specHandler_class hist _ _ _ _ (sortPair_idem a b)

theorem specHandler_append (hist : List (Word × Word)) (a b c d : Word) :
    specHandler (hist ++ [(a, b)]) c d =
      match specHandler hist c d with
      | some h => some h
      | none => if sortPair a b = sortPair c d then some ⟨a, b, hist.length⟩ else none := by
  unfold specHandler
  rw [firstReg_append]
  cases hf : firstReg hist c d with
  | some i =>
    obtain ⟨hlt, p, hp, _⟩ := firstReg_lt hf
    simp [List.getElem?_append_left hlt, hp]
  | none =>
    by_cases h : sortPair a b = sortPair c d <;> simp [h]

theorem run_append (hist : List (Word × Word)) (a b : Word) (s : HandlerTable)
    (h : HandlerTable.run hist = some s) :
    HandlerTable.run (hist ++ [(a, b)]) = (s.register a b).map Prod.fst := by
  unfold HandlerTable.run at *
  cases hn : (HashSet.new : Option (HashSet Handler)) with
  | none => rw [hn] at h; simp at h
  | some s0 =>
    rw [hn] at h
    simp only [Option.bind_eq_bind, Option.bind_some] at h ⊢
    rw [List.foldlM_append, h]
    simp

theorem handlers_run (hist : List (Word × Word)) (hlen : hist.length < 1610612741) :
    ∃ s, HandlerTable.run hist = some s ∧ s.next = hist.length ∧ s.set.entries ≤ hist.length ∧
      Rep handlerClient s.set (specMap hist) := by
  induction hist using List.reverseRecOn with
  | nil =>
    obtain ⟨s0, h0, hi, hfl⟩ := inv_new (U := Handler) handlerClient
    refine ⟨⟨s0, 0⟩, ?_, rfl, ?_, hi, ?_⟩
    · simp [HandlerTable.run, h0]
    · rw [hi.cnt, hfl]; simp
    · intro c u
      simp [specMap, specHandler, firstReg, mem_each, hfl]
  | append_singleton hist p ih =>
    obtain ⟨a, b⟩ := p
    simp only [List.length_append, List.length_cons, List.length_nil] at hlen
    obtain ⟨s, hs, hnx, hle, hrep⟩ := ih (by omega)
    rw [run_append hist a b s hs]
    have hkc : ∀ i, handlerClient.kc ⟨a, b, i⟩ = sortPair a b := fun i => rfl
    unfold HandlerTable.register
    simp only
    rw [handlerEq_eq]
    have hh : (hashPair a b).toNat = handlerClient.h (handlerClient.kc ⟨a, b, s.next⟩) :=
      handler_hash ⟨a, b, s.next⟩
    rw [hh]
    have hstep := step_refines handlerClient s.set (specMap hist) hrep
      (.insert ⟨a, b, s.next⟩ ⟨a, b, s.next⟩) rfl
    rcases hstep with ⟨_, h2, _⟩ | ⟨s', h1, h2⟩
    · exfalso
      omega
    · simp only [hashStep] at h1
      rcases insert_spec handlerClient s.set hrep.1 ⟨a, b, s.next⟩ ⟨a, b, s.next⟩ rfl with
        ⟨b', hb', hc', he⟩ | ⟨habs, _, hgood⟩
      · rw [he] at h1 ⊢
        simp only [Option.map_some, Option.some.injEq, Prod.mk.injEq] at h1
        refine ⟨_, rfl, by simp [hnx], by simp; omega, ?_⟩
        have hm : specMap hist (sortPair a b) = some b'.elt :=
          (hrep.2 _ _).mpr ⟨hc', mem_each.mpr ⟨b', hb', rfl⟩⟩
        have : specMap (hist ++ [(a, b)]) = specMap hist := by
          funext c
          unfold specMap
          split
          · rw [specHandler_append]
            cases hcs : specHandler hist c.1 c.2 with
            | some h => rfl
            | none =>
              rename_i hsort
              simp only
              rw [if_neg]
              intro hab
              rw [hab, hsort] at hm
              unfold specMap at hm
              rw [if_pos hsort, hcs] at hm
              simp at hm
          · rfl
        rw [this]; exact hrep
      · obtain ⟨s'', he, hi'', hperm⟩ := hgood (by omega)
        rw [he] at h1 ⊢
        simp only [Option.map_some, Option.some.injEq, Prod.mk.injEq] at h1
        obtain ⟨rfl, h12⟩ := h1
        refine ⟨_, rfl, by simp [hnx], ?_, ?_⟩
        · simp only [List.length_append, List.length_cons, List.length_nil]
          rw [hi''.cnt, hperm.length_eq, List.length_cons, ← hrep.1.cnt]; omega
        · have hnone : specMap hist (sortPair a b) = none := (Rep.none_iff hrep _).mpr habs
          have : specMap (hist ++ [(a, b)]) =
              (mapStep handlerClient (specMap hist) (.insert ⟨a, b, s.next⟩ ⟨a, b, s.next⟩)).1 := by
            funext c
            simp only [mapStep, hkc, hnone]
            by_cases hc : c = sortPair a b
            · subst hc
              simp only [if_true]
              rw [specMap_sort, specHandler_append]
              rw [specMap_sort] at hnone
              rw [hnone]; simp [hnx]
            · rw [if_neg hc]
              unfold specMap
              split
              · rename_i hsort
                rw [specHandler_append]
                cases hcs : specHandler hist c.1 c.2 with
                | some h => rfl
                | none =>
                  simp only
                  rw [if_neg]
                  intro hab
                  exact hc (by rw [hab, hsort])
              · rfl
          rw [this]; exact h2

/-- **C04**: after any history of registrations, `LookupHandler(a,b)` returns the handler created by the first
registration of the unordered pair (in either order), with that registration's types, or the default when there is none;
`LookupHandler(b,a)` returns the same; and registering again returns the first handler. -/
theorem C04_handlers (hist : List (Word × Word)) (hlen : hist.length + 1 < 1610612741) :
    ∃ s, HandlerTable.run hist = some s ∧
      (∀ a b, s.lookup a b = some (specHandler hist a b)) ∧
      (∀ a b, s.lookup a b = s.lookup b a) ∧
      (∀ a b, ∃ s', s.register a b = some (s', (specHandler hist a b).getD ⟨a, b, hist.length⟩)) := by
  obtain ⟨s, hs, hnx, hle, hrep⟩ := handlers_run hist (by omega)
  have hlook : ∀ a b, s.lookup a b = some (specHandler hist a b) := by
    intro a b
    unfold HandlerTable.lookup
    rw [handlerEq_eq, show (hashPair a b).toNat = handlerClient.h (handlerClient.kc ⟨a, b, 0⟩) from
      handler_hash ⟨a, b, 0⟩]
    rw [← specMap_sort]
    rcases find_spec handlerClient s.set hrep.1 ⟨a, b, 0⟩ with ⟨b', hb', hc', he⟩ | ⟨habs, he⟩
    · rw [he]; exact congrArg some ((hrep.2 _ _).mpr ⟨hc', mem_each.mpr ⟨b', hb', rfl⟩⟩).symm
    · rw [he]; exact congrArg some ((Rep.none_iff hrep _).mpr habs).symm
  refine ⟨s, hs, hlook, ?_, ?_⟩
  · intro a b
    rw [hlook, hlook]
    congr 1
    exact specHandler_class hist _ _ _ _ ((sortPair_eq _ _ _ _).mpr (Or.inr ⟨rfl, rfl⟩))
  · intro a b
    unfold HandlerTable.register
    simp only
    rw [handlerEq_eq, show (hashPair a b).toNat = handlerClient.h (handlerClient.kc ⟨a, b, s.next⟩) from
      handler_hash ⟨a, b, s.next⟩]
    rcases insert_spec handlerClient s.set hrep.1 ⟨a, b, s.next⟩ ⟨a, b, s.next⟩ rfl with
        ⟨b', hb', hc', he⟩ | ⟨habs, _, hgood⟩
    · have := (hrep.2 _ _).mpr ⟨hc', mem_each.mpr ⟨b', hb', rfl⟩⟩
      rw [show handlerClient.kc ⟨a, b, s.next⟩ = sortPair a b from rfl, specMap_sort] at this
      exact ⟨_, by rw [he, this]; rfl⟩
    · have := (Rep.none_iff hrep _).mpr habs
      rw [show handlerClient.kc ⟨a, b, s.next⟩ = sortPair a b from rfl, specMap_sort] at this
      obtain ⟨s'', he, _⟩ := hgood (by omega)
      exact ⟨_, by rw [he, this]; simp [hnx]; rfl⟩

/-- **C04**: later registrations never change the handler of a pair. -/
theorem C04_stable (hist more : List (Word × Word)) (a b : Word) (h : Handler)
    (hh : specHandler hist a b = some h) : specHandler (hist ++ more) a b = some h := by
  induction more using List.reverseRecOn with
  | nil => simpa using hh
  | append_singleton more p ih =>
    rw [← List.append_assoc]
    obtain ⟨c, d⟩ := p
    rw [specHandler_append, ih]

/-- **C04**: when the shapes' types are `ta`, `tb` and a handler was registered for them whose first type is not the wildcard,
`Arbiter.Shapes()` presents the shape of the handler's `TypeA` first and the other one second. -/
theorem C04_shapes_order (hist : List (Word × Word)) (ta tb : Word) (h : Handler)
    (hh : specHandler hist ta tb = some h) (hw : h.typeA ≠ wildcardType) :
    shapesTypes (swappedFlag ta h) ta tb = (h.typeA, h.typeB) := by
  unfold specHandler at hh
  cases hf : firstReg hist ta tb with
  | none => rw [hf] at hh; simp at hh
  | some i =>
    obtain ⟨_, p, hp, hor⟩ := firstReg_lt hf
    rw [hf] at hh
    simp only [Option.bind_some, hp, Option.map_some, Option.some.injEq] at hh
    subst hh
    simp only [swappedFlag, shapesTypes] at *
    rcases hor with rfl | rfl
    · simp
    · by_cases he : ta = tb
      · subst he; simp
      · simp [he, hw]

/-- Non-vacuity: two registrations of the same pair in different orders and an unrelated one. -/
example : specHandler [(1#64, 2#64), (2#64, 1#64), (3#64, 4#64)] 2#64 1#64 = some ⟨1#64, 2#64, 0⟩ ∧
    specHandler [(1#64, 2#64), (2#64, 1#64), (3#64, 4#64)] 1#64 4#64 = none ∧
    (⟨1#64, 2#64, 0⟩ : Handler).typeA ≠ wildcardType := by decide

/-! ## C05 -/

/-- **C05**: rejection does not depend on the order of the shapes. -/
theorem C05_symm (a b : ShapeFilter) : a.reject b = b.reject a := by
  unfold ShapeFilter.reject
  rw [Bool.eq_iff_iff]
  simp only [Bool.or_eq_true, Bool.and_eq_true, decide_eq_true_eq]
  constructor
  · rintro ((⟨h1, h2⟩ | h) | h)
    · exact Or.inl (Or.inl ⟨h2 ▸ h1, h2.symm⟩)
    · exact Or.inr h
    · exact Or.inl (Or.inr h)
  · rintro ((⟨h1, h2⟩ | h) | h)
    · exact Or.inl (Or.inl ⟨h2 ▸ h1, h2.symm⟩)
    · exact Or.inr h
    · exact Or.inl (Or.inr h)

theorem and_ne_zero_iff (x y : Word) : x &&& y ≠ 0#64 ↔ ∃ i, x.getLsbD i = true ∧ y.getLsbD i = true := by
  constructor
  · intro h
    by_contra hc
    push Not at hc
    apply h
    apply BitVec.eq_of_getLsbD_eq
    intro i _
    have := hc i
    cases hx : x.getLsbD i <;> cases hy : y.getLsbD i <;> simp_all
  · rintro ⟨i, h1, h2⟩ hz
    have : (x &&& y).getLsbD i = (0#64 : Word).getLsbD i := by rw [hz]
    simp [h1, h2] at this

/-- **C05**: two filters let a collision happen exactly when they are not in the same non-zero group and each
one's categories have a bit in common with the other's mask. -/
theorem C05_reject (a b : ShapeFilter) :
    a.reject b = false ↔
      ¬ (a.group ≠ 0#64 ∧ a.group = b.group) ∧
      (∃ i, a.categories.getLsbD i = true ∧ b.mask.getLsbD i = true) ∧
      (∃ i, b.categories.getLsbD i = true ∧ a.mask.getLsbD i = true) := by
  rw [← and_ne_zero_iff, ← and_ne_zero_iff]
  unfold ShapeFilter.reject
  simp only [Bool.or_eq_false_iff, Bool.and_eq_false_iff, decide_eq_false_iff_not]
  tauto

/-- **C05**: shapes of one non-zero group never collide. -/
theorem C05_group (a b : ShapeFilter) (h : a.group = b.group) (h0 : a.group ≠ 0#64) :
    a.reject b = true := by
  unfold ShapeFilter.reject
  have h0' : b.group ≠ 0#64 := h ▸ h0
  simp [h, h0']

/-- **C05**: `SHAPE_FILTER_NONE` collides with nothing; `SHAPE_FILTER_ALL` collides with everything that has at least one
category and one mask bit. -/
theorem C05_all_none (f : ShapeFilter) :
    ShapeFilter.none.reject f = true ∧
    (ShapeFilter.all.reject f = false ↔ f.categories ≠ 0#64 ∧ f.mask ≠ 0#64) := by
  constructor
  · simp [ShapeFilter.none, ShapeFilter.reject]
  · unfold ShapeFilter.reject ShapeFilter.all
    simp only [BitVec.allOnes_and, BitVec.and_allOnes]
    simp [and_comm]

example : (⟨0#64, 1#64, 2#64⟩ : ShapeFilter).reject ⟨0#64, 2#64, 1#64⟩ = false ∧
    (⟨5#64, 1#64, 3#64⟩ : ShapeFilter).reject ⟨5#64, 1#64, 3#64⟩ = true := by decide

end CP
