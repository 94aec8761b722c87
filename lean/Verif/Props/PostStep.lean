import Verif.Model.PostStep

/-! # C22: post-step callbacks -/

namespace CP

/-- The number of locks held after a script, `none` if a lock is released that is not held. -/
def pDepth : Nat → List PCmd → Option Nat
  | d, [] => some d
  | d, .lock :: l => pDepth (d + 1) l
  | 0, .unlock _ :: _ => none
  | d + 1, .unlock _ :: l => pDepth d l
  | d, .add _ _ _ :: l => pDepth d l

/-- Callbacks release the locks they take, and only those. -/
def Balanced (body : List PCmd) : Prop := pDepth 0 body = some 0
/-- All callbacks of a script are balanced. -/
def AllBalanced (script : List PCmd) : Prop := ∀ k i b, PCmd.add k i b ∈ script → Balanced b

theorem pDepth_cons (d : Nat) (o : PCmd) (l : List PCmd) : pDepth d (o :: l) = (pDepth d [o]).bind (pDepth · l) := by
  cases o <;> cases d <;> simp [pDepth]

/-- What a callback does: it runs to its end, its registrations are appended, nothing is called. -/
theorem inner_run (n : Nat) : ∀ (l : List PCmd) (s : PState) (d : Nat), s.skip = true → pDepth s.locked l = some d →
    ∃ t, l.foldlM (PState.exec (n + 1)) s = some t ∧ t.skip = true ∧ t.locked = d ∧ t.log = s.log ∧
      (∃ q, t.queue = s.queue ++ q) ∧ ∃ a : List Nat, t.accepted = s.accepted ++ a.map fun i => (i, true)
  | [], s, d, hs, hd => ⟨s, rfl, hs, by simpa [pDepth] using hd, rfl, ⟨[], by simp⟩, ⟨[], by simp⟩⟩
  | o :: l, s, d, hs, hd => by
    rw [pDepth_cons] at hd
    obtain ⟨d1, e1, e2⟩ := Option.bind_eq_some_iff.1 hd
    have one : ∃ t, PState.exec (n + 1) s o = some t ∧ t.skip = true ∧ t.locked = d1 ∧ t.log = s.log ∧
        (∃ q, t.queue = s.queue ++ q) ∧ ∃ a : List Nat, t.accepted = s.accepted ++ a.map fun i => (i, true) := by
      cases o with
      | lock => exact ⟨_, rfl, hs, by simpa [pDepth] using e1, rfl, ⟨[], by simp⟩, ⟨[], by simp⟩⟩
      | add k i b =>
        refine ⟨_, rfl, ?_⟩
        have hl : s.locked = d1 := by simpa [pDepth] using e1
        simp only [PState.add]
        split_ifs
        · exact ⟨hs, hl, rfl, ⟨_, rfl⟩, ⟨[i], by simp [hs]⟩⟩
        · exact ⟨hs, hl, rfl, ⟨[], by simp⟩, ⟨[], by simp⟩⟩
      | unlock r =>
        cases hl : s.locked with
        | zero => rw [hl] at e1; simp [pDepth] at e1
        | succ k =>
          rw [hl] at e1
          have hk : k = d1 := by simpa [pDepth] using e1
          refine ⟨{ s with locked := k }, ?_, hs, hk, rfl, ⟨[], by simp⟩, ⟨[], by simp⟩⟩
          simp [PState.exec, hl, hs]
    obtain ⟨u, f1, f2, f3, f4, ⟨q, f5⟩, ⟨a, f6⟩⟩ := one
    obtain ⟨t, g1, g2, g3, g4, ⟨q', g5⟩, ⟨a', g6⟩⟩ := inner_run n l u d f2 (by rw [f3]; exact e2)
    exact ⟨t, by rw [List.foldlM_cons, f1]; exact g1, g2, g3, g4.trans f4, ⟨q ++ q', by rw [g5, f5]; simp⟩,
      ⟨a ++ a', by rw [g6, f6]; simp⟩⟩

/-- The loop of `Unlock` calls every function that was pending at its start, in order. -/
theorem postLoop_run (n : Nat) : ∀ (rest done : List PEntry) (s : PState) (extra : List PEntry), s.skip = true → s.locked = 0 →
    s.queue = done ++ rest ++ extra → (∀ e ∈ rest, ∃ b, e.body = some b ∧ Balanced b) →
    ∃ t, postLoop (fun b s => b.foldlM (PState.exec (n + 1)) s) rest.length done.length s = some t ∧ t.locked = 0 ∧
      t.log = s.log ++ rest.map PEntry.id ∧ ∃ a : List Nat, t.accepted = s.accepted ++ a.map fun i => (i, true)
  | [], done, s, extra, hs, hl, hq, hb => ⟨s, rfl, hl, by simp, ⟨[], by simp⟩⟩
  | e :: rest, done, s, extra, hs, hl, hq, hb => by
    obtain ⟨b, eb, hbal⟩ := hb e (by simp)
    have hget : s.queue[done.length]? = some e := by rw [hq]; simp
    have hset : s.queue.set done.length { e with body := none } = (done ++ [{ e with body := none }]) ++ rest ++ extra := by
      rw [hq]; simp [List.set_append_right]
    obtain ⟨u, f1, f2, f3, f4, ⟨q, f5⟩, ⟨a, f6⟩⟩ := inner_run n b
      { s with queue := s.queue.set done.length { e with body := none }, log := s.log ++ [e.id] } 0 hs (by
        show pDepth s.locked b = some 0
        rw [hl]; exact hbal)
    obtain ⟨t, g1, g2, g3, ⟨a', g4⟩⟩ := postLoop_run n rest (done ++ [{ e with body := none }]) u (extra ++ q) f2 f3
      (by rw [f5]; show s.queue.set done.length { e with body := none } ++ q = _; rw [hset]; simp)
      (fun e' he' => hb e' (by simp [he']))
    refine ⟨t, ?_, g2, ?_, ⟨a ++ a', by rw [g4, f6]; simp⟩⟩
    · rw [List.length_cons, postLoop, hget]
      simp only [Option.bind_eq_bind, Option.bind_some, eb]
      rw [f1]
      simpa using g1
    · rw [g3, f4]; simp

/-- The invariant of a program between commands. -/
structure PInv (s : PState) : Prop where
  skip : s.skip = false
  bodies : ∀ e ∈ s.queue, ∃ b, e.body = some b ∧ Balanced b
  once : s.log ++ s.queue.map PEntry.id = (s.accepted.filter fun p => !p.2).map Prod.fst
  keys : s.queue.Pairwise fun d e => d.key = none ∨ d.key ≠ e.key

theorem PInv.init : PInv {} := ⟨rfl, by simp, by simp, by simp⟩

/-- `Unlock(true)`. -/
def PCmd.enabled : PCmd → Bool
  | .unlock r => r
  | _ => false

/-- A lock is released that is held. -/
def PState.legal (s : PState) : PCmd → Prop
  | .unlock _ => s.locked ≠ 0
  | .add _ _ b => Balanced b
  | .lock => True

theorem exec_inv (n : Nat) {s : PState} (h : PInv s) (o : PCmd) (ok : s.legal o) :
    ∃ t, PState.exec (n + 2) s o = some t ∧ PInv t ∧ pDepth s.locked [o] = some t.locked ∧
      (if s.locked = 1 ∧ o.enabled = true then t.queue = [] ∧ t.log = s.log ++ s.queue.map PEntry.id
      else t.log = s.log ∧ s.queue <+: t.queue) := by
  cases o with
  | lock => exact ⟨_, rfl, ⟨h.skip, h.bodies, h.once, h.keys⟩, by simp [pDepth], by simp [PCmd.enabled]⟩
  | add k i b =>
    refine ⟨_, rfl, ?_, ?_, ?_⟩
    · simp only [PState.add]
      split_ifs with ha
      · refine ⟨h.skip, fun e he => ?_, ?_, ?_⟩
        · rcases List.mem_append.1 he with q | q
          · exact h.bodies e q
          · obtain rfl := List.mem_singleton.1 q
            exact ⟨b, rfl, ok⟩
        · have := h.once
          simp only [List.map_append, List.filter_append, h.skip, List.map_cons, List.map_nil]
          rw [← List.append_assoc, this]; simp
        · rw [List.pairwise_append]
          refine ⟨h.keys, by simp, fun d hd e he => ?_⟩
          obtain rfl := List.mem_singleton.1 he
          cases hk : k with
          | none => simp; cases hdk : d.key <;> simp
          | some k' =>
            right
            rw [hk] at ha
            simp only [PState.answer, PState.pending, Bool.not_eq_true', List.any_eq_false, beq_iff_eq] at ha
            exact ha d hd
      · exact h
    · simp only [PState.add]; split_ifs <;> simp [pDepth]
    · simp only [PState.add]; split_ifs <;> simp_all [PCmd.enabled]
  | unlock r =>
    obtain ⟨k, hk⟩ := Nat.exists_eq_succ_of_ne_zero ok
    by_cases h0 : k = 0
    · subst h0
      cases r with
      | false =>
        refine ⟨{ s with locked := 0 }, by simp [PState.exec, hk], ⟨h.skip, h.bodies, h.once, h.keys⟩, by simp [hk, pDepth], by simp [PCmd.enabled]⟩
      | true =>
        obtain ⟨t, e, tl, tlog, ⟨a, ta⟩⟩ := postLoop_run n s.queue [] { s with locked := 0, skip := true } [] rfl rfl (by simp) h.bodies
        refine ⟨{ t with queue := [], skip := false }, ?_, ⟨rfl, by simp, ?_, by simp⟩, by simp [hk, pDepth, tl], ?_⟩
        · simp only [PState.exec, hk, h.skip]
          simp only [List.length_nil] at e
          simp [e]
        · simp only [List.map_nil, List.append_nil]
          rw [tlog, ta]
          simp only [List.filter_append, List.map_append]
          rw [h.once]
          have : (a.map fun i => (i, true)).filter (fun p : Nat × Bool => !p.2) = [] := by
            rw [List.filter_eq_nil_iff]; simp
          rw [this]; simp
        · rw [if_pos ⟨by omega, rfl⟩]; exact ⟨rfl, tlog⟩
    · refine ⟨{ s with locked := k }, ?_, ⟨h.skip, h.bodies, h.once, h.keys⟩, by simp [hk, pDepth], ?_⟩
      · have hk' : s.locked ≠ 0 := by omega
        simp only [PState.exec, hk, Nat.succ_eq_add_one, Nat.add_sub_cancel]
        rw [if_neg (by omega), if_pos h0]
      · rw [if_neg (by omega)]; simp

/-- A program that never releases a lock it does not hold, with balanced callbacks. -/
theorem run_inv (n : Nat) : ∀ (script : List PCmd) {s : PState} {d : Nat}, PInv s → AllBalanced script →
    pDepth s.locked script = some d → ∃ t, s.run (n + 2) script = some t ∧ PInv t ∧ t.locked = d
  | [], s, d, h, _, hd => ⟨s, rfl, h, by simpa [pDepth] using hd⟩
  | o :: l, s, d, h, hb, hd => by
    rw [pDepth_cons] at hd
    obtain ⟨d1, e1, e2⟩ := Option.bind_eq_some_iff.1 hd
    have ok : s.legal o := by
      cases o with
      | lock => trivial
      | add k i b => exact hb k i b (by simp)
      | unlock r => intro q; simp [q, pDepth] at e1
    obtain ⟨u, f1, f2, f3, -⟩ := exec_inv n h o ok
    rw [e1] at f3
    obtain rfl := Option.some.inj f3
    obtain ⟨t, g1, g2, g3⟩ := run_inv n l f2 (fun k i b hm => hb k i b (by simp [hm])) e2
    exact ⟨t, by simp only [PState.run, List.foldlM_cons, f1]; exact g1, g2, g3⟩

/-- A state reached by a program. -/
def PReach (t : PState) : Prop := ∃ script d, AllBalanced script ∧ pDepth 0 script = some d ∧
  PState.run 2 {} script = some t

theorem PReach.inv {t : PState} (h : PReach t) : PInv t := by
  obtain ⟨script, d, h1, h2, h3⟩ := h
  obtain ⟨t', e, i, -⟩ := run_inv 0 script PInv.init h1 h2
  rw [h3] at e
  obtain rfl := Option.some.inj e
  exact i

/-- Every program that holds the locks it releases runs to its end (no panic, no unbounded nesting). -/
theorem C22_no_panic (script : List PCmd) (d : Nat) (h1 : AllBalanced script) (h2 : pDepth 0 script = some d) :
    ∃ t, PState.run 2 {} script = some t ∧ t.locked = d := by
  obtain ⟨t, e, -, h⟩ := run_inv 0 script PInv.init h1 h2
  exact ⟨t, e, h⟩

/-- Exactly once, in order: at any time the functions called so far followed by those still pending are exactly the
registrations answered with true, in the order of registration — counting the registrations made outside of post-step
callbacks. (Those made inside are never called: `C22_inside_lost`.) -/
theorem C22_exactly_once {t : PState} (h : PReach t) :
    t.log ++ t.queue.map PEntry.id = (t.accepted.filter fun p => !p.2).map Prod.fst := h.inv.once

/-- When: releasing the outermost lock with callbacks enabled calls everything pending and leaves nothing pending; no
other command calls anything or forgets anything pending. -/
theorem C22_when {s : PState} (h : PReach s) (o : PCmd) (ok : s.legal o) : ∃ t, PState.exec 2 s o = some t ∧
    (if s.locked = 1 ∧ o.enabled = true then t.queue = [] ∧ t.log = s.log ++ s.queue.map PEntry.id
      else t.log = s.log ∧ s.queue <+: t.queue) := by
  obtain ⟨t, e, -, -, q⟩ := exec_inv 0 h.inv o ok
  exact ⟨t, e, q⟩

/-- At most one pending callback per non-nil key; a registration is refused exactly if its key is pending. -/
theorem C22_keys {s : PState} (h : PReach s) :
    (s.queue.Pairwise fun d e => d.key = none ∨ d.key ≠ e.key) ∧
    (∀ k, s.answer (some k) = false ↔ ∃ e ∈ s.queue, e.key = some k) ∧ s.answer none = true := by
  refine ⟨h.inv.keys, fun k => ?_, rfl⟩
  simp [PState.answer, PState.pending]

/-- Registrations from inside of a callback are answered with true and never called: a callback 1 that registers
callback 2, and two more releases of the lock. -/
theorem C22_inside_lost : ∃ t, PReach t ∧ (2, true) ∈ t.accepted ∧ 2 ∉ t.log ∧ t.queue = [] ∧ t.log = [1] := by
  refine ⟨⟨0, false, [], [1], [(1, false), (2, true)]⟩,
    ⟨[.lock, .add (some 7) 1 [.add none 2 []], .unlock true, .lock, .unlock true], 0, ?_, rfl, rfl⟩, by simp⟩
  intro k i b hm
  simp only [List.mem_cons, PCmd.add.injEq, List.not_mem_nil, or_false, reduceCtorEq, false_or] at hm
  obtain ⟨-, -, rfl⟩ := hm
  rfl

/-- A program with nested locks, a key used twice, and a callback that itself uses a query. -/
example : AllBalanced [.lock, .add (some 1) 10 [.lock, .unlock true], .lock, .add (some 1) 11 [], .add none 12 [], .unlock true,
      .unlock false, .lock, .unlock true] ∧
    (PState.run 2 {} [.lock, .add (some 1) 10 [.lock, .unlock true], .lock, .add (some 1) 11 [], .add none 12 [], .unlock true,
      .unlock false, .lock, .unlock true]).map PState.log = some [10, 12] := by
  refine ⟨?_, rfl⟩
  intro k i b hm
  simp only [List.mem_cons, PCmd.add.injEq, List.not_mem_nil, or_false, reduceCtorEq, false_or] at hm
  rcases hm with ⟨-, -, rfl⟩ | ⟨-, -, rfl⟩ | ⟨-, -, rfl⟩ <;> rfl

end CP
