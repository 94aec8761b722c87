import Verif.Proofs.Dispatch

/-! # C51: which collision callbacks run, and what they are told -/

namespace CP
open Cb

/-- What `Arbiter.Update` leaves in the arbiter. -/
theorem Cb.update_ok {old : List Op} (hp : Proper old) {s : Sys} (hs : Is old s) (arb : ArbH) (a b : Shp)
    (ha : a.type ≠ wildcardType) (hb : b.type ≠ wildcardType) :
    ∃ arb1, s.update arb a b = some arb1 ∧ arb1.a = a ∧ arb1.b = b ∧
      ((∃ h, specHandler (regs old) a.type b.type = some h ∧ arb1.handler = some (.reg h) ∧
          arb1.shapes = inOrder h a b ∧ Tied old arb1) ∨
        (specHandler (regs old) a.type b.type = none ∧ arb1.handler = some .default ∧ arb1.shapes = (a, b) ∧
          Tied old arb1) ∨
        (specHandler (regs old) a.type b.type = none ∧ arb1.handler = some .doNothing ∧
          specHandler (regs old) a.type wildcardType = none ∧ specHandler (regs old) b.type wildcardType = none)) := by
  simp only [Sys.update, lookup_is hp hs, Option.bind_eq_bind, Option.bind_some]
  cases hh : specHandler (regs old) a.type b.type with
  | some h =>
    obtain ⟨h1, h2, h3⟩ := specHandler_some hh
    have hA : h.typeA ≠ wildcardType := (hp.types _ (List.mem_of_getElem? h1)).1
    have hr : refOf old a.type b.type s.dflt = .reg h := by unfold refOf; rw [hh]
    have hne : Ref.reg h ≠ s.dflt := by unfold Sys.dflt; split <;> simp
    simp only [hr, Ref.typeA, if_pos (Or.inl hne : Ref.reg h ≠ s.dflt ∨ s.wild = true)]
    by_cases ht : a.type = h.typeA
    · simp only [ht, ne_eq, not_true_eq_false, decide_false, Bool.false_and, Bool.false_eq_true, if_false]
      refine ⟨_, rfl, rfl, rfl, Or.inl ⟨h, rfl, rfl, ?_, ?_⟩⟩
      · simp [ArbH.shapes, inOrder, ht]
      · exact ⟨ha, hb, by simp [ArbH.shapes, ht], by simp [ArbH.shapes]⟩
    · have hd : (decide (a.type ≠ h.typeA) && decide (h.typeA ≠ wildcardType)) = true := by simp [ht, hA]
      simp only [hd, if_true]
      refine ⟨_, rfl, rfl, rfl, Or.inl ⟨h, rfl, rfl, ?_, ?_⟩⟩
      · simp [ArbH.shapes, inOrder, ht]
      · exact ⟨hb, ha, by simp [ArbH.shapes], by simp [ArbH.shapes]⟩
  | none =>
    have hr : refOf old a.type b.type s.dflt = s.dflt := by unfold refOf; rw [hh]
    have hw : s.dflt.typeA = wildcardType := by unfold Sys.dflt; split <;> rfl
    have hd : (decide (a.type ≠ s.dflt.typeA) && decide (s.dflt.typeA ≠ wildcardType)) = false := by simp [hw]
    simp only [hr, hd, Bool.false_eq_true, if_false]
    by_cases hwild : s.wild = true
    · rw [if_pos (Or.inr hwild)]
      refine ⟨_, rfl, rfl, rfl, Or.inr (Or.inl ⟨trivial, ?_, ?_, ?_⟩)⟩
      · simp [Sys.dflt, hwild]
      · simp [ArbH.shapes]
      · exact ⟨ha, hb, by simp [ArbH.shapes], by simp [ArbH.shapes]⟩
    · rw [if_neg (by simp [hwild])]
      have hno : ∀ t, t ≠ wildcardType → specHandler (regs old) t wildcardType = none := by
        intro t _
        by_contra hc
        obtain ⟨w, hw⟩ := Option.ne_none_iff_exists'.mp hc
        obtain ⟨h1, _, h3⟩ := specHandler_some hw
        have := hp.types _ (List.mem_of_getElem? h1)
        rcases h3 with h3 | h3
        · exact hwild (hs.wild.mpr (this.2 h3.2))
        · exact this.1 h3.1
      refine ⟨_, rfl, rfl, rfl, Or.inr (Or.inr ⟨trivial, ?_, hno _ ha, hno _ hb⟩)⟩
      simp [Sys.dflt, hwild]

/-- **C51**: take any proper history of handler registrations and assignments to handler fields, `old` up to the last
step in which two shapes touched and `more` since. Whatever the arbiter held before, and whatever user functions do,
each callback of the pair calls exactly the user functions `expected` lists, in that order, in the order of shapes and
with the data it lists, gives the answer `expected` gives, leaves the arbiter as it was, and neither dereferences nil
nor recurses without end. -/
theorem C51_dispatch (old more : List Op) (hp : Proper (old ++ more)) (U : Call → List Call → Prog) (hU : Leafy U)
    (a b : Shp) (ha : a.type ≠ wildcardType) (hb : b.type ≠ wildcardType) :
    ∃ s0 s, Sys.run old = some s0 ∧ Sys.run (old ++ more) = some s ∧
      ∀ arb, ∃ arb1, s0.update arb a b = some arb1 ∧ arb1.a = a ∧ arb1.b = b ∧
        ∀ n k log, fire U s (n + 2) k arb1 log =
          some ((expected U old (old ++ more) k a b log).1, arb1, (expected U old (old ++ more) k a b log).2) := by
  obtain ⟨s0, hs0, hi0⟩ := run_is old hp.pre
  obtain ⟨s, hs, hi⟩ := run_is (old ++ more) hp
  refine ⟨s0, s, hs0, hs, fun arb => ?_⟩
  obtain ⟨arb1, hu, h1, h2, h3⟩ := update_ok hp.pre hi0 arb a b ha hb
  refine ⟨arb1, hu, h1, h2, fun n k log => ?_⟩
  rcases h3 with ⟨h, hh, hr, hsh, ht⟩ | ⟨hh, hr, hsh, ht⟩ | ⟨hh, hr, hna, hnb⟩
  · obtain ⟨f1, f2⟩ := fields_reg hp hi hh
    have hB : h.typeB ≠ wildcardType := by
      rcases (specHandler_some hh).2.2 with h3 | h3
      · rw [h3.2]; exact hb
      · rw [h3.2]; exact ha
    have e1 : (inOrder h a b).1 = arb1.shapes.1 := by rw [hsh]
    have e2 : (inOrder h a b).2 = arb1.shapes.2 := by rw [hsh]
    unfold expected fire
    rw [hr, hh]
    simp only [Option.bind_eq_bind, Option.bind_some, e1, e2]
    cases hl : lastFn (old ++ more) h.id k with
    | none =>
      refine both_ok hp hi hU n k _ _ ht log ?_
      rw [f1 k, hl]; simp [hB]
    | some f =>
      rw [invoke, f1 k, hl]
      simp only
      have hd : s.payload k (.reg h) =
          if k = .postSolve then .handler (.reg h) else .user (lastData (old ++ more) h.id) := by
        cases k <;> simp [Sys.payload, f2]
      rw [hd]
      exact prog_ok hp hi hU n ht _ _
  · unfold expected fire
    rw [hr, hh]
    simp only [Option.bind_eq_bind, Option.bind_some]
    have := both_ok hp hi hU n k .default (s.payload k .default) ht log (by cases k <;> rfl)
    rw [hsh] at this
    exact this
  · unfold expected fire
    rw [hr, hh]
    simp only [Option.bind_eq_bind, Option.bind_some, askBoth_none U k a b log hna hnb]
    cases k <;> rfl

/-- **C51** (the pair's own function): if the handler of the pair has a function for this kind of callback, that function
is called first, with the shape of the handler's first type first and with the handler's user data (PostSolve: with
the handler itself); when it makes no `CallWildcard…` calls nothing else is called and its answer is the answer. -/
theorem C51_own (old more : List Op) (U : Call → List Call → Prog) (k : EvKind) (a b : Shp)
    (log : List Call) (h : Handler) (hh : specHandler (regs old) a.type b.type = some h) (f : Nat)
    (hf : lastFn (old ++ more) h.id k = some f) :
    ∃ c rest, (expected U old (old ++ more) k a b log).2 = log ++ c :: rest ∧ c.fn = f ∧ c.kind = k ∧
      (c.first.type, c.second.type) = (h.typeA, h.typeB) ∧ ((c.first, c.second) = (a, b) ∨ (c.first, c.second) = (b, a)) ∧
      (k ≠ .postSolve → c.data = .user (lastData (old ++ more) h.id)) ∧
      (k = .postSolve → c.data = .handler (.reg h)) ∧
      ∀ r, U c log = .done r → rest = [] ∧ (expected U old (old ++ more) k a b log).1 = r := by
  unfold expected
  rw [hh]
  simp only [hf]
  obtain ⟨c, hc⟩ : ∃ c : Call, c = ⟨f, .reg h, k, (inOrder h a b).1, (inOrder h a b).2,
    if k = .postSolve then .handler (.reg h) else .user (lastData (old ++ more) h.id)⟩ := ⟨_, rfl⟩
  have hfol : ∀ p l, ∃ rest, (follow U old (old ++ more) (inOrder h a b).1 (inOrder h a b).2 p l).2 = l ++ rest := by
    have haw : ∀ k x y l, ∃ rest, (askWild U old (old ++ more) k x y l).2 = l ++ rest := by
      intro k x y l
      unfold askWild
      split
      · exact ⟨[], by simp⟩
      · split
        · exact ⟨[], by simp⟩
        · simp only
          split <;> exact ⟨_, rfl⟩
    intro p
    induction p with
    | done r => intro l; exact ⟨[], by simp [follow]⟩
    | callA k next ih =>
      intro l
      obtain ⟨r1, h1⟩ := haw k (inOrder h a b).1 (inOrder h a b).2 l
      obtain ⟨r2, h2⟩ := ih (askWild U old (old ++ more) k (inOrder h a b).1 (inOrder h a b).2 l).1
        (askWild U old (old ++ more) k (inOrder h a b).1 (inOrder h a b).2 l).2
      exact ⟨r1 ++ r2, by simp only [follow]; rw [h2, h1, List.append_assoc]⟩
    | callB k next ih =>
      intro l
      obtain ⟨r1, h1⟩ := haw k (inOrder h a b).2 (inOrder h a b).1 l
      obtain ⟨r2, h2⟩ := ih (askWild U old (old ++ more) k (inOrder h a b).2 (inOrder h a b).1 l).1
        (askWild U old (old ++ more) k (inOrder h a b).2 (inOrder h a b).1 l).2
      exact ⟨r1 ++ r2, by simp only [follow]; rw [h2, h1, List.append_assoc]⟩
  rw [← hc]
  obtain ⟨rest, hrest⟩ := hfol (U c log) (log ++ [c])
  refine ⟨c, rest, by rw [hrest]; simp, by rw [hc], by rw [hc], ?_, ?_, ?_, ?_, ?_⟩
  · obtain ⟨_, _, h3⟩ := specHandler_some hh
    rw [hc]
    unfold inOrder
    rcases h3 with ⟨h3, h4⟩ | ⟨h3, h4⟩
    · simp [h3, h4]
    · by_cases he : a.type = h.typeA
      · rw [if_pos he]; exact Prod.ext he (h3.symm.trans (he.symm.trans h4.symm))
      · rw [if_neg he]; exact Prod.ext h3.symm h4.symm
  · rw [hc]; unfold inOrder; split <;> simp
  · intro hk; rw [hc]; simp [hk]
  · intro hk; rw [hc]; simp [hk]
  · intro r hr
    rw [hr] at hrest ⊢
    simp only [follow] at hrest ⊢
    exact ⟨by simpa using hrest.symm, trivial⟩

/-- **C51** (wildcards): if the pair has no function of its own for this kind of callback and both types have wildcard
functions, then for PostSolve and Separate both are called, each with the shape of its own type first and its own user
data; for Begin and PreSolve the second one is called only if the first answers yes, and the answer is yes only if both
say so. The type asked first is the pair handler's first type, or without a pair handler the type of the first shape. -/
theorem C51_wild (old more : List Op) (U : Call → List Call → Prog) (hU : Leafy U) (hp : Proper old) (k : EvKind)
    (a b : Shp) (log : List Call) (x y : Shp)
    (hxy : match specHandler (regs old) a.type b.type with
      | none => x = a ∧ y = b
      | some h => (x, y) = inOrder h a b ∧ lastFn (old ++ more) h.id k = none)
    (v w : Handler) (hv : specHandler (regs old) x.type wildcardType = some v)
    (hw : specHandler (regs old) y.type wildcardType = some w) (hx : x.type ≠ wildcardType)
    (hy : y.type ≠ wildcardType) (f g : Nat)
    (hf : lastFn (old ++ more) v.id k = some f) (hg : lastFn (old ++ more) w.id k = some g) :
    let c : Call := ⟨f, .reg v, k, x, y, .user (lastData (old ++ more) v.id)⟩
    let d : Call := ⟨g, .reg w, k, y, x, .user (lastData (old ++ more) w.id)⟩
    ∃ r1 r2, U c log = .done r1 ∧ U d (log ++ [c]) = .done r2 ∧
      ((k = .postSolve ∨ k = .separate) → (expected U old (old ++ more) k a b log).2 = log ++ [c, d]) ∧
      ((k = .begin ∨ k = .preSolve) → expected U old (old ++ more) k a b log =
        if r1 = true then (r2, log ++ [c, d]) else (false, log ++ [c])) := by
  intro c d
  have hB : ∀ t u, t ≠ wildcardType → specHandler (regs old) t wildcardType = some u → u.typeB = wildcardType := by
    intro t u ht hu
    obtain ⟨h1, h2, h3⟩ := specHandler_some hu
    rcases h3 with h3 | h3
    · exact h3.2
    · exact absurd h3.1 (hp.types _ (List.mem_of_getElem? h1)).1
  obtain ⟨r1, h1⟩ := hU c log v rfl (hB _ _ hx hv)
  obtain ⟨r2, h2⟩ := hU d (log ++ [c]) w rfl (hB _ _ hy hw)
  have e1 : askWild U old (old ++ more) k x y log = (r1, log ++ [c]) := by
    unfold askWild; rw [hv]; simp only [hf]; show (match U c log with | _ => _) = _; rw [h1]
  have e2 : askWild U old (old ++ more) k y x (log ++ [c]) = (r2, log ++ [c, d]) := by
    unfold askWild; rw [hw]; simp only [hg]; show (match U d (log ++ [c]) with | _ => _) = _; rw [h2]; simp [d]
  have e3 : expected U old (old ++ more) k a b log = askBoth U old (old ++ more) k x y log := by
    unfold expected
    cases hs : specHandler (regs old) a.type b.type with
    | none => rw [hs] at hxy; rw [hxy.1, hxy.2]
    | some h => rw [hs] at hxy; simp only [hxy.2, ← hxy.1]
  refine ⟨r1, r2, h1, h2, ?_, ?_⟩
  · rintro (rfl | rfl) <;> rw [e3] <;> unfold askBoth <;> rw [e1] <;> simp [e2]
  · rintro (rfl | rfl) <;> rw [e3] <;> unfold askBoth <;> rw [e1] <;> cases r1 <;> simp [e2]

/-- **C51** (no handler at all): a pair for whose types nothing was registered makes no calls and every answer is yes. -/
theorem C51_silent (old more : List Op) (U : Call → List Call → Prog) (k : EvKind) (a b : Shp) (log : List Call)
    (h : specHandler (regs old) a.type b.type = none) (ha : specHandler (regs old) a.type wildcardType = none)
    (hb : specHandler (regs old) b.type wildcardType = none) :
    expected U old (old ++ more) k a b log = (true, log) := by
  unfold expected
  rw [h]
  exact askBoth_none U k a b log ha hb

/-- The documentation of `UserData` ("passed to all of the collision handler functions") fails for PostSolve: the
function gets the handler instead. -/
theorem C51_userdata_violated : ∃ (hist : List Op) (a b : Shp) (h : Handler) (d : Nat), Proper hist ∧
    specHandler (regs hist) a.type b.type = some h ∧ lastData hist h.id = some d ∧
    ∀ U : Call → List Call → Prog, (∀ c log, U c log = .done true) →
      (expected U hist (hist ++ []) .postSolve a b []).2 = [⟨7, .reg h, .postSolve, a, b, .handler (.reg h)⟩] := by
  refine ⟨[.handler 1#64 2#64, .data 0 5, .fn 0 .postSolve 7], ⟨10, 1#64⟩, ⟨11, 2#64⟩, ⟨1#64, 2#64, 0⟩, 5, ?_, by decide,
    by decide, ?_⟩
  · refine ⟨?_, by decide⟩
    intro before o after he
    match before, he with
    | [], he => cases he; exact ⟨by decide, by decide⟩
    | [_], he => cases he; exact (by decide : 0 < 1)
    | [_, _], he => cases he; exact (by decide : 0 < 1)
    | _ :: _ :: _ :: _, he => simp at he
  · intro U hU
    unfold expected
    rw [show specHandler (regs [.handler 1#64 2#64, .data 0 5, .fn 0 .postSolve 7]) 1#64 2#64 =
      some ⟨1#64, 2#64, 0⟩ by decide]
    simp only [show lastFn ([.handler 1#64 2#64, .data 0 5, .fn 0 .postSolve 7] ++ []) 0 .postSolve = some 7 by decide, hU,
      follow]
    decide

/-- A handler whose function is the default one and which is the wildcard handler of the first shape calls itself
without end. -/
theorem Cb.invoke_loop (U : Call → List Call → Prog) (s : Sys) (k : EvKind) (r : Ref) (arb : ArbH)
    (hA : arb.handlerA = some r) (hr : (s.fields r).fn k = .default) (n : Nat) (data : Data) (log : List Call) :
    invoke U s n k r data arb log = none := by
  induction n generalizing data log with
  | zero => rfl
  | succ n ih =>
    rw [invoke, hr]
    simp only [wildA, hA, Option.bind_eq_bind, Option.bind_some, ih, Option.bind_none]

/-- If `NewCollisionHandler` is given the wildcard type, a collision recurses without end: after
`NewCollisionHandler(1, WILDCARD)` and `NewWildcardCollisionHandler(2)` the Begin callback of shapes of types 1 and 3
never returns (in Go: stack overflow). -/
theorem C51_wildcard_loop (U : Call → List Call → Prog) :
    ∃ s, Sys.run [.handler 1#64 wildcardType, .wildcard 2#64] = some s ∧
      ∀ arb i j, ∃ arb1, s.update arb ⟨i, 1#64⟩ ⟨j, 3#64⟩ = some arb1 ∧ ∀ fuel log, fire U s fuel .begin arb1 log = none := by
  obtain ⟨s0, h0, _⟩ := HashSet.inv_new (U := Handler) handlerClient
  have hr0 : HandlerTable.run [] = some ⟨s0, 0⟩ := by simp [HandlerTable.run, h0]
  obtain ⟨t1, x1, e1, r1, n1⟩ := register_is (by decide) hr0 1#64 wildcardType
  obtain ⟨t2, x2, e2, r2, n2⟩ := register_is (by decide) r1 2#64 wildcardType
  obtain ⟨t, ht, hl, _⟩ := C04_handlers [(1#64, wildcardType), (2#64, wildcardType)] (by decide)
  obtain rfl : t = t2 := by rw [show [(1#64, wildcardType), (2#64, wildcardType)] = [] ++ [(1#64, wildcardType)] ++
    [(2#64, wildcardType)] from rfl, r2] at ht; exact (Option.some.inj ht).symm
  refine ⟨⟨t, Function.update (Function.update (fun _ => Slots.doNothing) 0 Slots.default) 1 Slots.doNothing, true⟩, ?_, ?_⟩
  · simp [Sys.run, Sys.new, h0, Sys.op, Sys.newHandler, Sys.newWildcard, e1, e2, n1]
  · intro arb i j
    have l1 : specHandler [(1#64, wildcardType), (2#64, wildcardType)] 1#64 3#64 = none := by decide
    have l2 : specHandler [(1#64, wildcardType), (2#64, wildcardType)] 1#64 wildcardType =
      some ⟨1#64, wildcardType, 0⟩ := by decide
    have l3 : specHandler [(1#64, wildcardType), (2#64, wildcardType)] 3#64 wildcardType = none := by decide
    simp only [Sys.update, Sys.lookup, hl, l1, l2, l3, Option.map_some, Option.bind_eq_bind, Option.bind_some, Sys.dflt,
      if_true, Ref.typeA, ne_eq, not_true_eq_false, decide_false, Bool.and_false, or_true, Bool.false_eq_true, if_false]
    refine ⟨_, rfl, fun fuel log => ?_⟩
    simp only [fire, Option.bind_eq_bind, Option.bind_some]
    cases fuel with
    | zero => rfl
    | succ n =>
      rw [invoke]
      simp only [Sys.fields, Slots.fn, Slots.default, wildA, Option.bind_eq_bind, Option.bind_some]
      rw [invoke_loop U _ .begin (.reg ⟨1#64, wildcardType, 0⟩) _ rfl (by simp [Sys.fields, Slots.fn, Slots.default])]
      rfl

/-- Non-vacuity: types 1 and 2 have a handler (registered as 2, 1) with a PreSolve function that calls both wildcard
handlers, type 1 has a wildcard handler with a Begin and a PreSolve function. -/
def Cb.demo : List Op :=
  [.handler 2#64 1#64, .wildcard 1#64, .fn 0 .preSolve 100, .fn 1 .preSolve 200, .fn 1 .begin 300, .data 1 9,
    .handler 1#64 2#64]

/-- The functions of the demonstration: 100 calls `CallWildcardPreSolveA`, then `CallWildcardPreSolveB`, and answers what the
latter answers. -/
def Cb.demoU : Call → List Call → Prog := fun c _ =>
  if c.fn = 100 ∧ c.handler = .reg ⟨2#64, 1#64, 0⟩ then .callA .preSolve fun _ => .callB .preSolve fun r => .done r else .done (c.fn == 300)

theorem Cb.demo_proper : Proper demo := by
  refine ⟨?_, by decide⟩
  intro before o after he
  match before, he with
  | [], he => cases he; exact ⟨by decide, by decide⟩
  | [_], he => cases he; exact (by decide : (1#64 : Word) ≠ wildcardType)
  | [_, _], he => cases he; exact (by decide : 0 < 2)
  | [_, _, _], he => cases he; exact (by decide : 1 < 2)
  | [_, _, _, _], he => cases he; exact (by decide : 1 < 2)
  | [_, _, _, _, _], he => cases he; exact (by decide : 1 < 2)
  | [_, _, _, _, _, _], he => cases he; exact ⟨by decide, by decide⟩
  | _ :: _ :: _ :: _ :: _ :: _ :: _ :: _, he => simp [demo] at he

/-- The hypotheses of `C51_dispatch` hold of the demonstration … -/
example : Proper (demo ++ []) ∧ Leafy demoU ∧ (1#64 : Word) ≠ wildcardType ∧ (2#64 : Word) ≠ wildcardType := by
  refine ⟨demo_proper, ?_, by decide, by decide⟩
  intro c log h hc hw
  have : ¬ (c.fn = 100 ∧ c.handler = .reg ⟨2#64, 1#64, 0⟩) := by
    rintro ⟨_, h2⟩
    rw [hc] at h2
    cases h2
    revert hw
    decide
  exact ⟨_, by rw [demoU, if_neg this]⟩

/-- … and the calls are these: PreSolve of a shape 10 of type 1 and a shape 11 of type 2 calls function 100 with shape 11
first, then the wildcard function of type 1 with shape 10 first, whose no is the answer; Begin calls the wildcard
function of type 1; Separate calls nothing. -/
example :
    expected demoU demo (demo ++ []) .preSolve ⟨10, 1#64⟩ ⟨11, 2#64⟩ [] =
      (false, [⟨100, .reg ⟨2#64, 1#64, 0⟩, .preSolve, ⟨11, 2#64⟩, ⟨10, 1#64⟩, .user none⟩,
        ⟨200, .reg ⟨1#64, wildcardType, 1⟩, .preSolve, ⟨10, 1#64⟩, ⟨11, 2#64⟩, .user (some 9)⟩]) ∧
    expected demoU demo (demo ++ []) .begin ⟨10, 1#64⟩ ⟨11, 2#64⟩ [] =
      (true, [⟨300, .reg ⟨1#64, wildcardType, 1⟩, .begin, ⟨10, 1#64⟩, ⟨11, 2#64⟩, .user (some 9)⟩]) ∧
    expected demoU demo (demo ++ []) .separate ⟨10, 1#64⟩ ⟨11, 2#64⟩ [] = (true, []) := by
  decide

end CP
