import Verif.Spec.Dispatch

/-! # Proofs: which callbacks run -/

namespace CP.Cb

theorem regs_snoc (hist : List Op) (o : Op) : regs (hist ++ [o]) = regs hist ++ (o.pair.toList) := by
  simp only [regs, List.filterMap_append]
  cases h : o.pair <;> simp [h]

theorem lastFn_snoc (hist : List Op) (o : Op) (i : Nat) (k : EvKind) :
    lastFn (hist ++ [o]) i k = match o with
      | .fn j k' f => if j = i ∧ k' = k then some f else lastFn hist i k
      | _ => lastFn hist i k := by
  simp only [lastFn, List.filterMap_append]
  cases o with
  | fn j k' f => by_cases h : j = i ∧ k' = k <;> simp [h]
  | handler a b => simp
  | wildcard t => simp
  | data j d => simp

theorem lastData_snoc (hist : List Op) (o : Op) (i : Nat) :
    lastData (hist ++ [o]) i = match o with
      | .data j d => if j = i then some d else lastData hist i
      | _ => lastData hist i := by
  simp only [lastData, List.filterMap_append]
  cases o with
  | data j d => by_cases h : j = i <;> simp [h]
  | handler a b => simp
  | wildcard t => simp
  | fn j k f => simp

theorem Proper.init {hist : List Op} {o : Op} (h : Proper (hist ++ [o])) : Proper hist := by
  refine ⟨fun before o' after he => h.1 before o' (after ++ [o]) (by rw [he]; simp), ?_⟩
  have := h.2
  rw [regs_snoc] at this
  simp only [List.length_append] at this
  omega

theorem Proper.last {hist : List Op} {o : Op} (h : Proper (hist ++ [o])) : o.Proper hist :=
  h.1 hist o [] rfl

theorem Proper.pre {old more : List Op} (h : Proper (old ++ more)) : Proper old := by
  induction more using List.reverseRecOn with
  | nil => simpa using h
  | append_singleton more o ih => exact ih (by rw [← List.append_assoc] at h; exact h.init)

/-- Nothing is stored in a handler that does not exist yet. -/
theorem Proper.fresh {hist : List Op} (h : Proper hist) :
    (∀ i k, (regs hist).length ≤ i → lastFn hist i k = none) ∧
      (∀ i, (regs hist).length ≤ i → lastData hist i = none) := by
  induction hist using List.reverseRecOn with
  | nil => exact ⟨fun _ _ _ => rfl, fun _ _ => rfl⟩
  | append_singleton hist o ih =>
    obtain ⟨h1, h2⟩ := ih h.init
    have hl := h.last
    rw [regs_snoc]
    simp only [List.length_append]
    constructor
    · intro i k hi
      rw [lastFn_snoc]
      cases o with
      | fn j k' f =>
        simp only [Op.Proper] at hl
        have : ¬ (j = i ∧ k' = k) := by rintro ⟨rfl, _⟩; omega
        simp only [this, if_false]
        exact h1 i k (by omega)
      | _ => exact h1 i k (by omega)
    · intro i hi
      rw [lastData_snoc]
      cases o with
      | data j d =>
        simp only [Op.Proper] at hl
        have : ¬ j = i := by rintro rfl; omega
        simp only [this, if_false]
        exact h2 i (by omega)
      | _ => exact h2 i (by omega)

theorem Slots.setFn_fn (s : Slots) (k k' : EvKind) (f : Fn) :
    (s.setFn k f).fn k' = if k = k' then f else s.fn k' := by
  cases k <;> cases k' <;> rfl

theorem Slots.setFn_data (s : Slots) (k : EvKind) (f : Fn) : (s.setFn k f).data = s.data := by
  cases k <;> rfl

/-- What the fields of handler `i` should be. -/
def Good (hist : List Op) (i : Nat) (s : Slots) : Prop :=
  (∀ k, s.fn k = match lastFn hist i k with
    | some f => .user f
    | none => if ((regs hist)[i]?).map Prod.snd = some wildcardType then .idle else .default) ∧
  s.data = lastData hist i

/-- The state after a history. -/
structure Is (hist : List Op) (s : Sys) : Prop where
  table : HandlerTable.run (regs hist) = some s.table
  next : s.table.next = (regs hist).length
  wild : s.wild = true ↔ ∃ t, Op.wildcard t ∈ hist
  slots : ∀ i, i < (regs hist).length → Good hist i (s.slots i)

theorem register_is {l : List (Word × Word)} (hl : l.length + 1 < 1610612741) {t : HandlerTable}
    (ht : HandlerTable.run l = some t) (a b : Word) :
    ∃ t' h, t.register a b = some (t', h) ∧ HandlerTable.run (l ++ [(a, b)]) = some t' ∧
      t'.next = l.length + 1 := by
  obtain ⟨s, hs, _, _, hr⟩ := C04_handlers l hl
  obtain rfl : s = t := by rw [hs] at ht; exact Option.some.inj ht
  obtain ⟨s', hs'⟩ := hr a b
  obtain ⟨s2, hs2, hn, _⟩ := handlers_run (l ++ [(a, b)]) (by simpa using hl)
  have := run_append l a b s hs
  rw [hs'] at this
  simp only [Option.map_some] at this
  refine ⟨s', _, hs', this, ?_⟩
  rw [this] at hs2
  cases hs2
  simpa using hn

theorem run_is (hist : List Op) (hp : Proper hist) : ∃ s, Sys.run hist = some s ∧ Is hist s := by
  induction hist using List.reverseRecOn with
  | nil =>
    obtain ⟨s0, h0, _⟩ := HashSet.inv_new (U := Handler) handlerClient
    refine ⟨⟨⟨s0, 0⟩, fun _ => Slots.doNothing, false⟩, ?_, ?_, rfl, by simp, by simp [regs]⟩
    · simp [Sys.run, Sys.new, h0]
    · simp [HandlerTable.run, regs, h0]
  | append_singleton hist o ih =>
    obtain ⟨s, hs, hi⟩ := ih hp.init
    have hfr := hp.init.fresh
    have hrun : Sys.run (hist ++ [o]) = s.op o := by
      unfold Sys.run at hs ⊢
      obtain ⟨s0, hs0, hs1⟩ := Option.bind_eq_some_iff.mp hs
      rw [hs0]
      simp [List.foldlM_append, hs1]
    rw [hrun]
    have hl := hp.last
    have hlen := hp.init.2
    cases o with
    | handler a b =>
      obtain ⟨t', h, h1, h2, h3⟩ := register_is hlen hi.table a b
      simp only [Sys.op, Sys.newHandler, h1, Option.map_some]
      refine ⟨_, rfl, ?_, ?_, ?_, ?_⟩
      · simpa [regs_snoc, Op.pair] using h2
      · simpa [regs_snoc, Op.pair] using h3
      · simpa using hi.wild
      · intro i hlt
        simp only [Good, lastFn_snoc, lastData_snoc, regs_snoc, Op.pair, Option.toList, List.length_append,
          List.length_singleton, hi.next] at hlt ⊢
        by_cases he : i = (regs hist).length
        · subst he
          simp only [Function.update_self, hfr.1 _ _ le_rfl, hfr.2 _ le_rfl]
          refine ⟨fun k => ?_, rfl⟩
          simp only [List.length_append, List.getElem?_concat_length, Option.map_some, Option.some.injEq, hl.2, if_false]
          cases k <;> rfl
        · rw [Function.update_of_ne he, List.getElem?_append_left (by omega)]
          exact hi.slots i (by omega)
    | wildcard t =>
      obtain ⟨t', h, h1, h2, h3⟩ := register_is hlen hi.table t wildcardType
      simp only [Sys.op, Sys.newWildcard, h1, Option.map_some]
      refine ⟨_, rfl, ?_, ?_, ?_, ?_⟩
      · simpa [regs_snoc, Op.pair] using h2
      · simpa [regs_snoc, Op.pair] using h3
      · simp
      · intro i hlt
        simp only [Good, lastFn_snoc, lastData_snoc, regs_snoc, Op.pair, Option.toList, List.length_append,
          List.length_singleton, hi.next] at hlt ⊢
        by_cases he : i = (regs hist).length
        · subst he
          simp only [Function.update_self, hfr.1 _ _ le_rfl, hfr.2 _ le_rfl]
          refine ⟨fun k => ?_, rfl⟩
          simp only [List.getElem?_concat_length, Option.map_some, if_true]
          cases k <;> rfl
        · rw [Function.update_of_ne he, List.getElem?_append_left (by omega)]
          exact hi.slots i (by omega)
    | fn j k f =>
      have hr : regs (hist ++ [Op.fn j k f]) = regs hist := by simp [regs_snoc, Op.pair]
      refine ⟨_, rfl, ?_, ?_, ?_, ?_⟩
      · rw [hr]; exact hi.table
      · rw [hr]; exact hi.next
      · simpa [Sys.setFn] using hi.wild
      · intro i hlt
        rw [hr] at hlt
        obtain ⟨g1, g2⟩ := hi.slots i hlt
        simp only [Good, lastFn_snoc, lastData_snoc, hr, Sys.setFn]
        by_cases he : i = j
        · subst he
          rw [Function.update_self]
          refine ⟨fun k' => ?_, by rw [Slots.setFn_data]; exact g2⟩
          rw [Slots.setFn_fn]
          by_cases hk : k = k'
          · simp [hk]
          · rw [if_neg hk, g1 k']; simp [hk]
        · rw [Function.update_of_ne he]
          have : ∀ k', ¬ (j = i ∧ k = k') := fun _ h => he h.1.symm
          simp only [this, if_false]
          exact ⟨g1, g2⟩
    | data j d =>
      have hr : regs (hist ++ [Op.data j d]) = regs hist := by simp [regs_snoc, Op.pair]
      refine ⟨_, rfl, ?_, ?_, ?_, ?_⟩
      · rw [hr]; exact hi.table
      · rw [hr]; exact hi.next
      · simpa [Sys.setData] using hi.wild
      · intro i hlt
        rw [hr] at hlt
        obtain ⟨g1, g2⟩ := hi.slots i hlt
        simp only [Good, lastFn_snoc, lastData_snoc, hr, Sys.setData]
        by_cases he : i = j
        · subst he
          rw [Function.update_self]
          refine ⟨fun k' => ?_, by simp⟩
          rw [← g1 k']; cases k' <;> rfl
        · rw [Function.update_of_ne he]
          have : ¬ (j = i) := fun h => he h.symm
          simp only [this, if_false]
          exact ⟨g1, g2⟩

/-- The handler of a pair of types. -/
def refOf (hist : List Op) (a b : Word) (d : Ref) : Ref :=
  match specHandler (regs hist) a b with
  | some h => .reg h
  | none => d

theorem lookup_is {hist : List Op} (hp : Proper hist) {s : Sys} (hs : Is hist s) (a b : Word) (d : Ref) :
    s.lookup a b d = some (refOf hist a b d) := by
  obtain ⟨t, ht, hl, _⟩ := C04_handlers (regs hist) hp.2
  obtain rfl : t = s.table := by rw [hs.table] at ht; exact (Option.some.inj ht).symm
  unfold Sys.lookup refOf
  rw [hl a b]
  cases specHandler (regs hist) a b <;> rfl

theorem specHandler_some {l : List (Word × Word)} {a b : Word} {h : Handler} (hh : specHandler l a b = some h) :
    l[h.id]? = some (h.typeA, h.typeB) ∧ h.id < l.length ∧
      ((h.typeA = a ∧ h.typeB = b) ∨ (h.typeA = b ∧ h.typeB = a)) := by
  unfold specHandler at hh
  cases hf : firstReg l a b with
  | none => rw [hf] at hh; simp at hh
  | some i =>
    obtain ⟨hlt, p, hp, hor⟩ := firstReg_lt hf
    rw [hf] at hh
    simp only [Option.bind_some, hp, Option.map_some, Option.some.injEq] at hh
    subst hh
    refine ⟨hp, hlt, ?_⟩
    rcases hor with rfl | rfl
    · exact Or.inl ⟨rfl, rfl⟩
    · exact Or.inr ⟨rfl, rfl⟩

/-- The types of registrations. -/
theorem Proper.types {hist : List Op} (h : Proper hist) : ∀ p ∈ regs hist, p.1 ≠ wildcardType ∧
    (p.2 = wildcardType → ∃ t, Op.wildcard t ∈ hist) := by
  intro p hm
  obtain ⟨o, ho, hop⟩ := List.mem_filterMap.mp hm
  obtain ⟨l1, l2, he⟩ := List.append_of_mem ho
  have hpr := h.1 l1 o l2 he
  cases o with
  | handler a b => simp only [Op.pair, Option.some.injEq] at hop; subst hop; exact ⟨hpr.1, fun h => absurd h hpr.2⟩
  | wildcard t => simp only [Op.pair, Option.some.injEq] at hop; subst hop; exact ⟨hpr, fun _ => ⟨t, ho⟩⟩
  | fn => simp [Op.pair] at hop
  | data => simp [Op.pair] at hop

/-- The fields of a handler found through an older history. -/
theorem fields_reg {old more : List Op} (hp : Proper (old ++ more)) {s : Sys} (hs : Is (old ++ more) s)
    {a b : Word} {h : Handler} (hh : specHandler (regs old) a b = some h) :
    (∀ k, (s.fields (.reg h)).fn k = match lastFn (old ++ more) h.id k with
      | some f => .user f
      | none => if h.typeB = wildcardType then .idle else .default) ∧
    (s.fields (.reg h)).data = lastData (old ++ more) h.id := by
  obtain ⟨h1, h2, _⟩ := specHandler_some hh
  have hr : regs (old ++ more) = regs old ++ regs more := by simp [regs]
  obtain ⟨g1, g2⟩ := hs.slots h.id (by rw [hr, List.length_append]; omega)
  have h3 : (regs (old ++ more))[h.id]? = some (h.typeA, h.typeB) := by
    rw [hr, List.getElem?_append_left h2, h1]
  rw [h3] at g1
  simp only [Option.map_some, Option.some.injEq] at g1
  exact ⟨g1, g2⟩

/-- Calling the wildcard handler of a type. -/
theorem ask_ok {old more : List Op} (hp : Proper (old ++ more)) {s : Sys} (hs : Is (old ++ more) s)
    {U : Call → List Call → Prog} (hU : Leafy U) (n : Nat) (k : EvKind) (arb : ArbH) (log : List Call)
    (ht : arb.shapes.1.type ≠ wildcardType) :
    invoke U s (n + 1) k (refOf old arb.shapes.1.type wildcardType .doNothing)
      (.user (s.fields (refOf old arb.shapes.1.type wildcardType .doNothing)).data) arb log =
    some ((askWild U old (old ++ more) k arb.shapes.1 arb.shapes.2 log).1, arb,
      (askWild U old (old ++ more) k arb.shapes.1 arb.shapes.2 log).2) := by
  unfold askWild refOf
  cases hh : specHandler (regs old) arb.shapes.1.type wildcardType with
  | none => simp only; cases k <;> rfl
  | some w =>
    obtain ⟨f1, f2⟩ := fields_reg hp hs hh
    have hw : w.typeB = wildcardType := by
      obtain ⟨h1, h2, h3⟩ := specHandler_some hh
      rcases h3 with h3 | h3
      · exact h3.2
      · have := (hp.pre.types _ (List.mem_of_getElem? h1)).1
        exact absurd h3.1 this
    simp only [invoke]
    rw [f1 k, f2]
    cases hl : lastFn (old ++ more) w.id k with
    | none => simp [hw]
    | some f =>
      obtain ⟨r, hr⟩ := hU ⟨f, .reg w, k, arb.shapes.1, arb.shapes.2, .user (lastData (old ++ more) w.id)⟩ log w rfl hw
      simp only [hr, Prog.run]

/-- The handlers of an arbiter are those of the history `old` for the shapes as the arbiter presents them. -/
structure Tied (old : List Op) (arb : ArbH) : Prop where
  first : arb.shapes.1.type ≠ wildcardType
  second : arb.shapes.2.type ≠ wildcardType
  hA : arb.handlerA = some (refOf old arb.shapes.1.type wildcardType .doNothing)
  hB : arb.handlerB = some (refOf old arb.shapes.2.type wildcardType .doNothing)

theorem shapes_toggle (arb : ArbH) : ({ arb with swapped := !arb.swapped } : ArbH).shapes = (arb.shapes.2, arb.shapes.1) := by
  unfold ArbH.shapes
  cases arb.swapped <;> rfl

theorem wildA_ok {old more : List Op} (hp : Proper (old ++ more)) {s : Sys} (hs : Is (old ++ more) s)
    {U : Call → List Call → Prog} (hU : Leafy U) (n : Nat) (k : EvKind) {arb : ArbH} (ht : Tied old arb)
    (log : List Call) :
    wildA s (invoke U s (n + 1)) k arb log =
    some ((askWild U old (old ++ more) k arb.shapes.1 arb.shapes.2 log).1, arb,
      (askWild U old (old ++ more) k arb.shapes.1 arb.shapes.2 log).2) := by
  unfold wildA
  rw [ht.hA]
  exact ask_ok hp hs hU n k arb log ht.first

theorem wildB_ok {old more : List Op} (hp : Proper (old ++ more)) {s : Sys} (hs : Is (old ++ more) s)
    {U : Call → List Call → Prog} (hU : Leafy U) (n : Nat) (k : EvKind) {arb : ArbH} (ht : Tied old arb)
    (log : List Call) :
    wildB s (invoke U s (n + 1)) k arb log =
    some ((askWild U old (old ++ more) k arb.shapes.2 arb.shapes.1 log).1, arb,
      (askWild U old (old ++ more) k arb.shapes.2 arb.shapes.1 log).2) := by
  unfold wildB
  rw [ht.hB]
  have h := ask_ok hp hs hU n k { arb with swapped := !arb.swapped } log
    (by rw [shapes_toggle]; exact ht.second)
  simp only [shapes_toggle] at h
  rw [Option.bind_eq_bind, Option.bind_some]
  dsimp only at h ⊢
  rw [ht.hB] at h
  rw [h]
  simp [← ht.hB]

theorem prog_ok {old more : List Op} (hp : Proper (old ++ more)) {s : Sys} (hs : Is (old ++ more) s)
    {U : Call → List Call → Prog} (hU : Leafy U) (n : Nat) {arb : ArbH} (ht : Tied old arb) (p : Prog)
    (log : List Call) :
    p.run (wildA s (invoke U s (n + 1))) (wildB s (invoke U s (n + 1))) arb log =
    some ((follow U old (old ++ more) arb.shapes.1 arb.shapes.2 p log).1, arb,
      (follow U old (old ++ more) arb.shapes.1 arb.shapes.2 p log).2) := by
  induction p generalizing log with
  | done r => rfl
  | callA k next ih =>
    simp only [Prog.run, wildA_ok hp hs hU n k ht log, Option.bind_eq_bind, Option.bind_some, follow]
    exact ih _ _
  | callB k next ih =>
    simp only [Prog.run, wildB_ok hp hs hU n k ht log, Option.bind_eq_bind, Option.bind_some, follow]
    exact ih _ _

/-- Both wildcard handlers in turn. -/
theorem both_ok {old more : List Op} (hp : Proper (old ++ more)) {s : Sys} (hs : Is (old ++ more) s)
    {U : Call → List Call → Prog} (hU : Leafy U) (n : Nat) (k : EvKind) (r : Ref) (data : Data) {arb : ArbH}
    (ht : Tied old arb) (log : List Call) (hr : (s.fields r).fn k = .default) :
    invoke U s (n + 2) k r data arb log =
    some ((askBoth U old (old ++ more) k arb.shapes.1 arb.shapes.2 log).1, arb,
      (askBoth U old (old ++ more) k arb.shapes.1 arb.shapes.2 log).2) := by
  rw [invoke, hr]
  simp only [wildA_ok hp hs hU n k ht log, Option.bind_eq_bind, Option.bind_some, askBoth]
  cases k with
  | begin =>
    simp only [wildB_ok hp hs hU n _ ht]
    cases (askWild U old (old ++ more) .begin arb.shapes.1 arb.shapes.2 log).1 <;> rfl
  | preSolve =>
    simp only [wildB_ok hp hs hU n _ ht]
    cases (askWild U old (old ++ more) .preSolve arb.shapes.1 arb.shapes.2 log).1 <;> rfl
  | postSolve => simp only [wildB_ok hp hs hU n _ ht]
  | separate => simp only [wildB_ok hp hs hU n _ ht]

/-- Without any wildcard registration nobody is asked. -/
theorem askBoth_none {old now : List Op} (U : Call → List Call → Prog) (k : EvKind) (a b : Shp) (log : List Call)
    (ha : specHandler (regs old) a.type wildcardType = none) (hb : specHandler (regs old) b.type wildcardType = none) :
    askBoth U old now k a b log = (true, log) := by
  have h1 : askWild U old now k a b log = (true, log) := by unfold askWild; rw [ha]
  have h2 : askWild U old now k b a log = (true, log) := by unfold askWild; rw [hb]
  unfold askBoth
  rw [h1]
  cases k <;> simp [h2]

end CP.Cb
