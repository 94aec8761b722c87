import Verif.Proofs.SpaceOps2

/-! # Adding and removing constraints -/

namespace CP
variable {F : Type}
namespace Sp

/-- Constraint `c` is attached to body `b`. -/
def attached (s : Sp F) (c b : Nat) : Prop := (s.cons c).a = b ∨ (s.cons c).b = b

/-- The constraint lists of the bodies are `Lc`. -/
def ConLists (s : Sp F) (Lc : Nat → List Nat) : Prop :=
  ∀ b, IsChain (s.conNext b) (s.bodies b).cons (Lc b) ∧ ∀ c ∈ Lc b, s.attached c b

/-- Two heaps differ only in the list pointers of constraints. -/
structure ConEq (s t : Sp F) : Prop where
  eq : t = { s with bodies := t.bodies, cons := t.cons }
  a : ∀ c, (t.cons c).a = (s.cons c).a
  b : ∀ c, (t.cons c).b = (s.cons c).b
  inSpace : ∀ c, (t.cons c).inSpace = (s.cons c).inSpace
  body : ∀ x, t.bodies x = { s.bodies x with cons := (t.bodies x).cons }

theorem ConEq.refl (s : Sp F) : ConEq s s := ⟨rfl, fun _ => rfl, fun _ => rfl, fun _ => rfl, fun _ => rfl⟩
theorem ConEq.trans {s t u : Sp F} (h : ConEq s t) (k : ConEq t u) : ConEq s u := by
  refine ⟨?_, fun c => (k.a c).trans (h.a c), fun c => (k.b c).trans (h.b c),
    fun c => (k.inSpace c).trans (h.inSpace c), fun x => ?_⟩
  · have e := k.eq
    rw [h.eq] at e
    exact e
  · have e := k.body x
    rw [h.body x] at e
    exact e

theorem ConEq.attached {s t : Sp F} (h : ConEq s t) (c b : Nat) : t.attached c b ↔ s.attached c b := by
  simp only [Sp.attached, h.a, h.b]

/-- Deleting from the list of a body. -/
theorem filterCons_spec (body c : Nat) : ∀ (l : List Nat) (n : Nat) (s : Sp F) (st : Option Nat), l.length ≤ n →
    IsChain (s.conNext body) st l → c ∈ l →
    ∃ s' h, filterCons body c n s st = some (s', h) ∧ IsChain (s'.conNext body) h (l.erase c) ∧
      s' = { s with cons := s'.cons } ∧
      (∀ x, x ∉ l → s'.cons x = s.cons x) ∧
      (∀ x, if (s.cons x).a = body then s'.cons x = { s.cons x with nextA := (s'.cons x).nextA }
        else s'.cons x = { s.cons x with nextB := (s'.cons x).nextB })
  | [], _, _, _, _, _, hc => by simp at hc
  | x :: l, 0, _, _, hn, _, _ => by simp at hn
  | x :: l, n + 1, s, st, hn, hch, hc => by
    have hnd := hch.nodup
    obtain ⟨rfl, hch'⟩ := hch
    by_cases hx : x = c
    · subst hx
      refine ⟨s, s.conNext body x, by simp [filterCons], ?_, rfl, fun _ _ => rfl, fun y => by split_ifs <;> rfl⟩
      rw [List.erase_cons_head]; exact hch'
    · have hcl : c ∈ l := by
        rcases List.mem_cons.1 hc with e | e
        · exact absurd e.symm hx
        · exact e
      have hxl : x ∉ l := (List.nodup_cons.1 hnd).1
      rw [List.erase_cons_tail (by simpa using hx)]
      by_cases ha : (s.cons x).a = body
      · have e0 : s.conNext body x = (s.cons x).nextA := by simp [conNext, ha]
        rw [e0] at hch'
        obtain ⟨s', h, e, hch2, hfr, hno, hsd⟩ := filterCons_spec body c l n s _ (by simpa using hn) hch' hcl
        have hax : (s'.cons x).a = body := by rw [hno x hxl]; exact ha
        refine ⟨s'.setCon x fun r => { r with nextA := h }, some x, ?_, ⟨rfl, ?_⟩, ?_, ?_, ?_⟩
        · simp only [filterCons, if_neg hx, if_pos ha, Option.bind_eq_bind]
          rw [e]; rfl
        · have : (s'.setCon x fun r => { r with nextA := h }).conNext body x = h := by
            simp [conNext, setCon, hax]
          rw [this]
          refine hch2.congr fun y hy => ?_
          have hyx : y ≠ x := by rintro rfl; exact hxl (List.mem_of_mem_erase hy)
          simp [conNext, setCon, hyx]
        · rw [hfr]; rfl
        · intro y hy
          simp only [List.mem_cons, not_or] at hy
          simp only [setCon, Function.update_of_ne hy.1]
          exact hno y hy.2
        · intro y
          by_cases hyx : y = x
          · subst hyx
            rw [if_pos ha]
            simp [setCon, hno y hxl]
          · have := hsd y
            simpa only [setCon, Function.update_of_ne hyx] using this
      · have e0 : s.conNext body x = (s.cons x).nextB := by simp [conNext, ha]
        rw [e0] at hch'
        obtain ⟨s', h, e, hch2, hfr, hno, hsd⟩ := filterCons_spec body c l n s _ (by simpa using hn) hch' hcl
        have hax : ¬ (s'.cons x).a = body := by rw [hno x hxl]; exact ha
        refine ⟨s'.setCon x fun r => { r with nextB := h }, some x, ?_, ⟨rfl, ?_⟩, ?_, ?_, ?_⟩
        · simp only [filterCons, if_neg hx, if_neg ha, Option.bind_eq_bind]
          rw [e]; rfl
        · have : (s'.setCon x fun r => { r with nextB := h }).conNext body x = h := by
            simp [conNext, setCon, hax]
          rw [this]
          refine hch2.congr fun y hy => ?_
          have hyx : y ≠ x := by rintro rfl; exact hxl (List.mem_of_mem_erase hy)
          simp [conNext, setCon, hyx]
        · rw [hfr]; rfl
        · intro y hy
          simp only [List.mem_cons, not_or] at hy
          simp only [setCon, Function.update_of_ne hy.1]
          exact hno y hy.2
        · intro y
          by_cases hyx : y = x
          · subst hyx
            rw [if_neg ha]
            simp [setCon, hno y hxl]
          · have := hsd y
            simpa only [setCon, Function.update_of_ne hyx] using this

theorem bodyRemoveCon_spec {s : Sp F} {Lc : Nat → List Nat} (h : ConLists s Lc) {b c : Nat} (hc : c ∈ Lc b)
    (hn : (Lc b).length ≤ s.nCons) :
    ∃ t, s.bodyRemoveCon b c = some t ∧ ConEq s t ∧ ConLists t (Function.update Lc b ((Lc b).erase c)) := by
  obtain ⟨s', hd, e, hch, hfr, hno, hsd⟩ := filterCons_spec b c (Lc b) s.nCons s _ hn (h b).1 hc
  have hbod : s'.bodies = s.bodies := by rw [hfr]
  have ha : ∀ x, (s'.cons x).a = (s.cons x).a := by
    intro x; have := hsd x; split_ifs at this <;> rw [this]
  have hb : ∀ x, (s'.cons x).b = (s.cons x).b := by
    intro x; have := hsd x; split_ifs at this <;> rw [this]
  have hi : ∀ x, (s'.cons x).inSpace = (s.cons x).inSpace := by
    intro x; have := hsd x; split_ifs at this <;> rw [this]
  have ce : ConEq s (s'.setBody b fun r => { r with cons := hd }) := by
    refine ⟨?_, ha, hb, hi, fun x => ?_⟩
    · rw [hfr]; rfl
    · by_cases hx : x = b
      · subst hx; simp [setBody, hbod]
      · simp [setBody, hx, hbod]
  refine ⟨_, by rw [bodyRemoveCon, e]; rfl, ce, fun x => ?_⟩
  by_cases hx : x = b
  · subst hx
    simp only [Function.update_self]
    refine ⟨?_, fun y hy => (ce.attached y x).2 ((h x).2 y (List.mem_of_mem_erase hy))⟩
    have e1 : ((s'.setBody x fun r => { r with cons := hd }).bodies x).cons = hd := by simp [setBody]
    rw [e1]; exact hch
  · rw [Function.update_of_ne hx]
    refine ⟨?_, fun y hy => (ce.attached y x).2 ((h x).2 y hy)⟩
    have e1 : ((s'.setBody b fun r => { r with cons := hd }).bodies x).cons = (s.bodies x).cons := by
      simp [setBody, hx, hbod]
    rw [e1]
    refine (h x).1.congr fun y hy => ?_
    show s'.conNext x y = s.conNext x y
    simp only [conNext, ha]
    have := hsd y
    have hat := (h x).2 y hy
    by_cases hya : (s.cons y).a = b
    · rw [if_pos hya] at this
      have : (s.cons y).a ≠ x := by rw [hya]; exact fun e => hx e.symm
      rw [if_neg this, if_neg this]
      rw [‹s'.cons y = _›]
    · rw [if_neg hya] at this
      split_ifs with e2
      · rw [this]
      · -- attached to `x` at its second end: not touched
        by_cases hyl : y ∈ Lc b
        · have hab := (h b).2 y hyl
          rcases hab with e | e
          · exact absurd e hya
          · rcases hat with e' | e'
            · exact absurd e' e2
            · exact absurd (e'.symm.trans e) hx
        · rw [hno y hyl]

variable [GoFloat F]

theorem Inv.conLists {L : Nat → List Nat} {rest : List Nat} {s : Sp F} (h : Inv L rest s) :
    ∃ Lc, ConLists s Lc ∧ ∀ b c, c ∈ Lc b ↔ (s.cons c).inSpace = true ∧ s.attached c b := by
  choose Lc h1 h2 using h.full.core.con.list
  exact ⟨Lc, fun b => ⟨h1 b, fun c hc => ((h2 b c).1 hc).2⟩, h2⟩

/-- Changes of the constraint lists only. -/
theorem Inv.editCons {L : Nat → List Nat} {rest : List Nat} {s : Sp F} (h : Inv L rest s) (B : Nat → BodyR F)
    (C : Nat → ConR) (K : List Nat) (hB : ∀ b, B b = { s.bodies b with cons := (B b).cons })
    (hc : ConInv s.off { s with bodies := B, cons := C, constraints := K })
    (hcl : ∀ c, (C c).inSpace = true → Bound s (C c).a (C c).b ∧ Bound s (C c).b (C c).a) :
    Inv L rest { s with bodies := B, cons := C, constraints := K } := by
  have hty : ∀ x, ({ s with bodies := B, cons := C, constraints := K } : Sp F).typ x = s.typ x := by
    intro x; show (B x).type = _; rw [hB]; rfl
  have hroot : ∀ x, (B x).root = (s.bodies x).root := by intro x; rw [hB]
  have hnext : ∀ x, (B x).next = (s.bodies x).next := by intro x; rw [hB]
  have hidle : ∀ x, (B x).idle = (s.bodies x).idle := by intro x; rw [hB]
  have hsh : ∀ x, (B x).shapes = (s.bodies x).shapes := by intro x; rw [hB]
  have hin : ∀ x, (B x).inSpace = (s.bodies x).inSpace := by intro x; rw [hB]
  have harb : ∀ x, (B x).arbs = (s.bodies x).arbs := by intro x; rw [hB]
  have k := h.full.core
  refine ⟨Full.of (A := s.off) ⟨?_, ?_, hc, ?_, ?_⟩ ?_ ?_, ?_, ?_⟩
  · constructor
    · exact k.body.dynNodup
    · exact k.body.statNodup
    · intro x; rw [hty]; show _ ↔ (B x).inSpace = true ∧ _; rw [hin]; exact k.body.memDyn x
    · intro x; rw [hty]; show _ ↔ (B x).inSpace = true ∧ _; rw [hin]; exact k.body.memStat x
    · intro x; rw [hty]; show _ → (B x).inSpace = true ∧ _; rw [hin]; exact k.body.off x
    · intro x; show (B x).inSpace = true → _; rw [hin]; exact k.body.bound x
  · exact k.shape.congr hty hsh rfl rfl rfl
  · exact k.thread.congr harb rfl
  · exact k.arb.congr (fun x _ => by simp only [owner, hty]) rfl (fun x _ => ⟨rfl, rfl⟩)
      rfl rfl rfl rfl rfl rfl
  · exact h.full.sleep.congr hroot hnext rfl rfl rfl
  · exact h.full.quiet.congr hroot rfl
  · constructor
    · intro x hx
      have := h.closed.arb x hx
      simp only [Bound, hty] at this ⊢
      simp only [hroot]; exact this
    · intro c hcs
      have := hcl c hcs
      simp only [Bound, hty] at this ⊢
      simp only [hroot]; exact this
  · exact h.num.congr hty hidle rfl rfl rfl (by show (B _).inSpace = true; rw [hin]; exact h.num.sb.1)

/-- What adding and removing constraints leaves alone. -/
structure ConFrame (s t : Sp F) : Prop where
  typ : ∀ x, t.typ x = s.typ x
  inSpace : ∀ x, (t.bodies x).inSpace = (s.bodies x).inSpace
  shapes : t.shapes = s.shapes
  a : ∀ c, (t.cons c).a = (s.cons c).a
  b : ∀ c, (t.cons c).b = (s.cons c).b
  locked : t.locked = s.locked
  nBodies : t.nBodies = s.nBodies
  nCons : t.nCons = s.nCons
  staticBody : t.staticBody = s.staticBody
  threshold : t.threshold = s.threshold
  trace : t.trace = s.trace
  stamp : t.stamp = s.stamp
  kept : ArbsKept s t

/-- `AddConstraint`. -/
theorem addConstraint_inv {L : Nat → List Nat} {rest : List Nat} {s : Sp F} (h : Inv L rest s) (hl : s.locked = 0)
    {c : Nat} (hc : (s.cons c).inSpace = false) (hne : (s.cons c).a ≠ (s.cons c).b) (hb : c < s.nCons) :
    ∃ t, s.addConstraint c = some t ∧ Inv L rest t ∧ ConFrame s t ∧
      (∀ x, (t.cons x).inSpace = if x = c then true else (s.cons x).inSpace) ∧
      ∀ Lc, ConLists s Lc → (∀ b, c ∉ Lc b) →
        ConLists t (fun b => if (s.cons c).a = b ∨ (s.cons c).b = b then c :: Lc b else Lc b) := by
  obtain ⟨u1, e1, h1, w1, n1, -⟩ := bodyActivate_inv h (s.cons c).a
  obtain ⟨u, e2, hu, w2, n2, -⟩ := bodyActivate_inv h1 (s.cons c).b
  have w := w1.trans w2
  have n1' := w2.root_none n1
  have hlu : u.locked = 0 := by rw [w.locked]; exact hl
  generalize hA : (s.cons c).a = a at *
  generalize hB : (s.cons c).b = b at *
  have hcu : u.cons = s.cons := w.cons
  obtain ⟨C, hC⟩ : ∃ C : Nat → ConR, C = Function.update u.cons c { u.cons c with
    nextA := (u.bodies a).cons, nextB := (u.bodies b).cons, inSpace := true } := ⟨_, rfl⟩
  obtain ⟨B, hBd⟩ : ∃ B : Nat → BodyR F, B = fun x => if x = a ∨ x = b then { u.bodies x with cons := some c }
    else u.bodies x := ⟨_, rfl⟩
  have hadd : s.addConstraint c = some { u with bodies := B, cons := C, constraints := u.constraints ++ [c] } := by
    simp only [addConstraint]
    rw [if_neg (by simp [hc, hl])]
    simp only [hA, hB, Option.bind_eq_bind]
    rw [e1]; simp only [Option.bind_some]
    rw [e2]; simp only [Option.bind_some]
    have eb : Function.update (Function.update u.bodies a { u.bodies a with cons := some c }) b
        { u.bodies b with cons := some c } = B := by
      funext x
      rw [hBd]
      by_cases hx : x = b
      · subst hx; simp
      · by_cases hx2 : x = a
        · subst hx2; simp [hx]
        · simp [hx, hx2]
    rw [← eb, hC]
    dsimp only [setCon, setBody]
    simp only [Function.update_self, Function.update_of_ne hne.symm, Function.update_idem]
  have hCc : C c = { u.cons c with nextA := (u.bodies a).cons, nextB := (u.bodies b).cons, inSpace := true } := by
    rw [hC]; simp
  have hCn : ∀ x, x ≠ c → C x = u.cons x := fun x hx => by rw [hC]; simp [hx]
  have hCi : ∀ x, (C x).inSpace = if x = c then true else (u.cons x).inSpace := by
    intro x; split_ifs with e
    · rw [e, hCc]
    · rw [hCn x e]
  have hCa : ∀ x, (C x).a = (u.cons x).a := by
    intro x; by_cases e : x = c
    · rw [e, hCc]
    · rw [hCn x e]
  have hCb : ∀ x, (C x).b = (u.cons x).b := by
    intro x; by_cases e : x = c
    · rw [e, hCc]
    · rw [hCn x e]
  have hua : (u.cons c).a = a := by rw [hcu]; exact hA
  have hub : (u.cons c).b = b := by rw [hcu]; exact hB
  have hBx : ∀ x, B x = { u.bodies x with cons := (B x).cons } := by
    intro x; rw [hBd]; dsimp only; split_ifs <;> rfl
  have hBc : ∀ x, (B x).cons = if x = a ∨ x = b then some c else (u.bodies x).cons := by
    intro x; rw [hBd]; dsimp only; split_ifs <;> rfl
  have hlist : ∀ Lc, ConLists u Lc → (∀ b, c ∉ Lc b) →
      ConLists { u with bodies := B, cons := C, constraints := u.constraints ++ [c] }
        (fun y => if a = y ∨ b = y then c :: Lc y else Lc y) := by
    intro Lc hLc hnot x
    have tail : IsChain (Sp.conNext { u with bodies := B, cons := C, constraints := u.constraints ++ [c] } x)
        (u.bodies x).cons (Lc x) := by
      refine (hLc x).1.congr fun y hy => ?_
      have : y ≠ c := by rintro rfl; exact hnot x hy
      simp only [conNext, hCn y this]
    have att : ∀ y ∈ Lc x, Sp.attached { u with bodies := B, cons := C, constraints := u.constraints ++ [c] } y x := by
      intro y hy
      have := (hLc x).2 y hy
      simpa only [attached, hCa, hCb] using this
    by_cases hx : a = x ∨ b = x
    · simp only [if_pos hx]
      refine ⟨?_, ?_⟩
      · show IsChain _ (B x).cons _
        rw [hBc, if_pos (by tauto)]
        refine ⟨rfl, ?_⟩
        have : Sp.conNext { u with bodies := B, cons := C, constraints := u.constraints ++ [c] } x c =
            (u.bodies x).cons := by
          simp only [conNext, hCc, hua]
          split_ifs with e
          · rw [e]
          · rcases hx with e' | e'
            · exact absurd e' e
            · rw [e']
        rw [this]; exact tail
      · intro y hy
        rcases List.mem_cons.1 hy with rfl | hy
        · show (C y).a = x ∨ (C y).b = x
          rw [hCa, hCb, hua, hub]; exact hx
        · exact att y hy
    · simp only [if_neg hx]
      refine ⟨?_, att⟩
      show IsChain _ (B x).cons _
      rw [hBc, if_neg (by tauto)]; exact tail
  have hcn : c ∉ u.constraints := fun e => by
    have := ((hu.full.core.con.mem c).1 e).1
    rw [hcu, hc] at this; simp at this
  have hoff : ∀ x, u.off x ↔ (u.bodies x).root ≠ none := hu.off_iff hlu
  have hty : ∀ x, (B x).type = u.typ x := by intro x; rw [hBx]; rfl
  have hown : ∀ x, ({ u with bodies := B, cons := C, constraints := u.constraints ++ [c] } : Sp F).conOwner x =
      u.conOwner x := by
    intro x
    have ht : ∀ x, ({ u with bodies := B, cons := C, constraints := u.constraints ++ [c] } : Sp F).typ x = u.typ x := hty
    simp only [conOwner, ht, hCa, hCb]
  refine ⟨_, hadd, hu.editCons B C _ hBx ?_ ?_, ?_, ?_, ?_⟩
  · constructor
    · intro x hx
      show (C x).a ≠ (C x).b
      rw [hCa, hCb]
      by_cases e : x = c
      · rw [e, hua, hub]; exact hne
      · refine hu.full.core.con.ne x ?_
        have : (C x).inSpace = true := hx
        rw [hCi, if_neg e] at this; exact this
    · intro x hx
      by_cases e : x = c
      · rw [e, show ({ u with bodies := B, cons := C, constraints := u.constraints ++ [c] } : Sp F).nCons = s.nCons
          from w.nCons]; exact hb
      · refine hu.full.core.con.bound x ?_
        have : (C x).inSpace = true := hx
        rw [hCi, if_neg e] at this; exact this
    · obtain ⟨Lc, hLc, hm⟩ := hu.conLists
      have hnot : ∀ b, c ∉ Lc b := fun b hcb => by
        have := ((hm b c).1 hcb).1
        rw [hcu, hc] at this; simp at this
      intro x
      refine ⟨_, (hlist Lc hLc hnot x).1, fun y => ?_⟩
      show _ ↔ (C y).inSpace = true ∧ ((C y).a = x ∨ (C y).b = x)
      rw [hCa, hCb, hCi]
      show y ∈ (if a = x ∨ b = x then c :: Lc x else Lc x) ↔ _
      have hy := hm x y
      simp only [attached] at hy
      by_cases hx : a = x ∨ b = x
      · rw [if_pos hx, List.mem_cons]
        by_cases e : y = c
        · subst e; simp [hua, hub, hx]
        · simp [e, hy]
      · rw [if_neg hx]
        by_cases e : y = c
        · subst e; simp [hua, hub, hx, hnot]
        · simp [e, hy]
    · exact nodup_concat hu.full.core.con.nodup hcn
    · intro x
      show x ∈ u.constraints ++ [c] ↔ (C x).inSpace = true ∧ _
      rw [hown, hCi]
      have := hu.full.core.con.mem x
      by_cases e : x = c
      · subst e
        have ho := u.conOwner_ends x
        rw [hua, hub] at ho
        have : ¬ u.off (u.conOwner x) := by
          rw [hoff]
          rcases ho with e | e <;> rw [← e]
          · simp [n1']
          · simp [n2]
        simp [this]
      · simp [e, this]
  · intro x hx
    rw [hCa, hCb]
    by_cases e : x = c
    · rw [e, hua, hub]
      exact ⟨fun h => absurd n1' h, fun h => absurd n2 h⟩
    · rw [hCi, if_neg e] at hx
      exact hu.closed.con x hx
  · constructor
    · intro x; show (B x).type = _; rw [hty, w.typ]
    · intro x; show (B x).inSpace = _; rw [hBx]; exact (w.bodies x).inSpace
    · exact w.shapes
    · intro x; show (C x).a = _; rw [hCa, hcu]
    · intro x; show (C x).b = _; rw [hCb, hcu]
    · exact w.locked
    · exact w.nBodies
    · exact w.nCons
    · exact w.staticBody
    · exact w.threshold
    · exact w.trace
    · exact w.stamp
    · exact ⟨w.arbs, w.arbBound, w.pool, fun x => (w.stamps x).imp id And.left⟩
  · intro x; show (C x).inSpace = _; rw [hCi, hcu]
  · intro Lc hLc
    refine hlist Lc (fun x => ⟨?_, ?_⟩)
    · have e : u.conNext x = s.conNext x := by funext y; simp only [conNext, hcu]
      rw [e, (w.bodies x).cons]; exact (hLc x).1
    · intro y hy
      have := (hLc x).2 y hy
      simpa only [attached, hcu] using this

/-- `RemoveConstraint`. -/
theorem removeConstraint_inv {L : Nat → List Nat} {rest : List Nat} {s : Sp F} (h : Inv L rest s) (hl : s.locked = 0)
    {c : Nat} (hc : (s.cons c).inSpace = true) :
    ∃ t, s.removeConstraint c = some t ∧ Inv L rest t ∧ ConFrame s t ∧
      (∀ x, (t.cons x).inSpace = if x = c then false else (s.cons x).inSpace) ∧
      ∀ Lc, ConLists s Lc → ConLists t (fun b => (Lc b).erase c) := by
  have hne := h.full.core.con.ne c hc
  obtain ⟨u1, e1, h1, w1, n1, -⟩ := bodyActivate_inv h (s.cons c).a
  obtain ⟨u, e2, hu, w2, n2, -⟩ := bodyActivate_inv h1 (s.cons c).b
  have w := w1.trans w2
  have n1' := w2.root_none n1
  have hlu : u.locked = 0 := by rw [w.locked]; exact hl
  generalize hA : (s.cons c).a = a at *
  generalize hB : (s.cons c).b = b at *
  have hcu : u.cons = s.cons := w.cons
  have hua : (u.cons c).a = a := by rw [hcu]; exact hA
  have hub : (u.cons c).b = b := by rw [hcu]; exact hB
  have huc : (u.cons c).inSpace = true := by rw [hcu]; exact hc
  obtain ⟨Lc, hLc, hm⟩ := hu.conLists
  have hlen : ∀ x, (Lc x).length ≤ u.nCons := fun x =>
    nodup_length_le (hLc x).1.nodup fun y hy => hu.full.core.con.bound y ((hm x y).1 hy).1
  let v0 : Sp F := { u with constraints := u.constraints.erase c }
  have hL0 : ConLists v0 Lc := hLc
  obtain ⟨v1, ev1, ce1, hL1⟩ := bodyRemoveCon_spec hL0 (b := a) (c := c) ((hm a c).2 ⟨huc, Or.inl hua⟩) (hlen a)
  have hn1 : v1.nCons = u.nCons := by rw [ce1.eq]
  obtain ⟨v2, ev2, ce2, hL2⟩ := bodyRemoveCon_spec hL1 (b := b) (c := c)
    (by rw [Function.update_of_ne hne.symm]; exact (hm b c).2 ⟨huc, Or.inr hub⟩)
    (by rw [Function.update_of_ne hne.symm, hn1]; exact hlen b)
  have ce := ce1.trans ce2
  have hLs : ∀ x, Function.update (Function.update Lc a ((Lc a).erase c)) b
      ((Function.update Lc a ((Lc a).erase c) b).erase c) x = (Lc x).erase c := by
    intro x
    by_cases hx : x = b
    · subst hx; simp [hne.symm]
    · rw [Function.update_of_ne hx]
      by_cases hx2 : x = a
      · subst hx2; simp
      · rw [Function.update_of_ne hx2, List.erase_of_not_mem]
        intro hcx
        rcases ((hm x c).1 hcx).2 with e | e
        · rw [hua] at e; exact hx2 e.symm
        · rw [hub] at e; exact hx e.symm
  have hrem : s.removeConstraint c = some (v2.setCon c fun r => { r with inSpace := false }) := by
    simp only [removeConstraint]
    rw [if_neg (by simp [hc, hl])]
    simp only [hA, hB, Option.bind_eq_bind]
    rw [e1]; simp only [Option.bind_some]
    rw [e2]; simp only [Option.bind_some]
    have ev1' : ({ u with constraints := u.constraints.erase c } : Sp F).bodyRemoveCon a c = some v1 := ev1
    rw [ev1']; simp only [Option.bind_some]
    rw [ev2]; simp only [Option.bind_some]
  obtain ⟨C, hC⟩ : ∃ C : Nat → ConR, C = Function.update v2.cons c { v2.cons c with inSpace := false } := ⟨_, rfl⟩
  have heq : (v2.setCon c fun r => { r with inSpace := false }) =
      { u with bodies := v2.bodies, cons := C, constraints := u.constraints.erase c } := by
    have := ce.eq
    rw [hC]
    simp only [setCon]
    rw [this]
  have hCi : ∀ x, (C x).inSpace = if x = c then false else (u.cons x).inSpace := by
    intro x; rw [hC]
    by_cases e : x = c
    · subst e; simp
    · simp only [Function.update_of_ne e, if_neg e]; exact ce.inSpace x
  have hCa : ∀ x, (C x).a = (u.cons x).a := by
    intro x; rw [hC]
    by_cases e : x = c
    · subst e; simp; exact ce.a x
    · simp only [Function.update_of_ne e]; exact ce.a x
  have hCb : ∀ x, (C x).b = (u.cons x).b := by
    intro x; rw [hC]
    by_cases e : x = c
    · subst e; simp; exact ce.b x
    · simp only [Function.update_of_ne e]; exact ce.b x
  have hBx : ∀ x, v2.bodies x = { u.bodies x with cons := (v2.bodies x).cons } := ce.body
  have hlist : ConLists { u with bodies := v2.bodies, cons := C, constraints := u.constraints.erase c }
      (fun x => (Lc x).erase c) := by
    intro x
    have hx := hL2 x
    rw [hLs] at hx
    refine ⟨hx.1.congr fun y hy => ?_, fun y hy => ?_⟩
    · simp only [conNext, hC]
      by_cases e : y = c
      · subst e; simp
      · simp only [Function.update_of_ne e]
    · have := hx.2 y hy
      rw [ce.attached] at this
      show (C y).a = x ∨ (C y).b = x
      rw [hCa, hCb]; exact this
  have hty : ∀ x, (v2.bodies x).type = u.typ x := by intro x; rw [hBx]; rfl
  have hown : ∀ x, ({ u with bodies := v2.bodies, cons := C, constraints := u.constraints.erase c } : Sp F).conOwner x =
      u.conOwner x := by
    intro x
    have ht : ∀ x, ({ u with bodies := v2.bodies, cons := C, constraints := u.constraints.erase c } : Sp F).typ x =
      u.typ x := hty
    simp only [conOwner, ht, hCa, hCb]
  rw [heq] at hrem
  refine ⟨_, hrem, hu.editCons _ C _ hBx ?_ ?_, ?_, ?_, ?_⟩
  · constructor
    · intro x hx
      have hx' : (C x).inSpace = true := hx
      rw [hCi] at hx'
      split_ifs at hx' with e
      show (C x).a ≠ (C x).b
      rw [hCa, hCb]; exact hu.full.core.con.ne x hx'
    · intro x hx
      have hx' : (C x).inSpace = true := hx
      rw [hCi] at hx'
      split_ifs at hx' with e
      exact hu.full.core.con.bound x hx'
    · intro x
      refine ⟨_, (hlist x).1, fun y => ?_⟩
      show _ ↔ (C y).inSpace = true ∧ ((C y).a = x ∨ (C y).b = x)
      have hnd := (hLc x).1.nodup
      rw [hCa, hCb, hCi, hnd.mem_erase_iff]
      have hy := hm x y
      simp only [attached] at hy
      by_cases e : y = c
      · simp [e]
      · simp [e, hy]
    · exact hu.full.core.con.nodup.erase c
    · intro x
      show x ∈ u.constraints.erase c ↔ (C x).inSpace = true ∧ _
      rw [hown, hCi, hu.full.core.con.nodup.mem_erase_iff]
      have := hu.full.core.con.mem x
      by_cases e : x = c
      · simp [e]
      · simp [e, this]
  · intro x hx
    rw [hCa, hCb]
    rw [hCi] at hx
    split_ifs at hx with e
    exact hu.closed.con x hx
  · constructor
    · intro x; show (v2.bodies x).type = _; rw [hty, w.typ]
    · intro x; show (v2.bodies x).inSpace = _; rw [hBx]; exact (w.bodies x).inSpace
    · exact w.shapes
    · intro x; show (C x).a = _; rw [hCa, hcu]
    · intro x; show (C x).b = _; rw [hCb, hcu]
    · exact w.locked
    · exact w.nBodies
    · exact w.nCons
    · exact w.staticBody
    · exact w.threshold
    · exact w.trace
    · exact w.stamp
    · exact ⟨w.arbs, w.arbBound, w.pool, fun x => (w.stamps x).imp id And.left⟩
  · intro x; show (C x).inSpace = _; rw [hCi, hcu]
  · intro Lc' hLc'
    have : Lc' = Lc := by
      funext x
      have e : u.conNext x = s.conNext x := by funext y; simp only [conNext, hcu]
      have h1 := (hLc' x).1
      have h2 := (hLc x).1
      rw [e, (w.bodies x).cons] at h2
      exact h1.unique h2
    rw [this]; exact hlist

end Sp
end CP
