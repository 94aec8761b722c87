import Verif.Proofs.SpaceInv

/-! # `Space.Activate` and `Space.Deactivate` -/

namespace CP
variable {F : Type}
namespace Sp

theorem nodup_concat {l : List Nat} {x : Nat} (h : l.Nodup) (hx : x ∉ l) : (l ++ [x]).Nodup := by
  rw [List.nodup_append]
  refine ⟨h, by simp, ?_⟩
  rintro a ha b hb rfl
  simp at hb; exact hx (hb ▸ ha)

/-- Moving shapes from the static to the dynamic index. -/
theorem toDynamic_loop : ∀ (l : List Nat) (s : Sp F), l.Nodup → s.staticShapes.Nodup → s.dynamicShapes.Nodup →
    (∀ sh ∈ l, sh ∈ s.staticShapes ∧ sh ∉ s.dynamicShapes) →
    ∃ S D, l.foldlM toDynamic s = some { s with staticShapes := S, dynamicShapes := D } ∧ S.Nodup ∧ D.Nodup ∧
      (∀ y, y ∈ S ↔ y ∈ s.staticShapes ∧ y ∉ l) ∧ (∀ y, y ∈ D ↔ y ∈ s.dynamicShapes ∨ y ∈ l)
  | [], s, _, hS, hD, _ => ⟨s.staticShapes, s.dynamicShapes, rfl, hS, hD, by simp, by simp⟩
  | x :: l, s, hl, hS, hD, hm => by
    have hx := hm x (by simp)
    have hl' := List.nodup_cons.1 hl
    obtain ⟨S, D, h1, h2, h3, h4, h5⟩ := toDynamic_loop l
      { s with staticShapes := s.staticShapes.erase x, dynamicShapes := s.dynamicShapes ++ [x] } hl'.2
      (hS.erase x) (nodup_concat hD hx.2) (fun sh hsh => by
        have := hm sh (by simp [hsh])
        have hne : sh ≠ x := fun e => hl'.1 (e ▸ hsh)
        exact ⟨(List.Nodup.mem_erase_iff hS).2 ⟨hne, this.1⟩, by simp [this.2, hne]⟩)
    refine ⟨S, D, ?_, h2, h3, ?_, ?_⟩
    · rw [List.foldlM_cons]
      simp only [toDynamic, if_pos hx]
      exact h1
    · intro y
      rw [h4 y, List.Nodup.mem_erase_iff hS]
      simp only [List.mem_cons]; tauto
    · intro y
      rw [h5 y]
      simp only [List.mem_append, List.mem_cons, List.not_mem_nil, or_false]; tauto

/-- Moving shapes from the dynamic to the static index. -/
theorem toStatic_loop : ∀ (l : List Nat) (s : Sp F), l.Nodup → s.staticShapes.Nodup → s.dynamicShapes.Nodup →
    (∀ sh ∈ l, sh ∈ s.dynamicShapes ∧ sh ∉ s.staticShapes) →
    ∃ S D, l.foldlM toStatic s = some { s with staticShapes := S, dynamicShapes := D } ∧ S.Nodup ∧ D.Nodup ∧
      (∀ y, y ∈ S ↔ y ∈ s.staticShapes ∨ y ∈ l) ∧ (∀ y, y ∈ D ↔ y ∈ s.dynamicShapes ∧ y ∉ l)
  | [], s, _, hS, hD, _ => ⟨s.staticShapes, s.dynamicShapes, rfl, hS, hD, by simp, by simp⟩
  | x :: l, s, hl, hS, hD, hm => by
    have hx := hm x (by simp)
    have hl' := List.nodup_cons.1 hl
    obtain ⟨S, D, h1, h2, h3, h4, h5⟩ := toStatic_loop l
      { s with dynamicShapes := s.dynamicShapes.erase x, staticShapes := s.staticShapes ++ [x] } hl'.2
      (nodup_concat hS hx.2) (hD.erase x) (fun sh hsh => by
        have := hm sh (by simp [hsh])
        have hne : sh ≠ x := fun e => hl'.1 (e ▸ hsh)
        exact ⟨(List.Nodup.mem_erase_iff hD).2 ⟨hne, this.1⟩, by simp [this.2, hne]⟩)
    refine ⟨S, D, ?_, h2, h3, ?_, ?_⟩
    · rw [List.foldlM_cons]
      simp only [toStatic, if_pos hx]
      exact h1
    · intro y
      rw [h4 y]
      simp only [List.mem_append, List.mem_cons, List.not_mem_nil, or_false]; tauto
    · intro y
      rw [h5 y, List.Nodup.mem_erase_iff hD]
      simp only [List.mem_cons]; tauto

/-- What the arbiter part of activation leaves alone. -/
structure ArbFrame (s s' : Sp F) : Prop extends Same s s' where
  dynamicBodies : s'.dynamicBodies = s.dynamicBodies
  roused : s'.roused = s.roused
  staticShapes : s'.staticShapes = s.staticShapes
  dynamicShapes : s'.dynamicShapes = s.dynamicShapes
  constraints : s'.constraints = s.constraints

theorem ArbFrame.refl (s : Sp F) : ArbFrame s s := ⟨.refl s, rfl, rfl, rfl, rfl, rfl⟩
theorem ArbFrame.trans {s s' s'' : Sp F} (h : ArbFrame s s') (h' : ArbFrame s' s'') : ArbFrame s s'' :=
  ⟨h.toSame.trans h'.toSame, h'.dynamicBodies.trans h.dynamicBodies, h'.roused.trans h.roused,
   h'.staticShapes.trans h.staticShapes, h'.dynamicShapes.trans h.dynamicShapes, h'.constraints.trans h.constraints⟩

/-- Getting a contact array changes only the buffers. -/
theorem getArray_spec (s : Sp F) (h : s.head ≠ none) :
    ∃ s' k o, s.getArray = some (s', k, o) ∧ s'.head = some k ∧
      ∃ B n, s' = { s with bufs := B, bufBound := n, head := some k } := by
  obtain ⟨hd, hh⟩ := Option.ne_none_iff_exists'.1 h
  simp only [getArray, hh, Option.bind_eq_bind, Option.bind_some]
  split_ifs with h1
  · simp only [pushFresh, hh]
    split_ifs with h2
    · exact ⟨_, _, _, rfl, rfl, _, s.bufBound, rfl⟩
    · exact ⟨_, _, _, rfl, rfl, _, _, rfl⟩
  · refine ⟨_, hd, _, by rw [hh]; rfl, hh, s.bufs, s.bufBound, ?_⟩
    rw [← hh]

theorem any_samePair_false {A : Nat → Prop} {L : Nat → List Nat} {rest : List Nat} {s : Sp F}
    (h : ArbInv A L rest s) {x : Nat} (hx : InL L s x) (hc : x ∉ s.cached) :
    s.cached.any (s.samePair (s.arbs x).a (s.arbs x).b) = false := by
  rw [List.any_eq_false]
  intro y hy hs
  exact hc (h.uniq x y (Or.inr hx) (Or.inl hy) hs ▸ hy)

/-- Restoring one arbiter that is not in the cache. -/
theorem restoreArb_spec (s : Sp F) (x : Nat) (hh : s.head ≠ none) (ht : s.Threaded x)
    (hp : s.cached.any (s.samePair (s.arbs x).a (s.arbs x).b) = false) :
    ∃ s', s.restoreArb x = some s' ∧ ArbFrame s s' ∧ s'.cached = s.cached ++ [x] ∧
      s'.arbiters = s.arbiters ++ [x] ∧ (s'.arbs x).stamp = s.stamp ∧
      (∀ y, y ≠ x → s'.arbs y = s.arbs y) ∧ s'.head ≠ none := by
  obtain ⟨s1, k, o, h1, hk, B, n, rfl⟩ := s.getArray_spec hh
  simp only [restoreArb, h1, Option.bind_eq_bind, Option.bind_some]
  refine ⟨_, rfl, ?_⟩
  have hany : ∀ (t : Sp F), (∀ y, (t.arbs y).a = (s.arbs y).a ∧ (t.arbs y).b = (s.arbs y).b) →
      t.cached = s.cached → (t.cacheInsert x) = { t with cached := t.cached ++ [x] } := by
    intro t ht hc
    have : t.cached.any (t.samePair (t.arbs x).a (t.arbs x).b) = false := by
      have e : t.samePair (t.arbs x).a (t.arbs x).b = s.samePair (s.arbs x).a (s.arbs x).b := by
        funext y; simp only [samePair, (ht y).1, (ht y).2, (ht x).1, (ht x).2]
      rw [e, hc]; exact hp
    simp only [cacheInsert, this]; rfl
  have hab : ∀ y, ((Function.update s.arbs x { s.arbs x with mem := .ring k o }) y).a = (s.arbs y).a ∧
      ((Function.update s.arbs x { s.arbs x with mem := .ring k o }) y).b = (s.arbs y).b := by
    intro y
    by_cases hy : y = x
    · subst hy; simp
    · simp [Function.update_of_ne hy]
  rw [hany _ (by intro y; simpa [setArb, pushContacts, setBuf] using hab y)
    (by simp [setArb, pushContacts, setBuf])]
  refine ⟨?_, by simp [setArb, pushContacts, setBuf], by simp [setArb, pushContacts, setBuf],
    by simp [setArb, pushContacts, setBuf], ?_, by simp [setArb, pushContacts, setBuf]⟩
  · refine ⟨⟨rfl, rfl, rfl, rfl, rfl, ?_, rfl, rfl, rfl, rfl, rfl, rfl, rfl, rfl, rfl,
      fun _ => by simp [setArb, pushContacts, setBuf], fun y => ?_⟩,
      rfl, rfl, rfl, rfl, rfl⟩
    rotate_left
    · by_cases hy : y = x
      · subst hy
        right
        simp only [setArb, pushContacts, setBuf, Function.update_self]
        exact ⟨trivial, ht⟩
      · left
        simp only [setArb, pushContacts, setBuf, Function.update_of_ne hy]
    intro y
    by_cases hy : y = x
    · subst hy
      simp only [setArb, pushContacts, setBuf, Function.update_self]
      exact ⟨rfl, rfl, rfl, rfl, rfl, rfl, rfl, rfl⟩
    · simp only [setArb, pushContacts, setBuf, Function.update_of_ne hy]
      exact .refl _
  · intro y hy
    simp [setArb, pushContacts, setBuf, Function.update_of_ne hy]

/-- Restoring the arbiters of a list. -/
theorem restore_loop : ∀ (l : List Nat) (s : Sp F), l.Nodup → (l ≠ [] → s.head ≠ none) →
    (∀ x ∈ l, s.Threaded x) →
    (∀ x ∈ l, x ∉ s.cached ∧ x ∉ s.arbiters) →
    (∀ x ∈ l, s.cached.any (s.samePair (s.arbs x).a (s.arbs x).b) = false) →
    (∀ x ∈ l, ∀ y ∈ l, s.samePair (s.arbs x).a (s.arbs x).b y = true → x = y) →
    s.cached.Nodup → s.arbiters.Nodup →
    ∃ s', l.foldlM restoreArb s = some s' ∧ ArbFrame s s' ∧ s'.cached.Nodup ∧ s'.arbiters.Nodup ∧
      (∀ y, y ∈ s'.cached ↔ y ∈ s.cached ∨ y ∈ l) ∧ (∀ y, y ∈ s'.arbiters ↔ y ∈ s.arbiters ∨ y ∈ l) ∧
      (∀ y ∈ l, (s'.arbs y).stamp = s.stamp) ∧ (∀ y, y ∉ l → s'.arbs y = s.arbs y)
  | [], s, _, _, _, _, _, _, h1, h2 => ⟨s, rfl, .refl s, h1, h2, by simp, by simp, by simp, fun _ _ => rfl⟩
  | x :: l, s, hl, hh, hth, hm, hp, hu, h1, h2 => by
    have hl' := List.nodup_cons.1 hl
    obtain ⟨s1, e1, f1, c1, a1, st1, o1, hd1⟩ := restoreArb_spec s x (hh (by simp)) (hth x (by simp)) (hp x (by simp))
    obtain ⟨s2, e2, f2, n2, n2', c2, a2, st2, o2⟩ := restore_loop l s1 hl'.2 (fun _ => hd1)
      (fun y hy => (threaded_congr f1.arbs f1.arbBound (fun b => by rw [f1.bodies]) y).2 (hth y (by simp [hy])))
      (fun y hy => by
        have := hm y (by simp [hy])
        have hne : y ≠ x := fun e => hl'.1 (e ▸ hy)
        rw [c1, a1]; simp [this.1, this.2, hne])
      (fun y hy => by
        have hne : y ≠ x := fun e => hl'.1 (e ▸ hy)
        have := hp y (by simp [hy])
        rw [List.any_eq_false] at this ⊢
        intro z hz
        rw [c1] at hz
        have e : s1.samePair (s1.arbs y).a (s1.arbs y).b z = s.samePair (s.arbs y).a (s.arbs y).b z := by
          rw [f1.samePair, (f1.arbs y).a, (f1.arbs y).b]
        rw [e]
        rcases List.mem_append.1 hz with hz | hz
        · exact this z hz
        · simp only [List.mem_singleton] at hz
          subst hz
          intro h
          exact hne (hu y (by simp [hy]) z (by simp) h))
      (fun y hy z hz h => by
        have e : s1.samePair (s1.arbs y).a (s1.arbs y).b z = s.samePair (s.arbs y).a (s.arbs y).b z := by
          rw [f1.samePair, (f1.arbs y).a, (f1.arbs y).b]
        rw [e] at h
        exact hu y (by simp [hy]) z (by simp [hz]) h)
      (by rw [c1]; exact nodup_concat h1 (hm x (by simp)).1)
      (by rw [a1]; exact nodup_concat h2 (hm x (by simp)).2)
    refine ⟨s2, by rw [List.foldlM_cons, e1]; exact e2, f1.trans f2, n2, n2', ?_, ?_, ?_, ?_⟩
    · intro y; rw [c2 y, c1]; simp only [List.mem_append, List.mem_cons, List.not_mem_nil, or_false]; tauto
    · intro y; rw [a2 y, a1]; simp only [List.mem_append, List.mem_cons, List.not_mem_nil, or_false]; tauto
    · intro y hy
      rcases List.mem_cons.1 hy with rfl | hy
      · rw [o2 y hl'.1]; exact st1
      · rw [st2 y hy]; exact f1.stamp
    · intro y hy
      rw [List.mem_cons, not_or] at hy
      rw [o2 y hy.2, o1 y hy.1]

/-- Uncaching one arbiter. -/
theorem uncacheArb_spec (s : Sp F) (x : Nat) (hx : x ∈ s.arbiters) (hn : s.arbiters.Nodup)
    (hc : x ∈ s.cached) (hcn : s.cached.Nodup)
    (hu : ∀ y ∈ s.cached, s.samePair (s.arbs x).a (s.arbs x).b y = true → x = y) :
    ∃ s', s.uncacheArb x = some s' ∧ ArbFrame s s' ∧ s'.cached.Nodup ∧ s'.arbiters.Nodup ∧
      (∀ y, y ∈ s'.cached ↔ y ∈ s.cached ∧ y ≠ x) ∧ (∀ y, y ∈ s'.arbiters ↔ y ∈ s.arbiters ∧ y ≠ x) ∧
      (∀ y, (s'.arbs y).stamp = (s.arbs y).stamp) := by
  obtain ⟨l', h1, h2, h3⟩ := swapErase_spec hx hn
  have hp : s.cached.eraseP (s.samePair (s.arbs x).a (s.arbs x).b) = s.cached.erase x := by
    rw [List.erase_eq_eraseP]
    have : ∀ (l : List Nat), (∀ y ∈ l, s.samePair (s.arbs x).a (s.arbs x).b y = true → x = y) →
        l.eraseP (s.samePair (s.arbs x).a (s.arbs x).b) = l.eraseP (fun y => x == y) := by
      intro l
      induction l with
      | nil => intro _; rfl
      | cons z l ih =>
        intro h
        by_cases hz : s.samePair (s.arbs x).a (s.arbs x).b z = true
        · have := h z (by simp) hz
          subst this
          rw [List.eraseP_cons_of_pos hz, List.eraseP_cons_of_pos (by simp)]
        · have hne : x ≠ z := by
            rintro rfl; exact hz (s.samePair_self x)
          rw [List.eraseP_cons_of_neg (by simpa using hz), List.eraseP_cons_of_neg (by simpa using hne),
            ih (fun y hy => h y (by simp [hy]))]
    exact this _ hu
  simp only [uncacheArb, hp, h1, Option.bind_eq_bind, Option.bind_some]
  refine ⟨_, rfl, ?_, hcn.erase x, h2, ?_, h3, ?_⟩
  · refine ⟨⟨rfl, rfl, rfl, rfl, rfl, ?_, rfl, rfl, rfl, rfl, rfl, rfl, rfl, rfl, rfl, id, fun y => .inl ?_⟩, rfl, rfl, rfl, rfl, rfl⟩
    rotate_left
    · by_cases hy : y = x
      · subst hy; simp [setArb]
      · simp [setArb, Function.update_of_ne hy]
    intro y
    by_cases hy : y = x
    · subst hy
      simp only [setArb, Function.update_self]
      exact ⟨rfl, rfl, rfl, rfl, rfl, rfl, rfl, rfl⟩
    · simp only [setArb, Function.update_of_ne hy]
      exact .refl _
  · intro y
    show y ∈ s.cached.erase x ↔ _
    rw [List.Nodup.mem_erase_iff hcn]; tauto
  · intro y
    by_cases hy : y = x
    · subst hy; simp [setArb]
    · simp [setArb, Function.update_of_ne hy]

/-- Uncaching the arbiters of a list. -/
theorem uncache_loop : ∀ (l : List Nat) (s : Sp F), l.Nodup →
    (∀ x ∈ l, x ∈ s.cached ∧ x ∈ s.arbiters) → s.cached.Nodup → s.arbiters.Nodup →
    (∀ x ∈ l, ∀ y ∈ s.cached, s.samePair (s.arbs x).a (s.arbs x).b y = true → x = y) →
    ∃ s', l.foldlM uncacheArb s = some s' ∧ ArbFrame s s' ∧ s'.cached.Nodup ∧ s'.arbiters.Nodup ∧
      (∀ y, y ∈ s'.cached ↔ y ∈ s.cached ∧ y ∉ l) ∧ (∀ y, y ∈ s'.arbiters ↔ y ∈ s.arbiters ∧ y ∉ l) ∧
      (∀ y, (s'.arbs y).stamp = (s.arbs y).stamp)
  | [], s, _, _, h1, h2, _ => ⟨s, rfl, .refl s, h1, h2, by simp, by simp, fun _ => rfl⟩
  | x :: l, s, hl, hm, h1, h2, hu => by
    have hl' := List.nodup_cons.1 hl
    have hx := hm x (by simp)
    obtain ⟨s1, e1, f1, n1, n1', c1, a1, st1⟩ := uncacheArb_spec s x hx.2 h2 hx.1 h1 (hu x (by simp))
    obtain ⟨s2, e2, f2, n2, n2', c2, a2, st2⟩ := uncache_loop l s1 hl'.2
      (fun y hy => by
        have := hm y (by simp [hy])
        have hne : y ≠ x := fun e => hl'.1 (e ▸ hy)
        exact ⟨(c1 y).2 ⟨this.1, hne⟩, (a1 y).2 ⟨this.2, hne⟩⟩) n1 n1'
      (fun y hy z hz h => by
        rw [f1.samePair, (f1.arbs y).a, (f1.arbs y).b] at h
        exact hu y (by simp [hy]) z ((c1 z).1 hz).1 h)
    refine ⟨s2, by rw [List.foldlM_cons, e1]; exact e2, f1.trans f2, n2, n2', ?_, ?_, ?_⟩
    · intro y; rw [c2 y, c1 y]; simp only [List.mem_cons]; tauto
    · intro y; rw [a2 y, a1 y]; simp only [List.mem_cons]; tauto
    · intro y; rw [st2 y, st1 y]

theorem removeCon_foldl : ∀ (l : List Nat) (s : Sp F), s.constraints.Nodup →
    ∃ C, l.foldl (fun s c => ({ s with
        constraints := removeConLoop c s.constraints.length 0 s.constraints s.constraints } : Sp F)) s
      = { s with constraints := C } ∧ C.Nodup ∧ ∀ c, c ∈ C ↔ c ∈ s.constraints ∧ c ∉ l
  | [], s, h => ⟨s.constraints, rfl, h, by simp⟩
  | x :: l, s, h => by
    obtain ⟨C, h1, h2, h3⟩ := removeCon_foldl l { s with constraints := s.constraints.erase x } (h.erase x)
    refine ⟨C, ?_, h2, ?_⟩
    · rw [List.foldl_cons, removeConLoop_eq x _ h]; exact h1
    · intro c
      rw [h3 c]
      show c ∈ s.constraints.erase x ∧ _ ↔ _
      rw [List.Nodup.mem_erase_iff h]
      simp only [List.mem_cons]; tauto

end Sp
end CP
