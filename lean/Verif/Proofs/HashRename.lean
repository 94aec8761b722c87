import Verif.Model.HashSet
import Mathlib.Data.List.Basic

/-! # Hash sets whose elements are renamed -/

namespace CP.HashSet
variable {T U V : Type}

/-- The same set with other names for the elements. -/
def rename (f : U → V) (s : HashSet U) : HashSet V :=
  { entries := s.entries, size := s.size, table := s.table.map fun l => l.map fun b => ⟨b.hash, f b.elt⟩ }

theorem flatten_map_map {α β : Type} (g : α → β) (t : List (List α)) : (t.map fun l => l.map g).flatten = t.flatten.map g := by
  induction t with
  | nil => rfl
  | cons l t ih => rw [List.map_cons, List.flatten_cons, ih, List.flatten_cons, List.map_append]

theorem each_rename (f : U → V) (s : HashSet U) : (s.rename f).each = s.each.map f := by
  simp only [rename, each, flatten_map_map, List.map_map]
  rfl

theorem rename_congr {f g : U → V} {s : HashSet U} (h : ∀ u ∈ s.each, f u = g u) : s.rename f = s.rename g := by
  simp only [rename]
  congr 1
  refine List.map_congr_left fun l hl => List.map_congr_left fun b hb => ?_
  rw [h b.elt (List.mem_map.2 ⟨b, List.mem_flatten.2 ⟨l, hl, hb⟩, rfl⟩)]

theorem find_map {eq : T → U → Bool} {eq' : T → V → Bool} {f : U → V} {t : T} : ∀ {l : List (Bin U)}, (∀ b ∈ l, eq t b.elt = eq' t (f b.elt)) →
    (l.map fun b => (⟨b.hash, f b.elt⟩ : Bin V)).find? (fun b => eq' t b.elt) = (l.find? fun b => eq t b.elt).map fun b => ⟨b.hash, f b.elt⟩ := by
  intro l
  induction l with
  | nil => exact fun _ => rfl
  | cons b r ih =>
    intro h
    simp only [List.map_cons, List.find?_cons, ← h b (by simp)]
    cases eq t b.elt with
    | true => rfl
    | false => exact ih fun c hc => h c (by simp [hc])

theorem eraseP_map {eq : T → U → Bool} {eq' : T → V → Bool} {f : U → V} {t : T} : ∀ {l : List (Bin U)}, (∀ b ∈ l, eq t b.elt = eq' t (f b.elt)) →
    (l.map fun b => (⟨b.hash, f b.elt⟩ : Bin V)).eraseP (fun b => eq' t b.elt) = (l.eraseP fun b => eq t b.elt).map fun b => ⟨b.hash, f b.elt⟩ := by
  intro l
  induction l with
  | nil => exact fun _ => rfl
  | cons b r ih =>
    intro h
    have hb := h b (by simp)
    cases hq : eq t b.elt with
    | true => simp [List.eraseP_cons, ← hb, hq]
    | false =>
      simp only [List.map_cons, List.eraseP_cons, ← hb, hq, cond_false, List.cons.injEq, true_and, Bool.false_eq_true, if_false]
      exact ih fun c hc => h c (by simp [hc])

theorem bucket_mem {s : HashSet U} {i : Nat} {l : List (Bin U)} (h : s.table[i]? = some l) : ∀ b ∈ l, b.elt ∈ s.each := by
  intro b hb
  exact List.mem_map.2 ⟨b, List.mem_flatten.2 ⟨l, List.mem_of_getElem? h, hb⟩, rfl⟩

theorem find_rename {eq : T → U → Bool} {eq' : T → V → Bool} {f : U → V} {s : HashSet U} {hash : Nat} {t : T}
    (h : ∀ u ∈ s.each, eq t u = eq' t (f u)) : find eq' (s.rename f) hash t = (find eq s hash t).map (Option.map f) := by
  simp only [find, rename, List.getElem?_map]
  cases hb : s.table[hash % s.size]? with
  | none => rfl
  | some l =>
    simp only [Option.map_some, find_map fun b hb' => h b.elt (bucket_mem hb b hb'), Option.map_map, Option.some.injEq]
    rfl

theorem remove_rename {eq : T → U → Bool} {eq' : T → V → Bool} {f : U → V} {s : HashSet U} {hash : Nat} {t : T}
    (h : ∀ u ∈ s.each, eq t u = eq' t (f u)) :
    remove eq' (s.rename f) hash t = (remove eq s hash t).map fun r => (r.1.rename f, r.2.map f) := by
  simp only [remove, rename, List.getElem?_map]
  cases hb : s.table[hash % s.size]? with
  | none => rfl
  | some l =>
    have hl : ∀ b ∈ l, eq t b.elt = eq' t (f b.elt) := fun b hb' => h b.elt (bucket_mem hb b hb')
    simp only [Option.map_some, find_map hl, eraseP_map hl]
    cases hq : l.find? fun b => eq t b.elt with
    | none => rfl
    | some b => simp [List.map_set]

theorem push_map (f : U → V) (n : Nat) (tbl : List (List (Bin U))) (b : Bin U) :
    push n (tbl.map fun l => l.map fun b => (⟨b.hash, f b.elt⟩ : Bin V)) ⟨b.hash, f b.elt⟩ = (push n tbl b).map fun l => l.map fun b => ⟨b.hash, f b.elt⟩ := by
  simp only [push]
  apply List.ext_getElem?
  intro i
  simp only [List.getElem?_modify, List.getElem?_map]
  cases tbl[i]? with
  | none => simp
  | some l =>
    by_cases e : b.hash % n = i <;> simp [e]

theorem resize_rename (f : U → V) (s : HashSet U) : (s.rename f).resize = s.resize.map (rename f) := by
  simp only [resize, rename]
  cases nextPrime (s.size + 1) with
  | none => rfl
  | some n =>
    simp only [Option.map_some, Option.some.injEq, HashSet.mk.injEq, true_and, flatten_map_map]
    have : (List.replicate n ([] : List (Bin V))) = (List.replicate n ([] : List (Bin U))).map fun l => l.map fun b => ⟨b.hash, f b.elt⟩ := by simp
    rw [this]
    generalize List.replicate n ([] : List (Bin U)) = tbl
    generalize s.table.flatten = bs
    induction bs generalizing tbl with
    | nil => rfl
    | cons b r ih =>
      simp only [List.map_cons, List.foldl_cons]
      rw [push_map]
      exact ih _

theorem insert_rename {eq : T → U → Bool} {eq' : T → V → Bool} {f : U → V} {s : HashSet U} {hash : Nat} {t : T} {u : U}
    (h : ∀ u ∈ s.each, eq t u = eq' t (f u)) :
    insert eq' (s.rename f) hash t (f u) = (insert eq s hash t u).map fun r => (r.1.rename f, f r.2) := by
  have hr : ∀ s : HashSet U, s.rename f = { entries := s.entries, size := s.size, table := s.table.map fun l => l.map fun b => (⟨b.hash, f b.elt⟩ : Bin V) } := fun _ => rfl
  rw [hr s]
  simp only [insert, List.getElem?_map]
  cases hb : s.table[hash % s.size]? with
  | none => rfl
  | some l =>
    have hl : ∀ b ∈ l, eq t b.elt = eq' t (f b.elt) := fun b hb' => h b.elt (bucket_mem hb b hb')
    simp only [Option.map_some, find_map hl]
    cases hq : l.find? fun b => eq t b.elt with
    | some b => rfl
    | none =>
      simp only [Option.map_none]
      have e : (HashSet.mk (s.entries + 1) s.size ((s.table.map fun l => l.map fun b => (⟨b.hash, f b.elt⟩ : Bin V)).set (hash % s.size)
          (⟨hash, f u⟩ :: l.map fun b => ⟨b.hash, f b.elt⟩)) : HashSet V) =
          rename f { s with entries := s.entries + 1, table := s.table.set (hash % s.size) (⟨hash, u⟩ :: l) } := by
        simp [rename, List.map_set]
      rw [e, resize_rename]
      split
      · rw [Option.map_map, Option.map_map]; rfl
      · rfl

/-! ### Where elements come from -/

theorem mem_set_flatten {α : Type} {t : List (List α)} {i : Nat} {l : List α} {x : α} (h : x ∈ (t.set i l).flatten) : x ∈ l ∨ x ∈ t.flatten := by
  obtain ⟨m, hm, hx⟩ := List.mem_flatten.1 h
  rcases List.mem_or_eq_of_mem_set hm with h | h
  · exact .inr (List.mem_flatten.2 ⟨m, h, hx⟩)
  · exact .inl (h ▸ hx)

theorem mem_push {n : Nat} {tbl : List (List (Bin U))} {b x : Bin U} (h : x ∈ (push n tbl b).flatten) : x = b ∨ x ∈ tbl.flatten := by
  simp only [push, List.modify_eq_set_getElem?] at h
  cases e : tbl[b.hash % n]? with
  | none => rw [e] at h; exact .inr h
  | some l =>
    rw [e] at h
    rcases mem_set_flatten h with h | h
    · rcases List.mem_cons.1 h with h | h
      · exact .inl h
      · exact .inr (List.mem_flatten.2 ⟨l, List.mem_of_getElem? e, h⟩)
    · exact .inr h

theorem mem_resize {s s' : HashSet U} (h : s.resize = some s') : ∀ u ∈ s'.each, u ∈ s.each := by
  simp only [resize, Option.map_eq_some_iff] at h
  obtain ⟨n, _, rfl⟩ := h
  intro u hu
  obtain ⟨b, hb, rfl⟩ := List.mem_map.1 hu
  have : b ∈ s.table.flatten ∨ b ∈ (List.replicate n ([] : List (Bin U))).flatten := by
    revert hb
    simp only
    generalize List.replicate n ([] : List (Bin U)) = tbl
    generalize s.table.flatten = bs
    intro hb
    induction bs generalizing tbl with
    | nil => exact .inr hb
    | cons c r ih =>
      rcases ih _ hb with h | h
      · exact .inl (by simp [h])
      · rcases mem_push h with h | h
        · exact .inl (by simp [h])
        · exact .inr h
  rcases this with h | h
  · exact List.mem_map.2 ⟨b, h, rfl⟩
  · simp at h

theorem mem_insert {eq : T → U → Bool} {s s' : HashSet U} {hash : Nat} {t : T} {u v : U} (h : insert eq s hash t u = some (s', v)) :
    ∀ x ∈ s'.each, x = u ∨ x ∈ s.each := by
  simp only [insert] at h
  cases hb : s.table[hash % s.size]? with
  | none => rw [hb] at h; cases h
  | some l =>
    rw [hb] at h
    simp only at h
    cases hq : l.find? fun b => eq t b.elt with
    | some b => rw [hq] at h; cases h; exact fun x hx => .inr hx
    | none =>
      rw [hq] at h
      simp only at h
      have key : ∀ x ∈ ({ s with entries := s.entries + 1, table := s.table.set (hash % s.size) (⟨hash, u⟩ :: l) } : HashSet U).each, x = u ∨ x ∈ s.each := by
        intro x hx
        obtain ⟨b, hb', rfl⟩ := List.mem_map.1 hx
        rcases mem_set_flatten hb' with h | h
        · rcases List.mem_cons.1 h with h | h
          · exact .inl (by rw [h])
          · exact .inr (bucket_mem hb b h)
        · exact .inr (List.mem_map.2 ⟨b, h, rfl⟩)
      split at h
      · rw [Option.map_eq_some_iff] at h
        obtain ⟨r, hr, e⟩ := h
        cases e
        exact fun x hx => key x (mem_resize hr x hx)
      · cases h
        exact key

theorem insert_ret {eq : T → U → Bool} {s s' : HashSet U} {hash : Nat} {t : T} {u v : U} (h : insert eq s hash t u = some (s', v)) :
    v = u ∨ (v ∈ s.each ∧ eq t v = true) := by
  simp only [insert] at h
  cases hb : s.table[hash % s.size]? with
  | none => rw [hb] at h; cases h
  | some l =>
    rw [hb] at h
    simp only at h
    cases hq : l.find? fun b => eq t b.elt with
    | some b =>
      rw [hq] at h
      cases h
      exact .inr ⟨bucket_mem hb b (List.mem_of_find?_eq_some hq), by simpa using List.find?_some hq⟩
    | none =>
      rw [hq] at h
      simp only at h
      split at h
      · rw [Option.map_eq_some_iff] at h
        obtain ⟨r, hr, e⟩ := h
        cases e
        exact .inl rfl
      · cases h
        exact .inl rfl

theorem mem_remove {eq : T → U → Bool} {s s' : HashSet U} {hash : Nat} {t : T} {v : Option U} (h : remove eq s hash t = some (s', v)) :
    (∀ x ∈ s'.each, x ∈ s.each) ∧ ∀ x, v = some x → x ∈ s.each ∧ eq t x = true := by
  simp only [remove] at h
  cases hb : s.table[hash % s.size]? with
  | none => rw [hb] at h; cases h
  | some l =>
    rw [hb] at h
    simp only at h
    cases hq : l.find? fun b => eq t b.elt with
    | none => rw [hq] at h; cases h; exact ⟨fun x hx => hx, nofun⟩
    | some b =>
      rw [hq] at h
      cases h
      refine ⟨fun x hx => ?_, fun x hx => ?_⟩
      · obtain ⟨c, hc, rfl⟩ := List.mem_map.1 hx
        rcases mem_set_flatten hc with h | h
        · exact bucket_mem hb c (List.mem_of_mem_eraseP h)
        · exact List.mem_map.2 ⟨c, h, rfl⟩
      · cases hx
        exact ⟨bucket_mem hb b (List.mem_of_find?_eq_some hq), by simpa using List.find?_some hq⟩

theorem mem_find {eq : T → U → Bool} {s : HashSet U} {hash : Nat} {t : T} {x : U} (h : find eq s hash t = some (some x)) :
    x ∈ s.each ∧ eq t x = true := by
  simp only [find] at h
  cases hb : s.table[hash % s.size]? with
  | none => rw [hb] at h; cases h
  | some l =>
    rw [hb] at h
    simp only [Option.some.injEq, Option.map_eq_some_iff] at h
    obtain ⟨b, hq, rfl⟩ := h
    exact ⟨bucket_mem hb b (List.mem_of_find?_eq_some hq), by simpa using List.find?_some hq⟩

end CP.HashSet
