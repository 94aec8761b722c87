import Verif.Model.Space
import Mathlib.Data.List.Nodup
import Mathlib.Tactic.Tauto

/-! # Lists, loops and linked lists used by the proofs about the space -/

namespace CP

/-- Total correctness of a loop that may panic. -/
theorem foldlM_loop {σ α : Type} {f : σ → α → Option σ} (P : List α → σ → Prop)
    (h : ∀ x l s, P (x :: l) s → ∃ s', f s x = some s' ∧ P l s') :
    ∀ l s, P l s → ∃ s', l.foldlM f s = some s' ∧ P [] s'
  | [], s, hs => ⟨s, rfl, hs⟩
  | x :: l, s, hs => by
    obtain ⟨s', h1, h2⟩ := h x l s hs
    obtain ⟨s'', h3, h4⟩ := foldlM_loop P h l s' h2
    exact ⟨s'', by simp [List.foldlM_cons, h1, h3], h4⟩

/-- Loop invariant of a plain loop. -/
theorem foldl_loop {σ α : Type} {f : σ → α → σ} (P : List α → σ → Prop)
    (h : ∀ x l s, P (x :: l) s → P l (f s x)) : ∀ l s, P l s → P [] (l.foldl f s)
  | [], _, hs => hs
  | x :: l, s, hs => foldl_loop P h l (f s x) (h x l s hs)

/-- `start`, `next start`, ... is exactly the list. -/
def IsChain (next : Nat → Option Nat) : Option Nat → List Nat → Prop
  | st, [] => st = none
  | st, x :: l => st = some x ∧ IsChain next (next x) l

theorem IsChain.congr {next next' : Nat → Option Nat} : ∀ {l : List Nat} {st : Option Nat},
    (∀ x ∈ l, next' x = next x) → IsChain next st l → IsChain next' st l
  | [], _, _, h => h
  | x :: l, st, he, h => ⟨h.1, by
      rw [he x (by simp)]
      exact IsChain.congr (fun y hy => he y (by simp [hy])) h.2⟩

theorem walk_of_chain {next : Nat → Option Nat} : ∀ {l : List Nat} {n : Nat} {st : Option Nat},
    IsChain next st l → l.length ≤ n → walk next n st = some l
  | [], n, st, h, _ => by cases h; cases n <;> rfl
  | x :: l, 0, st, h, hn => by simp at hn
  | x :: l, n + 1, st, h, hn => by
    rw [h.1]
    simp only [walk]
    rw [walk_of_chain h.2 (by simpa using hn)]
    rfl

theorem IsChain.unique {next : Nat → Option Nat} : ∀ {l l' : List Nat} {st : Option Nat},
    IsChain next st l → IsChain next st l' → l = l'
  | [], [], _, _, _ => rfl
  | [], x :: l, st, h, h' => by cases h; cases h'.1
  | x :: l, [], st, h, h' => by cases h'; cases h.1
  | x :: l, y :: l', st, h, h' => by
    have : x = y := by have := h.1.symm.trans h'.1; simpa using this
    subst this
    rw [IsChain.unique h.2 h'.2]

/-- The converse: a walk that ends has found the chain. -/
theorem chain_of_walk {next : Nat → Option Nat} : ∀ {n : Nat} {st : Option Nat} {l : List Nat},
    walk next n st = some l → IsChain next st l
  | n, none, l, h => by
    have : l = [] := by cases n <;> simp [walk] at h <;> exact h
    subst this; rfl
  | 0, some x, l, h => by simp [walk] at h
  | n + 1, some x, l, h => by
    simp only [walk, Option.map_eq_some_iff] at h
    obtain ⟨l', h1, rfl⟩ := h
    exact ⟨rfl, chain_of_walk h1⟩

/-- A chain repeats no node. -/
theorem IsChain.nodup {next : Nat → Option Nat} : ∀ {l : List Nat} {st : Option Nat},
    IsChain next st l → l.Nodup := by
  -- two suffixes that start with the same node are equal
  have key : ∀ {l1 l2 : List Nat} {st : Option Nat}, IsChain next st (l1 ++ l2) →
      ∃ st', IsChain next st' l2 := by
    intro l1
    induction l1 with
    | nil => intro l2 st h; exact ⟨st, h⟩
    | cons x l1 ih => intro l2 st h; exact ih h.2
  intro l
  induction l with
  | nil => intro _ _; simp
  | cons x l ih =>
    intro st h
    refine List.nodup_cons.2 ⟨?_, ih h.2⟩
    intro hx
    obtain ⟨l1, l2, rfl⟩ := List.append_of_mem hx
    obtain ⟨st', h'⟩ := key h.2
    have h1 : IsChain next (next x) (l1 ++ x :: l2) := h.2
    have h2 : IsChain next (next x) l2 := h'.2
    have := congrArg List.length (h1.unique h2)
    simp at this
    omega

theorem nodup_length_le {l : List Nat} {n : Nat} (h : l.Nodup) (hb : ∀ x ∈ l, x < n) : l.length ≤ n := by
  have : l ⊆ List.range n := fun x hx => by simpa using hb x hx
  have := List.Subperm.length_le (h.subperm this)
  simpa using this

/-- A walk that runs out of fuel over fewer objects than fuel never ends. -/
theorem walk_none_diverges {next : Nat → Option Nat} {n : Nat} {st : Option Nat}
    (h : walk next n st = none) (hst : ∀ x, st = some x → x < n)
    (hn : ∀ x y, x < n → next x = some y → y < n) : ¬ ∃ l, IsChain next st l := by
  rintro ⟨l, hl⟩
  have hb : ∀ (l : List Nat) (st : Option Nat), IsChain next st l → (∀ x, st = some x → x < n) →
      ∀ x ∈ l, x < n := by
    intro l
    induction l with
    | nil => intro _ _ _ x hx; simp at hx
    | cons y l ih =>
      intro st hc hs x hx
      have hy := hs y hc.1
      rcases List.mem_cons.1 hx with rfl | hx
      · exact hy
      · exact ih _ hc.2 (fun z hz => hn y z hy hz) x hx
  have := walk_of_chain hl (nodup_length_le hl.nodup (hb l st hl hst))
  rw [h] at this
  simp at this

/-! ## Doubly linked lists -/

/-- The nodes of `l` are linked forwards and backwards, the first one backwards to `p`. -/
def DL (th : Nat → Thread) : Option Nat → List Nat → Prop
  | _, [] => True
  | p, x :: l => (th x).prev = p ∧ (th x).next = l.head? ∧ DL th (some x) l

theorem DL.congr {th th' : Nat → Thread} : ∀ {l : List Nat} {p : Option Nat},
    (∀ x ∈ l, th' x = th x) → DL th p l → DL th' p l
  | [], _, _, _ => trivial
  | x :: l, p, he, h => by
    refine ⟨?_, ?_, DL.congr (fun y hy => he y (by simp [hy])) h.2.2⟩
    · rw [he x (by simp)]; exact h.1
    · rw [he x (by simp)]; exact h.2.1

theorem DL.chain {th : Nat → Thread} : ∀ {l : List Nat} {p : Option Nat}, DL th p l →
    IsChain (fun x => (th x).next) l.head? l
  | [], _, _ => rfl
  | x :: l, p, h => ⟨rfl, by
      show IsChain _ ((th x).next) l
      rw [h.2.1]; exact h.2.2.chain⟩

theorem DL.head_prev {th : Nat → Thread} {p : Option Nat} {x : Nat} {l : List Nat} (h : DL th p (x :: l)) :
    (th x).prev = p := h.1

/-- Changing the predecessor of the first node. -/
theorem DL.reprev {th th' : Nat → Thread} {p p' : Option Nat} {l : List Nat} (h : DL th p l) (hn : l.Nodup)
    (hh : ∀ y, l.head? = some y → th' y = { th y with prev := p' })
    (he : ∀ y, l.head? ≠ some y → y ∈ l → th' y = th y) : DL th' p' l := by
  cases l with
  | nil => trivial
  | cons y l =>
    have h1 := hh y rfl
    refine ⟨by rw [h1], by rw [h1]; exact h.2.1, h.2.2.congr ?_⟩
    intro z hz
    refine he z ?_ (by simp [hz])
    have : y ∉ l := (List.nodup_cons.1 hn).1
    simp only [List.head?_cons, Option.some.injEq, ne_eq]
    rintro rfl; exact this hz

/-- Splitting at a node. -/
theorem DL.split {th : Nat → Thread} : ∀ {l1 : List Nat} {p : Option Nat} {x : Nat} {l2 : List Nat},
    DL th p (l1 ++ x :: l2) →
    (th x).prev = (l1.getLast?.orElse fun _ => p) ∧ (th x).next = l2.head? ∧ DL th (some x) l2
  | [], p, x, l2, h => ⟨by simpa using h.1, h.2.1, h.2.2⟩
  | [z], p, x, l2, h => by
    have := DL.split (l1 := []) (p := some z) h.2.2
    simpa using this
  | z :: w :: l1, p, x, l2, h => by
    have := DL.split (l1 := w :: l1) (p := some z) h.2.2
    refine ⟨?_, this.2⟩
    rw [this.1, List.getLast?_cons_cons]
    simp [List.getLast?_cons]

/-- Unlinking the node between two parts. -/
theorem DL.unlink {th th' : Nat → Thread} : ∀ {l1 : List Nat} {p : Option Nat} {x : Nat} {l2 : List Nat},
    DL th p (l1 ++ x :: l2) → (l1 ++ x :: l2).Nodup →
    (∀ y, l1.getLast? = some y → th' y = { th y with next := l2.head? }) →
    (∀ y, l2.head? = some y → th' y = { th y with prev := (l1.getLast?.orElse fun _ => p) }) →
    (∀ y ∈ l1 ++ l2, l1.getLast? ≠ some y → l2.head? ≠ some y → th' y = th y) →
    DL th' p (l1 ++ l2)
  | [], p, x, l2, h, hn, _, h2, h3 => by
    have hn' := List.nodup_cons.1 hn
    exact DL.reprev (p' := p) h.2.2 hn'.2 (fun y hy => by simpa using h2 y hy)
      (fun y hy hm => h3 y (by simpa using hm) (by simp) hy)
  | z :: l1, p, x, l2, h, hn, h1, h2, h3 => by
    have hn' := List.nodup_cons.1 hn
    have hz1 : z ∉ l1 := fun e => hn'.1 (by simp [e])
    have hz2 : z ∉ l2 := fun e => hn'.1 (by simp [e])
    have hzh : l2.head? ≠ some z := fun e => hz2 (List.mem_of_mem_head? (by simpa using e))
    have hlast : ∀ y, l1.getLast? = some y → (z :: l1).getLast? = some y := by
      intro y hy
      cases l1 with
      | nil => simp at hy
      | cons w l1 => rw [List.getLast?_cons_cons]; exact hy
    refine ⟨?_, ?_, DL.unlink (x := x) h.2.2 hn'.2 (fun y hy => h1 y (hlast y hy)) ?_ ?_⟩
    · by_cases hl : (z :: l1).getLast? = some z
      · rw [h1 z hl]; exact h.1
      · rw [h3 z (by simp) hl hzh]; exact h.1
    · cases l1 with
      | nil => rw [h1 z (by simp)]; simp
      | cons w l1 =>
        have hl : (z :: w :: l1).getLast? ≠ some z := by
          rw [List.getLast?_cons_cons]
          intro e
          exact hz1 (List.mem_of_getLast? e)
        rw [h3 z (by simp) hl hzh, h.2.1]; simp
    · intro y hy
      rw [h2 y hy]
      cases l1 with
      | nil => simp
      | cons w l1 => rw [List.getLast?_cons_cons]; simp [List.getLast?_cons]
    · intro y hy hy1 hy2
      have hyz : y ≠ z := by
        rintro rfl
        rcases List.mem_append.1 hy with h | h
        · exact hz1 h
        · exact hz2 h
      refine h3 y (by simp only [List.cons_append, List.mem_cons]; exact Or.inr hy) ?_ hy2
      cases l1 with
      | nil => simp; exact fun e => hyz e.symm
      | cons w l1 => rw [List.getLast?_cons_cons]; exact hy1

/-! ## Deleting from lists -/

theorem swapErase_spec {l : List Nat} {x : Nat} (hx : x ∈ l) (hn : l.Nodup) :
    ∃ l', swapErase l x = some l' ∧ l'.Nodup ∧ ∀ y, y ∈ l' ↔ y ∈ l ∧ y ≠ x := by
  obtain ⟨l1, l2, rfl⟩ := List.append_of_mem hx
  have hx1 : x ∉ l1 := fun h => by
    have := (List.nodup_append.1 hn).2.2 x h x (by simp)
    exact this rfl
  have hx2 : x ∉ l2 := (List.nodup_cons.1 (List.nodup_append.1 hn).2.1).1
  have hi : (l1 ++ x :: l2).idxOf x = l1.length := by
    rw [List.idxOf_append_of_notMem hx1]; simp
  simp only [swapErase, if_pos hx, hi]
  refine ⟨_, rfl, ?_⟩
  rcases List.eq_nil_or_concat l2 with rfl | ⟨l3, z, rfl⟩
  · have : ((l1 ++ [x]).set l1.length ((l1 ++ [x]).getLastD 0)).dropLast = l1 := by
      simp [List.set_append_right]
    rw [this]
    refine ⟨(List.nodup_append.1 hn).1, fun y => ?_⟩
    constructor
    · intro hy; exact ⟨by simp [hy], fun e => hx1 (e ▸ hy)⟩
    · rintro ⟨hy, hne⟩
      simp at hy
      exact hy.resolve_right hne
  · have : ((l1 ++ x :: (l3 ++ [z])).set l1.length ((l1 ++ x :: (l3 ++ [z])).getLastD 0)).dropLast
        = l1 ++ z :: l3 := by
      have e1 : (l1 ++ x :: (l3 ++ [z])).getLastD 0 = z := by
        rw [List.getLastD_eq_getLast?]
        simp [List.getLast?_append, List.getLast?_cons]
      rw [e1, List.set_append_right _ _ (le_refl _)]
      simp only [Nat.sub_self, List.set_cons_zero]
      have : l1 ++ z :: (l3 ++ [z]) = (l1 ++ z :: l3) ++ [z] := by simp
      rw [this, List.dropLast_concat]
    have hp : (l1 ++ z :: l3).Perm (l1 ++ (l3 ++ [z])) :=
      List.Perm.append_left l1 (by simpa using (List.perm_append_singleton z l3).symm)
    rw [show l3.concat z = l3 ++ [z] by simp] at hn hx2 ⊢
    rw [this]
    have hn' : (l1 ++ (l3 ++ [z])).Nodup :=
      hn.sublist (List.Sublist.append_left (List.sublist_cons_self x _) l1)
    refine ⟨hp.nodup_iff.2 hn', fun y => ?_⟩
    rw [hp.mem_iff]
    constructor
    · intro hy
      refine ⟨by simp at hy ⊢; tauto, ?_⟩
      rintro rfl
      rcases List.mem_append.1 hy with h | h
      · exact hx1 h
      · exact hx2 h
    · rintro ⟨hy, hne⟩
      simp at hy ⊢
      tauto

theorem getD_eq {l : List Nat} {i : Nat} (h : i < l.length) : l.getD i 0 = l[i] := by
  rw [List.getD, List.getElem?_eq_getElem h]; rfl

theorem removeConLoop_done (c : Nat) : ∀ (n i : Nat) (back cur : List Nat),
    (∀ j < n, back.getD (i + j) 0 ≠ c) → Sp.removeConLoop c n i back cur = cur
  | 0, _, _, _, _ => rfl
  | n + 1, i, back, cur, h => by
    simp only [Sp.removeConLoop]
    rw [if_neg (by simpa using h 0 (by omega))]
    exact removeConLoop_done c n (i + 1) back cur
      (fun j hj => by have := h (j + 1) (by omega); rwa [show i + 1 + j = i + (j + 1) by omega])

theorem removeConLoop_from (c : Nat) (l : List Nat) (hn : l.Nodup) : ∀ (n i : Nat), i + n = l.length →
    (∀ j < i, l.getD j 0 ≠ c) → Sp.removeConLoop c n i l l = l.erase c
  | 0, i, hl, h => by
    simp only [Sp.removeConLoop]
    symm
    apply List.erase_of_not_mem
    intro hc
    obtain ⟨j, hj, rfl⟩ := List.getElem_of_mem hc
    exact h j (by omega) (by rw [getD_eq hj])
  | n + 1, i, hl, h => by
    simp only [Sp.removeConLoop]
    have hi : i < l.length := by omega
    split_ifs with hc
    · rw [getD_eq hi] at hc
      have hidx : l.idxOf c = i := by
        rw [← hc]; exact hn.idxOf_getElem i hi
      have he : l.eraseIdx i = l.erase c := by
        rw [List.erase_eq_eraseIdx_of_idxOf hidx]
      rw [removeConLoop_done]
      · exact he
      · intro j hj
        have hlen : (l.eraseIdx i).length = l.length - 1 := by
          rw [List.length_eraseIdx_of_lt hi]
        have hjj : i + 1 + j < (l.eraseIdx i ++ l.drop (l.eraseIdx i).length).length := by
          simp only [List.length_append, List.length_drop, hlen]; omega
        rw [getD_eq hjj]
        intro hcc
        have hm : c ∈ l.eraseIdx i ++ l.drop (l.eraseIdx i).length := hcc ▸ List.getElem_mem hjj
        rcases List.mem_append.1 hm with hm | hm
        · rw [he] at hm
          exact ((List.Nodup.mem_erase_iff hn).1 hm).1 rfl
        · rw [hlen] at hm
          obtain ⟨k, hk, hk'⟩ := List.getElem_of_mem hm
          simp only [List.length_drop] at hk
          rw [List.getElem_drop] at hk'
          have := hn.getElem_inj_iff.1 (hk'.trans hc.symm)
          omega
    · exact removeConLoop_from c l hn n (i + 1) (by omega) (fun j hj => by
        rcases Nat.lt_succ_iff_lt_or_eq.1 hj with hj | rfl
        · exact h j hj
        · exact hc)

theorem removeConLoop_eq (c : Nat) (l : List Nat) (hn : l.Nodup) :
    Sp.removeConLoop c l.length 0 l l = l.erase c :=
  removeConLoop_from c l hn l.length 0 (by omega) (fun j hj => by omega)

end CP
