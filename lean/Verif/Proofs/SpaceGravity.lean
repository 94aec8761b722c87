import Verif.Proofs.SpaceReach
import Verif.Spec.Lists

/-! # `SetGravity`, exactly -/

namespace CP
variable {F : Type}
namespace Sp

/-- What the loop of `SetGravity` does to the list of components. -/
def gravList : Nat → Nat → List Nat → List Nat → List Nat
  | 0, _, _, l => l
  | n + 1, i, back, l =>
    gravList n (i + 1) (l.erase (back.getD i 0) ++ back.drop (l.erase (back.getD i 0)).length) (l.erase (back.getD i 0))

theorem gravList_done {x : Nat} : ∀ (n i k : Nat) (l : List Nat), x ∉ l → l.length ≤ i → i + n ≤ l.length + k →
    gravList n i (l ++ List.replicate k x) l = l
  | 0, _, _, _, _, _, _ => rfl
  | n + 1, i, k, l, hx, hi, hk => by
    have e0 : (l ++ List.replicate k x).getD i 0 = x := by
      rw [List.getD_eq_getElem?_getD, List.getElem?_append_right hi, List.getElem?_replicate, if_pos (by omega)]; rfl
    have e : l.erase ((l ++ List.replicate k x).getD i 0) = l := by rw [e0]; exact List.erase_of_not_mem hx
    rw [gravList, e, List.drop_left]
    exact gravList_done n (i + 1) k l hx (by omega) (by omega)

theorem gravList_eq : ∀ (rem pre : List Nat) (h : rem ≠ []), (pre ++ rem).Nodup →
    gravList (rem.length + pre.length) pre.length (pre ++ rem ++ List.replicate pre.length (rem.getLast h)) (pre ++ rem) =
      pre ++ odds rem.dropLast
  | [], _, h, _ => absurd rfl h
  | [x], pre, _, hn => by
    have hx : x ∉ pre := fun q => by
      have := (List.nodup_append.1 hn).2.2 x q x (by simp); exact this rfl
    have e : (pre ++ [x]).erase x = pre := by
      rw [List.erase_append_right _ hx]; simp
    have e0 : (pre ++ [x] ++ List.replicate pre.length x).getD pre.length 0 = x := by
      simp [List.getD_eq_getElem?_getD]
    have e1 : [x].length + pre.length = pre.length + 1 := by simp; omega
    simp only [List.getLast_singleton, e1]
    rw [gravList, e0, e]
    have e2 : (pre ++ [x] ++ List.replicate pre.length x).drop pre.length = List.replicate (pre.length + 1) x := by
      rw [List.append_assoc, List.drop_left]; rfl
    rw [e2, gravList_done _ _ _ _ hx (by omega) (by omega)]
    simp [odds]
  | [x, y], pre, _, hn => by
    have hx : x ∉ pre := fun q => (List.nodup_append.1 hn).2.2 x q x (by simp) rfl
    have hy : y ∉ pre := fun q => (List.nodup_append.1 hn).2.2 y q y (by simp) rfl
    have e : (pre ++ [x, y]).erase x = pre ++ [y] := by
      rw [List.erase_append_right _ hx]; simp
    have e0 : (pre ++ [x, y] ++ List.replicate pre.length y).getD pre.length 0 = x := by
      simp [List.getD_eq_getElem?_getD]
    have e1 : [x, y].length + pre.length = pre.length + 1 + 1 := by simp; omega
    have e2 : (pre ++ [x, y] ++ List.replicate pre.length y).drop (pre ++ [y]).length = List.replicate (pre.length + 1) y := by
      have : pre ++ [x, y] ++ List.replicate pre.length y = (pre ++ [x]) ++ List.replicate (pre.length + 1) y := by
        simp [List.replicate_succ]
      rw [this, List.drop_left' (by simp)]
    have e3 : (pre ++ [y] ++ List.replicate (pre.length + 1) y).getD (pre.length + 1) 0 = y := by
      rw [List.getD_eq_getElem?_getD, List.getElem?_append_right (by simp), List.getElem?_replicate, if_pos (by simp)]; rfl
    have e4 : (pre ++ [y]).erase y = pre := by
      rw [List.erase_append_right _ hy]; simp
    have e5 : (pre ++ [y] ++ List.replicate (pre.length + 1) y).drop pre.length = List.replicate (pre.length + 2) y := by
      rw [List.append_assoc, List.drop_left]; rfl
    have e6 : [x, y].getLast (by simp) = y := rfl
    simp only [e6, e1]
    rw [gravList, e0, e, e2, gravList, e3, e4, e5, gravList_done _ _ _ _ hy (by omega) (by omega)]
    simp [odds]
  | x :: y :: z :: r, pre, _, hn => by
    have hx : x ∉ pre := fun q => (List.nodup_append.1 hn).2.2 x q x (by simp) rfl
    have e : (pre ++ x :: y :: z :: r).erase x = pre ++ y :: z :: r := by
      rw [List.erase_append_right _ hx]; simp
    have hl : (x :: y :: z :: r).getLast (by simp) = (z :: r).getLast (by simp) := rfl
    have e0 : (pre ++ x :: y :: z :: r ++ List.replicate pre.length ((z :: r).getLast (by simp))).getD pre.length 0 = x := by
      simp [List.getD_eq_getElem?_getD]
    have e1 : (x :: y :: z :: r).length + pre.length = ((z :: r).length + (pre ++ [y]).length) + 1 := by simp; omega
    have e2 : (pre ++ x :: y :: z :: r ++ List.replicate pre.length ((z :: r).getLast (by simp))).drop
        (pre ++ y :: z :: r).length = List.replicate (pre ++ [y]).length ((z :: r).getLast (by simp)) := by
      have : pre ++ x :: y :: z :: r ++ List.replicate pre.length ((z :: r).getLast (by simp)) =
          (pre ++ x :: y :: (z :: r).dropLast) ++ List.replicate (pre ++ [y]).length ((z :: r).getLast (by simp)) := by
        have h2 : (z :: r).dropLast ++ [(z :: r).getLast (by simp)] = z :: r := List.dropLast_append_getLast _
        have h3 : (pre ++ [y]).length = pre.length + 1 := by simp
        rw [h3, List.replicate_succ]
        generalize (z :: r).getLast (by simp) = w at h2 ⊢
        rw [← h2]
        simp
      rw [this, List.drop_left' (by simp)]
    simp only [hl, e1]
    rw [gravList, e0, e, e2]
    have ih := gravList_eq (z :: r) (pre ++ [y]) (by simp) (by
      have := hn.erase x
      rw [e] at this
      simpa using this)
    have e7 : pre ++ y :: z :: r = pre ++ [y] ++ z :: r := by simp
    have e8 : pre.length + 1 = (pre ++ [y]).length := by simp
    rw [e7, e8, ih]
    simp [odds]

theorem gravList_all (l : List Nat) (h : l.Nodup) : gravList l.length 0 l l = odds l.dropLast := by
  by_cases hl : l = []
  · subst hl; rfl
  · have := gravList_eq l [] hl (by simpa using h)
    simpa using this

theorem odds_length : ∀ l : List Nat, (odds l).length = l.length / 2
  | [] => rfl
  | [_] => by simp [odds]
  | _ :: _ :: l => by simp [odds, odds_length l]; omega

variable [GoFloat F]

/-- The loop of the model does the same to the list of components. -/
theorem gravityLoop_list {L : Nat → List Nat} : ∀ (n i : Nat) (back : List Nat) (s : Sp F), World L s → i + n ≤ back.length →
    (∀ x ∈ back, s.typ x = .dynamic ∧ ((s.bodies x).root = none ∨ (s.bodies x).root = some x)) →
    (∀ x ∈ s.sleeping, x ∈ back) →
    ∃ t, gravityLoop n i back s = some t ∧ World L t ∧ Woke s t ∧ t.sleeping = gravList n i back s.sleeping
  | 0, _, _, s, h, _, _, _ => ⟨s, rfl, h, .refl s, rfl⟩
  | n + 1, i, back, s, h, hi, hb, hs => by
    obtain ⟨u, e, f, w, hr, hsl⟩ := bodyActivate_spec h.good.inv.full (back.getD i 0)
    obtain ⟨u', e', g, w', -⟩ := bodyActivate_good h.good (back.getD i 0)
    rw [e] at e'
    obtain rfl := Option.some.inj e'
    have hx : back.getD i 0 ∈ back := by
      rw [List.getD_eq_getElem?_getD, List.getElem?_eq_getElem (by omega)]; exact List.getElem_mem _
    have hul : u.sleeping = s.sleeping.erase (back.getD i 0) := by
      rw [hsl, if_pos (hb _ hx).1]
      rcases (hb _ hx).2 with q | q
      · rw [q, List.erase_of_not_mem]
        intro hm
        rw [h.good.inv.full.sleep.self_root hm] at q
        simp at q
      · rw [q]
    obtain ⟨t, e2, h2, w2, q2⟩ := gravityLoop_list n (i + 1) (u.sleeping ++ back.drop u.sleeping.length) u (h.woke g.inv w)
      (by
        have hlen : u.sleeping.length ≤ back.length := by
          refine (h.good.inv.full.sleep.sleepNodup.subperm ?_).length_le |> le_trans w.sleeping.length_le
          exact hs
        simp; omega)
      (by
        intro x hxm
        have hxb : x ∈ back := by
          rcases List.mem_append.1 hxm with q | q
          · exact hs x (w.sleeping.subset q)
          · exact List.mem_of_mem_drop q
        refine ⟨(w.typ x).trans (hb x hxb).1, ?_⟩
        rcases w.root x with q | q
        · rw [q]; exact (hb x hxb).2
        · exact .inl q)
      (fun x hxm => List.mem_append_left _ hxm)
    refine ⟨t, by rw [gravityLoop, e]; exact e2, h2, w.trans w2, ?_⟩
    rw [q2, hul]; rfl

/-- Which components stay asleep when the gravity is changed. -/
theorem setGravity_exact {L : Nat → List Nat} {s : Sp F} (h : World L s) :
    ∃ t, s.setGravity = some t ∧ World L t ∧ Woke s t ∧ t.sleeping = odds s.sleeping.dropLast := by
  have hn := h.good.inv.full.sleep.sleepNodup
  obtain ⟨t, e, w, k, q⟩ := gravityLoop_list s.sleeping.length 0 s.sleeping s h (by omega)
    (fun x hx => by
      have := h.good.inv.full.sleep.self_root hx
      exact ⟨(h.good.inv.full.root_dynamic (by rw [this]; simp)).2, .inr this⟩)
    (fun x hx => hx)
  exact ⟨t, e, w, k, by rw [q, gravList_all _ hn]⟩

/-- A body sleeps after a wake-up exactly when the root of its component is still listed. -/
theorem woke_sleeping {L : Nat → List Nat} {s t : Sp F} (h : World L s) (h' : World L t) (w : Woke s t) (b : Nat) :
    (t.bodies b).root ≠ none ↔ ∃ r ∈ t.sleeping, (s.bodies b).root = some r := by
  constructor
  · intro q
    obtain ⟨r, hr⟩ := Option.ne_none_iff_exists'.1 q
    refine ⟨r, h'.good.inv.full.quiet b r hr, ?_⟩
    rcases w.root b with e | e
    · rw [← e]; exact hr
    · rw [e] at hr; simp at hr
  · rintro ⟨r, hr, hb⟩
    have e1 := h'.good.inv.full.sleep.self_root hr
    have e2 := h.good.inv.full.sleep.self_root (w.sleeping.subset hr)
    rw [w.comp b r (by rw [hb, e2]), e1]
    simp

end Sp
end CP
