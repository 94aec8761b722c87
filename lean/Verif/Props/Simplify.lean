import Verif.Proofs.Simplify
import Verif.Props.Hull
import Mathlib.Data.List.Rotate

/-! # C36: simplifying a polyline -/

namespace CP
open GoFloat PL
variable {F : Type} [GoFloat F]

theorem isClosed_iff {l : Line F} : isClosed l = true ↔ Closed l := by
  unfold isClosed Closed
  match l with
  | [] => simp
  | [v] => simp
  | v :: w :: l =>
    obtain ⟨e, he⟩ : ∃ e, (v :: w :: l).getLast? = some e := ⟨_, List.getLast?_eq_getLast_of_ne_nil (by simp)⟩
    simp only [he, List.head?_cons, List.length_cons, vecEq_iff, Option.some.injEq]
    exact ⟨fun h => ⟨by omega, h⟩, fun h => h.2⟩

theorem getLast?_getElem {A : Type} (l : List A) : l.getLast? = l[l.length - 1]? := List.getLast?_eq_getElem? ..

/-- An open line with at least two vertices whose ends differ (`Closed` fails): the result, if the call returns. -/
theorem C36_open (fuel : Nat) (verts r : Line ℝ) (tol : ℝ) (htol : 0 ≤ tol) (hlen : 2 ≤ verts.length) (hopen : ¬ Closed verts)
    (h : simplifyCurves fuel verts tol = some r) : ∃ ks, Simplified verts tol r ks := by
  have hL : 0 < verts.length := by omega
  have hc : isClosed verts ≠ true := fun e => hopen (isClosed_iff.1 e)
  rw [simplifyCurves, if_neg hc] at h
  obtain ⟨s, hs⟩ : ∃ s, verts[0]? = some s := ⟨_, List.getElem?_eq_getElem hL⟩
  obtain ⟨e, he⟩ : ∃ e, verts[verts.length - 1]? = some e := ⟨_, List.getElem?_eq_getElem (by omega)⟩
  simp only [hs, he, Option.bind_eq_bind, Option.bind_some] at h
  cases hd : douglasPeucker verts verts.length (tol / lit 2) tol fuel [s] 0 (verts.length - 1) with
  | none => rw [hd] at h; cases h
  | some red =>
    rw [hd] at h
    cases h
    have hm : ∀ k, k < verts.length → (0 + k) % verts.length = k := fun k hk => by rw [Nat.zero_add, Nat.mod_eq_of_lt hk]
    have hne : verts[0]? ≠ verts[verts.length - 1]? := by
      intro e'
      refine hopen ⟨hlen, ?_⟩
      rw [getLast?_getElem, ← e', List.head?_eq_getElem?]
    obtain ⟨ks, k1, k2, k3, k4⟩ := dp_sound (s := 0) hL htol fuel 0 (verts.length - 1) [s] red (by omega)
      (by omega) (by rw [hm 0 hL, hm _ (by omega)]; exact hne) (by rw [hm 0 hL]; exact ⟨s, hs⟩)
      (by rw [hm _ (by omega)]; exact ⟨e, he⟩) (by rw [hm 0 hL, hm _ (by omega)]; exact hd)
    have hks : ∀ k ∈ 0 :: (ks ++ [verts.length - 1]), k < verts.length := by
      intro k hk
      have : (0 :: ks ++ [verts.length - 1]).Pairwise (· < ·) := k2
      rw [List.pairwise_append] at this
      have hk' : k ∈ 0 :: ks ++ [verts.length - 1] := hk
      rcases List.mem_append.1 hk' with hk' | hk'
      · have := this.2.2 k hk' (verts.length - 1) (by simp); omega
      · simp at hk'; omega
    have hst : ∀ st ∈ steps (0 :: (ks ++ [verts.length - 1])), st.1 < verts.length ∧ st.2 < verts.length := by
      intro st hst
      have := List.of_mem_zip hst
      exact ⟨hks _ this.1, hks _ (List.mem_of_mem_tail this.2)⟩
    refine ⟨0 :: (ks ++ [verts.length - 1]), ?_, k2, rfl, ?_, ?_, ?_⟩
    · rw [List.map_append, k1]
      have : ks.map (fun k => verts[(0 + k) % verts.length]?) = ks.map fun k => verts[k]? := by
        apply List.map_congr_left
        intro k hk
        rw [hm k (hks k (by simp [hk]))]
      rw [this]
      simp [hs, he]
    · rw [show (0 :: (ks ++ [verts.length - 1])) = 0 :: ks ++ [verts.length - 1] from rfl, List.getLast?_concat]
    · intro st h
      have := k3 st h
      rwa [hm _ (hst st h).1, hm _ (hst st h).2] at this
    · intro st h k h1 h2 a b v ha hb hv
      obtain ⟨g1, g2⟩ := hst st h
      exact k4 st h k h1 h2 a b v (by rw [hm _ g1]; exact ha) (by rw [hm _ g2]; exact hb)
        (by rw [hm _ (by omega)]; exact hv)

/-- The closed line, walked once around from its vertex number `i`. -/
def loopFrom (verts : Line ℝ) (i : Nat) : Line ℝ := verts.dropLast.rotate i ++ (verts.dropLast.rotate i).head?.toList

theorem loopFrom_get {verts : Line ℝ} {i k : Nat} (hk : k ≤ verts.length - 1) (hL : 0 < verts.length - 1) :
    (loopFrom verts i)[k]? = verts[(i + k) % (verts.length - 1)]? := by
  have hl : verts.dropLast.length = verts.length - 1 := List.length_dropLast
  have hd : ∀ m, verts.dropLast[(i + m) % (verts.length - 1)]? = verts[(i + m) % (verts.length - 1)]? := by
    intro m
    have hm : (i + m) % (verts.length - 1) < verts.length - 1 := Nat.mod_lt _ hL
    rw [List.getElem?_eq_getElem (by omega), List.getElem?_eq_getElem (by omega), List.getElem_dropLast]
  have hg : ∀ m, m < verts.length - 1 → (verts.dropLast.rotate i)[m]? = verts[(i + m) % (verts.length - 1)]? := by
    intro m hm
    rw [List.getElem?_rotate (by omega), hl, Nat.add_comm m i, hd]
  unfold loopFrom
  by_cases h : k < verts.length - 1
  · rw [List.getElem?_append_left (by rw [List.length_rotate, hl]; exact h), hg k h]
  · have : k = verts.length - 1 := by omega
    rw [List.getElem?_append_right (by rw [List.length_rotate, hl]; omega), List.length_rotate, hl, this, Nat.sub_self,
      Nat.add_mod_right, List.head?_eq_getElem?, hg 0 hL, Nat.add_zero]
    cases verts[i % (verts.length - 1)]? <;> rfl

theorem loopFrom_length {verts : Line ℝ} {i : Nat} (hL : 0 < verts.length - 1) :
    (loopFrom verts i).length = verts.length := by
  have hl : (verts.dropLast.rotate i).length = verts.length - 1 := by rw [List.length_rotate, List.length_dropLast]
  unfold loopFrom
  rw [List.length_append, hl]
  obtain ⟨a, ha⟩ : ∃ a, (verts.dropLast.rotate i).head? = some a := by
    rw [List.head?_eq_getElem?]; exact ⟨_, List.getElem?_eq_getElem (by omega)⟩
  rw [ha]; simp; omega

/-- A closed line with two different vertices: the result, if the call returns, is closed, and it is a reduction of the loop
walked from the vertex that is least (by `x`, then by `y`). -/
theorem C36_closed (fuel : Nat) (verts r : Line ℝ) (tol : ℝ) (htol : 0 ≤ tol) (hclosed : Closed verts)
    (hne : ∃ u ∈ verts, ∃ v ∈ verts, u ≠ v) (h : simplifyCurves fuel verts tol = some r) :
    Closed r ∧ ∃ i ks, i < verts.length - 1 ∧ Simplified (loopFrom verts i) tol r ks ∧
      (∀ u v, verts[i]? = some u → v ∈ verts → LexLe u v) := by
  have hN : 2 ≤ verts.length := hclosed.1
  have hL : 0 < verts.length - 1 := by omega
  rw [simplifyCurves, if_pos (isClosed_iff.2 hclosed)] at h
  obtain ⟨i, j, u, v, e, hi, hj, hu, hv, hall⟩ := C28_loopIndexes verts.toArray (verts.length - 1) (by omega) (by simp)
  rw [List.getElem?_toArray] at hu hv
  have hall' : ∀ w ∈ verts, LexLe u w ∧ LexLe w v := by
    intro w hw
    obtain ⟨k, hk, rfl⟩ := List.getElem_of_mem hw
    by_cases hk' : k < verts.length - 1
    · exact hall k _ hk' (by simp [List.getElem?_eq_getElem hk])
    · refine hall 0 _ hL ?_
      have e1 : verts[0]? = verts[verts.length - 1]? := by
        rw [← getLast?_getElem, ← hclosed.2, List.head?_eq_getElem?]
      have : k = verts.length - 1 := by omega
      subst this
      rw [List.getElem?_toArray, e1, List.getElem?_eq_getElem hk]
  have huv : u ≠ v := by
    rintro rfl
    obtain ⟨a, ha, b, hb, hab⟩ := hne
    have A := hall' a ha
    have B := hall' b hb
    exact hab ((A.2.antisymm A.1).trans (B.1.antisymm B.2))
  have hij : i ≠ j := by
    rintro rfl; rw [hu] at hv; cases hv; exact huv rfl
  simp only [e, hu, hv, Option.bind_eq_bind, Option.bind_some] at h
  generalize hLL : verts.length - 1 = L at *
  obtain ⟨m, hm⟩ : ∃ m, m = (j + L - i) % L := ⟨_, rfl⟩
  have hmL : m < L := by rw [hm]; exact Nat.mod_lt _ hL
  have him : (i + m) % L = j := by
    rw [hm, Nat.add_mod_mod, show i + (j + L - i) = j + L by omega, Nat.add_mod_right, Nat.mod_eq_of_lt hj]
  have hm0 : 0 < m := by
    rcases Nat.eq_zero_or_pos m with e0 | e0
    · rw [e0, Nat.add_zero, Nat.mod_eq_of_lt hi] at him; exact absurd him hij
    · exact e0
  have hi0 : (i + 0) % L = i := by rw [Nat.add_zero, Nat.mod_eq_of_lt hi]
  have hiL : (i + L) % L = i := by rw [Nat.add_mod_right, Nat.mod_eq_of_lt hi]
  cases hd : douglasPeucker verts L (tol / lit 2) tol fuel [u] i j with
  | none => rw [hd] at h; cases h
  | some red =>
    rw [hd, Option.bind_some] at h
    cases hd2 : douglasPeucker verts L (tol / lit 2) tol fuel (red ++ [v]) j i with
    | none => rw [hd2] at h; cases h
    | some red2 =>
      rw [hd2] at h
      cases h
      have hne1 : verts[i]? ≠ verts[j]? := by rw [hu, hv]; intro h; cases h; exact huv rfl
      obtain ⟨k1, a1, a2, a3, a4⟩ := dp_sound (s := i) hL htol fuel 0 m [u] red hm0 (by omega) (by rw [hi0, him]; exact hne1)
        (by rw [hi0]; exact ⟨u, hu⟩) (by rw [him]; exact ⟨v, hv⟩) (by rw [hi0, him]; exact hd)
      obtain ⟨k2, b1, b2, b3, b4⟩ := dp_sound (s := i) hL htol fuel m L (red ++ [v]) red2 hmL (by omega)
        (by rw [hiL, him]; exact hne1.symm) (by rw [him]; exact ⟨v, hv⟩) (by rw [hiL]; exact ⟨u, hu⟩)
        (by rw [hiL, him]; exact hd2)
      have hord : (0 :: (k1 ++ m :: (k2 ++ [L]))).Pairwise (· < ·) := by
        have ea : 0 :: (k1 ++ m :: (k2 ++ [L])) = (0 :: k1) ++ (m :: (k2 ++ [L])) := by simp
        rw [ea, List.pairwise_append]
        have ob : (0 :: k1 ++ [m]).Pairwise (· < ·) := by simpa using a2
        rw [List.pairwise_append] at ob
        refine ⟨ob.1, b2, ?_⟩
        intro x hx y hy
        have hxk := ob.2.2 x hx m (by simp)
        rcases List.mem_cons.1 hy with rfl | hy
        · exact hxk
        · exact hxk.trans ((List.pairwise_cons.1 b2).1 y hy)
      have hle : ∀ k ∈ 0 :: (k1 ++ m :: (k2 ++ [L])), k ≤ L := by
        intro k hk
        have ea : 0 :: (k1 ++ m :: (k2 ++ [L])) = (0 :: (k1 ++ m :: k2)) ++ [L] := by simp
        rw [ea] at hk hord
        rw [List.pairwise_append] at hord
        rcases List.mem_append.1 hk with hk | hk
        · exact (hord.2.2 k hk L (by simp)).le
        · simp at hk; omega
      have hst : ∀ st ∈ steps (0 :: (k1 ++ m :: (k2 ++ [L]))), st.1 ≤ L ∧ st.2 ≤ L := by
        intro st hst
        have := List.of_mem_zip hst
        exact ⟨hle _ this.1, hle _ (List.mem_of_mem_tail this.2)⟩
      have hsplit : ∀ st ∈ steps (0 :: (k1 ++ m :: (k2 ++ [L]))), st ∈ steps (0 :: (k1 ++ [m])) ∨ st ∈ steps (m :: (k2 ++ [L])) := by
        intro st hst
        have ea : 0 :: (k1 ++ m :: (k2 ++ [L])) = (0 :: k1) ++ m :: (k2 ++ [L]) := by simp
        rw [ea, steps_mid] at hst
        rcases List.mem_append.1 hst with hst | hst
        · exact Or.inl (by simpa using hst)
        · exact Or.inr hst
      have hget : ∀ k, k ≤ L → (loopFrom verts i)[k]? = verts[(i + k) % L]? := by
        intro k hk; rw [← hLL]; exact loopFrom_get (by omega) (by omega)
      have hlen : (loopFrom verts i).length - 1 = L := by rw [loopFrom_length (by omega), hLL]
      have hred : (red2 ++ [u]).map some = (0 :: (k1 ++ m :: (k2 ++ [L]))).map fun k => (loopFrom verts i)[k]? := by
        have : (0 :: (k1 ++ m :: (k2 ++ [L]))).map (fun k => (loopFrom verts i)[k]?) =
            (0 :: (k1 ++ m :: (k2 ++ [L]))).map fun k => verts[(i + k) % L]? :=
          List.map_congr_left fun k hk => hget k (hle k hk)
        rw [this, List.map_append, b1, List.map_append, a1]
        simp only [List.map_cons, List.map_nil, List.map_append, hi0, him, hiL, hu, hv]
        simp
      have hhead : (red2 ++ [u]).head? = some u := by
        have := congrArg List.head? hred
        rw [List.head?_map] at this
        simp only [List.map_cons, List.head?_cons, hget 0 (by omega), hi0, hu] at this
        cases hh : (red2 ++ [u]).head? with
        | none => rw [hh] at this; cases this
        | some w => rw [hh] at this; simpa using this
      refine ⟨⟨?_, by rw [hhead, List.getLast?_concat]⟩, i, 0 :: (k1 ++ m :: (k2 ++ [L])), hi, ⟨hred, hord, rfl, ?_, ?_, ?_⟩, ?_⟩
      · have := congrArg List.length hred
        simp only [List.length_map, List.length_cons, List.length_append, List.length_nil] at this ⊢
        omega
      · have ea : 0 :: (k1 ++ m :: (k2 ++ [L])) = (0 :: (k1 ++ m :: k2)) ++ [L] := by simp
        rw [ea, List.getLast?_concat, hlen]
      · intro st h
        rw [hget _ (hst st h).1, hget _ (hst st h).2]
        rcases hsplit st h with h | h
        · exact a3 st h
        · exact b3 st h
      · intro st h k h1 h2 a b w ha hb hw
        obtain ⟨g1, g2⟩ := hst st h
        rw [hget _ g1] at ha
        rw [hget _ g2] at hb
        rw [hget _ (by omega)] at hw
        rcases hsplit st h with h | h
        · exact a4 st h k h1 h2 a b w ha hb hw
        · exact b4 st h k h1 h2 a b w ha hb hw
      · intro u' w hu' hw
        rw [hu] at hu'; cases hu'
        exact (hall' w hw).1

/-- What the code measures, against the true distance: `p` is within `d` of some point of the line through `a` and `b` if and
only if its true distance from that line (the length of the perpendicular) is at most `d`; the code's number is that
distance times `|ab| / (|ab| + 1e-15)`. -/
theorem C36_distance (a b v : Vec ℝ) (hab : a ≠ b) :
    ∃ y : Vec ℝ, (∃ t : ℝ, y = ⟨a.x + t * (b.x - a.x), a.y + t * (b.y - a.y)⟩) ∧
      (∀ t : ℝ, v.distance y ≤ v.distance ⟨a.x + t * (b.x - a.x), a.y + t * (b.y - a.y)⟩) ∧
      offChord a b v = v.distance y * (a.distance b / (a.distance b + 1 / 10 ^ 15)) := by
  have hd : 0 < a.distance b := lt_of_le_of_ne (Vec.distance_nonneg a b) fun e => hab (Vec.distance_eq_zero.1 e.symm)
  have hsq := Vec.distance_sq a b
  set D := a.distance b with hD
  obtain ⟨t, ht⟩ : ∃ t, t = ((v.x - a.x) * (b.x - a.x) + (v.y - a.y) * (b.y - a.y)) / D ^ 2 := ⟨_, rfl⟩
  have hD2 : D ^ 2 ≠ 0 := by positivity
  have ht' : t * D ^ 2 = (v.x - a.x) * (b.x - a.x) + (v.y - a.y) * (b.y - a.y) := by rw [ht]; field_simp
  have hperp : ((v.x - (a.x + t * (b.x - a.x))) * (b.x - a.x) + (v.y - (a.y + t * (b.y - a.y))) * (b.y - a.y)) = 0 := by
    linear_combination -ht' + t * hsq
  refine ⟨_, ⟨t, rfl⟩, ?_, ?_⟩
  · intro t'
    apply (Vec.distance_le_iff (Vec.distance_nonneg _ _)).2
    rw [Vec.distance_sq]
    have key : (v.x - (a.x + t' * (b.x - a.x))) ^ 2 + (v.y - (a.y + t' * (b.y - a.y))) ^ 2 =
        (v.x - (a.x + t * (b.x - a.x))) ^ 2 + (v.y - (a.y + t * (b.y - a.y))) ^ 2 + (t - t') ^ 2 * D ^ 2 := by
      linear_combination -(t - t') ^ 2 * hsq + 2 * (t - t') * hperp
    rw [key]
    nlinarith [sq_nonneg ((t - t') * D)]
  · rw [offChord_eq, ← hD]
    have key : |(b.x - a.x) * (v.y - a.y) - (b.y - a.y) * (v.x - a.x)| =
        v.distance ⟨a.x + t * (b.x - a.x), a.y + t * (b.y - a.y)⟩ * D := by
      have h0 := Vec.distance_nonneg v ⟨a.x + t * (b.x - a.x), a.y + t * (b.y - a.y)⟩
      rw [← abs_of_nonneg (mul_nonneg h0 hd.le)]
      apply (sq_eq_sq_iff_abs_eq_abs _ _).1
      rw [mul_pow, Vec.distance_sq]
      simp only
      have hx : (b.x - a.x) * (v.y - a.y) - (b.y - a.y) * (v.x - a.x) =
          (b.x - a.x) * (v.y - (a.y + t * (b.y - a.y))) - (b.y - a.y) * (v.x - (a.x + t * (b.x - a.x))) := by ring
      rw [hx, hsq]
      generalize v.x - (a.x + t * (b.x - a.x)) = p at hperp ⊢
      generalize v.y - (a.y + t * (b.y - a.y)) = q at hperp ⊢
      linear_combination -(p * (b.x - a.x) + q * (b.y - a.y)) * hperp
    rw [key, mul_div_assoc]

/-- A path that stays within `tol` of the line through its ends passes within `tol` of every point between its ends. -/
theorem path_near {f : Nat → Vec ℝ} {p q : Nat} {w : ℝ} (hpq : p < q) (hab : f p ≠ f q)
    (hw : ∀ k, p ≤ k → k ≤ q → |((f q).x - (f p).x) * ((f k).y - (f p).y) - ((f q).y - (f p).y) * ((f k).x - (f p).x)| ≤ w)
    {x : Vec ℝ} (hx : OnSegment (f p) (f q) x) :
    ∃ k y, p ≤ k ∧ k < q ∧ OnSegment (f k) (f (k + 1)) y ∧ x.distance y ≤ w / (f p).distance (f q) := by
  obtain ⟨s, s0, s1, rfl⟩ := hx
  have hd : 0 < (f p).distance (f q) :=
    lt_of_le_of_ne (Vec.distance_nonneg _ _) fun e => hab (Vec.distance_eq_zero.1 e.symm)
  have hsq := Vec.distance_sq (f p) (f q)
  set D := (f p).distance (f q) with hD
  obtain ⟨g, hg⟩ : ∃ g : Nat → ℝ, g = fun k => ((f k).x - (f p).x) * ((f q).x - (f p).x) + ((f k).y - (f p).y) * ((f q).y - (f p).y) :=
    ⟨_, rfl⟩
  have gp : g p = 0 := by rw [hg]; ring
  have gq : g q = D ^ 2 := by rw [hg, hsq]; ring
  -- the first position after `p` that has passed the point
  have hex : ∃ n, p < n ∧ n ≤ q ∧ s * D ^ 2 ≤ g n := ⟨q, hpq, le_refl _, by rw [gq]; nlinarith [sq_nonneg D]⟩
  classical
  obtain ⟨n1, n2, n3⟩ := Nat.find_spec hex
  have hmin : ∀ m, m < Nat.find hex → ¬ (p < m ∧ m ≤ q ∧ s * D ^ 2 ≤ g m) := fun m hm => Nat.find_min hex hm
  generalize Nat.find hex = n at *
  have hprev : g (n - 1) ≤ s * D ^ 2 := by
    by_cases e : n - 1 = p
    · rw [e, gp]; positivity
    · have := hmin (n - 1) (by omega)
      by_contra hc
      exact this ⟨by omega, by omega, (not_le.1 hc).le⟩
  obtain ⟨k, rfl⟩ : ∃ k, n = k + 1 := ⟨n - 1, by omega⟩
  rw [Nat.add_sub_cancel] at hprev
  -- the point of the segment with that projection
  obtain ⟨t, t0, t1, ht⟩ : ∃ t : ℝ, 0 ≤ t ∧ t ≤ 1 ∧ g k + t * (g (k + 1) - g k) = s * D ^ 2 := by
    rcases eq_or_lt_of_le (hprev.trans n3) with e | e
    · exact ⟨0, le_refl _, by norm_num, by rw [zero_mul, add_zero]; exact le_antisymm hprev (by rw [e]; exact n3)⟩
    · have : 0 < g (k + 1) - g k := by linarith
      refine ⟨(s * D ^ 2 - g k) / (g (k + 1) - g k), div_nonneg (by linarith) this.le, ?_, by field_simp; ring⟩
      rw [div_le_one this]; linarith
  refine ⟨k, _, by omega, by omega, ⟨t, t0, t1, rfl⟩, ?_⟩
  rw [le_div_iff₀ hd]
  have c1 := abs_le.1 (hw k (by omega) (by omega))
  have c2 := abs_le.1 (hw (k + 1) (by omega) (by omega))
  have hw0 : 0 ≤ w := (abs_nonneg _).trans (hw k (by omega) (by omega))
  apply le_of_sq_le_sq _ hw0
  rw [mul_pow, Vec.distance_sq, hsq]
  rw [hg, hsq] at ht
  simp only at ht ⊢
  generalize (f p).x = ax at *
  generalize (f p).y = ay at *
  generalize (f q).x = bx at *
  generalize (f q).y = by' at *
  generalize (f k).x = ux at *
  generalize (f k).y = uy at *
  generalize (f (k + 1)).x = vx at *
  generalize (f (k + 1)).y = vy at *
  have horth : (ax + s * (bx - ax) - (ux + t * (vx - ux))) * (bx - ax) + (ay + s * (by' - ay) - (uy + t * (vy - uy))) * (by' - ay) = 0 := by
    linear_combination -ht
  have hcr : (bx - ax) * (ay + s * (by' - ay) - (uy + t * (vy - uy))) - (by' - ay) * (ax + s * (bx - ax) - (ux + t * (vx - ux))) =
      -((1 - t) * ((bx - ax) * (uy - ay) - (by' - ay) * (ux - ax)) + t * ((bx - ax) * (vy - ay) - (by' - ay) * (vx - ax))) := by
    ring
  have hb : |(1 - t) * ((bx - ax) * (uy - ay) - (by' - ay) * (ux - ax)) + t * ((bx - ax) * (vy - ay) - (by' - ay) * (vx - ax))| ≤ w := by
    rw [abs_le]
    have : 0 ≤ 1 - t := by linarith
    constructor
    · nlinarith [mul_le_mul_of_nonneg_left c1.1 this, mul_le_mul_of_nonneg_left c2.1 t0]
    · nlinarith [mul_le_mul_of_nonneg_left c1.2 this, mul_le_mul_of_nonneg_left c2.2 t0]
  have hsq' := sq_le_sq' (abs_le.1 hb).1 (abs_le.1 hb).2
  refine le_trans (le_of_eq ?_) hsq'
  have hcr' := congrArg (· ^ 2) hcr
  simp only [neg_sq] at hcr'
  rw [← hcr']
  generalize ax + s * (bx - ax) - (ux + t * (vx - ux)) = P at *
  generalize ay + s * (by' - ay) - (uy + t * (vy - uy)) = Q at *
  linear_combination (P * (bx - ax) + Q * (by' - ay)) * horth

/-- The reduced line is nowhere farther than `tol` from the line it was made of (up to the code's `1e-15`): every point of
every segment of the reduced line is that near to some point of the original. -/
theorem C36_never_farther (walk r : Line ℝ) (tol : ℝ) (ks : List Nat) (htol : 0 ≤ tol) (h : Simplified walk tol r ks)
    (a b : Vec ℝ) (hs : (a, b) ∈ steps r) (x : Vec ℝ) (hx : OnSegment a b x) :
    ∃ u v y, (u, v) ∈ steps walk ∧ OnSegment u v y ∧ x.distance y ≤ tol * (1 + 1 / 10 ^ 15 / a.distance b) := by
  obtain ⟨i, hi, e⟩ := List.getElem_of_mem hs
  simp only [steps, List.getElem_zip, List.getElem_tail, Prod.mk.injEq] at e
  have hlen : r.length = ks.length := by simpa using congrArg List.length h.kept
  have hi' : i + 1 < r.length := by
    simp only [steps, List.length_zip, List.length_tail] at hi; omega
  have hk : ∀ j (hj : j < r.length), walk[ks[j]'(by omega)]? = some r[j] := by
    intro j hj
    have := congrArg (fun l => l[j]?) h.kept
    simp only [List.getElem?_map, List.getElem?_eq_getElem hj, List.getElem?_eq_getElem (show j < ks.length by omega),
      Option.map_some, Option.some.injEq] at this
    exact this.symm
  obtain ⟨p, hp⟩ : ∃ p, p = ks[i] := ⟨_, rfl⟩
  obtain ⟨q, hq⟩ : ∃ q, q = ks[i + 1] := ⟨_, rfl⟩
  have hst : (p, q) ∈ steps ks := by
    rw [hp, hq]
    have : (steps ks)[i]'(by simp only [steps, List.length_zip, List.length_tail]; omega) = (ks[i], ks[i + 1]) := by
      simp [steps]
    rw [← this]; exact List.getElem_mem _
  have hpq : p < q := by
    rw [hp, hq]; exact List.pairwise_iff_getElem.1 h.order i (i + 1) _ _ (by omega)
  have wp : walk[p]? = some a := by rw [hp, hk i (by omega), e.1]
  have wq : walk[q]? = some b := by rw [hq, hk (i + 1) (by omega), e.2]
  have hqlen : q < walk.length := by
    by_contra hc
    rw [List.getElem?_eq_none (by omega)] at wq; cases wq
  have hab : a ≠ b := by
    intro e'
    exact h.differ _ hst (by rw [wp, wq, e'])
  obtain ⟨f, hf⟩ : ∃ f : Nat → Vec ℝ, f = fun k => (walk[k]?).getD a := ⟨_, rfl⟩
  have fget : ∀ k, k < walk.length → walk[k]? = some (f k) := by
    intro k hk; rw [hf]; simp [List.getElem?_eq_getElem hk]
  have fp : f p = a := by have := fget p (by omega); rw [wp] at this; cases this; rfl
  have fq : f q = b := by have := fget q (by omega); rw [wq] at this; cases this; rfl
  have hd0 := Vec.distance_nonneg a b
  have hd : 0 < a.distance b := lt_of_le_of_ne hd0 fun e => hab (Vec.distance_eq_zero.1 e.symm)
  obtain ⟨k, y, k1, k2, hy, hdist⟩ := path_near (f := f) (w := tol * (a.distance b + 1 / 10 ^ 15)) hpq (by rw [fp, fq]; exact hab) (by
    intro k k1 k2
    rw [fp, fq]
    have hk : offChord a b (f k) ≤ tol := by
      rcases eq_or_lt_of_le k1 with e1 | k1
      · rw [← e1, fp, offChord_left]; exact htol
      · rcases eq_or_lt_of_le k2 with e1 | k2
        · rw [e1, fq, offChord_right]; exact htol
        · exact h.close _ hst k k1 k2 a b (f k) wp wq (fget k (by omega))
    rw [offChord_eq, div_le_iff₀ (by positivity)] at hk
    exact hk) (by rw [fp, fq]; exact hx)
  refine ⟨f k, f (k + 1), y, ?_, hy, ?_⟩
  · have h1 := fget k (by omega)
    have h2 := fget (k + 1) (by omega)
    have : (steps walk)[k]? = some (f k, f (k + 1)) := by
      rw [steps, List.getElem?_zip_eq_some, List.getElem?_tail]; exact ⟨h1, h2⟩
    exact List.mem_of_getElem? this
  · refine hdist.trans (le_of_eq ?_)
    rw [fp, fq]; field_simp

/-- The call returns if no two of the vertices (of a closed line: other than the closing one) are within `tol / 2`. -/
theorem C36_returns (verts : Line ℝ) (tol : ℝ) (htol : 0 ≤ tol) (hlen : 2 ≤ verts.length)
    (hfar : ∀ i j (u v : Vec ℝ), i < j → j < verts.length → (Closed verts → j < verts.length - 1) → verts[i]? = some u →
      verts[j]? = some v → tol / 2 ≤ u.distance v) (fuel : Nat) (hfuel : verts.length < fuel)
    (hne : ∃ u ∈ verts, ∃ v ∈ verts, u ≠ v) :
    ∃ r, simplifyCurves fuel verts tol = some r := by
  have hnear : ∀ i j (a b : Vec ℝ), i ≠ j → i < verts.length → j < verts.length →
      (Closed verts → i < verts.length - 1 ∧ j < verts.length - 1) → verts[i]? = some a →
      verts[j]? = some b → a.near b (tol / lit 2) = false := by
    intro i j a b hij hi hj hc ha hb
    have hd : tol / 2 ≤ a.distance b := by
      rcases lt_or_gt_of_ne hij with h | h
      · exact hfar i j a b h hj (fun c => (hc c).2) ha hb
      · rw [Vec.distance_comm]; exact hfar j i b a h hi (fun c => (hc c).1) hb ha
    simp only [Vec.near, decide_eq_false_iff_not, not_lt]
    have e1 : a.distanceSq b = a.distance b ^ 2 := by
      rw [Vec.distance_sq]; simp only [Vec.distanceSq, Vec.sub, Vec.lengthSq, Vec.dot]; ring
    have e2 : tol / (lit 2 : ℝ) = tol / 2 := by simp
    rw [e1, e2]
    nlinarith
  have hv : ∀ i, i < verts.length → ∃ v, verts[i]? = some v := fun i hi => ⟨_, List.getElem?_eq_getElem hi⟩
  by_cases hc : Closed verts
  · rw [simplifyCurves, if_pos (isClosed_iff.2 hc)]
    obtain ⟨i, j, u, v, e, hi, hj, hu, hv', hall⟩ := C28_loopIndexes verts.toArray (verts.length - 1) (by omega) (by simp)
    rw [List.getElem?_toArray] at hu hv'
    have hL : 0 < verts.length - 1 := by omega
    have hij : i ≠ j := by
      rintro rfl
      rw [hu] at hv'; cases hv'
      obtain ⟨a, ha, b, hb, hab⟩ := hne
      have hall' : ∀ w ∈ verts, LexLe u w ∧ LexLe w u := by
        intro w hw
        obtain ⟨k, hk, rfl⟩ := List.getElem_of_mem hw
        by_cases hk' : k < verts.length - 1
        · exact hall k _ hk' (by simp [List.getElem?_eq_getElem hk])
        · refine hall 0 _ hL ?_
          have e1 : verts[0]? = verts[verts.length - 1]? := by
            rw [← getLast?_getElem, ← hc.2, List.head?_eq_getElem?]
          have : k = verts.length - 1 := by omega
          subst this
          rw [List.getElem?_toArray, e1, List.getElem?_eq_getElem hk]
      have A := hall' a ha
      have B := hall' b hb
      exact hab ((A.2.antisymm A.1).trans (B.1.antisymm B.2))
    simp only [e, hu, hv', Option.bind_eq_bind, Option.bind_some]
    generalize hLL : verts.length - 1 = L at *
    obtain ⟨m, hm⟩ : ∃ m, m = (j + L - i) % L := ⟨_, rfl⟩
    have hmL : m < L := by rw [hm]; exact Nat.mod_lt _ hL
    have him : (i + m) % L = j := by
      rw [hm, Nat.add_mod_mod, show i + (j + L - i) = j + L by omega, Nat.add_mod_right, Nat.mod_eq_of_lt hj]
    have hm0 : 0 < m := by
      rcases Nat.eq_zero_or_pos m with e0 | e0
      · rw [e0, Nat.add_zero, Nat.mod_eq_of_lt hi] at him; exact absurd him hij
      · exact e0
    have hi0 : (i + 0) % L = i := by rw [Nat.add_zero, Nat.mod_eq_of_lt hi]
    have hiL : (i + L) % L = i := by rw [Nat.add_mod_right, Nat.mod_eq_of_lt hi]
    have hn : ∀ i j (a b : Vec ℝ), i < L → j < L → i ≠ j → verts[i]? = some a → verts[j]? = some b →
        a.near b (tol / lit 2) = false := fun i j a b hi hj hij ha hb =>
      hnear i j a b hij (by omega) (by omega) (fun _ => ⟨hi, hj⟩) ha hb
    obtain ⟨r1, e1⟩ := dp_some (s := i) hL htol (fun k hk => hv k (by omega)) hn fuel 0 m [u] hm0 (by omega) (by omega)
    rw [hi0, him] at e1
    obtain ⟨r2, e2⟩ := dp_some (s := i) hL htol (fun k hk => hv k (by omega)) hn fuel m L (r1 ++ [v]) hmL (by omega) (by omega)
    rw [hiL, him] at e2
    exact ⟨r2 ++ [u], by rw [e1, Option.bind_some, e2, Option.bind_some]⟩
  · rw [simplifyCurves, if_neg (fun e => hc (isClosed_iff.1 e))]
    have hL : 0 < verts.length := by omega
    obtain ⟨s, hs⟩ := hv 0 hL
    obtain ⟨e, he⟩ := hv (verts.length - 1) (by omega)
    have hm : ∀ k, k < verts.length → (0 + k) % verts.length = k := fun k hk => by rw [Nat.zero_add, Nat.mod_eq_of_lt hk]
    obtain ⟨r1, e1⟩ := dp_some (s := 0) hL htol hv (fun i j a b hi hj hij ha hb =>
      hnear i j a b hij hi hj (fun c => absurd c hc) ha hb) fuel 0 (verts.length - 1) [s] (by omega) (by omega) (by omega)
    rw [hm 0 hL, hm _ (by omega)] at e1
    simp only [hs, he, Option.bind_eq_bind, Option.bind_some, e1]
    exact ⟨_, rfl⟩

/-- It panics for every open line with at least three vertices whose ends are within `tol / 2` of each other. -/
theorem C36_near_ends_panics (fuel : Nat) (verts : Line F) (tol : F) (s e : Vec F) (hlen : 3 ≤ verts.length) (hopen : ¬ Closed verts)
    (hs : verts.head? = some s) (he : verts.getLast? = some e) (hnear : s.near e (tol / lit 2) = true) :
    simplifyCurves fuel verts tol = none := by
  rw [simplifyCurves, if_neg (fun e => hopen (isClosed_iff.1 e))]
  rw [List.head?_eq_getElem?] at hs
  rw [getLast?_getElem] at he
  simp only [hs, he, Option.bind_eq_bind, Option.bind_some]
  cases fuel with
  | zero => rfl
  | succ fuel =>
    rw [douglasPeucker, if_neg (by
      rw [Nat.sub_zero, show verts.length - 1 + verts.length = verts.length - 1 + verts.length from rfl, Nat.add_mod_right,
        Nat.mod_eq_of_lt (by omega)]; omega)]
    have hshort : isShort (fuel + 1) [s] verts.length 0 (verts.length - 1) (tol / lit 2) = none := by
      unfold isShort isShortFrom
      rw [if_neg (by omega), show next 0 verts.length = 1 from by unfold next; rw [Nat.zero_add, Nat.mod_eq_of_lt (by omega)]]
      rfl
    simp only [hs, he, Option.bind_eq_bind, Option.bind_some, nearShort, hnear, if_true, hshort, Option.bind_none]

/-! ### The other direction fails: a vertex left out can be as far as one likes from the reduced line -/

theorem line3_open : ¬ Closed (F := ℝ) [⟨0, 0⟩, ⟨10, 0⟩, ⟨1, 0⟩] := by
  intro h; have := h.2; simp at this

theorem line3_far : ∀ i j (u v : Vec ℝ), i < j → j < 3 → ([⟨0, 0⟩, ⟨10, 0⟩, ⟨1, 0⟩] : Line ℝ)[i]? = some u →
    ([⟨0, 0⟩, ⟨10, 0⟩, ⟨1, 0⟩] : Line ℝ)[j]? = some v → 1 / 2 ≤ u.distance v := by
  intro i j u v hij hj hu hv
  rw [Vec.le_distance_iff (by norm_num)]
  rcases (by omega : (i = 0 ∧ j = 1) ∨ (i = 0 ∧ j = 2) ∨ (i = 1 ∧ j = 2)) with ⟨rfl, rfl⟩ | ⟨rfl, rfl⟩ | ⟨rfl, rfl⟩ <;>
    (simp at hu hv; subst hu; subst hv; norm_num)

/-- The comment of `SimplifyCurves` holds only in the direction of `C36_never_farther`: the vertex `(10, 0)` of the line
`(0, 0)`, `(10, 0)`, `(1, 0)` is left out at the tolerance 1, and every point of the reduced line is at least 9 from it. -/
theorem C36_left_out_far_violated :
    simplifyCurves 5 ([⟨0, 0⟩, ⟨10, 0⟩, ⟨1, 0⟩] : Line ℝ) 1 = some [⟨0, 0⟩, ⟨1, 0⟩] ∧
    ∀ x, OnSegment ⟨0, 0⟩ ⟨1, 0⟩ x → (9 : ℝ) ≤ (⟨10, 0⟩ : Vec ℝ).distance x := by
  constructor
  · obtain ⟨r, hr⟩ := C36_returns [⟨0, 0⟩, ⟨10, 0⟩, ⟨1, 0⟩] 1 (by norm_num) (by simp)
      (fun i j u v h1 h2 _ h3 h4 => line3_far i j u v h1 h2 h3 h4) 5 (by simp) ⟨⟨0, 0⟩, by simp, ⟨10, 0⟩, by simp, by simp⟩
    obtain ⟨ks, h⟩ := C36_open 5 _ r 1 (by norm_num) (by simp) line3_open hr
    rw [simplifyCurves, if_neg (fun e => line3_open (isClosed_iff.1 e))]
    have hnear : (⟨0, 0⟩ : Vec ℝ).near ⟨1, 0⟩ (1 / lit 2) = false := by
      simp [Vec.near, Vec.distanceSq, Vec.sub, Vec.lengthSq, Vec.dot]; norm_num
    have hoff : offChord (⟨0, 0⟩ : Vec ℝ) ⟨1, 0⟩ ⟨10, 0⟩ = 0 := by rw [offChord_eq]; simp
    have hoff' : fabs ((((⟨1, 0⟩ : Vec ℝ).sub ⟨0, 0⟩).perp.normalize.dot ⟨10, 0⟩) -
        (((⟨1, 0⟩ : Vec ℝ).sub ⟨0, 0⟩).perp.normalize.dot ⟨0, 0⟩)) = 0 := hoff
    simp only [List.length_cons, List.length_nil, List.getElem?_cons_zero, Nat.zero_add, Nat.reduceAdd, Nat.reduceSub,
      List.getElem?_cons_succ, Option.bind_eq_bind, Option.bind_some]
    rw [douglasPeucker, if_neg (by norm_num)]
    simp only [List.getElem?_cons_zero, List.getElem?_cons_succ, Option.bind_eq_bind, Option.bind_some, nearShort, hnear,
      Bool.false_eq_true, if_false, next, farthest, Nat.reduceAdd, Nat.reduceMod, Nat.reduceEqDiff, hoff', lt_self_iff_false]
    norm_num
  · rintro x ⟨s, s0, s1, rfl⟩
    rw [Vec.le_distance_iff (by norm_num)]
    norm_num
    nlinarith

/-- The hypotheses of `C36_open`, `C36_returns` and `C36_never_farther` are met. -/
example : ∃ r ks, simplifyCurves 5 ([⟨0, 0⟩, ⟨10, 0⟩, ⟨1, 0⟩] : Line ℝ) 1 = some r ∧
    Simplified [⟨0, 0⟩, ⟨10, 0⟩, ⟨1, 0⟩] 1 r ks := by
  obtain ⟨ks, h⟩ := C36_open 5 _ _ 1 (by norm_num) (by simp) line3_open C36_left_out_far_violated.1
  exact ⟨_, ks, C36_left_out_far_violated.1, h⟩

/-- A square with a vertex in the middle of a side: the hypotheses of `C36_closed` are met, for a call that returns. -/
def squareLoop : Line ℝ := [⟨0, 0⟩, ⟨4, 0⟩, ⟨4, 4⟩, ⟨0, 4⟩, ⟨0, 0⟩]

example : ∃ r, simplifyCurves 10 squareLoop 1 = some r ∧ Closed r := by
  have hc : Closed squareLoop := by constructor <;> simp [squareLoop]
  have hne : ∃ u ∈ squareLoop, ∃ v ∈ squareLoop, u ≠ v := ⟨⟨0, 0⟩, by simp [squareLoop], ⟨4, 0⟩, by simp [squareLoop], by simp⟩
  obtain ⟨r, hr⟩ := C36_returns squareLoop 1 (by norm_num) (by simp [squareLoop]) (by
    intro i j u v hij hj hjc hu hv
    have hj' : j < 4 := by have := hjc hc; simpa [squareLoop] using this
    rw [Vec.le_distance_iff (by norm_num)]
    rcases (by omega : (i = 0 ∧ j = 1) ∨ (i = 0 ∧ j = 2) ∨ (i = 0 ∧ j = 3) ∨ (i = 1 ∧ j = 2) ∨ (i = 1 ∧ j = 3) ∨ (i = 2 ∧ j = 3))
      with ⟨rfl, rfl⟩ | ⟨rfl, rfl⟩ | ⟨rfl, rfl⟩ | ⟨rfl, rfl⟩ | ⟨rfl, rfl⟩ | ⟨rfl, rfl⟩ <;>
    (simp [squareLoop] at hu hv; subst hu; subst hv; norm_num)) 10 (by simp [squareLoop]) hne
  exact ⟨r, hr, (C36_closed 10 squareLoop r 1 (by norm_num) hc hne hr).1⟩

/-- A line that panics, whatever the stack: `(0, 0)`, `(4, 4)`, `(1/4, 0)` at the tolerance 1. -/
example (fuel : Nat) : simplifyCurves fuel ([⟨0, 0⟩, ⟨4, 4⟩, ⟨1 / 4, 0⟩] : Line ℝ) 1 = none := by
  apply C36_near_ends_panics fuel _ _ ⟨0, 0⟩ ⟨1 / 4, 0⟩ (by simp) _ rfl rfl
  · simp [Vec.near, Vec.distanceSq, Vec.sub, Vec.lengthSq, Vec.dot]; norm_num
  · intro h; have := h.2; simp at this

/-! ### SimplifyVertexes -/

/-- The vertices the loop leaves. -/
theorem simplifyLoop_spec (m : F) : ∀ (rest init : Line F) (p q : Vec F) (init' : Line F) (p' q' : Vec F),
    simplifyLoop m init p q rest = (init', p', q') →
    (init' ++ [p', q']).Sublist (init ++ p :: q :: rest) ∧ (init' ++ [p', q']).head? = (init ++ [p, q]).head? ∧
    some q' = (init ++ p :: q :: rest).getLast? := by
  intro rest
  induction rest with
  | nil =>
    intro init p q init' p' q' h
    simp only [simplifyLoop, Prod.mk.injEq] at h
    obtain ⟨rfl, rfl, rfl⟩ := h
    exact ⟨List.Sublist.refl _, rfl, by simp⟩
  | cons v rest ih =>
    intro init p q init' p' q' h
    unfold simplifyLoop at h
    split at h
    · obtain ⟨h1, h2, h3⟩ := ih _ _ _ _ _ _ h
      refine ⟨h1.trans ?_, ?_, ?_⟩
      · exact List.Sublist.append (List.Sublist.refl _) (List.Sublist.cons_cons _ (List.sublist_cons_self _ _))
      · rw [h2]; cases init <;> rfl
      · rw [h3]; simp
    · obtain ⟨h1, h2, h3⟩ := ih _ _ _ _ _ _ h
      refine ⟨by simpa using h1, ?_, ?_⟩
      · rw [h2]; cases init <;> rfl
      · rw [h3]; simp

/-- Of an open line `SimplifyVertexes` keeps the first and the last vertex and some of the others, in order; it never
panics on a line with two vertices. -/
theorem C36_vertexes (verts : Line F) (tol : F) (hlen : 2 ≤ verts.length) (hopen : ¬ Closed verts) :
    ∃ r, simplifyVertexes verts tol = some r ∧ r.Sublist verts ∧ r.head? = verts.head? ∧ r.getLast? = verts.getLast? := by
  match verts, hlen with
  | v0 :: v1 :: rest, _ =>
    have hc : ¬ isClosed (v0 :: v1 :: rest) = true := fun e => hopen (isClosed_iff.1 e)
    obtain ⟨init, p, q, e⟩ : ∃ init p q, simplifyLoop (-(cos tol)) [] v0 v1 rest = (init, p, q) := ⟨_, _, _, rfl⟩
    obtain ⟨h1, h2, h3⟩ := simplifyLoop_spec _ _ _ _ _ _ _ _ e
    refine ⟨init ++ [p, q], ?_, by simpa using h1, by rw [h2]; rfl, ?_⟩
    · simp only [simplifyVertexes, e]
      cases init with
      | nil => simp [hc]
      | cons r0 init => cases init <;> simp [hc]
    · rw [show init ++ [p, q] = (init ++ [p]) ++ [q] by simp, List.getLast?_concat, h3]; rfl

/-- A line without a nearly straight vertex is left as it is. -/
theorem C36_vertexes_sharp (verts : Line F) (tol : F) (hlen : 2 ≤ verts.length) (hopen : ¬ Closed verts)
    (hsharp : ∀ l p q v m, verts = l ++ p :: q :: v :: m → -(cos tol) < sharpness p q v) :
    simplifyVertexes verts tol = some verts := by
  have key : ∀ (rest init : Line F) (p q : Vec F),
      (∀ l a b c m, init ++ p :: q :: rest = l ++ a :: b :: c :: m → -(cos tol) < sharpness a b c) →
      ∃ i' p' q', simplifyLoop (-(cos tol)) init p q rest = (i', p', q') ∧ i' ++ [p', q'] = init ++ p :: q :: rest := by
    intro rest
    induction rest with
    | nil => intro init p q _; exact ⟨init, p, q, rfl, rfl⟩
    | cons v rest ih =>
      intro init p q h
      unfold simplifyLoop
      rw [if_neg (not_le.2 (h init p q v rest rfl))]
      obtain ⟨i', p', q', e1, e2⟩ := ih (init ++ [p]) q v (fun l a b c m e => h l a b c m (by rw [← e]; simp))
      exact ⟨i', p', q', e1, by rw [e2]; simp⟩
  match verts, hlen with
  | v0 :: v1 :: rest, _ =>
    have hc : ¬ isClosed (v0 :: v1 :: rest) = true := fun e => hopen (isClosed_iff.1 e)
    obtain ⟨init, p, q, e, e2⟩ := key rest [] v0 v1 (fun l a b c m h => hsharp l a b c m h)
    simp only [simplifyVertexes, e]
    rw [show v0 :: v1 :: rest = init ++ [p, q] from e2.symm] at hc ⊢
    cases init with
    | nil => simp [hc]
    | cons r0 init => cases init <;> simp_all

theorem sharpness_eq (a b c : Vec ℝ) : sharpness a b c =
    ((a.x - b.x) * (c.x - b.x) + (a.y - b.y) * (c.y - b.y)) *
      (1 / ((a.distance b) + 1 / 10 ^ 15) * (1 / ((c.distance b) + 1 / 10 ^ 15))) := by
  simp only [sharpness, Vec.normalize, Vec.dot, Vec.mult, Vec.sub, Vec.distance, lit_real]
  push_cast
  ring

theorem sharpness_right {a b c : Vec ℝ} (h : (a.x - b.x) * (c.x - b.x) + (a.y - b.y) * (c.y - b.y) = 0) :
    sharpness a b c = 0 := by rw [sharpness_eq, h, zero_mul]

theorem cos_one_bounds : 0 < Real.cos 1 ∧ Real.cos 1 ≤ 5 / 9 := ⟨Real.cos_one_pos, Real.cos_one_le⟩

/-- A closed line can come back open: the code moves the first vertex and leaves the last one, equal to the old first one,
in place. Here the loop around the square of side 2 starts at the middle of its lower side. -/
theorem C36_vertexes_closed_violated :
    Closed ([⟨1, 0⟩, ⟨2, 0⟩, ⟨2, 2⟩, ⟨0, 2⟩, ⟨0, 0⟩, ⟨1, 0⟩] : Line ℝ) ∧
    simplifyVertexes ([⟨1, 0⟩, ⟨2, 0⟩, ⟨2, 2⟩, ⟨0, 2⟩, ⟨0, 0⟩, ⟨1, 0⟩] : Line ℝ) 1 =
      some [⟨0, 0⟩, ⟨2, 0⟩, ⟨2, 2⟩, ⟨0, 2⟩, ⟨0, 0⟩, ⟨1, 0⟩] ∧
    ¬ Closed ([⟨0, 0⟩, ⟨2, 0⟩, ⟨2, 2⟩, ⟨0, 2⟩, ⟨0, 0⟩, ⟨1, 0⟩] : Line ℝ) := by
  obtain ⟨c0, c1⟩ := cos_one_bounds
  have hcl : Closed ([⟨1, 0⟩, ⟨2, 0⟩, ⟨2, 2⟩, ⟨0, 2⟩, ⟨0, 0⟩, ⟨1, 0⟩] : Line ℝ) := by constructor <;> simp
  refine ⟨hcl, ?_, by intro h; have := h.2; simp at this⟩
  have h1 : sharpness (⟨1, 0⟩ : Vec ℝ) ⟨2, 0⟩ ⟨2, 2⟩ = 0 := sharpness_right (by norm_num)
  have h2 : sharpness (⟨2, 0⟩ : Vec ℝ) ⟨2, 2⟩ ⟨0, 2⟩ = 0 := sharpness_right (by norm_num)
  have h3 : sharpness (⟨2, 2⟩ : Vec ℝ) ⟨0, 2⟩ ⟨0, 0⟩ = 0 := sharpness_right (by norm_num)
  have h4 : sharpness (⟨0, 2⟩ : Vec ℝ) ⟨0, 0⟩ ⟨1, 0⟩ = 0 := sharpness_right (by norm_num)
  have h5 : sharpness (⟨0, 0⟩ : Vec ℝ) ⟨1, 0⟩ ⟨2, 0⟩ < -(cos (1 : ℝ)) := by
    have e1 : (⟨0, 0⟩ : Vec ℝ).distance ⟨1, 0⟩ = 1 := by simp [Vec.distance, Vec.length, Vec.sub, Vec.lengthSq, Vec.dot]
    have e2 : (⟨2, 0⟩ : Vec ℝ).distance ⟨1, 0⟩ = 1 := by
      simp [Vec.distance, Vec.length, Vec.sub, Vec.lengthSq, Vec.dot]; norm_num
    rw [sharpness_eq, e1, e2]
    have : cos (1 : ℝ) ≤ 5 / 9 := c1
    norm_num at this ⊢
    linarith
  have hn : ¬ ((0 : ℝ) ≤ -(cos (1 : ℝ))) := by
    have : 0 < cos (1 : ℝ) := c0
    linarith
  simp only [simplifyVertexes, simplifyLoop, h1, h2, h3, h4, if_neg hn, List.nil_append, List.cons_append]
  rw [if_pos ⟨isClosed_iff.2 hcl, h5⟩]

end CP
