import Verif.Spec.Collide
import Verif.Spec.Float
import Verif.Proofs.Plane
import Mathlib.Tactic.Positivity

/-! # Facts about the support functions and Minkowski points -/

namespace CP
namespace Coll
open GoFloat

section order
variable {F : Type} [GoFloat F]

/-- `PointGreater` cannot hold in both directions. -/
theorem pointGreater_asymm [FloatSigns F] {v b c : Vec F} (h : v.pointGreater b c = true) : b.pointGreater v c = false := by
  simp only [Vec.pointGreater, decide_eq_true_eq, decide_eq_false_iff_not] at h ⊢
  intro h'
  rw [FloatSigns.sub_swap v.x b.x, FloatSigns.sub_swap v.y b.y, FloatSigns.neg_mul, FloatSigns.neg_mul,
    FloatSigns.add_comm b.y v.y, FloatSigns.add_comm b.x v.x] at h'
  exact absurd (FloatSigns.neg_lt _ _ h') (not_lt.2 h.le)

theorem closestEdgeFrom_lt (N : Nat) : ∀ (l : List (Mink F)) (prev : Mink F) (i j : Nat) (m : F) (mini : Nat), i < N →
    j + l.length ≤ N → mini < N → closestEdgeFrom prev i l j m mini < N := by
  intro l
  induction l with
  | nil => intro prev i j m mini _ _ h; exact h
  | cons v l ih =>
    intro prev i j m mini hi hj hm
    simp only [List.length_cons] at hj
    simp only [closestEdgeFrom]
    split
    · exact ih v j (j + 1) _ i (by omega) (by omega) hi
    · exact ih v j (j + 1) _ mini (by omega) (by omega) hm

/-- One call of `EPARecurse`: an edge of the hull (two neighbours), and what happens next. -/
theorem epaRecurse_step (s1 s2 : Cls F) (left : Nat) (hull : List (Mink F)) (hne : hull ≠ []) :
    ∃ v0 v1 mini, v0 ∈ hull ∧ v1 ∈ hull ∧ epaRecurse s1 s2 left hull =
      if ¬ ((supportM s1 s2 (v1.ab.sub v0.ab).perp).id = v0.id ∨ (supportM s1 s2 (v1.ab.sub v0.ab).perp).id = v1.id) ∧
          v0.ab.pointGreater v1.ab (supportM s1 s2 (v1.ab.sub v0.ab).perp).ab then
        match left with
        | 0 => some (v0.closestPoints v1, .limit)
        | left + 1 => epaRecurse s1 s2 left (supportM s1 s2 (v1.ab.sub v0.ab).perp ::
            rebuild (supportM s1 s2 (v1.ab.sub v0.ab).perp) (supportM s1 s2 (v1.ab.sub v0.ab).perp).ab (hull.rotate (mini + 1)))
      else some (v0.closestPoints v1, .edge) := by
  obtain ⟨last, hlast⟩ : ∃ x, hull.getLast? = some x := by
    cases h : hull.getLast? with
    | none => exact absurd (List.getLast?_eq_none_iff.1 h) hne
    | some x => exact ⟨x, rfl⟩
  have hpos : 0 < hull.length := List.length_pos_iff.2 hne
  have hmini : closestEdge hull last < hull.length :=
    closestEdgeFrom_lt hull.length hull last _ 0 _ 0 (by omega) (by omega) hpos
  have h0 : hull[closestEdge hull last]? = some hull[closestEdge hull last] := List.getElem?_eq_getElem hmini
  have hm1 : (closestEdge hull last + 1) % hull.length < hull.length := Nat.mod_lt _ hpos
  have h1 : hull[(closestEdge hull last + 1) % hull.length]? = some hull[(closestEdge hull last + 1) % hull.length] :=
    List.getElem?_eq_getElem hm1
  refine ⟨_, _, closestEdge hull last, List.getElem_mem hmini, List.getElem_mem hm1, ?_⟩
  rw [epaRecurse.eq_def]
  simp only [hlast, h0, h1, Option.bind_eq_bind, Option.bind_some]
  cases left <;> rfl

theorem epaRecurse_some (s1 s2 : Cls F) : ∀ (left : Nat) (hull : List (Mink F)), hull ≠ [] →
    ∃ r, epaRecurse s1 s2 left hull = some r := by
  intro left
  induction left with
  | zero =>
    intro hull hne
    obtain ⟨v0, v1, mini, _, _, e⟩ := epaRecurse_step s1 s2 0 hull hne
    rw [e]; split <;> exact ⟨_, rfl⟩
  | succ left ih =>
    intro hull hne
    obtain ⟨v0, v1, mini, _, _, e⟩ := epaRecurse_step s1 s2 (left + 1) hull hne
    rw [e]; split
    · exact ih _ (by simp)
    · exact ⟨_, rfl⟩

/-- GJK ends after at most two calls per iteration. -/
theorem gjkRecurse_some [FloatSigns F] (s1 s2 : Cls F) : ∀ (fuel left : Nat) (v0 v1 : Mink F),
    (2 * left + 2 ≤ fuel ∨ (2 * left + 1 ≤ fuel ∧ v1.ab.pointGreater v0.ab ⟨0, 0⟩ = false)) →
    ∃ r, gjkRecurse s1 s2 fuel left v0 v1 = some r := by
  intro fuel
  induction fuel with
  | zero => intro left v0 v1 h; omega
  | succ fuel ih =>
    intro left v0 v1 h
    cases left with
    | zero => exact ⟨_, rfl⟩
    | succ left =>
      simp only [gjkRecurse]
      split
      · rename_i hg
        rcases h with h | ⟨_, h⟩
        · exact ih _ _ _ (Or.inr ⟨by omega, pointGreater_asymm hg⟩)
        · rw [h] at hg; cases hg
      · split
        · exact epaRecurse_some s1 s2 _ _ (by simp)
        · split
          · exact ⟨_, rfl⟩
          · split
            · exact ih _ _ _ (Or.inl (by omega))
            · exact ih _ _ _ (Or.inl (by omega))

end order

/-! ## Support points -/

theorem supportIndexFrom_spec (n : Vec ℝ) : ∀ (l : List (Plane ℝ)) (i : Nat) (mx : ℝ) (index : Nat),
    (∃ k pl, l[k]? = some pl ∧ supportIndexFrom n l i mx index = i + k ∧ mx < pl.v0.dot n ∧ ∀ q ∈ l, q.v0.dot n ≤ pl.v0.dot n) ∨
    (supportIndexFrom n l i mx index = index ∧ ∀ q ∈ l, q.v0.dot n ≤ mx) := by
  intro l
  induction l with
  | nil => intro i mx index; right; exact ⟨rfl, by simp⟩
  | cons pl l ih =>
    intro i mx index
    simp only [supportIndexFrom]
    split
    · rename_i h
      left
      rcases ih (i + 1) (pl.v0.dot n) i with ⟨k, pl', h1, h2, h3, h4⟩ | ⟨h1, h2⟩
      · refine ⟨k + 1, pl', by simpa using h1, by rw [h2]; omega, h.trans h3, ?_⟩
        intro q hq
        rcases List.mem_cons.1 hq with rfl | hq
        · exact h3.le
        · exact h4 q hq
      · refine ⟨0, pl, rfl, by rw [h1]; rfl, h, ?_⟩
        intro q hq
        rcases List.mem_cons.1 hq with rfl | hq
        · exact le_refl _
        · exact h2 q hq
    · rename_i h
      rcases ih (i + 1) mx index with ⟨k, pl', h1, h2, h3, h4⟩ | ⟨h1, h2⟩
      · left
        refine ⟨k + 1, pl', by simpa using h1, by rw [h2]; omega, h3, ?_⟩
        intro q hq
        rcases List.mem_cons.1 hq with rfl | hq
        · linarith
        · exact h4 q hq
      · right
        refine ⟨h1, ?_⟩
        intro q hq
        rcases List.mem_cons.1 hq with rfl | hq
        · linarith
        · exact h2 q hq

theorem supportIndex_lt (planes : List (Plane ℝ)) (hne : planes ≠ []) (n : Vec ℝ) : supportIndex planes n < planes.length := by
  rcases supportIndexFrom_spec n planes 0 (-maxFloat) 0 with ⟨k, pl, h1, h2, _⟩ | ⟨h1, _⟩
  · have := (List.getElem?_eq_some_iff.1 h1).1
    unfold supportIndex; rw [h2]; omega
  · unfold supportIndex; rw [h1]; exact List.length_pos_iff.2 hne

theorem supportIndex_max {planes : List (Plane ℝ)} {n : Vec ℝ} (hb : ∃ pl ∈ planes, -maxFloat < pl.v0.dot n) :
    ∀ q ∈ planes, q.v0.dot n ≤ (vert planes (supportIndex planes n)).dot n := by
  rcases supportIndexFrom_spec n planes 0 (-maxFloat) 0 with ⟨k, pl, h1, h2, _, h4⟩ | ⟨_, h2⟩
  · intro q hq
    have : vert planes (supportIndex planes n) = pl.v0 := by
      unfold supportIndex; rw [h2]; simp [vert, h1]
    rw [this]; exact h4 q hq
  · obtain ⟨pl, hpl, h⟩ := hb
    exact absurd (h2 pl hpl) (not_le.2 h)

theorem vert_mem {planes : List (Plane ℝ)} {i : Nat} (h : i < planes.length) : vert planes i ∈ planes.map Plane.v0 := by
  unfold vert
  rw [List.getElem?_eq_getElem h]
  exact List.mem_map_of_mem (List.getElem_mem h)

/-- The index `i` stands for the vertex `p` of the shape. -/
def Idx : Cls ℝ → Nat → Vec ℝ → Prop
  | .circle s, _, p => p = s.tc
  | .seg s, i, p => i < 256 ∧ p = if i = 0 then s.ta else s.tb
  | .poly s, i, p => i < s.dst.length ∧ p = vert s.dst i

theorem Idx.mem {s : Cls ℝ} {i : Nat} {p : Vec ℝ} (h : Idx s i p) : p ∈ s.verts := by
  cases s with
  | circle s => rw [show p = s.tc from h]; simp [Cls.verts]
  | seg s =>
    obtain ⟨_, h⟩ := h
    rw [h]; split <;> simp [Cls.verts]
  | poly s =>
    obtain ⟨h, h'⟩ := h
    rw [h']; exact vert_mem h

theorem Idx.inj {s : Cls ℝ} (hs : s.Fine) {i j : Nat} {p q : Vec ℝ} (h : Idx s i p) (g : Idx s j q) (e : i % 256 = j % 256) :
    p = q := by
  cases s with
  | circle s => exact Eq.trans h (Eq.symm g)
  | seg s =>
    obtain ⟨h1, h2⟩ := h
    obtain ⟨g1, g2⟩ := g
    have : i = j := by omega
    rw [h2, g2, this]
  | poly s =>
    obtain ⟨h1, h2⟩ := h
    obtain ⟨g1, g2⟩ := g
    have := hs.few
    simp only [Cls.verts, List.length_map] at this
    have : i = j := by omega
    rw [h2, g2, this]

theorem idx_support {s : Cls ℝ} (hs : s.Fine) (n : Vec ℝ) : Idx s (s.support n).index (s.support n).p := by
  cases s with
  | circle s => rfl
  | seg s =>
    simp only [Cls.support]
    split
    · exact ⟨by norm_num, by simp⟩
    · exact ⟨by norm_num, by simp⟩
  | poly s =>
    refine ⟨supportIndex_lt _ ?_ _, rfl⟩
    intro h
    apply hs.pos
    simp [Cls.verts, h]

theorem idx_point {s : Cls ℝ} (hs : s.Fine) {i : Nat} (hi : i < 256) : Idx s (s.point i).index (s.point i).p := by
  cases s with
  | circle s => rfl
  | seg s =>
    simp only [Cls.point]
    split
    · rename_i h; exact ⟨hi, by simp [h]⟩
    · rename_i h; exact ⟨hi, by simp [h]⟩
  | poly s =>
    have hne : s.dst ≠ [] := by
      intro h; apply hs.pos; simp [Cls.verts, h]
    simp only [Cls.point]
    split
    · rename_i h; exact ⟨h, rfl⟩
    · exact ⟨List.length_pos_iff.2 hne, rfl⟩

/-- A direction that is not too long. -/
def Small (n : Vec ℝ) : Prop := |n.x| ≤ 2 ^ 510 ∧ |n.y| ≤ 2 ^ 510

theorem neg_maxFloat_lt_dot {v n : Vec ℝ} (hv : |v.x| ≤ 2 ^ 500 ∧ |v.y| ≤ 2 ^ 500) (hn : Small n) : -maxFloat < v.dot n := by
  have h1 : |v.x * n.x| ≤ 2 ^ 500 * 2 ^ 510 := by
    rw [abs_mul]; exact mul_le_mul hv.1 hn.1 (abs_nonneg _) (by positivity)
  have h2 : |v.y * n.y| ≤ 2 ^ 500 * 2 ^ 510 := by
    rw [abs_mul]; exact mul_le_mul hv.2 hn.2 (abs_nonneg _) (by positivity)
  have h3 := (abs_le.1 h1).1
  have h4 := (abs_le.1 h2).1
  have h5 : (2 : ℝ) * (2 ^ 500 * 2 ^ 510) < maxFloat := by
    rw [maxFloat_real]
    have e1 : (2 : ℝ) ^ 1024 = 2 ^ 14 * 2 ^ 1010 := by rw [← pow_add]
    have e2 : (2 : ℝ) ^ 500 * 2 ^ 510 = 2 ^ 1010 := by rw [← pow_add]
    have e3 : (2 : ℝ) ^ 971 ≤ 2 ^ 1010 := pow_le_pow_right₀ (by norm_num) (by norm_num)
    have e4 : (0 : ℝ) < 2 ^ 1010 := by positivity
    rw [e1, e2]
    have aux : ∀ y z : ℝ, z ≤ y → 0 < y → 2 * y < 2 ^ 14 * y - z := by
      intro y z h1 h2
      have : (2 : ℝ) ^ 14 = 16384 := by norm_num
      rw [this]; linarith
    exact aux _ _ e3 e4
  simp only [Vec.dot]
  linarith

theorem support_max {s : Cls ℝ} (hs : s.Fine) {n : Vec ℝ} (hn : Small n) : ∀ v ∈ s.verts, v.dot n ≤ (s.support n).p.dot n := by
  cases s with
  | circle s => intro v hv; simp only [Cls.verts, List.mem_singleton] at hv; rw [hv]; exact le_refl _
  | seg s =>
    intro v hv
    simp only [Cls.verts, List.mem_cons, List.not_mem_nil, or_false] at hv
    simp only [Cls.support]
    split
    · rename_i h
      rcases hv with rfl | rfl
      · exact le_refl _
      · exact h.le
    · rename_i h
      rcases hv with rfl | rfl
      · exact not_lt.1 h
      · exact le_refl _
  | poly s =>
    intro v hv
    obtain ⟨pl, hpl, rfl⟩ := List.mem_map.1 hv
    refine supportIndex_max ⟨pl, hpl, ?_⟩ pl hpl
    exact neg_maxFloat_lt_dot (hs.bounded _ hv) hn

/-- A linear function is at most its maximum over the vertices. -/
theorem core_dot_le {s : Cls ℝ} {n : Vec ℝ} {c : ℝ} (h : ∀ v ∈ s.verts, n.dot v ≤ c) {p : Vec ℝ} (hp : s.core p) : n.dot p ≤ c :=
  Hull.least (isConvex_halfplane n c) h hp

theorem dot_comm (u v : Vec ℝ) : u.dot v = v.dot u := by simp only [Vec.dot]; ring

/-- The point `m` belongs to a pair of vertices of the shapes. -/
structure Mink.Ok (s1 s2 : Cls ℝ) (m : Mink ℝ) : Prop where
  ab : m.ab = m.b.sub m.a
  ids : ∃ i j, Idx s1 i m.a ∧ Idx s2 j m.b ∧ m.id = i % 256 * 256 + j % 256

theorem Mink.Ok.mem {s1 s2 : Cls ℝ} {m : Mink ℝ} (h : m.Ok s1 s2) : m.a ∈ s1.verts ∧ m.b ∈ s2.verts := by
  obtain ⟨i, j, h1, h2, _⟩ := h.ids
  exact ⟨h1.mem, h2.mem⟩

theorem Mink.Ok.eq_of_id {s1 s2 : Cls ℝ} (hs1 : s1.Fine) (hs2 : s2.Fine) {m m' : Mink ℝ} (h : m.Ok s1 s2) (h' : m'.Ok s1 s2)
    (e : m.id = m'.id) : m.ab = m'.ab := by
  obtain ⟨i, j, h1, h2, h3⟩ := h.ids
  obtain ⟨i', j', h1', h2', h3'⟩ := h'.ids
  rw [h3, h3'] at e
  have ei : i % 256 = i' % 256 := by omega
  have ej : j % 256 = j' % 256 := by omega
  rw [h.ab, h'.ab, h1.inj hs1 h1' ei, h2.inj hs2 h2' ej]

theorem Mink.Ok.bounded {s1 s2 : Cls ℝ} (hs1 : s1.Fine) (hs2 : s2.Fine) {m : Mink ℝ} (h : m.Ok s1 s2) :
    |m.ab.x| ≤ 2 ^ 501 ∧ |m.ab.y| ≤ 2 ^ 501 := by
  obtain ⟨ha, hb⟩ := h.mem
  have h1 := hs1.bounded _ ha
  have h2 := hs2.bounded _ hb
  have e : (2 : ℝ) ^ 501 = 2 ^ 500 + 2 ^ 500 := by rw [pow_succ]; ring
  rw [h.ab, e]
  simp only [Vec.sub]
  exact ⟨(abs_sub _ _).trans (add_le_add h2.1 h1.1), (abs_sub _ _).trans (add_le_add h2.2 h1.2)⟩

theorem supportM_ok {s1 s2 : Cls ℝ} (hs1 : s1.Fine) (hs2 : s2.Fine) (n : Vec ℝ) : (supportM s1 s2 n).Ok s1 s2 :=
  ⟨rfl, _, _, idx_support hs1 _, idx_support hs2 _, rfl⟩

theorem gjkStart_ok {s1 s2 : Shp ℝ} (hs1 : s1.cls.Fine) (hs2 : s2.cls.Fine) (id : Nat) :
    (gjkStart s1 s2 id).1.Ok s1.cls s2.cls ∧ (gjkStart s1 s2 id).2.Ok s1.cls s2.cls := by
  unfold gjkStart
  split
  · exact ⟨⟨rfl, _, _, idx_point hs1 (Nat.mod_lt _ (by norm_num)), idx_point hs2 (Nat.mod_lt _ (by norm_num)), rfl⟩,
      ⟨rfl, _, _, idx_point hs1 (Nat.mod_lt _ (by norm_num)), idx_point hs2 (Nat.mod_lt _ (by norm_num)), rfl⟩⟩
  · exact ⟨supportM_ok hs1 hs2 _, supportM_ok hs1 hs2 _⟩

/-- The support point is the furthest point of the difference of the shapes. -/
theorem supportM_max {s1 s2 : Cls ℝ} (hs1 : s1.Fine) (hs2 : s2.Fine) {n : Vec ℝ} (hn : Small n) {a b : Vec ℝ} (ha : s1.core a)
    (hb : s2.core b) : n.dot (b.sub a) ≤ n.dot (supportM s1 s2 n).ab := by
  have hn' : Small n.neg := by
    obtain ⟨h1, h2⟩ := hn
    exact ⟨by simpa [Vec.neg] using h1, by simpa [Vec.neg] using h2⟩
  have h1 : n.neg.dot a ≤ n.neg.dot (s1.support n.neg).p :=
    core_dot_le (fun v hv => by rw [dot_comm, dot_comm n.neg]; exact support_max hs1 hn' v hv) ha
  have h2 : n.dot b ≤ n.dot (s2.support n).p :=
    core_dot_le (fun v hv => by rw [dot_comm, dot_comm n]; exact support_max hs2 hn v hv) hb
  simp only [supportM, Mink.new, Vec.dot, Vec.neg, Vec.sub] at *
  linarith

end Coll
end CP
