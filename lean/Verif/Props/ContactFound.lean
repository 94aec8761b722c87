import Verif.Proofs.Facing

/-! # C48: the contacts of segments and polygons -/

namespace CP
open GoFloat Coll

/-- What GJK's answer has to be like: the shapes are apart, or they overlap and the closest points lie over each other along the
normal. (The latter is what EPA is meant to reach; as its hull is not kept convex it is not known to hold for every answer.) -/
def Regular (c : Closest ℝ) : Prop := 0 < c.d ∨ (c.d < 0 ∧ ∃ k, c.b.sub c.a = c.n.mult k)

theorem small_of_le_one {n : Vec ℝ} (h : n.dot n ≤ 1) : Small n ∧ Small n.neg := by
  have e : (1 : ℝ) ≤ 2 ^ 510 := one_le_pow₀ (by norm_num)
  simp only [Vec.dot] at h
  have hx : |n.x| ≤ 1 := abs_le_one_iff_mul_self_le_one.2 (by nlinarith [mul_self_nonneg n.y])
  have hy : |n.y| ≤ 1 := abs_le_one_iff_mul_self_le_one.2 (by nlinarith [mul_self_nonneg n.x])
  refine ⟨⟨hx.trans e, hy.trans e⟩, ?_, ?_⟩
  · simp only [Vec.neg, abs_neg]; exact hx.trans e
  · simp only [Vec.neg, abs_neg]; exact hy.trans e

/-- The closest points are foremost points of the facing sides, over each other. -/
theorem closest_on_edges {a b : Shp ℝ} (ha : Proper a.cls) (hb : Proper b.cls) (sa : Sided a.cls) (sb : Sided b.cls)
    {id : Nat} {c : Closest ℝ} {st : Stop} (h : gjk a b id = some (c, st)) (hst : st ≠ .limit) (hreg : Regular c) (hn0 : c.n ≠ ⟨0, 0⟩) :
    OnSegment (edgeOf a.cls a.hashid c.n).a (edgeOf a.cls a.hashid c.n).b c.a ∧
    OnSegment (edgeOf b.cls b.hashid c.n.neg).a (edgeOf b.cls b.hashid c.n.neg).b c.b ∧
    c.a.cross c.n = c.b.cross c.n := by
  obtain ⟨cA, cB⟩ := C33_points ha.toFine hb.toFine h
  obtain ⟨sm1, sm2⟩ := small_of_le_one (gjk_normal h)
  have hfa : (∀ x y, a.cls.core x → b.cls.core y → c.n.dot (c.b.sub c.a) ≤ c.n.dot (y.sub x)) ∧ ∃ k, c.b.sub c.a = c.n.mult k := by
    rcases C33_sound ha.toFine hb.toFine h hst with ⟨hd, hh⟩ | ⟨hd, hh⟩ | ⟨hd, _⟩
    · obtain ⟨k, _, hk⟩ := hh.along
      exact ⟨hh.face, k, hk⟩
    · rcases hreg with h0 | ⟨h0, hk⟩
      · linarith
      · exact ⟨fun x y hx hy => by rw [hh.attained]; exact hh.depth x y hx hy, hk⟩
    · rcases hreg with h0 | ⟨h0, _⟩ <;> linarith
  obtain ⟨hface, k, hk⟩ := hfa
  refine ⟨edgeOf_on sa ha.toFine sm1 hn0 _ cA ?_, edgeOf_on sb hb.toFine sm2 ?_ _ cB ?_, ?_⟩
  · intro x hx
    have := hface x c.b hx cB
    simp only [Vec.dot, Vec.sub] at this ⊢
    linarith
  · intro e
    apply hn0
    have e1 := congrArg Vec.x e
    have e2 := congrArg Vec.y e
    simp only [Vec.neg, neg_eq_zero] at e1 e2
    ext <;> assumption
  · intro y hy
    have := hface c.a y cA hy
    simp only [Vec.dot, Vec.sub, Vec.neg] at this ⊢
    linarith
  · have e1 := congrArg Vec.x hk
    have e2 := congrArg Vec.y hk
    simp only [Vec.sub, Vec.mult] at e1 e2
    simp only [Vec.cross]
    linear_combination c.n.x * e2 - c.n.y * e1

theorem capOk_zero (p e n rot : Vec ℝ) : capOk p e n ⟨0, 0⟩ rot = true ∧ capOk' p e n ⟨0, 0⟩ rot = true := by
  simp [capOk, capOk', Vec.rotate, Vec.dot]

/-- A pair of segments or polygons goes through `contactPoints`. -/
theorem collideSorted_edges {a b : Shp ℝ} (ha : Proper a.cls) (hb : Proper b.cls) (sa : Sided a.cls) (sb : Sided b.cls) (fa : FreeEnds a.cls)
    (fb : FreeEnds b.cls) (ho : a.cls.order ≤ b.cls.order) {i : Info ℝ} {c : Closest ℝ} {st : Stop} (h : gjk a b i.id = some (c, st)) :
    (a.cls.radius + b.cls.radius < c.d → collideSorted a b i = some { i with id := c.id }) ∧
    (c.d ≤ a.cls.radius + b.cls.radius → collideSorted a b i =
      contactPoints (edgeOf a.cls a.hashid c.n) (edgeOf b.cls b.hashid c.n.neg) c { i with id := c.id }) := by
  unfold collideSorted
  cases ea : a.cls with
  | circle g => rw [ea] at sa; exact sa.elim
  | seg g1 =>
    rw [ea] at fa
    cases eb : b.cls with
    | circle g => rw [eb] at sb; exact sb.elim
    | seg g2 =>
      rw [eb] at fb
      simp only [h, Option.bind_eq_bind, Option.bind_some, segmentToSegment, fa.1, fa.2, fb.1, fb.2, capOk_zero, and_self, if_true,
        Cls.radius, edgeOf]
      exact ⟨fun hd => if_pos hd, fun hd => if_neg (not_lt.2 hd)⟩
    | poly g2 =>
      rw [eb] at hb
      have hne : (Cls.poly g2).nonempty = true := by
        have := hb.ne
        simp [Cls.nonempty, this]
      simp only [hne, not_true_eq_false, if_false, h, Option.bind_eq_bind, Option.bind_some, segmentToPoly, fa.1, fa.2, capOk_zero,
        and_true, Cls.radius, edgeOf]
      exact ⟨fun hd => if_neg (by linarith), fun hd => if_pos (by linarith)⟩
  | poly g1 =>
    cases eb : b.cls with
    | circle g => rw [eb] at sb; exact sb.elim
    | seg g => rw [ea, eb] at ho; simp [Cls.order] at ho
    | poly g2 =>
      rw [ea] at ha
      rw [eb] at hb
      have hne : (Cls.poly g2).nonempty = true := by
        have := hb.ne
        simp [Cls.nonempty, this]
      have hne1 : (Cls.poly g1).nonempty = true := by
        have := ha.ne
        simp [Cls.nonempty, this]
      simp only [hne, hne1, and_self, not_true_eq_false, if_false, h, Option.bind_eq_bind, Option.bind_some, polyToPoly, Cls.radius, edgeOf]
      exact ⟨fun hd => if_neg (by linarith), fun hd => if_pos (by linarith)⟩

theorem shapesCollide_sorted {a b : Shp ℝ} (ho : a.cls.order ≤ b.cls.order) {j : Info ℝ} (h : collideSorted a b ⟨⟨0, 0⟩, 0, []⟩ = some j) :
    shapesCollide a b = some ⟨j.n, j.contacts.map fun k => ⟨k.r1, k.r2, (k.r2.sub k.r1).dot j.n⟩⟩ := by
  unfold shapesCollide collide
  simp only
  rw [if_neg (not_lt.2 ho), h]
  simp

/-- The two shapes overlap, radii included, by more than the rounding constant of the code costs: `c.n` has almost length 1, so
that the first term is (almost) the distance of the cores, and the second is `1e-15` times the slopes of the facing sides. -/
def OverlapEnough (a b : Cls ℝ) (c : Closest ℝ) : Prop :=
  ∀ e f, Facing a.verts c.n e → Facing b.verts c.n.neg f → tiny < widthAlong e.1 e.2 c.n ∧ 0 < widthAlong f.1 f.2 c.n.neg ∧
    c.n.dot (c.b.sub c.a) + tiny * (riseAlong e.1 e.2 c.n / (widthAlong e.1 e.2 c.n - tiny) +
      riseAlong f.1 f.2 c.n / (widthAlong f.1 f.2 c.n.neg + tiny)) ≤ (a.radius + b.radius) * c.n.dot c.n

/-- **C48: an overlap gives a contact.** Two segments or polygons (with radii) whose cores are apart by less than the sum of the
radii, or whose cores overlap, get at least one contact. -/
theorem C48_found (a b : Shp ℝ) (ha : Proper a.cls) (hb : Proper b.cls) (sa : Sided a.cls) (sb : Sided b.cls) (fa : FreeEnds a.cls)
    (fb : FreeEnds b.cls) (ho : a.cls.order ≤ b.cls.order) {c : Closest ℝ} {st : Stop} (h : gjk a b 0 = some (c, st)) (hst : st ≠ .limit)
    (hreg : Regular c) (hov : OverlapEnough a.cls b.cls c) : ∃ s, shapesCollide a b = some s ∧ s.points ≠ [] := by
  obtain ⟨sm1, sm2⟩ := small_of_le_one (gjk_normal h)
  obtain ⟨F1, r1⟩ := edgeOf_facing sa ha.toFine sm1 a.hashid
  obtain ⟨F2, r2⟩ := edgeOf_facing sb hb.toFine sm2 b.hashid
  obtain ⟨w1, w2, hle⟩ := hov _ _ F1 F2
  simp only at w1 w2 hle
  have hn0 : c.n ≠ ⟨0, 0⟩ := by
    intro e; rw [e] at w1
    simp only [widthAlong, Vec.dot, mul_zero, add_zero] at w1
    linarith [tiny_pos]
  obtain ⟨o1, o2, hcr⟩ := closest_on_edges ha hb sa sb h hst hreg hn0
  have hd : c.d ≤ a.cls.radius + b.cls.radius := by
    rcases hreg with h0 | ⟨h0, _⟩
    swap
    · linarith [ha.radius, hb.radius]
    rcases C33_sound ha.toFine hb.toFine h hst with ⟨_, hh⟩ | ⟨hd, _⟩ | ⟨hd, _⟩
    · obtain ⟨k, kpos, hk⟩ := hh.along
      obtain ⟨cA, cB⟩ := C33_points ha.toFine hb.toFine h
      have h1 := hh.le _ _ cA cB
      have hnn : 0 < c.n.dot c.n := by
        by_contra hno
        simp only [Vec.dot, not_lt] at hno
        have h1 : c.n.x = 0 := by nlinarith [mul_self_nonneg c.n.x, mul_self_nonneg c.n.y]
        have h2 : c.n.y = 0 := by nlinarith [mul_self_nonneg c.n.x, mul_self_nonneg c.n.y]
        exact hn0 (by ext <;> assumption)
      have hg : c.n.dot (c.b.sub c.a) = k * c.n.dot c.n := by rw [hk]; simp only [Vec.dot, Vec.mult]; ring
      have hpos : 0 ≤ tiny * (riseAlong (edgeOf a.cls a.hashid c.n).a (edgeOf a.cls a.hashid c.n).b c.n /
          (widthAlong (edgeOf a.cls a.hashid c.n).a (edgeOf a.cls a.hashid c.n).b c.n - tiny) +
          riseAlong (edgeOf b.cls b.hashid c.n.neg).a (edgeOf b.cls b.hashid c.n.neg).b c.n /
          (widthAlong (edgeOf b.cls b.hashid c.n.neg).a (edgeOf b.cls b.hashid c.n.neg).b c.n.neg + tiny)) :=
        mul_nonneg tiny_pos.le (add_nonneg (div_nonneg (abs_nonneg _) (by linarith)) (div_nonneg (abs_nonneg _) (by linarith [tiny_pos])))
      rw [hg] at hle
      have hkr : k ≤ a.cls.radius + b.cls.radius := by
        by_contra hno
        have := mul_lt_mul_of_pos_right (not_le.1 hno) hnn
        linarith
      have hdist : c.a.distance c.b ≤ k := by
        have e1 := congrArg Vec.x hk
        have e2 := congrArg Vec.y hk
        simp only [Vec.sub, Vec.mult] at e1 e2
        rw [Vec.distance_le_iff kpos.le]
        have hn1 := gjk_normal h
        simp only [Vec.dot] at hn1
        have : (c.a.x - c.b.x) ^ 2 + (c.a.y - c.b.y) ^ 2 = k ^ 2 * (c.n.x * c.n.x + c.n.y * c.n.y) := by
          have e1' : c.a.x - c.b.x = -(c.n.x * k) := by linarith
          have e2' : c.a.y - c.b.y = -(c.n.y * k) := by linarith
          rw [e1', e2']; ring
        rw [this]
        nlinarith [sq_nonneg k]
      linarith
    · linarith
    · linarith
  have hs := collideSorted_edges ha hb sa sb fa fb ho (i := ⟨⟨0, 0⟩, 0, []⟩) h
  replace hs := hs.2 hd
  obtain ⟨t, t0, t1, hA⟩ := o1
  obtain ⟨s, s0, s1, hB⟩ := o2
  have lA : (edgeOf a.cls a.hashid c.n).a.lerp (edgeOf a.cls a.hashid c.n).b t = c.a := by
    rw [hA]; ext <;> simp only [Vec.lerp, Vec.add, Vec.mult] <;> ring
  have lB : (edgeOf b.cls b.hashid c.n.neg).a.lerp (edgeOf b.cls b.hashid c.n.neg).b s = c.b := by
    rw [hB]; ext <;> simp only [Vec.lerp, Vec.add, Vec.mult] <;> ring
  obtain ⟨j, hj, hne⟩ := contactPoints_found _ _ c { (⟨⟨0, 0⟩, 0, []⟩ : Info ℝ) with id := c.id } rfl t0 t1 s0 s1 (by rw [lA, lB]; exact hcr) w1 w2
    (by rw [r1, r2]; exact hd) (by rw [lA, lB, r1, r2]; exact hle)
  rw [hj] at hs
  exact ⟨_, shapesCollide_sorted ho hs, by simpa using hne⟩

/-- **C48: the two points of a contact lie over each other**: seen along the normal they are at the same place, up to `3e-15`. -/
theorem C48_over (a b : Shp ℝ) (ha : Proper a.cls) (hb : Proper b.cls) (sa : Sided a.cls) (sb : Sided b.cls) (fa : FreeEnds a.cls)
    (fb : FreeEnds b.cls) (ho : a.cls.order ≤ b.cls.order) {c : Closest ℝ} {st : Stop} (h : gjk a b 0 = some (c, st)) (hst : st ≠ .limit)
    (hreg : Regular c) (hw : ∀ e, Facing a.cls.verts c.n e → 2 * tiny ≤ widthAlong e.1 e.2 c.n)
    (hw' : ∀ f, Facing b.cls.verts c.n.neg f → 0 < widthAlong f.1 f.2 c.n.neg) {s : ContactSet ℝ} (hs : shapesCollide a b = some s) :
    ∀ p ∈ s.points, |(p.pointB.sub p.pointA).cross s.normal| ≤ 3 * tiny := by
  obtain ⟨sm1, sm2⟩ := small_of_le_one (gjk_normal h)
  obtain ⟨F1, r1⟩ := edgeOf_facing sa ha.toFine sm1 a.hashid
  obtain ⟨F2, r2⟩ := edgeOf_facing sb hb.toFine sm2 b.hashid
  have w1 := hw _ F1
  have w2 := hw' _ F2
  simp only at w1 w2
  have hn0 : c.n ≠ ⟨0, 0⟩ := by
    intro e; rw [e] at w1
    simp only [widthAlong, Vec.dot, mul_zero, add_zero] at w1
    linarith [tiny_pos]
  obtain ⟨o1, o2, hcr⟩ := closest_on_edges ha hb sa sb h hst hreg hn0
  have hc := collideSorted_edges ha hb sa sb fa fb ho (i := ⟨⟨0, 0⟩, 0, []⟩) h
  rcases lt_or_ge (a.cls.radius + b.cls.radius) c.d with hd | hd
  · rw [shapesCollide_sorted ho (hc.1 hd)] at hs
    cases hs; simp
  · obtain ⟨j, hj, _, hnj, _⟩ := contactPoints_some (edgeOf a.cls a.hashid c.n) (edgeOf b.cls b.hashid c.n.neg) c
      { (⟨⟨0, 0⟩, 0, []⟩ : Info ℝ) with id := c.id } rfl
    have hover := contactPoints_over _ _ c _ rfl o1 o2 hcr (by linarith [tiny_pos]) w2 hj
    replace hc := hc.2 hd
    rw [hj] at hc
    rw [shapesCollide_sorted ho hc] at hs
    cases hs
    intro p hp
    simp only [List.mem_map] at hp
    obtain ⟨k, hk, rfl⟩ := hp
    have := hover k hk
    rw [← (hnj (List.ne_nil_of_mem hk)).1] at this
    refine this.trans ?_
    rw [← (hnj (List.ne_nil_of_mem hk)).1] at w1
    generalize widthAlong _ _ _ = w at w1 ⊢
    have : w / (w - tiny) ≤ 2 := by
      rw [div_le_iff₀ (by linarith [tiny_pos])]; linarith
    nlinarith [tiny_pos]

/-! ### The ids of contacts -/

/-- The number of vertices. -/
def Coll.Cls.size (s : Cls ℝ) : Nat := s.verts.length

theorem contactPoints_ids (e1 e2 : Edge ℝ) (c : Closest ℝ) (i : Info ℝ) (hnil : i.contacts = []) {j : Info ℝ} (h : contactPoints e1 e2 c i = some j) :
    (j.contacts.map Contact.hash).Sublist [hashPair e1.aHash e2.bHash, hashPair e1.bHash e2.aHash] := by
  unfold contactPoints at h
  simp only at h
  split at h
  · cases h; simp [hnil]
  · split at h
    · rw [push_some (by simp [hnil])] at h
      simp only [Option.bind_eq_bind, Option.bind_some] at h
      split at h
      · rw [push_some (by simp [hnil])] at h
        cases h
        simp [hnil]
      · cases h
        simp [hnil]
    · simp only [Option.bind_eq_bind, Option.bind_some] at h
      split at h
      · rw [push_some (by simp [hnil])] at h
        cases h
        simp [hnil]
      · cases h; simp [hnil]

/-- The ids of the ends of the chosen edge. -/
theorem edgeOf_ids {s : Cls ℝ} (hs : ∀ g, s ≠ .circle g) (h2 : 2 ≤ s.size) (w : Word) (n : Vec ℝ) :
    ∃ i k, i < s.size ∧ k < s.size ∧ i ≠ k ∧ (edgeOf s w n).aHash = hashPair w (BitVec.ofNat 64 i) ∧
      (edgeOf s w n).bHash = hashPair w (BitVec.ofNat 64 k) := by
  cases s with
  | circle g => exact absurd rfl (hs g)
  | seg g =>
    simp only [edgeOf, edgeOfSegment]
    split
    · exact ⟨0, 1, h2.trans' (by norm_num), h2, by norm_num, rfl, rfl⟩
    · exact ⟨1, 0, h2, h2.trans' (by norm_num), by norm_num, rfl, rfl⟩
  | poly g =>
    have hsz : (Cls.poly g).size = g.dst.length := by simp [Cls.size, Cls.verts]
    rw [hsz] at h2 ⊢
    have hne : g.dst ≠ [] := by intro e; simp [e] at h2
    have hlt := supportIndex_lt g.dst hne n
    obtain ⟨i1, hi1⟩ : ∃ i, i = supportIndex g.dst n := ⟨_, rfl⟩
    obtain ⟨m, hm⟩ : ∃ m, m = g.dst.length := ⟨_, rfl⟩
    rw [← hi1] at hlt
    rw [← hm] at hlt h2 ⊢
    have b0 : (i1 + m - 1) % m < m := Nat.mod_lt _ (by omega)
    have b2 : (i1 + 1) % m < m := Nat.mod_lt _ (by omega)
    have n0 : (i1 + m - 1) % m ≠ i1 := by
      rcases Nat.eq_zero_or_pos i1 with h | h
      · subst h; rw [Nat.zero_add, Nat.mod_eq_of_lt (by omega)]; omega
      · rw [show i1 + m - 1 = i1 - 1 + m by omega, Nat.add_mod_right, Nat.mod_eq_of_lt (by omega)]; omega
    have n2 : i1 ≠ (i1 + 1) % m := by
      by_cases h : i1 + 1 = m
      · rw [h, Nat.mod_self]; omega
      · rw [Nat.mod_eq_of_lt (by omega)]; omega
    simp only [edgeOf, edgeOfPoly, ← hi1, ← hm]
    split
    · exact ⟨_, _, b0, hlt, n0, rfl, rfl⟩
    · exact ⟨_, _, hlt, b2, n2, rfl, rfl⟩

/-- **C48: the ids of contacts.** By its id a contact is found again in the next step (and its impulses are carried over). The
contacts of two segments or polygons (given in the order of their classes) get ids made of the ids of the shapes and of a vertex
of each; of two contacts, both vertices differ. Contacts with circles have the id 0. -/
theorem C48_ids (a b : Shp ℝ) (ha : a.cls.nonempty = true) (hb : b.cls.nonempty = true) (id : Nat) {i : Info ℝ} (h : collide a b id = some (false, i)) :
    (((∃ g, a.cls = .circle g) ∨ ∃ g, b.cls = .circle g) → ∀ k ∈ i.contacts, k.hash = 0#64) ∧
    ((∀ g, a.cls ≠ .circle g) → (∀ g, b.cls ≠ .circle g) → 2 ≤ a.cls.size → 2 ≤ b.cls.size →
      ∃ u u' v v', u < a.cls.size ∧ u' < a.cls.size ∧ u ≠ u' ∧ v < b.cls.size ∧ v' < b.cls.size ∧ v ≠ v' ∧
        (i.contacts.map Contact.hash).Sublist
          [hashPair (hashPair a.hashid (BitVec.ofNat 64 u)) (hashPair b.hashid (BitVec.ofNat 64 v)),
            hashPair (hashPair a.hashid (BitVec.ofNat 64 u')) (hashPair b.hashid (BitVec.ofNat 64 v'))]) := by
  have ho : a.cls.order ≤ b.cls.order := by
    by_contra hno
    simp only [collide, if_pos (not_le.1 hno)] at h
    cases hc : collideSorted b a ⟨⟨0, 0⟩, id, []⟩ <;> rw [hc] at h <;> simp at h
  simp only [collide, if_neg (not_lt.2 ho)] at h
  have hs : collideSorted a b ⟨⟨0, 0⟩, id, []⟩ = some i := by
    cases hc : collideSorted a b ⟨⟨0, 0⟩, id, []⟩ with
    | none => rw [hc] at h; cases h
    | some j => rw [hc] at h; simp at h; rw [h]
  clear h
  obtain ⟨⟨c, st⟩, hg⟩ := C33_terminates a b id
  constructor
  · intro hcirc
    have hca : ∃ g, a.cls = .circle g := by
      rcases hcirc with h | ⟨g, h⟩
      · exact h
      · rw [h] at ho
        cases e : a.cls with
        | circle g => exact ⟨g, rfl⟩
        | seg g => rw [e] at ho; simp [Cls.order] at ho
        | poly g => rw [e] at ho; simp [Cls.order] at ho
    obtain ⟨g, hca⟩ := hca
    unfold collideSorted at hs
    rw [hca] at hs
    cases eb : b.cls with
    | circle g2 =>
      rw [eb] at hs
      simp only [circleToCircle] at hs
      split at hs
      · rw [push_some (by simp)] at hs
        cases hs; simp
      · cases hs; simp
    | seg g2 =>
      rw [eb] at hs
      simp only [circleToSegment] at hs
      split at hs
      · split at hs <;> split at hs
        all_goals first
          | (rw [push_some (by simp)] at hs; cases hs; simp)
          | (cases hs; simp)
      · cases hs; simp
    | poly g2 =>
      rw [eb] at hs hb
      simp only [hb, not_true_eq_false, if_false, hg, Option.bind_eq_bind, Option.bind_some, circleToPoly] at hs
      split at hs
      · rw [push_some (by simp)] at hs
        cases hs; simp
      · cases hs; simp
  · intro na nb sa sb
    obtain ⟨u, u', hu, hu', huu, hA, hB⟩ := edgeOf_ids na sa a.hashid c.n
    obtain ⟨v', v, hv', hv, hvv, hA', hB'⟩ := edgeOf_ids nb sb b.hashid c.n.neg
    refine ⟨u, u', v, v', hu, hu', huu, hv, hv', hvv.symm, ?_⟩
    rw [← hA, ← hB, ← hA', ← hB']
    have key : ∀ i', i'.contacts = [] → contactPoints (edgeOf a.cls a.hashid c.n) (edgeOf b.cls b.hashid c.n.neg) c i' = some i →
        (i.contacts.map Contact.hash).Sublist [hashPair (edgeOf a.cls a.hashid c.n).aHash (edgeOf b.cls b.hashid c.n.neg).bHash,
          hashPair (edgeOf a.cls a.hashid c.n).bHash (edgeOf b.cls b.hashid c.n.neg).aHash] :=
      fun i' hi' h => contactPoints_ids _ _ _ _ hi' h
    unfold collideSorted at hs
    cases ea : a.cls with
    | circle g => exact absurd ea (na g)
    | seg g1 =>
      rw [ea] at hs key
      cases eb : b.cls with
      | circle g => exact absurd eb (nb g)
      | seg g2 =>
        rw [eb] at hs key
        simp only [hg, Option.bind_eq_bind, Option.bind_some, segmentToSegment] at hs
        split at hs
        · cases hs; simp
        · split at hs
          · exact key _ rfl hs
          · cases hs; simp
      | poly g2 =>
        rw [eb] at hs hb key
        simp only [hb, not_true_eq_false, if_false, hg, Option.bind_eq_bind, Option.bind_some, segmentToPoly] at hs
        split at hs
        · exact key _ rfl hs
        · cases hs; simp
    | poly g1 =>
      rw [ea] at hs key ha
      cases eb : b.cls with
      | circle g => exact absurd eb (nb g)
      | seg g2 => rw [ea, eb] at ho; simp [Cls.order] at ho
      | poly g2 =>
        rw [eb] at hs hb key
        simp only [ha, hb, and_self, not_true_eq_false, if_false, hg, Option.bind_eq_bind, Option.bind_some, polyToPoly] at hs
        split at hs
        · exact key _ rfl hs
        · cases hs; simp

end CP
