import Verif.Proofs.ContactFound

/-! # The edge the collision functions choose is a facing side that has the closest point (for C32) -/

namespace CP
open GoFloat Coll

section Index
variable {A : Type}

theorem pairsFrom_get (p : A) : ∀ (l : List A) (i : Nat), (pairsFrom p l)[i]? = (l[i]?).bind fun b => ((p :: l)[i]?).map fun a => (a, b) := by
  intro l
  induction l generalizing p with
  | nil => intro i; simp [pairsFrom]
  | cons b l ih =>
    intro i
    cases i with
    | zero => simp [pairsFrom]
    | succ i => simp only [pairsFrom, List.getElem?_cons_succ]; exact ih b i

theorem edges_length (l : List A) : (edges l).length = l.length := by
  conv_rhs => rw [← map_snd_edges l]
  rw [List.length_map]

theorem edges_get (l : List A) {i : Nat} (hi : i < l.length) {a b : A} (ha : l[(i + l.length - 1) % l.length]? = some a) (hb : l[i]? = some b) :
    (edges l)[i]? = some (a, b) := by
  have hne : l ≠ [] := by intro e; simp [e] at hi
  have hl : l.getLast? = some (l.getLast hne) := List.getLast?_eq_some_getLast hne
  unfold edges
  rw [hl]
  simp only
  rw [pairsFrom_get, hb]
  simp only [Option.bind_some]
  cases i with
  | zero =>
    have : (0 + l.length - 1) % l.length = l.length - 1 := by
      rw [Nat.zero_add]; exact Nat.mod_eq_of_lt (by omega)
    rw [this, ← List.getLast?_eq_getElem?, hl] at ha
    cases ha; simp
  | succ i =>
    have : (i + 1 + l.length - 1) % l.length = i := by
      rw [show i + 1 + l.length - 1 = i + l.length by omega, Nat.add_mod_right]; exact Nat.mod_eq_of_lt (by omega)
    rw [this] at ha
    simp [ha]

end Index

variable {g : Poly ℝ} {l : List (Vec ℝ)}

theorem verts_of_planes (hd : g.dst = (edges l).map (fun e => ⟨e.2, outward e⟩)) : (Cls.poly g).verts = l := by
  simp only [Cls.verts, hd, List.map_map]
  exact map_snd_edges l

theorem vert_of_planes (hd : g.dst = (edges l).map (fun e => ⟨e.2, outward e⟩)) {i : Nat} {v : Vec ℝ} (hi : l[i]? = some v) : vert g.dst i = v := by
  have h := verts_of_planes hd
  simp only [Cls.verts] at h
  have : (g.dst.map Plane.v0)[i]? = some v := by rw [h, hi]
  rw [List.getElem?_map] at this
  simp only [vert, this, Option.getD_some]

theorem normal_of_planes (hd : g.dst = (edges l).map (fun e => ⟨e.2, outward e⟩)) {i : Nat} {e : Vec ℝ × Vec ℝ} (hi : (edges l)[i]? = some e) :
    normal g.dst i = outward e := by
  simp only [normal, hd, List.getElem?_map, hi, Option.map_some, Option.getD_some]

/-- The chosen edge, in terms of the two sides at the foremost vertex. -/
theorem edgeOfPoly_cases (hd : g.dst = (edges l).map (fun e => ⟨e.2, outward e⟩)) (hne : l ≠ []) (h : Word) (n : Vec ℝ)
    (hb : ∃ v ∈ l, -maxFloat < v.dot n) :
    ∃ p v q, (p, v) ∈ edges l ∧ (v, q) ∈ edges l ∧ (∀ u ∈ l, u.dot n ≤ v.dot n) ∧ (edgeOfPoly g h n).r = g.r ∧
      (((outward (v, q)).dot n < (outward (p, v)).dot n ∧ (edgeOfPoly g h n).a = p ∧ (edgeOfPoly g h n).b = v) ∨
       ((outward (p, v)).dot n ≤ (outward (v, q)).dot n ∧ (edgeOfPoly g h n).a = v ∧ (edgeOfPoly g h n).b = q)) := by
  have hlen : g.dst.length = l.length := by rw [hd, List.length_map, edges_length]
  have hpos : 0 < l.length := List.length_pos_iff.2 hne
  have hdne : g.dst ≠ [] := by intro e; rw [e] at hlen; simp at hlen; omega
  obtain ⟨i1, hi1⟩ : ∃ i, i = supportIndex g.dst n := ⟨_, rfl⟩
  have b1 : i1 < l.length := by rw [hi1, ← hlen]; exact supportIndex_lt g.dst hdne n
  obtain ⟨i0, hi0⟩ : ∃ i, i = (i1 + l.length - 1) % l.length := ⟨_, rfl⟩
  obtain ⟨i2, hi2⟩ : ∃ i, i = (i1 + 1) % l.length := ⟨_, rfl⟩
  have b0 : i0 < l.length := by rw [hi0]; exact Nat.mod_lt _ hpos
  have b2 : i2 < l.length := by rw [hi2]; exact Nat.mod_lt _ hpos
  have g0 := List.getElem?_eq_getElem b0
  have g1 := List.getElem?_eq_getElem b1
  have g2 := List.getElem?_eq_getElem b2
  obtain ⟨p, hp⟩ : ∃ p, p = l[i0] := ⟨_, rfl⟩
  obtain ⟨v, hv⟩ : ∃ v, v = l[i1] := ⟨_, rfl⟩
  obtain ⟨q, hq⟩ : ∃ q, q = l[i2] := ⟨_, rfl⟩
  rw [← hp] at g0
  rw [← hv] at g1
  rw [← hq] at g2
  have E1 : (edges l)[i1]? = some (p, v) := edges_get l b1 (by rw [← hi0]; exact g0) g1
  have hback : (i2 + l.length - 1) % l.length = i1 := by
    rw [hi2]
    by_cases hc : i1 + 1 = l.length
    · rw [hc, Nat.mod_self, Nat.zero_add, Nat.mod_eq_of_lt (by omega)]; omega
    · rw [Nat.mod_eq_of_lt (show i1 + 1 < l.length by omega), show i1 + 1 + l.length - 1 = i1 + l.length by omega, Nat.add_mod_right]
      exact Nat.mod_eq_of_lt b1
  have E2 : (edges l)[i2]? = some (v, q) := edges_get l b2 (by rw [hback]; exact g1) g2
  refine ⟨p, v, q, List.mem_of_getElem? E1, List.mem_of_getElem? E2, ?_, ?_, ?_⟩
  · have hs := supportIndex_max (planes := g.dst) (n := n) (by
      obtain ⟨v, hv, hl⟩ := hb
      obtain ⟨u, hu⟩ := exists_edge_to hv
      exact ⟨⟨v, outward (u, v)⟩, by rw [hd]; exact List.mem_map_of_mem (f := fun e : Vec ℝ × Vec ℝ => (⟨e.2, outward e⟩ : Plane ℝ)) hu, hl⟩)
    rw [← hi1, vert_of_planes hd g1] at hs
    intro u hu
    obtain ⟨w, hw⟩ := exists_edge_to hu
    exact hs ⟨u, outward (w, u)⟩ (by rw [hd]; exact List.mem_map_of_mem (f := fun e : Vec ℝ × Vec ℝ => (⟨e.2, outward e⟩ : Plane ℝ)) hw)
  · simp only [edgeOfPoly]; split <;> rfl
  · simp only [edgeOfPoly, hlen, ← hi1, ← hi0, ← hi2, vert_of_planes hd g0, vert_of_planes hd g1, vert_of_planes hd g2,
      normal_of_planes hd E1, normal_of_planes hd E2, dot_comm n]
    split
    · rename_i hc; exact .inl ⟨hc, rfl, rfl⟩
    · rename_i hc; exact .inr ⟨not_lt.1 hc, rfl, rfl⟩

theorem edges_unique_to (hn : l.Nodup) {p p' v : Vec ℝ} (h1 : (p, v) ∈ edges l) (h2 : (p', v) ∈ edges l) : p = p' := by
  have hnd : ((edges l).map Prod.snd).Nodup := by rw [map_snd_edges]; exact hn
  have := List.inj_on_of_nodup_map hnd h1 h2 rfl
  exact congrArg Prod.fst this

theorem edges_unique_from (hn : l.Nodup) {v q q' : Vec ℝ} (h1 : (v, q) ∈ edges l) (h2 : (v, q') ∈ edges l) : q = q' := by
  have hnd : ((edges l).map Prod.fst).Nodup := (map_fst_edges_perm l).nodup_iff.2 hn
  have := List.inj_on_of_nodup_map hnd h1 h2 rfl
  exact congrArg Prod.snd this

theorem edgeOfPoly_facing (hd : g.dst = (edges l).map (fun e => ⟨e.2, outward e⟩)) (hl : StrictlyConvex l) (h : Word) (n : Vec ℝ)
    (hb : ∃ v ∈ l, -maxFloat < v.dot n) : Facing l n ((edgeOfPoly g h n).a, (edgeOfPoly g h n).b) := by
  have hne : l ≠ [] := by intro e; have := hl.three; simp [e] at this
  obtain ⟨p, v, q, e1, e2, hm, -, hc⟩ := edgeOfPoly_cases hd hne h n hb
  have key : ∀ f ∈ edges l, (f.1 = v ∨ f.2 = v) → f = (v, q) ∨ f = (p, v) := by
    rintro ⟨f1, f2⟩ hf (rfl | rfl)
    · exact .inl (by rw [edges_unique_from hl.nodup hf e2])
    · exact .inr (by rw [edges_unique_to hl.nodup hf e1])
  rcases hc with ⟨hlt, ha, hb⟩ | ⟨hle, ha, hb⟩
  · rw [ha, hb]
    refine ⟨e1, v, .inr rfl, hm, fun f hf hv => ?_⟩
    rcases key f hf hv with rfl | rfl
    · exact hlt.le
    · exact le_rfl
  · rw [ha, hb]
    refine ⟨e2, v, .inl rfl, hm, fun f hf hv => ?_⟩
    rcases key f hf hv with rfl | rfl
    · exact le_rfl
    · exact hle

theorem outward_dot (e : Vec ℝ × Vec ℝ) (n : Vec ℝ) : (outward e).dot n = widthAlong e.1 e.2 n / ((e.2.sub e.1).length + tiny) := by
  have hlen : (e.2.sub e.1).rperp.length = (e.2.sub e.1).length := by
    simp only [Vec.length, Vec.dot, Vec.rperp]; congr 1; ring
  have : (lit (1 / 10 ^ 15) : ℝ) = tiny := by rw [lit_real]; unfold tiny; push_cast; rfl
  simp only [outward, Vec.normalize, hlen, this, widthAlong, Vec.dot, Vec.mult]
  ring

set_option maxHeartbeats 1600000 in
/-- The side that holds a foremost point is chosen. -/
theorem edgeOfPoly_on (hd : g.dst = (edges l).map (fun e => ⟨e.2, outward e⟩)) (hl : StrictlyConvex l) (hf : NotFlat l) (h : Word) {n : Vec ℝ}
    (hn : n ≠ ⟨0, 0⟩) (hb : ∃ v ∈ l, -maxFloat < v.dot n) {A : Vec ℝ} (hA : Hull (fun p => p ∈ l) A) (hmax : ∀ u ∈ l, u.dot n ≤ A.dot n) :
    OnSegment (edgeOfPoly g h n).a (edgeOfPoly g h n).b A := by
  have hne : l ≠ [] := by intro e; have := hl.three; simp [e] at this
  obtain ⟨p, v, q, e1, e2, hm, -, hc⟩ := edgeOfPoly_cases hd hne h n hb
  have hAl := (hl.hull_iff A).1 hA
  have hvl : v ∈ l := edges_snd_mem e1
  have hAv : A.dot n = v.dot n := by
    refine le_antisymm ?_ (hmax v hvl)
    have := Hull.least (T := fun p => p.dot n ≤ v.dot n) (by
      rintro p q x hp hq ⟨s, s0, s1, rfl⟩
      simp only [Vec.dot] at hp hq ⊢
      nlinarith [mul_le_mul_of_nonneg_left hp (sub_nonneg.2 s1), mul_le_mul_of_nonneg_left hq s0]) hm hA
    exact this
  -- squares
  have hnn : 0 < n.dot n := by
    by_contra hno
    simp only [Vec.dot, not_lt] at hno
    have h1 : n.x = 0 := by nlinarith [mul_self_nonneg n.x, mul_self_nonneg n.y]
    have h2 : n.y = 0 := by nlinarith [mul_self_nonneg n.x, mul_self_nonneg n.y]
    exact hn (by ext <;> assumption)
  have hturn := hl.next_turn e1 e2
  have t1 := hAl _ e1
  have t2 := hAl _ e2
  simp only at t1 t2
  have xn : 0 ≤ (v.sub p).dot n := by
    have := hm p (edges_fst_mem e1); simp only [Vec.dot, Vec.sub] at this ⊢; linarith
  have yn : (q.sub v).dot n ≤ 0 := by
    have := hm q (edges_snd_mem e2); simp only [Vec.dot, Vec.sub] at this ⊢; linarith
  -- the position of A along the foremost line
  obtain ⟨ζ, hζ⟩ : ∃ ζ, ζ = ((A.y - v.y) * n.x - (A.x - v.x) * n.y) / n.dot n := ⟨_, rfl⟩
  have hζ' : ζ * n.dot n = (A.y - v.y) * n.x - (A.x - v.x) * n.y := by rw [hζ]; exact div_mul_cancel₀ _ hnn.ne'
  have hperp : (A.x - v.x) * n.x + (A.y - v.y) * n.y = 0 := by simp only [Vec.dot] at hAv; linarith
  have hz1 : A.x - v.x = -(ζ * n.y) := by
    have : n.dot n * ((A.x - v.x) + ζ * n.y) = 0 := by
      simp only [Vec.dot] at hζ' ⊢; linear_combination n.y * hζ' + n.x * hperp
    rcases mul_eq_zero.1 this with hh | hh
    · exact absurd hh hnn.ne'
    · linarith
  have hz2 : A.y - v.y = ζ * n.x := by
    have : n.dot n * ((A.y - v.y) - ζ * n.x) = 0 := by
      simp only [Vec.dot] at hζ' ⊢; linear_combination (-n.x) * hζ' + n.y * hperp
    rcases mul_eq_zero.1 this with hh | hh
    · exact absurd hh hnn.ne'
    · linarith
  have T1 : turn p v A = ζ * (v.sub p).dot n := by
    simp only [turn, Vec.dot, Vec.sub]
    linear_combination (v.x - p.x) * hz2 - (v.y - p.y) * hz1
  have T2 : turn v q A = ζ * (q.sub v).dot n := by
    simp only [turn, Vec.dot, Vec.sub]
    linear_combination (q.x - v.x) * hz2 - (q.y - v.y) * hz1
  rw [T1] at t1
  rw [T2] at t2
  have O : ∀ {a b : Vec ℝ}, OnSegment a b a ∧ OnSegment a b b := fun {a b} =>
    ⟨⟨0, le_rfl, zero_le_one, by ext <;> simp⟩, ⟨1, zero_le_one, le_rfl, by ext <;> simp⟩⟩
  rcases lt_trichotomy ζ 0 with hneg | hzero | hpos
  · -- on the first side
    have hx0 : (v.sub p).dot n = 0 := by
      by_contra hno
      have := mul_neg_of_neg_of_pos hneg (lt_of_le_of_ne xn (Ne.symm hno))
      linarith
    have hon : OnSegment p v A := hl.on_edge e1 hAl (by rw [T1, hx0, mul_zero])
    rcases hc with ⟨_, ha, hb⟩ | ⟨hle, _, _⟩
    · rw [ha, hb]; exact hon
    exfalso
    have hfl := hf _ e1 _ e2 (.inl rfl)
    simp only at hfl
    rw [outward_dot, outward_dot] at hle
    simp only at hle
    obtain ⟨X, hX⟩ : ∃ X, X = v.sub p := ⟨_, rfl⟩
    obtain ⟨Y, hY⟩ : ∃ Y, Y = q.sub v := ⟨_, rfl⟩
    have hw1 : widthAlong p v n = X.rperp.dot n := by rw [hX]; rfl
    have hw2 : widthAlong v q n = Y.rperp.dot n := by rw [hY]; rfl
    rw [hw1, hw2, ← hX, ← hY] at hle
    rw [← hX, ← hY] at hfl
    rw [← hX] at hx0
    rw [← hY] at yn
    have hcr : 0 < X.x * Y.y - X.y * Y.x := by
      rw [hX, hY]; simp only [turn, Vec.sub] at hturn ⊢; linarith
    -- X = ξ perp n
    obtain ⟨ξ, hξ⟩ : ∃ ξ, ξ = (X.y * n.x - X.x * n.y) / n.dot n := ⟨_, rfl⟩
    have hξ' : ξ * n.dot n = X.y * n.x - X.x * n.y := by rw [hξ]; exact div_mul_cancel₀ _ hnn.ne'
    have hX1 : X.x = -(ξ * n.y) := by
      have : n.dot n * (X.x + ξ * n.y) = 0 := by
        simp only [Vec.dot] at hξ' hx0 ⊢; linear_combination n.y * hξ' + n.x * hx0
      rcases mul_eq_zero.1 this with hh | hh
      · exact absurd hh hnn.ne'
      · linarith
    have hX2 : X.y = ξ * n.x := by
      have : n.dot n * (X.y - ξ * n.x) = 0 := by
        simp only [Vec.dot] at hξ' hx0 ⊢; linear_combination (-n.x) * hξ' + n.y * hx0
      rcases mul_eq_zero.1 this with hh | hh
      · exact absurd hh hnn.ne'
      · linarith
    have hξpos : 0 < ξ := by
      have e : X.x * Y.y - X.y * Y.x = ξ * (- Y.dot n) := by simp only [Vec.dot]; rw [hX1, hX2]; ring
      rw [e] at hcr
      by_contra hno
      have := mul_nonpos_of_nonpos_of_nonneg (not_lt.1 hno) (neg_nonneg.2 yn)
      linarith
    have d1 : X.dot Y = ξ * Y.rperp.dot n := by simp only [Vec.dot, Vec.rperp]; rw [hX1, hX2]; ring
    have d2 : X.dot X = ξ * X.rperp.dot n := by simp only [Vec.dot, Vec.rperp]; rw [hX1, hX2]; ring
    have hLX : 0 ≤ X.length := Real.sqrt_nonneg _
    have hLY : 0 ≤ Y.length := Real.sqrt_nonneg _
    rw [d1, d2, mul_assoc, mul_assoc] at hfl
    have hfl' := lt_of_mul_lt_mul_left hfl hξpos.le
    rw [div_le_div_iff₀ (by linarith [tiny_pos]) (by linarith [tiny_pos])] at hle
    have hpw : 0 ≤ X.rperp.dot n := by
      have : 0 ≤ ξ * X.rperp.dot n := by rw [← d2]; simp only [Vec.dot]; nlinarith [mul_self_nonneg X.x, mul_self_nonneg X.y]
      by_contra hno
      have := mul_neg_of_pos_of_neg hξpos (not_le.1 hno)
      linarith
    nlinarith [mul_nonneg hpw tiny_pos.le]
  · have hAe : A = v := by
      rw [hzero] at hz1 hz2
      ext <;> linarith
    rw [hAe]
    rcases hc with ⟨_, ha, hb⟩ | ⟨_, ha, hb⟩
    · rw [ha, hb]; exact O.2
    · rw [ha, hb]; exact O.1
  · have hy0 : (q.sub v).dot n = 0 := by
      by_contra hno
      have := mul_neg_of_pos_of_neg hpos (lt_of_le_of_ne yn hno)
      linarith
    have hon : OnSegment v q A := hl.on_edge e2 hAl (by rw [T2, hy0, mul_zero])
    rcases hc with ⟨hlt, _, _⟩ | ⟨_, ha, hb⟩
    swap
    · rw [ha, hb]; exact hon
    exfalso
    have hfl := hf _ e2 _ e1 (.inr rfl)
    simp only at hfl
    rw [outward_dot, outward_dot] at hlt
    simp only at hlt
    obtain ⟨X, hX⟩ : ∃ X, X = v.sub p := ⟨_, rfl⟩
    obtain ⟨Y, hY⟩ : ∃ Y, Y = q.sub v := ⟨_, rfl⟩
    have hw1 : widthAlong p v n = X.rperp.dot n := by rw [hX]; rfl
    have hw2 : widthAlong v q n = Y.rperp.dot n := by rw [hY]; rfl
    rw [hw1, hw2, ← hX, ← hY] at hlt
    rw [← hX, ← hY] at hfl
    rw [← hX] at xn
    rw [← hY] at hy0
    have hcr : 0 < X.x * Y.y - X.y * Y.x := by
      rw [hX, hY]; simp only [turn, Vec.sub] at hturn ⊢; linarith
    obtain ⟨ξ, hξ⟩ : ∃ ξ, ξ = (Y.y * n.x - Y.x * n.y) / n.dot n := ⟨_, rfl⟩
    have hξ' : ξ * n.dot n = Y.y * n.x - Y.x * n.y := by rw [hξ]; exact div_mul_cancel₀ _ hnn.ne'
    have hX1 : Y.x = -(ξ * n.y) := by
      have : n.dot n * (Y.x + ξ * n.y) = 0 := by
        simp only [Vec.dot] at hξ' hy0 ⊢; linear_combination n.y * hξ' + n.x * hy0
      rcases mul_eq_zero.1 this with hh | hh
      · exact absurd hh hnn.ne'
      · linarith
    have hX2 : Y.y = ξ * n.x := by
      have : n.dot n * (Y.y - ξ * n.x) = 0 := by
        simp only [Vec.dot] at hξ' hy0 ⊢; linear_combination (-n.x) * hξ' + n.y * hy0
      rcases mul_eq_zero.1 this with hh | hh
      · exact absurd hh hnn.ne'
      · linarith
    have hξpos : 0 < ξ := by
      have e : X.x * Y.y - X.y * Y.x = ξ * X.dot n := by simp only [Vec.dot]; rw [hX1, hX2]; ring
      rw [e] at hcr
      by_contra hno
      have := mul_nonpos_of_nonpos_of_nonneg (not_lt.1 hno) xn
      linarith
    have d1 : Y.dot X = ξ * X.rperp.dot n := by simp only [Vec.dot, Vec.rperp]; rw [hX1, hX2]; ring
    have d2 : Y.dot Y = ξ * Y.rperp.dot n := by simp only [Vec.dot, Vec.rperp]; rw [hX1, hX2]; ring
    have hLX : 0 ≤ X.length := Real.sqrt_nonneg _
    have hLY : 0 ≤ Y.length := Real.sqrt_nonneg _
    rw [d1, d2, mul_assoc, mul_assoc] at hfl
    have hfl' := lt_of_mul_lt_mul_left hfl hξpos.le
    rw [div_lt_div_iff₀ (by linarith [tiny_pos]) (by linarith [tiny_pos])] at hlt
    have hpw : 0 ≤ Y.rperp.dot n := by
      have : 0 ≤ ξ * Y.rperp.dot n := by rw [← d2]; simp only [Vec.dot]; nlinarith [mul_self_nonneg Y.x, mul_self_nonneg Y.y]
      by_contra hno
      have := mul_neg_of_pos_of_neg hξpos (not_le.1 hno)
      linarith
    nlinarith [mul_nonneg hpw tiny_pos.le]

/-! ### Segments -/

theorem edgeOfSegment_facing {g : Segment ℝ} {k : ℝ} (hk : 0 < k) (hn : g.tn = (g.tb.sub g.ta).rperp.mult k) (h : Word) (n : Vec ℝ) :
    Facing [g.ta, g.tb] n ((edgeOfSegment g h n).a, (edgeOfSegment g h n).b) := by
  have ht : g.tn.dot n = k * widthAlong g.ta g.tb n := by rw [hn]; simp only [widthAlong, Vec.dot, Vec.mult]; ring
  have hL : 0 < (g.tb.sub g.ta).length + tiny := by
    have : 0 ≤ (g.tb.sub g.ta).length := Real.sqrt_nonneg _
    linarith [tiny_pos]
  have hL' : 0 < (g.ta.sub g.tb).length + tiny := by
    have : 0 ≤ (g.ta.sub g.tb).length := Real.sqrt_nonneg _
    linarith [tiny_pos]
  have hopp : widthAlong g.tb g.ta n = - widthAlong g.ta g.tb n := by simp only [widthAlong, Vec.dot, Vec.rperp, Vec.sub]; ring
  have hed : ∀ f, f ∈ edges [g.ta, g.tb] ↔ f = (g.tb, g.ta) ∨ f = (g.ta, g.tb) := by
    intro f; simp [edges, pairsFrom]
  have hext : ∃ v, (v = g.ta ∨ v = g.tb) ∧ ∀ u ∈ [g.ta, g.tb], u.dot n ≤ v.dot n := by
    rcases le_total (g.ta.dot n) (g.tb.dot n) with hh | hh
    · exact ⟨g.tb, .inr rfl, by simp [hh]⟩
    · exact ⟨g.ta, .inl rfl, by simp [hh]⟩
  obtain ⟨v, hv, hm⟩ := hext
  unfold edgeOfSegment
  split
  · rename_i hc
    rw [ht] at hc
    have hw : 0 < widthAlong g.ta g.tb n := by
      by_contra hno
      have := mul_nonpos_of_nonneg_of_nonpos hk.le (not_lt.1 hno)
      linarith
    refine ⟨(hed _).2 (.inr rfl), v, hv, hm, fun f hf _ => ?_⟩
    rcases (hed f).1 hf with rfl | rfl
    · rw [outward_dot, outward_dot]
      simp only
      rw [hopp]
      exact (div_nonpos_of_nonpos_of_nonneg (by linarith) hL'.le).trans (div_nonneg hw.le hL.le)
    · exact le_rfl
  · rename_i hc
    rw [ht] at hc
    have hw : widthAlong g.ta g.tb n ≤ 0 := by
      by_contra hno
      exact hc (mul_pos hk (not_le.1 hno))
    refine ⟨(hed _).2 (.inl rfl), v, hv.symm, hm, fun f hf _ => ?_⟩
    rcases (hed f).1 hf with rfl | rfl
    · exact le_rfl
    · rw [outward_dot, outward_dot]
      simp only
      rw [hopp]
      exact (div_nonpos_of_nonpos_of_nonneg hw hL.le).trans (div_nonneg (by linarith) hL'.le)

theorem hull_pair {a b x : Vec ℝ} (h : Hull (fun p => p ∈ [a, b]) x) : OnSegment a b x := by
  refine Hull.least (T := OnSegment a b) ?_ ?_ h
  · rintro p q x ⟨s, s0, s1, rfl⟩ ⟨t, t0, t1, rfl⟩ ⟨u, u0, u1, rfl⟩
    refine ⟨s + u * (t - s), by nlinarith, by nlinarith, ?_⟩
    ext <;> simp only <;> ring
  · intro p hp
    simp only [List.mem_cons, List.not_mem_nil, or_false] at hp
    rcases hp with rfl | rfl
    · exact ⟨0, le_rfl, zero_le_one, by ext <;> simp⟩
    · exact ⟨1, zero_le_one, le_rfl, by ext <;> simp⟩

theorem OnSegment.symm {a b x : Vec ℝ} (h : OnSegment a b x) : OnSegment b a x := by
  obtain ⟨s, s0, s1, rfl⟩ := h
  exact ⟨1 - s, by linarith, by linarith, by ext <;> simp only <;> ring⟩

theorem edgeOfSegment_on (g : Segment ℝ) (h : Word) (n : Vec ℝ) {A : Vec ℝ} (hA : (Cls.seg g).core A) :
    OnSegment (edgeOfSegment g h n).a (edgeOfSegment g h n).b A := by
  have := hull_pair hA
  unfold edgeOfSegment
  split
  · exact this
  · exact this.symm

/-! ### The edge of any shape -/

/-- The edge the collision functions take from a segment or a polygon. -/
noncomputable def edgeOf : Cls ℝ → Word → Vec ℝ → Edge ℝ
  | .circle s, _, _ => ⟨s.tc, 0#64, s.tc, 0#64, s.r, ⟨0, 0⟩⟩
  | .seg g, h, n => edgeOfSegment g h n
  | .poly g, h, n => edgeOfPoly g h n

theorem edgeOf_facing {s : Cls ℝ} (hs : Sided s) (hf : s.Fine) {n : Vec ℝ} (hn : Small n) (h : Word) :
    Facing s.verts n ((edgeOf s h n).a, (edgeOf s h n).b) ∧ (edgeOf s h n).r = s.radius := by
  cases s with
  | circle c => exact hs.elim
  | seg g =>
    obtain ⟨k, hk, hn⟩ := hs
    refine ⟨edgeOfSegment_facing hk hn h n, ?_⟩
    simp only [edgeOf, edgeOfSegment, Cls.radius]; split <;> rfl
  | poly g =>
    obtain ⟨l, hd, hc, hflat⟩ := hs
    have hv := verts_of_planes hd
    have hb : ∃ v ∈ l, -maxFloat < v.dot n := by
      have hp := hf.pos
      rw [hv] at hp
      obtain ⟨v, hvl⟩ := List.exists_mem_of_ne_nil l hp
      exact ⟨v, hvl, neg_maxFloat_lt_dot (hf.bounded v (by rw [hv]; exact hvl)) hn⟩
    refine ⟨by rw [hv]; exact edgeOfPoly_facing hd hc h n hb, ?_⟩
    simp only [edgeOf, edgeOfPoly, Cls.radius]; split <;> rfl

theorem edgeOf_on {s : Cls ℝ} (hs : Sided s) (hf : s.Fine) {n : Vec ℝ} (hn : Small n) (hn0 : n ≠ ⟨0, 0⟩) (h : Word) {A : Vec ℝ} (hA : s.core A)
    (hmax : ∀ a, s.core a → a.dot n ≤ A.dot n) : OnSegment (edgeOf s h n).a (edgeOf s h n).b A := by
  cases s with
  | circle c => exact hs.elim
  | seg g => exact edgeOfSegment_on g h n hA
  | poly g =>
    obtain ⟨l, hd, hc, hflat⟩ := hs
    have hv := verts_of_planes hd
    have hb : ∃ v ∈ l, -maxFloat < v.dot n := by
      have hp := hf.pos
      rw [hv] at hp
      obtain ⟨v, hvl⟩ := List.exists_mem_of_ne_nil l hp
      exact ⟨v, hvl, neg_maxFloat_lt_dot (hf.bounded v (by rw [hv]; exact hvl)) hn⟩
    refine edgeOfPoly_on hd hc hflat h hn0 hb (by simpa only [Cls.core, hv] using hA) fun u hu => ?_
    exact hmax u (Hull.pt (by rw [hv]; exact hu))

end CP
