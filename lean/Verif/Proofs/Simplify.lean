import Verif.Props.PolyLine
import Verif.Proofs.Plane

/-! # Douglas-Peucker: the vertices kept -/

namespace CP
open GoFloat PL
variable {F : Type} [GoFloat F]

theorem mod_step {L s p q : Nat} (hL : 0 < L) (hpq : p ≤ q) (h : q - p < L) :
    ((s + q) % L + L - (s + p) % L) % L = q - p := by
  obtain ⟨k, rfl⟩ : ∃ k, q = p + k := ⟨q - p, by omega⟩
  have hx : (s + p) % L < L := Nat.mod_lt _ hL
  have e : (s + (p + k)) % L = ((s + p) % L + k) % L := by rw [← Nat.add_assoc, Nat.mod_add_mod]
  rw [e]
  generalize (s + p) % L = x at hx
  have hk : k < L := by omega
  have ep : p + k - p = k := by omega
  rw [ep]
  by_cases hc : x + k < L
  · rw [Nat.mod_eq_of_lt hc, show x + k + L - x = k + L by omega, Nat.add_mod_right, Nat.mod_eq_of_lt hk]
  · rw [Nat.mod_eq_sub_mod (by omega : L ≤ x + k), Nat.mod_eq_of_lt (by omega : x + k - L < L),
      show x + k - L + L - x = k by omega, Nat.mod_eq_of_lt hk]

theorem mod_ne {L s p q : Nat} (hL : 0 < L) (hpq : p < q) (h : q - p < L) : (s + p) % L ≠ (s + q) % L := by
  intro e
  have := mod_step (s := s) hL hpq.le h
  rw [e, show (s + q) % L + L - (s + q) % L = L by omega, Nat.mod_self] at this
  omega

theorem next_mod {L s o : Nat} : next ((s + o) % L) L = (s + (o + 1)) % L := by
  unfold next
  rw [Nat.mod_add_mod, Nat.add_assoc]

/-- The search for the farthest vertex, over the positions `o`, …, `q - 1` of the walk that starts at `s`. -/
theorem farthest_spec {verts : Line F} {L s q : Nat} (hL : 0 < L) (n : Vec F) (d : F) :
    ∀ (fuel o : Nat) (mx : F) (maxi : Nat) (mx' : F) (maxi' : Nat), o ≤ q → q - o < L →
      farthest verts L ((s + q) % L) n d fuel ((s + o) % L) mx maxi = some (mx', maxi') →
      mx ≤ mx' ∧ (∀ k, o ≤ k → k < q → ∀ v, verts[(s + k) % L]? = some v → fabs (n.dot v - d) ≤ mx') ∧
      ((mx' = mx ∧ maxi' = maxi) ∨ ∃ k, o ≤ k ∧ k < q ∧ maxi' = (s + k) % L ∧ mx < mx' ∧
        ∀ v, verts[(s + k) % L]? = some v → mx' = fabs (n.dot v - d)) := by
  intro fuel
  induction fuel with
  | zero => intro o mx maxi mx' maxi' _ _ h; cases h
  | succ fuel ih =>
    intro o mx maxi mx' maxi' hoq hlt h
    unfold farthest at h
    by_cases he : o = q
    · subst he
      rw [if_pos rfl] at h
      cases h
      exact ⟨le_refl _, fun k hk hk' => by omega, Or.inl ⟨rfl, rfl⟩⟩
    · have hoq' : o < q := by omega
      rw [if_neg (mod_ne hL hoq' hlt)] at h
      cases hv : verts[(s + o) % L]? with
      | none => rw [hv] at h; cases h
      | some v =>
        simp only [hv, Option.bind_eq_bind, Option.bind_some, next_mod] at h
        by_cases hm : mx < fabs (n.dot v - d)
        · rw [if_pos hm] at h
          obtain ⟨h1, h2, h3⟩ := ih (o + 1) _ _ mx' maxi' (by omega) (by omega) h
          refine ⟨hm.le.trans h1, ?_, ?_⟩
          · intro k hk hk' w hw
            by_cases e : k = o
            · subst e; rw [hv] at hw; cases hw; exact h1
            · exact h2 k (by omega) hk' w hw
          · right
            rcases h3 with ⟨e', e⟩ | ⟨k, k1, k2, k3, _, k5⟩
            · exact ⟨o, le_refl _, hoq', e, lt_of_lt_of_le hm h1, fun w hw => by rw [hv] at hw; cases hw; exact e'⟩
            · exact ⟨k, by omega, k2, k3, lt_of_lt_of_le hm h1, k5⟩
        · rw [if_neg hm] at h
          obtain ⟨h1, h2, h3⟩ := ih (o + 1) _ _ mx' maxi' (by omega) (by omega) h
          refine ⟨h1, ?_, ?_⟩
          · intro k hk hk' w hw
            by_cases e : k = o
            · subst e; rw [hv] at hw; cases hw; exact (not_lt.1 hm).trans h1
            · exact h2 k (by omega) hk' w hw
          · rcases h3 with h3 | ⟨k, k1, k2, k3, k4, k5⟩
            · exact Or.inl h3
            · exact Or.inr ⟨k, by omega, k2, k3, k4, k5⟩

theorem farthest_some {verts : Line F} {L s q : Nat} (hL : 0 < L) (hv : ∀ i, i < L → ∃ v, verts[i]? = some v) (n : Vec F) (d : F) :
    ∀ (fuel o : Nat) (mx : F) (maxi : Nat), o ≤ q → q - o < L → q - o < fuel →
      ∃ r, farthest verts L ((s + q) % L) n d fuel ((s + o) % L) mx maxi = some r := by
  intro fuel
  induction fuel with
  | zero => intro o mx maxi _ _ h; omega
  | succ fuel ih =>
    intro o mx maxi hoq hlt hf
    unfold farthest
    by_cases he : o = q
    · subst he; rw [if_pos rfl]; exact ⟨_, rfl⟩
    · rw [if_neg (mod_ne hL (by omega) hlt)]
      obtain ⟨v, e⟩ := hv ((s + o) % L) (Nat.mod_lt _ hL)
      simp only [e, Option.bind_eq_bind, Option.bind_some, next_mod]
      split
      · exact ih (o + 1) _ _ (by omega) (by omega) (by omega)
      · exact ih (o + 1) _ _ (by omega) (by omega) (by omega)

theorem isShort_true {verts : Line F} {count start stop : Nat} {min : F} (h : start ≠ stop) :
    ∀ (fuel : Nat) (len : F), isShortFrom verts count start stop min fuel len ≠ some true := by
  intro fuel
  induction fuel with
  | zero => intro len h; cases h
  | succ fuel ih =>
    intro len hs
    unfold isShortFrom at hs
    rw [if_neg h] at hs
    cases ha : verts[start]? with
    | none => rw [ha] at hs; cases hs
    | some a =>
      cases hb : verts[next start count]? with
      | none => rw [ha, hb] at hs; cases hs
      | some b =>
        simp only [ha, hb, Option.bind_eq_bind, Option.bind_some] at hs
        split at hs
        · cases hs
        · exact ih _ hs

/-- One level of the recursion. -/
theorem dp_step {verts : Line F} {L s p q : Nat} {min tol : F} {fuel : Nat} {red r : Line F} (hL : 0 < L) (hpq : p < q)
    (h : q - p < L) (htol : 0 ≤ tol)
    (hr : douglasPeucker verts L min tol (fuel + 1) red ((s + p) % L) ((s + q) % L) = some r) :
    (r = red ∧ ∀ k, p < k → k < q → ∀ a b v, verts[(s + p) % L]? = some a → verts[(s + q) % L]? = some b →
      verts[(s + k) % L]? = some v → offChord a b v ≤ tol) ∨
    ∃ k v red', p < k ∧ k < q ∧ verts[(s + k) % L]? = some v ∧
      (∀ a b, verts[(s + p) % L]? = some a → verts[(s + q) % L]? = some b → tol < offChord a b v) ∧
      douglasPeucker verts L min tol fuel red ((s + p) % L) ((s + k) % L) = some red' ∧
      douglasPeucker verts L min tol fuel (red' ++ [v]) ((s + k) % L) ((s + q) % L) = some r := by
  rw [douglasPeucker, mod_step hL hpq.le h] at hr
  by_cases h2 : q - p < 2
  · rw [if_pos h2] at hr
    cases hr
    exact Or.inl ⟨rfl, fun k h1 h2 => by omega⟩
  · rw [if_neg h2] at hr
    cases ha : verts[(s + p) % L]? with
    | none => rw [ha] at hr; cases hr
    | some a =>
      cases hb : verts[(s + q) % L]? with
      | none => rw [ha, hb] at hr; cases hr
      | some b =>
        simp only [ha, hb, Option.bind_eq_bind, Option.bind_some] at hr
        have hns : ∀ x, nearShort (fuel + 1) a b red L ((s + p) % L) ((s + q) % L) min =
            some x → x = false := by
          intro x hx
          unfold nearShort at hx
          split at hx
          · cases x with
            | false => rfl
            | true => exact absurd hx (isShort_true (mod_ne hL hpq h) _ _)
          · cases hx; rfl
        cases hs : nearShort (fuel + 1) a b red L ((s + p) % L) ((s + q) % L) min with
        | none => rw [hs] at hr; cases hr
        | some x =>
          rw [hs] at hr
          rw [hns x hs] at hr
          simp only [Option.bind_some, Bool.false_eq_true, if_false, next_mod] at hr
          cases hf : farthest verts L ((s + q) % L) (b.sub a).perp.normalize ((b.sub a).perp.normalize.dot a) (fuel + 1)
              ((s + (p + 1)) % L) 0 ((s + p) % L) with
          | none => rw [hf] at hr; cases hr
          | some y =>
            obtain ⟨mx, maxi⟩ := y
            rw [hf] at hr
            simp only [Option.bind_some] at hr
            obtain ⟨_, f2, f3⟩ := farthest_spec hL _ _ (fuel + 1) (p + 1) 0 _ mx maxi (by omega) (by omega) hf
            by_cases ht : tol < mx
            · rw [if_pos ht] at hr
              rcases f3 with ⟨e, _⟩ | ⟨k, k1, k2, k3, _, k5⟩
              · rw [e] at ht; exact absurd htol (not_le.2 ht)
              · subst k3
                cases hv : verts[(s + k) % L]? with
                | none => rw [hv] at hr; cases hr
                | some v =>
                  simp only [hv, Option.bind_some] at hr
                  cases hd : douglasPeucker verts L min tol fuel red ((s + p) % L) ((s + k) % L) with
                  | none => rw [hd] at hr; cases hr
                  | some red' =>
                    rw [hd] at hr
                    refine Or.inr ⟨k, v, red', by omega, k2, hv, ?_, hd, hr⟩
                    intro a' b' ea eb
                    cases ea; cases eb
                    rw [← show mx = offChord a b v from k5 v hv]; exact ht
            · rw [if_neg ht] at hr
              cases hr
              left
              refine ⟨rfl, fun k k1 k2 a' b' v ea eb ev => ?_⟩
              cases ea; cases eb
              exact (f2 k (by omega) k2 v ev).trans (not_lt.1 ht)

theorem steps_mid {A : Type} (l : List A) (k : A) (m : List A) : steps (l ++ k :: m) = steps (l ++ [k]) ++ steps (k :: m) := by
  induction l with
  | nil => simp [steps]
  | cons a l ih =>
    cases l with
    | nil => simp [steps]
    | cons b l =>
      have e1 : ∀ x, steps (a :: b :: l ++ x) = (a, b) :: steps (b :: l ++ x) := fun x => rfl
      rw [e1, e1, ih]; rfl

theorem offChord_left (a b : Vec ℝ) : offChord a b a = 0 := by
  simp [offChord, fabs_real]

theorem offChord_eq (a b v : Vec ℝ) :
    offChord a b v = |(b.x - a.x) * (v.y - a.y) - (b.y - a.y) * (v.x - a.x)| / (a.distance b + 1 / 10 ^ 15) := by
  have h0 := Vec.distance_nonneg a b
  have hp : (0 : ℝ) < a.distance b + 1 / 10 ^ 15 := by positivity
  have hl : (b.sub a).perp.length = a.distance b := by
    rw [Vec.distance_comm]; simp only [Vec.distance, Vec.length, Vec.perp, Vec.lengthSq, Vec.dot]; congr 1; ring
  have : offChord a b v = |((b.x - a.x) * (v.y - a.y) - (b.y - a.y) * (v.x - a.x)) * (1 / (a.distance b + 1 / 10 ^ 15))| := by
    simp only [offChord, fabs_real, Vec.normalize, hl]
    congr 1
    simp only [Vec.mult, Vec.perp, Vec.sub, Vec.dot, lit_real]
    push_cast
    ring
  rw [this, abs_mul, abs_of_pos (by positivity : (0 : ℝ) < 1 / (a.distance b + 1 / 10 ^ 15)), mul_one_div]

theorem offChord_right (a b : Vec ℝ) : offChord a b b = 0 := by
  rw [offChord_eq, show (b.x - a.x) * (b.y - a.y) - (b.y - a.y) * (b.x - a.x) = 0 by ring]; simp

/-- The vertices between the positions `p` and `q` that are kept. -/
theorem dp_sound {verts : Line ℝ} {L s : Nat} {min tol : ℝ} (hL : 0 < L) (htol : 0 ≤ tol) :
    ∀ (fuel p q : Nat) (red r : Line ℝ), p < q → q - p < L →
      verts[(s + p) % L]? ≠ verts[(s + q) % L]? → (∃ v, verts[(s + p) % L]? = some v) → (∃ v, verts[(s + q) % L]? = some v) →
      douglasPeucker verts L min tol fuel red ((s + p) % L) ((s + q) % L) = some r →
      ∃ ks : List Nat, r.map some = red.map some ++ ks.map (fun k => verts[(s + k) % L]?) ∧
        (p :: (ks ++ [q])).Pairwise (· < ·) ∧
        (∀ st ∈ steps (p :: (ks ++ [q])), verts[(s + st.1) % L]? ≠ verts[(s + st.2) % L]?) ∧
        ∀ st ∈ steps (p :: (ks ++ [q])), ∀ k, st.1 < k → k < st.2 → ∀ a b v, verts[(s + st.1) % L]? = some a →
          verts[(s + st.2) % L]? = some b → verts[(s + k) % L]? = some v → offChord a b v ≤ tol := by
  intro fuel
  induction fuel with
  | zero => intro p q red r _ _ _ _ _ h; cases h
  | succ fuel ih =>
    intro p q red r hpq h hne hp hq hr
    rcases dp_step hL hpq h htol hr with ⟨rfl, hc⟩ | ⟨k, v, red', k1, k2, hv, hfar, h1, h2⟩
    · refine ⟨[], by simp, by simp [hpq], ?_, ?_⟩
      · intro st hst
        simp only [steps, List.nil_append, List.tail_cons, List.zip_cons_cons, List.zip_nil_right, List.mem_singleton] at hst
        subst hst
        exact hne
      intro st hst
      simp only [steps, List.nil_append, List.tail_cons, List.zip_cons_cons, List.zip_nil_right, List.mem_singleton] at hst
      subst hst
      exact hc
    · obtain ⟨a, ha⟩ := hp
      obtain ⟨b, hb⟩ := hq
      have hfar := hfar a b ha hb
      obtain ⟨ks1, e1, o1, d1, c1⟩ := ih p k red red' k1 (by omega) (by
        rw [ha, hv]; intro e; cases e
        rw [offChord_left] at hfar; exact absurd htol (not_le.2 hfar)) ⟨a, ha⟩ ⟨v, hv⟩ h1
      obtain ⟨ks2, e2, o2, d2, c2⟩ := ih k q _ r k2 (by omega) (by
        rw [hb, hv]; intro e; cases e
        rw [offChord_right] at hfar; exact absurd htol (not_le.2 hfar)) ⟨v, hv⟩ ⟨b, hb⟩ h2
      refine ⟨ks1 ++ k :: ks2, ?_, ?_, ?_, ?_⟩
      · rw [e2, List.map_append, e1]; simp [hv]
      · have ea : p :: (ks1 ++ k :: ks2 ++ [q]) = (p :: ks1) ++ (k :: (ks2 ++ [q])) := by simp
        rw [ea, List.pairwise_append]
        have ob : (p :: ks1 ++ [k]).Pairwise (· < ·) := by simpa using o1
        rw [List.pairwise_append] at ob
        refine ⟨ob.1, o2, ?_⟩
        intro x hx y hy
        have hxk := ob.2.2 x hx k (by simp)
        rcases List.mem_cons.1 hy with rfl | hy
        · exact hxk
        · exact hxk.trans ((List.pairwise_cons.1 o2).1 y hy)
      · intro st hst
        have ea : p :: (ks1 ++ k :: ks2 ++ [q]) = (p :: ks1) ++ k :: (ks2 ++ [q]) := by simp
        rw [ea, steps_mid] at hst
        rcases List.mem_append.1 hst with hst | hst
        · exact d1 st (by simpa using hst)
        · exact d2 st hst
      · intro st hst
        have ea : p :: (ks1 ++ k :: ks2 ++ [q]) = (p :: ks1) ++ k :: (ks2 ++ [q]) := by simp
        rw [ea, steps_mid] at hst
        rcases List.mem_append.1 hst with hst | hst
        · exact c1 st (by simpa using hst)
        · exact c2 st hst
/-- The recursion returns if no two vertices are nearer than `min`. -/
theorem dp_some {verts : Line F} {L s : Nat} {min tol : F} (hL : 0 < L) (htol : 0 ≤ tol)
    (hv : ∀ i, i < L → ∃ v, verts[i]? = some v)
    (hn : ∀ i j a b, i < L → j < L → i ≠ j → verts[i]? = some a → verts[j]? = some b → a.near b min = false) :
    ∀ (fuel p q : Nat) (red : Line F), p < q → q - p < L → q - p < fuel →
      ∃ r, douglasPeucker verts L min tol fuel red ((s + p) % L) ((s + q) % L) = some r := by
  intro fuel
  induction fuel with
  | zero => intro p q red _ _ h; omega
  | succ fuel ih =>
    intro p q red hpq h hf
    rw [douglasPeucker, mod_step hL hpq.le h]
    by_cases h2 : q - p < 2
    · rw [if_pos h2]; exact ⟨_, rfl⟩
    · rw [if_neg h2]
      obtain ⟨a, ha⟩ := hv ((s + p) % L) (Nat.mod_lt _ hL)
      obtain ⟨b, hb⟩ := hv ((s + q) % L) (Nat.mod_lt _ hL)
      have hnear := hn _ _ a b (Nat.mod_lt _ hL) (Nat.mod_lt _ hL) (mod_ne hL hpq h) ha hb
      obtain ⟨⟨mx, maxi⟩, hf'⟩ := farthest_some (s := s) (q := q) hL hv (b.sub a).perp.normalize ((b.sub a).perp.normalize.dot a)
        (fuel + 1) (p + 1) 0 ((s + p) % L) (by omega) (by omega) (by omega)
      obtain ⟨_, _, f3⟩ := farthest_spec hL _ _ (fuel + 1) (p + 1) 0 _ mx maxi (by omega) (by omega) hf'
      simp only [ha, hb, nearShort, hnear, Bool.false_eq_true, if_false, next_mod, hf', Option.bind_eq_bind, Option.bind_some]
      by_cases ht : tol < mx
      · rw [if_pos ht]
        rcases f3 with ⟨e, _⟩ | ⟨k, k1, k2, k3, _, _⟩
        · rw [e] at ht; exact absurd htol (not_le.2 ht)
        · subst k3
          obtain ⟨v, ev⟩ := hv ((s + k) % L) (Nat.mod_lt _ hL)
          obtain ⟨r1, e1⟩ := ih p k red (by omega) (by omega) (by omega)
          obtain ⟨r2, e2⟩ := ih k q (r1 ++ [v]) (by omega) (by omega) (by omega)
          simp only [ev, e1, Option.bind_some]
          exact ⟨r2, e2⟩
      · rw [if_neg ht]; exact ⟨_, rfl⟩

end CP
