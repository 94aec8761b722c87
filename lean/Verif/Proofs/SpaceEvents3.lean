import Verif.Proofs.SpaceEvents2

/-! # The callbacks of one pair in the loop over all collisions -/

namespace CP
variable {F : Type}
namespace Sp
variable [GoFloat F]

theorem loop_still {L : Nat → List Nat} {s0 : Sp F} {p q : Nat} : ∀ (l done : List CollideIn) (s t : Sp F), Col L s0 done s →
    (∀ e ∈ l, PairOk s0 e) → (∀ d ∈ done, ∀ e ∈ l, ¬ d.sameAs e) → l.Pairwise (fun d e => ¬ d.sameAs e) →
    l.foldlM collide s = some t → (∀ e ∈ l, e.count ≠ 0 → ¬ ((e.a = p ∧ e.b = q) ∨ (e.a = q ∧ e.b = p))) → Still p q s t
  | [], done, s, t, _, _, _, _, e, _ => by rw [show s = t from Option.some.inj e]; exact .refl _ _ _
  | e :: l, done, s, t, h, ho, hd, hp, et, hn => by
    obtain ⟨t1, e1, h1⟩ := collide_col h (ho e (by simp)) (fun d hdm => hd d hdm e (by simp))
    rw [List.foldlM_cons, e1] at et
    have r := loop_still l (done ++ [e]) t1 t h1 (fun x hx => ho x (by simp [hx]))
      (fun d hdm x hx => by
        rcases List.mem_append.1 hdm with q | q
        · exact hd d q x (by simp [hx])
        · rw [List.mem_singleton.1 q]; exact (List.pairwise_cons.1 hp).1 x hx)
      (List.pairwise_cons.1 hp).2 et (fun x hx => hn x (by simp [hx]))
    refine Still.trans ?_ r
    by_cases hc : e.count = 0
    · exact (collide_none h hc e1 p q).1
    · obtain ⟨σ, hσ⟩ : ∃ σ, Sig s e.a e.b σ := by
        by_cases hx : ∃ x, Open s e.a e.b x
        · obtain ⟨x, hx⟩ := hx
          by_cases hi : (s.arbs x).state = .ignore
          · exact ⟨.ignored, .inr ⟨by simp, x, hx, by simp [hi]⟩⟩
          · exact ⟨.touching, .inr ⟨by simp, x, hx, by simp [hi]⟩⟩
        · exact ⟨.apart, .inl ⟨rfl, by simpa using hx⟩⟩
      obtain ⟨x, hh⟩ := collide_hit h (ho e (by simp)) (fun d hdm => hd d hdm e (by simp)) hc e1 hσ
      exact hh.still (hn e (by simp) hc)

/-- What the collision phase does to a pair with contacts. -/
structure Met (L : Nat → List Nat) (d : CollideIn) (r : List EvKind × PairSt) (x : Nat) (s t : Sp F) : Prop where
  trace : ∃ new, t.trace = s.trace ++ new ∧ word d.a d.b new = r.1
  live : Live t d.a d.b x
  out : ¬ InL L t x
  opn : ¬ (t.arbs x).state.closed
  stamp : (t.arbs x).stamp = t.stamp
  active : x ∈ t.arbiters ↔ r.2 = .active
  ignored : (t.arbs x).state = .ignore ↔ r.2 = .ignored
  first : x ∈ t.arbiters → ((t.arbs x).state = .first ↔ r.1.head? = some .begin)

theorem loop_met {L : Nat → List Nat} {s t : Sp F} (h : Col L s [] s) {l : List CollideIn} (ho : ∀ e ∈ l, PairOk s e)
    (hp : l.Pairwise (fun d e => ¬ d.sameAs e)) (et : l.foldlM collide s = some t) {d : CollideIn} (hd : d ∈ l) (hc : d.count ≠ 0)
    {σ : PairSt} (hσ : Sig s d.a d.b σ) : ∃ x, Met L d (σ.onContact d (s.inert d.a d.b) true) x s t := by
  obtain ⟨l1, l2, rfl⟩ := List.append_of_mem hd
  rw [List.foldlM_append] at et
  have hp1 := (List.pairwise_append.1 hp)
  have hne : ∀ e, (¬ d.sameAs e ∨ ¬ e.sameAs d) → ¬ ((e.a = d.a ∧ e.b = d.b) ∨ (e.a = d.b ∧ e.b = d.a)) := by
    intro e hh
    simp only [CollideIn.sameAs] at hh
    omega
  obtain ⟨u, e1, c1⟩ := collide_loop l1 [] s h (fun e he => ho e (by simp [he])) (by simp) hp1.1
  rw [e1] at et
  simp only [List.nil_append] at c1
  have et : (d :: l2).foldlM collide u = some t := et
  have st1 : Still d.a d.b s u := loop_still l1 [] s u h (fun e he => ho e (by simp [he])) (by simp) hp1.1 e1
    (fun e he _ => hne e (.inr (hp1.2.2 e he d (by simp))))
  have hu : ∀ e ∈ l1, ¬ e.sameAs d := fun e he => hp1.2.2 e he d (by simp)
  obtain ⟨v, e2, c2⟩ := collide_col c1 (ho d (by simp)) hu
  rw [List.foldlM_cons, e2] at et
  obtain ⟨x, hx⟩ := collide_hit c1 (ho d (by simp)) hu hc e2 (st1.sig hσ)
  have hp2 := List.pairwise_cons.1 hp1.2.1
  have st2 : Still d.a d.b v t := loop_still l2 (l1 ++ [d]) v t c2 (fun e he => ho e (by simp [he]))
    (fun a ha e he => by
      rcases List.mem_append.1 ha with q | q
      · exact hp1.2.2 a q e (by simp [he])
      · rw [List.mem_singleton.1 q]; exact hp2.1 e he)
    hp2.2 et (fun e he _ => hne e (.inl (hp2.1 e he)))
  obtain ⟨t', e3, c3⟩ := collide_loop l2 (l1 ++ [d]) v c2 (fun e he => ho e (by simp [he]))
    (fun a ha e he => by
      rcases List.mem_append.1 ha with q | q
      · exact hp1.2.2 a q e (by simp [he])
      · rw [List.mem_singleton.1 q]; exact hp2.1 e he) hp2.2
  have et' : l2.foldlM collide v = some t := et
  rw [e3] at et'
  obtain rfl := Option.some.inj et'
  have hin : u.inert d.a d.b = s.inert d.a d.b := inert_congr c1.move.shapes c1.move.keep.infMass _ _
  rw [← hin]
  have hlt : Live t' d.a d.b x := (st2.live x).2 hx.live
  obtain ⟨b1, b2, b3, b4, b5⟩ := st2.same x hx.live
  refine ⟨x, ?_, hlt, ?_, by rw [b1]; exact hx.opn, ?_, by rw [b5]; exact hx.active, by rw [b1]; exact hx.ignored, ?_⟩
  · obtain ⟨n1, m1, w1⟩ := st1.trace
    obtain ⟨n2, m2, w2, w2'⟩ := hx.trace
    obtain ⟨n3, m3, w3⟩ := st2.trace
    refine ⟨n1 ++ (n2 ++ n3), by rw [m3, m2, m1]; simp, ?_⟩
    rw [word_append, word_append, w1, w3, word_all_of w2, w2']; simp
  · simp only [InL, b3]; exact hx.out.2
  · rw [b2, hx.stamp, c3.stamp, c1.stamp]
  · intro hxt
    rw [b1, hx.first (b5.1 hxt)]
    simp only [PairSt.onContact]
    cases σ <;> simp
    all_goals split_ifs <;> simp

end Sp
end CP
