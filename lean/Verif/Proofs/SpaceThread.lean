import Verif.Proofs.SpaceOps2

/-! # Threading and unthreading arbiters -/

namespace CP
variable {F : Type}
namespace Sp

/-- Two heaps differ only in the threads of arbiters. -/
structure ThEq (s t : Sp F) : Prop where
  eq : t = { s with bodies := t.bodies, arbs := t.arbs }
  arb : ∀ y, t.arbs y = { s.arbs y with thA := (t.arbs y).thA, thB := (t.arbs y).thB }
  body : ∀ b, t.bodies b = { s.bodies b with arbs := (t.bodies b).arbs }

theorem ThEq.refl (s : Sp F) : ThEq s s := ⟨rfl, fun _ => rfl, fun _ => rfl⟩
theorem ThEq.trans {s t u : Sp F} (h : ThEq s t) (k : ThEq t u) : ThEq s u := by
  refine ⟨?_, fun y => ?_, fun b => ?_⟩
  · have e := k.eq; rw [h.eq] at e; exact e
  · have e := k.arb y; rw [h.arb y] at e; exact e
  · have e := k.body b; rw [h.body b] at e; exact e

theorem ThEq.bodyA {s t : Sp F} (h : ThEq s t) (y : Nat) : (t.arbs y).bodyA = (s.arbs y).bodyA := by rw [h.arb y]
theorem ThEq.bodyB {s t : Sp F} (h : ThEq s t) (y : Nat) : (t.arbs y).bodyB = (s.arbs y).bodyB := by rw [h.arb y]

theorem setThread_thEq (s : Sp F) (x b : Nat) (f : Thread → Thread) : ThEq s (s.setThread x b f) := by
  refine ⟨rfl, fun y => ?_, fun _ => rfl⟩
  simp only [setThread, setArb]
  by_cases hy : y = x
  · subst hy; simp only [Function.update_self]; split_ifs <;> rfl
  · simp [hy]

theorem thread_setThread_same (s : Sp F) (x b : Nat) (f : Thread → Thread) (z : Nat) :
    (s.setThread x b f).thread z b = if z = x then f (s.thread x b) else s.thread z b := by
  simp only [setThread, setArb, thread]
  by_cases hz : z = x
  · subst hz
    by_cases e : (s.arbs z).bodyA = b <;> simp [e]
  · simp [hz]

theorem thread_setThread_other (s : Sp F) (x b c : Nat) (f : Thread → Thread) (z : Nat) (hbc : c ≠ b)
    (hx : (s.arbs x).bodyA = b ∨ (s.arbs x).bodyB = b)
    (hz : z = x → (s.arbs z).bodyA = c ∨ (s.arbs z).bodyB = c) :
    (s.setThread x b f).thread z c = s.thread z c := by
  simp only [setThread, setArb, thread]
  by_cases e : z = x
  · subst e
    have hz := hz rfl
    simp only [Function.update_self]
    by_cases e1 : (s.arbs z).bodyA = b
    · have : (s.arbs z).bodyA ≠ c := by rw [e1]; exact hbc.symm
      simp [e1, hbc.symm]
    · have e2 : (s.arbs z).bodyB = b := hx.resolve_left e1
      have e3 : (s.arbs z).bodyA = c := hz.resolve_right (by rw [e2]; exact hbc.symm)
      simp [e3, hbc]
  · simp [e]

theorem arbs_setThread_of_ne (s : Sp F) (x b : Nat) (f : Thread → Thread) {z : Nat} (h : z ≠ x) :
    (s.setThread x b f).arbs z = s.arbs z := by simp [setThread, setArb, h]

/-- Lists of arbiters; a list need not hold an arbiter of both of its bodies. -/
structure SemiTh (L : Nat → List Nat) (s : Sp F) : Prop where
  nodup : ∀ b, (L b).Nodup
  head : ∀ b, (s.bodies b).arbs = (L b).head?
  dl : ∀ b, DL (fun x => s.thread x b) none (L b)
  ends : ∀ b x, x ∈ L b → (s.arbs x).bodyA = b ∨ (s.arbs x).bodyB = b

theorem ThreadInv.semi {L : Nat → List Nat} {s : Sp F} (h : ThreadInv L s) : SemiTh L s :=
  ⟨h.nodup, h.head, h.dl, h.ends⟩

theorem push_semi {L : Nat → List Nat} {s : Sp F} (h : SemiTh L s) {b x : Nat}
    (hx : (s.arbs x).bodyA = b ∨ (s.arbs x).bodyB = b) (hn : x ∉ L b) (ht : s.thread x b = {}) :
    SemiTh (Function.update L b (x :: L b)) (s.pushArbiter b x) ∧ ThEq s (s.pushArbiter b x) ∧
      (∀ y, y ≠ x → y ∉ L b → (s.pushArbiter b x).arbs y = s.arbs y) ∧
      (∀ c y, c ≠ b → (s.arbs y).bodyA = c ∨ (s.arbs y).bodyB = c →
        (s.pushArbiter b x).thread y c = s.thread y c) := by
  obtain ⟨s1, hs1⟩ : ∃ s1, s1 = s.setThread x b fun t => { t with next := (s.bodies b).arbs } := ⟨_, rfl⟩
  have hh := h.head b
  obtain ⟨s2, hs2⟩ : ∃ s2 : Sp F, s2 = match (s.bodies b).arbs with
    | some y => s1.setThread y b fun t => { t with prev := some x }
    | none => s1 := ⟨_, rfl⟩
  have hpush : s.pushArbiter b x = s2.setBody b fun r => { r with arbs := some x } := by
    rw [hs2, hs1]; rfl
  have t1 : ThEq s s1 := by rw [hs1]; exact setThread_thEq ..
  have t12 : ThEq s1 s2 := by
    rw [hs2]; split
    · exact setThread_thEq ..
    · exact .refl s1
  have t2 : ThEq s s2 := t1.trans t12
  have t3 : ThEq s (s.pushArbiter b x) := by
    rw [hpush]
    refine t2.trans ⟨rfl, fun _ => rfl, fun c => ?_⟩
    by_cases hc : c = b
    · subst hc; simp [setBody]
    · simp [setBody, hc]
  have hheadmem : ∀ y, (s.bodies b).arbs = some y → y ∈ L b := by
    intro y hy; rw [hh] at hy; exact List.mem_of_mem_head? (by simpa using hy)
  have hother : ∀ c y, c ≠ b → (s.arbs y).bodyA = c ∨ (s.arbs y).bodyB = c → s2.thread y c = s.thread y c := by
    intro c y hc hy
    have e1 : s1.thread y c = s.thread y c := by
      rw [hs1]; exact thread_setThread_other s x b c _ y hc hx (fun e => by rw [e] at hy; rw [e]; exact hy)
    rw [← e1, hs2]
    split
    · rename_i z hz
      refine thread_setThread_other s1 z b c _ y hc ?_ ?_
      · rw [t1.bodyA, t1.bodyB]; exact h.ends b z (hheadmem z hz)
      · intro _; rw [t1.bodyA, t1.bodyB]; exact hy
    · rfl
  have hsame : ∀ z, s2.thread z b = if z = x then { next := (L b).head?, prev := none }
      else if (L b).head? = some z then { s.thread z b with prev := some x } else s.thread z b := by
    intro z
    have e1 : ∀ z, s1.thread z b = if z = x then { next := (L b).head?, prev := none } else s.thread z b := by
      intro z; rw [hs1, thread_setThread_same, ht, hh]
    rw [hs2]
    split
    · rename_i y hy
      have hyx : y ≠ x := by rintro rfl; exact hn (hheadmem y hy)
      rw [thread_setThread_same, e1, e1, if_neg hyx]
      rw [hh] at hy
      by_cases ez : z = y
      · subst ez; simp [hyx, hy]
      · rw [if_neg ez, hy]
        split_ifs with e2 e3
        · rfl
        · simp at e3; exact absurd e3.symm ez
        · rfl
    · rename_i hy
      rw [hh] at hy
      rw [e1, hy]; simp
  have hth : ∀ z c, (s.pushArbiter b x).thread z c = s2.thread z c := by intro z c; rw [hpush]; rfl
  refine ⟨⟨?_, ?_, ?_, ?_⟩, t3, ?_, ?_⟩
  · intro c
    by_cases hc : c = b
    · subst hc; simp only [Function.update_self]; exact List.nodup_cons.2 ⟨hn, h.nodup c⟩
    · simp only [Function.update_of_ne hc]; exact h.nodup c
  · intro c
    rw [hpush]
    by_cases hc : c = b
    · subst hc; simp [setBody]
    · simp only [setBody, Function.update_of_ne hc]
      rw [t2.body]
      have : (s2.bodies c).arbs = (s.bodies c).arbs := by
        have e1 : s1.bodies = s.bodies := by rw [hs1]; rfl
        have e2 : s2.bodies = s1.bodies := by rw [hs2]; split <;> rfl
        rw [e2, e1]
      simp only [this]; exact h.head c
  · intro c
    by_cases hc : c = b
    · subst hc
      simp only [Function.update_self]
      refine ⟨?_, ?_, ?_⟩
      · simp only [hth, hsame, if_true]
      · simp only [hth, hsame, if_true]
      · refine (h.dl c).reprev (h.nodup c) (fun y hy => ?_) (fun y hy hm => ?_)
        · have hyx : y ≠ x := by rintro rfl; exact hn (List.mem_of_mem_head? (by simpa using hy))
          simp only [hth, hsame, if_neg hyx, if_pos hy]
        · have hyx : y ≠ x := by rintro rfl; exact hn hm
          simp only [hth, hsame, if_neg hyx, if_neg hy]
    · simp only [Function.update_of_ne hc]
      refine (h.dl c).congr fun y hy => ?_
      show (s.pushArbiter b x).thread y c = _
      rw [hth]; exact hother c y hc (h.ends c y hy)
  · intro c y hy
    rw [t3.bodyA, t3.bodyB]
    by_cases hc : c = b
    · subst hc
      simp only [Function.update_self] at hy
      rcases List.mem_cons.1 hy with rfl | hy
      · exact hx
      · exact h.ends c y hy
    · simp only [Function.update_of_ne hc] at hy; exact h.ends c y hy
  · intro y hy hyl
    have e1 : s1.arbs y = s.arbs y := by rw [hs1]; exact arbs_setThread_of_ne s x b _ hy
    rw [hpush]
    show s2.arbs y = _
    rw [← e1, hs2]
    split
    · rename_i z hz
      exact arbs_setThread_of_ne s1 z b _ (by rintro rfl; exact hyl (hheadmem y hz))
    · rfl
  · intro c y hc hy; rw [hth]; exact hother c y hc hy

theorem unthreadHelper_semi {L : Nat → List Nat} {s : Sp F} (h : SemiTh L s) {b x : Nat} (hx : x ∈ L b) :
    SemiTh (Function.update L b ((L b).erase x)) (s.unthreadHelper x b) ∧ ThEq s (s.unthreadHelper x b) ∧
      (s.unthreadHelper x b).thread x b = {} ∧
      (∀ y, y ∉ L b → (s.unthreadHelper x b).arbs y = s.arbs y) ∧
      (∀ c y, c ≠ b → (s.arbs y).bodyA = c ∨ (s.arbs y).bodyB = c →
        (s.unthreadHelper x b).thread y c = s.thread y c) := by
  obtain ⟨l1, l2, hL⟩ := List.append_of_mem hx
  have hnd := h.nodup b
  have hdl := h.dl b
  rw [hL] at hnd hdl
  obtain ⟨hprev, hnext, -⟩ := hdl.split
  have hx1 : x ∉ l1 := fun e => (List.nodup_append.1 hnd).2.2 x e x (by simp) rfl
  have hx2 : x ∉ l2 := (List.nodup_cons.1 (List.nodup_append.1 hnd).2.1).1
  have hprev' : (s.thread x b).prev = l1.getLast? := by rw [hprev]; cases l1.getLast? <;> rfl
  have hmem1 : ∀ y, l1.getLast? = some y → y ∈ l1 := fun y hy => List.mem_of_getLast? hy
  have hmem2 : ∀ y, l2.head? = some y → y ∈ l2 := fun y hy => List.mem_of_mem_head? (by simpa using hy)
  have hLm : ∀ y, y ∈ l1 ∨ y ∈ l2 → y ∈ L b := by
    intro y hy; rw [hL]; rcases hy with e | e <;> simp [e]
  have hattL : ∀ y ∈ L b, (s.arbs y).bodyA = b ∨ (s.arbs y).bodyB = b := h.ends b
  obtain ⟨s1, hs1⟩ : ∃ s1 : Sp F, s1 = match (s.thread x b).prev with
    | some p => s.setThread p b fun u => { u with next := (s.thread x b).next }
    | none => if (s.bodies b).arbs = some x then s.setBody b fun r => { r with arbs := (s.thread x b).next } else s :=
    ⟨_, rfl⟩
  obtain ⟨s2, hs2⟩ : ∃ s2 : Sp F, s2 = match (s.thread x b).next with
    | some n => s1.setThread n b fun u => { u with prev := (s.thread x b).prev }
    | none => s1 := ⟨_, rfl⟩
  have hun : s.unthreadHelper x b = s2.setThread x b fun _ => {} := by rw [hs2, hs1]; rfl
  have t1 : ThEq s s1 := by
    rw [hs1]; split
    · exact setThread_thEq ..
    · split_ifs
      · refine ⟨rfl, fun _ => rfl, fun c => ?_⟩
        by_cases hc : c = b
        · subst hc; simp [setBody]
        · simp [setBody, hc]
      · exact .refl s
  have t12 : ThEq s1 s2 := by
    rw [hs2]; split
    · exact setThread_thEq ..
    · exact .refl s1
  have t2 := t1.trans t12
  have t3 : ThEq s (s.unthreadHelper x b) := by rw [hun]; exact t2.trans (setThread_thEq ..)
  -- threads at `b`
  have h1 : ∀ z, s1.thread z b = if l1.getLast? = some z then { s.thread z b with next := l2.head? }
      else s.thread z b := by
    intro z; rw [hs1, hprev', hnext]
    split
    · rename_i p hp
      rw [thread_setThread_same]
      by_cases e : z = p
      · subst e; simp [hp]
      · have e' : ¬ p = z := fun h => e h.symm
        simp [hp, e, e']
    · rename_i hp
      have : ∀ z, (if (s.bodies b).arbs = some x then s.setBody b fun r => { r with arbs := l2.head? } else s).thread z b
          = s.thread z b := by intro z; split_ifs <;> rfl
      rw [this, hp]; simp
  have h2 : ∀ z, s2.thread z b = if l2.head? = some z then { s1.thread z b with prev := l1.getLast? }
      else s1.thread z b := by
    intro z; rw [hs2, hprev', hnext]
    split
    · rename_i p hp
      rw [thread_setThread_same]
      by_cases e : z = p
      · subst e; simp [hp]
      · have e' : ¬ p = z := fun h => e h.symm
        simp [hp, e, e']
    · rename_i hp
      rw [hp]; simp
  have h3 : ∀ z, (s.unthreadHelper x b).thread z b = if z = x then {} else s2.thread z b := by
    intro z; rw [hun, thread_setThread_same]
  -- threads elsewhere
  have hother : ∀ c y, c ≠ b → (s.arbs y).bodyA = c ∨ (s.arbs y).bodyB = c →
      (s.unthreadHelper x b).thread y c = s.thread y c := by
    intro c y hc hy
    have o1 : s1.thread y c = s.thread y c := by
      rw [hs1, hprev']; split
      · rename_i p hp
        exact thread_setThread_other s p b c _ y hc (hattL p (hLm p (Or.inl (hmem1 p hp)))) (fun _ => hy)
      · split_ifs <;> rfl
    have o2 : s2.thread y c = s1.thread y c := by
      rw [hs2, hnext]; split
      · rename_i p hp
        refine thread_setThread_other s1 p b c _ y hc ?_ ?_
        · rw [t1.bodyA, t1.bodyB]; exact hattL p (hLm p (Or.inr (hmem2 p hp)))
        · intro _; rw [t1.bodyA, t1.bodyB]; exact hy
      · rfl
    rw [hun, thread_setThread_other s2 x b c _ y hc ?_ ?_, o2, o1]
    · rw [t2.bodyA, t2.bodyB]; exact hattL x hx
    · intro _; rw [t2.bodyA, t2.bodyB]; exact hy
  have herase : (L b).erase x = l1 ++ l2 := by
    rw [hL, List.erase_append_right _ hx1, List.erase_cons_head]
  refine ⟨⟨?_, ?_, ?_, ?_⟩, t3, by rw [h3, if_pos rfl], ?_, hother⟩
  · intro c
    by_cases hc : c = b
    · subst hc; simp only [Function.update_self]; exact (h.nodup c).erase x
    · simp only [Function.update_of_ne hc]; exact h.nodup c
  · intro c
    have e3 : (s.unthreadHelper x b).bodies = s1.bodies := by
      rw [hun]
      show s2.bodies = s1.bodies
      rw [hs2]; split <;> rfl
    rw [e3]
    by_cases hc : c = b
    · subst hc
      simp only [Function.update_self, herase]
      rw [hs1, hprev', hnext]
      cases hl1 : l1 with
      | nil =>
        have hh : (s.bodies c).arbs = some x := by rw [h.head c, hL, hl1]; rfl
        simp [hh, setBody]
      | cons y l1' =>
        have : (y :: l1').getLast? = some ((y :: l1').getLast (by simp)) := List.getLast?_eq_getLast_of_ne_nil (by simp)
        rw [this]
        show (s.bodies c).arbs = _
        rw [h.head c, hL, hl1]; rfl
    · simp only [Function.update_of_ne hc]
      have : (s1.bodies c).arbs = (s.bodies c).arbs := by
        rw [hs1]; split
        · rfl
        · split_ifs
          · simp [setBody, hc]
          · rfl
      rw [this]; exact h.head c
  · intro c
    by_cases hc : c = b
    · subst hc
      simp only [Function.update_self, herase]
      refine DL.unlink (x := x) (th := fun y => s.thread y c) hdl hnd ?_ ?_ ?_
      · intro y hy
        have hyx : y ≠ x := by rintro rfl; exact hx1 (hmem1 y hy)
        have hy2 : l2.head? ≠ some y := fun e => (List.nodup_append.1 hnd).2.2 y (hmem1 y hy) y (by simp [hmem2 y e]) rfl
        simp only [h3, if_neg hyx, h2, if_neg hy2, h1, if_pos hy]
      · intro y hy
        have hyx : y ≠ x := by rintro rfl; exact hx2 (hmem2 y hy)
        have hy1 : l1.getLast? ≠ some y := fun e => (List.nodup_append.1 hnd).2.2 y (hmem1 y e) y (by simp [hmem2 y hy]) rfl
        simp only [h3, if_neg hyx, h2, if_pos hy, h1, if_neg hy1]
        cases l1.getLast? <;> rfl
      · intro y hy hy1 hy2
        have hyx : y ≠ x := by
          rintro rfl
          rcases List.mem_append.1 hy with e | e
          · exact hx1 e
          · exact hx2 e
        simp only [h3, if_neg hyx, h2, if_neg hy2, h1, if_neg hy1]
    · simp only [Function.update_of_ne hc]
      exact (h.dl c).congr fun y hy => hother c y hc (h.ends c y hy)
  · intro c y hy
    rw [t3.bodyA, t3.bodyB]
    by_cases hc : c = b
    · subst hc
      simp only [Function.update_self] at hy
      exact h.ends c y (List.mem_of_mem_erase hy)
    · simp only [Function.update_of_ne hc] at hy; exact h.ends c y hy
  · intro y hy
    have hyx : y ≠ x := by rintro rfl; exact hy hx
    rw [hun, arbs_setThread_of_ne _ _ _ _ hyx]
    have o1 : s1.arbs y = s.arbs y := by
      rw [hs1, hprev']; split
      · rename_i p hp
        exact arbs_setThread_of_ne s p b _ (by rintro rfl; exact hy (hLm y (Or.inl (hmem1 y hp))))
      · split_ifs <;> rfl
    rw [← o1, hs2, hnext]; split
    · rename_i p hp
      exact arbs_setThread_of_ne s1 p b _ (by rintro rfl; exact hy (hLm y (Or.inr (hmem2 y hp))))
    · rfl

/-- The lists after threading `x`. -/
def pushL (L : Nat → List Nat) (s : Sp F) (x : Nat) : Nat → List Nat := fun c =>
  if (s.arbs x).bodyA = c ∨ (s.arbs x).bodyB = c then x :: L c else L c

/-- Threading an arbiter with both bodies. -/
theorem push_thread {L : Nat → List Nat} {s : Sp F} (h : ThreadInv L s) {x : Nat} (hn : ¬ InL L s x)
    (hab : (s.arbs x).bodyA ≠ (s.arbs x).bodyB) :
    ThreadInv (pushL L s x) ((s.pushArbiter (s.arbs x).bodyA x).pushArbiter (s.arbs x).bodyB x) ∧
    ThEq s ((s.pushArbiter (s.arbs x).bodyA x).pushArbiter (s.arbs x).bodyB x) ∧
    ∀ y, InL (pushL L s x) ((s.pushArbiter (s.arbs x).bodyA x).pushArbiter (s.arbs x).bodyB x) y ↔ y = x ∨ InL L s y := by
  have hnA : x ∉ L (s.arbs x).bodyA := hn
  have hnB : x ∉ L (s.arbs x).bodyB := fun e => hn ((h.both x).2 e)
  obtain ⟨hthA, hthB⟩ := h.out x hn
  generalize hA : (s.arbs x).bodyA = a at *
  generalize hB : (s.arbs x).bodyB = b at *
  obtain ⟨p1, q1, r1, o1⟩ := push_semi h.semi (b := a) (x := x) (Or.inl hA) hnA (by simp [thread, hA, hthA])
  have ht1 : (s.pushArbiter a x).thread x b = {} := by
    rw [o1 b x hab.symm (Or.inr hB)]
    simp [thread, hA, hab, hthB]
  obtain ⟨p2, q2, r2, o2⟩ := push_semi p1 (b := b) (x := x) (by rw [q1.bodyA, q1.bodyB]; exact Or.inr hB)
    (by rw [Function.update_of_ne hab.symm]; exact hnB) ht1
  have hL : Function.update (Function.update L a (x :: L a)) b (x :: Function.update L a (x :: L a) b) = pushL L s x := by
    funext c
    simp only [pushL, hA, hB]
    by_cases hc : c = b
    · subst hc; simp [hab.symm]
    · rw [Function.update_of_ne hc]
      by_cases hc2 : c = a
      · subst hc2; simp
      · rw [Function.update_of_ne hc2, if_neg]
        rintro (e | e)
        · exact hc2 e.symm
        · exact hc e.symm
  rw [hL] at p2
  have q := q1.trans q2
  have hin : ∀ y c, y ∈ pushL L s x c ↔ (y = x ∧ (a = c ∨ b = c)) ∨ y ∈ L c := by
    intro y c
    simp only [pushL, hA, hB]
    split_ifs with e
    · simp [e]
    · simp [e]
  have hInL : ∀ y, InL (pushL L s x) ((s.pushArbiter a x).pushArbiter b x) y ↔ y = x ∨ InL L s y := by
    intro y
    show y ∈ pushL L s x _ ↔ _
    rw [q.bodyA, hin]
    constructor
    · rintro (e | e)
      · exact Or.inl e.1
      · exact Or.inr e
    · rintro (e | e)
      · left; exact ⟨e, by rw [e, hA]; exact Or.inl rfl⟩
      · exact Or.inr e
  refine ⟨⟨p2.nodup, p2.head, p2.dl, p2.ends, fun y => ?_, fun y hy => ?_⟩, q, hInL⟩
  · rw [q.bodyA, q.bodyB, hin, hin]
    by_cases e : y = x
    · subst e; simp [hA, hB]
    · simp only [e, false_and, false_or]; exact h.both y
  · have hy' : ¬ InL (pushL L s x) ((s.pushArbiter a x).pushArbiter b x) y := hy
    rw [hInL, not_or] at hy'
    have hyA : y ∉ L (s.arbs y).bodyA := hy'.2
    have hyB : y ∉ L (s.arbs y).bodyB := fun e => hyA ((h.both y).2 e)
    have hnot : ∀ c, y ∉ L c := fun c hc => by
      rcases h.ends c y hc with e | e
      · exact hyA (e ▸ hc)
      · exact hyB (e ▸ hc)
    have e1 := r1 y hy'.1 (hnot a)
    have e2 := r2 y hy'.1 (by rw [Function.update_of_ne hab.symm]; exact hnot b)
    rw [e2, e1]; exact h.out y hyA

/-- Unthreading an arbiter that is in no list changes nothing. -/
theorem unthread_out {L : Nat → List Nat} {s : Sp F} (h : ThreadInv L s) {x : Nat} (hn : ¬ InL L s x) :
    s.unthread x = s := by
  have key : ∀ b, (x ∉ L b) → s.thread x b = {} → s.unthreadHelper x b = s := by
    intro b hb ht
    simp only [unthreadHelper, ht]
    have hh : ¬ (s.bodies b).arbs = some x := by
      rw [h.head b]; intro e; exact hb (List.mem_of_mem_head? (by simpa using e))
    rw [if_neg hh]
    simp only [setThread, setArb]
    have : Function.update s.arbs x (if (s.arbs x).bodyA = b then { s.arbs x with thA := {} }
        else { s.arbs x with thB := {} }) = s.arbs := by
      funext y
      by_cases hy : y = x
      · subst hy
        simp only [Function.update_self]
        simp only [thread] at ht
        split_ifs at ht ⊢ with e
        · rw [← ht]
        · rw [← ht]
      · simp [hy]
    rw [this]
  obtain ⟨hthA, hthB⟩ := h.out x hn
  have hnA : x ∉ L (s.arbs x).bodyA := hn
  have hnB : x ∉ L (s.arbs x).bodyB := fun e => hn ((h.both x).2 e)
  have hth : ∀ b, s.thread x b = {} := by intro b; simp only [thread]; split_ifs <;> assumption
  simp only [unthread]
  rw [key _ hnA (hth _)]
  exact key _ hnB (hth _)

/-- The lists after unthreading `x`. -/
def popL (L : Nat → List Nat) (x : Nat) : Nat → List Nat := fun c => (L c).erase x

/-- Unthreading an arbiter removes it from the lists of both bodies. -/
theorem unthread_thread {L : Nat → List Nat} {s : Sp F} (h : ThreadInv L s) {x : Nat}
    (hab : InL L s x → (s.arbs x).bodyA ≠ (s.arbs x).bodyB) :
    ThreadInv (popL L x) (s.unthread x) ∧ ThEq s (s.unthread x) ∧
    ∀ y, InL (popL L x) (s.unthread x) y ↔ y ≠ x ∧ InL L s y := by
  have hmem : ∀ c y, y ∈ popL L x c ↔ y ≠ x ∧ y ∈ L c := fun c y => (h.nodup c).mem_erase_iff
  by_cases hn : InL L s x
  swap
  · have hnA : x ∉ L (s.arbs x).bodyA := hn
    have hnB : x ∉ L (s.arbs x).bodyB := fun e => hn ((h.both x).2 e)
    have hnot : ∀ c, x ∉ L c := fun c hc => by
      rcases h.ends c x hc with e | e
      · exact hnA (e ▸ hc)
      · exact hnB (e ▸ hc)
    have : popL L x = L := by funext c; exact List.erase_of_not_mem (hnot c)
    rw [unthread_out h hn, this]
    exact ⟨h, .refl s, fun y => ⟨fun hy => ⟨by rintro rfl; exact hn hy, hy⟩, fun hy => hy.2⟩⟩
  · have hne := hab hn
    clear hab
    have hnA : x ∈ L (s.arbs x).bodyA := hn
    have hnB : x ∈ L (s.arbs x).bodyB := (h.both x).1 hn
    generalize hA : (s.arbs x).bodyA = a at *
    generalize hB : (s.arbs x).bodyB = b at *
    obtain ⟨p1, q1, z1, r1, o1⟩ := unthreadHelper_semi h.semi (b := a) (x := x) hnA
    obtain ⟨p2, q2, z2, r2, o2⟩ := unthreadHelper_semi p1 (b := b) (x := x)
      (by rw [Function.update_of_ne hne.symm]; exact hnB)
    have hun : s.unthread x = (s.unthreadHelper x a).unthreadHelper x b := by
      simp only [unthread, hA, q1.bodyB, hB]
    rw [hun]
    have hL : Function.update (Function.update L a ((L a).erase x)) b
        ((Function.update L a ((L a).erase x) b).erase x) = popL L x := by
      funext c
      simp only [popL]
      by_cases hc : c = b
      · subst hc; simp [hne.symm]
      · rw [Function.update_of_ne hc]
        by_cases hc2 : c = a
        · subst hc2; simp
        · rw [Function.update_of_ne hc2, List.erase_of_not_mem]
          intro hx
          rcases h.ends c x hx with e | e
          · rw [hA] at e; exact hc2 e.symm
          · rw [hB] at e; exact hc e.symm
    rw [hL] at p2
    have q := q1.trans q2
    have hInL : ∀ y, InL (popL L x) ((s.unthreadHelper x a).unthreadHelper x b) y ↔ y ≠ x ∧ InL L s y := by
      intro y
      show y ∈ popL L x _ ↔ _
      rw [q.bodyA, hmem]; rfl
    refine ⟨⟨p2.nodup, p2.head, p2.dl, p2.ends, fun y => ?_, fun y hy => ?_⟩, q, hInL⟩
    · rw [q.bodyA, q.bodyB, hmem, hmem, h.both y]
    · have hy' : ¬ InL (popL L x) ((s.unthreadHelper x a).unthreadHelper x b) y := hy
      rw [hInL, not_and] at hy'
      by_cases e : y = x
      · subst e
        have ea : ((s.unthreadHelper y a).unthreadHelper y b).thread y a = {} := by
          rw [o2 a y hne (by rw [q1.bodyA, q1.bodyB]; exact Or.inl hA), z1]
        have eb := z2
        simp only [thread, q.bodyA, hA, if_true] at ea
        simp only [thread, q.bodyA, hA, if_neg hne] at eb
        exact ⟨ea, eb⟩
      · have hyA : y ∉ L (s.arbs y).bodyA := hy' e
        have hyB : y ∉ L (s.arbs y).bodyB := fun e => hyA ((h.both y).2 e)
        have hnot : ∀ c, y ∉ L c := fun c hc => by
          rcases h.ends c y hc with e | e
          · exact hyA (e ▸ hc)
          · exact hyB (e ▸ hc)
        have e1 := r1 y (hnot a)
        have e2 := r2 y (by rw [Function.update_of_ne hne.symm]; exact hnot b)
        rw [e2, e1]; exact h.out y hyA

end Sp
end CP
