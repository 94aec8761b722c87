import Verif.Proofs.SpaceMem3

/-! # Contact buffers: the age of the cached arbiters -/

namespace CP
variable {F : Type}
namespace Sp
variable [GoFloat F]

/-- The filter of a step without callbacks: what is left is of the last steps or rests. -/
theorem filter_window {acts : Nat → List Nat} (hq : ∀ y, acts y = []) : ∀ (l : List Nat) {s t : Sp F}, l.foldlM (fun s x => do
      let (s, keep) ← setFilter acts s x
      some (if keep then s else { s with cached := s.cached.erase x })) s = some t → s.cached.Nodup →
    (∀ x ∈ s.cached, x ∈ l ∨ (s.age x < persistence ∨ (s.resting (s.arbs x).bodyA ∧ s.resting (s.arbs x).bodyB))) →
    t.bodies = s.bodies ∧ Fresh t
  | [], s, t, e, nd, h => by cases e; exact ⟨rfl, fun x hx => by simpa using h x hx⟩
  | x :: l, s, t, e, nd, h => by
    rw [List.foldlM_cons] at e
    simp only [Option.bind_eq_bind] at e
    obtain ⟨u, e1, e2⟩ := Option.bind_eq_some_iff.1 e
    obtain ⟨⟨v, keep⟩, e1, e3⟩ := Option.bind_eq_some_iff.1 e1
    simp only [Option.some.injEq] at e3
    have key : v.bodies = s.bodies ∧ v.cached = s.cached ∧ v.stamp = s.stamp ∧ (∀ y, (v.arbs y).bodyA = (s.arbs y).bodyA ∧ (v.arbs y).bodyB = (s.arbs y).bodyB ∧ (v.arbs y).stamp = (s.arbs y).stamp) ∧
        (keep = true → s.age x < persistence ∨ (s.resting (s.arbs x).bodyA ∧ s.resting (s.arbs x).bodyB)) := by
      unfold setFilter at e1
      dsimp only at e1
      split at e1
      · next hr =>
        cases e1
        exact ⟨rfl, rfl, rfl, fun y => ⟨rfl, rfl, rfl⟩, fun _ => .inr hr⟩
      · simp only [Option.bind_eq_bind, hq] at e1
        have fin : ∀ w : Sp F, (w.bodies = s.bodies ∧ w.cached = s.cached ∧ w.stamp = s.stamp ∧ (∀ y, (w.arbs y).bodyA = (s.arbs y).bodyA ∧ (w.arbs y).bodyB = (s.arbs y).bodyB ∧ (w.arbs y).stamp = (s.arbs y).stamp)) →
            (if persistence ≤ s.stamp - (s.arbs x).stamp then
              some ({ w.setArb x (fun r => { r with mem := .nil, count := 0 }) with pool := (w.setArb x fun r => { r with mem := .nil, count := 0 }).pool ++ [x] }, false)
              else some (w, true)) = some (v, keep) →
            v.bodies = s.bodies ∧ v.cached = s.cached ∧ v.stamp = s.stamp ∧ (∀ y, (v.arbs y).bodyA = (s.arbs y).bodyA ∧ (v.arbs y).bodyB = (s.arbs y).bodyB ∧ (v.arbs y).stamp = (s.arbs y).stamp) ∧
            (keep = true → s.age x < persistence ∨ (s.resting (s.arbs x).bodyA ∧ s.resting (s.arbs x).bodyB)) := by
          rintro w ⟨w1, w2, w3, w4⟩ ew
          split at ew
          · cases ew
            refine ⟨w1, w2, w3, fun y => ?_, by simp⟩
            by_cases hy : y = x
            · subst hy; simpa [setArb] using w4 y
            · simpa [setArb, hy] using w4 y
          · next hp =>
            cases ew
            exact ⟨w1, w2, w3, w4, fun _ => .inl (by unfold age; omega)⟩
        split at e1
        · simp only [runActs, List.foldlM_nil, Option.pure_def, Option.bind_some] at e1
          refine fin ((s.setArb x fun r => { r with state := .cached }).emit .separate x) ⟨rfl, rfl, rfl, fun y => ?_⟩ e1
          by_cases hy : y = x
          · subst hy; simp [setArb, emit]
          · simp [setArb, emit, hy]
        · exact fin s ⟨rfl, rfl, rfl, fun y => ⟨rfl, rfl, rfl⟩⟩ e1
    obtain ⟨k1, k2, k3, k4, k5⟩ := key
    have hv : ∀ y, (s.age y < persistence ∨ (s.resting (s.arbs y).bodyA ∧ s.resting (s.arbs y).bodyB)) →
        (v.age y < persistence ∨ (v.resting (v.arbs y).bodyA ∧ v.resting (v.arbs y).bodyB)) := fun y hy => by
      unfold age resting typ isSleeping at *
      rw [k1, k3, (k4 y).1, (k4 y).2.1, (k4 y).2.2]
      exact hy
    cases keep with
    | true =>
      simp only [if_true] at e3
      subst e3
      obtain ⟨q1, q2⟩ := filter_window hq l e2 (by rw [k2]; exact nd) (fun y hy => by
        rw [k2] at hy
        rcases h y hy with h1 | h1
        · rcases List.mem_cons.1 h1 with rfl | h1
          · exact .inr (hv y (k5 rfl))
          · exact .inl h1
        · exact .inr (hv y h1))
      exact ⟨q1.trans k1, q2⟩
    | false =>
      simp only [Bool.false_eq_true, if_false] at e3
      subst e3
      obtain ⟨q1, q2⟩ := filter_window hq l e2 (by show (v.cached.erase x).Nodup; rw [k2]; exact nd.erase x) (fun y hy => by
        have hy' : y ∈ s.cached ∧ y ≠ x := by
          have : y ∈ v.cached.erase x := hy
          rw [k2] at this
          have := (List.Nodup.mem_erase_iff nd).1 this
          exact ⟨this.2, this.1⟩
        rcases h y hy'.1 with h1 | h1
        · rcases List.mem_cons.1 h1 with h1 | h1
          · exact absurd h1 hy'.2
          · exact .inl h1
        · exact .inr (hv y h1))
      exact ⟨q1.trans k1, q2⟩

theorem Fresh.ages {s t : Sp F} (h : Fresh s) (ha : Ages s t) (hs : t.stamp = s.stamp) (hr : ∀ b, s.resting b → t.resting b) : Fresh t := by
  intro x hx
  rcases ha x hx with ⟨q1, ⟨q2, q3, -, -⟩, q4⟩ | q
  · rcases h x q1 with h1 | h1
    · left; unfold age at *; rw [hs, q4]; exact h1
    · right; rw [q2, q3]; exact ⟨hr _ h1.1, hr _ h1.2⟩
  · left; unfold age; rw [q]; simp [persistence]

theorem step_fresh {L : Nat → List Nat} {s : Sp F} (h : Good L [] s) (hl : s.locked = 0) (host : Hosted s) {i : StepIn F}
    (hdt : i.dt ≠ 0) (ok : StepOk s i) (q1 : ∀ y, i.sepActs y = []) (q2 : i.lateActs = []) {t : Sp F} (et : s.step i = some t) : Fresh t := by
  obtain ⟨u, L1, eu, hu⟩ := hits_good h hl ok
  have host1 : Hosted u := host.congr hu.keep.typ hu.keep.inSpace hu.shapes hu.keep.cons
  obtain ⟨v, L2, ev, gv, pv, iv, sv, cv⟩ := processComponents_good hu.good (hu.keep.locked.trans hl) hu.head hu.opens host1 hu.offs i.dt i.moving
  have hlv : v.locked = 0 := pv.keep.locked.trans (hu.keep.locked.trans hl)
  obtain ⟨t', et', gt, tt⟩ := tail_good gv hlv i.sepActs i.lateActs
  have htt : t' = t := by
    have : s.step i = some t' := by
      simp only [step]
      rw [if_neg hdt]
      simp only [Option.bind_eq_bind, Option.bind_eq_some_iff] at eu et' ⊢
      obtain ⟨w1, e1, w2, e2, e3⟩ := eu
      obtain ⟨w4, e4, w5, e5, e6⟩ := et'
      exact ⟨w1, e1, w2, e2, u, e3, v, ev, w4, e4, w5, e5, e6⟩
    rw [et] at this
    exact (Option.some.inj this).symm
  subst htt
  simp only [Option.bind_eq_bind] at et'
  obtain ⟨w, e1, e⟩ := Option.bind_eq_some_iff.1 et'
  obtain ⟨y, e2, e⟩ := Option.bind_eq_some_iff.1 e
  have hn : v.lock.cached.Nodup := gv.inv.full.core.arb.cachedNodup
  obtain ⟨f1, f2⟩ := filter_window q1 _ e1 hn (fun x hx => .inl hx)
  have h5 : Keeps w (w.arbiters.foldl (fun s x => s.emit .postSolve x) w) := keeps_foldl (f := fun (s : Sp F) x => s.emit .postSolve x) (fun s x => .of rfl rfl rfl rfl rfl rfl rfl) _ _
  have h6 : Mems w t' := (h5.trans (keeps_runActs e2)).toMems.trans (mems_unlock e)
  refine f2.ages h6.ages h6.stamp fun b hb => ?_
  unfold resting isSleeping typ at *
  have hb' : (v.bodies b).type = .static ∨ (v.bodies b).root.isSome = true := by rw [f1] at hb; exact hb
  rw [tt.roots ⟨q1, q2⟩]
  have := tt.keep.typ b
  unfold typ at this
  rw [this]
  exact hb'

end Sp
end CP
