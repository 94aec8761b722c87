import Verif.Proofs.Energy5
import Verif.Proofs.Push

/-! # For C71: the impulses of all contacts of a body -/

namespace CP
open GoFloat

/-- Which end of the pair the body is: `1` for the second, `-1` for the first. -/
noncomputable def sideOf (a b k : Nat) : ℝ := pairv a b k 1 1

theorem pairv_side (a b k : Nat) (x : ℝ) : pairv a b k x x = sideOf a b k * x := by
  simp only [pairv, sideOf]; split <;> split <;> ring

/-- The stored impulses of contacts along `n`, one component. -/
noncomputable def storedX (n : Vec ℝ) (cs : List (Contact ℝ)) : ℝ := (cs.map fun c => (n.rotate ⟨c.jnAcc, c.jtAcc⟩).x).sum
/-- … the other. -/
noncomputable def storedY (n : Vec ℝ) (cs : List (Contact ℝ)) : ℝ := (cs.map fun c => (n.rotate ⟨c.jnAcc, c.jtAcc⟩).y).sum

theorem stored_fold (n : Vec ℝ) (cs : List (Contact ℝ)) : ∀ v : Vec ℝ, cs.foldl (fun s c => s.add (n.rotate ⟨c.jnAcc, c.jtAcc⟩)) v =
    ⟨v.x + storedX n cs, v.y + storedY n cs⟩ := by
  induction cs with
  | nil => intro v; simp [storedX, storedY]
  | cons c cs ih =>
    intro v
    rw [List.foldl_cons, ih]
    ext <;> simp only [storedX, storedY, Vec.add, List.map_cons, List.sum_cons] <;> ring

/-- Two heaps differ, for body `k`, by an impulse `(X, Y)` times its side. -/
structure Pushed (a b k : Nat) (X Y : ℝ) (h h' : Bodies ℝ) : Prop where
  inv : (h' k).m_inv = (h k).m_inv
  x : (h' k).v.x = (h k).v.x + sideOf a b k * X * (h k).m_inv
  y : (h' k).v.y = (h k).v.y + sideOf a b k * Y * (h k).m_inv

theorem Pushed.trans {a b k : Nat} {X Y X' Y' : ℝ} {h h' h'' : Bodies ℝ} (p : Pushed a b k X Y h h') (q : Pushed a b k X' Y' h' h'') :
    Pushed a b k (X + X') (Y + Y') h h'' :=
  ⟨q.inv.trans p.inv, by rw [q.x, p.x, p.inv]; ring, by rw [q.y, p.y, p.inv]; ring⟩

theorem pushed_of_kick {κ : Kick} {h h' : Bodies ℝ} (d : κ.Does h h') (k : Nat) : Pushed κ.a κ.b k κ.j.x κ.j.y h h' :=
  ⟨(d.frozen k).m_inv, by rw [d.vx, pairv_side], by rw [d.vy, pairv_side]⟩

theorem contact_pushed (arb : Arb ℝ) (h : Bodies ℝ) (c : Contact ℝ) (k : Nat) :
    Pushed arb.a arb.b k (storedX arb.n [(arb.applyContact h c).2] - storedX arb.n [c]) (storedY arb.n [(arb.applyContact h c).2] - storedY arb.n [c])
      h (arb.applyContact h c).1 := by
  have p := pushed_of_kick (applyBiasImpulses_does h arb.a arb.b c.r1 c.r2 (arb.n.mult ((arb.applyContact h c).2.jBias - c.jBias))) k
  have q := pushed_of_kick (applyImpulses_does (applyBiasImpulses h arb.a arb.b c.r1 c.r2 (arb.n.mult ((arb.applyContact h c).2.jBias - c.jBias))) arb.a arb.b c.r1 c.r2
    (arb.n.rotate ⟨(arb.applyContact h c).2.jnAcc - c.jnAcc, (arb.applyContact h c).2.jtAcc - c.jtAcc⟩)) k
  have r := p.trans q
  have e : storedX arb.n [(arb.applyContact h c).2] - storedX arb.n [c] = 0 + (arb.n.rotate ⟨(arb.applyContact h c).2.jnAcc - c.jnAcc, (arb.applyContact h c).2.jtAcc - c.jtAcc⟩).x := by
    simp only [storedX, List.map_cons, List.map_nil, List.sum_cons, List.sum_nil, Vec.rotate]; ring
  have e' : storedY arb.n [(arb.applyContact h c).2] - storedY arb.n [c] = 0 + (arb.n.rotate ⟨(arb.applyContact h c).2.jnAcc - c.jnAcc, (arb.applyContact h c).2.jtAcc - c.jtAcc⟩).y := by
    simp only [storedY, List.map_cons, List.map_nil, List.sum_cons, List.sum_nil, Vec.rotate]; ring
  rw [e, e']
  exact r

theorem loop_pushed (arb : Arb ℝ) (k : Nat) (cs : List (Contact ℝ)) : ∀ h : Bodies ℝ,
    Pushed arb.a arb.b k (storedX arb.n (arb.applyLoop h cs).2 - storedX arb.n cs) (storedY arb.n (arb.applyLoop h cs).2 - storedY arb.n cs) h (arb.applyLoop h cs).1 := by
  induction cs with
  | nil => intro h; exact ⟨rfl, by simp [Arb.applyLoop], by simp [Arb.applyLoop]⟩
  | cons c cs ih =>
    intro h
    have r := (contact_pushed arb h c k).trans (ih (arb.applyContact h c).1)
    have e : ∀ (f : Vec ℝ → ℝ) (x : Contact ℝ) (l : List (Contact ℝ)), ((x :: l).map fun c => f (arb.n.rotate ⟨c.jnAcc, c.jtAcc⟩)).sum =
      ([x].map fun c => f (arb.n.rotate ⟨c.jnAcc, c.jtAcc⟩)).sum + (l.map fun c => f (arb.n.rotate ⟨c.jnAcc, c.jtAcc⟩)).sum := by
      intro f x l; simp
    have ex : storedX arb.n (arb.applyLoop h (c :: cs)).2 - storedX arb.n (c :: cs) =
      storedX arb.n [(arb.applyContact h c).2] - storedX arb.n [c] + (storedX arb.n (arb.applyLoop (arb.applyContact h c).1 cs).2 - storedX arb.n cs) := by
      simp only [storedX, Arb.applyLoop]
      rw [e Vec.x, e Vec.x c]; ring
    have ey : storedY arb.n (arb.applyLoop h (c :: cs)).2 - storedY arb.n (c :: cs) =
      storedY arb.n [(arb.applyContact h c).2] - storedY arb.n [c] + (storedY arb.n (arb.applyLoop (arb.applyContact h c).1 cs).2 - storedY arb.n cs) := by
      simp only [storedY, Arb.applyLoop]
      rw [e Vec.y, e Vec.y c]; ring
    rw [ex, ey]
    exact r

theorem cached_pushed (arb : Arb ℝ) (k : Nat) (h : Bodies ℝ) (hf : arb.first = true → ∀ c ∈ arb.contacts, c.jnAcc = 0 ∧ c.jtAcc = 0) :
    Pushed arb.a arb.b k (storedX arb.n arb.contacts) (storedY arb.n arb.contacts) h (arb.applyCached h 1) := by
  unfold Arb.applyCached
  cases hfi : arb.first with
  | true =>
    have z : ∀ c ∈ arb.contacts, arb.n.rotate ⟨c.jnAcc, c.jtAcc⟩ = ⟨0, 0⟩ := by
      intro c hc
      obtain ⟨h1, h2⟩ := hf hfi c hc
      rw [h1, h2]
      ext <;> simp [Vec.rotate]
    have zx : storedX arb.n arb.contacts = 0 := List.sum_eq_zero fun x hx => by
      obtain ⟨c, hc, rfl⟩ := List.mem_map.1 hx; rw [z c hc]
    have zy : storedY arb.n arb.contacts = 0 := List.sum_eq_zero fun x hx => by
      obtain ⟨c, hc, rfl⟩ := List.mem_map.1 hx; rw [z c hc]
    rw [zx, zy]
    exact ⟨rfl, by simp, by simp⟩
  | false =>
    simp only [Bool.false_eq_true, if_false]
    clear hf hfi
    generalize arb.contacts = cs
    induction cs generalizing h with
    | nil => exact ⟨rfl, by simp [storedX], by simp [storedY]⟩
    | cons c cs ih =>
      have p := pushed_of_kick (applyImpulses_does h arb.a arb.b c.r1 c.r2 ((arb.n.rotate ⟨c.jnAcc, c.jtAcc⟩).mult 1)) k
      have r := p.trans (ih (applyImpulses h arb.a arb.b c.r1 c.r2 ((arb.n.rotate ⟨c.jnAcc, c.jtAcc⟩).mult 1)))
      have ex : storedX arb.n (c :: cs) = ((arb.n.rotate ⟨c.jnAcc, c.jtAcc⟩).mult 1).x + storedX arb.n cs := by simp [storedX, Vec.mult]
      have ey : storedY arb.n (c :: cs) = ((arb.n.rotate ⟨c.jnAcc, c.jtAcc⟩).mult 1).y + storedY arb.n cs := by simp [storedY, Vec.mult]
      rw [ex, ey]
      exact r

/-- The impulses the arbiters of a list store, as body `k` feels them, one component. -/
noncomputable def loadX (X : Nat → Arb ℝ) (l : List Nat) (k : Nat) : ℝ := (l.map fun x => sideOf (X x).a (X x).b k * storedX (X x).n (X x).contacts).sum
/-- … the other. -/
noncomputable def loadY (X : Nat → Arb ℝ) (l : List Nat) (k : Nat) : ℝ := (l.map fun x => sideOf (X x).a (X x).b k * storedY (X x).n (X x).contacts).sum

theorem sum_update (f g : Nat → ℝ) (j : Nat) (h : ∀ x, x ≠ j → g x = f x) : ∀ l : List Nat, l.Nodup → j ∈ l → (l.map g).sum = (l.map f).sum + (g j - f j)
  | x :: l, hn, hj => by
    obtain ⟨hx, hn⟩ := List.nodup_cons.1 hn
    simp only [List.map_cons, List.sum_cons]
    by_cases e : x = j
    · subst e
      rw [List.map_congr_left (g := f) fun y hy => h y fun e => hx (e ▸ hy)]
      ring
    · rw [sum_update f g j h l hn ((List.mem_cons.1 hj).resolve_left fun q => e q.symm), h x e]
      ring

/-- Body `k` has the velocity of `b0`, changed by the stored impulses of the arbiters in `l`. -/
structure Loaded (l joints : List Nat) (k : Nat) (b0 : Body ℝ) (s : Solver ℝ) : Prop where
  inv : (s.bodies k).m_inv = b0.m_inv
  x : (s.bodies k).v.x = b0.v.x + loadX s.arbs l k * b0.m_inv
  y : (s.bodies k).v.y = b0.v.y + loadY s.arbs l k * b0.m_inv
  free : ∀ c ∈ joints, k ≠ (s.joints c).con.a ∧ k ≠ (s.joints c).con.b

theorem Loaded.apply {l joints : List Nat} {k : Nat} {b0 : Body ℝ} {s : Solver ℝ} (L : Loaded l joints k b0 s) (hn : l.Nodup) (j : Nat) (hj : j ∈ l) :
    Loaded l joints k b0 (s.step (.arbApply j)) := by
  have p := loop_pushed (s.arbs j) k (s.arbs j).contacts s.bodies
  have ne : ∀ x, x ≠ j → (s.step (.arbApply j)).arbs x = s.arbs x := fun x hx => by simp only [Solver.step, Solver.setArb, if_neg hx]
  have eq : (s.step (.arbApply j)).arbs j = { s.arbs j with contacts := ((s.arbs j).applyLoop s.bodies (s.arbs j).contacts).2 } := by
    simp only [Solver.step, Solver.setArb, if_true, Arb.applyImpulse]
  have eb : (s.step (.arbApply j)).bodies = ((s.arbs j).applyLoop s.bodies (s.arbs j).contacts).1 := rfl
  refine ⟨by rw [eb, p.inv, L.inv], ?_, ?_, fun c hc => L.free c hc⟩
  · have u : loadX (s.step (.arbApply j)).arbs l k = _ := sum_update (fun x => sideOf (s.arbs x).a (s.arbs x).b k * storedX (s.arbs x).n (s.arbs x).contacts) _ j (fun x hx => by rw [ne x hx]) l hn hj
    rw [eb, p.x, L.x, L.inv, u, eq, loadX]
    ring
  · have u : loadY (s.step (.arbApply j)).arbs l k = _ := sum_update (fun x => sideOf (s.arbs x).a (s.arbs x).b k * storedY (s.arbs x).n (s.arbs x).contacts) _ j (fun x hx => by rw [ne x hx]) l hn hj
    rw [eb, p.y, L.y, L.inv, u, eq, loadY]
    ring

theorem Loaded.other {l joints : List Nat} {k : Nat} {b0 : Body ℝ} {s : Solver ℝ} (L : Loaded l joints k b0 s) (op : SolverOp ℝ)
    (h1 : op.integrated? = none) (h2 : ∀ c, op.joint? = some c → c ∈ joints) (h3 : op.arb? = none) : Loaded l joints k b0 (s.step op) := by
  have eb : (s.run [op]).bodies k = s.bodies k := run_apart k [op] s (fun o ho => by rw [List.mem_singleton.1 ho]; exact h1)
    (fun o ho j hj => by rw [List.mem_singleton.1 ho] at hj; exact L.free j (h2 j hj)) (fun o ho j hj => by rw [List.mem_singleton.1 ho, h3] at hj; cases hj)
  have eb : (s.step op).bodies k = s.bodies k := eb
  have ea : (s.step op).arbs = s.arbs := by cases op <;> first | rfl | cases h3
  refine ⟨by rw [eb, L.inv], by rw [eb, ea, L.x], by rw [eb, ea, L.y], fun c hc => ?_⟩
  rw [(step_con s op).1 c]
  exact L.free c hc

theorem Loaded.run {l joints : List Nat} {k : Nat} {b0 : Body ℝ} (hn : l.Nodup) (ops : List (SolverOp ℝ))
    (ok : ∀ op ∈ ops, (∃ j ∈ l, op = .arbApply j) ∨ (op.integrated? = none ∧ (∀ c, op.joint? = some c → c ∈ joints) ∧ op.arb? = none)) :
    ∀ s, Loaded l joints k b0 s → Loaded l joints k b0 (s.run ops) := by
  induction ops with
  | nil => exact fun _ L => L
  | cons op ops ih =>
    intro s L
    refine ih (fun o ho => ok o (List.mem_cons_of_mem _ ho)) (s.step op) ?_
    rcases ok op List.mem_cons_self with ⟨j, hj, rfl⟩ | ⟨h1, h2, h3⟩
    · exact L.apply hn j hj
    · exact L.other op h1 h2 h3

theorem warm_load (k : Nat) (l : List Nat) : ∀ s : Solver ℝ, (∀ x ∈ l, (s.arbs x).first = true → ∀ c ∈ (s.arbs x).contacts, c.jnAcc = 0 ∧ c.jtAcc = 0) →
    let s' := s.run (l.map fun x => SolverOp.arbCached x 1)
    s'.arbs = s.arbs ∧ s'.joints = s.joints ∧ (s'.bodies k).m_inv = (s.bodies k).m_inv ∧
    (s'.bodies k).v.x = (s.bodies k).v.x + loadX s.arbs l k * (s.bodies k).m_inv ∧ (s'.bodies k).v.y = (s.bodies k).v.y + loadY s.arbs l k * (s.bodies k).m_inv := by
  induction l with
  | nil => intro s _; simp [Solver.run, loadX, loadY]
  | cons j l ih =>
    intro s hf
    have p := cached_pushed (s.arbs j) k s.bodies (hf j List.mem_cons_self)
    obtain ⟨h1, h2, h3, h4, h5⟩ := ih (s.step (.arbCached j 1)) (fun x hx => hf x (List.mem_cons_of_mem _ hx))
    refine ⟨h1, h2, h3.trans p.inv, h4.trans ?_, h5.trans ?_⟩
    · have e1 : ((s.step (.arbCached j 1)).bodies k).v.x = _ := p.x
      have e2 : ((s.step (.arbCached j 1)).bodies k).m_inv = _ := p.inv
      have e3 : (s.step (.arbCached j 1)).arbs = s.arbs := rfl
      rw [e1, e2, e3]
      simp only [loadX, List.map_cons, List.sum_cons]; ring
    · have e1 : ((s.step (.arbCached j 1)).bodies k).v.y = _ := p.y
      have e2 : ((s.step (.arbCached j 1)).bodies k).m_inv = _ := p.inv
      have e3 : (s.step (.arbCached j 1)).arbs = s.arbs := rfl
      rw [e1, e2, e3]
      simp only [loadY, List.map_cons, List.sum_cons]; ring

end CP
