import Verif.Proofs.SpaceMem

/-! # Contact buffers: all operations keep the invariants -/

namespace CP
variable {F : Type}
namespace Sp

/-- The cached arbiters were cached before, or are of this step. -/
def Ages (s t : Sp F) : Prop := ∀ x ∈ t.cached, (x ∈ s.cached ∧ ((t.arbs x).bodyA = (s.arbs x).bodyA ∧ (t.arbs x).bodyB = (s.arbs x).bodyB ∧ (t.arbs x).a = (s.arbs x).a ∧ (t.arbs x).b = (s.arbs x).b) ∧
  (t.arbs x).stamp = (s.arbs x).stamp) ∨ (t.arbs x).stamp = t.stamp

theorem Ages.refl (s : Sp F) : Ages s s := fun _ h => .inl ⟨h, ⟨rfl, rfl, rfl, rfl⟩, rfl⟩
theorem Ages.trans {s t u : Sp F} (h : Ages s t) (h' : Ages t u) (e : u.stamp = t.stamp) : Ages s u := fun x hx => by
  rcases h' x hx with ⟨q1, ⟨q2, q3, q5, q6⟩, q4⟩ | q
  · rcases h x q1 with ⟨r1, ⟨r2, r3, r5, r6⟩, r4⟩ | r
    · exact .inl ⟨r1, ⟨q2.trans r2, q3.trans r3, q5.trans r5, q6.trans r6⟩, q4.trans r4⟩
    · exact .inr (q4.trans (r.trans e.symm))
  · exact .inr q

/-- The memory stays well-formed, whatever happens to the lock. -/
structure Mems (s t : Sp F) : Prop where
  stamp : t.stamp = s.stamp
  ok : MemOk s → MemOk t
  ages : Ages s t

/-- The memory stays well-formed. -/
structure Oks (s t : Sp F) : Prop extends Mems s t where
  locked : t.locked = s.locked

theorem Mems.refl (s : Sp F) : Mems s s := ⟨rfl, id, .refl s⟩
theorem Mems.trans {s t u : Sp F} (h : Mems s t) (h' : Mems t u) : Mems s u := ⟨h'.stamp.trans h.stamp, h'.ok ∘ h.ok, h.ages.trans h'.ages h'.stamp⟩

/-- The memory stays well-formed, and unchanged under a lock. -/
structure Keeps (s t : Sp F) : Prop extends Oks s t where
  same : s.locked ≠ 0 → SameMem s t

theorem Oks.refl (s : Sp F) : Oks s s := ⟨.refl s, rfl⟩
theorem Oks.trans {s t u : Sp F} (h : Oks s t) (h' : Oks t u) : Oks s u := ⟨h.toMems.trans h'.toMems, h'.locked.trans h.locked⟩
theorem Keeps.refl (s : Sp F) : Keeps s s := ⟨.refl s, fun _ => .refl s⟩
theorem Keeps.trans {s t u : Sp F} (h : Keeps s t) (h' : Keeps t u) : Keeps s u :=
  ⟨h.toOks.trans h'.toOks, fun hl => (h.same hl).trans (h'.same (by rw [h.locked]; exact hl))⟩
theorem SameMem.keeps {s t : Sp F} (h : SameMem s t) (hl : t.locked = s.locked) (ha : Ages s t) : Keeps s t := ⟨⟨⟨h.stamp, h.ok, ha⟩, hl⟩, fun _ => h⟩
theorem Keeps.of {s t : Sp F} (h1 : t.arbs = s.arbs) (h2 : t.bufs = s.bufs) (h3 : t.bufBound = s.bufBound) (h4 : t.head = s.head)
    (h5 : t.stamp = s.stamp) (h6 : t.locked = s.locked) (h7 : t.cached = s.cached) : Keeps s t :=
  (SameMem.of h1 h2 h3 h4 h5).keeps h6 fun x hx => .inl ⟨by rw [← h7]; exact hx, by simp [h1], by rw [h1]⟩

theorem keeps_foldlM {α : Type} {f : Sp F → α → Option (Sp F)} (hf : ∀ s x t, f s x = some t → Keeps s t) :
    ∀ (l : List α) {s t : Sp F}, l.foldlM f s = some t → Keeps s t
  | [], s, t, e => by cases e; exact .refl s
  | x :: l, s, t, e => by
    rw [List.foldlM_cons] at e
    obtain ⟨u, e1, e2⟩ := Option.bind_eq_some_iff.1 e
    exact (hf _ _ _ e1).trans (keeps_foldlM hf l e2)

theorem oks_foldlM {α : Type} {f : Sp F → α → Option (Sp F)} (hf : ∀ s x t, f s x = some t → Oks s t) :
    ∀ (l : List α) {s t : Sp F}, l.foldlM f s = some t → Oks s t
  | [], s, t, e => by cases e; exact .refl s
  | x :: l, s, t, e => by
    rw [List.foldlM_cons] at e
    obtain ⟨u, e1, e2⟩ := Option.bind_eq_some_iff.1 e
    exact (hf _ _ _ e1).trans (oks_foldlM hf l e2)

theorem keeps_foldl {α : Type} {f : Sp F → α → Sp F} (hf : ∀ s x, Keeps s (f s x)) : ∀ (l : List α) (s : Sp F), Keeps s (l.foldl f s)
  | [], s => .refl s
  | x :: l, s => (hf s x).trans (keeps_foldl hf l (f s x))

theorem keeps_body (s : Sp F) (b : Nat) (f : BodyR F → BodyR F) : Keeps s (s.setBody b f) := .of rfl rfl rfl rfl rfl rfl rfl
theorem keeps_shape (s : Sp F) (b : Nat) (f : ShapeR → ShapeR) : Keeps s (s.setShape b f) := .of rfl rfl rfl rfl rfl rfl rfl
theorem keeps_con (s : Sp F) (b : Nat) (f : ConR → ConR) : Keeps s (s.setCon b f) := .of rfl rfl rfl rfl rfl rfl rfl

/-- A change of an arbiter that does not concern its contacts. -/
theorem keeps_arb (s : Sp F) (x : Nat) (f : ArbR → ArbR) (h : ∀ r, (f r).mem = r.mem ∧ (f r).count = r.count ∧ (f r).stamp = r.stamp ∧
    (f r).bodyA = r.bodyA ∧ (f r).bodyB = r.bodyB ∧ (f r).a = r.a ∧ (f r).b = r.b) : Keeps s (s.setArb x f) := by
  refine SameMem.keeps ⟨fun y => ?_, rfl, rfl, rfl, rfl⟩ rfl fun y hy => .inl ⟨hy, ?_⟩
  · by_cases e : y = x
    · subst e; simp [setArb, h]
    · simp [setArb, e]
  · by_cases e : y = x
    · subst e; simp [setArb, h]
    · simp [setArb, e]

theorem keeps_thread (s : Sp F) (x b : Nat) (f : Thread → Thread) : Keeps s (s.setThread x b f) := by
  unfold setThread
  refine keeps_arb s x _ fun r => ?_
  split <;> exact ⟨rfl, rfl, rfl, rfl, rfl, rfl, rfl⟩

theorem keeps_pushArbiter (s : Sp F) (b x : Nat) : Keeps s (s.pushArbiter b x) := by
  unfold pushArbiter
  dsimp only
  split
  · exact ((keeps_thread ..).trans (keeps_thread ..)).trans (keeps_body ..)
  · exact (keeps_thread ..).trans (keeps_body ..)

theorem keeps_unthreadHelper (s : Sp F) (x b : Nat) : Keeps s (s.unthreadHelper x b) := by
  unfold unthreadHelper
  rcases hp : (s.thread x b).prev with _ | p <;> rcases hn : (s.thread x b).next with _ | n <;> simp only [hp, hn]
  · split
    · exact (keeps_body ..).trans (keeps_thread ..)
    · exact keeps_thread ..
  · split
    · exact ((keeps_body ..).trans (keeps_thread ..)).trans (keeps_thread ..)
    · exact (keeps_thread ..).trans (keeps_thread ..)
  · exact (keeps_thread ..).trans (keeps_thread ..)
  · exact ((keeps_thread ..).trans (keeps_thread ..)).trans (keeps_thread ..)

theorem keeps_unthread (s : Sp F) (x : Nat) : Keeps s (s.unthread x) := (keeps_unthreadHelper ..).trans (keeps_unthreadHelper ..)

/-! ### New contacts -/

theorem pushFresh_ok {s : Sp F} (h : MemInv s) : MemOk s.pushFresh := by
  obtain ⟨l, hr⟩ := h.ring
  obtain ⟨k, l', r', hh, hk, ha, hs, hb, ho, hold, hbb⟩ := pushFresh_spec hr
  have nk : ∀ x k' o, (s.arbs x).mem = .ring k' o → s.Young x → k' ≠ k := by
    rintro x k' o e y rfl
    obtain ⟨a, b, -⟩ := h.live x k' o e y
    unfold Young at y
    omega
  have hy : ∀ x, s.pushFresh.Young x ↔ s.Young x := fun x => by unfold Young; rw [hs, ha]
  refine ⟨⟨⟨l', r'⟩, by rw [ha]; exact h.cnt, fun j hj => ?_, by rw [ha]; exact h.cap, fun x j o e y => ?_, fun x y j o o' ne ex ey yx yy => ?_⟩, fun j hj => ?_⟩
  · by_cases e : j = k
    · subst e; rw [hk]; exact Nat.zero_le _
    · rw [(ho j e).2]
      have hjb : j < s.bufBound := by
        rcases hbb with h2 | h2 <;> omega
      exact h.num j hjb
  · rw [hy] at y
    rw [ha] at e ⊢
    obtain ⟨a, b, c⟩ := h.live x j o e y
    have hne := nk x j o e y
    rw [(ho j hne).1, (ho j hne).2]
    exact ⟨lt_of_lt_of_le a hb, b, c⟩
  · rw [hy] at yx yy
    rw [ha] at ex ey ⊢
    exact h.disj x y j o o' ne ex ey yx yy
  · rw [hh] at hj
    cases hj
    rw [hk, hs]

/-- The array handed out: behind all contacts of young arbiters, within the buffer. -/
theorem getArray_ok {s t : Sp F} {k o : Nat} (h : MemOk s) (e : s.getArray = some (t, k, o)) :
    MemOk t ∧ t.arbs = s.arbs ∧ t.stamp = s.stamp ∧ t.locked = s.locked ∧ t.head = some k ∧ o = (t.bufs k).num ∧ o + maxContacts ≤ bufSize ∧ k < t.bufBound := by
  unfold getArray at e
  simp only [Option.bind_eq_bind] at e
  obtain ⟨hd, hh, e⟩ := Option.bind_eq_some_iff.1 e
  obtain ⟨k', hk, e⟩ := Option.bind_eq_some_iff.1 e
  have hu : ∀ u : Sp F, MemOk u → u.head = some k' → k' < u.bufBound := fun u hu hk => by
    obtain ⟨l, r⟩ := hu.inv.ring
    refine (r.all k').1 (List.mem_of_getLast? ?_)
    rw [← r.head]; exact hk
  cases e
  split at hk
  · next hf =>
    simp only [if_pos hf]
    obtain ⟨l, hr⟩ := h.inv.ring
    obtain ⟨j, l', r', hh', hj, ha, hs, hb, ho, hold, hbb⟩ := pushFresh_spec hr
    rw [hh'] at hk
    cases hk
    have hok := pushFresh_ok h.inv
    refine ⟨hok, ha, hs, ?_, hh', trivial, ?_, hu _ hok hh'⟩
    · unfold pushFresh
      rw [hh]
      dsimp only
      split <;> rfl
    · rw [hj]; simp [maxContacts, bufSize]
  · next hf =>
    simp only [if_neg hf]
    rw [hh] at hk
    cases hk
    exact ⟨h, trivial, trivial, trivial, hh, trivial, Nat.le_of_not_lt hf, hu _ h hh⟩

/-- Contacts are put into the array handed out. -/
theorem MemOk.place {s t : Sp F} (h : MemOk s) {k n x : Nat} (hk : s.head = some k) (hc : (s.bufs k).num + maxContacts ≤ bufSize) (hn : n ≤ maxContacts)
    (ha : ∀ y, y ≠ x → (t.arbs y).mem = (s.arbs y).mem ∧ (t.arbs y).count = (s.arbs y).count ∧ (t.arbs y).stamp = (s.arbs y).stamp)
    (hx : (t.arbs x).mem = .ring k (s.bufs k).num ∧ (t.arbs x).count = n ∧ (t.arbs x).stamp = s.stamp)
    (hb : ∀ j, t.bufs j = if j = k then { s.bufs j with num := (s.bufs j).num + n } else s.bufs j) (hbb : t.bufBound = s.bufBound) (hh : t.head = s.head)
    (hs : t.stamp = s.stamp) : MemOk t := by
  obtain ⟨l, r⟩ := h.inv.ring
  have hkb : k < s.bufBound := (r.all k).1 (List.mem_of_getLast? (by rw [← r.head]; exact hk))
  have st : ∀ j, (t.bufs j).stamp = (s.bufs j).stamp ∧ (t.bufs j).next = (s.bufs j).next ∧ (s.bufs j).num ≤ (t.bufs j).num := fun j => by
    rw [hb]; split <;> simp
  have hy : ∀ y, y ≠ x → (t.Young y ↔ s.Young y) := fun y hne => by unfold Young; rw [hs, (ha y hne).2.2]
  have other : ∀ y k' o, y ≠ x → (t.arbs y).mem = .ring k' o → t.Young y →
      k' < s.bufBound ∧ (s.bufs k').stamp = (s.arbs y).stamp ∧ o + (s.arbs y).count ≤ (s.bufs k').num := fun y k' o hne e yy =>
    h.inv.live y k' o (by rw [← (ha y hne).1]; exact e) ((hy y hne).1 yy)
  refine ⟨⟨⟨l, r.nd, by rw [hbb]; exact r.all, by rw [hh]; exact r.head, ?_, ?_, ?_⟩, fun y => ?_, fun j hj => ?_, fun y k' o e => ?_, fun y k' o e yy => ?_, ?_⟩, fun j hj => ?_⟩
  · have : (fun k => (t.bufs k).next) = fun k => (s.bufs k).next := funext fun j => (st j).2.1
    rw [this]; exact r.cyc
  · simp only [(st _).1]; exact r.sorted
  · intro j hj; rw [(st j).1, hs]; exact r.le j hj
  · by_cases e : y = x
    · subst e; rw [hx.2.1]; exact hn
    · rw [(ha y e).2.1]; exact h.inv.cnt y
  · rw [hb]
    rw [hbb] at hj
    split
    · next e => subst e; simp only; omega
    · exact h.inv.num j hj
  · by_cases e' : y = x
    · subst e'
      rw [hx.1] at e
      cases e
      exact hc
    · exact h.inv.cap y k' o (by rw [← (ha y e').1]; exact e)
  · by_cases e' : y = x
    · subst e'
      rw [hx.1] at e
      cases e
      rw [hbb, (st k).1, hx.2.2, hb, if_pos rfl, hx.2.1]
      exact ⟨hkb, h.now k hk, le_rfl⟩
    · obtain ⟨a, b, c⟩ := other y k' o e' e yy
      rw [hbb, (st k').1, (ha y e').2.2, (ha y e').2.1]
      exact ⟨a, b, c.trans (st k').2.2⟩
  · have one : ∀ y k' o o', y ≠ x → (t.arbs y).mem = .ring k' o → (t.arbs x).mem = .ring k' o' → t.Young y → o + (t.arbs y).count ≤ o' := by
      intro y k' o o' hne ey ex yy
      rw [hx.1] at ex
      cases ex
      rw [(ha y hne).2.1]
      exact (other y k o hne ey yy).2.2
    intro y z k' o o' hne ey ez yy yz
    by_cases hyx : y = x
    · subst hyx
      exact Or.inr (one z k' o' o (Ne.symm hne) ez ey yz)
    · by_cases hzx : z = x
      · subst hzx
        exact Or.inl (one y k' o o' hyx ey ez yy)
      · rw [(ha y hyx).2.1, (ha z hzx).2.1]
        exact h.inv.disj y z k' o o' hne (by rw [← (ha y hyx).1]; exact ey) (by rw [← (ha z hzx).1]; exact ez) ((hy y hyx).1 yy) ((hy z hzx).1 yz)
  · rw [(st j).1, hs]; exact h.now j (by rw [← hh]; exact hj)

theorem pushContacts_fields (s : Sp F) (n : Nat) {k : Nat} (hk : s.head = some k) :
    (s.pushContacts n).arbs = s.arbs ∧ (s.pushContacts n).bufBound = s.bufBound ∧ (s.pushContacts n).head = s.head ∧ (s.pushContacts n).stamp = s.stamp ∧
    (s.pushContacts n).locked = s.locked ∧ ∀ j, (s.pushContacts n).bufs j = if j = k then { s.bufs j with num := (s.bufs j).num + n } else s.bufs j := by
  unfold pushContacts
  rw [hk]
  refine ⟨rfl, rfl, hk, rfl, rfl, fun j => ?_⟩
  by_cases e : j = k
  · subst e; simp [setBuf]
  · simp [setBuf, e]

theorem cacheInsert_fields (s : Sp F) (x : Nat) : (s.cacheInsert x).locked = s.locked ∧ (s.cacheInsert x).stamp = s.stamp ∧ (s.cacheInsert x).arbs = s.arbs ∧
    ∀ y ∈ (s.cacheInsert x).cached, y ∈ s.cached ∨ y = x := by
  unfold cacheInsert
  split
  · exact ⟨rfl, rfl, rfl, fun y => .inl⟩
  · exact ⟨rfl, rfl, rfl, fun y hy => by simpa using hy⟩

theorem oks_restoreArb (s : Sp F) (x : Nat) (t : Sp F) (e : s.restoreArb x = some t) : Oks s t := by
  unfold restoreArb at e
  simp only [Option.bind_eq_bind] at e
  obtain ⟨⟨u, k, o⟩, e1, e⟩ := Option.bind_eq_some_iff.1 e
  simp only [Option.some.injEq] at e
  have hst : ∀ v : Sp F, (v.getArray = some (u, k, o)) → u.locked = v.locked ∧ u.stamp = v.stamp ∧ u.cached = v.cached ∧ u.arbs = v.arbs := fun v hv => by
    unfold getArray at hv
    simp only [Option.bind_eq_bind] at hv
    obtain ⟨hd, hh, hv⟩ := Option.bind_eq_some_iff.1 hv
    obtain ⟨k', hk, hv⟩ := Option.bind_eq_some_iff.1 hv
    cases hv
    split
    · unfold pushFresh
      rw [hh]
      dsimp only
      split <;> exact ⟨rfl, rfl, rfl, rfl⟩
    · exact ⟨rfl, rfl, rfl, rfl⟩
  obtain ⟨hl, hs, hca, hab⟩ := hst s e1
  obtain ⟨v, hv⟩ : ∃ v, v = (u.setArb x fun r => { r with mem := .ring k o }) := ⟨_, rfl⟩
  rw [← hv] at e
  obtain ⟨w, hw⟩ : ∃ w, w = v.pushContacts (v.arbs x).count := ⟨_, rfl⟩
  rw [← hw] at e
  have hu : ∀ n, (v.pushContacts n).locked = v.locked ∧ (v.pushContacts n).stamp = v.stamp ∧ (v.pushContacts n).cached = v.cached ∧ (v.pushContacts n).arbs = v.arbs := fun n => by
    unfold pushContacts; split <;> exact ⟨rfl, rfl, rfl, rfl⟩
  have hc := cacheInsert_fields w x
  have hvl : v.locked = u.locked ∧ v.stamp = u.stamp := by rw [hv]; exact ⟨rfl, rfl⟩
  have hwl : w.locked = s.locked ∧ w.stamp = s.stamp := by
    rw [hw]; exact ⟨(hu _).1.trans (hvl.1.trans hl), (hu _).2.1.trans (hvl.2.trans hs)⟩
  have hcl : (w.cacheInsert x).locked = w.locked ∧ (w.cacheInsert x).stamp = w.stamp := ⟨hc.1, hc.2.1⟩
  subst e
  refine ⟨⟨hcl.2.trans hwl.2, fun h => ?_, fun y hy => ?_⟩, hcl.1.trans hwl.1⟩
  rotate_left
  · by_cases e : y = x
    · subst e
      right
      simp [setArb]
    · left
      have h1 : y ∈ w.cached := ((hc.2.2.2 y hy).resolve_right e)
      have h2 : w.cached = s.cached := by rw [hw, (hu _).2.2.1, hv]; exact hca
      have h3 : w.arbs y = s.arbs y := by rw [hw, (hu _).2.2.2, hv, ← hab]; simp [setArb, e]
      rw [h2] at h1
      simp [setArb, e, hc.2.2.1, h3, h1]
  obtain ⟨hok, ha, -, -, hh, ho, hcap, -⟩ := getArray_ok h e1
  have hvh : v.head = some k := by rw [hv]; exact hh
  obtain ⟨p1, p2, p3, p4, p5, p6⟩ := pushContacts_fields v (v.arbs x).count hvh
  rw [← hw] at p1 p2 p3 p4 p5 p6
  have cs : SameMem w (w.cacheInsert x) := by
    unfold cacheInsert
    split
    · exact .refl w
    · exact .of rfl rfl rfl rfl rfl
  have hvx : (v.arbs x) = { u.arbs x with mem := .ring k o } := by rw [hv]; simp [setArb]
  have hvy : ∀ y, y ≠ x → v.arbs y = u.arbs y := fun y hy => by rw [hv]; simp [setArb, hy]
  refine hok.place (x := x) (n := (u.arbs x).count) hh (by rw [← ho]; exact hcap) (hok.inv.cnt x) (fun y hy => ?_) ?_ (fun j => ?_) ?_ ?_ ?_
  · have := cs.arbs y
    rw [p1, hvy y hy] at this
    simpa [setArb, hy] using this
  · have := cs.arbs x
    rw [p1, hvx] at this
    simp only [setArb, Function.update_self]
    exact ⟨by rw [this.1, ho], this.2.1, by rw [hcl.2, hwl.2, hs]⟩
  · show (w.cacheInsert x).bufs j = _
    rw [cs.bufs, p6, hvx, hv]
    rfl
  · show (w.cacheInsert x).bufBound = _
    rw [cs.bufBound, p2, hv]; rfl
  · show (w.cacheInsert x).head = _
    rw [cs.head, p3, hv]; rfl
  · show (w.cacheInsert x).stamp = _
    rw [hcl.2, hwl.2, hs]

theorem keeps_toDynamic (s : Sp F) (sh : Nat) (t : Sp F) (e : s.toDynamic sh = some t) : Keeps s t := by
  unfold toDynamic at e
  split at e
  · cases e; exact .of rfl rfl rfl rfl rfl rfl rfl
  · cases e

theorem keeps_toStatic (s : Sp F) (sh : Nat) (t : Sp F) (e : s.toStatic sh = some t) : Keeps s t := by
  unfold toStatic at e
  split at e
  · cases e; exact .of rfl rfl rfl rfl rfl rfl rfl
  · cases e

theorem keeps_activateBody (s : Sp F) (b : Nat) (t : Sp F) (e : s.activateBody b = some t) : Keeps s t := by
  unfold activateBody at e
  split at e
  · cases e
    split
    · exact .refl s
    · exact .of rfl rfl rfl rfl rfl rfl rfl
  · next hl =>
    simp only [Option.bind_eq_bind] at e
    obtain ⟨u, e1, e⟩ := Option.bind_eq_some_iff.1 e
    obtain ⟨l, e2, e⟩ := Option.bind_eq_some_iff.1 e
    obtain ⟨v, e3, e⟩ := Option.bind_eq_some_iff.1 e
    obtain ⟨cl, e4, e⟩ := Option.bind_eq_some_iff.1 e
    cases e
    have h0 : Keeps s { s with dynamicBodies := s.dynamicBodies ++ [b] } := .of rfl rfl rfl rfl rfl rfl rfl
    have h1 : Keeps s u := h0.trans (keeps_foldlM keeps_toDynamic _ e1)
    have h2 := oks_foldlM oks_restoreArb _ e3
    have h3 : Keeps v { v with constraints := v.constraints ++ cl.filter (v.ownsCon b) } := .of rfl rfl rfl rfl rfl rfl rfl
    exact ⟨(h1.toOks.trans h2).trans h3.toOks, fun h => absurd h hl⟩

theorem keeps_uncacheArb (s : Sp F) (x : Nat) (t : Sp F) (e : s.uncacheArb x = some t) : Oks s t := by
  unfold uncacheArb at e
  simp only [Option.bind_eq_bind] at e
  obtain ⟨l, e1, e⟩ := Option.bind_eq_some_iff.1 e
  cases e
  refine ⟨⟨rfl, fun h => ⟨h.inv.mono rfl rfl rfl le_rfl (fun y => ?_) fun y k o hm => ?_, h.now⟩, fun y hy => .inl ⟨List.mem_of_mem_eraseP hy, ?_⟩⟩, rfl⟩
  · by_cases e : y = x
    · subst e; simp [setArb]
    · simp [setArb, e]
  · by_cases e : y = x
    · subst e; simp [setArb] at hm
    · simp [setArb, e] at hm ⊢; exact hm
  · by_cases e : y = x
    · subst e; simp [setArb]
    · simp [setArb, e]

theorem oks_deactivateBody (s : Sp F) (b : Nat) (t : Sp F) (e : s.deactivateBody b = some t) : Oks s t := by
  unfold deactivateBody at e
  simp only [Option.bind_eq_bind] at e
  obtain ⟨u, e1, e⟩ := Option.bind_eq_some_iff.1 e
  obtain ⟨l, e2, e⟩ := Option.bind_eq_some_iff.1 e
  obtain ⟨v, e3, e⟩ := Option.bind_eq_some_iff.1 e
  obtain ⟨cl, e4, e⟩ := Option.bind_eq_some_iff.1 e
  cases e
  have h0 : Keeps s { s with dynamicBodies := s.dynamicBodies.erase b } := .of rfl rfl rfl rfl rfl rfl rfl
  have h1 : Keeps s u := h0.trans (keeps_foldlM keeps_toStatic _ e1)
  have h2 := oks_foldlM keeps_uncacheArb _ e3
  refine (h1.toOks.trans h2).trans (keeps_foldl (fun s c => ?_) _ v).toOks
  exact .of rfl rfl rfl rfl rfl rfl rfl

variable [GoFloat F]

theorem keeps_zeroIdle (s : Sp F) (b : Nat) : Keeps s (s.zeroIdle b) := keeps_body ..

theorem keeps_wakeChain : ∀ (n : Nat) {s t : Sp F} {o : Option Nat}, wakeChain n s o = some t → Keeps s t
  | n, s, t, none, e => by
    cases n <;> (cases e; exact .refl s)
  | 0, s, t, some b, e => by cases e
  | n + 1, s, t, some b, e => by
    simp only [wakeChain, Option.bind_eq_bind] at e
    obtain ⟨u, e1, e⟩ := Option.bind_eq_some_iff.1 e
    exact ((keeps_body ..).trans (keeps_activateBody _ _ _ e1)).trans (keeps_wakeChain n e)

theorem keeps_bodyActivate (s : Sp F) (b : Nat) (t : Sp F) (e : s.bodyActivate b = some t) : Keeps s t := by
  unfold bodyActivate at e
  have fin : ∀ u : Sp F, ((u.arbList b).bind fun l => some (l.foldl (fun s x =>
      if s.typ (s.otherBody b x) ≠ .static then s.zeroIdle (s.otherBody b x) else s) u)) = some t → Keeps u t := fun u e => by
    obtain ⟨l, e2, e⟩ := Option.bind_eq_some_iff.1 e
    cases e
    refine keeps_foldl (fun s x => ?_) l u
    split
    · exact keeps_zeroIdle ..
    · exact .refl s
  split at e
  · cases e; exact .refl s
  · refine (keeps_zeroIdle s b).trans ?_
    simp only [Option.bind_eq_bind] at e
    split at e
    · split at e
      · obtain ⟨v, e3, e⟩ := Option.bind_eq_some_iff.1 e
        refine ((keeps_wakeChain _ e3).trans ?_).trans (fin _ e)
        exact .of rfl rfl rfl rfl rfl rfl rfl
      · exact fin _ e
    · exact fin _ e

theorem keeps_activateStatic (s : Sp F) (b : Nat) (f : Option Nat) (t : Sp F) (e : s.activateStatic b f = some t) : Keeps s t := by
  unfold activateStatic at e
  simp only [Option.bind_eq_bind] at e
  obtain ⟨l, e2, e⟩ := Option.bind_eq_some_iff.1 e
  refine keeps_foldlM (fun s x t e => ?_) l e
  split at e
  · exact keeps_bodyActivate _ _ _ e
  · cases e; exact .refl s

theorem keeps_runActs {s t : Sp F} {acts : List Nat} (e : s.runActs acts = some t) : Keeps s t := keeps_foldlM keeps_bodyActivate _ e

theorem Mems.of {s t : Sp F} (h1 : t.arbs = s.arbs) (h2 : t.bufs = s.bufs) (h3 : t.bufBound = s.bufBound) (h4 : t.head = s.head)
    (h5 : t.stamp = s.stamp) (h7 : t.cached = s.cached) : Mems s t :=
  ⟨h5, (SameMem.of h1 h2 h3 h4 h5).ok, fun x hx => .inl ⟨by rw [← h7]; exact hx, by simp [h1], by rw [h1]⟩⟩

theorem mems_lock (s : Sp F) : Mems s s.lock := .of rfl rfl rfl rfl rfl rfl

theorem mems_unlock {s t : Sp F} (e : s.unlock = some t) : Mems s t := by
  unfold unlock at e
  split at e
  · cases e
  · dsimp only at e
    have h0 : Mems s { s with locked := s.locked - 1 } := .of rfl rfl rfl rfl rfl rfl
    split at e
    · cases e; exact h0
    · simp only [Option.bind_eq_bind] at e
      obtain ⟨u, e1, e⟩ := Option.bind_eq_some_iff.1 e
      cases e
      have h1 := keeps_foldlM keeps_activateBody _ e1
      have h2 : Mems u { u with roused := [] } := .of rfl rfl rfl rfl rfl rfl
      exact (h0.trans h1.toMems).trans h2

end Sp
end CP
