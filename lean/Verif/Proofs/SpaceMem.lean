import Verif.Proofs.SpaceReach

/-! # Invariants of the contact buffers -/

namespace CP
variable {F : Type}
namespace Sp

/-- `a`, `r`, `z` is a path of `next`. -/
def Path (next : Nat → Nat) : Nat → List Nat → Nat → Prop
  | a, [], z => next a = z
  | a, b :: r, z => next a = b ∧ Path next b r z

theorem Path.append {next : Nat → Nat} {z w : Nat} {r2 : List Nat} : ∀ {r : List Nat} {a : Nat}, Path next a (r ++ z :: r2) w ↔ Path next a r z ∧ Path next z r2 w
  | [], a => Iff.rfl
  | b :: r, a => by simp only [List.cons_append, Path, Path.append (r := r), and_assoc]

theorem Path.congr {next next' : Nat → Nat} {z : Nat} : ∀ {r : List Nat} {a : Nat}, Path next a r z → (∀ x ∈ a :: r, next' x = next x) → Path next' a r z
  | [], a, h, e => by rw [Path, e a (by simp)]; exact h
  | b :: r, a, h, e => ⟨by rw [e a (by simp)]; exact h.1, h.2.congr fun x hx => e x (List.mem_cons_of_mem _ hx)⟩

/-- Redirecting the end of a path. -/
theorem Path.redirect {next : Nat → Nat} {z k h : Nat} : ∀ {r : List Nat} {a : Nat}, Path next a r z → (a :: r).Nodup → (a :: r).getLast? = some h →
    Path (fun x => if x = h then k else next x) a r k ∧ next h = z
  | [], a, p, _, e => by
    simp only [List.getLast?_singleton, Option.some.injEq] at e
    subst e
    exact ⟨by simp [Path], p⟩
  | b :: r, a, p, nd, e => by
    rw [List.getLast?_cons_cons] at e
    obtain ⟨p1, p2⟩ := Path.redirect (k := k) p.2 (List.nodup_cons.1 nd).2 e
    refine ⟨⟨?_, p1⟩, p2⟩
    have hne : a ≠ h := by
      rintro rfl
      exact (List.nodup_cons.1 nd).1 (List.mem_of_getLast? e)
    simp only [if_neg hne]
    exact p.1

/-- The buffers form a ring from the oldest to the head. -/
structure Ring (s : Sp F) (l : List Nat) : Prop where
  nd : l.Nodup
  all : ∀ k, k ∈ l ↔ k < s.bufBound
  head : s.head = l.getLast?
  cyc : ∀ t r, l = t :: r → Path (fun k => (s.bufs k).next) t r t
  sorted : l.Pairwise fun j k => (s.bufs j).stamp ≤ (s.bufs k).stamp
  le : ∀ k ∈ l, (s.bufs k).stamp ≤ s.stamp

/-- Arbiter `x` was last used at most `collisionPersistence` steps ago. -/
def Young (s : Sp F) (x : Nat) : Prop := s.stamp - (s.arbs x).stamp ≤ persistence

structure MemInv (s : Sp F) : Prop where
  ring : ∃ l, Ring s l
  cnt : ∀ x, (s.arbs x).count ≤ maxContacts
  num : ∀ k, k < s.bufBound → (s.bufs k).num ≤ bufSize
  cap : ∀ x k o, (s.arbs x).mem = .ring k o → o + maxContacts ≤ bufSize
  live : ∀ x k o, (s.arbs x).mem = .ring k o → s.Young x →
    k < s.bufBound ∧ (s.bufs k).stamp = (s.arbs x).stamp ∧ o + (s.arbs x).count ≤ (s.bufs k).num
  disj : ∀ x y k o o', x ≠ y → (s.arbs x).mem = .ring k o → (s.arbs y).mem = .ring k o' → s.Young x → s.Young y →
    o + (s.arbs x).count ≤ o' ∨ o' + (s.arbs y).count ≤ o

/-- The head is of this step. -/
def HeadNow (s : Sp F) : Prop := ∀ h, s.head = some h → (s.bufs h).stamp = s.stamp

structure MemOk (s : Sp F) : Prop where
  inv : MemInv s
  now : HeadNow s

/-- Nothing changes in the memory of the contacts. -/
structure SameMem (s t : Sp F) : Prop where
  arbs : ∀ x, (t.arbs x).mem = (s.arbs x).mem ∧ (t.arbs x).count = (s.arbs x).count ∧ (t.arbs x).stamp = (s.arbs x).stamp
  bufs : t.bufs = s.bufs
  bufBound : t.bufBound = s.bufBound
  head : t.head = s.head
  stamp : t.stamp = s.stamp

theorem SameMem.refl (s : Sp F) : SameMem s s := ⟨fun _ => ⟨rfl, rfl, rfl⟩, rfl, rfl, rfl, rfl⟩
theorem SameMem.trans {s t u : Sp F} (h : SameMem s t) (h' : SameMem t u) : SameMem s u :=
  ⟨fun x => ⟨(h'.arbs x).1.trans (h.arbs x).1, (h'.arbs x).2.1.trans (h.arbs x).2.1, (h'.arbs x).2.2.trans (h.arbs x).2.2⟩,
   h'.bufs.trans h.bufs, h'.bufBound.trans h.bufBound, h'.head.trans h.head, h'.stamp.trans h.stamp⟩
theorem SameMem.of {s t : Sp F} (h1 : t.arbs = s.arbs) (h2 : t.bufs = s.bufs) (h3 : t.bufBound = s.bufBound) (h4 : t.head = s.head)
    (h5 : t.stamp = s.stamp) : SameMem s t := ⟨fun x => by rw [h1]; exact ⟨rfl, rfl, rfl⟩, h2, h3, h4, h5⟩

theorem Ring.congr {s t : Sp F} {l : List Nat} (h : Ring s l) (h2 : t.bufs = s.bufs) (h3 : t.bufBound = s.bufBound) (h4 : t.head = s.head)
    (h5 : s.stamp ≤ t.stamp) : Ring t l :=
  ⟨h.nd, by rw [h3]; exact h.all, by rw [h4]; exact h.head, by rw [h2]; exact h.cyc, by rw [h2]; exact h.sorted,
   fun k hk => by rw [h2]; exact (h.le k hk).trans h5⟩

/-- The arbiters may forget their contacts and the time may go on. -/
theorem MemInv.mono {s t : Sp F} (h : MemInv s) (h2 : t.bufs = s.bufs) (h3 : t.bufBound = s.bufBound) (h4 : t.head = s.head)
    (h5 : s.stamp ≤ t.stamp) (hc : ∀ x, (t.arbs x).count ≤ (s.arbs x).count) (hs : ∀ x k o, (t.arbs x).mem = .ring k o →
      (s.arbs x).mem = .ring k o ∧ (t.arbs x).stamp = (s.arbs x).stamp) : MemInv t := by
  have hy : ∀ x k o, (t.arbs x).mem = .ring k o → t.Young x → s.Young x := fun x k o e y => by
    unfold Young at *
    have := (hs x k o e).2
    omega
  refine ⟨?_, fun x => (hc x).trans (h.cnt x), ?_, fun x k o e => h.cap x k o (hs x k o e).1, fun x k o e y => ?_, fun x y k o o' ne ex ey yx yy => ?_⟩
  · obtain ⟨l, r⟩ := h.ring
    exact ⟨l, r.congr h2 h3 h4 h5⟩
  · rw [h2, h3]; exact h.num
  · obtain ⟨a, b, c⟩ := h.live x k o (hs x k o e).1 (hy x k o e y)
    rw [h2, h3, (hs x k o e).2]
    have := hc x
    exact ⟨a, b, by omega⟩
  · have := h.disj x y k o o' ne (hs x k o ex).1 (hs y k o' ey).1 (hy x k o ex yx) (hy y k o' ey yy)
    have h6 := hc x
    have h7 := hc y
    omega

theorem SameMem.inv {s t : Sp F} (e : SameMem s t) (h : MemInv s) : MemInv t :=
  h.mono e.bufs e.bufBound e.head (by rw [e.stamp]) (fun x => (e.arbs x).2.1.le) fun x k o hm => ⟨by rw [← (e.arbs x).1]; exact hm, (e.arbs x).2.2⟩

theorem SameMem.ok {s t : Sp F} (e : SameMem s t) (h : MemOk s) : MemOk t :=
  ⟨e.inv h.inv, fun k hk => by rw [e.bufs, e.stamp]; exact h.now k (by rw [← e.head]; exact hk)⟩

/-! ### The ring -/

/-- `PushFreshContactBuffer`: the head is an empty buffer of this step, all buffers but the oldest are as before. -/
theorem pushFresh_spec {s : Sp F} {l : List Nat} (h : Ring s l) : ∃ k l', Ring s.pushFresh l' ∧ s.pushFresh.head = some k ∧
    s.pushFresh.bufs k = ⟨s.stamp, (s.pushFresh.bufs k).next, 0⟩ ∧ s.pushFresh.arbs = s.arbs ∧ s.pushFresh.stamp = s.stamp ∧
    s.bufBound ≤ s.pushFresh.bufBound ∧ (∀ j, j ≠ k → (s.pushFresh.bufs j).stamp = (s.bufs j).stamp ∧ (s.pushFresh.bufs j).num = (s.bufs j).num) ∧
    (s.bufBound ≤ k ∨ persistence < s.stamp - (s.bufs k).stamp) ∧
    (s.pushFresh.bufBound = s.bufBound ∧ k < s.bufBound ∨ (s.pushFresh.bufBound = s.bufBound + 1 ∧ k = s.bufBound ∧ ∀ j < s.bufBound, s.stamp - (s.bufs j).stamp ≤ persistence)) := by
  unfold pushFresh
  rcases hh : s.head with _ | hd
  · have hl : l = [] := by
      have := h.head
      rw [hh] at this
      exact List.getLast?_eq_none_iff.1 this.symm
    subst hl
    have hb : s.bufBound = 0 := by
      by_contra hne
      have := (h.all 0).2 (Nat.pos_of_ne_zero hne)
      simp at this
    refine ⟨s.bufBound, [s.bufBound], ⟨by simp, fun k => ?_, rfl, ?_, by simp, ?_⟩, rfl, ?_, rfl, rfl, Nat.le_succ _, fun j hj => ?_, Or.inl le_rfl, Or.inr ⟨rfl, rfl, fun j hj => ?_⟩⟩
    · simp [setBuf, hb]
    · rintro t r e
      simp only [List.cons.injEq] at e
      obtain ⟨rfl, rfl⟩ := e
      simp [Path, setBuf]
    · intro k hk
      simp only [List.mem_singleton] at hk
      subst hk
      simp [setBuf]
    · simp [setBuf]
    · simp [setBuf, hj]
    · omega
  · have hl : l ≠ [] := by
      rintro rfl
      have := h.head
      rw [hh] at this
      cases this
    obtain ⟨t, r, rfl⟩ := List.exists_cons_of_ne_nil hl
    have hlast : (t :: r).getLast? = some hd := by rw [← h.head, hh]
    obtain ⟨-, hnext⟩ := (h.cyc t r rfl).redirect (k := 0) h.nd hlast
    simp only at hnext ⊢
    rw [hnext]
    have ht : t < s.bufBound := (h.all t).1 (by simp)
    have hhd : hd < s.bufBound := (h.all hd).1 (List.mem_of_getLast? hlast)
    by_cases hold : persistence < s.stamp - (s.bufs t).stamp
    · simp only [if_pos hold]
      refine ⟨t, r ++ [t], ⟨?_, fun k => ?_, ?_, ?_, ?_, ?_⟩, rfl, ?_, rfl, rfl, le_rfl, fun j hj => ?_, Or.inr hold, Or.inl ⟨rfl, ht⟩⟩
      · have := List.nodup_cons.1 h.nd
        exact List.nodup_append.2 ⟨this.2, by simp, by rintro a ha b hb rfl; simp at hb; subst hb; exact this.1 ha⟩
      · refine Iff.trans ?_ (h.all k)
        simp [or_comm]
      · simp [setBuf]
      · intro t' r' e
        have hnx : (fun k => ((s.setBuf t fun r => ⟨s.stamp, r.next, 0⟩).bufs k).next) = fun k => (s.bufs k).next := by
          funext k
          by_cases e : k = t
          · subst e; simp [setBuf]
          · simp [setBuf, e]
        show Path (fun k => ((s.setBuf t fun r => ⟨s.stamp, r.next, 0⟩).bufs k).next) t' r' t'
        rw [hnx]
        have hc := h.cyc t r rfl
        cases r with
        | nil =>
          simp only [List.nil_append, List.cons.injEq] at e
          obtain ⟨rfl, rfl⟩ := e
          exact hc
        | cons b r =>
          simp only [List.cons_append, List.cons.injEq] at e
          obtain ⟨rfl, rfl⟩ := e
          exact Path.append.2 ⟨hc.2, hc.1⟩
      · have hp := List.pairwise_cons.1 h.sorted
        have hne : ∀ j ∈ r, j ≠ t := fun j hj e => (List.nodup_cons.1 h.nd).1 (e ▸ hj)
        have hst : ∀ j ∈ r, ((s.setBuf t fun r => ⟨s.stamp, r.next, 0⟩).bufs j) = s.bufs j := fun j hj => by simp [setBuf, hne j hj]
        refine List.pairwise_append.2 ⟨?_, by simp, fun j hj k hk => ?_⟩
        · refine hp.2.imp_of_mem fun {a b} ha hb hab => ?_
          simpa only [hst a ha, hst b hb] using hab
        · simp only [List.mem_singleton] at hk
          subst hk
          simp only [hst j hj]
          have := h.le j (by simp [hj])
          simpa [setBuf] using this
      · intro k hk
        by_cases e : k = t
        · subst e; simp [setBuf]
        · simpa [setBuf, e] using h.le k (by simp at hk ⊢; tauto)
      · simp [setBuf]
      · simp [setBuf, hj]
    · simp only [if_neg hold]
      have hkne : ∀ j ∈ t :: r, j ≠ s.bufBound := fun j hj e => by
        have := (h.all j).1 hj
        omega
      refine ⟨s.bufBound, t :: r ++ [s.bufBound], ⟨?_, fun k => ?_, ?_, ?_, ?_, ?_⟩, rfl, ?_, rfl, rfl, Nat.le_succ _, fun j hj => ?_, Or.inl le_rfl,
        Or.inr ⟨trivial, rfl, fun j hj => ?_⟩⟩
      · exact List.nodup_append.2 ⟨h.nd, by simp, by rintro a ha b hb rfl; simp only [List.mem_singleton] at hb; exact hkne a ha hb⟩
      · have := h.all k
        simp only [List.mem_append, List.mem_singleton, this]
        show k < s.bufBound ∨ k = s.bufBound ↔ k < s.bufBound + 1
        omega
      · exact List.getLast?_concat.symm
      · intro t' r' e
        simp only [List.cons_append, List.cons.injEq] at e
        obtain ⟨rfl, rfl⟩ := e
        refine Path.append.2 ⟨?_, ?_⟩
        · refine ((h.cyc t r rfl).redirect (k := s.bufBound) h.nd hlast).1.congr fun x hx => ?_
          have := hkne x hx
          by_cases hxh : x = hd
          · subst hxh; simp [setBuf]
          · simp [setBuf, hxh, this]
        · have : s.bufBound ≠ hd := by omega
          simp [Path, setBuf, this]
      · have hst : ∀ j ∈ t :: r, ((s.setBuf s.bufBound fun _ => ⟨s.stamp, t, 0⟩).setBuf hd fun r => { r with next := s.bufBound }).bufs j =
            if j = hd then { s.bufs j with next := s.bufBound } else s.bufs j := fun j hj => by
          have := hkne j hj
          by_cases e : j = hd
          · subst e; simp [setBuf, this]
          · simp [setBuf, e, this]
        have hst2 : ∀ j ∈ t :: r, (((s.setBuf s.bufBound fun _ => ⟨s.stamp, t, 0⟩).setBuf hd fun r => { r with next := s.bufBound }).bufs j).stamp = (s.bufs j).stamp := fun j hj => by
          rw [hst j hj]; split <;> rfl
        refine List.pairwise_append.2 ⟨?_, by simp, fun j hj k hk => ?_⟩
        · refine h.sorted.imp_of_mem fun {a b} ha hb hab => ?_
          simpa only [hnext, hst2 a ha, hst2 b hb] using hab
        · simp only [List.mem_singleton] at hk
          subst hk
          have h1 := hst2 j hj
          have h2 := h.le j hj
          have h3 : s.bufBound ≠ hd := by omega
          simp only [hnext, h1]
          simpa [setBuf, h3] using h2
      · intro k hk
        rw [List.mem_append] at hk
        show (((s.setBuf s.bufBound fun _ => ⟨s.stamp, t, 0⟩).setBuf hd fun r => { r with next := s.bufBound }).bufs k).stamp ≤ s.stamp
        rcases hk with hk | hk
        · have h2 := h.le k hk
          have h3 := hkne k hk
          by_cases e : k = hd
          · subst e; simpa [setBuf, h3] using h2
          · simpa [setBuf, h3, e] using h2
        · simp only [List.mem_singleton] at hk
          have h3 : s.bufBound ≠ hd := by omega
          subst hk
          simp [setBuf, h3]
      · have h3 : s.bufBound ≠ hd := by omega
        simp [setBuf, h3]
      · by_cases e : j = hd
        · subst e; simp [setBuf, hj]
        · simp [setBuf, hj, e]
      · have hp := List.pairwise_cons.1 h.sorted
        have hj' := (h.all j).2 hj
        rcases List.mem_cons.1 hj' with rfl | hj'
        · omega
        · have := hp.1 j hj'
          omega

end Sp
end CP
