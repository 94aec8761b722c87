import Verif.Model.SpaceHash
import Verif.Proofs.HashSet
import Mathlib.Data.List.Nodup
import Mathlib.Tactic.Linarith

/-! # Invariants of the spatial hash -/

namespace CP
open GoFloat
variable {F : Type} [GoFloat F]

namespace SHash

/-! ### Handles: retain counts and the pool -/

/-- `ref h` is the number of references to handle `h`; pooled and unallocated handles have none. -/
structure Mem (s : SHash F) (ref : HId → Nat) : Prop where
  refs : ∀ h, (s.hd h).retains = ref h
  zero : ∀ h ∈ s.pool, ref h = 0
  nd : s.pool.Nodup
  lt : ∀ h ∈ s.pool, h < s.next
  fresh : ∀ h, s.next ≤ h → ref h = 0

/-- Everything but the handles and the pool is unchanged. -/
structure SameT (s s' : SHash F) : Prop where
  num : s'.numCells = s.numCells
  dim : s'.celldim = s.celldim
  table : s'.table = s.table
  set : s'.set = s.set
  stamp : s'.stamp = s.stamp

/-- Shapes of handles and their stamps are unchanged too. -/
structure SameO (s s' : SHash F) : Prop extends SameT s s' where
  obj : ∀ h, (s'.hd h).obj = (s.hd h).obj
  mark : ∀ h, (s'.hd h).stamp = (s.hd h).stamp
  next : s'.next = s.next

theorem SameO.refl (s : SHash F) : SameO s s := ⟨⟨rfl, rfl, rfl, rfl, rfl⟩, fun _ => rfl, fun _ => rfl, rfl⟩

theorem SameO.trans {a b c : SHash F} (h1 : SameO a b) (h2 : SameO b c) : SameO a c :=
  ⟨⟨h2.num.trans h1.num, h2.dim.trans h1.dim, h2.table.trans h1.table, h2.set.trans h1.set, h2.stamp.trans h1.stamp⟩,
    fun h => (h2.obj h).trans (h1.obj h), fun h => (h2.mark h).trans (h1.mark h), h2.next.trans h1.next⟩

theorem setHd_hd (s : SHash F) (h x : HId) (v : Hd) : (s.setHd h v).hd x = if x = h then v else s.hd x := rfl

theorem retain_same (s : SHash F) (h : HId) : SameO s (s.retain h) := by
  refine ⟨⟨rfl, rfl, rfl, rfl, rfl⟩, fun x => ?_, fun x => ?_, rfl⟩ <;>
  · simp only [retain, setHd_hd]; split
    · next e => subst e; rfl
    · rfl

theorem retain_mem {s : SHash F} {ref : HId → Nat} (m : Mem s ref) {h : HId} (h0 : 0 < ref h) :
    Mem (s.retain h) (fun x => ref x + if x = h then 1 else 0) := by
  refine ⟨fun x => ?_, fun x hx => ?_, m.nd, m.lt, fun x hx => ?_⟩
  · simp only [retain, setHd_hd]
    split
    · next e => subst e; simp [m.refs x]
    · next e => simp [m.refs x]
  · have := m.zero x hx
    rw [if_neg (by rintro rfl; omega), this]
  · have := m.fresh x hx
    rw [if_neg (by rintro rfl; omega), this]

theorem release_same (s : SHash F) (h : HId) : SameO s (s.release h) := by
  unfold release
  simp only
  have key : SameO s (s.setHd h { s.hd h with retains := (s.hd h).retains - 1 }) := by
    refine ⟨⟨rfl, rfl, rfl, rfl, rfl⟩, fun x => ?_, fun x => ?_, rfl⟩ <;>
    · simp only [setHd_hd]; split
      · next e => subst e; rfl
      · rfl
  split
  · exact key.trans ⟨⟨rfl, rfl, rfl, rfl, rfl⟩, fun _ => rfl, fun _ => rfl, rfl⟩
  · exact key

theorem release_mem {s : SHash F} {ref : HId → Nat} (m : Mem s ref) {h : HId} (h0 : 0 < ref h) :
    Mem (s.release h) (fun x => ref x - if x = h then 1 else 0) := by
  have hp : h ∉ s.pool := fun hp => by have := m.zero h hp; omega
  have hlt : h < s.next := by
    by_contra hc
    have := m.fresh h (Nat.not_lt.1 hc); omega
  have hr : ∀ x, ((s.setHd h { s.hd h with retains := (s.hd h).retains - 1 }).hd x).retains =
      ((ref x - if x = h then 1 else 0 : Nat) : Int) := by
    intro x
    rw [setHd_hd]
    split
    · next e =>
      subst e
      simp only [m.refs x]
      omega
    · next e => simp [m.refs x]
  unfold release
  simp only
  split
  · next hz =>
    have hz' : ref h - 1 = 0 := by
      have := hr h
      rw [hz, if_pos rfl] at this
      omega
    refine ⟨hr, fun x hx => ?_, List.nodup_cons.2 ⟨hp, m.nd⟩, fun x hx => ?_, fun x hx => ?_⟩
    · rcases List.mem_cons.1 hx with rfl | hx
      · simp [hz']
      · have := m.zero x hx; omega
    · rcases List.mem_cons.1 hx with rfl | hx
      · exact hlt
      · exact m.lt x hx
    · have := m.fresh x hx; omega
  · exact ⟨hr, fun x hx => by have := m.zero x hx; omega, m.nd, m.lt, fun x hx => by have := m.fresh x hx; omega⟩

theorem releases (l : List HId) : ∀ {s : SHash F} {ref : HId → Nat}, Mem s ref → (∀ h, l.count h ≤ ref h) →
    SameO s (l.foldl release s) ∧ Mem (l.foldl release s) (fun x => ref x - l.count x) := by
  induction l with
  | nil => exact fun {s} {ref} m _ => ⟨SameO.refl s, by simpa using m⟩
  | cons h t ih =>
    intro s ref m hle
    have h0 : 0 < ref h := by have := hle h; rw [List.count_cons_self] at this; omega
    obtain ⟨a, b⟩ := ih (release_mem m h0) (fun x => by
      have := hle x
      rw [List.count_cons] at this
      by_cases e : x = h
      · subst e; simp at this ⊢; omega
      · rw [if_neg e]; simp [Ne.symm e] at this; omega)
    refine ⟨(release_same s h).trans a, ?_⟩
    simp only [List.foldl_cons]
    convert b using 2 with x
    rw [List.count_cons]
    by_cases e : x = h
    · subst e; simp; omega
    · simp [e, Ne.symm e]

theorem getHandle_spec {s : SHash F} {ref : HId → Nat} (m : Mem s ref) (pick : Nat) :
    let r := s.getHandle pick
    SameT s r.2 ∧ r.2.hd = s.hd ∧ Mem r.2 ref ∧ ref r.1 = 0 ∧ r.1 ∉ r.2.pool ∧ r.1 < r.2.next := by
  simp only [getHandle]
  cases hp : s.pool[pick]? with
  | some h =>
    obtain ⟨hlt, hh⟩ := List.getElem?_eq_some_iff.1 hp
    have hmem : h ∈ s.pool := by rw [← hh]; exact List.getElem_mem hlt
    refine ⟨⟨rfl, rfl, rfl, rfl, rfl⟩, rfl, ⟨m.refs, fun x hx => m.zero x (List.mem_of_mem_eraseIdx hx), m.nd.eraseIdx _,
      fun x hx => m.lt x (List.mem_of_mem_eraseIdx hx), m.fresh⟩, m.zero h hmem, ?_, m.lt h hmem⟩
    simp only
    rw [← hh]
    intro hc
    have e := (List.getElem_cons_eraseIdx_perm hlt).nodup_iff.2 m.nd
    exact (List.nodup_cons.1 e).1 hc
  | none =>
    refine ⟨⟨rfl, rfl, rfl, rfl, rfl⟩, rfl, ⟨m.refs, m.zero, m.nd, fun x hx => Nat.lt_succ_of_lt (m.lt x hx), fun x hx => m.fresh x (Nat.le_of_succ_le hx)⟩,
      m.fresh _ (le_refl _), fun hc => ?_, Nat.lt_succ_self _⟩
    exact Nat.lt_irrefl _ (m.lt _ hc)

end SHash
end CP
