import Verif.Model.HashSet
import Mathlib.Data.List.Perm.Basic
import Mathlib.Data.List.Nodup

namespace CP
namespace HashSet
variable {T U C : Type} [DecidableEq C]

theorem primes_next : ∀ p ∈ primes, p ≠ 0 → p ≠ 1610612741 →
    ∃ q ∈ primes, nextPrime (p + 1) = some q ∧ p < q ∧ q ≠ 0 := by
  decide

theorem primes_last : nextPrime (1610612741 + 1) = none := by decide

theorem nextPrime_zero : nextPrime 0 = some 5 := by decide

/-- How a client uses a hash set: keys and elements have classes, equality is equality of classes,
hashes are a function of the class. -/
structure Client (T U C : Type) [DecidableEq C] where
  kc : T → C
  ec : U → C
  h : C → Nat

def Client.eq (cl : Client T U C) (t : T) (u : U) : Bool := decide (cl.kc t = cl.ec u)

structure Inv (cl : Client T U C) (s : HashSet U) : Prop where
  len : s.table.length = s.size
  prime : s.size ∈ primes
  pos : s.size ≠ 0
  lt : s.entries < s.size
  cnt : s.entries = s.table.flatten.length
  loc : ∀ i bucket, s.table[i]? = some bucket → ∀ b ∈ bucket,
    b.hash = cl.h (cl.ec b.elt) ∧ b.hash % s.size = i
  nodup : (s.table.flatten.map (fun b => cl.ec b.elt)).Nodup

theorem flatten_modify_perm (tbl : List (List (Bin U))) (i : Nat) (b : Bin U) (h : i < tbl.length) :
    (tbl.modify i (fun l => b :: l)).flatten.Perm (b :: tbl.flatten) := by
  induction tbl generalizing i with
  | nil => simp at h
  | cons x xs ih =>
    cases i with
    | zero => simp
    | succ i =>
      simp only [List.modify_succ_cons, List.flatten_cons]
      have := ih i (by simpa using h)
      calc (x ++ (xs.modify i (fun l => b :: l)).flatten).Perm (x ++ (b :: xs.flatten)) :=
            this.append_left x
        List.Perm _ (b :: (x ++ xs.flatten)) := List.perm_middle

theorem foldl_push (n : Nat) (hn : n ≠ 0) (bs : List (Bin U)) (tbl : List (List (Bin U)))
    (hl : tbl.length = n) (P : Bin U → Prop) (hbs : ∀ b ∈ bs, P b)
    (hloc : ∀ i bucket, tbl[i]? = some bucket → ∀ b ∈ bucket, P b ∧ b.hash % n = i) :
    (bs.foldl (push n) tbl).length = n ∧
    (bs.foldl (push n) tbl).flatten.Perm (bs ++ tbl.flatten) ∧
    ∀ i bucket, (bs.foldl (push n) tbl)[i]? = some bucket → ∀ b ∈ bucket, P b ∧ b.hash % n = i := by
  induction bs generalizing tbl with
  | nil => exact ⟨hl, by simp, hloc⟩
  | cons b bs ih =>
    have hlt : b.hash % n < tbl.length := by rw [hl]; exact Nat.mod_lt _ (Nat.pos_of_ne_zero hn)
    have hl' : (push n tbl b).length = n := by simp [push, hl]
    have hloc' : ∀ i bucket, (push n tbl b)[i]? = some bucket → ∀ c ∈ bucket, P c ∧ c.hash % n = i := by
      intro i bucket hb c hc
      unfold push at hb
      rw [List.getElem?_modify] at hb
      cases ht : tbl[i]? with
      | none => rw [ht] at hb; simp at hb
      | some l =>
        rw [ht] at hb
        by_cases he : b.hash % n = i
        · simp [he] at hb
          subst hb
          rcases List.mem_cons.mp hc with rfl | hc
          · exact ⟨hbs _ (by simp), he⟩
          · exact hloc i l ht c hc
        · simp [he] at hb
          subst hb; exact hloc i l ht c hc
    obtain ⟨h1, h2, h3⟩ := ih (push n tbl b) hl' (fun c hc => hbs c (by simp [hc])) hloc'
    refine ⟨h1, ?_, h3⟩
    simp only [List.foldl_cons]
    refine h2.trans ?_
    refine ((flatten_modify_perm tbl _ b hlt).append_left bs).trans ?_
    rw [List.cons_append]
    exact List.perm_middle

theorem replicate_nil_getElem? {n i : Nat} {bucket : List (Bin U)}
    (h : (List.replicate n ([] : List (Bin U)))[i]? = some bucket) : bucket = [] := by
  rw [List.getElem?_replicate] at h
  split at h
  · simpa using h.symm
  · simp at h

theorem inv_new (cl : Client T U C) : ∃ s : HashSet U, new = some s ∧ Inv cl s ∧ s.table.flatten = [] := by
  refine ⟨{ entries := 0, size := 5, table := List.replicate 5 [] }, ?_, ?_, by simp⟩
  · simp [new, nextPrime_zero]
  · constructor
    · simp
    · simp [primes]
    · simp
    · simp
    · simp
    · intro i bucket hb b hbb
      rw [replicate_nil_getElem? hb] at hbb
      simp at hbb
    · simp

/-- Looking in the bucket of the hash is looking everywhere. -/
theorem find_bucket (cl : Client T U C) (s : HashSet U) (hi : Inv cl s) (t : T) :
    ∃ bucket, s.table[cl.h (cl.kc t) % s.size]? = some bucket ∧
      (∀ b ∈ bucket, b ∈ s.table.flatten) ∧
      (∀ b ∈ s.table.flatten, cl.ec b.elt = cl.kc t → b ∈ bucket) := by
  have hlt : cl.h (cl.kc t) % s.size < s.table.length := by
    rw [hi.len]; exact Nat.mod_lt _ (Nat.pos_of_ne_zero hi.pos)
  refine ⟨s.table[cl.h (cl.kc t) % s.size], List.getElem?_eq_getElem hlt, ?_, ?_⟩
  · intro b hb
    exact List.mem_flatten.mpr ⟨_, List.getElem_mem hlt, hb⟩
  · intro b hb hc
    obtain ⟨l, hl, hbl⟩ := List.mem_flatten.mp hb
    obtain ⟨i, hilt, rfl⟩ := List.mem_iff_getElem.mp hl
    obtain ⟨h1, h2⟩ := hi.loc i _ (List.getElem?_eq_getElem hilt) b hbl
    rw [h1, hc] at h2
    subst h2
    exact hbl

theorem flatten_set_perm (tbl : List (List (Bin U))) (i : Nat) (l : List (Bin U)) (b : Bin U)
    (h : tbl[i]? = some l) :
    (tbl.set i (b :: l)).flatten.Perm (b :: tbl.flatten) := by
  have hlt : i < tbl.length := by
    rw [List.getElem?_eq_some_iff] at h; exact h.1
  have : tbl.set i (b :: l) = tbl.modify i (fun l => b :: l) := by
    rw [List.modify_eq_set]; simp [h]
  rw [this]; exact flatten_modify_perm tbl i b hlt

theorem mem_unique (cl : Client T U C) {s : HashSet U} (hi : Inv cl s) {b c : Bin U}
    (hb : b ∈ s.table.flatten) (hc : c ∈ s.table.flatten) (h : cl.ec b.elt = cl.ec c.elt) : b = c :=
  List.inj_on_of_nodup_map hi.nodup hb hc h

theorem insert_spec (cl : Client T U C) (s : HashSet U) (hi : Inv cl s) (t : T) (u : U)
    (hu : cl.ec u = cl.kc t) :
    (∃ b ∈ s.table.flatten, cl.ec b.elt = cl.kc t ∧
      insert cl.eq s (cl.h (cl.kc t)) t u = some (s, b.elt)) ∨
    ((∀ b ∈ s.table.flatten, cl.ec b.elt ≠ cl.kc t) ∧
      (s.entries + 1 = 1610612741 → insert cl.eq s (cl.h (cl.kc t)) t u = none) ∧
      (s.entries + 1 ≠ 1610612741 → ∃ s', insert cl.eq s (cl.h (cl.kc t)) t u = some (s', u) ∧ Inv cl s' ∧
        s'.table.flatten.Perm (⟨cl.h (cl.kc t), u⟩ :: s.table.flatten))) := by
  obtain ⟨bucket, hb, hsub, hall⟩ := find_bucket cl s hi t
  unfold insert
  rw [hb]
  simp only
  cases hf : bucket.find? (fun b => cl.eq t b.elt) with
  | some b =>
    left
    have hm := List.mem_of_find?_eq_some hf
    have hp := List.find?_some hf
    simp only [Client.eq, decide_eq_true_eq] at hp
    exact ⟨b, hsub b hm, hp.symm, rfl⟩
  | none =>
    right
    rw [List.find?_eq_none] at hf
    have habs : ∀ b ∈ s.table.flatten, cl.ec b.elt ≠ cl.kc t := by
      intro b hbm he
      have := hf b (hall b hbm he)
      simp [Client.eq, he] at this
    have hperm := flatten_set_perm s.table _ bucket ⟨cl.h (cl.kc t), u⟩ hb
    have hloc' : ∀ i bk, (s.table.set (cl.h (cl.kc t) % s.size) (⟨cl.h (cl.kc t), u⟩ :: bucket))[i]? = some bk →
        ∀ b ∈ bk, b.hash = cl.h (cl.ec b.elt) ∧ b.hash % s.size = i := by
      intro i bk hbk b hbb
      by_cases he : cl.h (cl.kc t) % s.size = i
      · subst he
        rw [List.getElem?_set_self (by rw [hi.len]; exact Nat.mod_lt _ (Nat.pos_of_ne_zero hi.pos))] at hbk
        simp only [Option.some.injEq] at hbk
        subst hbk
        rcases List.mem_cons.mp hbb with rfl | hbb
        · exact ⟨by simp [hu], rfl⟩
        · exact hi.loc _ bucket hb b hbb
      · rw [List.getElem?_set_ne he] at hbk
        exact hi.loc i bk hbk b hbb
    have hnd : ((s.table.set (cl.h (cl.kc t) % s.size)
        (⟨cl.h (cl.kc t), u⟩ :: bucket)).flatten.map (fun b => cl.ec b.elt)).Nodup := by
      rw [(hperm.map _).nodup_iff]
      simp only [List.map_cons, List.nodup_cons]
      refine ⟨?_, hi.nodup⟩
      rw [hu]
      intro hm
      obtain ⟨b, hb1, hb2⟩ := List.mem_map.mp hm
      exact habs b hb1 hb2
    refine ⟨habs, ?_, ?_⟩
    · intro hmax
      have hlt := hi.lt
      have hsz : s.size = 1610612741 := by
        have hp := hi.prime
        have h1 : s.entries = 1610612740 := by omega
        rw [h1] at hlt
        have : ∀ p ∈ primes, 1610612740 < p → p = 1610612741 := by decide
        exact this _ hp hlt
      simp only [hsz, resize, primes_last, hmax]
      simp
    · intro hne
      by_cases hge : s.entries + 1 ≥ s.size
      · simp only [hge, if_true]
        have hsz : s.size ≠ 1610612741 := by have := hi.lt; omega
        obtain ⟨q, hq, hnp, hlt, hq0⟩ := primes_next _ hi.prime hi.pos hsz
        simp only [resize, hnp, Option.map_some]
        obtain ⟨g1, g2, g3⟩ := foldl_push q hq0
          (s.table.set (cl.h (cl.kc t) % s.size) (⟨cl.h (cl.kc t), u⟩ :: bucket)).flatten
          (List.replicate q []) (by simp) (fun b => b.hash = cl.h (cl.ec b.elt)) (by
            intro b hbm
            obtain ⟨l, hl, hbl⟩ := List.mem_flatten.mp hbm
            obtain ⟨i, hilt, rfl⟩ := List.mem_iff_getElem.mp hl
            exact (hloc' i _ (List.getElem?_eq_getElem hilt) b hbl).1) (by
            intro i bk hbk b hbb
            rw [replicate_nil_getElem? hbk] at hbb
            simp at hbb)
        refine ⟨_, rfl, ?_, ?_⟩
        · constructor
          · exact g1
          · exact hq
          · exact hq0
          · show s.entries + 1 < q
            have := hi.lt; omega
          · show s.entries + 1 = _
            rw [g2.length_eq]; simp only [List.length_append, hperm.length_eq]; simp [hi.cnt]
          · exact g3
          · simp only
            rw [(g2.map _).nodup_iff]
            simpa using hnd
        · refine g2.trans ?_
          simpa using hperm
      · simp only [hge, if_false]
        refine ⟨_, rfl, ?_, hperm⟩
        constructor
        · simp [hi.len]
        · exact hi.prime
        · exact hi.pos
        · show s.entries + 1 < s.size; omega
        · show s.entries + 1 = _
          rw [hperm.length_eq]; simp [hi.cnt]
        · exact hloc'
        · exact hnd

theorem flatten_set_sublist_perm (tbl : List (List (Bin U))) (i : Nat) (l l' : List (Bin U)) (b : Bin U)
    (h : tbl[i]? = some l) (hp : l.Perm (b :: l')) :
    tbl.flatten.Perm (b :: (tbl.set i l').flatten) := by
  induction tbl generalizing i with
  | nil => simp at h
  | cons x xs ih =>
    cases i with
    | zero =>
      simp only [List.getElem?_cons_zero, Option.some.injEq] at h
      subst h
      simp only [List.set_cons_zero, List.flatten_cons]
      exact hp.append_right _
    | succ i =>
      simp only [List.getElem?_cons_succ] at h
      simp only [List.set_cons_succ, List.flatten_cons]
      exact ((ih i h).append_left x).trans List.perm_middle

theorem remove_spec (cl : Client T U C) (s : HashSet U) (hi : Inv cl s) (t : T) :
    (∃ b ∈ s.table.flatten, cl.ec b.elt = cl.kc t ∧ ∃ s',
      remove cl.eq s (cl.h (cl.kc t)) t = some (s', some b.elt) ∧ Inv cl s' ∧
      s.table.flatten.Perm (b :: s'.table.flatten)) ∨
    ((∀ b ∈ s.table.flatten, cl.ec b.elt ≠ cl.kc t) ∧
      remove cl.eq s (cl.h (cl.kc t)) t = some (s, none)) := by
  obtain ⟨bucket, hb, hsub, hall⟩ := find_bucket cl s hi t
  unfold remove
  rw [hb]
  simp only
  cases hf : bucket.find? (fun b => cl.eq t b.elt) with
  | some b =>
    left
    have hm := List.mem_of_find?_eq_some hf
    have hp := List.find?_some hf
    have hpe : cl.ec b.elt = cl.kc t := by
      simp only [Client.eq, decide_eq_true_eq] at hp; exact hp.symm
    refine ⟨b, hsub b hm, hpe, _, rfl, ?_⟩
    obtain ⟨a, l1, l2, _, ha, hl, her⟩ := List.exists_of_eraseP (p := fun b => cl.eq t b.elt) hm hp
    have hab : a = b := by
      have hae : cl.ec a.elt = cl.kc t := by
        simp only [Client.eq, decide_eq_true_eq] at ha; exact ha.symm
      exact mem_unique cl hi (hsub a (by rw [hl]; simp)) (hsub b hm) (by rw [hae, hpe])
    subst hab
    have hper : bucket.Perm (a :: bucket.eraseP (fun b => cl.eq t b.elt)) := by
      rw [her, hl]; exact List.perm_middle
    have hperm := flatten_set_sublist_perm s.table _ bucket _ a hb hper
    refine ⟨?_, hperm⟩
    constructor
    · simp [hi.len]
    · exact hi.prime
    · exact hi.pos
    · show s.entries - 1 < s.size
      have := hi.lt; omega
    · show s.entries - 1 = _
      have := hperm.length_eq
      rw [← hi.cnt, List.length_cons] at this
      exact Nat.sub_eq_of_eq_add this
    · intro i bk hbk c hc
      by_cases he : cl.h (cl.kc t) % s.size = i
      · subst he
        rw [List.getElem?_set_self (by rw [hi.len]; exact Nat.mod_lt _ (Nat.pos_of_ne_zero hi.pos))] at hbk
        simp only [Option.some.injEq] at hbk
        subst hbk
        exact hi.loc _ bucket hb c (List.mem_of_mem_eraseP hc)
      · rw [List.getElem?_set_ne he] at hbk
        exact hi.loc i bk hbk c hc
    · have := hi.nodup
      rw [(hperm.map _).nodup_iff] at this
      exact (List.nodup_cons.mp this).2
  | none =>
    right
    rw [List.find?_eq_none] at hf
    refine ⟨?_, rfl⟩
    intro b hbm he
    have := hf b (hall b hbm he)
    simp [Client.eq, he] at this

theorem find_spec (cl : Client T U C) (s : HashSet U) (hi : Inv cl s) (t : T) :
    (∃ b ∈ s.table.flatten, cl.ec b.elt = cl.kc t ∧
      find cl.eq s (cl.h (cl.kc t)) t = some (some b.elt)) ∨
    ((∀ b ∈ s.table.flatten, cl.ec b.elt ≠ cl.kc t) ∧
      find cl.eq s (cl.h (cl.kc t)) t = some none) := by
  obtain ⟨bucket, hb, hsub, hall⟩ := find_bucket cl s hi t
  unfold find
  rw [hb]
  simp only
  cases hf : bucket.find? (fun b => cl.eq t b.elt) with
  | some b =>
    left
    have hp := List.find?_some hf
    simp only [Client.eq, decide_eq_true_eq] at hp
    exact ⟨b, hsub b (List.mem_of_find?_eq_some hf), hp.symm, rfl⟩
  | none =>
    right
    rw [List.find?_eq_none] at hf
    refine ⟨?_, rfl⟩
    intro b hbm he
    have := hf b (hall b hbm he)
    simp [Client.eq, he] at this

theorem flatten_map_filter (tbl : List (List (Bin U))) (q : Bin U → Bool) :
    (tbl.map (fun l => l.filter q)).flatten = tbl.flatten.filter q := by
  induction tbl with
  | nil => rfl
  | cons x xs ih =>
    rw [List.map_cons, List.flatten_cons, List.flatten_cons, List.filter_append, ih]

theorem filter_spec (cl : Client T U C) (s : HashSet U) (hi : Inv cl s) (p : U → Bool) :
    Inv cl (s.filter p) ∧ (s.filter p).table.flatten = s.table.flatten.filter (fun b => p b.elt) := by
  have hfl : (s.filter p).table.flatten = s.table.flatten.filter (fun b => p b.elt) :=
    flatten_map_filter _ _
  refine ⟨?_, hfl⟩
  have hcnt : (s.filter p).entries = (s.filter p).table.flatten.length := by
    rw [hfl]
    show s.entries - _ = _
    rw [hi.cnt]
    have := List.length_eq_length_filter_add (l := s.table.flatten) (fun b => p b.elt)
    omega
  constructor
  · simp [HashSet.filter, hi.len]
  · exact hi.prime
  · exact hi.pos
  · show s.entries - _ < s.size
    have := hi.lt; omega
  · exact hcnt
  · intro i bk hbk b hb
    simp only [HashSet.filter, List.getElem?_map] at hbk
    cases ht : s.table[i]? with
    | none => rw [ht] at hbk; simp at hbk
    | some l =>
      rw [ht] at hbk
      simp only [Option.map_some, Option.some.injEq] at hbk
      subst hbk
      exact hi.loc i l ht b (List.mem_of_mem_filter hb)
  · rw [hfl]
    exact (List.filter_sublist.map _).nodup hi.nodup

end HashSet
end CP
