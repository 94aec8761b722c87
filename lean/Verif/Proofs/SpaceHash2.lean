import Verif.Proofs.SpaceHash

/-! # The invariant of a spatial hash between calls -/

namespace CP
open GoFloat
variable {F : Type} [GoFloat F]

namespace SHash

def cl (hash : Obj → Nat) : HashSet.Client Obj (Obj × HId) Obj := ⟨id, Prod.fst, hash⟩

theorem eqv_eq (hash : Obj → Nat) : (cl hash).eq = eqv := rfl

/-- The number of references to a handle: from bins and from the set. -/
def refOf (table : List (List HId)) (each : List (Obj × HId)) (h : HId) : Nat :=
  table.flatten.count h + (each.map Prod.snd).count h

theorem count_set {α : Type} [DecidableEq α] (tbl : List (List α)) (k : Nat) (b b' : List α) (hk : tbl[k]? = some b) (x : α) :
    (tbl.set k b').flatten.count x + b.count x = tbl.flatten.count x + b'.count x := by
  induction tbl generalizing k with
  | nil => simp at hk
  | cons a t ih =>
    cases k with
    | zero =>
      simp only [List.getElem?_cons_zero, Option.some.injEq] at hk
      subst hk
      simp only [List.set_cons_zero, List.flatten_cons, List.count_append]
      omega
    | succ k =>
      simp only [List.getElem?_cons_succ] at hk
      have := ih k hk
      simp only [List.set_cons_succ, List.flatten_cons, List.count_append]
      omega

theorem count_bin {α : Type} [DecidableEq α] (tbl : List (List α)) (k : Nat) (b : List α) (hk : tbl[k]? = some b) (x : α) :
    b.count x ≤ tbl.flatten.count x := by
  have := count_set tbl k b [] hk x
  simp at this
  omega

/-- `own o` is the set of bins with the handle of the indexed shape `o`. -/
structure Core (hash : Obj → Nat) (s : SHash F) (own : Obj → Option (Nat → Prop)) : Prop where
  pos : 0 < s.numCells
  len : s.table.length = s.numCells
  set : HashSet.Inv (cl hash) s.set
  live : ∀ e ∈ s.set.each, (s.hd e.2).obj = some e.1
  mem : Mem s (refOf s.table s.set.each)
  idx : ∀ o, own o ≠ none ↔ ∃ h, (o, h) ∈ s.set.each
  cells : ∀ o h K, (o, h) ∈ s.set.each → own o = some K → ∀ k bin, s.table[k]? = some bin → (h ∈ bin ↔ K k)
  bins : ∀ bin ∈ s.table, ∀ h ∈ bin, (s.hd h).obj = none ∨ ∃ o, (o, h) ∈ s.set.each
  nd : ∀ bin ∈ s.table, bin.Nodup

theorem each_nodup {hash : Obj → Nat} {set : HashSet (Obj × HId)} (i : HashSet.Inv (cl hash) set) : (set.each.map Prod.fst).Nodup := by
  have := i.nodup
  unfold HashSet.each
  rw [List.map_map]
  exact this

theorem each_inj {hash : Obj → Nat} {set : HashSet (Obj × HId)} (i : HashSet.Inv (cl hash) set) {o : Obj} {h h' : HId}
    (a : (o, h) ∈ set.each) (b : (o, h') ∈ set.each) : h = h' := by
  have := List.inj_on_of_nodup_map (each_nodup i) a b rfl
  exact (Prod.mk.inj this).2

namespace Core
variable {hash : Obj → Nat} {s : SHash F} {own : Obj → Option (Nat → Prop)}

theorem obj_inj (c : Core hash s own) {o o' : Obj} {h : HId} (a : (o, h) ∈ s.set.each) (b : (o', h) ∈ s.set.each) : o = o' := by
  have h1 := c.live _ a
  have h2 := c.live _ b
  simp only at h1 h2
  rw [h1] at h2
  exact Option.some.inj h2

theorem bin (c : Core hash s own) {k : Nat} (hk : k < s.numCells) : ∃ bin, s.table[k]? = some bin :=
  ⟨_, List.getElem?_eq_getElem (by rw [c.len]; exact hk)⟩

theorem handle (c : Core hash s own) {o : Obj} {K : Nat → Prop} (ho : own o = some K) : ∃ h, (o, h) ∈ s.set.each :=
  (c.idx o).1 (by rw [ho]; simp)

theorem congr {own' : Obj → Option (Nat → Prop)} (c : Core hash s own)
    (h1 : ∀ o, own' o = none ↔ own o = none)
    (h2 : ∀ o K K', own o = some K → own' o = some K' → ∀ k < s.numCells, (K k ↔ K' k)) : Core hash s own' := by
  refine ⟨c.pos, c.len, c.set, c.live, c.mem, fun o => ?_, fun o h K' ho hK' k bin hb => ?_, c.bins, c.nd⟩
  · rw [← c.idx o]; exact not_congr (h1 o)
  · cases hK : own o with
    | none => rw [(h1 o).2 hK] at hK'; cases hK'
    | some K =>
      have hlt : k < s.numCells := by rw [← c.len]; exact (List.getElem?_eq_some_iff.1 hb).1
      rw [c.cells o h K ho hK k bin hb]
      exact h2 o K K' hK hK' k hlt

end Core

theorem cells_lt (s : SHash F) (hp : 0 < s.numCells) (bb : BB F) : ∀ k ∈ s.cells bb, k < s.numCells := by
  intro k hk
  simp only [cells, List.mem_map] at hk
  obtain ⟨c, -, rfl⟩ := hk
  exact Nat.mod_lt _ hp

/-- What no call changes. -/
structure Dim (s s' : SHash F) : Prop where
  num : s'.numCells = s.numCells
  dim : s'.celldim = s.celldim

theorem Dim.refl (s : SHash F) : Dim s s := ⟨rfl, rfl⟩
theorem Dim.trans {a b c : SHash F} (h : Dim a b) (g : Dim b c) : Dim a c := ⟨g.num.trans h.num, g.dim.trans h.dim⟩
theorem Dim.cells {s s' : SHash F} (h : Dim s s') (bb : BB F) : s'.cells bb = s.cells bb := by
  simp only [SHash.cells, h.num, h.dim]

theorem mem_set_bin {tbl : List (List HId)} {k : Nat} {b : List HId} {x : List HId} (h : x ∈ tbl.set k b) : x ∈ tbl ∨ x = b :=
  List.mem_or_eq_of_mem_set h

/-- Putting a live handle into a bin. -/
theorem Core.push {hash : Obj → Nat} {s s' : SHash F} {own : Obj → Option (Nat → Prop)} (c : Core hash s own)
    {o : Obj} {h : HId} {K : Nat → Prop} (ho : (o, h) ∈ s.set.each) (hK : own o = some K)
    {k : Nat} {bin bin' : List HId} (hb : s.table[k]? = some bin) (hn : h ∉ bin)
    (hsub : bin'.Sublist bin) (hkeep : ∀ x ∈ bin, (s.hd x).obj ≠ none → x ∈ bin')
    (hnum : s'.numCells = s.numCells) (hset : s'.set = s.set) (hobj : ∀ x, (s'.hd x).obj = (s.hd x).obj)
    (htab : s'.table = s.table.set k (h :: bin')) (hmem : Mem s' (refOf s'.table s.set.each)) :
    Core hash s' (fun x => if x = o then some (fun i => K i ∨ i = k) else own x) := by
  have hbm : bin ∈ s.table := List.mem_of_getElem? hb
  refine ⟨by rw [hnum]; exact c.pos, by rw [htab, List.length_set, hnum, c.len], by rw [hset]; exact c.set,
    fun e he => by rw [hset] at he; rw [hobj]; exact c.live e he, by rw [hset]; exact hmem, fun x => ?_,
    fun x g K' hx hK' i b hib => ?_, fun b hb' x hx => ?_, fun b hb' => ?_⟩
  · rw [hset, ← c.idx x]
    split
    · next e => subst e; rw [hK]; simp
    · rfl
  · rw [hset] at hx
    rw [htab, List.getElem?_set] at hib
    split at hib
    · next e =>
      subst e
      split at hib
      · simp only [Option.some.injEq] at hib
        subst hib
        have hiff : g ∈ bin' ↔ g ∈ bin := ⟨fun q => hsub.subset q, fun q => hkeep g q (by rw [c.live _ hx]; simp)⟩
        rw [List.mem_cons, hiff]
        split at hK'
        · next e =>
          subst e
          simp only [Option.some.injEq] at hK'
          subst hK'
          have hg := each_inj c.set hx ho
          subst hg
          simp
        · next e =>
          rw [← c.cells x g K' hx hK' k bin hb]
          refine ⟨fun q => q.resolve_left fun q => e ?_, Or.inr⟩
          subst q
          exact c.obj_inj hx ho
      · cases hib
    · next e =>
      split at hK'
      · next e' =>
        subst e'
        simp only [Option.some.injEq] at hK'
        subst hK'
        rw [c.cells x g K hx hK i b hib]
        exact ⟨Or.inl, fun q => q.resolve_right (fun q => e q.symm)⟩
      · exact c.cells x g K' hx hK' i b hib
  · rw [htab] at hb'
    rw [hset, hobj]
    rcases mem_set_bin hb' with hb' | rfl
    · exact c.bins b hb' x hx
    · rcases List.mem_cons.1 hx with rfl | hx
      · exact Or.inr ⟨o, ho⟩
      · exact c.bins bin hbm x (hsub.subset hx)
  · rw [htab] at hb'
    rcases mem_set_bin hb' with hb' | rfl
    · exact c.nd b hb'
    · exact List.nodup_cons.2 ⟨fun q => hn (hsub.subset q), (c.nd bin hbm).sublist hsub⟩

theorem ref_live {each : List (Obj × HId)} {table : List (List HId)} {o : Obj} {h : HId} (ho : (o, h) ∈ each) :
    0 < refOf table each h := by
  have : 0 < (each.map Prod.snd).count h := List.count_pos_iff.2 (List.mem_map.2 ⟨_, ho, rfl⟩)
  unfold refOf
  omega

theorem Mem.congr {s : SHash F} {ref ref' : HId → Nat} (m : Mem s ref) (h : ∀ x, ref x = ref' x) : Mem s ref' := by
  have : ref = ref' := funext h
  exact this ▸ m

theorem Mem.ofTable {s s' : SHash F} {ref : HId → Nat} (m : Mem s ref) (h1 : s'.hd = s.hd) (h2 : s'.pool = s.pool) (h3 : s'.next = s.next) :
    Mem s' ref :=
  ⟨by rw [h1]; exact m.refs, by rw [h2]; exact m.zero, by rw [h2]; exact m.nd, by rw [h2, h3]; exact m.lt, by rw [h3]; exact m.fresh⟩

theorem hashCell_spec {hash : Obj → Nat} {s : SHash F} {own : Obj → Option (Nat → Prop)} (c : Core hash s own)
    {o : Obj} {h : HId} {K : Nat → Prop} (ho : (o, h) ∈ s.set.each) (hK : own o = some K) {k : Nat} (hk : k < s.numCells) :
    ∃ s', hashCell h s k = some s' ∧ Core hash s' (fun x => if x = o then some (fun i => K i ∨ i = k) else own x) ∧
      Dim s s' ∧ s'.set = s.set ∧ s'.stamp = s.stamp ∧ ∀ x, (s'.hd x).stamp = (s.hd x).stamp := by
  obtain ⟨bin, hb⟩ := c.bin hk
  unfold hashCell
  rw [hb]
  simp only
  by_cases hc : bin.contains h = true
  · rw [if_pos hc]
    refine ⟨s, rfl, c.congr (fun x => ?_) (fun x K1 K2 h1 h2 i hi => ?_), Dim.refl s, rfl, rfl, fun _ => rfl⟩
    · split
      · next e => subst e; rw [hK]; simp
      · rfl
    · split at h2
      · next e =>
        subst e
        rw [hK] at h1
        simp only [Option.some.injEq] at h1 h2
        subst h1 h2
        refine ⟨Or.inl, fun q => q.elim id fun q => ?_⟩
        subst q
        exact (c.cells x h K ho hK i bin hb).1 (by simpa using hc)
      · rw [h1] at h2; cases h2; rfl
  · rw [if_neg hc]
    have hn : h ∉ bin := by simpa using hc
    refine ⟨_, rfl, c.push ho hK hb hn (List.Sublist.refl bin) (fun x hx _ => hx) rfl rfl (fun x => (retain_same s h).obj x) rfl ?_,
      ⟨rfl, rfl⟩, rfl, rfl, fun x => (retain_same s h).mark x⟩
    refine ((retain_mem c.mem (ref_live ho)).congr (fun x => ?_)).ofTable (s' := { s.retain h with table := s.table.set k (h :: bin) }) rfl rfl rfl
    have := count_set s.table k bin (h :: bin) hb x
    simp only [refOf]
    rw [List.count_cons] at this
    by_cases e : x = h
    · subst e; simp at this ⊢; omega
    · rw [if_neg e]; simp [Ne.symm e] at this; omega

theorem hashCells_spec {hash : Obj → Nat} {o : Obj} {h : HId} (ks : List Nat) :
    ∀ {s : SHash F} {own : Obj → Option (Nat → Prop)}, Core hash s own → ∀ {K : Nat → Prop}, (o, h) ∈ s.set.each → own o = some K →
      (∀ k ∈ ks, k < s.numCells) →
    ∃ s', ks.foldlM (hashCell h) s = some s' ∧ Core hash s' (fun x => if x = o then some (fun i => K i ∨ i ∈ ks) else own x) ∧
      Dim s s' ∧ s'.set = s.set ∧ s'.stamp = s.stamp ∧ ∀ x, (s'.hd x).stamp = (s.hd x).stamp := by
  induction ks with
  | nil =>
    intro s own c K ho hK _
    refine ⟨s, rfl, ?_, Dim.refl s, rfl, rfl, fun _ => rfl⟩
    convert c using 2 with x
    split
    · next e => subst e; rw [hK]; simp
    · rfl
  | cons k t ih =>
    intro s own c K ho hK hks
    obtain ⟨s1, e1, c1, d1, t1, m1, n1⟩ := hashCell_spec c ho hK (hks k (by simp))
    obtain ⟨s2, e2, c2, d2, t2, m2, n2⟩ := ih c1 (by rw [t1]; exact ho) (if_pos rfl) (fun i hi => by rw [d1.num]; exact hks i (by simp [hi]))
    refine ⟨s2, by rw [List.foldlM_cons, e1]; exact e2, ?_, d1.trans d2, t2.trans t1, m2.trans m1, fun x => (n2 x).trans (n1 x)⟩
    convert c2 using 2 with x
    by_cases e : x = o
    · simp only [if_pos e, List.mem_cons, or_assoc]
    · simp only [if_neg e]

theorem hashHandle_spec {hash : Obj → Nat} {s : SHash F} {own : Obj → Option (Nat → Prop)} (c : Core hash s own)
    {o : Obj} {h : HId} {K : Nat → Prop} (ho : (o, h) ∈ s.set.each) (hK : own o = some K) (bb : BB F) :
    ∃ s', s.hashHandle h bb = some s' ∧ Core hash s' (fun x => if x = o then some (fun i => K i ∨ i ∈ s.cells bb) else own x) ∧
      Dim s s' ∧ s'.set = s.set ∧ s'.stamp = s.stamp ∧ ∀ x, (s'.hd x).stamp = (s.hd x).stamp :=
  hashCells_spec (s.cells bb) c ho hK (cells_lt s c.pos bb)

/-! ### Insert, Remove, ReindexObject -/

theorem perm_each {a b : HashSet (Obj × HId)} {n : Nat} {e : Obj × HId} (h : a.table.flatten.Perm (⟨n, e⟩ :: b.table.flatten)) :
    a.each.Perm (e :: b.each) := by
  have := h.map Bin.elt
  simpa [HashSet.each] using this

/-- The state of an index between calls. -/
structure SInv (hash : Obj → Nat) (s : SHash F) (own : Obj → Option (Nat → Prop)) : Prop extends Core hash s own where
  marks : ∀ h, (s.hd h).stamp < s.stamp

theorem insert_spec {hash : Obj → Nat} {s : SHash F} {own : Obj → Option (Nat → Prop)} (c : SInv hash s own)
    {o : Obj} (ho : own o = none) (bb : BB F) (pick : Nat) :
    (s.set.entries + 1 = 1610612741 → s.insert hash o bb pick = none) ∧
    (s.set.entries + 1 ≠ 1610612741 → ∃ s', s.insert hash o bb pick = some s' ∧
      SInv hash s' (fun x => if x = o then some (· ∈ s.cells bb) else own x) ∧ Dim s s' ∧ ∃ h, s'.set.each.Perm ((o, h) :: s.set.each)) := by
  have habs : ∀ h, (o, h) ∉ s.set.each := fun h hh => (c.idx o).2 ⟨h, hh⟩ ho
  have habs' : ∀ b ∈ s.set.table.flatten, (cl hash).ec b.elt ≠ (cl hash).kc o := by
    intro b hb e
    refine habs b.elt.2 ?_
    have : (b.elt.1, b.elt.2) ∈ s.set.each := List.mem_map.2 ⟨b, hb, rfl⟩
    have e' : b.elt.1 = o := e
    rw [e'] at this
    exact this
  have hf : HashSet.find eqv s.set (hash o) o = some none := by
    rcases HashSet.find_spec (cl hash) s.set c.set o with ⟨b, hb, e, -⟩ | ⟨-, e⟩
    · exact absurd e (habs' b hb)
    · exact e
  unfold insert
  simp only [hf]
  have gsp := getHandle_spec c.mem pick
  generalize s.getHandle pick = r at gsp ⊢
  obtain ⟨h, s1⟩ := r
  obtain ⟨gT, gh, gm, g0, gp, glt⟩ := gsp
  simp only at gT gh gm g0 gp glt ⊢
  rcases HashSet.insert_spec (cl hash) s.set c.set o (o, h) rfl with ⟨b, hb, e, -⟩ | ⟨-, hfull, hroom⟩
  · exact absurd e (habs' b hb)
  constructor
  · intro hl
    have : HashSet.insert eqv s.set (hash o) o (o, h) = none := hfull hl
    rw [this]
  · intro hl
    obtain ⟨set', he, hi, hp⟩ := hroom hl
    have he' : HashSet.insert eqv s.set (hash o) o (o, h) = some (set', (o, h)) := he
    rw [he']
    simp only
    have hpe := perm_each hp
    obtain ⟨s2, hs2⟩ : ∃ s2, s2 = { (s1.setHd h ⟨some o, 0, 0⟩).retain h with set := set' } := ⟨_, rfl⟩
    rw [← hs2]
    have hd2 : ∀ x, s2.hd x = if x = h then ⟨some o, 1, 0⟩ else s.hd x := by
      intro x
      rw [hs2]
      simp only [retain, setHd_hd, gh]
      by_cases e : x = h
      · simp [e]
      · simp [e]
    have hnb : ∀ bin ∈ s.table, h ∉ bin := by
      intro bin hb hx
      have h1 : 0 < s.table.flatten.count h := List.count_pos_iff.2 (List.mem_flatten.2 ⟨bin, hb, hx⟩)
      unfold refOf at g0
      omega
    have hne : ∀ x, (x, h) ∉ s.set.each := by
      intro x hx
      have h1 : 0 < (s.set.each.map Prod.snd).count h := List.count_pos_iff.2 (List.mem_map.2 ⟨_, hx, rfl⟩)
      unfold refOf at g0
      omega
    have t2 : s2.table = s.table := by rw [hs2]; exact gT.table
    have n2 : s2.numCells = s.numCells := by rw [hs2]; exact gT.num
    have dm2 : s2.celldim = s.celldim := by rw [hs2]; exact gT.dim
    have st2 : s2.stamp = s.stamp := by rw [hs2]; exact gT.stamp
    have set2 : s2.set = set' := by rw [hs2]
    have c2 : Core hash s2 (fun x => if x = o then some (fun _ => False) else own x) := by
      refine ⟨by rw [n2]; exact c.pos, by rw [t2, n2]; exact c.len, by rw [set2]; exact hi, fun e hm => ?_, ?_, fun x => ?_,
        fun x g K hx hK k bin hb => ?_, fun bin hb x hx => ?_, by rw [t2]; exact c.nd⟩
      · rw [set2] at hm
        rw [hd2]
        rcases List.mem_cons.1 (hpe.mem_iff.1 hm) with rfl | hm
        · simp
        · rw [if_neg (fun q => hne e.1 (by rw [← q]; exact hm))]; exact c.live e hm
      · have hp2 : s2.pool = s1.pool := by rw [hs2]; rfl
        have hn2 : s2.next = s1.next := by rw [hs2]; rfl
        have hc' : ∀ x, refOf s2.table s2.set.each x = refOf s.table s.set.each x + if x = h then 1 else 0 := by
          intro x
          rw [t2, set2]
          unfold refOf
          rw [(hpe.map Prod.snd).count_eq, List.map_cons, List.count_cons]
          by_cases e : x = h
          · subst e; simp; omega
          · simp [e, Ne.symm e]
        refine ⟨fun x => ?_, fun x hx => ?_, by rw [hp2]; exact gm.nd, by rw [hp2, hn2]; exact gm.lt, fun x hx => ?_⟩
        · rw [hc', hd2]
          by_cases e : x = h
          · subst e; rw [g0]; simp
          · simp only [if_neg e, Nat.add_zero]; exact c.mem.refs x
        · rw [hp2] at hx
          rw [hc', if_neg (by rintro rfl; exact gp hx)]
          exact gm.zero x hx
        · rw [hn2] at hx
          rw [hc', if_neg (by rintro rfl; exact Nat.lt_irrefl _ (Nat.lt_of_lt_of_le glt hx))]
          exact gm.fresh x hx
      · rw [set2]
        by_cases e : x = o
        · subst e
          simp only [if_true]
          exact ⟨fun _ => ⟨h, hpe.mem_iff.2 (by simp)⟩, fun _ => by simp⟩
        · rw [if_neg e, c.idx x]
          refine exists_congr fun g => ?_
          rw [hpe.mem_iff, List.mem_cons]
          exact ⟨Or.inr, fun q => q.resolve_left fun q => e (Prod.mk.inj q).1⟩
      · rw [set2] at hx
        rw [t2] at hb
        rcases List.mem_cons.1 (hpe.mem_iff.1 hx) with q | hx'
        · obtain ⟨rfl, rfl⟩ := Prod.mk.inj q
          rw [if_pos rfl, Option.some.injEq] at hK
          subst hK
          exact ⟨fun q => hnb bin (List.mem_of_getElem? hb) q, False.elim⟩
        · rw [if_neg (by rintro rfl; exact habs g hx')] at hK
          exact c.cells x g K hx' hK k bin hb
      · rw [t2] at hb
        rw [hd2, if_neg (by rintro rfl; exact hnb bin hb hx), set2]
        refine (c.bins bin hb x hx).imp id fun ⟨y, hy⟩ => ⟨y, hpe.mem_iff.2 (by simp [hy])⟩
    obtain ⟨s3, e3, c3, d3, t3, m3, k3⟩ := hashHandle_spec c2 (o := o) (h := h) (K := fun _ => False)
      (by rw [set2]; exact hpe.mem_iff.2 (by simp)) (if_pos rfl) bb
    refine ⟨s3, e3, ⟨?_, fun x => ?_⟩, ⟨d3.num.trans n2, d3.dim.trans dm2⟩, h, by rw [t3, set2]; exact hpe⟩
    · convert c3 using 2 with x
      by_cases e : x = o
      · simp only [if_pos e, false_or]
        rw [show s2.cells bb = s.cells bb from by simp only [SHash.cells, n2, dm2]]
      · simp only [if_neg e]
    · rw [k3, m3, hd2, st2]
      split
      · exact Nat.lt_of_le_of_lt (Nat.zero_le _) (c.marks 0)
      · exact c.marks x

theorem remove_absent {hash : Obj → Nat} {s : SHash F} {own : Obj → Option (Nat → Prop)} (c : SInv hash s own)
    {o : Obj} (ho : own o = none) : HashSet.remove eqv s.set (hash o) o = some (s.set, none) := by
  rcases HashSet.remove_spec (cl hash) s.set c.set o with ⟨b, hb, e, -⟩ | ⟨-, e⟩
  · exfalso
    refine (c.idx o).2 ⟨b.elt.2, ?_⟩ ho
    have : (b.elt.1, b.elt.2) ∈ s.set.each := List.mem_map.2 ⟨b, hb, rfl⟩
    have e' : b.elt.1 = o := e
    rw [e'] at this
    exact this
  · exact e

theorem remove_present {hash : Obj → Nat} {s : SHash F} {own : Obj → Option (Nat → Prop)} (c : SInv hash s own)
    {o : Obj} (ho : own o ≠ none) :
    ∃ set h, HashSet.remove eqv s.set (hash o) o = some (set, some (o, h)) ∧
      SInv hash ({ s with set := set }.orphan h) (fun x => if x = o then none else own x) ∧ Dim s ({ s with set := set }.orphan h) ∧
      s.set.each.Perm ((o, h) :: set.each) := by
  rcases HashSet.remove_spec (cl hash) s.set c.set o with ⟨b, hb, e, set, hr, hi, hp⟩ | ⟨hn, -⟩
  · have e' : b.elt.1 = o := e
    obtain ⟨h, hh⟩ : ∃ h, h = b.elt.2 := ⟨_, rfl⟩
    have hbe : b.elt = (o, h) := by rw [← e', hh]
    have hp' : s.set.table.flatten.Perm (⟨b.hash, (o, h)⟩ :: set.table.flatten) := by rw [← hbe]; exact hp
    have hpe := perm_each hp'
    refine ⟨set, h, by rw [← hbe]; exact hr, ?_, ?_, hpe⟩
    · have hmo : (o, h) ∈ s.set.each := hpe.mem_iff.2 (by simp)
      have hne : ∀ x, (x, h) ∉ set.each := by
        intro x hx
        have hx' : (x, h) ∈ s.set.each := hpe.mem_iff.2 (by simp [hx])
        have hxo := c.obj_inj hx' hmo
        subst hxo
        have nd := each_nodup c.set
        rw [(hpe.map Prod.fst).nodup_iff, List.map_cons, List.nodup_cons] at nd
        exact nd.1 (List.mem_map.2 ⟨_, hx, rfl⟩)
      obtain ⟨s1, hs1⟩ : ∃ s1 : SHash F, s1 = { s with set := set }.setHd h { s.hd h with obj := none } := ⟨_, rfl⟩
      have ho1 : ({ s with set := set } : SHash F).orphan h = s1.release h := by rw [hs1]; rfl
      have hd1 : ∀ x, s1.hd x = if x = h then { s.hd h with obj := none } else s.hd x := fun x => by rw [hs1]; rfl
      have m1 : Mem s1 (refOf s.table s.set.each) := by
        refine ⟨fun x => ?_, ?_, ?_, ?_, ?_⟩
        · rw [hd1]
          split
          · next e => subst e; exact c.mem.refs x
          · exact c.mem.refs x
        all_goals rw [hs1]
        · exact c.mem.zero
        · exact c.mem.nd
        · exact c.mem.lt
        · exact c.mem.fresh
      have m2 := release_mem m1 (ref_live hmo)
      have so := release_same s1 h
      have t1 : s1.table = s.table := by rw [hs1]; rfl
      have n1 : s1.numCells = s.numCells := by rw [hs1]; rfl
      have e1 : s1.set = set := by rw [hs1]; rfl
      have k1 : s1.stamp = s.stamp := by rw [hs1]; rfl
      rw [ho1]
      refine ⟨⟨by rw [so.num, n1]; exact c.pos, by rw [so.table, so.num, t1, n1]; exact c.len, by rw [so.set, e1]; exact hi, fun e he => ?_, ?_,
        fun x => ?_, fun x g K hx hK k bin hb => ?_, fun bin hb x hx => ?_, by rw [so.table, t1]; exact c.nd⟩, fun x => ?_⟩
      · rw [so.set, e1] at he
        rw [so.obj, hd1, if_neg (fun q => hne e.1 (by rw [← q]; exact he))]
        exact c.live e (hpe.mem_iff.2 (by simp [he]))
      · refine m2.congr fun x => ?_
        rw [so.table, so.set, e1, t1]
        simp only [refOf]
        rw [(hpe.map Prod.snd).count_eq, List.map_cons, List.count_cons]
        by_cases e : x = h
        · subst e; simp
        · simp [e, Ne.symm e]
      · rw [so.set, e1]
        by_cases e : x = o
        · subst e
          simp only [if_true, ne_eq, not_true_eq_false, false_iff]
          rintro ⟨g, hg⟩
          have := each_inj c.set hmo (hpe.mem_iff.2 (List.mem_cons_of_mem _ hg))
          subst this
          exact hne _ hg
        · rw [if_neg e, c.idx x]
          refine exists_congr fun g => ?_
          rw [hpe.mem_iff, List.mem_cons]
          exact ⟨fun q => q.resolve_left fun q => e (Prod.mk.inj q).1, Or.inr⟩
      · rw [so.set, e1] at hx
        rw [so.table, t1] at hb
        split at hK
        · cases hK
        · exact c.cells x g K (hpe.mem_iff.2 (by simp [hx])) hK k bin hb
      · rw [so.table, t1] at hb
        rw [so.set, e1, so.obj, hd1]
        split
        · exact Or.inl rfl
        · next e =>
          refine (c.bins bin hb x hx).imp id fun ⟨y, hy⟩ => ⟨y, ?_⟩
          exact (List.mem_cons.1 (hpe.mem_iff.1 hy)).resolve_left fun q => e (Prod.mk.inj q).2
      · rw [so.mark, so.stamp, k1, hd1]
        split
        · exact c.marks h
        · exact c.marks x
    · have so := release_same ({ s with set := set }.setHd h { s.hd h with obj := none } : SHash F) h
      exact ⟨so.num, so.dim⟩
  · exfalso
    obtain ⟨h, hh⟩ := (c.idx o).1 ho
    obtain ⟨b, hb, e⟩ := List.mem_map.1 hh
    exact hn b hb (by change b.elt.1 = o; rw [e])

/-! ### clearTable -/

theorem clearTable_spec {hash : Obj → Nat} {s : SHash F} {own : Obj → Option (Nat → Prop)} (c : SInv hash s own) :
    SInv hash s.clearTable (fun x => (own x).map fun _ _ => False) ∧ Dim s s.clearTable ∧ s.clearTable.set = s.set ∧
      ∀ bin ∈ s.clearTable.table, bin = [] := by
  obtain ⟨so, m⟩ := releases s.table.flatten c.mem (fun x => by unfold refOf; omega)
  have hem : ∀ bin ∈ s.clearTable.table, bin = [] := by
    intro bin hb
    simp only [clearTable, List.mem_map] at hb
    obtain ⟨_, -, rfl⟩ := hb
    rfl
  have hnum : s.clearTable.numCells = s.numCells := so.num
  have hset : s.clearTable.set = s.set := so.set
  have hobj : ∀ x, (s.clearTable.hd x).obj = (s.hd x).obj := so.obj
  refine ⟨⟨⟨by rw [hnum]; exact c.pos, by rw [hnum]; simp [clearTable, c.len], by rw [hset]; exact c.set,
    fun e he => by rw [hset] at he; rw [hobj]; exact c.live e he, ?_, fun x => ?_, fun x g K hx hK k bin hb => ?_,
    fun bin hb x hx => ?_, fun bin hb => ?_⟩, fun x => ?_⟩, ⟨hnum, so.dim⟩, hset, hem⟩
  · refine (m.congr fun x => ?_).ofTable (s' := s.clearTable) rfl rfl rfl
    rw [hset]
    have : s.clearTable.table.flatten = [] := by
      rw [List.flatten_eq_nil_iff]; exact hem
    unfold refOf
    rw [this]
    simp
  · rw [hset, ← c.idx x]
    simp
  · have hb0 := hem bin (List.mem_of_getElem? hb)
    subst hb0
    cases ho : own x with
    | none => rw [ho] at hK; cases hK
    | some K' =>
      rw [ho, Option.map_some, Option.some.injEq] at hK
      subst hK
      simp
  · rw [hem bin hb] at hx; cases hx
  · rw [hem bin hb]; exact List.nodup_nil
  · have h1 : (s.clearTable.hd x).stamp = (s.hd x).stamp := so.mark x
    have h2 : s.clearTable.stamp = s.stamp := so.stamp
    rw [h1, h2]
    exact c.marks x

end SHash
end CP
