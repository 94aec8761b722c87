import Verif.Proofs.SpaceProc
import Verif.Spec.Graph

/-! # Flood fill of the contact graph -/

namespace CP
variable {F : Type}
namespace Sp

/-- `N b` are the bodies at the other ends of the arbiters and constraints of `b`, in the order in which they are
visited. -/
def Graph (s : Sp F) (N : Nat → List Nat) : Prop := ∀ b, ∃ l cl, s.arbList b = some l ∧ s.conList b = some cl ∧
  N b = l.map (s.otherBody b) ++ cl.map (s.otherCon b)

/-- What holds all through a flood fill with root `r`: `K` are the bodies it may reach, `D` the dynamic ones. -/
structure FI (nb : Nat) (D K : Nat → Prop) (N : Nat → List Nat) (r : Nat) (s : Sp F) : Prop where
  nBodies : s.nBodies = nb
  typ : ∀ b, s.typ b = .dynamic ↔ D b
  graph : Graph s N
  cls : ∀ b, K b → (s.bodies b).root = none ∨ (s.bodies b).root = some r
  chain : ∃ l, IsChain (fun b => (s.bodies b).next) (some r) l ∧ ∀ b, b ∈ l ↔ (s.bodies b).root = some r
  rootless : ∀ b, (s.bodies b).root = none → (s.bodies b).next = none

/-- The number of bodies without a component. -/
def cnt (s : Sp F) : Nat := (List.range s.nBodies).countP fun b => (s.bodies b).root.isNone

/-- What a flood fill that starts at the bodies `src` changes. -/
structure Flood (D K : Nat → Prop) (N : Nat → List Nat) (r : Nat) (src : Nat → Prop) (s t : Sp F) : Prop where
  eq : t = { s with bodies := t.bodies }
  body : ∀ b, t.bodies b = { s.bodies b with root := (t.bodies b).root, next := (t.bodies b).next }
  mono : ∀ b, (t.bodies b).root = (s.bodies b).root ∨ ((s.bodies b).root = none ∧ (t.bodies b).root = some r ∧ K b)
  next : ∀ b, (t.bodies b).root ≠ some r → (t.bodies b).next = (s.bodies b).next
  closed : ∀ b, (s.bodies b).root = none → (t.bodies b).root = some r → ∀ c ∈ N b, D c → (t.bodies c).root = some r
  reach : ∀ b, (s.bodies b).root = none → (t.bodies b).root = some r →
    ∃ p, src p ∧ D p ∧ Relation.ReflTransGen (fun p q => D p ∧ D q ∧ q ∈ N p) p b

variable {D K : Nat → Prop} {N : Nat → List Nat} {r nb : Nat}

theorem Flood.refl (src : Nat → Prop) (s : Sp F) : Flood D K N r src s s :=
  ⟨rfl, fun _ => rfl, fun _ => .inl rfl, fun _ _ => rfl, fun b h1 h2 => by simp [h1] at h2, fun b h1 h2 => by simp [h1] at h2⟩

theorem Flood.keepRoot {src : Nat → Prop} {s t : Sp F} (h : Flood D K N r src s t) {b q : Nat}
    (e : (s.bodies b).root = some q) : (t.bodies b).root = some q := by
  rcases h.mono b with k | ⟨k, -⟩
  · rw [k]; exact e
  · rw [k] at e; simp at e

theorem Flood.trans {src src' : Nat → Prop} {s t u : Sp F} (h : Flood D K N r src s t) (k : Flood D K N r src' t u) :
    Flood D K N r (fun b => src b ∨ src' b) s u where
  eq := by
    have e1 := k.eq
    have e2 := h.eq
    rw [e2] at e1
    exact e1
  body b := by
    have e1 := k.body b
    rw [h.body b] at e1
    exact e1
  mono b := by
    rcases h.mono b with e | ⟨e1, e2, e3⟩
    · rw [← e]; exact k.mono b
    · exact .inr ⟨e1, k.keepRoot e2, e3⟩
  next b hb := by
    rw [k.next b hb]
    refine h.next b fun e => hb (k.keepRoot e)
  closed b e1 e2 c hc hd := by
    by_cases q : (t.bodies b).root = some r
    · exact k.keepRoot (h.closed b e1 q c hc hd)
    · rcases h.mono b with e | ⟨-, e, -⟩
      · exact k.closed b (e.trans e1) e2 c hc hd
      · exact absurd e q
  reach b e1 e2 := by
    by_cases q : (t.bodies b).root = some r
    · obtain ⟨p, a, c⟩ := h.reach b e1 q; exact ⟨p, .inl a, c⟩
    · rcases h.mono b with e | ⟨-, e, -⟩
      · obtain ⟨p, a, c⟩ := k.reach b (e.trans e1) e2; exact ⟨p, .inr a, c⟩
      · exact absurd e q

theorem Flood.weaken {src src' : Nat → Prop} {s t : Sp F} (h : Flood D K N r src s t) (e : ∀ b, src b → src' b) :
    Flood D K N r src' s t :=
  ⟨h.eq, h.body, h.mono, h.next, h.closed, fun b q1 q2 => by
    obtain ⟨p, a, c⟩ := h.reach b q1 q2; exact ⟨p, e p a, c⟩⟩

theorem Flood.cnt_le {src : Nat → Prop} {s t : Sp F} (h : Flood D K N r src s t) : t.cnt ≤ s.cnt := by
  have e : t.nBodies = s.nBodies := by rw [h.eq]
  simp only [cnt, e]
  refine List.countP_mono_left fun b _ hb => ?_
  rcases h.mono b with q | ⟨q, -⟩
  · rw [← q]; exact hb
  · rw [q]; rfl

theorem graph_congr {s t : Sp F} (h : Graph s N) (ha : t.arbs = s.arbs) (hc : t.cons = s.cons) (h1 : t.arbBound = s.arbBound)
    (h2 : t.nCons = s.nCons) (hb : ∀ b, (t.bodies b).arbs = (s.bodies b).arbs ∧ (t.bodies b).cons = (s.bodies b).cons) :
    Graph t N := by
  intro b
  obtain ⟨l, cl, e1, e2, e3⟩ := h b
  refine ⟨l, cl, ?_, ?_, ?_⟩
  · rw [arbList_congr (s := s) (t := t) (fun x => by rw [ha]; exact .refl _) h1 fun x => (hb x).1]; exact e1
  · have : t.conNext b = s.conNext b := by funext c; simp only [conNext, hc]
    simp only [conList, this, h2, (hb b).2]; exact e2
  · have i1 : t.otherBody b = s.otherBody b := by funext c; simp only [otherBody, ha]
    have i2 : t.otherCon b = s.otherCon b := by funext c; simp only [otherCon, hc]
    rw [i1, i2]; exact e3

/-- Marking one body. -/
theorem mark_spec {s : Sp F} (h : FI nb D K N r s) {b : Nat} (hb : (s.bodies b).root = none) (hk : K b) (hr : (s.bodies r).root = some r) :
    FI nb D K N r (s.componentAdd r b) ∧
    s.componentAdd r b = { s with bodies := (s.componentAdd r b).bodies } ∧
    (∀ c, (s.componentAdd r b).bodies c = { s.bodies c with root := ((s.componentAdd r b).bodies c).root, next := ((s.componentAdd r b).bodies c).next }) ∧
    (∀ c, ((s.componentAdd r b).bodies c).root = if c = b then some r else (s.bodies c).root) ∧
    (∀ c, ((s.componentAdd r b).bodies c).root ≠ some r → ((s.componentAdd r b).bodies c).next = (s.bodies c).next) := by
  have hne : b ≠ r := by rintro rfl; rw [hb] at hr; simp at hr
  obtain ⟨t, ht⟩ : ∃ t, t = s.componentAdd r b := ⟨_, rfl⟩
  have et : t = { s with bodies := Function.update (Function.update s.bodies b { s.bodies b with root := some r, next := (s.bodies r).next }) r { s.bodies r with next := some b } } := by
    rw [ht]
    simp only [componentAdd, setBody, if_pos hne]
    congr 1
    funext c
    by_cases e1 : c = r
    · subst e1; simp [Function.update_of_ne (Ne.symm hne)]
    · by_cases e2 : c = b
      · subst e2; simp [Function.update_of_ne e1, Function.update_of_ne (Ne.symm hne)]
      · simp [Function.update_of_ne e1, Function.update_of_ne e2]
  rw [← ht]
  have tb : t.bodies b = { s.bodies b with root := some r, next := (s.bodies r).next } := by
    rw [et]; simp [Function.update_of_ne hne]
  have tr : t.bodies r = { s.bodies r with next := some b } := by rw [et]; simp
  have tq : ∀ c, c ≠ b → c ≠ r → t.bodies c = s.bodies c := fun c h1 h2 => by
    rw [et]; simp [Function.update_of_ne h1, Function.update_of_ne h2]
  have hroot : ∀ c, (t.bodies c).root = if c = b then some r else (s.bodies c).root := by
    intro c
    split_ifs with e
    · rw [e, tb]
    · by_cases e2 : c = r
      · rw [e2, tr]
      · rw [tq c e e2]
  have hbody : ∀ c, t.bodies c = { s.bodies c with root := (t.bodies c).root, next := (t.bodies c).next } := by
    intro c
    by_cases e : c = b
    · rw [e, tb]
    · by_cases e2 : c = r
      · rw [e2, tr]
      · rw [tq c e e2]
  have hnext : ∀ c, (t.bodies c).root ≠ some r → (t.bodies c).next = (s.bodies c).next := by
    intro c hc
    rw [hroot] at hc
    by_cases e : c = b
    · simp [e] at hc
    · by_cases e2 : c = r
      · rw [if_neg e, e2] at hc; exact absurd hr hc
      · rw [tq c e e2]
  have hf : t.arbs = s.arbs ∧ t.cons = s.cons ∧ t.arbBound = s.arbBound ∧ t.nCons = s.nCons ∧ t.nBodies = s.nBodies := by
    rw [et]; exact ⟨rfl, rfl, rfl, rfl, rfl⟩
  refine ⟨⟨hf.2.2.2.2.trans h.nBodies, fun c => ?_, graph_congr h.graph hf.1 hf.2.1 hf.2.2.1 hf.2.2.2.1 fun c => by rw [hbody c]; exact ⟨rfl, rfl⟩, fun c hc => ?_, ?_,
    fun c hc => ?_⟩, by rw [et], hbody, hroot, hnext⟩
  · rw [← h.typ c]; simp only [Sp.typ, BodyR.type]; rw [hbody c]
  · rw [hroot]; split_ifs
    · exact .inr rfl
    · exact h.cls c hc
  · obtain ⟨l, hc, hm⟩ := h.chain
    cases l with
    | nil => simp [IsChain] at hc
    | cons x l =>
      have hx : r = x := by simpa using hc.1
      subst hx
      have hnd := hc.nodup
      have hbl : b ∉ r :: l := by rw [hm, hb]; simp
      refine ⟨r :: b :: l, ⟨rfl, ?_, ?_⟩, fun c => ?_⟩
      · show (t.bodies r).next = some b
        rw [tr]
      · show IsChain (fun b => (t.bodies b).next) ((t.bodies b).next) l
        rw [tb]
        refine IsChain.congr (next := fun b => (s.bodies b).next) (fun y hy => ?_) hc.2
        have h1 : y ≠ b := by rintro rfl; exact hbl (by simp [hy])
        have h2 : y ≠ r := by rintro rfl; exact (List.nodup_cons.1 hnd).1 hy
        show (t.bodies y).next = _
        rw [tq y h1 h2]
      · rw [hroot]
        have := hm c
        simp only [List.mem_cons] at this ⊢
        by_cases e : c = b
        · simp [e]
        · simp only [e, false_or, if_false]; exact this
  · rw [hroot] at hc
    have e : c ≠ b := by rintro rfl; simp at hc
    rw [if_neg e] at hc
    have e2 : c ≠ r := by rintro rfl; rw [hr] at hc; simp at hc
    rw [tq c e e2]; exact h.rootless c hc

variable [GoFloat F]

omit [GoFloat F] in
theorem cnt_mark {s s1 : Sp F} {b : Nat} (en : s1.nBodies = s.nBodies)
    (e3 : ∀ c, (s1.bodies c).root = if c = b then some r else (s.bodies c).root) (q : (s.bodies b).root = none)
    (hlt : b < s.nBodies) : s1.cnt + 1 ≤ s.cnt := by
  have hbr : (s1.bodies b).root = some r := by rw [e3, if_pos rfl]
  have hsub : ∀ (l : List Nat), b ∈ l → (l.countP fun b => (s1.bodies b).root.isNone) + 1 ≤ l.countP fun b => (s.bodies b).root.isNone := by
    have hle : ∀ (l : List Nat), (l.countP fun b => (s1.bodies b).root.isNone) ≤ l.countP fun b => (s.bodies b).root.isNone := by
      intro l
      refine List.countP_mono_left fun c _ hc => ?_
      rw [e3] at hc
      split_ifs at hc
      · simp at hc
      · exact hc
    intro l hl
    induction l with
    | nil => simp at hl
    | cons c l ih =>
      by_cases ec : c = b
      · subst ec
        rw [List.countP_cons, List.countP_cons, hbr, q]
        simp only [Option.isNone_some, Option.isNone_none]
        have := hle l
        simp only [Bool.false_eq_true, if_false, if_true]
        omega
      · have := ih (by rcases List.mem_cons.1 hl with z | z; exact absurd z.symm ec; exact z)
        rw [List.countP_cons, List.countP_cons, e3 c, if_neg ec]
        omega
  simp only [cnt, en]
  exact hsub _ (by simpa using hlt)

/-- What is to be shown about the flood fill with fuel `n`. -/
def FloodOk (F : Type) [GoFloat F] (nb : Nat) (D K : Nat → Prop) (N : Nat → List Nat) (r n : Nat) : Prop :=
  ∀ (s : Sp F) (body : Nat), FI nb D K N r s → (s.bodies r).root = some r → (D body → K body) → s.cnt < n →
      ∃ t, floodFill n s r body = some t ∧ FI nb D K N r t ∧ Flood D K N r (· = body) s t ∧
        (D body → (t.bodies body).root = some r)

theorem flood_loop {n : Nat} (rec : FloodOk F nb D K N r n) : ∀ (l : List Nat) (s : Sp F), FI nb D K N r s →
    (s.bodies r).root = some r → (∀ o ∈ l, D o → K o) →
    s.cnt < n → ∃ t, l.foldlM (fun s o => floodFill n s r o) s = some t ∧ FI nb D K N r t ∧
      Flood D K N r (· ∈ l) s t ∧ ∀ o ∈ l, D o → (t.bodies o).root = some r := by
  intro l
  induction l with
  | nil => intro s h _ _ _; exact ⟨s, rfl, h, .refl _ s, by simp⟩
  | cons o l ih =>
    intro s h hr hl hn
    obtain ⟨t, e, f, m, d⟩ := rec s o h hr (hl o (by simp)) hn
    obtain ⟨u, e', f', m', d'⟩ := ih t f (m.keepRoot hr) (fun q hq => hl q (by simp [hq])) (lt_of_le_of_lt m.cnt_le hn)
    refine ⟨u, by rw [List.foldlM_cons, e]; exact e', f', (m.trans m').weaken (by simp), fun q hq hd => ?_⟩
    rcases List.mem_cons.1 hq with rfl | hq
    · exact m'.keepRoot (d hd)
    · exact d' q hq hd

/-- The neighbours of a body that has just been marked. -/
theorem flood_nbrs {n : Nat} (rec : FloodOk F nb D K N r n) {s1 : Sp F} {body : Nat} (f1 : FI nb D K N r s1)
    (hr1 : (s1.bodies r).root = some r) (hK : ∀ c ∈ N body, D c → K c) (hc1 : s1.cnt < n) :
    ∃ t, (do
        let l ← s1.arbList body
        let s ← (l.map (s1.otherBody body)).foldlM (fun s o => floodFill n s r o) s1
        let cl ← s.conList body
        (cl.map (s.otherCon body)).foldlM (fun s o => floodFill n s r o) s) = some t ∧ FI nb D K N r t ∧
      Flood D K N r (· ∈ N body) s1 t ∧ ∀ o ∈ N body, D o → (t.bodies o).root = some r := by
  obtain ⟨l, cl, g1, g2, g3⟩ := f1.graph body
  rw [g1]
  simp only [Option.bind_eq_bind, Option.bind_some]
  obtain ⟨t1, a1, a2, a3, a4⟩ := flood_loop rec (l.map (s1.otherBody body)) s1 f1 hr1
    (fun o ho => hK o (by rw [g3]; simp only [List.mem_append]; exact .inl ho)) hc1
  rw [a1]
  simp only [Option.bind_some]
  have hcl : t1.conList body = some cl ∧ t1.otherCon body = s1.otherCon body := by
    have i1 : t1.cons = s1.cons := by rw [a3.eq]
    have i2 : t1.nCons = s1.nCons := by rw [a3.eq]
    have i3 : t1.conNext body = s1.conNext body := by funext c; simp only [conNext, i1]
    have i4 : (t1.bodies body).cons = (s1.bodies body).cons := by rw [a3.body body]
    refine ⟨by simp only [conList, i2, i3, i4]; exact g2, by funext c; simp only [otherCon, i1]⟩
  rw [hcl.1]
  simp only [Option.bind_some]
  rw [hcl.2]
  obtain ⟨t, b1, b2, b3, b4⟩ := flood_loop rec (cl.map (s1.otherCon body)) t1 a2 (a3.keepRoot hr1)
    (fun o ho => hK o (by rw [g3]; simp only [List.mem_append]; exact .inr ho)) (lt_of_le_of_lt a3.cnt_le hc1)
  refine ⟨t, b1, b2, (a3.trans b3).weaken (fun b hb => by rw [g3, List.mem_append]; exact hb), fun o ho hdo => ?_⟩
  rw [g3, List.mem_append] at ho
  rcases ho with ho | ho
  · exact b3.keepRoot (a4 o ho hdo)
  · exact b4 o ho hdo

/-- The flood fill marks everything it can reach, and nothing else. -/
theorem flood_spec (hK : ∀ b, K b → ∀ c ∈ N b, D c → K c) (hb : ∀ b, K b → b < nb) :
    ∀ (n : Nat), FloodOk F nb D K N r n
  | 0, _, _, _, _, _, hn => absurd hn (Nat.not_lt_zero _)
  | n + 1, s, body, h, hr, hbK, hn => by
    simp only [floodFill]
    by_cases hd : D body
    swap
    · rw [if_pos (by rw [ne_eq, h.typ]; exact hd)]
      exact ⟨s, rfl, h, .refl _ s, fun q => absurd q hd⟩
    rw [if_neg (by rw [ne_eq, not_not, h.typ]; exact hd)]
    rcases h.cls body (hbK hd) with q | q
    swap
    · rw [q]
      simp only [if_true]
      exact ⟨s, rfl, h, .refl _ s, fun _ => q⟩
    rw [q]
    obtain ⟨f1, e1, e2, e3, e4⟩ := mark_spec h q (hbK hd) hr
    obtain ⟨s1, hs1⟩ : ∃ s1, s1 = s.componentAdd r body := ⟨_, rfl⟩
    rw [← hs1] at f1 e1 e2 e3 e4 ⊢
    have hr1 : (s1.bodies r).root = some r := by
      rw [e3]; split_ifs
      · rfl
      · exact hr
    have hbr : (s1.bodies body).root = some r := by rw [e3, if_pos rfl]
    have hc1 : s1.cnt < n := by
      have := cnt_mark (by rw [e1]) e3 q (by rw [h.nBodies]; exact hb body (hbK hd))
      omega
    obtain ⟨t, b1, b2, m, hN⟩ := flood_nbrs (flood_spec hK hb n) f1 hr1 (hK body (hbK hd)) hc1
    have hbt := m.keepRoot hbr
    refine ⟨t, b1, b2, ⟨?_, fun c => ?_, fun c => ?_, fun c hc => ?_, fun c q1 q2 => ?_, fun c q1 q2 => ?_⟩, fun _ => hbt⟩
    · have := m.eq; rw [e1] at this; exact this
    · have := m.body c; rw [e2 c] at this; exact this
    · by_cases ec : c = body
      · subst ec; exact .inr ⟨q, hbt, hbK hd⟩
      · rw [show (s.bodies c).root = (s1.bodies c).root by rw [e3, if_neg ec]]; exact m.mono c
    · rw [m.next c hc]; exact e4 c fun z => hc (m.keepRoot z)
    · by_cases ec : c = body
      · subst ec; exact hN
      · exact m.closed c (by rw [e3, if_neg ec]; exact q1) q2
    · refine ⟨body, rfl, hd, ?_⟩
      by_cases ec : c = body
      · subst ec; exact .refl
      · obtain ⟨p, hp, hdp, rp⟩ := m.reach c (by rw [e3, if_neg ec]; exact q1) q2
        exact Relation.ReflTransGen.head (b := p) ⟨hd, hdp, hp⟩ rp

/-- The flood fill from a body without component: the marked bodies are those that can be reached. -/
theorem flood_top {s : Sp F} {b : Nat} (hK : ∀ c, K c → ∀ d ∈ N c, D d → K d) (hb : ∀ c, K c → c < s.nBodies)
    (htyp : ∀ c, s.typ c = .dynamic ↔ D c) (hg : Graph s N) (hcls : ∀ c, K c → (s.bodies c).root = none)
    (hno : ∀ c, (s.bodies c).root ≠ some b) (hrl : ∀ c, (s.bodies c).root = none → (s.bodies c).next = none)
    (hd : D b) (hbK : K b) :
    ∃ t l, floodFill (s.nBodies + 1) s b b = some t ∧ t = { s with bodies := t.bodies } ∧
      (∀ c, t.bodies c = { s.bodies c with root := (t.bodies c).root, next := (t.bodies c).next }) ∧
      IsChain (fun c => (t.bodies c).next) (some b) l ∧ t.compList b = some l ∧
      (∀ c, c ∈ l ↔ Relation.ReflTransGen (fun p q => D p ∧ D q ∧ q ∈ N p) b c) ∧
      (∀ c, c ∈ l → K c) ∧
      (∀ c, (t.bodies c).root = if c ∈ l then some b else (s.bodies c).root) ∧
      (∀ c, c ∉ l → (t.bodies c).next = (s.bodies c).next) := by
  have q : (s.bodies b).root = none := hcls b hbK
  simp only [floodFill]
  rw [if_neg (by rw [ne_eq, not_not, htyp]; exact hd), q]
  obtain ⟨s1, hs1⟩ : ∃ s1, s1 = s.componentAdd b b := ⟨_, rfl⟩
  rw [← hs1]
  have et : s1 = { s with bodies := Function.update s.bodies b { s.bodies b with root := some b } } := by
    rw [hs1]; simp [componentAdd, setBody]
  have tb : s1.bodies b = { s.bodies b with root := some b } := by rw [et]; simp
  have tq : ∀ c, c ≠ b → s1.bodies c = s.bodies c := fun c hc => by rw [et]; simp [Function.update_of_ne hc]
  have e2 : ∀ c, s1.bodies c = { s.bodies c with root := (s1.bodies c).root } := by
    intro c; by_cases e : c = b
    · rw [e, tb]
    · rw [tq c e]
  have e3 : ∀ c, (s1.bodies c).root = if c = b then some b else (s.bodies c).root := by
    intro c; split_ifs with e
    · rw [e, tb]
    · rw [tq c e]
  have f1 : FI s.nBodies D K N b s1 := by
    refine ⟨by rw [et], fun c => ?_, graph_congr hg (by rw [et]) (by rw [et]) (by rw [et]) (by rw [et]) fun c => by rw [e2 c]; exact ⟨rfl, rfl⟩,
      fun c hc => ?_, ⟨[b], ⟨rfl, ?_⟩, fun c => ?_⟩, fun c hc => ?_⟩
    · rw [← htyp c]; simp only [Sp.typ, BodyR.type]; rw [e2 c]
    · rw [e3]; split_ifs
      · exact .inr rfl
      · exact .inl (hcls c hc)
    · show (s1.bodies b).next = none
      rw [e2 b]; exact hrl b q
    · rw [e3, List.mem_singleton]
      split_ifs with e
      · simp [e]
      · simp [e, hno c]
    · rw [e2 c]
      rw [e3] at hc
      split_ifs at hc with e
      exact hrl c hc
  have hc1 : s1.cnt < s.nBodies := by
    have h1 := cnt_mark (s := s) (s1 := s1) (r := b) (by rw [et]) e3 q (hb b hbK)
    have h2 : s.cnt ≤ s.nBodies := by
      simp only [cnt]
      exact le_trans List.countP_le_length (by simp)
    omega
  obtain ⟨t, b1, b2, m, hN⟩ := flood_nbrs (flood_spec (F := F) hK hb s.nBodies) f1 (by rw [e3, if_pos rfl]) (hK b hbK) hc1
  have hbt : (t.bodies b).root = some b := m.keepRoot (by rw [e3, if_pos rfl])
  obtain ⟨l, hc, hm⟩ := b2.chain
  have mono : ∀ c, (t.bodies c).root = (s.bodies c).root ∨ ((t.bodies c).root = some b ∧ K c) := by
    intro c
    by_cases ec : c = b
    · subst ec; exact .inr ⟨hbt, hbK⟩
    · rcases m.mono c with z | ⟨-, z1, z2⟩
      · left; rw [z, e3, if_neg ec]
      · exact .inr ⟨z1, z2⟩
  have hlK : ∀ c, c ∈ l → K c := by
    intro c hcl
    rcases mono c with z | ⟨-, z⟩
    · exact absurd (z.symm.trans ((hm c).1 hcl)) (hno c)
    · exact z
  have clo : ∀ c ∈ l, ∀ d ∈ N c, D d → d ∈ l := by
    intro c hcl d hdn hdd
    rw [hm] at hcl ⊢
    by_cases ec : c = b
    · subst ec; exact hN d hdn hdd
    · refine m.closed c ?_ hcl d hdn hdd
      rw [e3, if_neg ec]; exact hcls c (hlK c ((hm c).2 hcl))
  refine ⟨t, l, b1, ?_, fun c => ?_, hc, ?_, fun c => ⟨fun hcl => ?_, fun hrc => ?_⟩, hlK, fun c => ?_, fun c hcl => ?_⟩
  · have := m.eq; rw [et] at this; exact this
  · have := m.body c; rw [e2 c] at this; exact this
  · refine walk_of_chain hc ?_
    rw [b2.nBodies]
    exact nodup_length_le hc.nodup fun c hcl => hb c (hlK c hcl)
  · by_cases ec : c = b
    · subst ec; exact .refl
    · obtain ⟨p, hp, hdp, rp⟩ := m.reach c (by rw [e3, if_neg ec]; exact hcls c (hlK c hcl)) ((hm c).1 hcl)
      exact Relation.ReflTransGen.head (b := p) ⟨hd, hdp, hp⟩ rp
  · induction hrc with
    | refl => exact (hm b).2 hbt
    | tail _ h2 ih => exact clo _ ih _ h2.2.2 h2.2.1
  · split_ifs with e
    · exact (hm c).1 e
    · rcases mono c with z | ⟨z, -⟩
      · exact z
      · exact absurd ((hm c).2 z) e
  · rw [m.next c (fun z => hcl ((hm c).2 z)), e2 c]

end Sp
end CP
