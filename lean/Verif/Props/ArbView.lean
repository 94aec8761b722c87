import Verif.Spec.ArbView
import Verif.Props.Limits
import Mathlib.Tactic.LinearCombination

/-! # C52: what an arbiter shows and what it remembers -/

namespace CP
open GoFloat

section
variable {F : Type} [GoFloat F]

theorem carry_fold (l : List (Contact F)) (x : Contact F) :
    l.foldl (fun con old => if con.hash = old.hash then { con with jnAcc := old.jnAcc, jtAcc := old.jtAcc } else con) x =
      match l.reverse.find? (fun o => o.hash = x.hash) with
      | some o => { x with jnAcc := o.jnAcc, jtAcc := o.jtAcc }
      | none => x := by
  induction l using List.reverseRecOn with
  | nil => rfl
  | append_singleton l o ih =>
    rw [List.foldl_append, ih]
    simp only [List.foldl_cons, List.foldl_nil, List.reverse_append, List.reverse_cons, List.reverse_nil, List.nil_append,
      List.singleton_append, List.find?_cons]
    cases hf : l.reverse.find? (fun o => decide (o.hash = x.hash)) with
    | none =>
      by_cases he : o.hash = x.hash
      · simp [he]
      · simp only [he, decide_false, if_neg (fun h => he (Eq.symm h) : ¬ x.hash = o.hash)]
    | some o' =>
      by_cases he : o.hash = x.hash
      · simp [he]
      · simp only [he, decide_false, if_neg (fun h => he (Eq.symm h) : ¬ x.hash = o.hash)]

/-- **C52** (warm starting, every float rounding): after `Update` the contacts are the fresh ones in order; each keeps its
identity and its solver constants, is moved from world coordinates to offsets from the bodies' centres, and starts from
the impulses of the last old contact with the same identity, or from zero. -/
theorem C52_carry (h : Bodies F) (arb : Arb F) (a b : Nat) (n : Vec F) (fresh : List (Contact F)) (e1 e2 u1 u2 : F)
    (s1 s2 : Vec F) (cached : Bool) :
    (arb.update h a b n fresh e1 e2 u1 u2 s1 s2 cached).contacts = fresh.map fun c =>
      { c with
        r1 := c.r1.sub (h a).p
        r2 := c.r2.sub (h b).p
        jnAcc := (carried arb.contacts c.hash).1
        jtAcc := (carried arb.contacts c.hash).2 } := by
  simp only [Arb.update, Arb.updateContacts]
  refine List.map_congr_left fun c _ => ?_
  rw [carry_fold]
  simp only [carried]
  cases arb.contacts.reverse.find? (fun o => decide (o.hash = c.hash)) <;> rfl

/-- **C52** (each impulse once): when the old contacts have different identities, a contact starts from the impulses of
*the* old contact with its identity, and from zero exactly when there is none. -/
theorem C52_carry_unique (old : List (Contact F)) (hd : (old.map Contact.hash).Nodup) (id : Nat) :
    (∀ o ∈ old, o.hash = id → carried old id = (o.jnAcc, o.jtAcc)) ∧
      ((∀ o ∈ old, o.hash ≠ id) → carried old id = (0, 0)) := by
  constructor
  · intro o ho hid
    unfold carried
    cases hf : old.reverse.find? (fun o => decide (o.hash = id)) with
    | none =>
      have := List.find?_eq_none.mp hf o (List.mem_reverse.mpr ho)
      simp [hid] at this
    | some o' =>
      have h1 := List.find?_some hf
      have h2 := List.mem_reverse.mp (List.mem_of_find?_eq_some hf)
      have : o' = o := List.inj_on_of_nodup_map hd h2 ho (by simpa [hid] using h1)
      rw [this]
  · intro hn
    unfold carried
    rw [List.find?_eq_none.mpr]
    intro o ho
    simpa using hn o (List.mem_reverse.mp ho)

end

/-- **C52** (what was detected is shown): right after `Update`, the contact set of an arbiter whose flag is not swapped
lists exactly the points the narrow phase found, in order, with their signed gap along the collision normal. -/
theorem C52_shown (h : Bodies ℝ) (arb : Arb ℝ) (a b : Nat) (n : Vec ℝ) (fresh : List (Contact ℝ)) (e1 e2 u1 u2 : ℝ)
    (s1 s2 : Vec ℝ) (cached : Bool) :
    (arb.update h a b n fresh e1 e2 u1 u2 s1 s2 cached).contactPointSet h false true =
      ⟨n, fresh.map fun c => ⟨c.r1, c.r2, signedGap n c.r1 c.r2⟩⟩ := by
  have hc := C52_carry h arb a b n fresh e1 e2 u1 u2 s1 s2 cached
  have hn : (arb.update h a b n fresh e1 e2 u1 u2 s1 s2 cached).n = n := rfl
  have ha : (arb.update h a b n fresh e1 e2 u1 u2 s1 s2 cached).a = a := rfl
  have hb : (arb.update h a b n fresh e1 e2 u1 u2 s1 s2 cached).b = b := rfl
  simp only [Arb.contactPointSet, Arb.shown, if_true, Bool.false_eq_true, if_false, hc, hn, ha, hb, List.map_map]
  congr 1
  refine List.map_congr_left fun c _ => ?_
  simp only [Function.comp, ContactPoint.mk.injEq, signedGap, Vec.add, Vec.sub, Vec.dot]
  refine ⟨?_, ?_, ?_⟩
  · ext <;> simp
  · ext <;> simp
  · ring

/-- **C52** (order of the shapes): what a callback sees when the shapes are presented in the other order is the mirror
image: normal reversed, points exchanged, distances equal; the reported impulse is reversed too. -/
theorem C52_mirror (h : Bodies ℝ) (arb : Arb ℝ) (swapped live : Bool) :
    arb.contactPointSet h (!swapped) live = (arb.contactPointSet h swapped live).mirror ∧
      arb.normal (!swapped) = ⟨-(arb.normal swapped).x, -(arb.normal swapped).y⟩ ∧
      arb.shownImpulse (!swapped) live = ⟨-(arb.shownImpulse swapped live).x, -(arb.shownImpulse swapped live).y⟩ ∧
      arb.normal swapped = (arb.contactPointSet h swapped live).normal ∧
      arb.count live = (arb.contactPointSet h swapped live).points.length := by
  cases swapped <;> simp [Arb.contactPointSet, PointSet.mirror, Arb.normal, Arb.shownImpulse, Arb.count, Vec.neg, Vec.mult,
    Function.comp_def]

/-- **C52** (distances): in either order of the shapes every reported distance is the gap from the first shape's point
to the second shape's point along the reported normal. -/
theorem C52_distance (h : Bodies ℝ) (arb : Arb ℝ) (swapped live : Bool) :
    (arb.contactPointSet h swapped live).Measured := by
  intro q hq
  simp only [Arb.contactPointSet, List.mem_map] at hq ⊢
  obtain ⟨c, _, rfl⟩ := hq
  cases swapped <;> simp [signedGap, Vec.dot, Vec.sub, Vec.neg]
  ring

/-- **C52** (a separated pair shows nothing): in the states CACHED and INVALIDATED there are no points and no impulse. -/
theorem C52_apart (h : Bodies ℝ) (arb : Arb ℝ) (swapped : Bool) :
    arb.count false = 0 ∧ (arb.contactPointSet h swapped false).points = [] ∧
      arb.shownImpulse swapped false = ⟨0, 0⟩ := by
  cases swapped <;> simp [Arb.count, Arb.shown, Arb.contactPointSet, Arb.shownImpulse, Vec.neg]

/-- **C52** (reading after writing): a contact set with as many points as the arbiter has contacts is accepted, and
reading it back gives the same normal and points, with distances measured anew; only the normal and the contact points
of the arbiter change. -/
theorem C52_set_get (h : Bodies ℝ) (arb : Arb ℝ) (swapped : Bool) (s : PointSet ℝ)
    (hl : s.points.length = arb.contacts.length) :
    ∃ arb', arb.setContactPointSet h swapped s = some arb' ∧
      arb'.contactPointSet h swapped true =
        ⟨s.normal, s.points.map fun q => ⟨q.pointA, q.pointB, signedGap s.normal q.pointA q.pointB⟩⟩ ∧
      (arb'.e, arb'.u, arb'.surface_vr, arb'.a, arb'.b, arb'.first) =
        (arb.e, arb.u, arb.surface_vr, arb.a, arb.b, arb.first) ∧
      arb'.contacts.map (fun c => (c.nMass, c.tMass, c.bounce, c.jnAcc, c.jtAcc, c.jBias, c.bias, c.hash)) =
        arb.contacts.map (fun c => (c.nMass, c.tMass, c.bounce, c.jnAcc, c.jtAcc, c.jBias, c.bias, c.hash)) := by
  unfold Arb.setContactPointSet
  rw [if_pos hl]
  refine ⟨_, rfl, ?_, rfl, ?_⟩
  · simp only [Arb.contactPointSet, Arb.shown, if_true]
    congr 1
    · cases swapped <;> simp [Vec.neg]
    · generalize arb.contacts = cs at hl
      generalize s.points = ps at hl
      induction cs generalizing ps with
      | nil => cases ps <;> simp_all
      | cons c cs ih =>
        cases ps with
        | nil => simp at hl
        | cons q ps =>
          simp only [List.zipWith_cons_cons, List.map_cons, List.cons.injEq]
          refine ⟨?_, ih ps (by simpa using hl)⟩
          cases swapped
          · simp only [Bool.false_eq_true, if_false, ContactPoint.mk.injEq, signedGap, Vec.add, Vec.sub, Vec.dot]
            refine ⟨?_, ?_, ?_⟩
            · ext <;> simp
            · ext <;> simp
            · ring
          · simp only [if_true, ContactPoint.mk.injEq, signedGap, Vec.add, Vec.sub, Vec.dot, Vec.neg]
            refine ⟨?_, ?_, ?_⟩
            · ext <;> simp
            · ext <;> simp
            · ring
  · simp only
    generalize arb.contacts = cs at hl
    generalize s.points = ps at hl
    induction cs generalizing ps with
    | nil => simp
    | cons c cs ih =>
      cases ps with
      | nil => simp at hl
      | cons q ps =>
        simp only [List.zipWith_cons_cons, List.map_cons, List.cons.injEq]
        exact ⟨by cases swapped <;> rfl, ih ps (by simpa using hl)⟩

/-- **C52** (writing back what was read): giving an arbiter its own contact set changes nothing. -/
theorem C52_get_set (h : Bodies ℝ) (arb : Arb ℝ) (swapped : Bool) :
    arb.setContactPointSet h swapped (arb.contactPointSet h swapped true) = some arb := by
  unfold Arb.setContactPointSet
  rw [if_pos (by simp [Arb.contactPointSet, Arb.shown])]
  have hcs : ∀ cs : List (Contact ℝ), List.zipWith (fun (c : Contact ℝ) (q : ContactPoint ℝ) =>
        if swapped then { c with r1 := q.pointB.sub (h arb.a).p, r2 := q.pointA.sub (h arb.b).p }
        else { c with r1 := q.pointA.sub (h arb.a).p, r2 := q.pointB.sub (h arb.b).p }) cs
      (cs.map fun c =>
        let p1 := (h arb.a).p.add c.r1
        let p2 := (h arb.b).p.add c.r2
        if swapped then (⟨p2, p1, (p2.sub p1).dot arb.n⟩ : ContactPoint ℝ) else ⟨p1, p2, (p2.sub p1).dot arb.n⟩) = cs := by
    intro cs
    induction cs with
    | nil => rfl
    | cons c cs ih =>
      simp only [List.map_cons, List.zipWith_cons_cons, List.cons.injEq]
      refine ⟨?_, ih⟩
      cases c
      cases swapped <;> simp [Vec.add, Vec.sub]
  simp only [Arb.contactPointSet, Arb.shown, if_true, hcs]
  cases arb
  cases swapped <;> simp [Vec.neg]

/-- A set with another number of points fails the assertion. -/
theorem C52_set_count (h : Bodies ℝ) (arb : Arb ℝ) (swapped : Bool) (s : PointSet ℝ)
    (hl : s.points.length ≠ arb.contacts.length) : arb.setContactPointSet h swapped s = none := by
  unfold Arb.setContactPointSet
  rw [if_neg hl]

/-! ### A contact that pulls

An arbiter whose shapes separated and touch again before `CollisionPersistence` steps have passed is treated as new (no
warm start) but keeps the old accumulated impulse, so the solver may take back an impulse that was never given. -/

/-- A body of mass 1 at the origin with velocity (v, 0). -/
noncomputable def sticky.body (v : ℝ) : Body ℝ :=
  { Body.new (1 : ℝ) 1 with m := 1, m_inv := 1, i := 1, i_inv := 1, p := ⟨0, 0⟩, v := ⟨v, 0⟩, w := 0 }
/-- Body 0 rests, body 1 moves with velocity (v, 0). -/
noncomputable def sticky.world (v : ℝ) : Bodies ℝ := fun k => if k = 0 then sticky.body 0 else sticky.body v
/-- A contact at the origin. -/
noncomputable def sticky.contact : Contact ℝ := ⟨⟨0, 0⟩, ⟨0, 0⟩, 0, 0, 0, 0, 0, 0, 0, 7⟩
/-- A new arbiter. -/
noncomputable def sticky.arb0 : Arb ℝ := ⟨0, 0, ⟨0, 0⟩, 0, 1, [], ⟨1, 0⟩, true⟩
/-- After the first touch, in which body 1 came with speed 20. -/
noncomputable def sticky.arb1 : Arb ℝ :=
  (((sticky.arb0.update (sticky.world (-20)) 0 1 ⟨1, 0⟩ [sticky.contact] 0 0 0 0 ⟨0, 0⟩ ⟨0, 0⟩ false).preStep
    (sticky.world (-20)) 1 0 0).applyImpulse (sticky.world (-20))).2
/-- Touching again after a separation. -/
noncomputable def sticky.arb2 : Arb ℝ :=
  (sticky.arb1.update (sticky.world 5) 0 1 ⟨1, 0⟩ [sticky.contact] 0 0 0 0 ⟨0, 0⟩ ⟨0, 0⟩ true).preStep (sticky.world 5) 1 0 0

/-- The impulse kept from the first touch. -/
theorem sticky.arb1_eq : sticky.arb1.contacts.map (fun c => (c.jnAcc, c.jtAcc, c.hash)) = [(10, 0, 7)] := by
  simp [sticky.arb1, sticky.arb0, sticky.contact, Arb.update, Arb.updateContacts, Arb.preStep, Arb.applyImpulse, Arb.applyLoop,
    Arb.applyContact, sticky.world, sticky.body, relVel, kScalar, kScalarBody, normalRelVel, Vec.dot, Vec.sub, Vec.add, Vec.mult,
    Vec.perp, Vec.cross, clamp]
  norm_num

/-- The contact of the second touch. -/
theorem sticky.arb2_eq : sticky.arb2 = ⟨0, 0, ⟨0, 0⟩, 0, 1, [⟨⟨0, 0⟩, ⟨0, 0⟩, 1 / 2, 1 / 2, 0, 10, 0, 0, 0, 7⟩], ⟨1, 0⟩, true⟩ := by
  obtain ⟨c, hc⟩ : ∃ c, sticky.arb1.contacts = [c] := by
    have := congrArg List.length sticky.arb1_eq
    simp only [List.length_map, List.length_singleton] at this
    exact List.length_eq_one_iff.mp this
  have h1 := sticky.arb1_eq
  rw [hc] at h1
  simp only [List.map_cons, List.map_nil, List.cons.injEq, Prod.mk.injEq, and_true] at h1
  obtain ⟨hj, hjt, hh⟩ := h1
  simp only [sticky.arb2, Arb.preStep, C52_carry, hc]
  simp [Arb.update, sticky.contact, carried, hj, hjt, hh, sticky.world, sticky.body, kScalar, kScalarBody, normalRelVel, relVel,
    Vec.dot, Vec.sub, Vec.add, Vec.mult, Vec.perp, Vec.cross]
  norm_num

/-- **C52** (finding): contacts can pull. In this history the shapes touch, separate and touch again while the bodies move
apart with speed 5 along the normal; the only contact of the step takes half of that speed away from body 1 and gives it
to body 0. -/
theorem C52_sticky : Arb.Reach sticky.arb2 ∧ sticky.arb2.first = true ∧
    normalRelVel (sticky.world 5) 0 1 ⟨0, 0⟩ ⟨0, 0⟩ ⟨1, 0⟩ = 5 ∧
    ((sticky.arb2.applyImpulse (sticky.arb2.applyCached (sticky.world 5) 1)).1 1).v = ⟨5 / 2, 0⟩ ∧
    ((sticky.arb2.applyImpulse (sticky.arb2.applyCached (sticky.world 5) 1)).1 0).v = ⟨5 / 2, 0⟩ := by
  refine ⟨?_, ?_, ?_, ?_, ?_⟩
  · exact .preStep _ _ _ _ _ (.update _ _ _ _ _ _ _ _ _ _ _ _ _ (.apply _ _ (.preStep _ _ _ _ _ (.update _ _ _ _ _ _ _ _ _ _ _ _ _ (.new _ rfl)))))
  · rw [sticky.arb2_eq]
  · simp [normalRelVel, relVel, sticky.world, sticky.body, Vec.dot, Vec.sub, Vec.add, Vec.mult, Vec.perp]
  · rw [sticky.arb2_eq]
    simp [Arb.applyCached, Arb.applyImpulse, Arb.applyLoop, Arb.applyContact, relVel, sticky.world, sticky.body, Vec.dot, Vec.sub,
      Vec.add, Vec.mult, Vec.perp, Vec.rotate, clamp, applyImpulses, applyBiasImpulses, Bodies.set]
    norm_num
  · rw [sticky.arb2_eq]
    simp [Arb.applyCached, Arb.applyImpulse, Arb.applyLoop, Arb.applyContact, relVel, sticky.world, sticky.body, Vec.dot, Vec.sub,
      Vec.add, Vec.mult, Vec.perp, Vec.rotate, clamp, applyImpulses, applyBiasImpulses, Bodies.set]
    norm_num

/-- Non-vacuity of `C52_carry_unique` and `C52_set_get`. -/
example : ((sticky.arb2.contacts).map Contact.hash).Nodup ∧ carried sticky.arb2.contacts 7 = (10, 0) ∧
    carried sticky.arb2.contacts 8 = ((0 : ℝ), 0) ∧
    ([⟨⟨1, 2⟩, ⟨3, 4⟩, 0⟩] : List (ContactPoint ℝ)).length = sticky.arb2.contacts.length := by
  rw [sticky.arb2_eq]
  simp [carried]

end CP
