import Verif.Proofs.SpaceInv2

/-! # Adding and removing bodies and shapes, changing types -/

namespace CP
variable {F : Type}
namespace Sp

theorem ShapeInv.congr {A : Nat → Prop} {s t : Sp F} (h : ShapeInv A s) (ht : ∀ b, t.typ b = s.typ b)
    (hl : ∀ b, (t.bodies b).shapes = (s.bodies b).shapes) (hs : t.shapes = s.shapes)
    (h1 : t.staticShapes = s.staticShapes) (h2 : t.dynamicShapes = s.dynamicShapes) : ShapeInv A t where
  listNodup b := by rw [hl]; exact h.listNodup b
  memList b sh := by rw [hl, hs]; exact h.memList b sh
  statNodup := by rw [h1]; exact h.statNodup
  dynNodup := by rw [h2]; exact h.dynNodup
  memStat sh := by rw [h1, hs, ht]; exact h.memStat sh
  memDyn sh := by rw [h2, hs, ht]; exact h.memDyn sh

theorem ConInv.congr {A : Nat → Prop} {s t : Sp F} (h : ConInv A s) (ht : ∀ b, t.typ b = s.typ b)
    (hl : ∀ b, (t.bodies b).cons = (s.bodies b).cons) (hs : t.cons = s.cons) (hn : t.nCons = s.nCons)
    (h1 : t.constraints = s.constraints) : ConInv A t where
  ne c := by rw [hs]; exact h.ne c
  bound c := by rw [hs, hn]; exact h.bound c
  list b := by
    have e : t.conNext b = s.conNext b := by funext c; simp only [conNext, hs]
    rw [hl, e, hs]; exact h.list b
  nodup := by rw [h1]; exact h.nodup
  mem c := by
    have e : t.conOwner c = s.conOwner c := by simp only [conOwner, ht, hs]
    rw [h1, hs, e]; exact h.mem c

theorem ThreadInv.congr {L : Nat → List Nat} {s t : Sp F} (h : ThreadInv L s)
    (hl : ∀ b, (t.bodies b).arbs = (s.bodies b).arbs) (hs : t.arbs = s.arbs) : ThreadInv L t where
  nodup := h.nodup
  head b := by rw [hl]; exact h.head b
  dl b := (h.dl b).congr fun x _ => by simp only [Sp.thread, hs]
  ends b x := by rw [hs]; exact h.ends b x
  both x := by rw [hs]; exact h.both x
  out x := by rw [hs]; exact h.out x

theorem ArbInv.congr {A : Nat → Prop} {L : Nat → List Nat} {rest : List Nat} {s t : Sp F} (h : ArbInv A L rest s)
    (ht : ∀ x, (x ∈ s.cached ∨ InL L s x) → (A (t.owner x) ↔ A (s.owner x))) (hs : t.arbs = s.arbs)
    (hsh : ∀ x, (x ∈ s.cached ∨ InL L s x) → t.shapes (s.arbs x).a = s.shapes (s.arbs x).a ∧
      t.shapes (s.arbs x).b = s.shapes (s.arbs x).b)
    (h1 : t.arbiters = s.arbiters) (h2 : t.cached = s.cached) (h3 : t.arbBound = s.arbBound) (h4 : t.pool = s.pool)
    (h5 : t.stamp = s.stamp) (h6 : t.head = s.head) : ArbInv A L rest t := by
  have hi : ∀ x, InL L t x ↔ InL L s x := fun x => by simp only [InL, hs]
  have hp : ∀ a b x, t.samePair a b x = s.samePair a b x := fun a b x => by simp only [samePair, hs]
  constructor
  · intro x; rw [h1, hi, h.mem]
    constructor
    · rintro (⟨e1, e2⟩ | e)
      · exact Or.inl ⟨e1, by rw [ht x (Or.inr e1)]; exact e2⟩
      · exact Or.inr e
    · rintro (⟨e1, e2⟩ | e)
      · exact Or.inl ⟨e1, by rw [← ht x (Or.inr e1)]; exact e2⟩
      · exact Or.inr e
  · rw [h1]; exact h.nodup
  · exact h.restNodup
  · intro x hx; rw [hi, h2]; exact h.rest x hx
  · intro x hx; rw [hi] at hx; rw [h2, ht x (Or.inr hx)]; exact h.cachedIff x hx
  · rw [h2]; exact h.cachedNodup
  · intro x y; rw [h2, hi, hi, hp, hs]; exact h.uniq x y
  · intro x hx
    rw [h2, hi] at hx
    rw [hs, (hsh x hx).1, (hsh x hx).2, h3, h4]; exact h.live x hx
  · rw [h4]; exact h.poolNodup
  · rw [h4, h3]; exact h.poolBound
  · intro x; rw [h1, hs, h5]; exact h.stamp x
  · intro x; rw [hi, h6]; exact h.head x
  · intro x; rw [h2, h3, h4, hi]; exact h.noLeak x

theorem SleepInv.congr {A : Nat → Prop} {s t : Sp F} (h : SleepInv A s)
    (hr : ∀ b, (t.bodies b).root = (s.bodies b).root) (hn : ∀ b, (t.bodies b).next = (s.bodies b).next)
    (h1 : t.sleeping = s.sleeping) (h2 : t.roused = s.roused) (h3 : t.locked = s.locked) : SleepInv A t where
  aIff b := by rw [h1, h2, hr]; exact h.aIff b
  rousedNodup := by rw [h2]; exact h.rousedNodup
  rousedRoot b := by rw [h2, hr]; exact h.rousedRoot b
  sleepNodup := by rw [h1]; exact h.sleepNodup
  chain r := by
    rw [h1]
    intro hr'
    obtain ⟨l, hc, hm⟩ := h.chain r hr'
    exact ⟨l, hc.congr fun x _ => hn x, fun b => by rw [hr]; exact hm b⟩
  rootless b := by rw [hr, hn]; exact h.rootless b
  rouseLock := by rw [h3, h2]; exact h.rouseLock

theorem Quiet.congr {s t : Sp F} (h : Quiet s) (hr : ∀ b, (t.bodies b).root = (s.bodies b).root)
    (h1 : t.sleeping = s.sleeping) : Quiet t := by
  intro b r; rw [hr, h1]; exact h b r

theorem off_congr {s t : Sp F} (hr : ∀ b, (t.bodies b).root = (s.bodies b).root)
    (h1 : t.sleeping = s.sleeping) (h2 : t.roused = s.roused) (b : Nat) : t.off b ↔ s.off b := by
  simp only [off, hr, h1, h2]

theorem Closed.congr {L : Nat → List Nat} {s t : Sp F} (h : Closed L s) (ht : ∀ b, s.typ b = .static → t.typ b = .static)
    (hr : ∀ b, (t.bodies b).root = (s.bodies b).root) (hs : t.arbs = s.arbs) (hc : t.cons = s.cons) : Closed L t := by
  have hb : ∀ p q, Bound s p q → Bound t p q := by
    intro p q h
    simp only [Bound, hr] at h ⊢
    intro e
    rcases h e with e | e
    · exact Or.inl (ht q e)
    · exact Or.inr e
  constructor
  · intro x hx
    rw [hs]
    have := h.arb x (by simpa only [InL, hs] using hx)
    exact ⟨hb _ _ this.1, hb _ _ this.2⟩
  · intro c hcc
    rw [hc] at hcc ⊢
    have := h.con c hcc
    exact ⟨hb _ _ this.1, hb _ _ this.2⟩

theorem Inv.off_iff [GoFloat F] {L : Nat → List Nat} {rest : List Nat} {s : Sp F} (h : Inv L rest s)
    (hl : s.locked = 0) (b : Nat) : s.off b ↔ (s.bodies b).root ≠ none := by
  rw [h.full.off_iff, h.full.sleep.rouseLock hl]; simp

variable [GoFloat F]

theorem NumInv.congr {s t : Sp F} (h : NumInv s) (ht : ∀ b, t.typ b = s.typ b)
    (hi : ∀ b, (t.bodies b).idle = (s.bodies b).idle) (h1 : t.threshold = s.threshold)
    (h2 : t.sleeping = s.sleeping) (h3 : t.staticBody = s.staticBody)
    (h4 : (t.bodies s.staticBody).inSpace = true) : NumInv t where
  kin b := by rw [ht, hi]; exact h.kin b
  pos := by rw [h1]; exact h.pos
  inf := by rw [h1, h2]; exact h.inf
  sb := by rw [h3, ht]; exact ⟨h4, h.sb.2⟩

/-- Only the membership of bodies changes. -/
theorem Inv.editBodies {L : Nat → List Nat} {rest : List Nat} {s : Sp F} (h : Inv L rest s) (B : Nat → BodyR F)
    (D S : List Nat) (hB : ∀ b, B b = { s.bodies b with inSpace := (B b).inSpace })
    (hb : BodyInv s.off { s with bodies := B, dynamicBodies := D, staticBodies := S })
    (hs : (B s.staticBody).inSpace = true) :
    Inv L rest { s with bodies := B, dynamicBodies := D, staticBodies := S } := by
  have hty : ∀ x, ({ s with bodies := B, dynamicBodies := D, staticBodies := S } : Sp F).typ x = s.typ x := by
    intro x; show (B x).type = _; rw [hB]; rfl
  have hroot : ∀ x, (B x).root = (s.bodies x).root := by intro x; rw [hB]
  have hnext : ∀ x, (B x).next = (s.bodies x).next := by intro x; rw [hB]
  have hidle : ∀ x, (B x).idle = (s.bodies x).idle := by intro x; rw [hB]
  have hsh : ∀ x, (B x).shapes = (s.bodies x).shapes := by intro x; rw [hB]
  have hcons : ∀ x, (B x).cons = (s.bodies x).cons := by intro x; rw [hB]
  have harb : ∀ x, (B x).arbs = (s.bodies x).arbs := by intro x; rw [hB]
  refine ⟨Full.of (A := s.off) ⟨hb, ?_, ?_, ?_, ?_⟩ ?_ ?_, ?_, ?_⟩
  · exact h.full.core.shape.congr hty hsh rfl rfl rfl
  · exact h.full.core.con.congr hty hcons rfl rfl rfl
  · exact h.full.core.thread.congr harb rfl
  · exact h.full.core.arb.congr (fun x _ => by simp only [owner, hty]) rfl (fun x _ => ⟨rfl, rfl⟩)
      rfl rfl rfl rfl rfl rfl
  · exact h.full.sleep.congr hroot hnext rfl rfl rfl
  · exact h.full.quiet.congr hroot rfl
  · exact h.closed.congr (fun x => by rw [hty]; exact id) hroot rfl rfl
  · exact h.num.congr hty hidle rfl rfl rfl hs

/-- `AddBody`. -/
theorem addBody_inv {L : Nat → List Nat} {rest : List Nat} {s : Sp F} (h : Inv L rest s)
    {b : Nat} (hb : (s.bodies b).inSpace = false) (hn : b < s.nBodies) :
    ∃ t, s.addBody b = some t ∧ Inv L rest t ∧ t = { s with
      bodies := Function.update s.bodies b { s.bodies b with inSpace := true }
      dynamicBodies := (if s.typ b = .static then s.dynamicBodies else s.dynamicBodies ++ [b])
      staticBodies := (if s.typ b = .static then s.staticBodies ++ [b] else s.staticBodies) } := by
  have hne : b ≠ s.staticBody := by
    rintro rfl; rw [h.num.sb.1] at hb; simp at hb
  have hA : ¬ s.off b := fun e => by rw [(h.full.core.body.off b e).1] at hb; simp at hb
  have ht : s.addBody b = some { s with
      bodies := Function.update s.bodies b { s.bodies b with inSpace := true }
      dynamicBodies := (if s.typ b = .static then s.dynamicBodies else s.dynamicBodies ++ [b])
      staticBodies := (if s.typ b = .static then s.staticBodies ++ [b] else s.staticBodies) } := by
    unfold addBody; rw [if_neg (by simp [hb])]
    dsimp only [setBody]
    split_ifs <;> rfl
  have bi := h.full.core.body
  refine ⟨_, ht, h.editBodies _ _ _ ?_ ?_ ?_, rfl⟩
  · intro x
    by_cases hx : x = b
    · subst hx; simp
    · simp [hx]
  · have hbd : b ∉ s.dynamicBodies := fun e => by rw [((bi.memDyn b).1 e).1] at hb; simp at hb
    have hbs : b ∉ s.staticBodies := fun e => by rw [((bi.memStat b).1 e).1] at hb; simp at hb
    have hty : ∀ x, (Function.update s.bodies b { s.bodies b with inSpace := true } x).type = s.typ x := by
      intro x
      by_cases hx : x = b
      · subst hx; simp [typ, BodyR.type]
      · simp [hx, typ]
    have hin : ∀ x, (Function.update s.bodies b { s.bodies b with inSpace := true } x).inSpace =
        if x = b then true else (s.bodies x).inSpace := by
      intro x
      by_cases hx : x = b
      · subst hx; simp
      · simp [hx]
    constructor
    · dsimp only; split_ifs
      · exact bi.dynNodup
      · exact nodup_concat bi.dynNodup hbd
    · dsimp only; split_ifs
      · exact nodup_concat bi.statNodup hbs
      · exact bi.statNodup
    · intro x
      simp only [typ]
      rw [hty, hin]
      have := bi.memDyn x
      by_cases hx : x = b
      · subst hx
        by_cases e : s.typ x = .static <;> simp_all [typ]
      · by_cases e : s.typ b = .static <;> simp_all [typ]
    · intro x
      simp only [typ]
      rw [hty, hin]
      have := bi.memStat x
      by_cases hx : x = b
      · subst hx
        by_cases e : s.typ x = .static <;> simp_all [typ]
      · by_cases e : s.typ b = .static <;> simp_all [typ]
    · intro x hx
      simp only [typ]
      rw [hin, hty]
      have := bi.off x hx
      split_ifs <;> simp [this]
    · intro x hx
      simp only at hx
      rw [hin] at hx
      split_ifs at hx with e
      · rw [e]; exact hn
      · exact bi.bound x hx
  · by_cases hx : s.staticBody = b
    · rw [hx]; simp
    · simp [hx, h.num.sb.1]

/-- `RemoveBody`. -/
theorem removeBody_inv {L : Nat → List Nat} {rest : List Nat} {s : Sp F} (h : Inv L rest s) (hl : s.locked = 0)
    {b : Nat} (hb : (s.bodies b).inSpace = true) (hn : b ≠ s.staticBody) :
    ∃ t u, s.removeBody b = some t ∧ Inv L rest t ∧ Woke s u ∧ t = { u with
      bodies := Function.update u.bodies b { u.bodies b with inSpace := false }
      dynamicBodies := (if u.typ b = .static then u.dynamicBodies else u.dynamicBodies.erase b)
      staticBodies := (if u.typ b = .static then u.staticBodies.erase b else u.staticBodies) } := by
  obtain ⟨u, e, hu, w, hr, -⟩ := bodyActivate_inv h b
  have hlu : u.locked = 0 := by rw [w.locked]; exact hl
  have hA : ¬ u.off b := by rw [hu.off_iff hlu]; simp [hr]
  have ht : s.removeBody b = some { u with
      bodies := Function.update u.bodies b { u.bodies b with inSpace := false }
      dynamicBodies := (if u.typ b = .static then u.dynamicBodies else u.dynamicBodies.erase b)
      staticBodies := (if u.typ b = .static then u.staticBodies.erase b else u.staticBodies) } := by
    unfold removeBody; rw [if_neg (by simp [hb, hl, hn]), e]
    simp only [Option.bind_eq_bind, Option.bind_some]
    dsimp only [setBody]
    split_ifs <;> rfl
  have bi := hu.full.core.body
  rw [← w.staticBody] at hn
  refine ⟨_, u, ht, hu.editBodies _ _ _ ?_ ?_ ?_, w, rfl⟩
  · intro x
    by_cases hx : x = b
    · subst hx; simp
    · simp [hx]
  · have hty : ∀ x, (Function.update u.bodies b { u.bodies b with inSpace := false } x).type = u.typ x := by
      intro x
      by_cases hx : x = b
      · subst hx; simp [typ, BodyR.type]
      · simp [hx, typ]
    have hin : ∀ x, (Function.update u.bodies b { u.bodies b with inSpace := false } x).inSpace =
        if x = b then false else (u.bodies x).inSpace := by
      intro x
      by_cases hx : x = b
      · subst hx; simp
      · simp [hx]
    constructor
    · dsimp only; split_ifs
      · exact bi.dynNodup
      · exact bi.dynNodup.erase b
    · dsimp only; split_ifs
      · exact bi.statNodup.erase b
      · exact bi.statNodup
    · intro x
      simp only [typ]
      rw [hty, hin]
      have := bi.memDyn x
      have e2 := bi.dynNodup.mem_erase_iff (a := x) (b := b)
      by_cases hx : x = b
      · subst hx
        by_cases e : u.typ x = .static <;> simp_all [typ]
      · by_cases e : u.typ b = .static <;> simp_all [typ]
    · intro x
      simp only [typ]
      rw [hty, hin]
      have := bi.memStat x
      have e2 := bi.statNodup.mem_erase_iff (a := x) (b := b)
      by_cases hx : x = b
      · subst hx
        by_cases e : u.typ x = .static <;> simp_all [typ]
      · by_cases e : u.typ b = .static <;> simp_all [typ]
    · intro x hx
      simp only [typ]
      rw [hin, hty]
      have hxb : x ≠ b := by rintro rfl; exact hA hx
      have := bi.off x hx
      simp [this, hxb]
    · intro x hx
      simp only at hx
      rw [hin] at hx
      split_ifs at hx with e
      exact bi.bound x hx
  · simp [hn.symm, hu.num.sb.1]

end Sp
end CP
