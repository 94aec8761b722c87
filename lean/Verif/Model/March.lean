import Verif.Model.PolyLine

/-! # Marching squares: /repo/march.go

The two user functions are not modelled: the model records their calls in order. The result of the sample function may depend
on the number of the call, so that it need not be pure. `none` is a panic. -/

namespace CP
namespace March
open GoFloat PL
variable {F : Type} [GoFloat F]

/-- The calls of the user's functions. -/
inductive Ev (F : Type)
  | sample (p : Vec F)
  | seg (v0 v1 : Vec F)

/-- /repo/march.go:57-61 `seg`: the calls of `marchSegment`. -/
def seg (v0 v1 : Vec F) : List (Vec F × Vec F) := if vecEq v0 v1 then [] else [(v1, v0)]

/-- /repo/march.go:126-129 `segs`. -/
def segs (a b c : Vec F) : List (Vec F × Vec F) := seg b c ++ seg a b

/-- /repo/march.go:63-65 `midlerp`. -/
def midlerp (x0 x1 s0 s1 t : F) : F := lerp x0 x1 ((t - s0) / (s1 - s0))

/-- The switch of both cell functions: /repo/march.go:85 and /repo/march.go:152, over the bits `a > t`, …, `d > t`. -/
def code (t a b c d : F) : Nat :=
  (if t < a then 1 else 0) + (if t < b then 2 else 0) + (if t < c then 4 else 0) + (if t < d then 8 else 0)

/-- /repo/march.go:67-117 `MarchCellSoft`. -/
def cellSoft (t a b c d x0 x1 y0 y1 : F) : List (Vec F × Vec F) :=
  match code t a b c d with
  | 0x1 => seg ⟨x0, midlerp y0 y1 a c t⟩ ⟨midlerp x0 x1 a b t, y0⟩
  | 0x2 => seg ⟨midlerp x0 x1 a b t, y0⟩ ⟨x1, midlerp y0 y1 b d t⟩
  | 0x3 => seg ⟨x0, midlerp y0 y1 a c t⟩ ⟨x1, midlerp y0 y1 b d t⟩
  | 0x4 => seg ⟨midlerp x0 x1 c d t, y1⟩ ⟨x0, midlerp y0 y1 a c t⟩
  | 0x5 => seg ⟨midlerp x0 x1 c d t, y1⟩ ⟨midlerp x0 x1 a b t, y0⟩
  | 0x6 => seg ⟨midlerp x0 x1 a b t, y0⟩ ⟨x1, midlerp y0 y1 b d t⟩ ++
      seg ⟨midlerp x0 x1 c d t, y1⟩ ⟨x0, midlerp y0 y1 a c t⟩
  | 0x7 => seg ⟨midlerp x0 x1 c d t, y1⟩ ⟨x1, midlerp y0 y1 b d t⟩
  | 0x8 => seg ⟨x1, midlerp y0 y1 b d t⟩ ⟨midlerp x0 x1 c d t, y1⟩
  | 0x9 => seg ⟨x0, midlerp y0 y1 a c t⟩ ⟨midlerp x0 x1 a b t, y0⟩ ++
      seg ⟨x1, midlerp y0 y1 b d t⟩ ⟨midlerp x0 x1 c d t, y1⟩
  | 0xA => seg ⟨midlerp x0 x1 a b t, y0⟩ ⟨midlerp x0 x1 c d t, y1⟩
  | 0xB => seg ⟨x0, midlerp y0 y1 a c t⟩ ⟨midlerp x0 x1 c d t, y1⟩
  | 0xC => seg ⟨x1, midlerp y0 y1 b d t⟩ ⟨x0, midlerp y0 y1 a c t⟩
  | 0xD => seg ⟨x1, midlerp y0 y1 b d t⟩ ⟨midlerp x0 x1 a b t, y0⟩
  | 0xE => seg ⟨midlerp x0 x1 a b t, y0⟩ ⟨x0, midlerp y0 y1 a c t⟩
  | _ => []

/-- /repo/march.go:131-184 `MarchCellHard`. -/
def cellHard (t a b c d x0 x1 y0 y1 : F) : List (Vec F × Vec F) :=
  let xm := lerp x0 x1 (lit (1 / 2))
  let ym := lerp y0 y1 (lit (1 / 2))
  match code t a b c d with
  | 0x1 => segs ⟨x0, ym⟩ ⟨xm, ym⟩ ⟨xm, y0⟩
  | 0x2 => segs ⟨xm, y0⟩ ⟨xm, ym⟩ ⟨x1, ym⟩
  | 0x3 => seg ⟨x0, ym⟩ ⟨x1, ym⟩
  | 0x4 => segs ⟨xm, y1⟩ ⟨xm, ym⟩ ⟨x0, ym⟩
  | 0x5 => seg ⟨xm, y1⟩ ⟨xm, y0⟩
  | 0x6 => segs ⟨xm, y0⟩ ⟨xm, ym⟩ ⟨x0, ym⟩ ++ segs ⟨xm, y1⟩ ⟨xm, ym⟩ ⟨x1, ym⟩
  | 0x7 => segs ⟨xm, y1⟩ ⟨xm, ym⟩ ⟨x1, ym⟩
  | 0x8 => segs ⟨x1, ym⟩ ⟨xm, ym⟩ ⟨xm, y1⟩
  | 0x9 => segs ⟨x1, ym⟩ ⟨xm, ym⟩ ⟨xm, y0⟩ ++ segs ⟨x0, ym⟩ ⟨xm, ym⟩ ⟨xm, y1⟩
  | 0xA => seg ⟨xm, y0⟩ ⟨xm, y1⟩
  | 0xB => segs ⟨x0, ym⟩ ⟨xm, ym⟩ ⟨xm, y1⟩
  | 0xC => seg ⟨x1, ym⟩ ⟨x0, ym⟩
  | 0xD => segs ⟨x1, ym⟩ ⟨xm, ym⟩ ⟨xm, y0⟩
  | 0xE => segs ⟨xm, y0⟩ ⟨xm, ym⟩ ⟨x0, ym⟩
  | _ => []

/-- The type of the cell functions, /repo/march.go:15 `MarchCellFunc`. -/
abbrev Cell (F : Type) := F → F → F → F → F → F → F → F → F → List (Vec F × Vec F)

/-- The calls made so far and the contents of `buffer`. -/
structure St (F : Type) where
  log : List (Ev F)
  buf : List F

/-- The number of samples taken: only used to let the sample function depend on it. -/
def calls (log : List (Ev F)) : Nat := (log.filter fun e => match e with | .sample _ => true | .seg _ _ => false).length

/-- One call of `marchSample`. -/
def take (sample : Nat → Vec F → F) (p : Vec F) (st : St F) : F × St F :=
  (sample (calls st.log) p, { st with log := st.log ++ [.sample p] })

/-- The first loop, /repo/march.go:25-27, for the `i` that are left. -/
def firstRow (bb : BB F) (xd : F) (sample : Nat → Vec F → F) : List Nat → St F → St F
  | [], st => st
  | i :: is, st =>
    let (v, st) := take sample ⟨lerp bb.l bb.r (ofInt i * xd), bb.b⟩ st
    firstRow bb xd sample is { st with buf := st.buf.set i v }

/-- The inner loop, /repo/march.go:40-51. -/
def rowLoop (bb : BB F) (xd t y0 y1 : F) (sample : Nat → Vec F → F) (cell : Cell F) : List Nat → F → F → St F → Option (St F)
  | [], _, _, st => some st
  | i :: is, b, d, st => do
    let x0 := lerp bb.l bb.r (ofInt i * xd)
    let x1 := lerp bb.l bb.r (ofInt (i + 1 : Nat) * xd)
    let a := b
    let b ← st.buf[i + 1]?
    let c := d
    let (d, st) := take sample ⟨x1, y1⟩ st
    let st := { log := st.log ++ (cell t a b c d x0 x1 y0 y1).map (fun s => Ev.seg s.1 s.2), buf := st.buf.set (i + 1) d }
    rowLoop bb xd t y0 y1 sample cell is b d st

/-- The outer loop, /repo/march.go:30-52. -/
def rows (bb : BB F) (xs : Nat) (xd yd t : F) (sample : Nat → Vec F → F) (cell : Cell F) : List Nat → St F → Option (St F)
  | [], st => some st
  | j :: js, st => do
    let y0 := lerp bb.b bb.t (ofInt j * yd)
    let y1 := lerp bb.b bb.t (ofInt (j + 1 : Nat) * yd)
    let b ← st.buf[0]?
    let (d, st) := take sample ⟨bb.l, y1⟩ st
    let st := { st with buf := st.buf.set 0 d }
    let st ← rowLoop bb xd t y0 y1 sample cell (List.range (xs - 1)) b d st
    rows bb xs xd yd t sample cell js st

/-- /repo/march.go:18-55 `MarchCells`: the calls it makes. The numbers of samples are not negative (`make` panics for a
negative `xSamples`). -/
def marchCells (bb : BB F) (xs ys : Nat) (t : F) (sample : Nat → Vec F → F) (cell : Cell F) : Option (List (Ev F)) := do
  let xd := 1 / ofInt (xs - 1 : Int)
  let yd := 1 / ofInt (ys - 1 : Int)
  let st := firstRow bb xd sample (List.range xs) ⟨[], List.replicate xs 0⟩
  let st ← rows bb xs xd yd t sample cell (List.range (ys - 1)) st
  some st.log

/-- /repo/march.go:122-124 `MarchSoft`. -/
def marchSoft (bb : BB F) (xs ys : Nat) (t : F) (sample : Nat → Vec F → F) : Option (List (Ev F)) :=
  marchCells bb xs ys t sample cellSoft

/-- /repo/march.go:189-191 `MarchHard`. -/
def marchHard (bb : BB F) (xs ys : Nat) (t : F) (sample : Nat → Vec F → F) : Option (List (Ev F)) :=
  marchCells bb xs ys t sample cellHard

end March
end CP
