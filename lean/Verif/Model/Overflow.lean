import Verif.Model.Part
import Verif.Model.Grid
import Verif.Model.Elem
import Verif.Model.Span
/-
The integer arithmetic of the partition, of the index computations and of the table sizes with a `PetscInt` of limited
range: an operation whose result does not fit is undefined behaviour (signed overflow), `Res.ub`.  `w` is
`PETSC_MAX_INT`, `2^31-1` by default and `2^63-1` with 64-bit indices.  Loop counters, which never pass the bounds they are
compared with, and integer divisions of numbers that are not negative are left unchecked.
-/
namespace PetIGA.Ovf
open PetIGA.Part PetIGA.Grid

/-- The result of an operation on `PetscInt`. -/
def fit (w x : Int) : Res Int := if -w-1 ≤ x ∧ x ≤ w then .ok x else .ub

/-- An expression of type `PetscInt`. -/
inductive Ex where
  | lit (x : Int)
  | add (a b : Ex)
  | sub (a b : Ex)
  | mul (a b : Ex)

instance : Coe Int Ex := ⟨Ex.lit⟩
instance (n : Nat) : OfNat Ex n := ⟨Ex.lit n⟩
instance : Add Ex := ⟨Ex.add⟩
instance : Sub Ex := ⟨Ex.sub⟩
instance : Mul Ex := ⟨Ex.mul⟩

/-- Evaluation from the inside to the outside, every result checked. -/
def Ex.eval (w : Int) : Ex → Res Int
  | .lit x => .ok x
  | .add a b => do let x ← a.eval w; let y ← b.eval w; fit w (x + y)
  | .sub a b => do let x ← a.eval w; let y ← b.eval w; fit w (x - y)
  | .mul a b => do let x ← a.eval w; let y ← b.eval w; fit w (x * y)

/-- `f` for every entry of a list, in order. -/
def each {α β : Type} (f : α → Res β) : List α → Res (List β)
  | [] => .ok []
  | a :: as => do let b ← f a; let bs ← each f as; .ok (b :: bs)

/-! ### petigapart.c -/

/-- `IGA_CUT2D`, petigapart.c:12-15; compare `Part.cut2d`. -/
def cut2d (w : Int) (M N m n : Int) : Res Int := (M * (n - 1) + N * (m - 1) : Ex).eval w

/-- `IGA_CUT3D`, petigapart.c:17-20; compare `Part.cut3d`. -/
def cut3d (w : Int) (M N P m n p : Int) : Res Int := (N * P * (m - 1) + M * P * (n - 1) + M * N * (p - 1) : Ex).eval w

/-- `IGA_PART2D_INNER`, petigapart.c:22-33; compare `Part.part2dInner`.  The conversion of the guess from `double` is
undefined if it does not fit. -/
def part2dInner (w : Int) (g2 : Guess2) (size M N : Nat) : Res (Nat × Nat × Int) := do
  let _ ← fit w (g2 size M N)
  let m0 := g2 size M N
  let m1 := if m0 = 0 then 1 else m0
  let m := decDiv size m1
  let n := size / m
  let c ← cut2d w M N m n
  .ok (m, n, c)

/-- `IGA_PART2D`, petigapart.c:35-49; compare `Part.part2d`. -/
def part2d (w : Int) (g2 : Guess2) (size M N : Nat) : Res (Nat × Nat) := do
  let r1 ← part2dInner w g2 size M N
  let r2 ← part2dInner w g2 size N M
  let m1 := r1.1; let n1 := r1.2.1; let a := r1.2.2
  let n2 := r2.1; let m2 := r2.2.1; let b := r2.2.2
  let mn := if a < b then (m1, n1) else (m2, n2)
  .ok (if M = N ∧ mn.2 < mn.1 then (mn.2, mn.1) else mn)

/-- The searches of `IGA_PART3D_INNER`, petigapart.c:65-83; compare `Part.search`. -/
def search (size : Nat) (cand : Nat → Res Best) : Nat → Best → Res Best
  | 0, b => .ok b
  | x+1, b =>
    if size % (x+1) ≠ 0 then search size cand x b
    else do
      let c ← cand (x+1)
      search size cand x (if c.C < b.C then c else b)

/-- petigapart.c:67-68. -/
def candM (w : Int) (g2 : Guess2) (size M N P mm : Nat) : Res Best := do
  let r ← part2d w g2 (size/mm) N P
  let c ← cut3d w M N P mm r.1 r.2
  .ok ⟨mm, r.1, r.2, c⟩
/-- petigapart.c:74-75. -/
def candN (w : Int) (g2 : Guess2) (size M N P nn : Nat) : Res Best := do
  let r ← part2d w g2 (size/nn) M P
  let c ← cut3d w M N P r.1 nn r.2
  .ok ⟨r.1, nn, r.2, c⟩
/-- petigapart.c:81-82. -/
def candP (w : Int) (g2 : Guess2) (size M N P pp : Nat) : Res Best := do
  let r ← part2d w g2 (size/pp) M N
  let c ← cut3d w M N P r.1 r.2 pp
  .ok ⟨r.1, r.2, pp, c⟩

/-- `IGA_PART3D_INNER`, petigapart.c:51-88; compare `Part.part3dInner`. -/
def part3dInner (w : Int) (g2 : Guess2) (g3 : Guess3) (size M N P : Nat) : Res Best := do
  let _ ← fit w (g3 size M N P)
  let m0 := g3 size M N P
  let m1 := if m0 = 0 then 1 else m0
  let m := decDiv size m1
  let b0 ← candM w g2 size M N P m
  let b1 ← search size (candM w g2 size M N P) b0.m b0
  let b2 ← search size (candN w g2 size M N P) b1.n b1
  let b3 ← search size (candP w g2 size M N P) b2.p b2
  let c ← cut3d w M N P b3.m b3.n b3.p
  .ok { b3 with C := c }

/-- `IGA_PART3D`, petigapart.c:90-104; compare `Part.part3d`. -/
def part3d (w : Int) (g2 : Guess2) (g3 : Guess3) (size M N P : Nat) : Res (Nat × Nat × Nat) := do
  let r0 ← part3dInner w g2 g3 size M N P
  let r1 ← part3dInner w g2 g3 size N M P
  let r2 ← part3dInner w g2 g3 size P M N
  let c0 : Best := r0
  let c1 : Best := ⟨r1.n, r1.m, r1.p, r1.C⟩
  let c2 : Best := ⟨r2.n, r2.p, r2.m, r2.C⟩
  let b := if c1.C < c0.C then c1 else c0
  let b := if c2.C < b.C then c2 else b
  let m := b.m; let n := b.n; let p := b.p
  let mn := if M = N ∧ n < m then (n, m) else (m, n)
  let m := mn.1; let n := mn.2
  let mp := if M = P ∧ p < m then (p, m) else (m, p)
  let m := mp.1; let p := mp.2
  let np := if N = P ∧ p < n then (p, n) else (n, p)
  let n := np.1; let p := np.2
  .ok (m, n, p)

/-- `IGA_Dist1D`, petigapart.c:170-176; compare `Part.dist1D`. -/
def dist1D (w : Int) (size rank N : Int) : Res (Int × Int) := do
  let n ← (Int.tdiv N size + (if Int.tmod N size > rank then 1 else 0 : Int) : Ex).eval w
  let s ← (rank * Int.tdiv N size + (if Int.tmod N size > rank then rank else Int.tmod N size : Int) : Ex).eval w
  .ok (n, s)

/-! ### petigagrid.c -/

/-- `c + bs*(i + j * jstride + k * kstride)`, petigagrid.c:125, 159. -/
def position (w bs jstride kstride c i j k : Int) : Res Int := (c + bs * (i + j * jstride + k * kstride) : Ex).eval w

/-- `IGA_Grid_LocalIndices`, petigagrid.c:98-130; compare `Grid.localIndices`.  Directions beyond the dimension have size
1, start 0 and width 1. -/
def localIndices (w : Int) (bs : Nat) (d0 d1 d2 : GDir) : Res (List Int) := do
  let kstride ← (d0.size * d1.size : Ex).eval w
  let _ ← (d0.lstart + d0.lwidth : Ex).eval w
  let _ ← (d1.lstart + d1.lwidth : Ex).eval w
  let _ ← (d2.lstart + d2.lwidth : Ex).eval w
  let _ ← ((bs : Int) * d0.lwidth * d1.lwidth * d2.lwidth : Ex).eval w
  let ls ← each (fun x => match x with
    | [i, j, k] => each (fun c : Nat => position w bs d0.size kstride c i j k) (List.range bs)
    | _ => .ok []) (box (lbox [d0, d1, d2]))
  .ok ls.flatten

/-- `if (ig<0) ig = isize + ig; else if (ig>=isize) ig = ig % isize;`, petigagrid.c:155-157; compare `Grid.wrap`. -/
def wrap (w size i : Int) : Res Int :=
  if i < 0 then (size + i : Ex).eval w else if i ≥ size then .ok (Int.tmod i size) else .ok i

/-- `IGA_Grid_GhostIndices`, petigagrid.c:132-165; compare `Grid.ghostIndices`. -/
def ghostIndices (w : Int) (bs : Nat) (d0 d1 d2 : GDir) : Res (List Int) := do
  let kstride ← (d0.size * d1.size : Ex).eval w
  let _ ← (d0.gstart + d0.gwidth : Ex).eval w
  let _ ← (d1.gstart + d1.gwidth : Ex).eval w
  let _ ← (d2.gstart + d2.gwidth : Ex).eval w
  let _ ← ((bs : Int) * d0.gwidth * d1.gwidth * d2.gwidth : Ex).eval w
  let ls ← each (fun x => match x with
    | [i, j, k] => do
      let ig ← wrap w d0.size i
      let jg ← wrap w d1.size j
      let kg ← wrap w d2.size k
      each (fun c : Nat => position w bs d0.size kstride c ig jg kg) (List.range bs)
    | _ => .ok []) (box (gbox [d0, d1, d2]))
  .ok ls.flatten

/-- The sizes of the vectors, `bs*width[0]*width[1]*width[2]` and `bs*sizes[0]*sizes[1]*sizes[2]` in
`IGA_Grid_GetLayout`, petigagrid.c:240-241. -/
def layout (w : Int) (bs : Nat) (d0 d1 d2 : GDir) : Res (Int × Int) := do
  let n ← ((bs : Int) * d0.lwidth * d1.lwidth * d2.lwidth : Ex).eval w
  let N ← ((bs : Int) * d0.size * d1.size * d2.size : Ex).eval w
  .ok (n, N)

/-! ### petigaelem.c -/

/-- `element->mapping` of `IGAElementBuildClosure`, petigaelem.c:702-721; compare `Elem.closure`. -/
def closure (w : Int) (d0 d1 d2 : Elem.CDir) : Res (List Int) := do
  let kstride ← (d0.gwidth * d1.gwidth : Ex).eval w
  each (fun a : Nat × Nat × Nat => do
    let iA ← (d0.offset + (a.1 : Int) - d0.gstart : Ex).eval w
    let jA ← (d1.offset + (a.2.1 : Int) - d1.gstart : Ex).eval w
    let kA ← (d2.offset + (a.2.2 : Int) - d2.gstart : Ex).eval w
    (iA + jA * d0.gwidth + kA * kstride : Ex).eval w)
    ((List.range d2.nen).flatMap fun ka => (List.range d1.nen).flatMap fun ja => (List.range d0.nen).map fun ia => (ia, ja, ka))

/-- The positions `map[a]*n + i`, `i < n`, read by the element from an array of `n` values per node of the ghosted box,
petigaelem.c:742-743, 751-752 and 1091-1094 (`IGAElementGetValues`). -/
def gather (w : Int) (n : Nat) (map : List Int) : Res (List Int) := do
  let ls ← each (fun a : Int => each (fun i : Nat => (a * (n : Int) + (i : Int) : Ex).eval w) (List.range n)) map
  .ok ls.flatten

/-! ### petigabasis.c -/

/-- The number of entries of the table of basis functions, `nel*nqp*nen*ndr` with `nen = p+1` and `ndr = 5`,
petigabasis.c:171, 187. -/
def tableSize (w nel nqp p : Int) : Res Int := (nel * nqp * (p + 1) * 5 : Ex).eval w

/-- The positions `iel*nqp*nen*ndr` and `iqp*nen*ndr` of the functions of point `iqp` of element `iel`,
petigabasis.c:192-195. -/
def tableAt (w nqp p iel iqp : Int) : Res (Int × Int) := do
  let a ← (iel * nqp * (p + 1) * 5 : Ex).eval w
  let b ← (iqp * (p + 1) * 5 : Ex).eval w
  .ok (a, b)

/-- The loop of `IGA_FindSpan`, petigabasis.c:306-316; compare `Ax.findLoop`. -/
def findLoop {K : Type} [LinearOrder K] (w : Int) (u : K) (U : Int → K) : Nat → Int → Int → Res (Option Int)
  | 0, _, _ => .ok none
  | f+1, low, high => do
    let s ← (high + low : Ex).eval w
    let span := Int.tdiv s 2
    if u < U span then findLoop w u U f low span
    else do
      let next ← (span + 1 : Ex).eval w
      if u ≥ U next then findLoop w u U f span high else .ok (some span)

/-- `IGA_FindSpan`, petigabasis.c:301-318; compare `Ax.findSpan`. -/
def findSpan {K : Type} [LinearOrder K] (w : Int) (fuel : Nat) (n p : Int) (u : K) (U : Int → K) : Res (Option Int) :=
  if u ≤ U p then .ok (some p)
  else do
    let n1 ← (n + 1 : Ex).eval w
    if u ≥ U n1 then .ok (some n) else findLoop w u U fuel p n1

end PetIGA.Ovf
