import Verif.Model.Basic
/-
Model of src/petigapart.c: the processor grid and the 1-D distribution.

Simplifications: PetscInt is unbounded.  The floating point initial guesses
`(PetscInt)(0.5 + sqrt(...))` and `(PetscInt)(0.5 + pow(...,1./3.))` are oracles `g2`, `g3`
(arbitrary functions to `Nat`; `Spec.RoundSqrt`/`Spec.RoundCbrt` say what exact arithmetic gives).
When a grid size is < 1 on a path that evaluates them, the C code divides by zero or takes the root of a
negative number in floating point and converts the result to an integer: `ub`.
-/
namespace PetIGA.Part

/-- Oracle for the 2-D guess: `g2 size M N` stands for `(PetscInt)(0.5 + sqrt(M/N*size))`,
petigapart.c:28. -/
abbrev Guess2 := Nat → Nat → Nat → Nat
/-- Oracle for the 3-D guess: `g3 size M N P` stands for
`(PetscInt)(0.5 + pow(M*M/(N*P)*size,1./3.))`, petigapart.c:58. -/
abbrev Guess3 := Nat → Nat → Nat → Nat → Nat

/-- `while (m > 0 && size % m) m--;` petigapart.c:29 and :59. -/
def decDiv (size : Nat) : Nat → Nat
  | 0 => 0
  | m+1 => if size % (m+1) ≠ 0 then decDiv size m else m+1

/-- `IGA_CUT2D`, petigapart.c:12-15. -/
def cut2d (M N m n : Nat) : Int := (M:Int)*((n:Int)-1) + (N:Int)*((m:Int)-1)

/-- `IGA_CUT3D`, petigapart.c:17-20. -/
def cut3d (M N P m n p : Nat) : Int :=
  (N:Int)*P*((m:Int)-1) + (M:Int)*P*((n:Int)-1) + (M:Int)*N*((p:Int)-1)

/-- `IGA_PART2D_INNER`, petigapart.c:22-33; returns `(m, n, cost)`. -/
def part2dInner (g2 : Guess2) (size M N : Nat) : Nat × Nat × Int :=
  let m0 := g2 size M N
  let m1 := if m0 = 0 then 1 else m0
  let m := decDiv size m1
  let n := size / m
  (m, n, cut2d M N m n)

/-- `IGA_PART2D`, petigapart.c:35-49. -/
def part2d (g2 : Guess2) (size M N : Nat) : Nat × Nat :=
  let r1 := part2dInner g2 size M N
  let r2 := part2dInner g2 size N M
  let m1 := r1.1; let n1 := r1.2.1; let a := r1.2.2
  let n2 := r2.1; let m2 := r2.2.1; let b := r2.2.2
  let mn := if a < b then (m1, n1) else (m2, n2)
  if M = N ∧ mn.2 < mn.1 then (mn.2, mn.1) else mn

/-- The running best candidate `(m,n,p,C)` of `IGA_PART3D_INNER`. -/
structure Best where
  m : Nat
  n : Nat
  p : Nat
  C : Int
  deriving DecidableEq, Repr

/-- One of the three downward searches `for (x=x0; x>=1; x--) { if (size % x) continue; … if (CC < C) … }`
of `IGA_PART3D_INNER`, petigapart.c:65-83; `cand x` is the candidate computed in the body. -/
def search (size : Nat) (cand : Nat → Best) : Nat → Best → Best
  | 0, b => b
  | x+1, b =>
    search size cand x
      (if size % (x+1) ≠ 0 then b else if (cand (x+1)).C < b.C then cand (x+1) else b)

/-- Loop body of the first search, petigapart.c:67-68. -/
def candM (g2 : Guess2) (size M N P mm : Nat) : Best :=
  let r := part2d g2 (size/mm) N P
  ⟨mm, r.1, r.2, cut3d M N P mm r.1 r.2⟩
/-- Loop body of the second search, petigapart.c:74-75. -/
def candN (g2 : Guess2) (size M N P nn : Nat) : Best :=
  let r := part2d g2 (size/nn) M P
  ⟨r.1, nn, r.2, cut3d M N P r.1 nn r.2⟩
/-- Loop body of the third search, petigapart.c:81-82. -/
def candP (g2 : Guess2) (size M N P pp : Nat) : Best :=
  let r := part2d g2 (size/pp) M N
  ⟨r.1, r.2, pp, cut3d M N P r.1 r.2 pp⟩

/-- `IGA_PART3D_INNER`, petigapart.c:51-88. -/
def part3dInner (g2 : Guess2) (g3 : Guess3) (size M N P : Nat) : Best :=
  let m0 := g3 size M N P
  let m1 := if m0 = 0 then 1 else m0
  let m := decDiv size m1
  let b0 := candM g2 size M N P m
  let b1 := search size (candM g2 size M N P) b0.m b0
  let b2 := search size (candN g2 size M N P) b1.n b1
  let b3 := search size (candP g2 size M N P) b2.p b2
  { b3 with C := cut3d M N P b3.m b3.n b3.p }

/-- `IGA_PART3D`, petigapart.c:90-104.  (`Cmin` starts at `PETSC_MAX_INT`, i.e. above `C[0]`.) -/
def part3d (g2 : Guess2) (g3 : Guess3) (size M N P : Nat) : Nat × Nat × Nat :=
  let r0 := part3dInner g2 g3 size M N P
  let r1 := part3dInner g2 g3 size N M P
  let r2 := part3dInner g2 g3 size P M N
  let c0 : Best := r0
  let c1 : Best := ⟨r1.n, r1.m, r1.p, r1.C⟩
  let c2 : Best := ⟨r2.n, r2.p, r2.m, r2.C⟩
  let b := if c1.C < c0.C then c1 else c0
  let b := if c2.C < b.C then c2 else b
  let m := b.m; let n := b.n; let p := b.p
  let mn := if M = N ∧ n < m then (n, m) else (m, n)
  let m := mn.1; let n := mn.2
  let mp := if M = P ∧ p < m then (p, m) else (m, p)
  let m := mp.1; let p := mp.2
  let np := if N = P ∧ p < n then (p, n) else (n, p)
  let n := np.1; let p := np.2
  (m, n, p)

/-- `IGA_PART2D` called on `PetscInt` arguments; non-positive grid sizes make the floating point guess
undefined. -/
def autoPart2d (g2 : Guess2) (size M N : Int) : Res (Int × Int) :=
  if M < 1 ∨ N < 1 then .ub
  else
    let r := part2d g2 size.toNat M.toNat N.toNat
    .ok (r.1, r.2)

/-- `IGA_PART3D` called on `PetscInt` arguments. -/
def autoPart3d (g2 : Guess2) (g3 : Guess3) (size M N P : Int) : Res (Int × Int × Int) :=
  if M < 1 ∨ N < 1 ∨ P < 1 then .ub
  else
    let r := part3d g2 g3 size.toNat M.toNat N.toNat P.toNat
    .ok (r.1, r.2.1, r.2.2)

/-- `IGA_Part2D`, petigapart.c:106-117. -/
def partition2D (g2 : Guess2) (size M N m n : Int) : Res (Int × Int) :=
  if m < 1 ∧ n < 1 then autoPart2d g2 size M N
  else if m < 1 then .ok (Int.tdiv size n, n)
  else if n < 1 then .ok (m, Int.tdiv size m)
  else .ok (m, n)

/-- `IGA_Part3D`, petigapart.c:119-134. -/
def partition3D (g2 : Guess2) (g3 : Guess3) (size M N P m n p : Int) : Res (Int × Int × Int) :=
  if m < 1 ∧ n < 1 ∧ p < 1 then autoPart3d g2 g3 size M N P
  else if m < 1 ∧ n < 1 then do
    let r ← autoPart2d g2 (Int.tdiv size p) M N
    .ok (r.1, r.2, p)
  else if m < 1 ∧ p < 1 then do
    let r ← autoPart2d g2 (Int.tdiv size n) M P
    .ok (r.1, n, r.2)
  else if n < 1 ∧ p < 1 then do
    let r ← autoPart2d g2 (Int.tdiv size m) N P
    .ok (m, r.1, r.2)
  else if m < 1 then .ok (Int.tdiv size (n*p), n, p)
  else if n < 1 then .ok (m, Int.tdiv size (m*p), p)
  else if p < 1 then .ok (m, n, Int.tdiv size (m*n))
  else .ok (m, n, p)

/-- The `switch (dim)` of `IGA_Partition`, petigapart.c:153-158; `dim` is the length of the arrays. -/
def chooseGrid (g2 : Guess2) (g3 : Guess3) (size : Int) : List Int → List Int → Res (List Int)
  | [N0, N1, N2], [n0, n1, n2] => do
    let r ← partition3D g2 g3 size N0 N1 N2 n0 n1 n2
    .ok [r.1, r.2.1, r.2.2]
  | [N0, N1], [n0, n1] => do
    let r ← partition2D g2 size N0 N1 n0 n1
    .ok [r.1, r.2]
  | [_], [n0] => .ok [if n0 < 1 then size else n0]
  | _, _ => .err .outOfRange

/-- Coordinates of `rank` in the processor grid, petigapart.c:163-168
(`i[k] = rank % n[k]; rank -= i[k]; rank /= n[k];`); C division truncates. -/
def coords : List Int → Int → List Int
  | [], _ => []
  | n :: ns, rank =>
    let i := Int.tmod rank n
    i :: coords ns (Int.tdiv (rank - i) n)

/-- `IGA_Partition`, petigapart.c:136-168, with `i != NULL`.  Returns the updated `n[]` and `i[]`. -/
def partition (g2 : Guess2) (g3 : Guess3) (size rank : Int) (N n : List Int) :
    Res (List Int × List Int) := do
  check (¬ size < 1) .outOfRange
  check (¬ (rank < 0 ∨ rank ≥ size)) .outOfRange
  let n' ← chooseGrid g2 g3 size N n
  check (n'.foldl (· * ·) 1 = size) .outOfRange
  check (∀ q ∈ N.zip n', ¬ q.1 < q.2) .outOfRange
  .ok (n', coords n' rank)

/-- `IGA_Dist1D`, petigapart.c:170-176; returns `(n, s)` = (local size, first index). -/
def dist1D (size rank N : Int) : Int × Int :=
  (Int.tdiv N size + (if Int.tmod N size > rank then 1 else 0),
   rank * Int.tdiv N size + (if Int.tmod N size > rank then rank else Int.tmod N size))

/-- The argument checks of `IGA_Distribute` for one direction, petigapart.c:189-198. -/
def distCheck (size rank N : Int) : Res Unit := do
  check (¬ size < 1) .outOfRange
  check (¬ (rank < 0 ∨ rank ≥ size)) .outOfRange
  check (¬ N < 0) .outOfRange

/-- The checking loop of `IGA_Distribute`, petigapart.c:188-198. -/
def distChecks : List (Int × Int × Int) → Res Unit
  | [] => .ok ()
  | a :: as => do
    distCheck a.1 a.2.1 a.2.2
    distChecks as

/-- `IGA_Distribute`, petigapart.c:178-202: one list entry `(size, rank, N)` per direction; returns the
list of `(n, s)`. -/
def distribute (args : List (Int × Int × Int)) : Res (List (Int × Int)) := do
  check (¬ (args.length < 1 ∨ args.length > 3)) .outOfRange
  distChecks args
  .ok (args.map fun a => dist1D a.1 a.2.1 a.2.2)

end PetIGA.Part
