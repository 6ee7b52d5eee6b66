import Verif.Model.BSpline
import Mathlib.Algebra.Order.Field.Basic
import Mathlib.Data.Rat.Cast.CharZero
/-
Model of `LagrangeBasisFunsDers` (src/petigalgb.f90.in:3-80), `IGA_Basis_Lagrange`,
`IGA_Basis_Spectral` (src/petigabsp.F90:20-75), `NewtonCotesPoints` (petigabsp.F90:39-50) and
`GaussLobattoPoints` (src/petigaglp.f90.in:3-82).
-/
namespace PetIGA.Lag
open PetIGA.Bsp

variable {K : Type} [Field K]

/-- `Lp = 1; do i = 0, p: if (i is in skip) cycle; Lp = Lp * (xx-X(i))/(X(m)-X(i))`
(e.g. petigalgb.f90.in:13-17); `c` iterations done. -/
def prodLoop (xx : K) (X : Int → K) (m : Int) (skip : List Int) : Nat → K
  | 0 => 1
  | c+1 =>
    let i : Int := c
    let Lp := prodLoop xx X m skip c
    if i ∈ skip then Lp else Lp * (xx - X i) / (X m - X i)

/-- `Ls = 0; do j = 0, p: if (j is in skip) cycle; … Ls = Ls + f(j)/(X(m)-X(j))`
(e.g. petigalgb.f90.in:23-31); `c` iterations done. -/
def sumLoop (X : Int → K) (m : Int) (skip : List Int) (f : Int → K) : Nat → K
  | 0 => 0
  | c+1 =>
    let j : Int := c
    let Ls := sumLoop X m skip f c
    if j ∈ skip then Ls else Ls + f j / (X m - X j)

/-- Value of `B(0,m)`, petigalgb.f90.in:13-18. -/
def val0 (xx : K) (p : Nat) (X : Int → K) (m : Int) : K := prodLoop xx X m [m] (p+1)

/-- Value of `B(1,m)`, petigalgb.f90.in:23-32. -/
def val1 (xx : K) (p : Nat) (X : Int → K) (m : Int) : K :=
  sumLoop X m [m] (fun j => prodLoop xx X m [m, j] (p+1)) (p+1)

/-- Value of `B(2,m)`, petigalgb.f90.in:37-51. -/
def val2 (xx : K) (p : Nat) (X : Int → K) (m : Int) : K :=
  sumLoop X m [m] (fun k =>
    sumLoop X m [m, k] (fun j => prodLoop xx X m [m, k, j] (p+1)) (p+1)) (p+1)

/-- Value of `B(3,m)`, petigalgb.f90.in:56-75. -/
def val3 (xx : K) (p : Nat) (X : Int → K) (m : Int) : K :=
  sumLoop X m [m] (fun l =>
    sumLoop X m [m, l] (fun k =>
      sumLoop X m [m, l, k] (fun j => prodLoop xx X m [m, l, k, j] (p+1)) (p+1)) (p+1)) (p+1)

/-- `LagrangeBasisFunsDers`, petigalgb.f90.in:3-80, on a table `B` that already holds `B0`: rows
`0..min(d,3)` are overwritten, the others keep their content. -/
def funsDers (xx : K) (p : Nat) (d : Int) (X : Int → K) (B0 : Int → Int → K) : Int → Int → K :=
  fun t m =>
    if 0 ≤ m ∧ m ≤ p then
      if t = 0 then val0 xx p X m
      else if t = 1 ∧ 1 ≤ d then val1 xx p X m
      else if t = 2 ∧ 2 ≤ d then val2 xx p X m
      else if t = 3 ∧ 3 ≤ d then val3 xx p X m
      else B0 t m
    else B0 t m

/-- `NewtonCotesPoints(n,U0,U1,X)`, petigabsp.F90:39-50. -/
def newtonCotes (n : Int) (U0 U1 : K) : Int → K :=
  fun i => U0 + (U1 - U0) * (i : K) / ((n-1 : Int) : K)

/-- `IGA_Basis_Lagrange`, petigabsp.F90:20-51. `B0` is the content of the output on entry. -/
def basisLagrange (k : Int) (uu : K) (p : Nat) (d : Int) (U : Int → K) (B0 : Int → Int → K) :
    Int → Int → K :=
  if p = 0 then upd2 B0 0 0 1
  else funsDers uu p d (newtonCotes ((p:Int)+1) (U k) (U (k+1))) (fun _ _ => 0)

/-- The `select case (n)` of petigaglp.f90.in:10-78; `none` is the default case (`X = 0`). -/
def lobattoTable : Nat → Option (List Rat)
  | 2 => some [-1, 1]
  | 3 => some [-1, 0, 1]
  | 4 => some [-1, -0.447213595499957939281834733746255247, 0.447213595499957939281834733746255247, 1]
  | 5 => some [-1, -0.654653670707977143798292456246858356, 0, 0.654653670707977143798292456246858356, 1]
  | 6 => some [-1, -0.765055323929464692851002973959338150, -0.285231516480645096314150994040879072,
      0.285231516480645096314150994040879072, 0.765055323929464692851002973959338150, 1]
  | 7 => some [-1, -0.830223896278566929872032213967465140, -0.468848793470714213803771881908766329, 0,
      0.468848793470714213803771881908766329, 0.830223896278566929872032213967465140, 1]
  | 8 => some [-1, -0.871740148509606615337445761220663438, -0.591700181433142302144510731397953190,
      -0.209299217902478868768657260345351255, 0.209299217902478868768657260345351255,
      0.591700181433142302144510731397953190, 0.871740148509606615337445761220663438, 1]
  | 9 => some [-1, -0.899757995411460157312345244418337958, -0.677186279510737753445885427091342451,
      -0.363117463826178158710752068708659213, 0, 0.363117463826178158710752068708659213,
      0.677186279510737753445885427091342451, 0.899757995411460157312345244418337958, 1]
  | 10 => some [-1, -0.919533908166458813828932660822338134, -0.738773865105505075003106174859830725,
      -0.477924949810444495661175092731257998, -0.165278957666387024626219765958173533,
      0.165278957666387024626219765958173533, 0.477924949810444495661175092731257998,
      0.738773865105505075003106174859830725, 0.919533908166458813828932660822338134, 1]
  | _ => none

/-- Reference Lobatto point `i` for `n` points before mapping. -/
def lobattoRef (n : Nat) (i : Int) : Rat :=
  match lobattoTable n with
  | some l => l.getD i.toNat 0
  | none => 0

/-- `GaussLobattoPoints(n,U0,U1,X)`, petigaglp.f90.in:3-82. -/
def gaussLobatto (n : Nat) (U0 U1 : K) : Int → K :=
  fun i => ((lobattoRef n i : Rat) + 1 : K) * (U1 - U0) / 2 + U0

/-- `IGA_Basis_Spectral`, petigabsp.F90:54-75. -/
def basisSpectral (k : Int) (uu : K) (p : Nat) (d : Int) (U : Int → K) (B0 : Int → Int → K) :
    Int → Int → K :=
  if p = 0 then upd2 B0 0 0 1
  else funsDers uu p d (gaussLobatto (p+1) (U k) (U (k+1))) (fun _ _ => 0)

end PetIGA.Lag
