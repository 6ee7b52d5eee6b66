import Verif.Model.BDDC
import Mathlib.Data.Real.Sqrt
import Mathlib.LinearAlgebra.Matrix.DotProduct

/-!
Model of the near null space `IGAPreparePCBDDC` makes with the option -iga_set_bddc_minimal (src/petigapcbddc.c:308-432) and of
`OrthonormalizeVecs_Private` (src/petigapcbddc.c:3-19).

Simplified: real scalars, exact arithmetic; vectors are functions of the unknowns, whatever process owns these.
-/

namespace PetIGA.BDDC
open PetIGA.Lay PetIGA.Grid

/-! ### Orthonormalisation -/

section
variable {n : Nat}

/-- `VecMDot` (alphas[j] is the product of `vecs[j]` and `v`), the signs, and `VecMAXPY`, petigapcbddc.c:12-14. -/
def reduceBy (done : List (Fin n → ℝ)) (v : Fin n → ℝ) : Fin n → ℝ :=
  v + (done.map fun d => (-1 * (d ⬝ᵥ v)) • d).sum

/-- `VecNormalize`, petigapcbddc.c:15 (contract of PETSc): a vector of norm zero is left alone. -/
noncomputable def normalize (w : Fin n → ℝ) : Fin n → ℝ :=
  if Real.sqrt (w ⬝ᵥ w) = 0 then w else (1 / Real.sqrt (w ⬝ᵥ w)) • w

/-- `OrthonormalizeVecs_Private`, petigapcbddc.c:3-19. -/
noncomputable def orthonormalize (vs : List (Fin n → ℝ)) : List (Fin n → ℝ) :=
  vs.foldl (fun done v => done ++ [normalize (reduceBy done v)]) []

/-- The vectors before they are orthonormalised, petigapcbddc.c:405-419: `nn` are the vectors of the near null space of the matrix,
`cnst` whether it contains the constants, `vol` the values of -iga_set_bddc_minimal_volume. -/
def minimalVecs (mask : Fin n → ℝ) (cnst : Bool) (nn : List (Fin n → ℝ)) (vol : List Int) : Res (List (Fin n → ℝ)) :=
  if vol.any (fun i => decide (i < 0 ∨ i ≥ nn.length)) then .err .user
  else .ok ((if cnst then [mask] else []) ++ nn.map (fun v => v * mask) ++ vol.map fun i => nn.getD i.toNat 0)

end

/-! ### The mask -/

/-- `mid[i]`, petigapcbddc.c:355. -/
def midOf (d : Dir) : Int := d.nodeGwidth - Int.tdiv (d.nodeGstart + d.nodeGwidth - (d.nodeLstart + d.nodeLwidth)) 2 - 1

/-- `fix[i]`, petigapcbddc.c:354. -/
def fixOf (d : Dir) : Int :=
  let lend := d.nodeLstart + d.nodeLwidth
  let gend := d.nodeGstart + d.nodeGwidth
  if lend = gend - 1 ∨ lend = gend then 1 else 0

/-- The nodes of the plane of direction `i` in local indices, petigapcbddc.c:360-386: the condition uses `fix[0]` in all directions. -/
def onMid (ds : List Dir) (x : List Int) (i : Nat) : Bool :=
  match ds[i]?, x[i]? with
  | some d, some xi =>
    decide (0 < midOf d ∧ midOf d < d.nodeGwidth - 1 + (ds.map fixOf).getD 0 0 ∧ xi = midOf d) &&
    (List.range ds.length).all fun j => decide (j = i) || (match ds[j]?, x[j]? with
      | some e, some xj => decide (e.nodeLstart - e.nodeGstart ≤ xj ∧ xj < e.nodeLstart - e.nodeGstart + e.nodeLwidth)
      | _, _ => false)
  | _, _ => false

/-- `vals[bs*ii+b]` at the local node `x`, petigapcbddc.c:359-386. -/
def marked (ds : List Dir) (x : List Int) : Bool := (List.range ds.length).any (onMid ds x)

/-- The nodes of the box of a process, in global coordinates. -/
def nodesOf (ds : List Dir) : List (List Int) := box (ds.map fun d => (d.nodeGstart, d.nodeGwidth))

/-- The vector `fat` at the node `z`, petigapcbddc.c:335-347: every process adds one for every node of its box
(`VecSetValuesBlockedLocal` with the wrapped numbers of the nodes). -/
def fat {K : Type} (Ls : List (Layout K)) (z : List Int) : Nat :=
  (Ls.map fun L => ((nodesOf L.dir).filter fun x => decide (wrapAll (L.dir.map Dir.nodeSize) x = z)).length).sum

/-- The vector `mask` before the comparison, petigapcbddc.c:387-389. -/
def marks {K : Type} (Ls : List (Layout K)) (z : List Int) : Nat :=
  (Ls.map fun L => ((nodesOf L.dir).filter fun x =>
    decide (wrapAll (L.dir.map Dir.nodeSize) x = z) && marked L.dir (List.zipWith (fun i d => i - d.nodeGstart) x L.dir)).length).sum

/-- The mask, petigapcbddc.c:397-403: `|2^m - f| < PETSC_SMALL` for whole numbers. -/
def mask {K : Type} (Ls : List (Layout K)) (z : List Int) : Bool := decide (2 ^ marks Ls z = fat Ls z)

end PetIGA.BDDC
