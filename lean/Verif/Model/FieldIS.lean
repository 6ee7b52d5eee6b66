import Verif.Model.Basic
/-
Model of the index sets that src/petigadm.c builds for the fields of a vector: `DMCreateSubDM_IGA` and
`DMCreateFieldIS_IGA`.  `iga->map` is a PETSc layout with block size `bs = dof` whose range on this process is
`[start,end)` (contract of `PetscLayout`, trusted).
-/
namespace PetIGA.DMF

/-- The index list built by `DMCreateSubDM_IGA` with a non-null `is`, petigadm.c:304-321: the fields are checked
against `iga->dof`, the range is divided by the block size and `j*bs + fields[i]` is stored for every block `j` and
every requested field.  The allocation has `n*numFields` entries, exactly the number stored. -/
def subIS (dof bs start stop : Int) (fields : List Int) : Res (List Int) :=
  if fields.all (fun f => decide (0 ≤ f ∧ f < dof)) then
    let s := Int.tdiv start bs
    let e := Int.tdiv stop bs
    .ok ((List.range (e - s).toNat).flatMap fun (j : Nat) => fields.map fun f => (s + (j:Int)) * bs + f)
  else .err .outOfRange

/-- `ISCreateStride(comm,n,first,step)` on one process: `first, first+step, …` (contract of PETSc, trusted). -/
def stride (n : Nat) (first step : Int) : List Int := (List.range n).map fun (k : Nat) => first + (k:Int) * step

/-- The index sets built by `DMCreateFieldIS_IGA`, petigadm.c:355-363: `start /= bs; end /= bs; n = end-start;` and
for every field `i` `ISCreateStride(comm,n,start+i,bs)`. -/
def fieldIS (bs start stop : Int) : List (List Int) :=
  let s := Int.tdiv start bs
  let e := Int.tdiv stop bs
  (List.range bs.toNat).map fun (i : Nat) => stride (e - s).toNat (s + (i:Int)) bs

end PetIGA.DMF
