import Verif.Model.Axis
import Verif.Model.Rule
/-
Model of `IGABasisInitQuadrature`, src/petigabasis.c:83-219.  The basis kernel (`IGA_Basis_BSpline`, …) is
a parameter `cb k u`, the table of values it writes for interval `k` at `u`.
-/
namespace PetIGA.Quad
open PetIGA.Ax PetIGA.Rule

variable {K : Type} [Field K] [LinearOrder K] [IsStrictOrderedRing K]

/-- `IGABasisType`, include/petiga.h. -/
inductive BasisType where
  | bspline | bernstein | lagrange | spectral
  deriving DecidableEq, Repr

/-- The arrays of one element. -/
structure Elem (K V : Type) where
  offset : Int
  detJac : K
  weight : List K
  point : List K
  value : List (Option V)   -- `none` = memory never written

/-- `struct _n_IGABasis` (include/petiga.h); the boundary tables are `bnd`. -/
structure Basis (K V : Type) where
  nqp : Int
  nen : Int
  elems : List (Elem K V)
  bnd : V × V

/-- Points and weights of the element on the knot interval `k`, petigabasis.c:127-138 and the macro
`SetRule`, :141-160: the rule mapped affinely, then padding up to `nqp` with weight 0 and
`huge = PETSC_MAX_REAL`. -/
def setRule (U : Int → K) (nqp : Nat) (huge : K) (X W : List K) (k : Int) : K × List K × List K :=
  let u0 := U k
  let u1 := U (k+1)
  let J := (u1 - u0) / 2
  (J, W ++ List.replicate (nqp - W.length) 0,
   X.map (fun x => (x + 1) * J + u0) ++ List.replicate (nqp - X.length) huge)

/-- `for (iqp=0; iqp<nqp && w[iqp]>0; iqp++) ComputeBasis(...)`, petigabasis.c:193-194: the loop stops at the
first weight that is not positive and the rest of the array is not written. -/
def tabulate {V : Type} (cb : K → V) : List K → List K → List (Option V)
  | w :: ws, u :: us =>
    if w > 0 then some (cb u) :: tabulate cb ws us
    else none :: ws.map fun _ => none
  | _, _ => []

/-- The multiplicity check of non-B-spline bases, petigabasis.c:109-118. -/
def c0Ok (p m : Int) (U : Int → K) : Nat → Int → Bool
  | 0, _ => true
  | f+1, k =>
    if k < m then
      let j := nextKnot m U k 1
      if j - k < p then false else c0Ok p m U f j
    else true

/-- Points, weights and tables of one element, petigabasis.c:187-195. -/
def mkElem {V : Type} (cb : Int → K → V) (p : Int) (U : Int → K) (nqp : Nat) (huge : K) (X W : List K)
    (k : Int) : Elem K V :=
  let (J, w, u) := setRule U nqp huge X W k
  { offset := k - p, detJac := J, weight := w, point := u, value := tabulate (cb k) w u }

/-- `IGABasisInitQuadrature`, petigabasis.c:83-219: return code, the rule after the call (the function may
change it) and the new content of the basis (`none` if it was not reached). -/
def initQuadrature {V : Type} (cb : Int → K → V) (huge : K) (bt : BasisType) (ax : Axis K) (r : Rule K) :
    Res Unit × Rule K × Option (Basis K V) :=
  let (e, r) := if r.nqp < 1 then Rule.setSize r (ax.p+1) else (.ok (), r)
  match e with
  | .ok _ =>
    let p := ax.p
    let m := ax.m
    let n := m - p - 1
    let U := ax.U
    if bt ≠ .bspline ∧ ¬ c0Ok p m U m.toNat 1 then (.err .outOfRange, r, none)
    else
      let nqp := r.nqp
      match r.point, r.weight with
      | some X, some W =>
        let bnd := (cb p (U p), cb n (U (n+1)))
        if r.type ≠ .reduced then
          (.ok (), r, some ⟨nqp, p+1, ax.span.map (mkElem cb p U nqp.toNat huge X W), bnd⟩)
        else
          let nel := ax.span.length
          if nel > 2 then
            let (e, r) := if nqp > 1 then Rule.setSize r (nqp-1) else (.ok (), r)
            match e, r.point, r.weight with
            | .ok _, some X', some W' =>
              (.ok (), r, some ⟨nqp, p+1,
                ax.span.mapIdx (fun i k =>
                  if i = 0 ∨ i = nel - 1 then mkElem cb p U nqp.toNat huge X W k
                  else mkElem cb p U nqp.toNat huge X' W' k), bnd⟩)
            | .ok _, _, _ => (.ub, r, none)
            | e, _, _ => (e, r, none)
          else
            (.ok (), r, some ⟨nqp, p+1, ax.span.map (mkElem cb p U nqp.toNat huge X W), bnd⟩)
      | _, _ => (.ub, r, none)
  | e => (e, r, none)

end PetIGA.Quad
