import Verif.Model.SetUp

/-!
Model of `IGASetFromOptions` (src/petiga.c:712-892) and of `IGAOptionsReject` (src/petigaopts.c), on the IGA object of
`Verif.Model.SetUp`.

The PETSc option database is a contract: an option is absent or given with a value, and the array readers
(`PetscOptionsIntArray` and its siblings) overwrite the leading entries of the array with at most `n` given values, return the
number of values read and whether the option was present, and leave array and flag alone (count 0) when it is absent.
Not modelled: the option prefix, `-iga_vec_type`, `-iga_mat_type`, the view options and the option handlers, none of which touch
the modelled fields.
-/

namespace PetIGA.Opt
open PetIGA.Ax PetIGA.Rule PetIGA.Quad PetIGA.SetUp

variable {K V : Type} [Field K] [LinearOrder K] [IsStrictOrderedRing K]

/-- The options `IGASetFromOptions` looks up; an array option without values counts as absent, except `-iga_periodic`
(so reads PETSc).  `load` is what `IGARead` of the named file does to the object
(`-iga_load`, or the older `-iga_geometry`). -/
structure Options (K V : Type) where
  dim : Option Int := none
  dof : Option Int := none
  colloc : Option Bool := none
  processors : Option (List Int) := none
  periodic : Option (List Bool) := none
  load : Option (IGA K V → Res Unit × IGA K V) := none
  elements : Option (List Int) := none
  degree : Option (List Int) := none
  continuity : Option (List Int) := none
  limits : Option (List K) := none
  order : Option Int := none
  basisType : Option (List BasisType) := none
  ruleType : Option (List RuleType) := none
  ruleSize : Option (List Int) := none
  quadrature : Option (List Int) := none

/-- `PetscOptions…Array(…,A,(n=max,&n),&flg)`: the values read from the database. -/
def given {α : Type} (o : Option (List α)) (max : Nat) : List α := (o.getD []).take max

/-- … and the array afterwards. -/
def overlay {α : Type} (o : Option (List α)) (max : Nat) (A : List α) : List α := given o max ++ A.drop (given o max).length

/-- `if (flg && n==1) for (i=1; …) A[i] = A[0];` after reading the array, petiga.c:796, 815, 849, 857, 859. -/
def spread {α : Type} (o : Option (List α)) (max : Nat) (A : List α) : List α :=
  match given o max with
  | [a] => A.map fun _ => a
  | _ => overlay o max A

/-- `(i<n) ? A[i] : A[0]`, petiga.c:824-827 and 870; `n` is the number of values read. -/
def pick {α : Type} (n : Nat) (A : List α) (i : Nat) : Option α := if i < n then A[i]? else A[0]?

/-- `dim = (iga->dim > 0) ? iga->dim : 3`, petiga.c:735, 773. -/
def dirs (s : IGA K V) : Nat := if s.dim > 0 then s.dim.toNat else 3

/-- Defaults of `-iga_degree`, petiga.c:751-754: an unset degree repeats the previous direction (the first one is 2). -/
def degreeDefaults : Int → List (Axis K) → List Int
  | _, [] => []
  | prev, ax :: axs =>
    let p := if ax.p > 0 then ax.p else prev
    p :: degreeDefaults p axs

/-- Defaults of `-iga_elements`, petiga.c:755-760 (the first one is 16). -/
def elementDefaults : Int → List (Axis K) → List Int
  | _, [] => []
  | prev, ax :: axs =>
    let N := if ax.m > 1 then ax.nel else prev
    N :: elementDefaults N axs

/-- Defaults of `-iga_limits`, petiga.c:755-763, as the flat array `&ulims[0][0]` (the first pair is 0, 1). -/
def limitDefaults : K × K → List (Axis K) → List K
  | _, [] => []
  | prev, ax :: axs =>
    let L := if ax.m > 1 then (ax.U ax.p, ax.U (ax.m - ax.p)) else prev
    L.1 :: L.2 :: limitDefaults L axs

/-- `for (i=0; i<n; i++) { … CHKERRQ }`. -/
def forDirs (f : Nat → IGA K V → Res Unit × IGA K V) : List Nat → IGA K V → Res Unit × IGA K V
  | [], s => (.ok (), s)
  | i :: is, s => andThen (f i s) (forDirs f is)

/-- `iga->axis[i]`, changed by a call on the axis. -/
def modAxis (s : IGA K V) (i : Nat) (f : Axis K → Res Unit × Axis K) : Res Unit × IGA K V :=
  match s.axes[i]? with
  | some ax => ((f ax).1, { s with axes := s.axes.set i (f ax).2 })
  | none => (.ub, s)

/-- `CHKERRQ` between two calls on an axis. -/
def axThen (r : Res Unit × Axis K) (f : Axis K → Res Unit × Axis K) : Res Unit × Axis K :=
  match r with
  | (.ok _, a) => f a
  | r => r

/-- An optional setter: `if (flg) {ierr = …}`. -/
def whenSome {α : Type} (o : Option α) (f : α → IGA K V → Res Unit × IGA K V) (s : IGA K V) : Res Unit × IGA K V :=
  match o with
  | some a => f a s
  | none => (.ok (), s)

/-- `IGAOptionsReject` (petigaopts.c): the option must not be present. -/
def reject (present : Bool) (s : IGA K V) : Res Unit × IGA K V :=
  if present then (.err .outOfRange, s) else (.ok (), s)

/-- The loop body petiga.c:789-790. -/
def setProc (W : World K V) (ps : List Int) (i : Nat) (s : IGA K V) : Res Unit × IGA K V :=
  match ps[i]? with
  | some np => if np > 0 then setProcessors W s i np else (.ok (), s)
  | none => (.ub, s)

/-- Processor grid, petiga.c:787-791. -/
def setProcs (W : World K V) (o : Options K V) (s : IGA K V) : Res Unit × IGA K V :=
  forDirs (setProc W (given o.processors (dirs s))) (List.range (given o.processors (dirs s)).length) s

/-- `wraps`, petiga.c:794-796: the array is initialised from the axes, and the bare option means every direction. -/
def wraps (l : List Bool) (s : IGA K V) : List Bool :=
  match l.take (dirs s) with
  | [] => s.axes.map fun _ => true
  | _ => spread (some l) (dirs s) (s.axes.map fun ax => ax.periodic)

/-- The loop body petiga.c:798-799. -/
def setWrap (A : List Bool) (i : Nat) (s : IGA K V) : Res Unit × IGA K V :=
  match A[i]? with
  | some w => modAxis s i fun ax => setPeriodic ax w
  | none => (.ub, s)

/-- Periodicity, petiga.c:794-800. -/
def setWraps (o : Options K V) (s : IGA K V) : Res Unit × IGA K V :=
  match o.periodic with
  | none => (.ok (), s)
  | some l => forDirs (setWrap (wraps l s)) (List.range (dirs s)) s

/-- `IGAAxisReset; IGAAxisSetPeriodic; IGAAxisSetDegree; IGAAxisInitUniform`, petiga.c:831-834 (`mem` is the memory the knot
array is allocated in). -/
def rebuild (junk mem : Int → K) (w : Bool) (p N : Int) (a b : K) (C : Int) : Res Unit × Axis K :=
  axThen (setPeriodic (Ax.create junk) w) fun ax =>
  axThen (setDegree ax p) fun ax =>
  initUniform mem ax N a b C

/-- The body of the loop over the axes, petiga.c:821-836. -/
def setAxis (junk mem : Int → K) (force : Bool) (nd ne nl nc : Nat) (degrs elems conts : List Int) (ulims : List K)
    (i : Nat) (s : IGA K V) : Res Unit × IGA K V :=
  match s.axes[i]?, pick nd degrs i, pick ne elems i, pick nc conts i,
      ulims[2 * (if i < nl then i else 0)]?, ulims[2 * (if i < nl then i else 0) + 1]? with
  | some ax, some p, some N, some C, some a, some b =>
    let p := if p < 1 then (if ax.p > 0 then ax.p else 2) else p
    let N := if N < 1 then (if ax.m > 1 then ax.nel else 16) else N
    if force ∨ ax.p = 0 ∨ ax.m = 1 then modAxis s i fun _ => rebuild junk mem ax.periodic p N a b C
    else (.ok (), s)
  | _, _, _, _, _, _ => (.ub, s)

/-- The basis types of the directions, petiga.c:814-815 and 848-849. -/
def basisTypes (o : Options K V) (n : Nat) (s : IGA K V) : List BasisType := spread o.basisType n s.btypes

/-- `conts`: `PETSC_DECIDE`, or 0 for a basis that is not a B-spline basis, petiga.c:816. -/
def contDefaults (o : Options K V) (n : Nat) (s : IGA K V) : List Int :=
  (basisTypes o n s).map fun t => if t = .bspline then PETSC_DECIDE else 0

/-- The axes, petiga.c:813-836; `s0` is the object at entry, from which the defaults were computed. -/
def setAxes (W : World K V) (mem : Int → K) (o : Options K V) (s0 s : IGA K V) : Res Unit × IGA K V :=
  let n := dirs s
  forDirs (setAxis W.junk mem (o.elements.isSome || o.degree.isSome)
      (given o.degree n).length (given o.elements n).length ((given o.limits (2*n)).length / 2) (given o.continuity n).length
      (overlay o.degree n (degreeDefaults 2 s0.axes)) (overlay o.elements n (elementDefaults 16 s0.axes))
      (overlay o.continuity n (contDefaults o n s0)) (overlay o.limits (2*n) (limitDefaults (0,1) s0.axes)))
    (List.range n) s

/-- The part that is skipped once a set-up stage has been passed, petiga.c:769-837. -/
def beforeSetUp (W : World K V) (mem : Int → K) (o : Options K V) (s0 : IGA K V) : Res Unit × IGA K V :=
  andThen (whenSome o.dim (fun d s => setDim s d) s0) fun s =>
  andThen (whenSome o.dof (fun n s => setDof s n) s) fun s =>
  andThen (whenSome o.colloc (fun b s => setCollocation s b) s) fun s =>
  andThen (reject (s.colloc && (o.ruleType.isSome || o.ruleSize.isSome || o.quadrature.isSome)) s) fun s =>
  andThen (setProcs W o s) fun s =>
  andThen (setWraps o s) fun s =>
  match o.load with
  | some read =>
    andThen (reject (o.elements.isSome || o.degree.isSome || o.continuity.isSome || o.limits.isSome) s) read
  | none => setAxes W mem o s0 s

/-- The loop body petiga.c:851. -/
def setBase (ts : List BasisType) (i : Nat) (s : IGA K V) : Res Unit × IGA K V :=
  match ts[i]? with
  | some t => setBasisType s i t
  | none => (.ub, s)

/-- Basis types, petiga.c:848-852. -/
def setBases (o : Options K V) (s0 s : IGA K V) : Res Unit × IGA K V :=
  if o.basisType.isSome then forDirs (setBase (basisTypes o (dirs s) s0)) (List.range (dirs s)) s
  else (.ok (), s)

/-- `rsize` before `-iga_rule_size` is read, petiga.c:746-747 and 855: the size of the rule at entry, else degree plus one. -/
def sizeDefaults (s0 s : IGA K V) : List Int :=
  List.zipWith (fun (r : Rule K) (ax : Axis K) => if r.nqp > 0 then r.nqp else ax.p + 1) s0.rules s.axes

/-- `nqp`, petiga.c:861. -/
def ruleSizeOf (q : Int) (r : Rule K) (ax : Axis K) : Int := if q > 0 then q else if r.nqp > 0 then r.nqp else ax.p + 1

/-- The loop body petiga.c:861-864; `f1` and `f2` say whether types and sizes were given. -/
def setDirRule (f1 f2 : Bool) (types : List RuleType) (sizes : List Int) (i : Nat) (s : IGA K V) : Res Unit × IGA K V :=
  match s.rules[i]?, s.axes[i]?, types[i]?, sizes[i]? with
  | some r, some ax, some t, some q =>
    let nqp := ruleSizeOf q r ax
    let s := if f1 ∧ f2 then { s with rules := s.rules.set i (Rule.reset r) } else s
    andThen (if f1 then setRuleType s i t else (.ok (), s)) fun s =>
    if f2 then setRuleSize s i nqp else (.ok (), s)
  | _, _, _, _ => (.ub, s)

/-- Rule types and sizes, petiga.c:855-865.  The default rule types are those of the rules at entry. -/
def setRules (o : Options K V) (s0 s : IGA K V) : Res Unit × IGA K V :=
  if o.ruleType.isSome ∨ o.ruleSize.isSome then
    forDirs (setDirRule o.ruleType.isSome o.ruleSize.isSome (spread o.ruleType (dirs s) (s0.rules.map fun r => r.type))
      (spread o.ruleSize (dirs s) (sizeDefaults s0 s))) (List.range (dirs s)) s
  else (.ok (), s)

/-- The loop body petiga.c:870-871. -/
def setDirSize (l : List Int) (i : Nat) (s : IGA K V) : Res Unit × IGA K V :=
  match pick l.length l i with
  | some q => if q > 0 then setQuadrature s i q else (.ok (), s)
  | none => (.ok (), s)

/-- The older option for the rule sizes, petiga.c:867-872. -/
def setSizes (o : Options K V) (s : IGA K V) : Res Unit × IGA K V :=
  forDirs (setDirSize (given o.quadrature (dirs s))) (List.range (dirs s)) s

/-- `IGASetFromOptions`, petiga.c:712-892. -/
def setFromOptions (W : World K V) (mem : Int → K) (o : Options K V) (s0 : IGA K V) : Res Unit × IGA K V :=
  andThen (if s0.stage > 0 then (.ok (), s0) else beforeSetUp W mem o s0) fun s =>
  andThen (whenSome o.order (fun k s => setOrder s k) s) fun s =>
  andThen (setBases o s0 s) fun s =>
  andThen (setRules o s0 s) fun s =>
  andThen (setSizes o s) fun s =>
  if s0.setup then setUp W s else (.ok (), s)

end PetIGA.Opt
