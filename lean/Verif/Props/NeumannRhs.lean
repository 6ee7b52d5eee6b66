import Verif.Props.DemoNeumann
import Verif.Props.AreaLoad
import Verif.Props.VecIO
import Mathlib.Analysis.Matrix.Hermitian
import Mathlib.Analysis.InnerProductSpace.Symmetric
import Mathlib.Analysis.SpecialFunctions.Trigonometric.Deriv
/-
C127, the right-hand side of demo/Neumann.c: the system is solvable exactly if its entries add up to zero, and without a geometry they add up to the
integral of the forcing, for the boundary loads of `main` cancel.
-/
set_option linter.unusedSectionVars false
namespace PetIGA.Demo
open PetIGA.Quad PetIGA.Drv PetIGA.Spec PetIGA.Ax PetIGA.Lay PetIGA.Asm PetIGA.Rule PetIGA.Grid PetIGA.Part PetIGA.Ker PetIGA.PCA PetIGA.Itg
open PetIGA.Frm (fieldIntegral domainIntegral pointSum_list pointSum_congr rowSum sumVec_rows)

variable {g2 : Guess2} {g3 : Guess3} {size : Int} {procs : List Int} {axes : List (Axis ℝ)} {Ls : List (Layout ℝ)}

/-- A symmetric system is solvable if the right-hand side is orthogonal to the null space. -/
theorem symmetric_range {n : Nat} (A : Fin n → Fin n → ℝ) (hs : ∀ i j, A i j = A j i) (b : Fin n → ℝ)
    (hb : ∀ v : Fin n → ℝ, (∀ i, ∑ j, A i j * v j = 0) → ∑ i, v i * b i = 0) : ∃ x : Fin n → ℝ, ∀ i, ∑ j, A i j * x j = b i := by
  set T := Matrix.toEuclideanLin (Matrix.of A) with hT
  have app : ∀ (x : EuclideanSpace ℝ (Fin n)) i, (T x) i = ∑ j, A i j * x j := by
    intro x i
    rw [hT, Matrix.toEuclideanLin_apply]
    rfl
  have hsym : T.IsSymmetric := Matrix.isSymmetric_toEuclideanLin_iff.2 (by
    ext i j
    simpa using hs j i)
  have hmem : WithLp.toLp 2 b ∈ LinearMap.range T := by
    rw [← Submodule.orthogonal_orthogonal (LinearMap.range T), hsym.orthogonal_range, Submodule.mem_orthogonal]
    intro u hu
    have hu := LinearMap.mem_ker.1 hu
    have := hb u (fun i => by rw [← app u i, hu]; rfl)
    rw [PiLp.inner_apply]
    simpa [mul_comm] using this
  obtain ⟨x, hx⟩ := hmem
  exact ⟨x, fun i => by rw [← app x i, hx]⟩

/-- **C127**, solvability: the system has a solution exactly if the entries of the right-hand side add up to zero; two solutions differ by a constant. -/
theorem C127_solvable {ds : List (Direction Line)} (S : Setup g2 g3 false size procs axes (ds.map Direction.ax) Ls)
    (hT : ∀ δ ∈ ds, δ.Tabulated) (hs : ∀ δ ∈ ds, IsSpline δ) (hE : ∀ δ ∈ ds, Enough δ)
    {c : List Int → PtIn ds.length ds.length (Fin (nenOf (ds.map Direction.ax)))} (hc : ∀ e, FirstOrder (c e))
    {elt : List Int → Elt ℝ (PtData ds.length ds.length (nenOf (ds.map Direction.ax)))} (hI : Assembled ds (neumannConditions ds.length) 1 none c elt)
    (hJ : ∀ e, InBox (ds.map fun δ => δ.ax.nel) e → ∀ q ∈ (elt e).points none, 0 < q.detJac) (geometry : Bool) (hist) (pw) (w) :
    ∃ A b, computeSystem Ls hist 1 ⟨elt, pw, w⟩ (neumannSystem geometry) = .ok (A, b) ∧
      ((∃ x, Solves (total (ds.map Direction.ax) 1) A b x) ↔ ∑ i ∈ Finset.range (total (ds.map Direction.ax) 1), b i = 0) ∧
      ∀ x y, Solves (total (ds.map Direction.ax) 1) A b x → Solves (total (ds.map Direction.ax) 1) A b y →
        ∃ v, ∀ i : Nat, i < total (ds.map Direction.ax) 1 → x i = y i + v := by
  obtain ⟨A, b, hA, hsym, h⟩ := C126_nullspace S hT hs hE hc hI hJ geometry hist pw w
  generalize total (ds.map Direction.ax) 1 = N at *
  have sym : ∀ i j : Nat, i < N → j < N → A ((i:Int), (j:Int)) = A ((j:Int), (i:Int)) := fun i j hi hj =>
    hsym i j (by omega) (by exact_mod_cast hi) (by omega) (by exact_mod_cast hj)
  refine ⟨A, b, hA, ⟨?_, fun h0 => ?_⟩, fun x y hx hy => ?_⟩
  · rintro ⟨x, hx⟩
    have hz := (h fun _ => 1).2.2 ⟨1, fun _ _ => rfl⟩
    rw [Finset.sum_congr rfl fun i hi => (hx i (Finset.mem_range.1 hi)).symm, Finset.sum_comm]
    refine Finset.sum_eq_zero fun j hj => ?_
    have := hz j (Finset.mem_range.1 hj)
    simp only [mul_one] at this
    rw [← Finset.sum_mul, Finset.sum_congr rfl fun i hi => sym i j (Finset.mem_range.1 hi) (Finset.mem_range.1 hj), this, zero_mul]
  · obtain ⟨x, hx⟩ := symmetric_range (n := N) (fun i j => A ((i:Nat), (j:Nat))) (fun i j => sym i j i.2 j.2) (fun i => b (i:Nat)) (fun v hv => by
      let x : Int → ℝ := fun i => if h : i.toNat < N then v ⟨i.toNat, h⟩ else 0
      have xv : ∀ i : Fin N, x ((i:Nat):Int) = v i := fun i => by simp [x]
      obtain ⟨m, hm⟩ := (h x).2.1 fun i hi => by
        rw [Finset.sum_range]
        rw [← hv ⟨i, hi⟩]
        exact Finset.sum_congr rfl fun j _ => by rw [xv]
      rw [Finset.sum_range] at h0
      rw [Finset.sum_congr rfl fun i _ => by rw [← xv i, hm i i.2], ← Finset.mul_sum, h0, mul_zero])
    refine ⟨fun i => if h : i.toNat < N then x ⟨i.toNat, h⟩ else 0, fun i hi => ?_⟩
    rw [Finset.sum_range]
    have := hx ⟨i, hi⟩
    simp only at this
    rw [← this]
    exact Finset.sum_congr rfl fun j _ => by simp
  · obtain ⟨v, hv⟩ := (h fun i => x i - y i).2.1 fun i hi => by
      simp only [mul_sub]
      rw [Finset.sum_sub_distrib, hx i hi, hy i hi, sub_self]
    exact ⟨v, fun i hi => by have := hv i hi; linarith⟩

/-! ### The sum of the entries -/

/-- The lists of every element are built, for the conditions `ops`, with the areas of its sides that `IGAElementBuildFix` computes without a geometry. -/
def ParametricAreas {P : Type} (axs : List (Axis ℝ)) (ops : List (Form.Op ℝ)) (elt : List Int → Elt ℝ P) : Prop :=
  ∀ e, InBox (axs.map Axis.nel) e → ∃ (c : Fix.Ctx ℝ) (D : List Area.ADir), c.dirs = Fix.elemDirs axs e ∧ c.dof = 1 ∧ c.form = Form.run Form.create ops ∧
    Fix.build c = .ok (elt e).fixes ∧ Area.ElementOf axs e c.dirs D ∧
    ∀ (i : Nat) (b : Bool), c.area i (if b then 1 else 0) = Area.boundaryArea D 0 (fun _ => 0) false (fun _ => 0) i b

/-- The load in force on a side. -/
theorem neumann_inForce (dim : Nat) (h3 : dim ≤ 3) (a : Nat) (ha : a < dim) (s : Bool) :
    inForce (a:Int) (if s then 1 else 0) 0 (Form.loadEvents (neumannConditions dim)) = some (if s then 2 * Real.pi else -(2 * Real.pi)) := by
  interval_cases dim <;> interval_cases a <;> cases s <;>
    simp [neumannConditions, List.range_succ, Form.loadEvents, inForce, BCEvent.legal, neumannFlux]

theorem loads_cancel {axs : List (Axis ℝ)} (S : Setup g2 g3 false size procs axes axs Ls) {P : Type} {elt : List Int → Elt ℝ P}
    (hA : ParametricAreas axs (neumannConditions axs.length) elt) :
    ((indices (axs.map Axis.nel)).map fun e => ((indices (nens axs)).map fun t => (tableGet (elt e).fixes.flux (slot axs 1 t 0)).getD 0).sum).sum = 0 := by
  have hwf := Prb.setup_wf S
  obtain ⟨l1, l3⟩ := Prb.setup_len S
  have hel : Area.elements axs = indices (axs.map Axis.nel) := by
    unfold Area.elements
    rw [← VIO.indices_grid, List.map_map]
    congr 1
    exact List.map_congr_left fun ax h => by simp [(hwf ax h).nel]
  have hin : ∀ e ∈ Area.elements axs, InBox (axs.map Axis.nel) e := fun e he => (mem_indices _ _).1 (hel ▸ he)
  by_cases hne : ∀ ax ∈ axs, 1 ≤ ax.span.length
  swap
  · push Not at hne
    obtain ⟨ax, hax, hlt⟩ := hne
    have : indices (axs.map Axis.nel) = [] := by
      refine List.eq_nil_iff_forall_not_mem.2 fun e he => ?_
      have he := (mem_indices _ _).1 he
      obtain ⟨i, hi, rfl⟩ := List.mem_iff_getElem.1 hax
      have hl := he.length_eq
      have := (List.forall₂_iff_get.1 he).2 i (by simpa using hi) (by simp at hl; omega)
      simp only [List.get_eq_getElem, List.getElem_map] at this
      have hn := (hwf _ hax).nel
      omega
    rw [this]; rfl
  haveI : Nonempty (Fix.Ctx ℝ) := ⟨⟨[], 0, Form.create, none, id, fun _ _ => 0⟩⟩
  choose! c D c1 c2 c3 c4 c5 c6 using hA
  obtain ⟨s, s1, s2⟩ := Area.C72_mesh_load axs hwf hne l1 l3 (neumannConditions axs.length) c D (fun _ => 0) (fun _ => 0) false 0 (le_refl _)
    fun e he => ⟨c5 e (hin e he), c3 e (hin e he), by rw [c2 e (hin e he)]; norm_num, c6 e (hin e he)⟩
  have e1 : ∀ e ∈ indices (axs.map Axis.nel), ((indices (nens axs)).map fun t => (tableGet (elt e).fixes.flux (slot axs 1 t 0)).getD 0).sum =
      ((Area.nodes (c e).dirs).map fun x => (tableGet (s e).flux (flat (Fix.nens (c e).dirs) x * (c e).dof + 0)).getD 0).sum := by
    intro e he
    have he' := hel ▸ he
    have hb := (mem_indices _ _).1 he
    have h1 := s1 e he'
    rw [c4 e hb] at h1
    have h1 : (elt e).fixes = s e := Res.ok.inj h1
    have hn : Fix.nens (c e).dirs = nens axs := by rw [c1 e hb]; exact elemNens hwf hb
    have hnodes : Area.nodes (c e).dirs = indices (nens axs) := by
      rw [← hn, ← VIO.indices_grid]
      unfold Area.nodes Fix.nens
      rw [List.map_map]
      rfl
    rw [hnodes, hn, c2 e hb, h1]
    congr 1; refine List.map_congr_left fun t ht => ?_
    have := (flat_range ((mem_indices _ _).1 ht)).1
    unfold slot
    rw [show (((flat (nens axs) t).toNat * 1 + 0 : Nat) : Int) = flat (nens axs) t * ((1:Nat):Int) + 0 by push_cast; omega]
  rw [List.map_congr_left e1, ← hel, s2]
  let G : Nat → ℝ := fun a => match axs[a]? with
      | some ax => if ax.periodic then 0 else 2 * Real.pi * ((axs.eraseIdx a).map fun ax => ax.U (ax.m - ax.p) - ax.U ax.p).prod
      | none => 0
  rw [List.map_congr_left (g := fun q => (if q.2 then 1 else -1) * G q.1) (by
    rintro ⟨a, b⟩ hq
    have ha : a < axs.length := Fix.mem_sides.1 hq
    rw [neumann_inForce axs.length l3 a ha b]
    dsimp only [G]
    rw [List.getElem?_eq_getElem ha]
    dsimp only
    cases b <;> split <;> simp)]
  unfold sides
  rw [List.map_flatMap, List.flatMap, List.sum_flatten, List.map_map]
  refine List.sum_eq_zero fun x hx => ?_
  obtain ⟨a, -, rfl⟩ := List.mem_map.1 hx
  simp

theorem bind_some {α β : Type} {x : Res α} {f : α → Res β} {b : β} (h : x.bind f = .ok b) : ∃ a, x = .ok a ∧ f a = .ok b := by
  cases x with
  | ok a => exact ⟨a, rfl, h⟩
  | err e => cases h
  | ub => cases h

/-- **C127**, the right-hand side without a geometry: with any number of processes, knots, degrees and periodic directions the loads of `main` cancel,
the entries of the right-hand side add up to the integral (by the quadrature rule) of `Forcing`, and the system has a solution exactly if that integral
is zero. -/
theorem C127_compatible {ds : List (Direction Line)} (S : Setup g2 g3 false size procs axes (ds.map Direction.ax) Ls)
    (hT : ∀ δ ∈ ds, δ.Tabulated) (hs : ∀ δ ∈ ds, IsSpline δ) (hE : ∀ δ ∈ ds, Enough δ)
    {c : List Int → PtIn ds.length ds.length (Fin (nenOf (ds.map Direction.ax)))} (hc : ∀ e, FirstOrder (c e))
    {elt : List Int → Elt ℝ (PtData ds.length ds.length (nenOf (ds.map Direction.ax)))} (hI : Assembled ds (neumannConditions ds.length) 1 none c elt)
    (hJ : ∀ e, InBox (ds.map fun δ => δ.ax.nel) e → ∀ q ∈ (elt e).points none, 0 < q.detJac)
    (hA : ParametricAreas (ds.map Direction.ax) (neumannConditions ds.length) elt) (geometry : Bool) (hist) (pw) (w) :
    ∃ A b, computeSystem Ls hist 1 ⟨elt, pw, w⟩ (neumannSystem geometry) = .ok (A, b) ∧
      ∑ i ∈ Finset.range (total (ds.map Direction.ax) 1), b i =
        domainIntegral (ds.map Direction.ax) elt (fun _ p => neumannForcing (position geometry p)) ∧
      ((∃ x, Solves (total (ds.map Direction.ax) 1) A b x) ↔
        domainIntegral (ds.map Direction.ax) elt (fun _ p => neumannForcing (position geometry p)) = 0) := by
  obtain ⟨A, b, h0, hsol, -⟩ := C127_solvable S hT hs hE hc hI hJ geometry hist pw w
  suffices hsum : ∑ i ∈ Finset.range (total (ds.map Direction.ax) 1), b i =
      domainIntegral (ds.map Direction.ax) elt (fun _ p => neumannForcing (position geometry p)) from ⟨A, b, h0, hsum, by rw [hsol, hsum]⟩
  obtain ⟨l1, l3, hw⟩ := setup_facts S
  have hwf := Prb.setup_wf S
  have hel := built_elements hwf hI.built
  have hK := neumann_fills (d := ds.length) (unknowns_one (ds.map Direction.ax)) geometry
  have hu : Represents (ds.map Direction.ax) Ls 1 (fun _ : Int => ()) (fun _ _ => ()) := fun _ _ _ _ => rfl
  obtain ⟨b', b1, b2⟩ := vec_global S hist 1 (fun _ => ()) (fun _ => ()) _ hu
    (fun r e _ => entries ((system (elt e) (neumannSystem geometry) (pw r e) (w r e)).bind fun s => .ok s.2)) (fun e => rhsAt (elt e) _ _) fun r' e he => by
      obtain ⟨A, B, h1, _, h3⟩ := C77_system (elt e) (hel e he).1 (neumannSystem geometry) _ _ (by rw [hel.m_eq he, hel.n_eq he]; exact hK) (pw r' e) (w r' e)
      rw [h1]
      exact ⟨_, rfl, fun i hi => h3 i (by rw [hel.n_eq he]; exact hi)⟩
  obtain rfl : b = b' := by
    unfold computeSystem at h0
    obtain ⟨A', -, h0⟩ := bind_some h0
    obtain ⟨b'', h0', h0⟩ := bind_some h0
    have e1 := Res.ok.inj (b1.symm.trans h0')
    have e2 := congrArg Prod.snd (Res.ok.inj h0)
    exact e2.symm.trans e1.symm
  rw [sum_unknown S 1 b]
  rw [List.map_congr_left fun z hz => by
    rw [show List.range 1 = [0] from rfl, List.map_singleton, List.sum_singleton]]
  rw [List.map_congr_left (f := fun z => b (Blk.unknown Ls (ds.map Direction.ax) 1 z 0)) (fun z hz => b2 z 0 ((mem_indices _ _).1 hz) (by omega))]
  rw [sumVec_rows S _ (k := 0) (by omega)]
  have e2 : ∀ e ∈ indices ((ds.map Direction.ax).map Axis.nel), ((indices (nens (ds.map Direction.ax))).map fun t =>
        rhsAt (elt e) (fun p => rowMajor fun a b => ∑ i, p.shape.t1 i a * p.shape.t1 i b) (fun p => entry fun a => p.shape.t0 a * neumannForcing (position geometry p)) (slot (ds.map Direction.ax) 1 t 0)).sum =
      pointSum ((elt e).points none) (fun p => neumannForcing (position geometry p)) +
        ((indices (nens (ds.map Direction.ax))).map fun t => (tableGet (elt e).fixes.flux (slot (ds.map Direction.ax) 1 t 0)).getD 0).sum := by
    intro e he
    have he := (mem_indices _ e).1 he
    have he' : InBox (ds.map fun δ => δ.ax.nel) e := by rw [List.map_map] at he; exact he
    have free : ∀ i : Nat, i < unknowns (ds.map Direction.ax) 1 → tableGet (elt e).fixes.fix i = none := by
      intro i hi
      obtain ⟨t, s, ht, hs, rfl⟩ := exists_slot (ds.map Direction.ax) hwf hi
      rw [((hI.built e he).spec hwf he).2 t s ht hs, neumann_free]
    have row : ∀ t ∈ indices (nens (ds.map Direction.ax)), rhsAt (elt e) (fun p => rowMajor fun a b => ∑ i, p.shape.t1 i a * p.shape.t1 i b)
          (fun p => entry fun a => p.shape.t0 a * neumannForcing (position geometry p)) (slot (ds.map Direction.ax) 1 t 0) =
        pointSum ((elt e).points none) (fun p => entry (fun a => p.shape.t0 a * neumannForcing (position geometry p)) (slot (ds.map Direction.ax) 1 t 0)) +
          (tableGet (elt e).fixes.flux (slot (ds.map Direction.ax) 1 t 0)).getD 0 := by
      intro t ht
      have := free_row (elt e) (hel e he).1 (fun p => rowMajor fun a b => ∑ i, p.shape.t1 i a * p.shape.t1 i b)
        (fun p => entry fun a => p.shape.t0 a * neumannForcing (position geometry p)) [] (slot (ds.map Direction.ax) 1 t 0)
        (free _ (slot_lt _ ht (by omega))) (fun j hj v hv => by rw [free j (by rw [← hel.n_eq he]; exact hj)] at hv; cases hv)
      simp only [List.getD_nil, mul_zero, List.map_const', List.sum_replicate, smul_zero, zero_sub, neg_inj] at this
      rw [this, integral_interior _ (hI.noForms e he')]
    rw [List.map_congr_left row, List.sum_map_add]
    congr 1
    rw [pointSum_list]
    obtain ⟨mem, htab⟩ := hI.points e he'
    refine pointSum_congr _ fun q hq => ?_
    have h1 := (shape_sums l1 l3 hT hs hw (c e) (fun W hW => by rw [(hc e).spline] at hW; cases hW) he' htab q hq).1
    have h2 := sum_local (ds.map Direction.ax) fun a => entry (fun a => q.data.shape.t0 a * neumannForcing (position geometry q.data)) (a:Int)
    refine Eq.trans ?_ (h2.trans ?_)
    · congr 1; refine List.map_congr_left fun t _ => ?_
      unfold slot
      rw [Nat.mul_one, Nat.add_zero]
    · have h3 : ∀ a : Fin (nenOf (ds.map Direction.ax)), entry (fun a => q.data.shape.t0 a * neumannForcing (position geometry q.data)) ((a:Nat):Int) =
          q.data.shape.t0 a * neumannForcing (position geometry q.data) := fun a => by
        unfold entry
        rw [dif_pos (by simpa using a.2)]
        rfl
      simp only [h3]
      rw [← Finset.sum_mul, h1, one_mul]
  refine (congrArg List.sum (List.map_congr_left e2)).trans ?_
  rw [List.sum_map_add, loads_cancel S (by simpa using hA), add_zero]
  rfl

/-! ### The data -/

theorem wave_deriv (t : ℝ) : HasDerivAt (fun t => Real.sin (2 * Real.pi * t)) (2 * Real.pi * Real.cos (2 * Real.pi * t)) t := by
  have h := (Real.hasDerivAt_sin (2 * Real.pi * t)).comp t ((hasDerivAt_id t).const_mul (2 * Real.pi))
  simpa [mul_comm, mul_left_comm, mul_assoc, Function.comp_def] using h

theorem wave_deriv2 (t : ℝ) : HasDerivAt (fun t => 2 * Real.pi * Real.cos (2 * Real.pi * t)) (-(4 * Real.pi * Real.pi * Real.sin (2 * Real.pi * t))) t := by
  have h := ((Real.hasDerivAt_cos (2 * Real.pi * t)).comp t ((hasDerivAt_id t).const_mul (2 * Real.pi))).const_mul (2 * Real.pi)
  refine h.congr_deriv ?_
  ring

/-- **C127**, the data: `Forcing` is minus the Laplacian of `Solution`, at all points and whatever the dimension (the coordinates beyond it are zero), and
`Flux` is the outward derivative of `Solution` at the sides `x = 0` and `x = 1` of the unit box in each direction. -/
theorem C127_data : (∀ x : Nat → ℝ, ∃ g h : Fin 3 → ℝ → ℝ, (∀ (i : Fin 3) t, HasDerivAt (fun t => neumannSolution (Function.update x i t)) (g i t) t) ∧
      (∀ i t, HasDerivAt (g i) (h i t) t) ∧ neumannForcing x = -∑ i, h i (x i)) ∧
    (∀ (x : Nat → ℝ) (dir : Fin 3) (side : Bool), HasDerivAt (fun t => neumannSolution (Function.update x dir t))
      ((if side then 1 else -1) * neumannFlux dir (if side then 1 else 0)) (if side then 1 else 0)) := by
  have key : ∀ (x : Nat → ℝ) (i : Fin 3) (t : ℝ), HasDerivAt (fun t => neumannSolution (Function.update x i t)) (2 * Real.pi * Real.cos (2 * Real.pi * t)) t := by
    intro x i t
    have hw := wave_deriv t
    fin_cases i
    · simpa [neumannSolution, Function.update] using (hw.add_const (Real.sin (2 * Real.pi * x 1))).add_const (Real.sin (2 * Real.pi * x 2))
    · simpa [neumannSolution, Function.update] using (hw.const_add (Real.sin (2 * Real.pi * x 0))).add_const (Real.sin (2 * Real.pi * x 2))
    · simpa [neumannSolution, Function.update] using hw.const_add (Real.sin (2 * Real.pi * x 0) + Real.sin (2 * Real.pi * x 1))
  refine ⟨fun x => ⟨fun _ t => 2 * Real.pi * Real.cos (2 * Real.pi * t), fun _ t => -(4 * Real.pi * Real.pi * Real.sin (2 * Real.pi * t)),
    key x, fun _ t => wave_deriv2 t, ?_⟩, fun x dir side => ?_⟩
  · simp only [Fin.sum_univ_three, neumannForcing, neumannSolution]
    simp only [Fin.val_zero, Fin.val_one, Fin.val_two]
    ring
  · refine (key x dir _).congr_deriv ?_
    cases side <;> simp [neumannFlux]

/-! ### The hypotheses are met -/

theorem elementOf_exists : ∀ {axs : List (Axis ℝ)}, (∀ ax ∈ axs, WF ax) → ∀ {e : List Int}, InBox (axs.map Axis.nel) e →
    ∃ D, Area.ElementOf axs e (Fix.elemDirs axs e) D
  | [], _, _, he => by
    cases he
    exact ⟨[], trivial⟩
  | ax :: axs, hw, _, he => by
    simp only [List.map_cons] at he
    cases he with
    | @cons _ e0 _ e he0 he' =>
      obtain ⟨D, h⟩ := elementOf_exists (fun a ha => hw a (by simp [ha])) he'
      have h1 := (hw ax (by simp)).legal.degree
      have h2 := (hw ax (by simp)).nel
      refine ⟨⟨(ax.p+1).toNat, 0, Area.len ax e0 / 2, fun _ => 0, fun _ _ _ => 0⟩ :: D, ⟨he0.1, by omega, ?_, rfl, rfl, rfl, rfl, ?_⟩, h⟩
      · show (((ax.p+1).toNat : Nat) : Int) = _
        omega
      · intro k hk
        simp only [Area.len, hk]

open PetIGA.Fix in
/-- The elements of a program without geometry exist, with the areas of their sides. -/
theorem areas_exist {ds : List (Direction Line)} (S : Setup g2 g3 false size procs axes (ds.map Direction.ax) Ls)
    (hT : ∀ δ ∈ ds, δ.Tabulated) (hs : ∀ δ ∈ ds, IsSpline δ) (ops : List (Form.Op ℝ)) :
    ∃ elt, Assembled ds ops 1 none (fun _ => plainPt ds.length (nenOf (ds.map Direction.ax))) elt ∧ ParametricAreas (ds.map Direction.ax) ops elt ∧
      ∀ e, InBox (ds.map fun δ => δ.ax.nel) e → ∀ q ∈ (elt e).points none, 0 < q.detJac := by
  obtain ⟨h1, h3, hw⟩ := setup_facts S
  have hwf := Prb.setup_wf S
  let c : PtIn ds.length ds.length (Fin (nenOf (ds.map Direction.ax))) := plainPt ds.length (nenOf (ds.map Direction.ax))
  let m0 : Nat → Tab ℝ ds.length Nat × PtOut ds.length ds.length (Fin (nenOf (ds.map Direction.ax))) := fun _ =>
    (⟨fun _ => 0, fun _ _ => 0, fun _ _ _ => 0, fun _ _ _ _ => 0, fun _ _ _ _ _ => 0⟩,
     ⟨⟨fun _ => 0, fun _ _ => 0, fun _ _ _ => 0, fun _ _ _ _ => 0, fun _ _ _ _ _ => 0⟩,
      ⟨fun _ => 0, fun _ _ => 0, fun _ _ _ => 0, fun _ _ _ _ => 0, fun _ _ _ _ _ => 0⟩, 0,
      ⟨fun _ => 0, fun _ _ => 0, fun _ _ _ => 0, fun _ _ _ _ => 0, fun _ _ _ _ _ => 0⟩,
      ⟨fun _ => 0, fun _ _ => 0, fun _ _ _ => 0, fun _ _ _ _ => 0, fun _ _ _ _ _ => 0⟩, 0, fun _ => 0, 0⟩)
  have htab : ∀ e, InBox (ds.map fun δ => δ.ax.nel) e → ∃ qs, tabulateElement c (ds.map Direction.B) e m0 = .ok qs := fun e he =>
    tabulateElement_ok rfl h1 h3 (fun δ h => hT δ h) (fun δ h => hs δ h) hw c (.inl rfl) he m0
  have hD := fun e (he : InBox ((ds.map Direction.ax).map Axis.nel) e) => elementOf_exists hwf he
  choose! qs hqs using htab
  choose! D hD using hD
  let ctx : List Int → Ctx ℝ := fun e => ⟨elemDirs (ds.map Direction.ax) e, 1, Form.run Form.create ops, none, fun a => a,
    fun i s => Area.boundaryArea (D e) 0 (fun _ => 0) false (fun _ => 0) i.toNat (decide (s = 1))⟩
  have hbuild : ∀ e, InBox ((ds.map Direction.ax).map Axis.nel) e → build (ctx e) = .ok (match build (ctx e) with | .ok s => s | _ => ⟨[], []⟩) := by
    intro e he
    obtain ⟨s, h, -⟩ := C36_constrained_in_every_element (ds.map Direction.ax) (fun ax h => (hwf ax h).toPreWF) e (elemRange hwf he) (ctx e) rfl ops rfl none trivial
    rw [h]
  refine ⟨fun e => ⟨0, nenOf (ds.map Direction.ax), nenOf (ds.map Direction.ax), 1, (match build (ctx e) with | .ok s => s | _ => ⟨[], []⟩), e,
    ds.map fun δ => δ.ax.nel, fun _ _ => false, fun _ => qs e⟩, ⟨fun e he => ⟨le_refl _, rfl, rfl, rfl, ctx e, rfl, rfl, rfl, trivial, hbuild e he⟩,
      fun e he => ⟨m0, hqs e he⟩, fun e he a b => rfl⟩, fun e he => ⟨ctx e, D e, rfl, rfl, rfl, hbuild e he, hD e he, fun i b => ?_⟩, fun e he q hq => ?_⟩
  · show Area.boundaryArea (D e) 0 _ false _ (i:Int).toNat _ = _
    cases b <;> simp
  · obtain ⟨pts, hp, N, m, o, -, ho, rfl⟩ := (tabulated_points rfl h1 h3 hT hs hw c he m0 (hqs e he)).2 q hq
    exact detJac_pos ho (lines_J hw he (mem_tensorPoints hp)) rfl (.inl rfl)

variable (g2 : Guess2) (g3 : Guess3) (J : Bsp.Junk ℝ) (hist : Nat → Hist) (pw : Nat → List Int → PWork ℝ) (w : Nat → List Int → Work ℝ)

/-- `C127_compatible` and `C127_solvable` apply: two processes, degree 2. -/
example : ∃ (Ls : List (Layout ℝ)) (elt : List Int → Elt ℝ (PtData (exLines J).length (exLines J).length (nenOf ((exLines J).map Direction.ax)))) (A : Int × Int → ℝ)
    (b : Int → ℝ), computeSystem Ls hist 1 ⟨elt, pw, w⟩ (neumannSystem false) = .ok (A, b) ∧
    ∑ i ∈ Finset.range (total ((exLines J).map Direction.ax) 1), b i =
      domainIntegral ((exLines J).map Direction.ax) elt (fun _ p => neumannForcing (position false p)) := by
  obtain ⟨Ls, S⟩ := exRealSetup g2 g3
  have S' : Setup g2 g3 false 2 [2,1] [exRealAx, exRealAx] ((exLines J).map Direction.ax) Ls := S
  have hok := exLines_ok J
  obtain ⟨elt, hI, hA, hJ⟩ := areas_exist S' (fun δ h => (hok δ h).1) (fun δ h => (hok δ h).2.1) (neumannConditions (exLines J).length)
  obtain ⟨A, b, h1, h2, -⟩ := C127_compatible S' (fun δ h => (hok δ h).1) (fun δ h => (hok δ h).2.1) (fun δ h => (hok δ h).2.2.1)
    (fun _ => ⟨le_refl _, rfl, rfl, rfl⟩) hI hJ hA false hist pw w
  exact ⟨Ls, elt, A, b, h1, h2⟩

end PetIGA.Demo
