import Verif.Model.DemoNeumann
import Verif.Props.DemoBoundary
import Verif.Props.Conserve
import Verif.Props.DemoEx
import Verif.Props.RigidBodyPeriodic
/-
C126: demo/Neumann.c.  The matrix has exactly the constants as null space, so it is not positive definite, as the program tells the solver; what the
shift by the "mean" does.
-/
set_option linter.unusedSectionVars false
namespace PetIGA.Demo
open PetIGA.Quad PetIGA.Drv PetIGA.Spec PetIGA.Ax PetIGA.Lay PetIGA.Asm PetIGA.Rule PetIGA.Grid PetIGA.Part PetIGA.Ker PetIGA.PCA PetIGA.Itg
open PetIGA.Frm (fieldIntegral domainIntegral pointSum_list pointSum_congr)

variable {g2 : Guess2} {g3 : Guess3} {size : Int} {procs : List Int} {axes : List (Axis ℝ)} {Ls : List (Layout ℝ)}

theorem neumann_free (axs : List (Axis ℝ)) (dim : Nat) (q) : Fix.prescribedAt axs (neumannConditions dim) none q = none := by
  unfold Fix.prescribedAt nodePrescribed
  rw [List.findSome?_eq_none_iff.2, Option.map_none]
  intro s _
  split
  · by_contra hne
    obtain ⟨v, hv⟩ := Option.ne_none_iff_exists'.1 hne
    have h := mem_valueEvents.1 (inForce_mem hv)
    unfold neumannConditions at h
    obtain ⟨d, -, h⟩ := List.mem_flatMap.1 h
    obtain ⟨s', -, h⟩ := List.mem_map.1 h
    cases h
  · rfl

theorem neumann_fills {d n m : Nat} (hm : m = n) (geometry : Bool) :
    FillsSys m m (neumannSystem (d := d) (n := n) geometry) (fun p => rowMajor fun a b => ∑ i, p.shape.t1 i a * p.shape.t1 i b)
      (fun p => entry fun a => p.shape.t0 a * neumannForcing (position geometry p)) :=
  fills hm _ _ _ fun p K F => by simp [neumannSystem, dot_eq]

theorem sumMat_congr_in (axs : List (Axis ℝ)) {dof : Nat} {f g : List Int → Nat → Nat → ℝ}
    (h : ∀ e ∈ indices (axs.map Axis.nel), ∀ i j, i < unknowns axs dof → j < unknowns axs dof → f e i j = g e i j)
    (z : List Int) (c : Nat) (y : List Int) (d : Nat) (hc : c < dof) (hd : d < dof) : sumMat axs dof f z c y d = sumMat axs dof g z c y d := by
  unfold sumMat
  congr 1; refine List.map_congr_left fun e he => ?_
  congr 1; refine List.map_congr_left fun s hs => ?_
  congr 1; refine List.map_congr_left fun t ht => ?_
  rw [h e he _ _ (slot_lt axs hs hc) (slot_lt axs ht hd)]

/-- **C126**, the null space: with or without a geometry (a map with positive determinants), any number of processes, knots and degrees, a rule with
enough points, the assembled matrix is symmetric and positive semidefinite, and `A x = 0` holds exactly for the vectors with all entries equal: the
null space that `main` attaches to it. -/
theorem C126_nullspace {ds : List (Direction Line)} (S : Setup g2 g3 false size procs axes (ds.map Direction.ax) Ls)
    (hT : ∀ δ ∈ ds, δ.Tabulated) (hs : ∀ δ ∈ ds, IsSpline δ) (hE : ∀ δ ∈ ds, Enough δ)
    {c : List Int → PtIn ds.length ds.length (Fin (nenOf (ds.map Direction.ax)))} (hc : ∀ e, FirstOrder (c e))
    {elt : List Int → Elt ℝ (PtData ds.length ds.length (nenOf (ds.map Direction.ax)))} (hI : Assembled ds (neumannConditions ds.length) 1 none c elt)
    (hJ : ∀ e, InBox (ds.map fun δ => δ.ax.nel) e → ∀ q ∈ (elt e).points none, 0 < q.detJac) (geometry : Bool) (hist) (pw) (w) :
    ∃ A b, computeSystem Ls hist 1 ⟨elt, pw, w⟩ (neumannSystem geometry) = .ok (A, b) ∧
      (∀ i j : Int, 0 ≤ i → i < total (ds.map Direction.ax) 1 → 0 ≤ j → j < total (ds.map Direction.ax) 1 → A (i, j) = A (j, i)) ∧
      ∀ x : Int → ℝ,
        0 ≤ ∑ i ∈ Finset.range (total (ds.map Direction.ax) 1), ∑ j ∈ Finset.range (total (ds.map Direction.ax) 1), x i * A ((i:Int), (j:Int)) * x j ∧
        ((∀ i : Nat, i < total (ds.map Direction.ax) 1 → ∑ j ∈ Finset.range (total (ds.map Direction.ax) 1), A ((i:Int), (j:Int)) * x j = 0) ↔
          ∃ v, ∀ i : Nat, i < total (ds.map Direction.ax) 1 → x i = v) := by
  have hwf := Prb.setup_wf S
  have hel := built_elements hwf hI.built
  have hK := neumann_fills (d := ds.length) (unknowns_one (ds.map Direction.ax)) geometry
  have hu : Represents (ds.map Direction.ax) Ls 1 (fun _ : Int => ()) (fun _ _ => ()) := fun _ _ _ _ => rfl
  obtain ⟨A, a1, a2⟩ := mat_global S hist 1 (fun _ => ()) (fun _ => ()) _ hu
    (fun r e _ => entries ((system (elt e) (neumannSystem geometry) (pw r e) (w r e)).bind fun s => .ok s.1)) (fun e => jacobianAt (elt e) _) fun r' e he => by
      obtain ⟨A, B, h1, h2, _⟩ := C77_system (elt e) (hel e he).1 (neumannSystem geometry) _ _ (by rw [hel.m_eq he, hel.n_eq he]; exact hK) (pw r' e) (w r' e)
      exact element_mat hel he ⟨A, by rw [h1]; rfl, h2⟩
  obtain ⟨b, b1, b2⟩ := vec_global S hist 1 (fun _ => ()) (fun _ => ()) _ hu
    (fun r e _ => entries ((system (elt e) (neumannSystem geometry) (pw r e) (w r e)).bind fun s => .ok s.2)) (fun e => rhsAt (elt e) _ _) fun r' e he => by
      obtain ⟨A, B, h1, _, h3⟩ := C77_system (elt e) (hel e he).1 (neumannSystem geometry) _ _ (by rw [hel.m_eq he, hel.n_eq he]; exact hK) (pw r' e) (w r' e)
      rw [h1]
      exact ⟨_, rfl, fun i hi => h3 i (by rw [hel.n_eq he]; exact hi)⟩
  refine ⟨A, b, by unfold computeSystem; rw [a1]; show Res.bind _ _ = _; rw [b1]; rfl, ?_⟩
  -- the matrix of the form without boundary conditions
  let k : PtData ds.length ds.length (nenOf (ds.map Direction.ax)) → Int → ℝ := fun p => rowMajor fun a b => ∑ i, p.shape.t1 i a * p.shape.t1 i b
  have hF : Fills (unknowns (ds.map Direction.ax) 1 * unknowns (ds.map Direction.ax) 1) (fun p _ => .ok (k p)) k := fun p A _ => ⟨k p, rfl, fun _ _ _ => rfl⟩
  have hk : GramForm 1 (nenOf (ds.map Direction.ax)) (List.ofFn fun i (p : PtData ds.length ds.length (nenOf (ds.map Direction.ax))) a => p.shape.t1 i a) (fun _ => 1) k :=
    gramForm _ _ fun p a b => by rw [List.map_ofFn, List.sum_ofFn]; rfl
  obtain ⟨A', c1, c2⟩ := gram_matrix S (hI.interior hwf) (fun p _ => .ok (k p)) k hF hist pw w
  obtain ⟨A'', d1, d2, d3⟩ := C88_constants S hT hs hE hc (hI.interior hwf) hJ (fun p _ => .ok (k p)) k (fun _ => 1) hF hk (fun _ _ _ _ => one_pos) hist pw w
  obtain rfl : A' = A'' := by rw [c1] at d1; cases d1; rfl
  have key : ∀ i j : Int, 0 ≤ i → i < total (ds.map Direction.ax) 1 → 0 ≤ j → j < total (ds.map Direction.ax) 1 → A (i, j) = A' (i, j) := by
    intro i j i0 i1 j0 j1
    obtain ⟨z, q, hz, hq, rfl⟩ := unknown_onto S i0 i1
    obtain ⟨y, r, hy, hr, rfl⟩ := unknown_onto S j0 j1
    refine (a2 z q y r hz hy hq hr).trans (Eq.trans ?_ (c2 z q y r hz hy hq hr).symm)
    have same : ∀ e ∈ indices ((ds.map Direction.ax).map Axis.nel), ∀ i j, i < unknowns (ds.map Direction.ax) 1 → j < unknowns (ds.map Direction.ax) 1 →
        jacobianAt (elt e) k i j = pointSum ((elt e).points none) fun p => k p (i * unknowns (ds.map Direction.ax) 1 + j) := by
      intro e he i j hi hj
      have he := (mem_indices _ e).1 he
      have free : ∀ i, i < unknowns (ds.map Direction.ax) 1 → tableGet (elt e).fixes.fix i = none := by
        intro i hi
        obtain ⟨t, s, ht, hs, rfl⟩ := exists_slot (ds.map Direction.ax) hwf hi
        rw [((hI.built e he).spec hwf he).2 t s ht hs, neumann_free]
      unfold jacobianAt
      rw [free i hi, free j hj]
      simp only [Option.isSome_none, Bool.false_eq_true, or_self, if_false]
      rw [hel.n_eq he, integral_interior _ (hI.noForms e (by rw [List.map_map] at he; exact he))]
    exact sumMat_congr_in (ds.map Direction.ax) same z q y r hq hr
  refine ⟨fun i j i0 i1 j0 j1 => by rw [key i j i0 i1 j0 j1, key j i j0 j1 i0 i1, d2 i j i0 i1 j0 j1], fun x => ?_⟩
  obtain ⟨e1, e2⟩ := d3 x
  have kk : ∀ i ∈ Finset.range (total (ds.map Direction.ax) 1), ∀ j ∈ Finset.range (total (ds.map Direction.ax) 1), A ((i:Int), (j:Int)) = A' ((i:Int), (j:Int)) :=
    fun i hi j hj => key i j (by omega) (by exact_mod_cast Finset.mem_range.1 hi) (by omega) (by exact_mod_cast Finset.mem_range.1 hj)
  refine ⟨?_, ?_⟩
  · rw [Finset.sum_congr rfl fun i hi => Finset.sum_congr rfl fun j hj => by rw [kk i hi j hj]]
    exact e1
  · rw [show (∀ i : Nat, i < total (ds.map Direction.ax) 1 → ∑ j ∈ Finset.range (total (ds.map Direction.ax) 1), A ((i:Int), (j:Int)) * x j = 0) ↔
      (∀ i : Nat, i < total (ds.map Direction.ax) 1 → ∑ j ∈ Finset.range (total (ds.map Direction.ax) 1), A' ((i:Int), (j:Int)) * x j = 0) from
      forall_congr' fun i => forall_congr' fun hi => by
        rw [Finset.sum_congr rfl fun j hj => by rw [kk i (Finset.mem_range.2 hi) j hj]], e2]
    constructor
    · intro h
      by_cases h0 : 0 < total (ds.map Direction.ax) 1
      · refine ⟨x ((0:Nat):Int), fun i hi => ?_⟩
        obtain ⟨z, q, hz, hq, e⟩ := unknown_onto S (i := (i:Int)) (by omega) (by exact_mod_cast hi)
        obtain ⟨y, r, hy, hr, e'⟩ := unknown_onto S (i := ((0:Nat):Int)) (le_refl _) (by exact_mod_cast h0)
        obtain rfl : q = 0 := by omega
        obtain rfl : r = 0 := by omega
        rw [e, e']
        exact h 0 (by omega) z y hz hy
      · exact ⟨0, fun i hi => absurd hi (by omega)⟩
    · rintro ⟨v, hv⟩ i hi z y hz hy
      have all : ∀ z, InBox ((ds.map Direction.ax).map Axis.nnp) z → x (Blk.unknown Ls (ds.map Direction.ax) 1 z i) = v := by
        intro z hz
        obtain ⟨u0, u1⟩ := unknown_bounds S (dof := 1) hz hi
        have := hv (Blk.unknown Ls (ds.map Direction.ax) 1 z i).toNat (by omega)
        rwa [Int.toNat_of_nonneg u0] at this
      rw [all z hz, all y hy]

/-- **C126**, `MAT_SPD`: the program declares the matrix symmetric positive definite.  It never is: for every such discretisation there is a nonzero
vector without energy. -/
theorem C126_spd_refuted {ds : List (Direction Line)} (S : Setup g2 g3 false size procs axes (ds.map Direction.ax) Ls)
    (hT : ∀ δ ∈ ds, δ.Tabulated) (hs : ∀ δ ∈ ds, IsSpline δ) (hE : ∀ δ ∈ ds, Enough δ)
    {c : List Int → PtIn ds.length ds.length (Fin (nenOf (ds.map Direction.ax)))} (hc : ∀ e, FirstOrder (c e))
    {elt : List Int → Elt ℝ (PtData ds.length ds.length (nenOf (ds.map Direction.ax)))} (hI : Assembled ds (neumannConditions ds.length) 1 none c elt)
    (hJ : ∀ e, InBox (ds.map fun δ => δ.ax.nel) e → ∀ q ∈ (elt e).points none, 0 < q.detJac) (geometry : Bool) (hist) (pw) (w) :
    ∃ A b, computeSystem Ls hist 1 ⟨elt, pw, w⟩ (neumannSystem geometry) = .ok (A, b) ∧
      ¬ ∀ x : Int → ℝ, (∃ i : Nat, i < total (ds.map Direction.ax) 1 ∧ x i ≠ 0) →
        0 < ∑ i ∈ Finset.range (total (ds.map Direction.ax) 1), ∑ j ∈ Finset.range (total (ds.map Direction.ax) 1), x i * A ((i:Int), (j:Int)) * x j := by
  obtain ⟨A, b, hA, -, h⟩ := C126_nullspace S hT hs hE hc hI hJ geometry hist pw w
  refine ⟨A, b, hA, fun hpd => ?_⟩
  have h0 := (h fun _ => 1).2.2 ⟨1, fun _ _ => rfl⟩
  obtain ⟨h1, -, hw⟩ := setup_facts S
  obtain ⟨z, hz, -⟩ := side_node_exists hw ⟨0, h1⟩ false
  obtain ⟨u0, u1⟩ := unknown_bounds S (dof := 1) (c := 0) hz (by omega)
  have := hpd (fun _ => 1) ⟨(Blk.unknown Ls (ds.map Direction.ax) 1 z 0).toNat, by omega, one_ne_zero⟩
  rw [Finset.sum_eq_zero fun i hi => by
    rw [← h0 i (Finset.mem_range.1 hi)]
    exact Finset.sum_congr rfl fun j _ => by ring] at this
  exact lt_irrefl _ this

/-! ### The mean -/

theorem massVector_fills {d nsd n m : Nat} (hm : m = n) : Fills m (massVector (d := d) (nsd := nsd) (n := n)) fun p => entry p.shape.t0 := by
  subst hm
  intro p A _
  refine ⟨_, rfl, fun i h0 hi => ?_⟩
  obtain ⟨j, rfl⟩ := Int.eq_ofNat_of_zero_le h0
  have hj : j < m := by exact_mod_cast hi
  refine (put_fold p.shape.t0 (List.finRange m) A ⟨j, hj⟩).trans ?_
  unfold entry
  simp [hj]

/-- **C126**, the mean: the dot product with the assembled `MassVector` is the integral (by the quadrature rule) of the field, and after the shift the
integral is `(1 - |Ω|)` times what it was, `|Ω|` the integral of 1: it is zero exactly if the domain has measure 1 or the integral was zero.  Any
geometry, with or without weights. -/
theorem C126_mean {ds : List (Direction Line)} (S : Setup g2 g3 false size procs axes (ds.map Direction.ax) Ls)
    (hT : ∀ δ ∈ ds, δ.Tabulated) (hs : ∀ δ ∈ ds, IsSpline δ) {nsd : Nat} {ops : List (Form.Op ℝ)} {UG : Option (List Int → Int → ℝ)}
    {c : List Int → PtIn ds.length nsd (Fin (nenOf (ds.map Direction.ax)))} (hR : ∀ e, Weights ds (c e))
    {elt : List Int → Elt ℝ (PtData ds.length nsd (nenOf (ds.map Direction.ax)))} (hI : Assembled ds ops 1 UG c elt) (hist) (pw) (w) :
    ∃ Q, computeVector Ls hist 1 ⟨elt, pw, w⟩ massVector = .ok Q ∧ ∀ x : Int → ℝ,
      vecDot (total (ds.map Direction.ax) 1) Q x = fieldIntegral (ds.map Direction.ax) elt (fun z i => x (Blk.unknown Ls (ds.map Direction.ax) 1 z i)) 0 ∧
      fieldIntegral (ds.map Direction.ax) elt (fun z i => shiftMean (total (ds.map Direction.ax) 1) Q x (Blk.unknown Ls (ds.map Direction.ax) 1 z i)) 0 =
        fieldIntegral (ds.map Direction.ax) elt (fun z i => x (Blk.unknown Ls (ds.map Direction.ax) 1 z i)) 0 *
          (1 - domainIntegral (ds.map Direction.ax) elt fun _ _ => 1) := by
  have hwf := Prb.setup_wf S
  obtain ⟨h1, h3, hw⟩ := setup_facts S
  obtain ⟨Q, hQ, hrep⟩ := C80_vector S hI.built massVector _ (massVector_fills (unknowns_one (ds.map Direction.ax))) hist pw w
  have hdot : ∀ x : Int → ℝ, vecDot (total (ds.map Direction.ax) 1) Q x =
      fieldIntegral (ds.map Direction.ax) elt (fun z i => x (Blk.unknown Ls (ds.map Direction.ax) 1 z i)) 0 := by
    intro x
    unfold vecDot
    rw [sum_unknown S 1 fun i => Q i * x i]
    have hh := sumVec_work S 1 (fun z i => x (Blk.unknown Ls (ds.map Direction.ax) 1 z i)) (fun e j => integral (elt e) fun p => entry p.shape.t0 j)
    refine Eq.trans ?_ (hh.trans ?_)
    · congr 1; refine List.map_congr_left fun z hz => ?_
      congr 1; refine List.map_congr_left fun q hq => ?_
      exact congrArg (· * _) (hrep z q ((mem_indices _ _).1 hz) (List.mem_range.1 hq))
    · unfold fieldIntegral domainIntegral
      congr 1; refine List.map_congr_left fun e he => ?_
      have he := (mem_indices _ e).1 he
      simp only [integral_interior _ (hI.noForms e (by rw [List.map_map] at he; exact he))]
      have mulr : ∀ (f : PtData ds.length nsd (nenOf (ds.map Direction.ax)) → ℝ) (v : ℝ), pointSum ((elt e).points none) f * v = pointSum ((elt e).points none) fun p => f p * v := by
        intro f v
        unfold pointSum
        rw [Drv.sum_mul]
        congr 1; refine List.map_congr_left fun q _ => ?_
        ring
      simp only [mulr]
      rw [pointSum_list]
      refine pointSum_congr _ fun q _ => ?_
      rw [unknowns_one, range_sum, comb_local]
      refine Finset.sum_congr rfl fun a _ => ?_
      unfold entry loc
      rw [dif_pos (by simpa using a.2)]
      exact mul_comm _ _
  refine ⟨Q, hQ, fun x => ⟨hdot x, ?_⟩⟩
  rw [← hdot x]
  have hm : ∀ e ∈ indices ((ds.map Direction.ax).map Axis.nel),
      pointSum ((elt e).points none) (fun p => combine (ds.map Direction.ax) e p.shape.t0
        (fun z i => shiftMean (total (ds.map Direction.ax) 1) Q x (Blk.unknown Ls (ds.map Direction.ax) 1 z i)) 0) =
      pointSum ((elt e).points none) (fun p => combine (ds.map Direction.ax) e p.shape.t0 (fun z i => x (Blk.unknown Ls (ds.map Direction.ax) 1 z i)) 0) -
        vecDot (total (ds.map Direction.ax) 1) Q x * pointSum ((elt e).points none) fun _ => 1 := by
    intro e he
    have he := (mem_indices _ e).1 he
    rw [List.map_map] at he
    obtain ⟨mem, htab⟩ := hI.points e he
    have hsum := fun q hq => (shape_sums h1 h3 hT hs hw (c e) (hR e) he htab q hq).1
    have e1 : ∀ q ∈ (elt e).points none, combine (ds.map Direction.ax) e q.data.shape.t0
        (fun z i => shiftMean (total (ds.map Direction.ax) 1) Q x (Blk.unknown Ls (ds.map Direction.ax) 1 z i)) 0 =
        combine (ds.map Direction.ax) e q.data.shape.t0 (fun z i => x (Blk.unknown Ls (ds.map Direction.ax) 1 z i)) 0 - vecDot (total (ds.map Direction.ax) 1) Q x := by
      intro q hq
      rw [combine_fin_sum _ rfl, combine_fin_sum _ rfl]
      conv_rhs => rw [← mul_one (vecDot _ Q x), ← hsum q hq, Finset.mul_sum]
      rw [← Finset.sum_sub_distrib]
      exact Finset.sum_congr rfl fun a _ => by unfold shiftMean; ring
    rw [pointSum_congr (g := fun p => combine (ds.map Direction.ax) e p.shape.t0 (fun z i => x (Blk.unknown Ls (ds.map Direction.ax) 1 z i)) 0 -
      vecDot (total (ds.map Direction.ax) 1) Q x) _ e1]
    unfold pointSum
    induction (elt e).points none with
    | nil => simp
    | cons q l ih => simp only [List.map_cons, List.sum_cons, ih]; ring
  unfold fieldIntegral domainIntegral at *
  rw [List.map_congr_left hm]
  have hx := hdot x
  generalize vecDot (total (ds.map Direction.ax) 1) Q x = m at hx ⊢
  have lin : ∀ l : List (List Int), (l.map fun e => pointSum ((elt e).points none) (fun p => combine (ds.map Direction.ax) e p.shape.t0 (fun z i => x (Blk.unknown Ls (ds.map Direction.ax) 1 z i)) 0) -
        m * pointSum ((elt e).points none) fun _ => 1).sum =
      (l.map fun e => pointSum ((elt e).points none) (fun p => combine (ds.map Direction.ax) e p.shape.t0 (fun z i => x (Blk.unknown Ls (ds.map Direction.ax) 1 z i)) 0)).sum -
        m * (l.map fun e => pointSum ((elt e).points none) fun _ => (1:ℝ)).sum := by
    intro l
    induction l with
    | nil => simp
    | cons e l ih => simp only [List.map_cons, List.sum_cons, ih]; ring
  rw [lin, ← hx]
  ring

variable (g2 : Guess2) (g3 : Guess3) (J : Bsp.Junk ℝ) (hist : Nat → Hist) (pw : Nat → List Int → PWork ℝ) (w : Nat → List Int → Work ℝ)

/-- `C126_nullspace` applies: two processes, degree 2, the identity map. -/
example : ∃ (Ls : List (Layout ℝ)) (elt : List Int → Elt ℝ (PtData (exLines J).length (exLines J).length (nenOf ((exLines J).map Direction.ax)))) (A : Int × Int → ℝ)
    (b : Int → ℝ), computeSystem Ls hist 1 ⟨elt, pw, w⟩ (neumannSystem true) = .ok (A, b) ∧
    ∀ i : Nat, i < total ((exLines J).map Direction.ax) 1 → ∑ j ∈ Finset.range (total ((exLines J).map Direction.ax) 1), A ((i:Int), (j:Int)) * 3 = 0 := by
  obtain ⟨Ls, elt, S, hI, hJ⟩ := exAssembledId g2 g3 J (neumannConditions (exLines J).length)
  have hok := exLines_ok J
  obtain ⟨A, b, h1, -, h2⟩ := C126_nullspace S (fun δ h => (hok δ h).1) (fun δ h => (hok δ h).2.1) (fun δ h => (hok δ h).2.2.1)
    (fun _ => ⟨le_refl _, rfl, rfl, rfl⟩) hI (fun e he q hq => (hJ e he q hq).1) true hist pw w
  exact ⟨Ls, elt, A, b, h1, (h2 fun _ => 3).2.2 ⟨3, fun _ _ => rfl⟩⟩

/-- `C126_spd_refuted` applies to the same case. -/
example : ∃ (Ls : List (Layout ℝ)) (elt : List Int → Elt ℝ (PtData (exLines J).length (exLines J).length (nenOf ((exLines J).map Direction.ax)))) (A : Int × Int → ℝ)
    (b : Int → ℝ), computeSystem Ls hist 1 ⟨elt, pw, w⟩ (neumannSystem true) = .ok (A, b) ∧
    ¬ ∀ x : Int → ℝ, (∃ i : Nat, i < total ((exLines J).map Direction.ax) 1 ∧ x i ≠ 0) →
      0 < ∑ i ∈ Finset.range (total ((exLines J).map Direction.ax) 1), ∑ j ∈ Finset.range (total ((exLines J).map Direction.ax) 1), x i * A ((i:Int), (j:Int)) * x j := by
  obtain ⟨Ls, elt, S, hI, hJ⟩ := exAssembledId g2 g3 J (neumannConditions (exLines J).length)
  have hok := exLines_ok J
  obtain ⟨A, b, h1, h2⟩ := C126_spd_refuted S (fun δ h => (hok δ h).1) (fun δ h => (hok δ h).2.1) (fun δ h => (hok δ h).2.2.1)
    (fun _ => ⟨le_refl _, rfl, rfl, rfl⟩) hI (fun e he q hq => (hJ e he q hq).1) true hist pw w
  exact ⟨Ls, elt, A, b, h1, h2⟩

/-- `C126_mean` applies to the same case. -/
example : ∃ (Ls : List (Layout ℝ)) (elt : List Int → Elt ℝ (PtData (exLines J).length (exLines J).length (nenOf ((exLines J).map Direction.ax)))) (Q : Int → ℝ),
    computeVector Ls hist 1 ⟨elt, pw, w⟩ massVector = .ok Q ∧
    vecDot (total ((exLines J).map Direction.ax) 1) Q (fun i => i) =
      fieldIntegral ((exLines J).map Direction.ax) elt (fun z i => (Blk.unknown Ls ((exLines J).map Direction.ax) 1 z i : ℝ)) 0 := by
  obtain ⟨Ls, elt, S, hI, -⟩ := exAssembledId g2 g3 J (neumannConditions (exLines J).length)
  have hok := exLines_ok J
  obtain ⟨Q, h1, h2⟩ := C126_mean S (fun δ h => (hok δ h).1) (fun δ h => (hok δ h).2.1) (fun _ W h => by cases h) hI hist pw w
  exact ⟨Ls, elt, Q, h1, (h2 fun i => i).1⟩

end PetIGA.Demo
