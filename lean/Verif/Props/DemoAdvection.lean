import Verif.Model.DemoAdvection
import Verif.Props.NeumannRhs
/-
C128: demo/AdvectionDiffusion.c.  The system has exactly one solution whatever the strength of the wind; what `-Pe` is the strength of; the
program without a direction.
-/
set_option linter.unusedSectionVars false
namespace PetIGA.Demo
open PetIGA.Quad PetIGA.Drv PetIGA.Spec PetIGA.Ax PetIGA.Lay PetIGA.Asm PetIGA.Rule PetIGA.Grid PetIGA.Part PetIGA.Ker PetIGA.PCA PetIGA.Itg
open PetIGA.Frm (pointSum_congr)

variable {g2 : Guess2} {g3 : Guess3} {size : Int} {procs : List Int} {axes : List (Axis ℝ)} {Ls : List (Layout ℝ)}

/-! ### Linear systems -/

/-- A linear system whose quadratic form is positive has exactly one solution. -/
theorem positive_solve {N : Nat} {A : Int × Int → ℝ}
    (hA : ∀ v : Int → ℝ, (∃ i : Nat, i < N ∧ v i ≠ 0) → 0 < ∑ i ∈ Finset.range N, ∑ j ∈ Finset.range N, v i * A ((i:Int), (j:Int)) * v j) (b : Int → ℝ) :
    ∃ x, Solves N A b x ∧ ∀ y, Solves N A b y → ∀ i : Nat, i < N → y i = x i := by
  have huniq : ∀ v : Int → ℝ, Solves N A (fun _ => 0) v → ∀ i : Nat, i < N → v i = 0 := by
    intro v hv i hi
    by_contra hne
    have h1 := hA v ⟨i, hi, hne⟩
    have h2 : ∑ i ∈ Finset.range N, ∑ j ∈ Finset.range N, v i * A ((i:Int), (j:Int)) * v j = 0 := by
      refine Finset.sum_eq_zero fun i hi => ?_
      have := hv i (Finset.mem_range.1 hi)
      rw [show ∑ j ∈ Finset.range N, v i * A ((i:Int), (j:Int)) * v j = v i * ∑ j ∈ Finset.range N, A ((i:Int), (j:Int)) * v j by
        rw [Finset.mul_sum]; exact Finset.sum_congr rfl fun j _ => by ring, this, mul_zero]
    rw [h2] at h1
    exact lt_irrefl _ h1
  set M : Matrix (Fin N) (Fin N) ℝ := Matrix.of fun i j => A ((i:Nat), (j:Nat)) with hM
  have hdet : M.det ≠ 0 := by
    intro h0
    obtain ⟨v, hv, hz⟩ := Matrix.exists_mulVec_eq_zero_iff.2 h0
    apply hv
    funext i
    have := huniq (fun j => if h : j.toNat < N then v ⟨j.toNat, h⟩ else 0) (by
      intro i hi
      have h1 := congrFun hz ⟨i, hi⟩
      rw [Matrix.mulVec, dotProduct] at h1
      rw [Finset.sum_range]
      refine Eq.trans (Finset.sum_congr rfl fun j _ => ?_) (h1.trans rfl)
      simp [hM]) i i.2
    simpa using this
  have hu : IsUnit M.det := isUnit_iff_ne_zero.2 hdet
  set v := M⁻¹.mulVec fun i => b (i:Nat) with hv
  have hMv : M.mulVec v = fun i : Fin N => b (i:Nat) := by rw [hv, Matrix.mulVec_mulVec, Matrix.mul_nonsing_inv _ hu, Matrix.one_mulVec]
  have hsol : Solves N A b fun j => if h : j.toNat < N then v ⟨j.toNat, h⟩ else 0 := by
    intro i hi
    have h1 := congrFun hMv ⟨i, hi⟩
    rw [Matrix.mulVec, dotProduct] at h1
    dsimp only at h1
    rw [← h1, Finset.sum_range]
    refine Finset.sum_congr rfl fun j _ => ?_
    simp [hM]
  refine ⟨_, hsol, fun y hy i hi => sub_eq_zero.1 (huniq (fun j => y j - (if h : j.toNat < N then v ⟨j.toNat, h⟩ else 0)) (fun i hi => ?_) i hi)⟩
  simp only [mul_sub, Finset.sum_sub_distrib]
  rw [hy i hi, hsol i hi, sub_self]

/-! ### The quadratic form -/

/-- The squares of the constrained unknowns of an element. -/
noncomputable def fixedSquares (axs : List (Axis ℝ)) {P : Type} (E : Elt ℝ P) (u : List Int → Nat → ℝ) (e : List Int) : ℝ :=
  ((List.range (unknowns axs 1)).map fun (i : Nat) => if (tableGet E.fixes.fix i).isSome then (valuesOf false axs 1 u e).getD i 0 * (valuesOf false axs 1 u e).getD i 0 else 0).sum

/-- The quadratic form of the matrix of a system: the squares of the constrained unknowns and the form of the field without them. -/
theorem system_form {ds : List (Direction Line)} (S : Setup g2 g3 false size procs axes (ds.map Direction.ax) Ls) {ops : List (Form.Op ℝ)}
    {c : List Int → PtIn ds.length ds.length (Fin (nenOf (ds.map Direction.ax)))}
    {elt : List Int → Elt ℝ (PtData ds.length ds.length (nenOf (ds.map Direction.ax)))} (hI : Assembled ds ops 1 none c elt)
    (cb : PtData ds.length ds.length (nenOf (ds.map Direction.ax)) → (Int → ℝ) → (Int → ℝ) → Res ((Int → ℝ) × (Int → ℝ)))
    (κ : PtData ds.length ds.length (nenOf (ds.map Direction.ax)) → Fin (nenOf (ds.map Direction.ax)) → Fin (nenOf (ds.map Direction.ax)) → ℝ) (r)
    (hK : FillsSys (unknowns (ds.map Direction.ax) 1) (unknowns (ds.map Direction.ax) 1) cb (fun p => rowMajor (κ p)) r) (hist) (pw) (w) :
    ∃ A b, computeSystem Ls hist 1 ⟨elt, pw, w⟩ cb = .ok (A, b) ∧ ∀ x : Int → ℝ,
      ∑ i ∈ Finset.range (total (ds.map Direction.ax) 1), ∑ j ∈ Finset.range (total (ds.map Direction.ax) 1), x i * A ((i:Int), (j:Int)) * x j =
        ((indices ((ds.map Direction.ax).map Axis.nel)).map fun e => fixedSquares (ds.map Direction.ax) (elt e) (fun z i => x (Blk.unknown Ls (ds.map Direction.ax) 1 z i)) e).sum +
        ((indices ((ds.map Direction.ax).map Axis.nel)).map fun e => pointSum ((elt e).points none) fun p =>
          ∑ a : Fin (nenOf (ds.map Direction.ax)), ∑ b : Fin (nenOf (ds.map Direction.ax)),
            loc (ds.map Direction.ax) (freeRates (ds.map Direction.ax) ops none fun z i => x (Blk.unknown Ls (ds.map Direction.ax) 1 z i)) e a * κ p a b *
            loc (ds.map Direction.ax) (freeRates (ds.map Direction.ax) ops none fun z i => x (Blk.unknown Ls (ds.map Direction.ax) 1 z i)) e b).sum := by
  have hwf := Prb.setup_wf S
  have hE := built_elements hwf hI.built
  have hu : Represents (ds.map Direction.ax) Ls 1 (fun _ : Int => ()) (fun _ _ => ()) := fun _ _ _ _ => rfl
  obtain ⟨A, a1, a2⟩ := mat_global S hist 1 (fun _ => ()) (fun _ => ()) _ hu
    (fun r e _ => entries ((system (elt e) cb (pw r e) (w r e)).bind fun s => .ok s.1)) (fun e => jacobianAt (elt e) fun p => rowMajor (κ p)) fun r' e he => by
      obtain ⟨A, B, h1, h2, _⟩ := C77_system (elt e) (hE e he).1 cb _ _ (by rw [hE.m_eq he, hE.n_eq he]; exact hK) (pw r' e) (w r' e)
      exact element_mat hE he ⟨A, by rw [h1]; rfl, h2⟩
  obtain ⟨b, b1, b2⟩ := vec_global S hist 1 (fun _ => ()) (fun _ => ()) _ hu
    (fun r e _ => entries ((system (elt e) cb (pw r e) (w r e)).bind fun s => .ok s.2)) (fun e => rhsAt (elt e) _ _) fun r' e he => by
      obtain ⟨A, B, h1, _, h3⟩ := C77_system (elt e) (hE e he).1 cb _ _ (by rw [hE.m_eq he, hE.n_eq he]; exact hK) (pw r' e) (w r' e)
      rw [h1]
      exact ⟨_, rfl, fun i hi => h3 i (by rw [hE.n_eq he]; exact hi)⟩
  refine ⟨A, b, by unfold computeSystem; rw [a1]; show Res.bind _ _ = _; rw [b1]; rfl, fun x => ?_⟩
  rw [global_form S 1 _ A a2 x x, ← List.sum_map_add]
  congr 1
  refine List.map_congr_left fun e he => ?_
  have he := (mem_indices _ e).1 he
  have := elemForm_fixed (elt e) (fun p => rowMajor (κ p)) (valuesOf false (ds.map Direction.ax) 1 (fun z i => x (Blk.unknown Ls (ds.map Direction.ax) 1 z i)) e)
  rw [hE.n_eq he, withoutRates_free hwf hI.built he] at this
  refine this.trans ?_
  rw [Sym.elemForm_integral, integral_interior _ (hI.noForms e (by rw [List.map_map] at he; exact he))]
  congr 1
  refine pointSum_congr _ fun q _ => ?_
  rw [unknowns_one, range_sum]
  refine Finset.sum_congr rfl fun a _ => ?_
  rw [range_sum, Finset.mul_sum]
  refine Finset.sum_congr rfl fun b _ => ?_
  have := rowMajor_at (κ q.data) a b
  push_cast at this
  rw [this]
  unfold loc
  ring

/-! ### The program -/

theorem advection_fills {d n m : Nat} (hm : m = n) (w : Nat → ℝ) :
    FillsSys m m (advectionSystem (d := d) (n := n) w)
      (fun p => rowMajor fun a b => (∑ i, p.shape.t1 i a * p.shape.t1 i b) + p.shape.t0 a * ∑ i : Fin d, w i * p.shape.t1 i b) (fun _ => entry fun _ : Fin n => 0) :=
  fills hm _ _ _ fun p K F => by simp [advectionSystem, dot_eq]

theorem advection_sideValue {dim : Nat} (h3 : dim ≤ 3) (dir : Nat → ℝ) {a : Nat} (ha : a < dim) (s : Bool) :
    SideValue (advectionConditions dim dir) a s 0 = if dir a = 0 then none else some (if s then 0 else 1) := by
  by_cases d0 : dir 0 = 0 <;> by_cases d1 : dir 1 = 0 <;> by_cases d2 : dir 2 = 0 <;> interval_cases dim <;> interval_cases a <;> cases s <;>
    simp [SideValue, advectionConditions, List.range_succ, Form.valueEvents, inForce, BCEvent.legal, d0, d1, d2]

theorem advection_noLoads (dim : Nat) (dir : Nat → ℝ) : NoLoads (advectionConditions dim dir) := by
  intro a s k v h
  have h := mem_loadEvents (inForce_mem h)
  unfold advectionConditions at h
  obtain ⟨i, -, h⟩ := List.mem_flatMap.1 h
  split at h <;> simp at h

/-- The transport term of a field that vanishes on both sides of the direction. -/
theorem transport_zero {ds : List (Direction Line)} (S : Setup g2 g3 false size procs axes (ds.map Direction.ax) Ls)
    (hT : ∀ δ ∈ ds, δ.Tabulated) (hs : ∀ δ ∈ ds, IsSpline δ) (hper : ∀ δ ∈ ds, δ.ax.periodic = false) (hX : PointsInside ds)
    (hx : ∀ δ ∈ ds, ExactRule (2 * δ.ax.p.toNat) δ.X δ.W) (i : Fin ds.length) (hcl : ∀ s, ClampedAt ds[i].ax s)
    {c : List Int → PtIn ds.length ds.length (Fin (nenOf (ds.map Direction.ax)))} (hc : ∀ e, FirstOrder (c e)) (hgeo : ∀ e, (c e).geometry = none)
    {ops : List (Form.Op ℝ)} {elt : List Int → Elt ℝ (PtData ds.length ds.length (nenOf (ds.map Direction.ax)))} (hI : Assembled ds ops 1 none c elt)
    (v : List Int → Nat → ℝ) (hv : ∀ (s : Bool) z, z[(i:Nat)]? = some (sideNode ds[i].ax s) → v z 0 = 0) :
    ((indices (ds.map fun δ => δ.ax.nel)).map fun e => pointSum ((elt e).points none) fun p =>
      combine (ds.map Direction.ax) e p.shape.t0 v 0 * combine (ds.map Direction.ax) e (p.shape.t1 i) v 0).sum = 0 := by
  obtain ⟨h1, h3, hw⟩ := setup_facts S
  let m0 : Nat → Tab ℝ ds.length Nat × PtOut ds.length ds.length (Fin (nenOf (ds.map Direction.ax))) := fun _ =>
    (⟨fun _ => 0, fun _ _ => 0, fun _ _ _ => 0, fun _ _ _ _ => 0, fun _ _ _ _ _ => 0⟩,
     ⟨⟨fun _ => 0, fun _ _ => 0, fun _ _ _ => 0, fun _ _ _ _ => 0, fun _ _ _ _ _ => 0⟩,
      ⟨fun _ => 0, fun _ _ => 0, fun _ _ _ => 0, fun _ _ _ _ => 0, fun _ _ _ _ _ => 0⟩, 0,
      ⟨fun _ => 0, fun _ _ => 0, fun _ _ _ => 0, fun _ _ _ _ => 0, fun _ _ _ _ _ => 0⟩,
      ⟨fun _ => 0, fun _ _ => 0, fun _ _ _ => 0, fun _ _ _ _ => 0, fun _ _ _ _ _ => 0⟩, 0, fun _ => 0, 0⟩)
  have hins : ∀ (a : Fin ds.length) (s : Bool) (e : List Int), InBox ((ds.eraseIdx a).map fun δ => δ.ax.nel) e →
      InBox (ds.map fun δ => δ.ax.nel) (onSide ds[a].ax a s e) ∧ (onSide ds[a].ax a s e)[(a:Nat)]? = some (sideElem ds[a].ax s) := by
    intro a s e he
    have ho := setup_open S ds[a] (by simp)
    have ha := a.isLt
    obtain ⟨-, sn0, sn1⟩ := sideElem_sp (hw ds[a] (by simp)) ho s
    have hel : e.length + 1 = ds.length := by
      rw [PetIGA.Grid.inBox_length he, List.length_map, List.length_eraseIdx]; simp; omega
    have hns : (ds.map fun δ => δ.ax.nel)[(a:Nat)]? = some ds[a].ax.nel := by simp
    exact ⟨inBox_insert hns (by rw [List.eraseIdx_map]; exact he) sn0 sn1, insert_get _ _ _ (by omega)⟩
  have hface : ∀ (a : Fin ds.length) (s : Bool) (e : List Int), InBox ((ds.eraseIdx a).map fun δ => δ.ax.nel) e → ∃ qs,
      tabulateFace (c (onSide ds[a].ax a s e)) (ds.map Direction.B) (ds.map fun d => endPoints d.ax) (onSide ds[a].ax a s e) a s m0 = .ok qs := by
    intro a s e he
    obtain ⟨qs, h, -⟩ := tabulateFace_ok rfl h1 h3 hT hs hw (c (onSide ds[a].ax a s e)) (.inl (hgeo _)) (hins a s e he).1 m0
      (show ds[(a:Nat)]? = some ds[a] by simp) (setup_open S ds[a] (by simp)) (hins a s e he).2
    exact ⟨qs, h⟩
  haveI : Nonempty (Tab ℝ ds.length ℕ × PtOut ds.length ds.length (Fin (nenOf (ds.map Direction.ax)))) := ⟨m0 0⟩
  have hin := hI.points
  choose! mem hqs using hin
  choose! qb hqb using hface
  have hG := C121_by_parts S hT hs hper hx i v v 0 0 c hc hgeo mem (fun e => (elt e).points none) hqs (fun a s e => c (onSide ds[a].ax a s e))
    (fun a s e => ⟨hgeo _, (hc _).spline⟩) (fun _ _ _ => m0) qb hqb
  have hz : ∀ x y : ℝ, x = y + y → x = 0 → y = 0 := fun x y h1 h2 => by linarith
  refine hz _ _ (Eq.trans ?_ (List.sum_map_add (f := fun e => pointSum ((elt e).points none) fun p =>
      combine (ds.map Direction.ax) e p.shape.t0 v 0 * combine (ds.map Direction.ax) e (p.shape.t1 i) v 0))) (hG.trans ?_)
  · congr 1; refine List.map_congr_left fun e _ => ?_
    unfold pointSum
    rw [← List.sum_map_add]
    congr 1; refine List.map_congr_left fun q _ => ?_
    ring
  · refine Finset.sum_eq_zero fun a _ => Finset.sum_eq_zero fun s _ => List.sum_eq_zero fun y hy => ?_
    obtain ⟨e, he, rfl⟩ := List.mem_map.1 hy
    have he := (mem_indices _ e).1 he
    refine List.sum_eq_zero fun y hy => ?_
    obtain ⟨q, hq, rfl⟩ := List.mem_map.1 hy
    by_cases ha : a = i
    · subst ha
      have tr := (C119_trace S hT hs hX (c (onSide ds[a].ax a s e)) (fun W h => by rw [(hc _).spline] at h; cases h) (hins a s e he).1 a s (hcl s)
        (hper ds[a] (by simp)) (hins a s e he).2 (hqb a s e he) q hq v 0).1 (fun _ _ => 0) (fun z hz => hv s z hz.2)
      have z0 : combine (ds.map Direction.ax) (onSide ds[a].ax a s e) q.data.shape.t0 (fun _ _ => 0) 0 = 0 := by unfold Drv.combine; simp
      rw [tr, z0]
      ring
    · rw [face_normal h1 h3 hT hs hw a s (setup_open S ds[a] (by simp)) _ (hgeo _) (hins a s e he).1 (hins a s e he).2 (hqb a s e he) q hq]
      unfold flatNormal
      rw [if_neg (fun h => ha (Fin.ext h.symm))]
      ring

/-- The integrand of the form, for two fields. -/
theorem advection_bilinear (axs : List (Axis ℝ)) (e : List Int) {d : Nat} (p : PtData d d (nenOf axs)) (w : Nat → ℝ) (v u : List Int → Nat → ℝ) :
    (∑ a : Fin (nenOf axs), ∑ b : Fin (nenOf axs), loc axs v e a * ((∑ i, p.shape.t1 i a * p.shape.t1 i b) + p.shape.t0 a * ∑ i : Fin d, w i * p.shape.t1 i b) *
        loc axs u e b) =
      (∑ i : Fin d, combine axs e (p.shape.t1 i) v 0 * combine axs e (p.shape.t1 i) u 0) +
        combine axs e p.shape.t0 v 0 * ∑ i : Fin d, w i * combine axs e (p.shape.t1 i) u 0 := by
  have hi : ∀ g : Fin d → Fin (nenOf axs) → ℝ, ∑ i : Fin d, combine axs e (g i) v 0 * combine axs e (p.shape.t1 i) u 0 =
      ∑ a : Fin (nenOf axs), ∑ b : Fin (nenOf axs), loc axs v e a * (∑ i, g i a * p.shape.t1 i b) * loc axs u e b := by
    intro g
    rw [Finset.sum_congr rfl fun i _ => show _ = ∑ a : Fin (nenOf axs), ∑ b : Fin (nenOf axs), loc axs v e a * (g i a * p.shape.t1 i b) * loc axs u e b by
      rw [comb_local, comb_local, Finset.sum_mul_sum]
      exact Finset.sum_congr rfl fun a _ => Finset.sum_congr rfl fun b _ => by ring]
    rw [Finset.sum_comm]
    refine Finset.sum_congr rfl fun a _ => ?_
    rw [Finset.sum_comm]
    refine Finset.sum_congr rfl fun b _ => ?_
    rw [Finset.mul_sum, Finset.sum_mul]
  have h2 : combine axs e p.shape.t0 v 0 * ∑ i : Fin d, w i * combine axs e (p.shape.t1 i) u 0 =
      ∑ i : Fin d, combine axs e (fun a => w i * p.shape.t0 a) v 0 * combine axs e (p.shape.t1 i) u 0 := by
    rw [Finset.mul_sum]
    refine Finset.sum_congr rfl fun i _ => ?_
    rw [show combine axs e (fun a => w i * p.shape.t0 a) v 0 = w i * combine axs e p.shape.t0 v 0 by
      rw [comb_local, comb_local, Finset.mul_sum]; exact Finset.sum_congr rfl fun a _ => by ring]
    ring
  rw [h2, hi fun i a => p.shape.t1 i a, hi fun i a => w i * p.shape.t0 a, ← Finset.sum_add_distrib]
  refine Finset.sum_congr rfl fun a _ => ?_
  rw [← Finset.sum_add_distrib]
  refine Finset.sum_congr rfl fun b _ => ?_
  rw [Finset.mul_sum, Finset.sum_congr rfl fun (i : Fin d) _ => show w i * p.shape.t0 a * p.shape.t1 i b = p.shape.t0 a * (w i * p.shape.t1 i b) by ring]
  ring

/-- The integrand of the form. -/
theorem advection_integrand (axs : List (Axis ℝ)) (e : List Int) {d : Nat} (p : PtData d d (nenOf axs)) (w : Nat → ℝ) (v : List Int → Nat → ℝ) :
    (∑ a : Fin (nenOf axs), ∑ b : Fin (nenOf axs), loc axs v e a * ((∑ i, p.shape.t1 i a * p.shape.t1 i b) + p.shape.t0 a * ∑ i : Fin d, w i * p.shape.t1 i b) *
        loc axs v e b) =
      (∑ a : Fin (nenOf axs), ∑ b : Fin (nenOf axs), loc axs v e a * (∑ i, p.shape.t1 i a * p.shape.t1 i b) * loc axs v e b) +
        ∑ i : Fin d, w i * (combine axs e p.shape.t0 v 0 * combine axs e (p.shape.t1 i) v 0) := by
  have h1 : ∑ i : Fin d, w i * (combine axs e p.shape.t0 v 0 * combine axs e (p.shape.t1 i) v 0) =
      ∑ a : Fin (nenOf axs), ∑ b : Fin (nenOf axs), loc axs v e a * (p.shape.t0 a * ∑ i : Fin d, w i * p.shape.t1 i b) * loc axs v e b := by
    have hi : ∀ i : Fin d, w i * (combine axs e p.shape.t0 v 0 * combine axs e (p.shape.t1 i) v 0) =
        ∑ a : Fin (nenOf axs), ∑ b : Fin (nenOf axs), loc axs v e a * (p.shape.t0 a * (w i * p.shape.t1 i b)) * loc axs v e b := by
      intro i
      rw [comb_local, comb_local, Finset.sum_mul_sum, Finset.mul_sum]
      refine Finset.sum_congr rfl fun a _ => ?_
      rw [Finset.mul_sum]
      exact Finset.sum_congr rfl fun b _ => by ring
    rw [Finset.sum_congr rfl fun i _ => hi i, Finset.sum_comm]
    refine Finset.sum_congr rfl fun a _ => ?_
    rw [Finset.sum_comm]
    refine Finset.sum_congr rfl fun b _ => ?_
    rw [Finset.mul_sum, Finset.mul_sum, Finset.sum_mul]
  rw [h1, ← Finset.sum_add_distrib]
  refine Finset.sum_congr rfl fun a _ => ?_
  rw [← Finset.sum_add_distrib]
  exact Finset.sum_congr rfl fun b _ => by ring

theorem pointSum_add {P : Type} (qs : List (QP ℝ P)) (f g : P → ℝ) : pointSum qs (fun p => f p + g p) = pointSum qs f + pointSum qs g := by
  unfold pointSum
  rw [← List.sum_map_add]
  congr 1; refine List.map_congr_left fun q _ => ?_
  ring

theorem sum_fin {α : Type} {d : Nat} (l : List α) (w : Fin d → ℝ) (f : Fin d → α → ℝ) :
    (l.map fun e => ∑ i, w i * f i e).sum = ∑ i, w i * (l.map (f i)).sum := by
  induction l with
  | nil => simp
  | cons q l ih => simp only [List.map_cons, List.sum_cons, ih, mul_add, Finset.sum_add_distrib]

theorem pointSum_fin {P : Type} {d : Nat} (qs : List (QP ℝ P)) (w : Fin d → ℝ) (f : Fin d → P → ℝ) :
    pointSum qs (fun p => ∑ i, w i * f i p) = ∑ i, w i * pointSum qs (f i) := by
  unfold pointSum
  rw [← sum_fin]
  congr 1; refine List.map_congr_left fun q _ => ?_
  rw [Finset.sum_mul]
  exact Finset.sum_congr rfl fun i _ => by ring

/-- A direction without wind has no boundary condition and the others have. -/
theorem wind_zero {dim : Nat} {Pe : ℝ} {dir : Nat → ℝ} {i : Nat} (h : dir i = 0) : computeWind dim Pe dir i = 0 := by
  unfold computeWind
  simp [h]

/-- **C128**, demo/AdvectionDiffusion.c without a geometry: with any number of processes, 1 to 3 dimensions, any Peclet number and direction (not zero),
any degrees, any knots clamped at both ends in the directions of the wind, and rules exact for twice the degrees, `IGAComputeSystem` succeeds, the
quadratic form of the assembled matrix is positive and the system has exactly one solution: Galerkin's method is stable at every strength of the
wind. -/
theorem C128_definite {ds : List (Direction Line)} (S : Setup g2 g3 false size procs axes (ds.map Direction.ax) Ls)
    (hT : ∀ δ ∈ ds, δ.Tabulated) (hs : ∀ δ ∈ ds, IsSpline δ) (hper : ∀ δ ∈ ds, δ.ax.periodic = false) (hEn : ∀ δ ∈ ds, Enough δ) (hX : PointsInside ds)
    (hx : ∀ δ ∈ ds, ExactRule (2 * δ.ax.p.toNat) δ.X δ.W) (Pe : ℝ) (dir : Nat → ℝ) (hdir : ∃ i : Fin ds.length, dir i ≠ 0)
    (hcl : ∀ i : Fin ds.length, dir i ≠ 0 → ∀ s, ClampedAt ds[i].ax s)
    {c : List Int → PtIn ds.length ds.length (Fin (nenOf (ds.map Direction.ax)))} (hc : ∀ e, FirstOrder (c e)) (hgeo : ∀ e, (c e).geometry = none)
    {elt : List Int → Elt ℝ (PtData ds.length ds.length (nenOf (ds.map Direction.ax)))} (hI : Assembled ds (advectionConditions ds.length dir) 1 none c elt)
    (hist) (pw) (w) :
    ∃ A b, computeSystem Ls hist 1 ⟨elt, pw, w⟩ (advectionSystem (computeWind ds.length Pe dir)) = .ok (A, b) ∧
      (∀ x : Int → ℝ, (∃ i : Nat, i < total (ds.map Direction.ax) 1 ∧ x i ≠ 0) →
        0 < ∑ i ∈ Finset.range (total (ds.map Direction.ax) 1), ∑ j ∈ Finset.range (total (ds.map Direction.ax) 1), x i * A ((i:Int), (j:Int)) * x j) ∧
      ∃ x, Solves (total (ds.map Direction.ax) 1) A b x ∧
        ∀ y, Solves (total (ds.map Direction.ax) 1) A b y → ∀ i : Nat, i < total (ds.map Direction.ax) 1 → y i = x i := by
  obtain ⟨h1, h3, hw⟩ := setup_facts S
  have hwf := Prb.setup_wf S
  have ho : ∀ ax ∈ ds.map Direction.ax, OpenEnds ax := by
    intro ax hax
    obtain ⟨δ, hδ, rfl⟩ := List.mem_map.1 hax
    exact setup_open S δ hδ
  have hJ : ∀ e, InBox (ds.map fun δ => δ.ax.nel) e → ∀ q ∈ (elt e).points none, 0 < q.detJac := by
    intro e he q hq
    obtain ⟨mem, hm⟩ := hI.points e he
    obtain ⟨pts, hp, hpt⟩ := (tabulated_points rfl h1 h3 hT hs hw (c e) he mem hm).2 q hq
    rw [(point_facts (hc e) (hgeo e) hpt).1]
    exact lines_J hw he (mem_tensorPoints hp)
  have hpre : ∀ (i : Fin ds.length) (s : Bool) z, dir i ≠ 0 → z[(i:Nat)]? = some (sideNode ds[i].ax s) →
      (Fix.prescribedAt (ds.map Direction.ax) (advectionConditions ds.length dir) none (z, ((0:Nat):Int))).isSome := by
    intro i s z hi hz
    obtain ⟨w, w1, -⟩ := side_prescribed hwf ho (show (ds.map Direction.ax)[(i:Nat)]? = some ds[i].ax by simp) (hper ds[i] (by simp)) hz (k := 0)
      ((advection_sideValue h3 dir i.isLt s).trans (if_neg hi)) none
    rw [w1]
    rfl
  obtain ⟨A, b, hA, hform⟩ := system_form S hI (advectionSystem (computeWind ds.length Pe dir)) _ _ (advection_fills (unknowns_one (ds.map Direction.ax)) _) hist pw w
  -- the same problem without wind
  have hK0 := fills (P := PtData ds.length ds.length (nenOf (ds.map Direction.ax))) (unknowns_one (ds.map Direction.ax)) interiorLaplace
    (fun p a b => ∑ i, p.shape.t1 i a * p.shape.t1 i b) (fun _ _ => 0) (fun p K F => by simp [interiorLaplace, dot_eq])
  obtain ⟨A', b', hA', hform'⟩ := system_form S hI interiorLaplace _ _ hK0 hist pw w
  have hk := gramForm (P := PtData ds.length ds.length (nenOf (ds.map Direction.ax))) (List.ofFn fun l p a => p.shape.t1 l a)
    (fun p a b => ∑ i, p.shape.t1 i a * p.shape.t1 i b) (fun p a b => by rw [List.map_ofFn, List.sum_ofFn]; rfl)
  obtain ⟨A'', b'', hA'', hpd⟩ := C88_dirichlet S hT hs hEn hc hI hJ (fun i hi => by
    obtain rfl : i = 0 := by omega
    obtain ⟨a, ha⟩ := hdir
    obtain ⟨z, hz, hz'⟩ := side_node_exists hw a false
    exact ⟨z, hz, hpre a false z ha hz'⟩) interiorLaplace _ _ _ _ hK0 hk (fun i => List.mem_ofFn.2 ⟨i, rfl⟩) (fun _ _ _ _ => one_pos) hist pw w
  rw [hA'] at hA''
  cases hA''
  have hpos : ∀ x : Int → ℝ, (∃ i : Nat, i < total (ds.map Direction.ax) 1 ∧ x i ≠ 0) →
        0 < ∑ i ∈ Finset.range (total (ds.map Direction.ax) 1), ∑ j ∈ Finset.range (total (ds.map Direction.ax) 1), x i * A ((i:Int), (j:Int)) * x j := by
    rintro x ⟨i, hi, hne⟩
    have h := hpd.2 x ⟨i, by omega, by omega, hne⟩
    refine lt_of_lt_of_eq h ((hform' x).trans (Eq.trans ?_ (hform x).symm))
    congr 1
    simp only [advection_integrand, pointSum_add]
    rw [List.sum_map_add]
    refine (add_eq_left.2 ?_).symm
    simp only [pointSum_fin]
    rw [sum_fin]
    refine Finset.sum_eq_zero fun i _ => ?_
    by_cases hi : dir i = 0
    · rw [wind_zero hi, zero_mul]
    · have := transport_zero S hT hs hper hX hx i (hcl i hi) hc hgeo hI
        (freeRates (ds.map Direction.ax) (advectionConditions ds.length dir) none fun z i => x (Blk.unknown Ls (ds.map Direction.ax) 1 z i))
        fun s z hz => by unfold freeRates; rw [if_pos (hpre i s z hi hz)]
      rw [List.map_map]
      refine mul_eq_zero_of_right _ ?_
      exact this
  exact ⟨A, b, hA, hpos, positive_solve hpos b⟩

/-- A vector solves the linear system exactly if the field it stands for solves the equations of the nodes. -/
theorem solves_iff {axs : List (Axis ℝ)} (S : Setup g2 g3 false size procs axes axs Ls) {A : Int × Int → ℝ} {b : Int → ℝ} {a f}
    (ha : RepresentsMat axs Ls 1 A a) (hf : Represents axs Ls 1 b f) (x : Int → ℝ) :
    Solves (total axs 1) A b x ↔ SolvesSystem axs 1 a f fun z k => x (Blk.unknown Ls axs 1 z k) := by
  have key : ∀ z (k : Nat), InBox (axs.map Axis.nnp) z → k < 1 →
      ∑ j ∈ Finset.range (total axs 1), A (Blk.unknown Ls axs 1 z k, (j:Int)) * x j =
        ((indices (axs.map Axis.nnp)).map fun y => ((List.range 1).map fun d => a z k y d * x (Blk.unknown Ls axs 1 y d)).sum).sum := by
    intro z k hz hk
    rw [sum_unknown S 1 fun j => A (Blk.unknown Ls axs 1 z k, j) * x j]
    congr 1
    refine List.map_congr_left fun y hy => ?_
    congr 1
    refine List.map_congr_left fun l hl => ?_
    have hy := (mem_indices _ _).1 hy
    congr 1
    exact ha z k y l hz hy hk (List.mem_range.1 hl)
  constructor
  · intro hy z k hz hk
    obtain ⟨j, hj, hje⟩ : ∃ j : Nat, j < total axs 1 ∧ Blk.unknown Ls axs 1 z k = j := by
      have := unknown_bounds S (dof := 1) hz hk
      exact ⟨(Blk.unknown Ls axs 1 z k).toNat, by omega, by omega⟩
    have h := hy j hj
    rw [← hje, key z k hz hk, show b (Blk.unknown Ls axs 1 z k) = f z k from hf z k hz hk] at h
    exact h
  · intro hu i hi
    obtain ⟨z, k, hz, hk, e⟩ := unknown_onto S (dof := 1) (i := (i:Int)) (by omega) (by omega)
    rw [e, key z k hz hk, show b (Blk.unknown Ls axs 1 z k) = f z k from hf z k hz hk]
    exact hu z k hz hk

/-- **C128**, the equations: a vector solves the assembled system exactly if its field has the prescribed values and, for the basis function of every
other node, the integral by the quadrature rule of `∇N·∇u + N (w·∇u)` vanishes, with or without a geometry. -/
theorem C128_weak {ds : List (Direction Line)} (S : Setup g2 g3 false size procs axes (ds.map Direction.ax) Ls) (Pe : ℝ) (dir : Nat → ℝ)
    {c : List Int → PtIn ds.length ds.length (Fin (nenOf (ds.map Direction.ax)))}
    {elt : List Int → Elt ℝ (PtData ds.length ds.length (nenOf (ds.map Direction.ax)))} (hI : Assembled ds (advectionConditions ds.length dir) 1 none c elt)
    (hist) (pw) (w) :
    ∃ A b, computeSystem Ls hist 1 ⟨elt, pw, w⟩ (advectionSystem (computeWind ds.length Pe dir)) = .ok (A, b) ∧
      ∀ (x : Int → ℝ) (u : List Int → Nat → ℝ), u = (fun z i => x (Blk.unknown Ls (ds.map Direction.ax) 1 z i)) →
        (Solves (total (ds.map Direction.ax) 1) A b x ↔ Satisfies (ds.map Direction.ax) (advectionConditions ds.length dir) 1 none u ∧
          ∀ z, InBox (ds.map fun δ => δ.ax.nnp) z → Fix.prescribedAt (ds.map Direction.ax) (advectionConditions ds.length dir) none (z, ((0:Nat):Int)) = none →
            ((indices (ds.map fun δ => δ.ax.nel)).map fun e => pointSum ((elt e).points none) fun p =>
              (∑ i : Fin ds.length, combine (ds.map Direction.ax) e (p.shape.t1 i) (fun y _ => if y = z then 1 else 0) 0 * combine (ds.map Direction.ax) e (p.shape.t1 i) u 0) +
              combine (ds.map Direction.ax) e p.shape.t0 (fun y _ => if y = z then 1 else 0) 0 *
                ∑ i : Fin ds.length, computeWind ds.length Pe dir i * combine (ds.map Direction.ax) e (p.shape.t1 i) u 0).sum = 0) := by
  have hwf := Prb.setup_wf S
  obtain ⟨A, b, a, f, hA, ha, hf, hsol⟩ := C80_system S hI.built (advectionSystem (computeWind ds.length Pe dir)) _ _
    (advection_fills (unknowns_one (ds.map Direction.ax)) _) hist pw w
  refine ⟨A, b, hA, fun x u hxu => ?_⟩
  subst hxu
  have hn : (ds.map fun δ => δ.ax.nnp) = (ds.map Direction.ax).map Axis.nnp := by rw [List.map_map]; rfl
  have hn' : (ds.map fun δ => δ.ax.nel) = (ds.map Direction.ax).map Axis.nel := by rw [List.map_map]; rfl
  refine (solves_iff S ha hf x).trans ((hsol _).trans (and_congr_right fun _ => ?_))
  have hint : ∀ z e, e ∈ indices (ds.map fun δ => δ.ax.nel) → (pointSum ((elt e).points none) fun p =>
              (∑ i : Fin ds.length, combine (ds.map Direction.ax) e (p.shape.t1 i) (fun y _ => if y = z then 1 else 0) 0 *
                combine (ds.map Direction.ax) e (p.shape.t1 i) (fun z i => x (Blk.unknown Ls (ds.map Direction.ax) 1 z i)) 0) +
              combine (ds.map Direction.ax) e p.shape.t0 (fun y _ => if y = z then 1 else 0) 0 *
                ∑ i : Fin ds.length, computeWind ds.length Pe dir i * combine (ds.map Direction.ax) e (p.shape.t1 i) (fun z i => x (Blk.unknown Ls (ds.map Direction.ax) 1 z i)) 0) =
      integral (elt e) fun p => (∑ a : Fin (nenOf (ds.map Direction.ax)), ∑ b : Fin (nenOf (ds.map Direction.ax)),
          loc (ds.map Direction.ax) (fun y _ => if y = z then 1 else 0) e a *
            ((∑ i, p.shape.t1 i a * p.shape.t1 i b) + p.shape.t0 a * ∑ i : Fin ds.length, computeWind ds.length Pe dir i * p.shape.t1 i b) *
          loc (ds.map Direction.ax) (fun z i => x (Blk.unknown Ls (ds.map Direction.ax) 1 z i)) e b) -
        ∑ a : Fin (nenOf (ds.map Direction.ax)), loc (ds.map Direction.ax) (fun y _ => if y = z then 1 else 0) e a * 0 := by
    intro z e he
    rw [integral_interior _ (hI.noForms e ((mem_indices _ e).1 he))]
    refine pointSum_congr _ fun q _ => ?_
    simp only [mul_zero, Finset.sum_const_zero, sub_zero]
    exact (advection_bilinear (ds.map Direction.ax) e q.data _ _ _).symm
  constructor
  · intro h z hz hp
    have h := h z 0 (hn ▸ hz) (by omega) hp
    beta_reduce at h
    rw [no_loads hwf hI.built (advection_noLoads _ _) z 0 (by omega), add_zero, sumMat_mul S] at h
    unfold weak sumVec at h
    rw [← sub_eq_zero, ← list_sum_sub] at h
    refine Eq.trans ?_ h
    rw [hn']
    congr 1
    refine List.map_congr_left fun e he => ?_
    rw [hint z e (hn' ▸ he), ← element_residual, ← list_sum_sub]
    congr 1
    refine List.map_congr_left fun t ht => ?_
    by_cases hn : nodeOf false (ds.map Direction.ax) e t = z
    · rw [if_pos hn, if_pos hn, if_pos hn, one_mul]
    · rw [if_neg hn, if_neg hn, if_neg hn, zero_mul, sub_zero]
  · intro h z k hz hk hp
    obtain rfl : k = 0 := by omega
    have h := h z (hn ▸ hz) hp
    beta_reduce
    rw [no_loads hwf hI.built (advection_noLoads _ _) z 0 (by omega), add_zero, sumMat_mul S]
    unfold weak sumVec
    rw [← sub_eq_zero, ← list_sum_sub]
    refine Eq.trans ?_ h
    rw [hn']
    congr 1
    refine List.map_congr_left fun e he => ?_
    rw [hint z e (hn' ▸ he), ← element_residual, ← list_sum_sub]
    congr 1
    refine List.map_congr_left fun t ht => ?_
    by_cases hn : nodeOf false (ds.map Direction.ax) e t = z
    · rw [if_pos hn, if_pos hn, if_pos hn, one_mul]
    · rw [if_neg hn, if_neg hn, if_neg hn, zero_mul, sub_zero]

/-- **C128**, the sides: every solution has the value 1 all over the left and 0 all over the right side of the last direction with wind;
all over the sides of every direction with wind it is between 0 and 1. -/
theorem C128_sides {ds : List (Direction Line)} (S : Setup g2 g3 false size procs axes (ds.map Direction.ax) Ls)
    (hT : ∀ δ ∈ ds, δ.Tabulated) (hs : ∀ δ ∈ ds, IsSpline δ) (hX : PointsInside ds) (Pe : ℝ) (dir : Nat → ℝ)
    {c : List Int → PtIn ds.length ds.length (Fin (nenOf (ds.map Direction.ax)))}
    {elt : List Int → Elt ℝ (PtData ds.length ds.length (nenOf (ds.map Direction.ax)))} (hI : Assembled ds (advectionConditions ds.length dir) 1 none c elt)
    (hist) (pw) (w) :
    ∃ A b, computeSystem Ls hist 1 ⟨elt, pw, w⟩ (advectionSystem (computeWind ds.length Pe dir)) = .ok (A, b) ∧
      ∀ (x : Int → ℝ) (u : List Int → Nat → ℝ), u = (fun z i => x (Blk.unknown Ls (ds.map Direction.ax) 1 z i)) → Solves (total (ds.map Direction.ax) 1) A b x →
      ∀ (i : Fin ds.length) (s : Bool), dir i ≠ 0 → ClampedAt ds[i].ax s → ds[i].ax.periodic = false →
        ((∀ j : Fin ds.length, i < j → dir j = 0) → AllOverSide ds i s (fun val => val u = if s then 0 else 1) 0) ∧
        AllOverSide ds i s (fun val => 0 ≤ val u ∧ val u ≤ 1) 0 := by
  obtain ⟨h1, h3, hw⟩ := setup_facts S
  obtain ⟨A, b, a, f, hA, ha, hf, hsol⟩ := C120_system S hT hs hX hI.built (advectionSystem (computeWind ds.length Pe dir)) _ _
    (advection_fills (unknowns_one (ds.map Direction.ax)) _) hist pw w
  refine ⟨A, b, hA, fun x u hxu hx i s hi hcl hp => ?_⟩
  subst hxu
  have hlt : ∀ a s w, SideValue (advectionConditions ds.length dir) a s 0 = some w → a < ds.length := by
    intro a s w h
    by_contra hge
    have h := mem_valueEvents.1 (inForce_mem h)
    unfold advectionConditions at h
    obtain ⟨j, hj, h⟩ := List.mem_flatMap.1 h
    have hj := List.mem_range.1 hj
    split at h
    · cases h
    · simp at h
      omega
  have hval : ∀ a s w, SideValue (advectionConditions ds.length dir) a s 0 = some w → dir a ≠ 0 ∧ w = if s then 0 else 1 := by
    intro a s w h
    rw [advection_sideValue h3 dir (hlt a s w h) s] at h
    split at h
    · cases h
    · rename_i hd
      exact ⟨hd, (Option.some.inj h).symm⟩
  obtain ⟨k1, k2⟩ := hsol _ ((solves_iff S ha hf x).1 hx) i s 0 (if s then 0 else 1) hcl hp (by omega)
    ((advection_sideValue h3 dir i.isLt s).trans (if_neg hi))
  refine ⟨fun hj => k1 fun a s' w' hlt' h => absurd (hj ⟨a, hlt a s' w' h⟩ hlt') (hval a s' w' h).1, k2 0 1 (by cases s <;> norm_num) fun a s' w' _ h => ?_⟩
  rw [(hval a s' w' h).2]
  cases s' <;> norm_num

theorem loc_const {axs : List (Axis ℝ)} (hw : ∀ ax ∈ axs, WF ax) (v : ℝ) (e : List Int) {a : Nat} (ha : a < nenOf axs) : loc axs (fun _ _ => v) e a = v := by
  obtain ⟨t, s, ht, hs, rfl⟩ := exists_slot axs hw (dof := 1) (by rw [unknowns_one]; exact ha)
  unfold loc
  exact valuesOf_slot axs 1 _ e ht hs

theorem nothing_prescribed (axs : List (Axis ℝ)) (q) : Fix.prescribedAt axs ([] : List (Form.Op ℝ)) none q = none := by
  unfold Fix.prescribedAt nodePrescribed
  rw [List.findSome?_eq_none_iff.2, Option.map_none]
  intro s _
  split
  · by_contra hne
    obtain ⟨v, hv⟩ := Option.ne_none_iff_exists'.1 hne
    have h := mem_valueEvents.1 (inForce_mem hv)
    cases h
  · rfl

/-- **C128**, no direction: with `-dir 0` in every direction the program sets no boundary condition, and every constant vector solves its system: it
is singular. -/
theorem C128_still_refuted {ds : List (Direction Line)} (S : Setup g2 g3 false size procs axes (ds.map Direction.ax) Ls)
    (hT : ∀ δ ∈ ds, δ.Tabulated) (hs : ∀ δ ∈ ds, IsSpline δ) (Pe : ℝ) (dir : Nat → ℝ) (hdir : ∀ i, i < ds.length → dir i = 0)
    {c : List Int → PtIn ds.length ds.length (Fin (nenOf (ds.map Direction.ax)))} (hc : ∀ e, FirstOrder (c e))
    {elt : List Int → Elt ℝ (PtData ds.length ds.length (nenOf (ds.map Direction.ax)))} (hI : Assembled ds (advectionConditions ds.length dir) 1 none c elt)
    (hist) (pw) (w) :
    ∃ A b, computeSystem Ls hist 1 ⟨elt, pw, w⟩ (advectionSystem (computeWind ds.length Pe dir)) = .ok (A, b) ∧
      ∀ v : ℝ, Solves (total (ds.map Direction.ax) 1) A b fun _ => v := by
  obtain ⟨h1, h3, hw⟩ := setup_facts S
  obtain ⟨A, b, hA, h⟩ := C128_weak S Pe dir hI hist pw w
  refine ⟨A, b, hA, fun v => (h (fun _ => v) _ rfl).2 ⟨?_, fun z hz hp => ?_⟩⟩
  · have hops : advectionConditions ds.length dir = [] := by
      unfold advectionConditions
      refine List.flatMap_eq_nil_iff.2 fun i hi => if_pos (hdir i (List.mem_range.1 hi))
    rw [hops]
    intro z k hz hk r hr
    rw [nothing_prescribed] at hr
    cases hr
  · refine List.sum_eq_zero fun y hy => ?_
    obtain ⟨e, he, rfl⟩ := List.mem_map.1 hy
    have he := (mem_indices _ e).1 he
    obtain ⟨mem, hm⟩ := hI.points e he
    unfold pointSum
    refine List.sum_eq_zero fun y hy => ?_
    obtain ⟨q, hq, rfl⟩ := List.mem_map.1 hy
    have hsum := (shape_sums h1 h3 hT hs hw (c e) (fun W h => by rw [(hc e).spline] at h; cases h) he hm q hq).2.1 (hc e).order
    have z0 : ∀ i, combine (ds.map Direction.ax) e (q.data.shape.t1 i) (fun _ _ => v) 0 = 0 := by
      intro i
      rw [comb_local]
      rw [Finset.sum_congr rfl fun a _ => by rw [show loc (ds.map Direction.ax) (fun _ _ => v) e a = v from loc_const (Prb.setup_wf S) v e a.isLt], ← Finset.mul_sum, hsum i, mul_zero]
    simp only [z0]
    simp


/-- **C128**, the strength of the wind: its norm is `|Pe|` if the direction has norm at least 1/100, and else smaller by the factor of that norm. -/
theorem C128_wind (dim : Nat) (Pe : ℝ) (dir : Nat → ℝ) :
    Real.sqrt (∑ i ∈ Finset.range dim, computeWind dim Pe dir i ^ 2) =
      if Real.sqrt (∑ i ∈ Finset.range dim, dir i ^ 2) < 1 / 100 then |Pe| * Real.sqrt (∑ i ∈ Finset.range dim, dir i ^ 2) else |Pe| := by
  have hsum : ∀ l : List Nat, ∀ s : ℝ, l.foldl (fun s i => s + dir i * dir i) s = s + (l.map fun i => dir i ^ 2).sum := by
    intro l
    induction l with
    | nil => simp
    | cons a l ih => intro s; rw [List.foldl_cons, ih]; simp; ring
  have hn : (List.range dim).foldl (fun s i => s + dir i * dir i) 0 = ∑ i ∈ Finset.range dim, dir i ^ 2 := by
    rw [hsum, zero_add, Finset.sum_eq_multiset_sum]
    rfl
  unfold computeWind
  simp only [hn]
  set r := Real.sqrt (∑ i ∈ Finset.range dim, dir i ^ 2) with hr
  have hr2 : r ^ 2 = ∑ i ∈ Finset.range dim, dir i ^ 2 := Real.sq_sqrt (Finset.sum_nonneg fun i _ => sq_nonneg _)
  have r0 : 0 ≤ r := Real.sqrt_nonneg _
  have key : ∀ m : ℝ, ∑ i ∈ Finset.range dim, (Pe * dir i / m) ^ 2 = (|Pe| * r / m) ^ 2 := by
    intro m
    rw [div_pow, mul_pow, sq_abs, hr2, Finset.mul_sum, Finset.sum_div]
    exact Finset.sum_congr rfl fun i _ => by ring
  rw [key]
  split_ifs with h
  · rw [div_one, Real.sqrt_sq (mul_nonneg (abs_nonneg _) r0)]
  · have hr' : 0 < r := by linarith
    rw [Real.sqrt_sq (div_nonneg (mul_nonneg (abs_nonneg _) r0) r0), mul_div_assoc, div_self hr'.ne', mul_one]

/-- `C128_definite`, `C128_weak` and `C128_sides` apply: two processes, two directions of degree 2, any Peclet number, the wind along the first
direction; the solution is 1 all over its left and 0 all over its right side. -/
example (g2 : Guess2) (g3 : Guess3) (J : Bsp.Junk ℝ) (Pe : ℝ) (hist : Nat → Hist) (pw : Nat → List Int → PWork ℝ) (w : Nat → List Int → Work ℝ) :
    ∃ (Ls : List (Layout ℝ)) (elt : List Int → Elt ℝ (PtData (exBoole J).length (exBoole J).length (nenOf ((exBoole J).map Direction.ax))))
      (A : Int × Int → ℝ) (b x : Int → ℝ),
      computeSystem Ls hist 1 ⟨elt, pw, w⟩ (advectionSystem (computeWind (exBoole J).length Pe fun i => if i = 0 then 1 else 0)) = .ok (A, b) ∧
      Solves (total ((exBoole J).map Direction.ax) 1) A b x ∧
      (∀ y, Solves (total ((exBoole J).map Direction.ax) 1) A b y → ∀ i : Nat, i < total ((exBoole J).map Direction.ax) 1 → y i = x i) ∧
      ∀ s : Bool, AllOverSide (exBoole J) ⟨0, by simp [exBoole]⟩ s
        (fun val => val (fun z i => x (Blk.unknown Ls ((exBoole J).map Direction.ax) 1 z i)) = if s then 0 else 1) 0 := by
  obtain ⟨Ls, S⟩ := exRealSetup g2 g3
  have S' : Setup g2 g3 false 2 [2,1] [exRealAx, exRealAx] ((exBoole J).map Direction.ax) Ls := S
  have hok := exBoole_ok J
  have hax : ∀ δ ∈ exBoole J, δ.ax = exRealAx ∧ δ.X = [-1, -(1/2), 0, 1/2, 1] := by
    intro δ hδ
    simp only [exBoole, List.mem_cons, List.not_mem_nil, or_false, or_self] at hδ
    subst hδ
    exact ⟨rfl, rfl⟩
  have hX : PointsInside (exBoole J) := fun δ h x hx => by
    rw [(hax δ h).2] at hx
    simp only [List.mem_cons, List.not_mem_nil, or_false] at hx
    rcases hx with rfl | rfl | rfl | rfl | rfl <;> norm_num
  have hcl : ∀ (i : Fin (exBoole J).length) (s : Bool), ClampedAt (exBoole J)[i].ax s := fun i s => by
    rw [(hax _ (by simp)).1]; exact exRealAx_clamped _
  obtain ⟨elt, hI, -, -⟩ := areas_exist S' (fun δ h => (hok δ h).1) (fun δ h => (hok δ h).2.1)
    (advectionConditions (exBoole J).length fun i => if i = 0 then 1 else 0)
  obtain ⟨A, b, hA, -, x, hx, hu⟩ := C128_definite S' (fun δ h => (hok δ h).1) (fun δ h => (hok δ h).2.1) (fun δ h => (hok δ h).2.2.1)
    (fun δ h => by
      obtain ⟨h1, h2⟩ := hax δ h
      unfold Enough
      rw [h1, h2]
      exact ⟨by norm_num, by show (2:Int) < 5; norm_num⟩)
    hX (fun δ h => (hok δ h).2.2.2) Pe (fun i => if i = 0 then 1 else 0) ⟨⟨0, by simp [exBoole]⟩, by simp⟩ (fun i _ => hcl i)
    (fun _ => ⟨le_refl _, rfl, rfl, rfl⟩) (fun _ => rfl) hI hist pw w
  obtain ⟨A', b', hA', hside⟩ := C128_sides S' (fun δ h => (hok δ h).1) (fun δ h => (hok δ h).2.1) hX Pe (fun i => if i = 0 then 1 else 0) hI hist pw w
  rw [hA] at hA'
  cases hA'
  exact ⟨Ls, elt, A, b, x, hA, hx, hu, fun s => (hside x _ rfl hx ⟨0, by simp [exBoole]⟩ s (by simp) (hcl _ s)
    ((hok _ (by simp)).2.2.1)).1 fun j hj => if_neg (by have : 0 < (j:Nat) := hj; omega)⟩

/-- `C128_still_refuted` applies to the same mesh, and the system then has more than one solution. -/
example (g2 : Guess2) (g3 : Guess3) (J : Bsp.Junk ℝ) (Pe : ℝ) (hist : Nat → Hist) (pw : Nat → List Int → PWork ℝ) (w : Nat → List Int → Work ℝ) :
    ∃ (Ls : List (Layout ℝ)) (elt : List Int → Elt ℝ (PtData (exBoole J).length (exBoole J).length (nenOf ((exBoole J).map Direction.ax))))
      (A : Int × Int → ℝ) (b : Int → ℝ),
      computeSystem Ls hist 1 ⟨elt, pw, w⟩ (advectionSystem (computeWind (exBoole J).length Pe fun _ => 0)) = .ok (A, b) ∧
      ∀ v : ℝ, Solves (total ((exBoole J).map Direction.ax) 1) A b fun _ => v := by
  obtain ⟨Ls, S⟩ := exRealSetup g2 g3
  have S' : Setup g2 g3 false 2 [2,1] [exRealAx, exRealAx] ((exBoole J).map Direction.ax) Ls := S
  have hok := exBoole_ok J
  obtain ⟨elt, hI, -, -⟩ := areas_exist S' (fun δ h => (hok δ h).1) (fun δ h => (hok δ h).2.1) (advectionConditions (exBoole J).length fun _ => 0)
  obtain ⟨A, b, hA, h⟩ := C128_still_refuted S' (fun δ h => (hok δ h).1) (fun δ h => (hok δ h).2.1) Pe (fun _ => 0) (fun _ _ => rfl)
    (fun _ => ⟨le_refl _, rfl, rfl, rfl⟩) hI hist pw w
  exact ⟨Ls, elt, A, b, hA, h⟩

/-- `C128_wind`: a direction of norm 1/1000 gives a wind of strength `|Pe|/1000`. -/
example (Pe : ℝ) : Real.sqrt (∑ i ∈ Finset.range 1, computeWind 1 Pe (fun _ => 1 / 1000) i ^ 2) = |Pe| * (1 / 1000) := by
  rw [C128_wind]
  have h : Real.sqrt (∑ _i ∈ Finset.range 1, ((1:ℝ) / 1000) ^ 2) = 1 / 1000 := by
    rw [Finset.sum_range_one, Real.sqrt_sq (by norm_num)]
  rw [h, if_pos (by norm_num)]

end PetIGA.Demo
