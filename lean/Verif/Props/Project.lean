import Verif.Props.Reproduce
import Verif.Props.LaplaceEx
/-
C98: solutions of symmetric problems are best approximations, and reproduce data that is in the space.
-/
set_option linter.unusedSectionVars false
namespace PetIGA.Drv
open PetIGA.Ax PetIGA.Lay PetIGA.Asm PetIGA.Grid PetIGA.Spec PetIGA.Part PetIGA.Blk PetIGA.PCA

variable {K : Type} [Field K] [LinearOrder K] [IsStrictOrderedRing K]
variable {g2 : Guess2} {g3 : Guess3} {size : Int} {procs : List Int} {axes axs : List (Axis K)} {Ls : List (Layout K)}
variable {V : Type} [CommRing V] {P : Type}

/-- The sum over nodes of what the elements add at the node, element by element. -/
theorem node_sums (S : Setup g2 g3 false size procs axes axs Ls) (dof : Nat) (w : List Int → Nat → V) (f : List Int → List Int → Nat → V) :
    ((indices (axs.map Axis.nnp)).map fun z => ((List.range dof).map fun c => w z c *
      ((indices (axs.map Axis.nel)).map fun e => ((indices (nens axs)).map fun s => if nodeOf false axs e s = z then f e s c else 0).sum).sum).sum).sum =
    ((indices (axs.map Axis.nel)).map fun e => ((indices (nens axs)).map fun s => ((List.range dof).map fun c =>
      w (nodeOf false axs e s) c * f e s c).sum).sum).sum := by
  have h4 : ∀ z, ((List.range dof).map fun c => w z c *
      ((indices (axs.map Axis.nel)).map fun e => ((indices (nens axs)).map fun s => if nodeOf false axs e s = z then f e s c else 0).sum).sum).sum =
      ((indices (axs.map Axis.nel)).map fun e => ((indices (nens axs)).map fun s => ((List.range dof).map fun c => if nodeOf false axs e s = z then
        w z c * f e s c else 0).sum).sum).sum := by
    intro z
    simp only [← List.sum_map_mul_left, mul_ite, mul_zero]
    rw [sum_swap]
    congr 1; refine List.map_congr_left fun e _ => ?_
    rw [sum_swap]
  simp only [h4]
  rw [sum_swap]
  congr 1; refine List.map_congr_left fun e he => ?_
  rw [sum_swap]
  congr 1; refine List.map_congr_left fun s hs => ?_
  have hin := nodeOf_inBox S ((mem_indices _ _).1 he) hs
  rw [sum_nodup (nodup_indices _) ((mem_indices _ _).2 hin)]
  · congr 1; refine List.map_congr_left fun c _ => ?_
    rw [if_pos rfl]
  · intro z _ hz
    simp [Ne.symm hz]

/-- The bilinear form of an assembled matrix, element by element. -/
theorem nodal_form (S : Setup g2 g3 false size procs axes axs Ls) (dof : Nat) (κ : List Int → Nat → Nat → V) (w u : List Int → Nat → V) :
    ((indices (axs.map Axis.nnp)).map fun z => ((List.range dof).map fun c => w z c *
      ((indices (axs.map Axis.nnp)).map fun y => ((List.range dof).map fun d => sumMat axs dof κ z c y d * u y d).sum).sum).sum).sum =
    ((indices (axs.map Axis.nel)).map fun e => elemForm (unknowns axs dof) (κ e) (valuesOf false axs dof w e) (valuesOf false axs dof u e)).sum := by
  simp only [sumMat_mul S dof u κ]
  rw [node_sums S dof w (fun e s c => ((List.range (unknowns axs dof)).map fun j => κ e (slot axs dof s c) j * (valuesOf false axs dof u e).getD j 0).sum)]
  congr 1; refine List.map_congr_left fun e _ => ?_
  unfold elemForm
  have h5 := sum_unknowns axs dof w e (fun i =>
    ((List.range (unknowns axs dof)).map fun j => κ e i j * (valuesOf false axs dof u e).getD j 0).sum)
  have h6 : ∀ i : Nat, (valuesOf false axs dof w e).getD i 0 *
      ((List.range (unknowns axs dof)).map fun j => κ e i j * (valuesOf false axs dof u e).getD j 0).sum =
      ((List.range (unknowns axs dof)).map fun j => κ e i j * (valuesOf false axs dof u e).getD j 0).sum *
      (valuesOf false axs dof w e).getD i 0 := fun i => mul_comm _ _
  simp only [h6]
  rw [h5]
  congr 1; refine List.map_congr_left fun s _ => ?_
  congr 1; exact List.map_congr_left fun c _ => mul_comm _ _

/-- A vector of element contributions tested with a nodal field. -/
theorem nodal_load (S : Setup g2 g3 false size procs axes axs Ls) (dof : Nat) (f : List Int → Nat → V) (w : List Int → Nat → V) :
    ((indices (axs.map Axis.nnp)).map fun z => ((List.range dof).map fun c => w z c * sumVec axs dof f z c).sum).sum =
    ((indices (axs.map Axis.nel)).map fun e => ((indices (nens axs)).map fun s => ((List.range dof).map fun c =>
      w (nodeOf false axs e s) c * f e (slot axs dof s c)).sum).sum).sum :=
  node_sums S dof w (fun e s c => f e (slot axs dof s c))

/-- The callback computes, in row `(a,c)` of the point vector, `ρ Σ_l g_l(N_a) G_l,c`. -/
def LoadForm (dof n : Nat) (L : List ((P → Fin n → ℝ) × (P → Nat → ℝ))) (ρ : P → ℝ) (r : P → Int → ℝ) : Prop :=
  ∀ p (a : Fin n) (c : Nat), c < dof → r p (((a:Nat) * dof + c : Nat) : Int) = ρ p * (L.map fun g => g.1 p a * g.2 p c).sum

theorem load_elem (axs : List (Axis K)) (dof : Nat) (L : List ((P → Fin (nenOf axs) → ℝ) × (P → Nat → ℝ))) (ρ : P → ℝ) (r : P → Int → ℝ)
    (hr : LoadForm dof (nenOf axs) L ρ r) (qs : List (QP ℝ P)) (w : List Int → Nat → ℝ) (e : List Int) :
    ((indices (nens axs)).map fun s => ((List.range dof).map fun c =>
      w (nodeOf false axs e s) c * pointSum qs fun p => r p (slot axs dof s c : Nat)).sum).sum =
    (qs.map fun q => (L.map fun g => ((List.range dof).map fun c =>
        combine axs e (g.1 q.data) w c * g.2 q.data c).sum).sum * (ρ q.data * (q.detJac * q.weight))).sum := by
  unfold pointSum
  simp only [← List.sum_map_mul_left]
  have e1 : ∀ s, ((List.range dof).map fun c => (qs.map fun q => w (nodeOf false axs e s) c * (r q.data (slot axs dof s c : Nat) * (q.detJac * q.weight))).sum).sum =
      (qs.map fun q => ((List.range dof).map fun c => w (nodeOf false axs e s) c * (r q.data (slot axs dof s c : Nat) * (q.detJac * q.weight))).sum).sum := by
    intro s
    rw [sum_swap]
  simp only [e1]
  rw [sum_swap]
  congr 1; refine List.map_congr_left fun q _ => ?_
  have e2 : ((indices (nens axs)).map fun s => ((List.range dof).map fun c =>
        w (nodeOf false axs e s) c * (r q.data (slot axs dof s c : Nat) * (q.detJac * q.weight))).sum).sum =
      ((indices (nens axs)).map fun s => ((List.range dof).map fun c =>
        (L.map fun g => w (nodeOf false axs e s) c * ent axs (g.1 q.data) s * g.2 q.data c).sum).sum).sum * (ρ q.data * (q.detJac * q.weight)) := by
    rw [← List.sum_map_mul_right]
    congr 1; refine List.map_congr_left fun s hs => ?_
    rw [← List.sum_map_mul_right]
    congr 1; refine List.map_congr_left fun c hc => ?_
    have h1 := hr q.data ⟨_, flat_lt_nen axs hs⟩ c (List.mem_range.1 hc)
    unfold slot
    rw [h1]
    have h2 : (L.map fun g => w (nodeOf false axs e s) c * ent axs (g.1 q.data) s * g.2 q.data c).sum =
        w (nodeOf false axs e s) c * (L.map fun g => g.1 q.data ⟨_, flat_lt_nen axs hs⟩ * g.2 q.data c).sum := by
      rw [← List.sum_map_mul_left]
      congr 1; refine List.map_congr_left fun g _ => ?_
      unfold ent
      rw [dif_pos (flat_lt_nen axs hs)]
      ring
    rw [h2]
    ring
  rw [e2]
  congr 1
  have e3 : ∀ s, ((List.range dof).map fun c => (L.map fun g => w (nodeOf false axs e s) c * ent axs (g.1 q.data) s * g.2 q.data c).sum).sum =
      (L.map fun g => ((List.range dof).map fun c => w (nodeOf false axs e s) c * ent axs (g.1 q.data) s * g.2 q.data c).sum).sum := by
    intro s; rw [sum_swap]
  simp only [e3]
  rw [sum_swap]
  congr 1; refine List.map_congr_left fun g _ => ?_
  rw [sum_swap]
  congr 1; refine List.map_congr_left fun c _ => ?_
  unfold combine
  rw [List.sum_map_mul_right]

end PetIGA.Drv

namespace PetIGA.Itg
open PetIGA.Quad PetIGA.Drv PetIGA.Spec PetIGA.Ax PetIGA.Lay PetIGA.Asm PetIGA.Rule PetIGA.Grid PetIGA.Part PetIGA.Ker PetIGA.PCA
open Polynomial
variable {g2 : Guess2} {g3 : Guess3} {size : Int} {procs : List Int} {axes : List (Axis ℝ)} {Ls : List (Layout ℝ)} {P : Type}

/-- `Σ_e Σ_q ρ Σ_l Σ_c d_{l,c}² |J| w`: the integral of `ρ Σ_l |d_l|²` by the rule, over all elements. -/
noncomputable def squares (axs : List (Axis ℝ)) (dof : Nat) (elt : List Int → Elt ℝ P) (n : Nat) (ρ : P → ℝ)
    (d : List Int → P → Fin n → Nat → ℝ) : ℝ :=
  ((indices (axs.map Axis.nel)).map fun e => (((elt e).points none).map fun q =>
    (∑ l, ∑ i ∈ Finset.range dof, d e q.data l i ^ 2) * (ρ q.data * (q.detJac * q.weight))).sum).sum

/-- `∫ ρ Σ_l |g_l(u) - G_l|²`: how far the field `u` is from the data. -/
noncomputable def misfit (axs : List (Axis ℝ)) (dof : Nat) (elt : List Int → Elt ℝ P) {n : Nat}
    (L : Fin n → (P → Fin (nenOf axs) → ℝ) × (P → Nat → ℝ)) (ρ : P → ℝ) (u : List Int → Nat → ℝ) : ℝ :=
  squares axs dof elt n ρ fun e p l i => combine axs e ((L l).1 p) u i - (L l).2 p i

/-- `∫ ρ Σ_l |g_l(u)|²`. -/
noncomputable def energy (axs : List (Axis ℝ)) (dof : Nat) (elt : List Int → Elt ℝ P) {n : Nat}
    (L : Fin n → (P → Fin (nenOf axs) → ℝ) × (P → Nat → ℝ)) (ρ : P → ℝ) (u : List Int → Nat → ℝ) : ℝ :=
  squares axs dof elt n ρ fun e p l i => combine axs e ((L l).1 p) u i

theorem combine_sub {n : Nat} (axs : List (Axis ℝ)) (e : List Int) (g : Fin n → ℝ) (u v : List Int → Nat → ℝ) (c : Nat) :
    combine axs e g (fun z i => v z i - u z i) c = combine axs e g v c - combine axs e g u c := by
  unfold combine
  rw [← list_sum_sub]
  congr 1; refine List.map_congr_left fun t _ => ?_
  ring

theorem sum_ofFn_map {α : Type} {n : Nat} (L : Fin n → α) (f : α → ℝ) : ((List.ofFn L).map f).sum = ∑ l, f (L l) := by
  rw [List.map_ofFn, List.sum_ofFn]; rfl

theorem expand (axs : List (Axis ℝ)) (dof : Nat) (elt : List Int → Elt ℝ P) {n : Nat}
    (L : Fin n → (P → Fin (nenOf axs) → ℝ) × (P → Nat → ℝ)) (ρ : P → ℝ) (u v : List Int → Nat → ℝ) :
    misfit axs dof elt L ρ v = misfit axs dof elt L ρ u + energy axs dof elt L ρ (fun z i => v z i - u z i) +
      2 * ((indices (axs.map Axis.nel)).map fun e => (((elt e).points none).map fun q =>
      (∑ l, ∑ i ∈ Finset.range dof, combine axs e ((L l).1 q.data) (fun z i => v z i - u z i) i *
        (combine axs e ((L l).1 q.data) u i - (L l).2 q.data i)) * (ρ q.data * (q.detJac * q.weight))).sum).sum := by
  unfold misfit energy squares
  rw [← List.sum_map_mul_left, ← List.sum_map_add, ← List.sum_map_add]
  congr 1; refine List.map_congr_left fun e _ => ?_
  rw [← List.sum_map_mul_left, ← List.sum_map_add, ← List.sum_map_add]
  congr 1; refine List.map_congr_left fun q _ => ?_
  rw [← add_mul, ← mul_assoc 2, ← add_mul]
  congr 1
  rw [Finset.mul_sum, ← Finset.sum_add_distrib, ← Finset.sum_add_distrib]
  refine Finset.sum_congr rfl fun l _ => ?_
  rw [Finset.mul_sum, ← Finset.sum_add_distrib, ← Finset.sum_add_distrib]
  refine Finset.sum_congr rfl fun i _ => ?_
  simp only [combine_sub]
  ring

/-- The equations of a vector of global unknowns, node by node. -/
theorem nodal_equations {axs : List (Axis ℝ)} (S : Setup g2 g3 false size procs axes axs Ls) {dof : Nat} {A : Int × Int → ℝ} {b : Int → ℝ}
    {a f} (hA : RepresentsMat axs Ls dof A a) (hb : Represents axs Ls dof b f) (x : Int → ℝ) :
    (∀ i : Nat, i < total axs dof → ∑ j ∈ Finset.range (total axs dof), A ((i:Int), (j:Int)) * x j = b i) ↔
    ∀ z (c : Nat), InBox (axs.map Axis.nnp) z → c < dof →
      ((indices (axs.map Axis.nnp)).map fun y => ((List.range dof).map fun d => a z c y d * x (Blk.unknown Ls axs dof y d)).sum).sum = f z c := by
  have key : ∀ z (c : Nat), InBox (axs.map Axis.nnp) z → c < dof →
      (∑ j ∈ Finset.range (total axs dof), A (Blk.unknown Ls axs dof z c, (j:Int)) * x j =
      ((indices (axs.map Axis.nnp)).map fun y => ((List.range dof).map fun d => a z c y d * x (Blk.unknown Ls axs dof y d)).sum).sum) ∧
      b (Blk.unknown Ls axs dof z c) = f z c := by
    intro z c hz hc
    refine ⟨?_, hb z c hz hc⟩
    rw [sum_unknown S dof (fun j => A (Blk.unknown Ls axs dof z c, j) * x j)]
    congr 1; refine List.map_congr_left fun y hy => ?_
    congr 1; refine List.map_congr_left fun d hd => ?_
    rw [← hA z c y d hz ((mem_indices _ _).1 hy) hc (List.mem_range.1 hd)]
    rfl
  constructor
  · intro h z c hz hc
    obtain ⟨k1, k2⟩ := key z c hz hc
    obtain ⟨b0, b1⟩ := unknown_bounds S hz hc
    have := h (Blk.unknown Ls axs dof z c).toNat (by omega)
    rw [Int.toNat_of_nonneg b0] at this
    rw [← k1, ← k2, this]
  · intro h i hi
    obtain ⟨z, c, hz, hc, e⟩ := unknown_onto S (dof := dof) (i := (i:Int)) (by omega) (by omega)
    obtain ⟨k1, k2⟩ := key z c hz hc
    rw [e, k1, k2]
    exact h z c hz hc

/-- `Σ_z Σ_c F_c(z) u_c(z)`: the work of nodal loads. -/
noncomputable def work (axs : List (Axis ℝ)) (dof : Nat) (F u : List Int → Nat → ℝ) : ℝ :=
  ((indices (axs.map Axis.nnp)).map fun z => ((List.range dof).map fun i => F z i * u z i).sum).sum

/-- The equations at the nodes tested with a nodal field `w`: the weak form of the fields. -/
theorem weak_identity {ds : List (Direction Line)} (S : Setup g2 g3 false size procs axes (ds.map Direction.ax) Ls) {dof : Nat} {P : Type}
    {elt : List Int → Elt ℝ P} (hn : ∀ e, InBox (ds.map fun δ => δ.ax.nel) e → ∀ a b, (elt e).visit a b = false) (k r : P → Int → ℝ) (ρ) {n : Nat}
    (L : Fin n → (P → Fin (nenOf (ds.map Direction.ax)) → ℝ) × (P → Nat → ℝ))
    (hk : GramForm dof (nenOf (ds.map Direction.ax)) (List.ofFn fun l => (L l).1) ρ k)
    (hr : LoadForm dof (nenOf (ds.map Direction.ax)) (List.ofFn L) ρ r) (u w : List Int → Nat → ℝ) :
    work (ds.map Direction.ax) dof (fun z i => ((indices ((ds.map Direction.ax).map Axis.nnp)).map fun y => ((List.range dof).map fun d =>
        sumMat (ds.map Direction.ax) dof (fun e i j => integral (elt e) fun p => k p (i * unknowns (ds.map Direction.ax) dof + j)) z i y d * u y d).sum).sum) w -
      work (ds.map Direction.ax) dof (sumVec (ds.map Direction.ax) dof (fun e i => integral (elt e) fun p => r p i)) w =
    ((indices ((ds.map Direction.ax).map Axis.nel)).map fun e => (((elt e).points none).map fun q =>
      (∑ l, ∑ i ∈ Finset.range dof, combine (ds.map Direction.ax) e ((L l).1 q.data) w i *
        (combine (ds.map Direction.ax) e ((L l).1 q.data) u i - (L l).2 q.data i)) * (ρ q.data * (q.detJac * q.weight))).sum).sum := by
  have hint : ∀ e, InBox ((ds.map Direction.ax).map Axis.nel) e → ∀ R, integral (elt e) R = pointSum ((elt e).points none) R := by
    intro e he R
    exact integral_interior _ (hn e (by rw [List.map_map] at he; exact he)) R
  have hmat := nodal_form S dof (fun e i j => integral (elt e) fun p => k p (i * unknowns (ds.map Direction.ax) dof + j)) w u
  have hvec := nodal_load S dof (fun e i => integral (elt e) fun p => r p i) w
  have hc : ∀ F, work (ds.map Direction.ax) dof F w = ((indices ((ds.map Direction.ax).map Axis.nnp)).map fun z => ((List.range dof).map fun i => w z i * F z i).sum).sum := by
    intro F
    unfold work
    simp only [mul_comm]
  rw [hc, hc, hmat, hvec]
  have e1 : ((indices ((ds.map Direction.ax).map Axis.nel)).map fun e => elemForm (unknowns (ds.map Direction.ax) dof)
      (fun i j => integral (elt e) fun p => k p ((i:Int) * unknowns (ds.map Direction.ax) dof + j)) (valuesOf false (ds.map Direction.ax) dof w e)
      (valuesOf false (ds.map Direction.ax) dof u e)).sum =
      ((indices ((ds.map Direction.ax).map Axis.nel)).map fun e => (((elt e).points none).map fun q =>
        (∑ l, ∑ i ∈ Finset.range dof, combine (ds.map Direction.ax) e ((L l).1 q.data) w i *
          combine (ds.map Direction.ax) e ((L l).1 q.data) u i) * (ρ q.data * (q.detJac * q.weight))).sum).sum := by
    congr 1; refine List.map_congr_left fun e he => ?_
    simp only [hint e ((mem_indices _ _).1 he)]
    rw [gram_elem (ds.map Direction.ax) dof _ ρ k hk]
    congr 1; refine List.map_congr_left fun q _ => ?_
    rw [sum_ofFn_map]
    congr 1
  have e2 : ((indices ((ds.map Direction.ax).map Axis.nel)).map fun e => ((indices (nens (ds.map Direction.ax))).map fun s => ((List.range dof).map fun c =>
      w (nodeOf false (ds.map Direction.ax) e s) c * integral (elt e) fun p => r p (slot (ds.map Direction.ax) dof s c : Nat)).sum).sum).sum =
      ((indices ((ds.map Direction.ax).map Axis.nel)).map fun e => (((elt e).points none).map fun q =>
        (∑ l, ∑ i ∈ Finset.range dof, combine (ds.map Direction.ax) e ((L l).1 q.data) w i * (L l).2 q.data i) *
          (ρ q.data * (q.detJac * q.weight))).sum).sum := by
    congr 1; refine List.map_congr_left fun e he => ?_
    simp only [hint e ((mem_indices _ _).1 he)]
    rw [load_elem (ds.map Direction.ax) dof _ ρ r hr]
    congr 1; refine List.map_congr_left fun q _ => ?_
    rw [sum_ofFn_map]
    congr 1
  rw [e1, e2]
  rw [← list_sum_sub]
  congr 1; refine List.map_congr_left fun e _ => ?_
  rw [← list_sum_sub]
  congr 1; refine List.map_congr_left fun q _ => ?_
  rw [← sub_mul, ← Finset.sum_sub_distrib]
  congr 1
  refine Finset.sum_congr rfl fun l _ => ?_
  rw [← Finset.sum_sub_distrib]
  exact Finset.sum_congr rfl fun i _ => by ring

theorem work_sub (axs : List (Axis ℝ)) (dof : Nat) (F u v : List Int → Nat → ℝ) :
    work axs dof F (fun z i => v z i - u z i) = work axs dof F v - work axs dof F u := by
  unfold work
  rw [← list_sum_sub]
  congr 1; refine List.map_congr_left fun z _ => ?_
  rw [← list_sum_sub]
  congr 1; refine List.map_congr_left fun i _ => ?_
  ring

/-- No load other than zero is in force on any side. -/
def NoLoads (ops : List (Form.Op ℝ)) : Prop := ∀ a s k v, inForce a s k (Form.loadEvents ops) = some v → v = 0

theorem no_loads {axs : List (Axis ℝ)} {ops : List (Form.Op ℝ)} {dof : Nat} {UG : Option (List Int → Int → ℝ)} {elt : List Int → Elt ℝ P}
    (hw : ∀ ax ∈ axs, WF ax) (hB : ∀ e, InBox (axs.map Axis.nel) e → Drv.Built axs ops dof UG e (elt e)) (h : NoLoads ops) (z : List Int) (i : Nat)
    (hi : i < dof) : Drv.loads axs dof elt z i = 0 := by
  unfold Drv.loads
  rw [sumVec_congr axs dof (g := fun _ _ => 0) (fun e t he ht _ => ?_), sumVec_const, mul_zero]
  obtain ⟨c, hc, hdof, hform, htab, hb⟩ := (hB e he).lists
  have hnens : Fix.nens c.dirs = Asm.nens axs := by rw [hc]; exact elemNens hw he
  obtain ⟨s, e', -, -, -, hget⟩ := Fix.C33_flux_list c ops hform (fun d hd => Fix.elemDirs_nen (fun ax h => (hw ax h).toPreWF) d (hc ▸ hd))
  rw [hb] at e'
  cases e'
  have := hget t i (by rw [hnens]; exact ht) (by rw [hdof]; omega)
  rw [hnens, hdof] at this
  have hs : ((slot axs dof t i : Nat) : Int) = flat (nens axs) t * dof + i := by
    have : 0 ≤ flat (nens axs) t := (flat_range ht).1
    unfold slot; push_cast; rw [Int.toNat_of_nonneg this]
  rw [hs, this]
  have h0 : ∀ v ∈ PetIGA.Spec.loads (Fix.specDirs c.dirs) (fun a s k => inForce a s k (Form.loadEvents ops)) c.area t i, v = 0 := by
    intro v hv
    unfold PetIGA.Spec.loads at hv
    obtain ⟨q, -, hq⟩ := List.mem_filterMap.1 hv
    dsimp only at hq
    split at hq
    swap
    · cases hq
    obtain ⟨v', h1, h2⟩ := Option.map_eq_some_iff.1 hq
    rw [← h2, h _ _ _ _ h1, zero_mul]
  cases hl : PetIGA.Spec.loads (Fix.specDirs c.dirs) (fun a s k => inForce a s k (Form.loadEvents ops)) c.area t i with
  | nil => rfl
  | cons w ws =>
    rw [hl] at h0
    show (w :: ws).sum = 0
    exact List.sum_eq_zero h0

/-- **C98**, best approximation.  The form is `∫ ρ Σ_l g_l(u) g_l(v)` and the load `∫ ρ Σ_l g_l(v) G_l` (for example `g = value`: a
least squares fit of `G`; `g_l = ∂_l`, `G_l = ∂_l u*`: the Galerkin solution).  Every solution `x` of the assembled system takes
the prescribed values, and among all fields `v` that take them it is the closest to the data (minus twice the work of the boundary loads); the excess is
the energy of the difference. -/
theorem C98_best {ds : List (Direction Line)} (S : Setup g2 g3 false size procs axes (ds.map Direction.ax) Ls) {nsd dof : Nat}
    {ops : List (Form.Op ℝ)} {UG : Option (List Int → Int → ℝ)} {c : List Int → PtIn ds.length nsd (Fin (nenOf (ds.map Direction.ax)))}
    {elt : List Int → Elt ℝ (PtData ds.length nsd (nenOf (ds.map Direction.ax)))} (hI : Assembled ds ops dof UG c elt)
    (cb : PtData ds.length nsd (nenOf (ds.map Direction.ax)) → (Int → ℝ) → (Int → ℝ) → Res ((Int → ℝ) × (Int → ℝ))) (k r) (ρ) {n : Nat}
    (L : Fin n → (PtData ds.length nsd (nenOf (ds.map Direction.ax)) → Fin (nenOf (ds.map Direction.ax)) → ℝ) ×
      (PtData ds.length nsd (nenOf (ds.map Direction.ax)) → Nat → ℝ))
    (hK : FillsSys (unknowns (ds.map Direction.ax) dof) (unknowns (ds.map Direction.ax) dof) cb k r)
    (hk : GramForm dof (nenOf (ds.map Direction.ax)) (List.ofFn fun l => (L l).1) ρ k)
    (hr : LoadForm dof (nenOf (ds.map Direction.ax)) (List.ofFn L) ρ r) (hist) (pw) (w) :
    ∃ A b, computeSystem Ls hist dof ⟨elt, pw, w⟩ cb = .ok (A, b) ∧ ∀ x : Int → ℝ,
      (∀ i : Nat, i < total (ds.map Direction.ax) dof → ∑ j ∈ Finset.range (total (ds.map Direction.ax) dof), A ((i:Int), (j:Int)) * x j = b i) →
      Satisfies (ds.map Direction.ax) ops dof UG (fun z i => x (Blk.unknown Ls (ds.map Direction.ax) dof z i)) ∧
      ∀ v, Satisfies (ds.map Direction.ax) ops dof UG v →
        misfit (ds.map Direction.ax) dof elt L ρ v - 2 * work (ds.map Direction.ax) dof (loads (ds.map Direction.ax) dof elt) v =
          misfit (ds.map Direction.ax) dof elt L ρ (fun z i => x (Blk.unknown Ls (ds.map Direction.ax) dof z i)) -
          2 * work (ds.map Direction.ax) dof (loads (ds.map Direction.ax) dof elt) (fun z i => x (Blk.unknown Ls (ds.map Direction.ax) dof z i)) +
          energy (ds.map Direction.ax) dof elt L ρ (fun z i => v z i - x (Blk.unknown Ls (ds.map Direction.ax) dof z i)) := by
  obtain ⟨A, b, a, f, h1, hA, hb, hsol⟩ := C80_system S hI.built cb k r hK hist pw w
  refine ⟨A, b, h1, fun x hx => ?_⟩
  set u : List Int → Nat → ℝ := fun z i => x (Blk.unknown Ls (ds.map Direction.ax) dof z i) with hu
  obtain ⟨hsat, hfree⟩ := (hsol u).1 ((nodal_equations S hA hb x).1 hx)
  refine ⟨hsat, fun v hv => ?_⟩
  set w' : List Int → Nat → ℝ := fun z i => v z i - u z i with hw'
  have hid := weak_identity S hI.noForms k r ρ L hk hr u w'
  have hzero : work (ds.map Direction.ax) dof (fun z i => ((indices ((ds.map Direction.ax).map Axis.nnp)).map fun y => ((List.range dof).map fun d =>
        sumMat (ds.map Direction.ax) dof (fun e i j => integral (elt e) fun p => k p (i * unknowns (ds.map Direction.ax) dof + j)) z i y d * u y d).sum).sum) w' =
      work (ds.map Direction.ax) dof (sumVec (ds.map Direction.ax) dof (fun e i => integral (elt e) fun p => r p i)) w' +
      work (ds.map Direction.ax) dof (loads (ds.map Direction.ax) dof elt) w' := by
    unfold work
    rw [← List.sum_map_add]
    congr 1; refine List.map_congr_left fun z hz => ?_
    rw [← List.sum_map_add]
    congr 1; refine List.map_congr_left fun i hi => ?_
    have hz' := (mem_indices _ _).1 hz
    have hi' := List.mem_range.1 hi
    cases hp : Fix.prescribedAt (ds.map Direction.ax) ops UG (z, (i:Int)) with
    | some v0 =>
      have : w' z i = 0 := by
        rw [hw']
        dsimp only
        rw [hv z i hz' hi' v0 hp, hsat z i hz' hi' v0 hp, sub_self]
      rw [this, mul_zero, mul_zero, mul_zero, add_zero]
    | none =>
      have := hfree z i hz' hi' hp
      dsimp only at this
      beta_reduce
      rw [this, add_mul]
      rfl
  rw [hzero, add_sub_cancel_left, work_sub] at hid
  have hp := expand (ds.map Direction.ax) dof elt L ρ u v
  rw [← hid] at hp
  rw [hp]
  ring

/-- The weights of the points are positive. -/
structure Positive (ds : List (Direction Line)) (elt : List Int → Elt ℝ P) (ρ : P → ℝ) : Prop where
  jacobian : ∀ e, InBox (ds.map fun δ => δ.ax.nel) e → ∀ q ∈ (elt e).points none, 0 < q.detJac
  weight : ∀ e, InBox (ds.map fun δ => δ.ax.nel) e → ∀ q ∈ (elt e).points none, 0 < ρ q.data

theorem squares_nonneg (axs : List (Axis ℝ)) (dof : Nat) (elt : List Int → Elt ℝ P) (n : Nat) (ρ : P → ℝ) (d)
    (hp : ∀ e, InBox (axs.map Axis.nel) e → ∀ q ∈ (elt e).points none, 0 < ρ q.data * (q.detJac * q.weight)) :
    0 ≤ squares axs dof elt n ρ d := by
  refine List.sum_nonneg fun x hx => ?_
  obtain ⟨e, he, rfl⟩ := List.mem_map.1 hx
  refine List.sum_nonneg fun x hx => ?_
  obtain ⟨q, hq, rfl⟩ := List.mem_map.1 hx
  exact mul_nonneg (Finset.sum_nonneg fun l _ => Finset.sum_nonneg fun i _ => sq_nonneg _) (hp e ((mem_indices _ _).1 he) q hq).le

theorem squares_zero {axs : List (Axis ℝ)} {dof : Nat} {elt : List Int → Elt ℝ P} {n : Nat} {ρ : P → ℝ} {d}
    (hp : ∀ e, InBox (axs.map Axis.nel) e → ∀ q ∈ (elt e).points none, 0 < ρ q.data * (q.detJac * q.weight)) :
    squares axs dof elt n ρ d = 0 ↔ ∀ e, InBox (axs.map Axis.nel) e → ∀ q ∈ (elt e).points none, ∀ l i, i < dof → d e q.data l i = 0 := by
  constructor
  · intro h e he q hq l i hi
    have h1 := sum_zero_all (fun e he => List.sum_nonneg fun x hx => by
      obtain ⟨q, hq, rfl⟩ := List.mem_map.1 hx
      exact mul_nonneg (Finset.sum_nonneg fun l _ => Finset.sum_nonneg fun i _ => sq_nonneg _) (hp e ((mem_indices _ _).1 he) q hq).le) h e ((mem_indices _ _).2 he)
    have h2 := sum_zero_all (fun q hq => mul_nonneg (Finset.sum_nonneg fun l _ => Finset.sum_nonneg fun i _ => sq_nonneg _) (hp e he q hq).le) h1 q hq
    have h3 := (mul_eq_zero.1 h2).resolve_right (hp e he q hq).ne'
    have h4 := (Finset.sum_eq_zero_iff_of_nonneg fun l _ => Finset.sum_nonneg fun i _ => sq_nonneg _).1 h3 l (Finset.mem_univ _)
    have h5 := (Finset.sum_eq_zero_iff_of_nonneg fun i _ => sq_nonneg _).1 h4 i (Finset.mem_range.2 hi)
    exact pow_eq_zero_iff (by norm_num) |>.1 h5
  · intro h
    refine List.sum_eq_zero fun x hx => ?_
    obtain ⟨e, he, rfl⟩ := List.mem_map.1 hx
    refine List.sum_eq_zero fun x hx => ?_
    obtain ⟨q, hq, rfl⟩ := List.mem_map.1 hx
    rw [Finset.sum_eq_zero fun l _ => Finset.sum_eq_zero fun i hi => by rw [h e ((mem_indices _ _).1 he) q hq l i (Finset.mem_range.1 hi)]; norm_num, zero_mul]

/-- The field `u` takes the values `G` of the data at every point. -/
def Meets (axs : List (Axis ℝ)) (dof : Nat) (elt : List Int → Elt ℝ P) {n : Nat}
    (L : Fin n → (P → Fin (nenOf axs) → ℝ) × (P → Nat → ℝ)) (u : List Int → Nat → ℝ) : Prop :=
  ∀ e, InBox (axs.map Axis.nel) e → ∀ q ∈ (elt e).points none, ∀ l i, i < dof → combine axs e ((L l).1 q.data) u i = (L l).2 q.data i

theorem sum_pick {l : List (List Int)} {z : List Int} (hn : l.Nodup) (hm : z ∈ l) (v : ℝ) : (l.map fun y => if y = z then v else 0).sum = v := by
  induction l with
  | nil => simp at hm
  | cons a l ih =>
    rw [List.map_cons, List.sum_cons]
    rw [List.nodup_cons] at hn
    rcases List.mem_cons.1 hm with rfl | h
    · rw [if_pos rfl, List.sum_eq_zero, add_zero]
      intro x hx
      obtain ⟨y, hy, rfl⟩ := List.mem_map.1 hx
      exact if_neg fun (h : y = z) => hn.1 (h ▸ hy)
    · rw [if_neg (fun (e : a = z) => hn.1 (e ▸ h)), zero_add]
      exact ih hn.2 h

theorem work_single (axs : List (Axis ℝ)) (dof : Nat) (F : List Int → Nat → ℝ) {z : List Int} {i : Nat} (hz : InBox (axs.map Axis.nnp) z) (hi : i < dof) :
    work axs dof F (fun y d => if y = z ∧ d = i then 1 else 0) = F z i := by
  unfold work
  have hn := nodup_indices (axs.map Axis.nnp)
  have hm := (mem_indices _ _).2 hz
  have e : ∀ y, ((List.range dof).map fun d => F y d * (if y = z ∧ d = i then (1:ℝ) else 0)).sum = if y = z then F z i else 0 := by
    intro y
    rw [Asm.sum_single dof i hi _ (fun k _ hk => by simp [hk])]
    by_cases h : y = z
    · subst h; simp
    · simp [h]
  simp only [e]
  exact sum_pick hn hm _

/-- **C98**, consistency: if some field takes the prescribed values and meets the data at every point, then it solves the
assembled system, and every solution meets the data at every point. -/
theorem C98_exact {ds : List (Direction Line)} (S : Setup g2 g3 false size procs axes (ds.map Direction.ax) Ls)
    (hT : ∀ δ ∈ ds, δ.Tabulated) (hs : ∀ δ ∈ ds, IsSpline δ) {nsd dof : Nat}
    {ops : List (Form.Op ℝ)} (hno : NoLoads ops) {UG : Option (List Int → Int → ℝ)} {c : List Int → PtIn ds.length nsd (Fin (nenOf (ds.map Direction.ax)))}
    {elt : List Int → Elt ℝ (PtData ds.length nsd (nenOf (ds.map Direction.ax)))} (hI : Assembled ds ops dof UG c elt)
    (cb : PtData ds.length nsd (nenOf (ds.map Direction.ax)) → (Int → ℝ) → (Int → ℝ) → Res ((Int → ℝ) × (Int → ℝ))) (k r) (ρ) {n : Nat}
    (hpos : Positive ds elt ρ)
    (L : Fin n → (PtData ds.length nsd (nenOf (ds.map Direction.ax)) → Fin (nenOf (ds.map Direction.ax)) → ℝ) ×
      (PtData ds.length nsd (nenOf (ds.map Direction.ax)) → Nat → ℝ))
    (hK : FillsSys (unknowns (ds.map Direction.ax) dof) (unknowns (ds.map Direction.ax) dof) cb k r)
    (hk : GramForm dof (nenOf (ds.map Direction.ax)) (List.ofFn fun l => (L l).1) ρ k)
    (hr : LoadForm dof (nenOf (ds.map Direction.ax)) (List.ofFn L) ρ r) (hist) (pw) (w) :
    ∃ A b, computeSystem Ls hist dof ⟨elt, pw, w⟩ cb = .ok (A, b) ∧ ∀ v, Satisfies (ds.map Direction.ax) ops dof UG v →
      Meets (ds.map Direction.ax) dof elt L v →
      ∀ x : Int → ℝ,
        ((∀ z (i : Nat), InBox ((ds.map Direction.ax).map Axis.nnp) z → i < dof → x (Blk.unknown Ls (ds.map Direction.ax) dof z i) = v z i) →
          ∀ i : Nat, i < total (ds.map Direction.ax) dof → ∑ j ∈ Finset.range (total (ds.map Direction.ax) dof), A ((i:Int), (j:Int)) * x j = b i) ∧
        ((∀ i : Nat, i < total (ds.map Direction.ax) dof → ∑ j ∈ Finset.range (total (ds.map Direction.ax) dof), A ((i:Int), (j:Int)) * x j = b i) →
          Meets (ds.map Direction.ax) dof elt L (fun z i => x (Blk.unknown Ls (ds.map Direction.ax) dof z i)) ∧
          ∀ e, InBox ((ds.map Direction.ax).map Axis.nel) e → ∀ q ∈ (elt e).points none, ∀ l i, i < dof →
            combine (ds.map Direction.ax) e ((L l).1 q.data) (fun z i => v z i - x (Blk.unknown Ls (ds.map Direction.ax) dof z i)) i = 0) := by
  have hw' := Prb.setup_wf S
  have hIn := hI.interior hw'
  have hp : ∀ e, InBox ((ds.map Direction.ax).map Axis.nel) e → ∀ q ∈ (elt e).points none, 0 < ρ q.data * (q.detJac * q.weight) := by
    intro e he q hq
    rw [List.map_map] at he
    exact mul_pos (hpos.weight e he q hq) (mul_pos (hpos.jacobian e he q hq) (weight_pos S hT hs hIn he hq))
  have hl0 : ∀ v, work (ds.map Direction.ax) dof (loads (ds.map Direction.ax) dof elt) v = 0 := by
    intro v
    refine List.sum_eq_zero fun x hx => ?_
    obtain ⟨z, hz, rfl⟩ := List.mem_map.1 hx
    refine List.sum_eq_zero fun x hx => ?_
    obtain ⟨i, hi, rfl⟩ := List.mem_map.1 hx
    rw [no_loads hw' hI.built hno z i (List.mem_range.1 hi), zero_mul]
  obtain ⟨A, b, h1, hbest⟩ := C98_best S hI cb k r ρ L hK hk hr hist pw w
  obtain ⟨A', b', a, f, h1', hA, hb, hsol⟩ := C80_system S hI.built cb k r hK hist pw w
  rw [h1] at h1'
  cases h1'
  refine ⟨A, b, h1, fun v hv hm x => ⟨fun hx => ?_, fun hx => ?_⟩⟩
  · refine (nodal_equations S hA hb x).2 ?_
    set u : List Int → Nat → ℝ := fun z i => x (Blk.unknown Ls (ds.map Direction.ax) dof z i) with hu
    refine (hsol u).2 ⟨fun z i hz hi v0 hp => ?_, fun z i hz hi hfree => ?_⟩
    · rw [hu]
      dsimp only
      rw [hx z i hz hi]
      exact hv z i hz hi v0 hp
    · have hid := weak_identity S hI.noForms k r ρ L hk hr u (fun y d => if y = z ∧ d = i then 1 else 0)
      rw [work_single _ _ _ hz hi, work_single _ _ _ hz hi] at hid
      dsimp only
      rw [no_loads hw' hI.built hno z i hi, add_zero]
      refine Eq.trans (sub_eq_zero.1 (hid.trans ?_)) rfl
      refine List.sum_eq_zero fun y hy => ?_
      obtain ⟨e, he, rfl⟩ := List.mem_map.1 hy
      refine List.sum_eq_zero fun y hy => ?_
      obtain ⟨q, hq, rfl⟩ := List.mem_map.1 hy
      refine mul_eq_zero_of_left (Finset.sum_eq_zero fun l _ => Finset.sum_eq_zero fun j hj => ?_) _
      have hce : combine (ds.map Direction.ax) e ((L l).1 q.data) u j = combine (ds.map Direction.ax) e ((L l).1 q.data) v j := by
        unfold combine
        congr 1; refine List.map_congr_left fun t ht => ?_
        rw [hu]
        dsimp only
        rw [hx _ _ (nodeOf_inBox S ((mem_indices _ _).1 he) ht) (Finset.mem_range.1 hj)]
      rw [hce, hm e ((mem_indices _ _).1 he) q hq l j (Finset.mem_range.1 hj), sub_self, mul_zero]
  · obtain ⟨-, hE⟩ := hbest x hx
    have := hE v hv
    rw [hl0, hl0, mul_zero, sub_zero, sub_zero] at this
    have hm0 : misfit (ds.map Direction.ax) dof elt L ρ v = 0 := (squares_zero hp).2 fun e he q hq l i hi => sub_eq_zero.2 (hm e he q hq l i hi)
    have n1 : 0 ≤ misfit (ds.map Direction.ax) dof elt L ρ (fun z i => x (Blk.unknown Ls (ds.map Direction.ax) dof z i)) := squares_nonneg _ _ _ _ _ _ hp
    have n2 : 0 ≤ energy (ds.map Direction.ax) dof elt L ρ (fun z i => v z i - x (Blk.unknown Ls (ds.map Direction.ax) dof z i)) := squares_nonneg _ _ _ _ _ _ hp
    constructor
    · intro e he q hq l i hi
      have z1 : misfit (ds.map Direction.ax) dof elt L ρ (fun z i => x (Blk.unknown Ls (ds.map Direction.ax) dof z i)) = 0 := by linarith
      exact sub_eq_zero.1 ((squares_zero hp).1 z1 e he q hq l i hi)
    · have z2 : energy (ds.map Direction.ax) dof elt L ρ (fun z i => v z i - x (Blk.unknown Ls (ds.map Direction.ax) dof z i)) = 0 := by linarith
      exact (squares_zero hp).1 z2

/-- **C98**: without loads and with positive Jacobians and coefficient, a solution is at least as close to the data as any other field
with the prescribed values. -/
theorem C98_least {ds : List (Direction Line)} (S : Setup g2 g3 false size procs axes (ds.map Direction.ax) Ls)
    (hT : ∀ δ ∈ ds, δ.Tabulated) (hs : ∀ δ ∈ ds, IsSpline δ) {nsd dof : Nat}
    {ops : List (Form.Op ℝ)} (hno : NoLoads ops) {UG : Option (List Int → Int → ℝ)} {c : List Int → PtIn ds.length nsd (Fin (nenOf (ds.map Direction.ax)))}
    {elt : List Int → Elt ℝ (PtData ds.length nsd (nenOf (ds.map Direction.ax)))} (hI : Assembled ds ops dof UG c elt)
    (cb : PtData ds.length nsd (nenOf (ds.map Direction.ax)) → (Int → ℝ) → (Int → ℝ) → Res ((Int → ℝ) × (Int → ℝ))) (k r) (ρ) {n : Nat}
    (hpos : Positive ds elt ρ)
    (L : Fin n → (PtData ds.length nsd (nenOf (ds.map Direction.ax)) → Fin (nenOf (ds.map Direction.ax)) → ℝ) ×
      (PtData ds.length nsd (nenOf (ds.map Direction.ax)) → Nat → ℝ))
    (hK : FillsSys (unknowns (ds.map Direction.ax) dof) (unknowns (ds.map Direction.ax) dof) cb k r)
    (hk : GramForm dof (nenOf (ds.map Direction.ax)) (List.ofFn fun l => (L l).1) ρ k)
    (hr : LoadForm dof (nenOf (ds.map Direction.ax)) (List.ofFn L) ρ r) (hist) (pw) (w) :
    ∃ A b, computeSystem Ls hist dof ⟨elt, pw, w⟩ cb = .ok (A, b) ∧ ∀ x : Int → ℝ,
      (∀ i : Nat, i < total (ds.map Direction.ax) dof → ∑ j ∈ Finset.range (total (ds.map Direction.ax) dof), A ((i:Int), (j:Int)) * x j = b i) →
      Satisfies (ds.map Direction.ax) ops dof UG (fun z i => x (Blk.unknown Ls (ds.map Direction.ax) dof z i)) ∧
      ∀ v, Satisfies (ds.map Direction.ax) ops dof UG v →
        misfit (ds.map Direction.ax) dof elt L ρ (fun z i => x (Blk.unknown Ls (ds.map Direction.ax) dof z i)) ≤
          misfit (ds.map Direction.ax) dof elt L ρ v := by
  have hw' := Prb.setup_wf S
  have hIn := hI.interior hw'
  have hp : ∀ e, InBox ((ds.map Direction.ax).map Axis.nel) e → ∀ q ∈ (elt e).points none, 0 < ρ q.data * (q.detJac * q.weight) := by
    intro e he q hq
    rw [List.map_map] at he
    exact mul_pos (hpos.weight e he q hq) (mul_pos (hpos.jacobian e he q hq) (weight_pos S hT hs hIn he hq))
  have hl0 : ∀ v, work (ds.map Direction.ax) dof (loads (ds.map Direction.ax) dof elt) v = 0 := by
    intro v
    refine List.sum_eq_zero fun x hx => ?_
    obtain ⟨z, hz, rfl⟩ := List.mem_map.1 hx
    refine List.sum_eq_zero fun x hx => ?_
    obtain ⟨i, hi, rfl⟩ := List.mem_map.1 hx
    rw [no_loads hw' hI.built hno z i (List.mem_range.1 hi), zero_mul]
  obtain ⟨A, b, h1, hbest⟩ := C98_best S hI cb k r ρ L hK hk hr hist pw w
  refine ⟨A, b, h1, fun x hx => ⟨(hbest x hx).1, fun v hv => ?_⟩⟩
  have := (hbest x hx).2 v hv
  rw [hl0, hl0, mul_zero, sub_zero, sub_zero] at this
  have n2 : 0 ≤ energy (ds.map Direction.ax) dof elt L ρ (fun z i => v z i - x (Blk.unknown Ls (ds.map Direction.ax) dof z i)) := squares_nonneg _ _ _ _ _ _ hp
  linarith

/-- `∫ ρ Σ_l Σ_c h_l(u) H_l`: the work of the data `H` on the field `u`. -/
noncomputable def dataWork (axs : List (Axis ℝ)) (dof : Nat) (elt : List Int → Elt ℝ P) {n : Nat}
    (L : Fin n → (P → Fin (nenOf axs) → ℝ) × (P → Nat → ℝ)) (ρ : P → ℝ) (u : List Int → Nat → ℝ) : ℝ :=
  ((indices (axs.map Axis.nel)).map fun e => (((elt e).points none).map fun q =>
    (∑ l, ∑ i ∈ Finset.range dof, combine axs e ((L l).1 q.data) u i * (L l).2 q.data i) * (ρ q.data * (q.detJac * q.weight))).sum).sum

theorem dataWork_identity {ds : List (Direction Line)} (S : Setup g2 g3 false size procs axes (ds.map Direction.ax) Ls) {dof : Nat} {P : Type}
    {elt : List Int → Elt ℝ P} (hn : ∀ e, InBox (ds.map fun δ => δ.ax.nel) e → ∀ a b, (elt e).visit a b = false) (r : P → Int → ℝ) (ρ) {n : Nat}
    (L : Fin n → (P → Fin (nenOf (ds.map Direction.ax)) → ℝ) × (P → Nat → ℝ))
    (hr : LoadForm dof (nenOf (ds.map Direction.ax)) (List.ofFn L) ρ r) (w : List Int → Nat → ℝ) :
    work (ds.map Direction.ax) dof (sumVec (ds.map Direction.ax) dof (fun e i => integral (elt e) fun p => r p i)) w =
      dataWork (ds.map Direction.ax) dof elt L ρ w := by
  have hvec := nodal_load S dof (fun e i => integral (elt e) fun p => r p i) w
  have hc : ∀ F, work (ds.map Direction.ax) dof F w = ((indices ((ds.map Direction.ax).map Axis.nnp)).map fun z => ((List.range dof).map fun i => w z i * F z i).sum).sum := by
    intro F
    unfold work
    simp only [mul_comm]
  rw [hc, hvec]
  unfold dataWork
  congr 1; refine List.map_congr_left fun e he => ?_
  simp only [integral_interior _ (hn e (by have := (mem_indices _ _).1 he; rw [List.map_map] at this; exact this))]
  rw [load_elem (ds.map Direction.ax) dof _ ρ r hr]
  congr 1; refine List.map_congr_left fun q _ => ?_
  rw [sum_ofFn_map]
  congr 1

/-- `½ ∫ ρ Σ_l |g_l(u)|² - ∫ ρ' Σ_l h_l(u) H_l - (work of the boundary loads)`, twice: the potential energy of the field `u`. -/
noncomputable def potential (axs : List (Axis ℝ)) (dof : Nat) (elt : List Int → Elt ℝ P) {n m : Nat}
    (g : Fin n → P → Fin (nenOf axs) → ℝ) (ρ : P → ℝ) (L : Fin m → (P → Fin (nenOf axs) → ℝ) × (P → Nat → ℝ)) (ρ' : P → ℝ) (u : List Int → Nat → ℝ) : ℝ :=
  energy axs dof elt (fun l => (g l, fun _ _ => 0)) ρ u - 2 * dataWork axs dof elt L ρ' u - 2 * work axs dof (loads axs dof elt) u

theorem energy_nonneg {ds : List (Direction Line)} (S : Setup g2 g3 false size procs axes (ds.map Direction.ax) Ls)
    (hT : ∀ δ ∈ ds, δ.Tabulated) (hs : ∀ δ ∈ ds, IsSpline δ) {nsd dof : Nat}
    {ops : List (Form.Op ℝ)} {UG : Option (List Int → Int → ℝ)} {c : List Int → PtIn ds.length nsd (Fin (nenOf (ds.map Direction.ax)))}
    {elt : List Int → Elt ℝ (PtData ds.length nsd (nenOf (ds.map Direction.ax)))} (hI : Assembled ds ops dof UG c elt) {ρ}
    (hpos : Positive ds elt ρ) {n : Nat} (L : Fin n → _) (u) : 0 ≤ energy (ds.map Direction.ax) dof elt L ρ u := by
  refine squares_nonneg _ _ _ _ _ _ fun e he q hq => ?_
  rw [List.map_map] at he
  exact mul_pos (hpos.weight e he q hq) (mul_pos (hpos.jacobian e he q hq) (weight_pos S hT hs (hI.interior (Prb.setup_wf S)) he hq))

/-- **C98**, Ritz: for a form `∫ ρ Σ_l g_l(u) g_l(v)` and a load `∫ ρ' Σ_l h_l(v) H_l` (other operators than in the form), every solution takes the
prescribed values and has the least potential energy among the fields that take them; the excess is the energy of the difference. -/
theorem C98_ritz {ds : List (Direction Line)} (S : Setup g2 g3 false size procs axes (ds.map Direction.ax) Ls) {nsd dof : Nat}
    {ops : List (Form.Op ℝ)} {UG : Option (List Int → Int → ℝ)} {c : List Int → PtIn ds.length nsd (Fin (nenOf (ds.map Direction.ax)))}
    {elt : List Int → Elt ℝ (PtData ds.length nsd (nenOf (ds.map Direction.ax)))} (hI : Assembled ds ops dof UG c elt)
    (cb : PtData ds.length nsd (nenOf (ds.map Direction.ax)) → (Int → ℝ) → (Int → ℝ) → Res ((Int → ℝ) × (Int → ℝ))) (k r) (ρ ρ') {n m : Nat}
    (g : Fin n → PtData ds.length nsd (nenOf (ds.map Direction.ax)) → Fin (nenOf (ds.map Direction.ax)) → ℝ)
    (L : Fin m → (PtData ds.length nsd (nenOf (ds.map Direction.ax)) → Fin (nenOf (ds.map Direction.ax)) → ℝ) ×
      (PtData ds.length nsd (nenOf (ds.map Direction.ax)) → Nat → ℝ))
    (hK : FillsSys (unknowns (ds.map Direction.ax) dof) (unknowns (ds.map Direction.ax) dof) cb k r)
    (hk : GramForm dof (nenOf (ds.map Direction.ax)) (List.ofFn g) ρ k)
    (hr : LoadForm dof (nenOf (ds.map Direction.ax)) (List.ofFn L) ρ' r) (hist) (pw) (w) :
    ∃ A b, computeSystem Ls hist dof ⟨elt, pw, w⟩ cb = .ok (A, b) ∧ ∀ x : Int → ℝ,
      (∀ i : Nat, i < total (ds.map Direction.ax) dof → ∑ j ∈ Finset.range (total (ds.map Direction.ax) dof), A ((i:Int), (j:Int)) * x j = b i) →
      Satisfies (ds.map Direction.ax) ops dof UG (fun z i => x (Blk.unknown Ls (ds.map Direction.ax) dof z i)) ∧
      ∀ v, Satisfies (ds.map Direction.ax) ops dof UG v →
        potential (ds.map Direction.ax) dof elt g ρ L ρ' v =
          potential (ds.map Direction.ax) dof elt g ρ L ρ' (fun z i => x (Blk.unknown Ls (ds.map Direction.ax) dof z i)) +
          energy (ds.map Direction.ax) dof elt (fun l => (g l, fun _ _ => 0)) ρ (fun z i => v z i - x (Blk.unknown Ls (ds.map Direction.ax) dof z i)) := by
  obtain ⟨A, b, a, f, h1, hA, hb, hsol⟩ := C80_system S hI.built cb k r hK hist pw w
  refine ⟨A, b, h1, fun x hx => ?_⟩
  set u : List Int → Nat → ℝ := fun z i => x (Blk.unknown Ls (ds.map Direction.ax) dof z i) with hu
  obtain ⟨hsat, hfree⟩ := (hsol u).1 ((nodal_equations S hA hb x).1 hx)
  refine ⟨hsat, fun v hv => ?_⟩
  set w' : List Int → Nat → ℝ := fun z i => v z i - u z i with hw'
  have hid := weak_identity S hI.noForms k (fun _ _ => 0) ρ (fun l => (g l, fun _ _ => (0:ℝ))) hk (by
    intro p a c hc
    rw [sum_ofFn_map]
    simp) u w'
  have hz0 : work (ds.map Direction.ax) dof (sumVec (ds.map Direction.ax) dof (fun e i => integral (elt e) fun p => (0:ℝ))) w' = 0 := by
    have hc := dataWork_identity (n := 0) (dof := dof) S hI.noForms (fun _ _ => (0:ℝ)) ρ (fun l => l.elim0) (by intro p a c hc; simp) w'
    rw [hc]
    unfold dataWork
    simp
  have hzero : work (ds.map Direction.ax) dof (fun z i => ((indices ((ds.map Direction.ax).map Axis.nnp)).map fun y => ((List.range dof).map fun d =>
        sumMat (ds.map Direction.ax) dof (fun e i j => integral (elt e) fun p => k p (i * unknowns (ds.map Direction.ax) dof + j)) z i y d * u y d).sum).sum) w' =
      work (ds.map Direction.ax) dof (sumVec (ds.map Direction.ax) dof (fun e i => integral (elt e) fun p => r p i)) w' +
      work (ds.map Direction.ax) dof (loads (ds.map Direction.ax) dof elt) w' := by
    unfold work
    rw [← List.sum_map_add]
    congr 1; refine List.map_congr_left fun z hz => ?_
    rw [← List.sum_map_add]
    congr 1; refine List.map_congr_left fun i hi => ?_
    have hz' := (mem_indices _ _).1 hz
    have hi' := List.mem_range.1 hi
    cases hp : Fix.prescribedAt (ds.map Direction.ax) ops UG (z, (i:Int)) with
    | some v0 =>
      have : w' z i = 0 := by
        rw [hw']
        dsimp only
        rw [hv z i hz' hi' v0 hp, hsat z i hz' hi' v0 hp, sub_self]
      rw [this, mul_zero, mul_zero, mul_zero, add_zero]
    | none =>
      have := hfree z i hz' hi' hp
      dsimp only at this
      beta_reduce
      rw [this, add_mul]
      rfl
  rw [hz0, sub_zero, hzero, dataWork_identity S hI.noForms r ρ' L hr w'] at hid
  have hp := expand (ds.map Direction.ax) dof elt (fun l => (g l, fun _ _ => (0:ℝ))) ρ u v
  rw [← hid] at hp
  have hm : ∀ y, misfit (ds.map Direction.ax) dof elt (fun l => (g l, fun _ _ => (0:ℝ))) ρ y =
      energy (ds.map Direction.ax) dof elt (fun l => (g l, fun _ _ => (0:ℝ))) ρ y := by
    intro y
    unfold misfit energy
    simp only [sub_zero]
  rw [hm, hm] at hp
  have hd : dataWork (ds.map Direction.ax) dof elt L ρ' w' = dataWork (ds.map Direction.ax) dof elt L ρ' v - dataWork (ds.map Direction.ax) dof elt L ρ' u := by
    rw [← dataWork_identity S hI.noForms r ρ' L hr, ← dataWork_identity S hI.noForms r ρ' L hr, ← dataWork_identity S hI.noForms r ρ' L hr, work_sub]
  have hl := work_sub (ds.map Direction.ax) dof (loads (ds.map Direction.ax) dof elt) u v
  unfold potential
  rw [hp, hd, hl]
  ring

theorem prescribed_nil (axs : List (Axis ℝ)) (UG : Option (List Int → Int → ℝ)) (q) : Fix.prescribedAt axs [] UG q = none := by
  unfold Fix.prescribedAt nodePrescribed
  rw [List.findSome?_eq_none_iff.2, Option.map_none]
  intro s _
  split <;> rfl

theorem noLoads_nil : NoLoads [] := fun _ _ _ _ h => by cases h

/-- A least squares fit of data that the space can meet: the system has one solution, and it meets the data. -/
theorem fit_exact {ds : List (Direction Line)} (S : Setup g2 g3 false size procs axes (ds.map Direction.ax) Ls)
    (hT : ∀ δ ∈ ds, δ.Tabulated) (hs : ∀ δ ∈ ds, IsSpline δ) (hE : ∀ δ ∈ ds, Enough δ) {nsd dof : Nat} {UG : Option (List Int → Int → ℝ)}
    {c : List Int → PtIn ds.length nsd (Fin (nenOf (ds.map Direction.ax)))} (hR : ∀ e, Weights ds (c e))
    {elt : List Int → Elt ℝ (PtData ds.length nsd (nenOf (ds.map Direction.ax)))} (hI : Assembled ds [] dof UG c elt)
    (cb : PtData ds.length nsd (nenOf (ds.map Direction.ax)) → (Int → ℝ) → (Int → ℝ) → Res ((Int → ℝ) × (Int → ℝ))) (k r) (ρ)
    (hpos : Positive ds elt ρ) (G : PtData ds.length nsd (nenOf (ds.map Direction.ax)) → Nat → ℝ)
    (hK : FillsSys (unknowns (ds.map Direction.ax) dof) (unknowns (ds.map Direction.ax) dof) cb k r)
    (hk : GramForm dof (nenOf (ds.map Direction.ax)) [fun p a => p.shape.t0 a] ρ k)
    (hr : LoadForm dof (nenOf (ds.map Direction.ax)) [(fun p a => p.shape.t0 a, G)] ρ r) (hist) (pw) (w)
    (v : List Int → Nat → ℝ) (hv : ∀ e, InBox (ds.map fun δ => δ.ax.nel) e → ∀ q ∈ (elt e).points none, ∀ i, i < dof →
      combine (ds.map Direction.ax) e q.data.shape.t0 v i = G q.data i) :
    ∃ A b, computeSystem Ls hist dof ⟨elt, pw, w⟩ cb = .ok (A, b) ∧ ∃ x : Int → ℝ,
      (∀ y : Int → ℝ,
        (∀ i : Nat, i < total (ds.map Direction.ax) dof → ∑ j ∈ Finset.range (total (ds.map Direction.ax) dof), A ((i:Int), (j:Int)) * y j = b i) ↔
        ∀ i : Nat, i < total (ds.map Direction.ax) dof → y i = x i) ∧
      ∀ z (i : Nat), InBox ((ds.map Direction.ax).map Axis.nnp) z → i < dof → x (Blk.unknown Ls (ds.map Direction.ax) dof z i) = v z i := by
  have hw' := Prb.setup_wf S
  obtain ⟨l1, l3, hw⟩ := setup_facts S
  obtain ⟨A, b, h1, h2⟩ := C98_exact S hT hs noLoads_nil hI cb k r ρ hpos (n := 1) (fun _ => (fun p a => p.shape.t0 a, G)) hK
    (by simpa using hk) (by simpa using hr) hist pw w
  have hsat : Satisfies (ds.map Direction.ax) [] dof UG v := fun z i _ _ v0 h => by rw [prescribed_nil] at h; cases h
  have hmeets : Meets (ds.map Direction.ax) dof elt (n := 1) (fun _ => (fun p a => p.shape.t0 a, G)) v := by
    intro e he q hq l i hi
    rw [List.map_map] at he
    exact hv e he q hq i hi
  obtain ⟨x, hx⟩ := represents_exists S dof v
  have hx' : ∀ z (i : Nat), InBox ((ds.map Direction.ax).map Axis.nnp) z → i < dof → x (Blk.unknown Ls (ds.map Direction.ax) dof z i) = v z i :=
    fun z i hz hi => hx z i hz hi
  refine ⟨A, b, h1, x, fun y => ⟨fun hy i hi => ?_, fun hy => ?_⟩, hx'⟩
  · obtain ⟨z, j, hz, hj, e⟩ := unknown_onto S (dof := dof) (i := (i:Int)) (by omega) (by omega)
    rw [e, hx' z j hz hj]
    obtain ⟨ee, t, he, ht, rfl⟩ := node_covered hw' S.cond hz
    have h0 := ((h2 v hsat hmeets y).2 hy).2 ee he
    rw [List.map_map] at he
    obtain ⟨mem, hm⟩ := hI.points ee he
    have := element_zero l1 l3 hT hs hw hE (c ee) (hR ee) he hm _ j (fun q hq => h0 q hq 0 j hj) t ((mem_indices _ _).2 ht)
    linarith
  · refine (h2 v hsat hmeets y).1 fun z i hz hi => ?_
    obtain ⟨b0, b1⟩ := unknown_bounds S hz hi
    have := hy (Blk.unknown Ls (ds.map Direction.ax) dof z i).toNat (by omega)
    rw [Int.toNat_of_nonneg b0] at this
    rw [this, hx' z i hz hi]

/-- **C98**, `L2` projection: with enough quadrature points, fitting polynomials whose degree in each direction is at most the one of
the space has one solution, and that field takes exactly the values of the polynomials. -/
theorem C98_l2 {ds : List (Direction Line)} (S : Setup g2 g3 false size procs axes (ds.map Direction.ax) Ls)
    (hT : ∀ δ ∈ ds, δ.Tabulated) (hs : ∀ δ ∈ ds, IsSpline δ) (hE : ∀ δ ∈ ds, Enough δ) (hper : ∀ δ ∈ ds, δ.ax.periodic = false)
    {nsd dof : Nat} {UG : Option (List Int → Int → ℝ)}
    {c : List Int → PtIn ds.length nsd (Fin (nenOf (ds.map Direction.ax)))} (hR : ∀ e, (c e).rational = none)
    {elt : List Int → Elt ℝ (PtData ds.length nsd (nenOf (ds.map Direction.ax)))} (hI : Assembled ds [] dof UG c elt)
    (cb : PtData ds.length nsd (nenOf (ds.map Direction.ax)) → (Int → ℝ) → (Int → ℝ) → Res ((Int → ℝ) × (Int → ℝ))) (k r) (ρ)
    (hpos : Positive ds elt ρ) (g : Nat → List ℝ → ℝ)
    (hg : ∀ i, PolyOn (fun xs => xs.length = ds.length) (ds.map fun δ => δ.ax.p.toNat) (g i))
    (hK : FillsSys (unknowns (ds.map Direction.ax) dof) (unknowns (ds.map Direction.ax) dof) cb k r)
    (hk : GramForm dof (nenOf (ds.map Direction.ax)) [fun p a => p.shape.t0 a] ρ k)
    (hr : LoadForm dof (nenOf (ds.map Direction.ax)) [(fun p a => p.shape.t0 a, fun p i => g i p.u)] ρ r) (hist) (pw) (w) :
    ∃ A b, computeSystem Ls hist dof ⟨elt, pw, w⟩ cb = .ok (A, b) ∧ ∃ x : Int → ℝ,
      (∀ y : Int → ℝ,
        (∀ i : Nat, i < total (ds.map Direction.ax) dof → ∑ j ∈ Finset.range (total (ds.map Direction.ax) dof), A ((i:Int), (j:Int)) * y j = b i) ↔
        ∀ i : Nat, i < total (ds.map Direction.ax) dof → y i = x i) ∧
      ∀ e, InBox (ds.map fun δ => δ.ax.nel) e → ∀ q ∈ (elt e).points none, ∀ i, i < dof →
        combine (ds.map Direction.ax) e q.data.shape.t0 (fun z i => x (Blk.unknown Ls (ds.map Direction.ax) dof z i)) i = g i q.data.u := by
  choose u hu using fun i => C97_points S hT hs hper (g i) (hg i)
  have hv : ∀ e, InBox (ds.map fun δ => δ.ax.nel) e → ∀ q ∈ (elt e).points none, ∀ i,
      combine (ds.map Direction.ax) e q.data.shape.t0 (fun z i => u i z) i = g i q.data.u := by
    intro e he q hq i
    obtain ⟨mem, hm⟩ := hI.points e he
    exact (hu i nsd (c e) (hR e) e he mem _ hm q hq).1 i
  obtain ⟨A, b, h1, x, hx, hn⟩ := fit_exact S hT hs hE (fun e W h => by rw [hR e] at h; cases h) hI cb k r ρ hpos (fun p i => g i p.u) hK hk hr
    hist pw w (fun z i => u i z) (fun e he q hq i _ => hv e he q hq i)
  refine ⟨A, b, h1, x, hx, fun e he q hq i hi => ?_⟩
  rw [← hv e he q hq i]
  have he' : InBox ((ds.map Direction.ax).map Axis.nel) e := by rw [List.map_map]; exact he
  unfold combine
  congr 1; refine List.map_congr_left fun t ht => ?_
  beta_reduce
  rw [hn _ i (nodeOf_inBox S he' ht) hi]

/-- **C98**, `L2` projection on mapped domains, also NURBS: fitting affine functions of the position has one solution, and that field is
the affine function. -/
theorem C98_l2_affine {ds : List (Direction Line)} (S : Setup g2 g3 false size procs axes (ds.map Direction.ax) Ls)
    (hT : ∀ δ ∈ ds, δ.Tabulated) (hs : ∀ δ ∈ ds, IsSpline δ) (hE : ∀ δ ∈ ds, Enough δ)
    {nsd dof : Nat} {UG : Option (List Int → Int → ℝ)}
    {c : List Int → PtIn ds.length nsd (Fin (nenOf (ds.map Direction.ax)))} (hR : ∀ e, Weights ds (c e))
    (X : List Int → Nat → ℝ) (hX : ∀ e, ∃ C, (c e).geometry = some C ∧ OnNet (ds.map Direction.ax) e C X)
    {elt : List Int → Elt ℝ (PtData ds.length nsd (nenOf (ds.map Direction.ax)))} (hI : Assembled ds [] dof UG c elt)
    (cb : PtData ds.length nsd (nenOf (ds.map Direction.ax)) → (Int → ℝ) → (Int → ℝ) → Res ((Int → ℝ) × (Int → ℝ))) (k r) (ρ)
    (hpos : Positive ds elt ρ) (t : Nat → ℝ) (R : Nat → Fin nsd → ℝ)
    (hK : FillsSys (unknowns (ds.map Direction.ax) dof) (unknowns (ds.map Direction.ax) dof) cb k r)
    (hk : GramForm dof (nenOf (ds.map Direction.ax)) [fun p a => p.shape.t0 a] ρ k)
    (hr : LoadForm dof (nenOf (ds.map Direction.ax)) [(fun p a => p.shape.t0 a, fun p i => t i + ∑ l, R i l * p.arrays.mapX.t0 l)] ρ r) (hist) (pw) (w) :
    ∃ A b, computeSystem Ls hist dof ⟨elt, pw, w⟩ cb = .ok (A, b) ∧ ∃ x : Int → ℝ,
      (∀ y : Int → ℝ,
        (∀ i : Nat, i < total (ds.map Direction.ax) dof → ∑ j ∈ Finset.range (total (ds.map Direction.ax) dof), A ((i:Int), (j:Int)) * y j = b i) ↔
        ∀ i : Nat, i < total (ds.map Direction.ax) dof → y i = x i) ∧
      ∀ z (i : Nat), InBox ((ds.map Direction.ax).map Axis.nnp) z → i < dof →
        x (Blk.unknown Ls (ds.map Direction.ax) dof z i) = t i + ∑ l, R i l * X z l := by
  refine fit_exact S hT hs hE hR hI cb k r ρ hpos _ hK hk hr hist pw w (fun z i => t i + ∑ l, R i l * X z l) fun e he q hq i _ => ?_
  obtain ⟨C, hC, hN⟩ := hX e
  obtain ⟨mem, hm⟩ := hI.points e he
  exact C97_affine S hT hs (c e) (hR e) C hC he hm X hN (t i) (R i) i q hq

end PetIGA.Itg
