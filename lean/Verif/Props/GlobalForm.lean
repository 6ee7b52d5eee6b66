import Verif.Props.BoundaryValue
import Verif.Props.PCApplyEBE
import Mathlib.Algebra.Order.BigOperators.Group.Finset
import Mathlib.Tactic.Linarith
import Mathlib.Data.Real.Basic
/-
The quadratic form of an assembled matrix is the sum of the quadratic forms of the element matrices.
-/
set_option linter.unusedSectionVars false
namespace PetIGA.Drv
open PetIGA.Ax PetIGA.Lay PetIGA.Asm PetIGA.Grid PetIGA.Spec PetIGA.Part PetIGA.Blk PetIGA.PCA

variable {K : Type} [Field K] [LinearOrder K] [IsStrictOrderedRing K]
variable {g2 : Guess2} {g3 : Guess3} {size : Int} {procs : List Int} {axes axs : List (Axis K)} {Ls : List (Layout K)}

section numbering
variable {V : Type} [AddCommMonoid V] {colloc : Bool}

theorem unknown_inj (S : Setup g2 g3 colloc size procs axes axs Ls) {dof : Nat} {z y : List Int} {c d : Nat}
    (hz : InBox (axs.map Axis.nnp) z) (hy : InBox (axs.map Axis.nnp) y) (hc : c < dof) (hd : d < dof)
    (h : unknown Ls axs dof z c = unknown Ls axs dof y d) : z = y ∧ c = d := by
  obtain ⟨D, hNs⟩ := S.grid
  obtain ⟨-, inj, -⟩ := C26_global_numbering _ _ D hNs
  unfold unknown at h
  have e1 : appToPetsc (world (appWorld Ls)) (flat (axs.map Axis.nnp) z) = appToPetsc (world (appWorld Ls)) (flat (axs.map Axis.nnp) y) := by
    have a1 := Int.add_mul_ediv_left (c:Int) (appToPetsc (world (appWorld Ls)) (flat (axs.map Axis.nnp) z)) (show (dof:Int) ≠ 0 by omega)
    have a2 := Int.add_mul_ediv_left (d:Int) (appToPetsc (world (appWorld Ls)) (flat (axs.map Axis.nnp) y)) (show (dof:Int) ≠ 0 by omega)
    rw [Int.ediv_eq_zero_of_lt (Int.natCast_nonneg c) (by omega : (c:Int) < dof), zero_add] at a1
    rw [Int.ediv_eq_zero_of_lt (Int.natCast_nonneg d) (by omega : (d:Int) < dof), zero_add] at a2
    rw [← a1, ← a2, add_comm, h, add_comm]
  refine ⟨inj _ _ hz hy e1, ?_⟩
  rw [e1] at h
  omega

theorem unknown_bounds (S : Setup g2 g3 colloc size procs axes axs Ls) {dof : Nat} {z : List Int} {c : Nat}
    (hz : InBox (axs.map Axis.nnp) z) (hc : c < dof) : 0 ≤ unknown Ls axs dof z c ∧ unknown Ls axs dof z c < total axs dof := by
  obtain ⟨D, hNs⟩ := S.grid
  obtain ⟨r, ⟨hr, hx⟩, -⟩ := D.part.owner z hz
  have hlen : (world (appWorld Ls)).length = Ls.length := by unfold world appWorld; simp
  obtain ⟨L, hL⟩ : ∃ L, Ls[r]? = some L := ⟨Ls[r]'(by omega), by simp⟩
  obtain ⟨-, -, hd, hg⟩ := S.get hL
  rw [(own_get hg).1, (own_get hg).2.1, List.map_map, List.map_map] at hx
  exact (unknown_range S hL hx hc).2

theorem unknown_onto (S : Setup g2 g3 colloc size procs axes axs Ls) {dof : Nat} {i : Int} (h0 : 0 ≤ i) (h1 : i < total axs dof) :
    ∃ z c, InBox (axs.map Axis.nnp) z ∧ c < dof ∧ i = unknown Ls axs dof z c := by
  obtain ⟨r, L, v, c, hL, hv, hc, e⟩ := unknown_surj S h0 h1
  obtain ⟨D, hNs⟩ := S.grid
  obtain ⟨-, -, hd, hg⟩ := S.get hL
  refine ⟨v, c, inBlock_inBox (D.part.inside r (rank_lt hg)) ?_, hc, e⟩
  rw [(own_get hg).1, (own_get hg).2.1, List.map_map, List.map_map]
  exact hv

/-- A sum over the global unknowns, node by node. -/
theorem sum_unknown (S : Setup g2 g3 colloc size procs axes axs Ls) (dof : Nat) (f : Int → V) :
    ∑ i ∈ Finset.range (total axs dof), f i =
      ((indices (axs.map Axis.nnp)).map fun z => ((List.range dof).map fun c => f (unknown Ls axs dof z c)).sum).sum := by
  have e1 : ∑ i ∈ Finset.range (total axs dof), f i = (((List.range (total axs dof)).map fun (i : Nat) => (i:Int)).map f).sum := by
    rw [List.map_map, Finset.sum_eq_multiset_sum]
    rfl
  have e2 : ((indices (axs.map Axis.nnp)).map fun z => ((List.range dof).map fun c => f (unknown Ls axs dof z c)).sum).sum =
      (((indices (axs.map Axis.nnp)).flatMap fun z => (List.range dof).map fun c => unknown Ls axs dof z c).map f).sum := by
    rw [List.map_flatMap, List.flatMap_def, List.sum_flatten, List.map_map]
    simp only [Function.comp_def, List.map_map]
  rw [e1, e2]
  refine List.Perm.sum_eq (List.Perm.map _ ?_)
  rw [List.perm_ext_iff_of_nodup]
  · intro i
    simp only [List.mem_map, List.mem_range, List.mem_flatMap]
    constructor
    · rintro ⟨k, hk, rfl⟩
      obtain ⟨z, c, hz, hc, e⟩ := unknown_onto S (dof := dof) (i := (k:Int)) (by omega) (by omega)
      exact ⟨z, (mem_indices _ _).2 hz, c, hc, e.symm⟩
    · rintro ⟨z, hz, c, hc, rfl⟩
      obtain ⟨h0, h1⟩ := unknown_bounds S (dof := dof) ((mem_indices _ _).1 hz) hc
      exact ⟨(unknown Ls axs dof z c).toNat, by omega, by omega⟩
  · exact (List.nodup_range).map (fun a b h => by simpa using h)
  · rw [List.nodup_flatMap]
    refine ⟨fun z hz => ?_, ?_⟩
    · refine List.Nodup.map_on ?_ List.nodup_range
      intro c hc d hd h
      exact (unknown_inj S ((mem_indices _ _).1 hz) ((mem_indices _ _).1 hz) (List.mem_range.1 hc) (List.mem_range.1 hd) h).2
    · have := nodup_indices (axs.map Axis.nnp)
      refine List.Pairwise.imp_of_mem ?_ this
      intro z y hz hy hne
      simp only [Function.onFun, List.disjoint_left, List.mem_map, List.mem_range, not_exists, not_and]
      rintro i ⟨c, hc, rfl⟩ d hd h
      exact hne (unknown_inj S ((mem_indices _ _).1 hz) ((mem_indices _ _).1 hy) hc hd h.symm).1

end numbering

variable {V : Type} [CommRing V]

/-- The quadratic form of an element matrix. -/
def elemForm (n : Nat) (κ : Nat → Nat → V) (X Y : List V) : V :=
  ((List.range n).map fun (i : Nat) => X.getD i 0 * ((List.range n).map fun (j : Nat) => κ i j * Y.getD j 0).sum).sum

/-- The bilinear form of the assembled matrix is the sum of those of the elements. -/
theorem global_form (S : Setup g2 g3 false size procs axes axs Ls) (dof : Nat) (κ : List Int → Nat → Nat → V) (A : Int × Int → V)
    (hA : RepresentsMat axs Ls dof A (sumMat axs dof κ)) (x y : Int → V) :
    ∑ i ∈ Finset.range (total axs dof), ∑ j ∈ Finset.range (total axs dof), x i * A ((i:Int), (j:Int)) * y j =
      ((indices (axs.map Axis.nel)).map fun e => elemForm (unknowns axs dof) (κ e)
        (valuesOf false axs dof (fun z c => x (unknown Ls axs dof z c)) e)
        (valuesOf false axs dof (fun z c => y (unknown Ls axs dof z c)) e)).sum := by
  have h1 : ∀ i : Int, ∑ j ∈ Finset.range (total axs dof), x i * A (i, (j:Int)) * y j =
      x i * ((indices (axs.map Axis.nnp)).map fun w => ((List.range dof).map fun d =>
        A (i, unknown Ls axs dof w d) * y (unknown Ls axs dof w d)).sum).sum := by
    intro i
    rw [← sum_unknown S dof (fun j => A (i, j) * y j), Finset.mul_sum]
    exact Finset.sum_congr rfl fun j _ => by ring
  rw [Finset.sum_congr rfl fun (i : Nat) _ => h1 (i:Int), sum_unknown S dof (fun i => x i * ((indices (axs.map Axis.nnp)).map fun w => ((List.range dof).map fun d =>
        A (i, unknown Ls axs dof w d) * y (unknown Ls axs dof w d)).sum).sum)]
  have h2 : ∀ z ∈ indices (axs.map Axis.nnp), ∀ c ∈ List.range dof,
      x (unknown Ls axs dof z c) * ((indices (axs.map Axis.nnp)).map fun w => ((List.range dof).map fun d =>
        A (unknown Ls axs dof z c, unknown Ls axs dof w d) * y (unknown Ls axs dof w d)).sum).sum =
      ((indices (axs.map Axis.nel)).map fun e => ((indices (nens axs)).map fun s => if nodeOf false axs e s = z then
        x (unknown Ls axs dof z c) * ((List.range (unknowns axs dof)).map fun j => κ e (slot axs dof s c) j *
          (valuesOf false axs dof (fun z c => y (unknown Ls axs dof z c)) e).getD j 0).sum else 0).sum).sum := by
    intro z hz c hc
    have e1 : ((indices (axs.map Axis.nnp)).map fun w => ((List.range dof).map fun d =>
        A (unknown Ls axs dof z c, unknown Ls axs dof w d) * y (unknown Ls axs dof w d)).sum).sum =
        ((indices (axs.map Axis.nnp)).map fun w => ((List.range dof).map fun d =>
        sumMat axs dof κ z c w d * (fun z c => y (unknown Ls axs dof z c)) w d).sum).sum := by
      congr 1; refine List.map_congr_left fun w hw => ?_
      congr 1; refine List.map_congr_left fun d hd => ?_
      have := hA z c w d ((mem_indices _ _).1 hz) ((mem_indices _ _).1 hw) (List.mem_range.1 hc) (List.mem_range.1 hd)
      unfold unknown
      rw [this]
    rw [e1, sumMat_mul S, ← List.sum_map_mul_left]
    congr 1; refine List.map_congr_left fun e _ => ?_
    rw [← List.sum_map_mul_left]
    congr 1; refine List.map_congr_left fun s _ => ?_
    rw [mul_ite, mul_zero]
  have h3 : ((indices (axs.map Axis.nnp)).map fun z => ((List.range dof).map fun c =>
      x (unknown Ls axs dof z c) * ((indices (axs.map Axis.nnp)).map fun w => ((List.range dof).map fun d =>
        A (unknown Ls axs dof z c, unknown Ls axs dof w d) * y (unknown Ls axs dof w d)).sum).sum).sum).sum =
      ((indices (axs.map Axis.nnp)).map fun z => ((List.range dof).map fun c =>
      ((indices (axs.map Axis.nel)).map fun e => ((indices (nens axs)).map fun s => if nodeOf false axs e s = z then
        x (unknown Ls axs dof z c) * ((List.range (unknowns axs dof)).map fun j => κ e (slot axs dof s c) j *
          (valuesOf false axs dof (fun z c => y (unknown Ls axs dof z c)) e).getD j 0).sum else 0).sum).sum).sum).sum := by
    congr 1; refine List.map_congr_left fun z hz => ?_
    congr 1; exact List.map_congr_left fun c hc => h2 z hz c hc
  rw [h3]
  have h4 : ∀ z, ((List.range dof).map fun c =>
      ((indices (axs.map Axis.nel)).map fun e => ((indices (nens axs)).map fun s => if nodeOf false axs e s = z then
        x (unknown Ls axs dof z c) * ((List.range (unknowns axs dof)).map fun j => κ e (slot axs dof s c) j *
          (valuesOf false axs dof (fun z c => y (unknown Ls axs dof z c)) e).getD j 0).sum else 0).sum).sum).sum =
      ((indices (axs.map Axis.nel)).map fun e => ((indices (nens axs)).map fun s => ((List.range dof).map fun c => if nodeOf false axs e s = z then
        x (unknown Ls axs dof z c) * ((List.range (unknowns axs dof)).map fun j => κ e (slot axs dof s c) j *
          (valuesOf false axs dof (fun z c => y (unknown Ls axs dof z c)) e).getD j 0).sum else 0).sum).sum).sum := by
    intro z
    rw [sum_swap]
    congr 1; refine List.map_congr_left fun e _ => ?_
    rw [sum_swap]
  simp only [h4]
  rw [sum_swap]
  congr 1; refine List.map_congr_left fun e he => ?_
  rw [sum_swap]
  unfold elemForm
  have h5 := sum_unknowns axs dof (fun z c => x (unknown Ls axs dof z c)) e (fun i =>
    ((List.range (unknowns axs dof)).map fun j => κ e i j * (valuesOf false axs dof (fun z c => y (unknown Ls axs dof z c)) e).getD j 0).sum)
  have h6 : ∀ i : Nat, (valuesOf false axs dof (fun z c => x (unknown Ls axs dof z c)) e).getD i 0 *
      ((List.range (unknowns axs dof)).map fun j => κ e i j * (valuesOf false axs dof (fun z c => y (unknown Ls axs dof z c)) e).getD j 0).sum =
      ((List.range (unknowns axs dof)).map fun j => κ e i j * (valuesOf false axs dof (fun z c => y (unknown Ls axs dof z c)) e).getD j 0).sum *
      (valuesOf false axs dof (fun z c => x (unknown Ls axs dof z c)) e).getD i 0 := fun i => mul_comm _ _
  simp only [h6]
  rw [h5]
  congr 1; refine List.map_congr_left fun s hs => ?_
  have hin := nodeOf_inBox S ((mem_indices _ _).1 he) hs
  rw [sum_nodup (nodup_indices _) ((mem_indices _ _).2 hin)]
  · congr 1; refine List.map_congr_left fun c _ => ?_
    rw [if_pos rfl, mul_comm]
  · intro z _ hz
    simp [Ne.symm hz]

theorem sumMat_symm (axs : List (Axis K)) (dof : Nat) (κ : List Int → Nat → Nat → V)
    (h : ∀ e, InBox (axs.map Axis.nel) e → ∀ i j : Nat, i < unknowns axs dof → j < unknowns axs dof → κ e i j = κ e j i)
    (z : List Int) (c : Nat) (y : List Int) (d : Nat) (hc : c < dof) (hd : d < dof) :
    sumMat axs dof κ z c y d = sumMat axs dof κ y d z c := by
  unfold sumMat
  congr 1; refine List.map_congr_left fun e he => ?_
  rw [sum_swap]
  congr 1; refine List.map_congr_left fun s hs => ?_
  congr 1; refine List.map_congr_left fun t ht => ?_
  rw [h e ((mem_indices _ _).1 he) _ _ (slot_lt axs ht hc) (slot_lt axs hs hd)]
  simp only [and_comm]

theorem sum_zero_all {α : Type} {l : List α} {f : α → ℝ} (h : ∀ a ∈ l, 0 ≤ f a) (hz : (l.map f).sum = 0) : ∀ a ∈ l, f a = 0 := by
  induction l with
  | nil => simp
  | cons b l ih =>
    rw [List.map_cons, List.sum_cons] at hz
    have h1 := h b (by simp)
    have h2 : 0 ≤ (l.map f).sum := List.sum_nonneg (by
      intro x hx
      obtain ⟨a, ha, rfl⟩ := List.mem_map.1 hx
      exact h a (List.mem_cons_of_mem _ ha))
    intro a ha
    rcases List.mem_cons.1 ha with rfl | ha
    · linarith
    · exact ih (fun a ha => h a (List.mem_cons_of_mem _ ha)) (by linarith) a ha

/-- A matrix assembled from symmetric positive semidefinite element matrices is symmetric positive definite when zero is the
only nodal field whose values on every element make the element form vanish. -/
theorem posDef_of_elements (S : Setup g2 g3 false size procs axes axs Ls) (dof : Nat) (κ : List Int → Nat → Nat → ℝ) (A : Int × Int → ℝ)
    (hA : RepresentsMat axs Ls dof A (sumMat axs dof κ))
    (hs : ∀ e, InBox (axs.map Axis.nel) e → ∀ i j : Nat, i < unknowns axs dof → j < unknowns axs dof → κ e i j = κ e j i)
    (h0 : ∀ e, InBox (axs.map Axis.nel) e → ∀ u : List Int → Nat → ℝ,
      0 ≤ elemForm (unknowns axs dof) (κ e) (valuesOf false axs dof u e) (valuesOf false axs dof u e))
    (h1 : ∀ u : List Int → Nat → ℝ, (∀ e, InBox (axs.map Axis.nel) e →
      elemForm (unknowns axs dof) (κ e) (valuesOf false axs dof u e) (valuesOf false axs dof u e) = 0) →
      ∀ z c, InBox (axs.map Axis.nnp) z → c < dof → u z c = 0) :
    PosDef (total axs dof) fun i j => A (i, j) := by
  constructor
  · intro i j i0 i1 j0 j1
    obtain ⟨z, c, hz, hc, rfl⟩ := unknown_onto S i0 i1
    obtain ⟨y, d, hy, hd, rfl⟩ := unknown_onto S j0 j1
    have e1 := hA z c y d hz hy hc hd
    have e2 := hA y d z c hy hz hd hc
    exact e1.trans ((sumMat_symm axs dof κ hs z c y d hc hd).trans e2.symm)
  · rintro x ⟨i, i0, i1, hx⟩
    have hf := global_form S dof κ A hA x x
    rw [hf]
    have hpos : ∀ e ∈ indices (axs.map Axis.nel), 0 ≤ elemForm (unknowns axs dof) (κ e)
        (valuesOf false axs dof (fun z c => x (unknown Ls axs dof z c)) e)
        (valuesOf false axs dof (fun z c => x (unknown Ls axs dof z c)) e) :=
      fun e he => h0 e ((mem_indices _ _).1 he) _
    refine lt_of_le_of_ne (List.sum_nonneg (by
      intro a ha
      obtain ⟨e, he, rfl⟩ := List.mem_map.1 ha
      exact hpos e he)) fun hz => ?_
    obtain ⟨z, c, hz', hc, rfl⟩ := unknown_onto S i0 i1
    refine hx (h1 (fun z c => x (unknown Ls axs dof z c)) (fun e he => ?_) z c hz' hc)
    exact sum_zero_all hpos hz.symm e ((mem_indices _ _).2 he)

end PetIGA.Drv
