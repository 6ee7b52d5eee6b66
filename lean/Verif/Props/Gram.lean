import Verif.Props.Independent
/-
Matrices of symmetric forms `∫ ρ Σ_l G_l(N_a) G_l(N_b)`: the quadratic form on an element.
-/
set_option linter.unusedSectionVars false
namespace PetIGA.Drv
open PetIGA.Ax PetIGA.Lay PetIGA.Asm PetIGA.Grid PetIGA.Spec PetIGA.Part PetIGA.Blk PetIGA.PCA

variable {K : Type} [Field K] [LinearOrder K] [IsStrictOrderedRing K]
variable {P : Type}

/-- Number of functions of an element. -/
def nenOf (axs : List (Axis K)) : Nat := (indices (nens axs)).length

/-- The callback computes, for every component separately, `ρ Σ_l g_l(N_a) g_l(N_b)` in row `(a,c)` and column `(b,d)`
of the point matrix. -/
def GramForm (dof n : Nat) (L : List (P → Fin n → ℝ)) (ρ : P → ℝ) (k : P → Int → ℝ) : Prop :=
  ∀ p (a b : Fin n) (c d : Nat), c < dof → d < dof →
    k p ((((a:Nat) * dof + c) * (n * dof) + ((b:Nat) * dof + d) : Nat) : Int) = if c = d then ρ p * (L.map fun g => g p a * g p b).sum else 0

/-- Entry of a table of functions by the indices of the function. -/
def ent {n : Nat} (axs : List (Axis K)) (g : Fin n → ℝ) (t : List Int) : ℝ :=
  if h : (flat (nens axs) t).toNat < n then g ⟨(flat (nens axs) t).toNat, h⟩ else 0

theorem flat_lt_nen (axs : List (Axis K)) {t : List Int} (ht : t ∈ indices (nens axs)) : (flat (nens axs) t).toNat < nenOf axs := by
  have h1 : (t, (flat (nens axs) t).toNat) ∈ (indices (nens axs)).zipIdx := by
    rw [zipIdx_indices]; exact List.mem_map.2 ⟨t, ht, rfl⟩
  have := (List.mem_zipIdx h1).2.1
  unfold nenOf
  omega

theorem elemForm_sum {α : Type} (n : Nat) (qs : List α) (κ : α → Nat → Nat → ℝ) (X Y : List ℝ) :
    elemForm n (fun i j => (qs.map fun q => κ q i j).sum) X Y = (qs.map fun q => elemForm n (κ q) X Y).sum := by
  induction qs with
  | nil => simp [elemForm]
  | cons q qs ih =>
    rw [List.map_cons, List.sum_cons, ← ih]
    unfold elemForm
    simp only [List.map_cons, List.sum_cons, add_mul, List.sum_map_add, mul_add]

theorem elemForm_scale (n : Nat) (κ : Nat → Nat → ℝ) (w : ℝ) (X Y : List ℝ) :
    elemForm n (fun i j => κ i j * w) X Y = elemForm n κ X Y * w := by
  unfold elemForm
  rw [← List.sum_map_mul_right]
  congr 1; refine List.map_congr_left fun i _ => ?_
  rw [mul_assoc, ← List.sum_map_mul_right]
  congr 2; refine List.map_congr_left fun j _ => ?_
  ring

theorem elemForm_slots (axs : List (Axis K)) (dof : Nat) (κ : Nat → Nat → ℝ) (u v : List Int → Nat → ℝ) (e : List Int) :
    elemForm (unknowns axs dof) κ (valuesOf false axs dof u e) (valuesOf false axs dof v e) =
      ((indices (nens axs)).map fun s => ((List.range dof).map fun c => u (nodeOf false axs e s) c *
        ((indices (nens axs)).map fun t => ((List.range dof).map fun d =>
          κ (slot axs dof s c) (slot axs dof t d) * v (nodeOf false axs e t) d).sum).sum).sum).sum := by
  unfold elemForm
  have h6 : ∀ i : Nat, (valuesOf false axs dof u e).getD i 0 *
      ((List.range (unknowns axs dof)).map fun j => κ i j * (valuesOf false axs dof v e).getD j 0).sum =
      ((List.range (unknowns axs dof)).map fun j => κ i j * (valuesOf false axs dof v e).getD j 0).sum *
      (valuesOf false axs dof u e).getD i 0 := fun i => mul_comm _ _
  simp only [h6]
  rw [sum_unknowns]
  congr 1; refine List.map_congr_left fun s _ => ?_
  congr 1; refine List.map_congr_left fun c _ => ?_
  rw [sum_unknowns, mul_comm]

/-- The value of `Σ_a g(N_a) u_a` for component `c` of the nodal field on the element. -/
def combine {n : Nat} (axs : List (Axis K)) (e : List Int) (g : Fin n → ℝ) (u : List Int → Nat → ℝ) (c : Nat) : ℝ :=
  ((indices (nens axs)).map fun t => u (nodeOf false axs e t) c * ent axs g t).sum

theorem single_form (axs : List (Axis K)) (dof : Nat) (G : List Int → ℝ) (u v : List Int → Nat → ℝ) (e : List Int) :
    ((indices (nens axs)).map fun s => ((List.range dof).map fun c => u (nodeOf false axs e s) c *
        ((indices (nens axs)).map fun t => ((List.range dof).map fun d =>
          (if c = d then G s * G t else 0) * v (nodeOf false axs e t) d).sum).sum).sum).sum =
      ((List.range dof).map fun c => ((indices (nens axs)).map fun t => u (nodeOf false axs e t) c * G t).sum *
        ((indices (nens axs)).map fun t => v (nodeOf false axs e t) c * G t).sum).sum := by
  rw [sum_swap]
  congr 1; refine List.map_congr_left fun c hc => ?_
  rw [← List.sum_map_mul_right]
  congr 1; refine List.map_congr_left fun s _ => ?_
  rw [mul_assoc]
  congr 1
  rw [← List.sum_map_mul_left]
  congr 1; refine List.map_congr_left fun t _ => ?_
  rw [sum_nodup List.nodup_range hc]
  · rw [if_pos rfl]; ring
  · intro d _ hd
    rw [if_neg (Ne.symm hd), zero_mul]

/-- The quadratic form of the element matrix is a sum of squares. -/
theorem gram_elem (axs : List (Axis K)) (dof : Nat) (L : List (P → Fin (nenOf axs) → ℝ)) (ρ : P → ℝ) (k : P → Int → ℝ)
    (hk : GramForm dof (nenOf axs) L ρ k) (qs : List (QP ℝ P)) (u v : List Int → Nat → ℝ) (e : List Int) :
    elemForm (unknowns axs dof) (fun i j => pointSum qs fun p => k p ((i:Int) * unknowns axs dof + j)) (valuesOf false axs dof u e)
      (valuesOf false axs dof v e) = (qs.map fun q => (L.map fun g => ((List.range dof).map fun c =>
        combine axs e (g q.data) u c * combine axs e (g q.data) v c).sum).sum * (ρ q.data * (q.detJac * q.weight))).sum := by
  unfold pointSum
  rw [elemForm_sum _ qs (fun q i j => k q.data ((i:Int) * unknowns axs dof + j) * (q.detJac * q.weight))]
  congr 1; refine List.map_congr_left fun q _ => ?_
  rw [elemForm_scale, elemForm_slots]
  conv_rhs => rw [← mul_assoc]
  congr 1
  have h1 : ((indices (nens axs)).map fun s => ((List.range dof).map fun c => u (nodeOf false axs e s) c *
        ((indices (nens axs)).map fun t => ((List.range dof).map fun d =>
          k q.data (((slot axs dof s c : Nat) : Int) * unknowns axs dof + (slot axs dof t d : Nat)) * v (nodeOf false axs e t) d).sum).sum).sum).sum =
      ((indices (nens axs)).map fun s => ((List.range dof).map fun c => u (nodeOf false axs e s) c *
        ((indices (nens axs)).map fun t => ((List.range dof).map fun d =>
          (if c = d then (L.map fun g => ent axs (g q.data) s * ent axs (g q.data) t).sum else 0) * v (nodeOf false axs e t) d).sum).sum).sum).sum *
        ρ q.data := by
    rw [← List.sum_map_mul_right]
    congr 1; refine List.map_congr_left fun s hs => ?_
    rw [← List.sum_map_mul_right]
    congr 1; refine List.map_congr_left fun c hc => ?_
    rw [mul_assoc, ← List.sum_map_mul_right]
    congr 2; refine List.map_congr_left fun t ht => ?_
    rw [← List.sum_map_mul_right]
    congr 1; refine List.map_congr_left fun d hd => ?_
    have e1 := hk q.data ⟨_, flat_lt_nen axs hs⟩ ⟨_, flat_lt_nen axs ht⟩ c d (List.mem_range.1 hc) (List.mem_range.1 hd)
    have e2 : (((slot axs dof s c : Nat) : Int) * unknowns axs dof + (slot axs dof t d : Nat)) =
        (((((flat (nens axs) s).toNat * dof + c) * (nenOf axs * dof) + ((flat (nens axs) t).toNat * dof + d) : Nat)) : Int) := by
      unfold slot unknowns nenOf
      push_cast
      ring
    rw [e2, e1]
    by_cases hcd : c = d
    · rw [if_pos hcd, if_pos hcd]
      have e3 : ∀ g : P → Fin (nenOf axs) → ℝ, g q.data ⟨_, flat_lt_nen axs hs⟩ * g q.data ⟨_, flat_lt_nen axs ht⟩ =
          ent axs (g q.data) s * ent axs (g q.data) t := by
        intro g
        unfold ent
        rw [dif_pos (flat_lt_nen axs hs), dif_pos (flat_lt_nen axs ht)]
      simp only [e3]
      ring
    · rw [if_neg hcd, if_neg hcd]; ring
  rw [h1]
  congr 1
  clear hk h1
  induction L with
  | nil => simp
  | cons g L ih =>
    rw [List.map_cons, List.sum_cons, ← ih]
    have := single_form axs dof (ent axs (g q.data)) u v e
    unfold combine
    rw [← this]
    have e4 : ∀ (c d : Nat) (s t : List Int), (if c = d then ((g :: L).map fun g => ent axs (g q.data) s * ent axs (g q.data) t).sum else 0) =
        (if c = d then ent axs (g q.data) s * ent axs (g q.data) t else 0) +
        (if c = d then (L.map fun g => ent axs (g q.data) s * ent axs (g q.data) t).sum else 0) := by
      intro c d s t
      split_ifs <;> simp
    simp only [e4, add_mul, List.sum_map_add, mul_add]

/-- The element matrix is symmetric. -/
theorem gram_symm (axs : List (Axis K)) (hw : ∀ ax ∈ axs, WF ax) (dof : Nat) (L : List (P → Fin (nenOf axs) → ℝ)) (ρ : P → ℝ) (k : P → Int → ℝ)
    (hk : GramForm dof (nenOf axs) L ρ k) (qs : List (QP ℝ P)) {i j : Nat} (hi : i < unknowns axs dof) (hj : j < unknowns axs dof) :
    (pointSum qs fun p => k p ((i:Int) * unknowns axs dof + j)) = pointSum qs fun p => k p ((j:Int) * unknowns axs dof + i) := by
  obtain ⟨s, c, hs, hc, rfl⟩ := exists_slot axs hw hi
  obtain ⟨t, d, ht, hd, rfl⟩ := exists_slot axs hw hj
  have hs := flat_lt_nen axs ((mem_indices _ _).2 hs)
  have ht := flat_lt_nen axs ((mem_indices _ _).2 ht)
  unfold pointSum
  congr 1; refine List.map_congr_left fun q _ => ?_
  congr 1
  have e1 := hk q.data ⟨_, hs⟩ ⟨_, ht⟩ c d hc hd
  have e2 := hk q.data ⟨_, ht⟩ ⟨_, hs⟩ d c hd hc
  have e3 : ∀ (s t : List Int) (c d : Nat), (((slot axs dof s c : Nat) : Int) * unknowns axs dof + (slot axs dof t d : Nat)) =
        (((((flat (nens axs) s).toNat * dof + c) * (nenOf axs * dof) + ((flat (nens axs) t).toNat * dof + d) : Nat)) : Int) := by
    intro s t c d
    unfold slot unknowns nenOf
    push_cast
    ring
  rw [e3, e3]
  refine e1.trans (Eq.trans ?_ e2.symm)
  by_cases hcd : c = d
  · rw [if_pos hcd, if_pos hcd.symm]
    congr 2
    exact List.map_congr_left fun g _ => mul_comm _ _
  · rw [if_neg hcd, if_neg (Ne.symm hcd)]

end PetIGA.Drv
