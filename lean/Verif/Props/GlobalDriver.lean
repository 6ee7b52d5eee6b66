import Mathlib.Analysis.Calculus.Deriv.Add
import Mathlib.Data.List.GetD
import Mathlib.Analysis.Calculus.Deriv.Mul
import Verif.Model.GlobalDriver
import Verif.Props.Driver
import Verif.Props.Assemble
/-! C78: the assembled Jacobian is the derivative of the assembled residual. -/
set_option linter.unusedSectionVars false
namespace PetIGA.Drv
open PetIGA.Ax PetIGA.Lay PetIGA.Asm PetIGA.Fix PetIGA.Grid PetIGA.Spec PetIGA.Part

variable {K : Type} [Field K] [LinearOrder K] [IsStrictOrderedRing K]
variable {V P : Type} [CommRing V]

/-! ### What the loops compute, as sums over elements -/

/-- Entry `i` of an element residual. -/
def residualAt (E : Elt V P) (U : List V) (R : P → Int → V) (i : Nat) : V :=
  match tableGet E.fixes.fix i with
  | some v => U.getD i 0 - v
  | none => integral E (fun p => R p i) - (tableGet E.fixes.flux i).getD 0

/-- Entry `(i, j)` of an element Jacobian. -/
def jacobianAt (E : Elt V P) (k : P → Int → V) (i j : Nat) : V :=
  if (tableGet E.fixes.fix i).isSome ∨ (tableGet E.fixes.fix j).isSome then (if i = j then 1 else 0)
  else integral E (fun p => k p (i * E.n + j))

/-- Number of unknowns of an element. -/
def unknowns (axs : List (Axis K)) (dof : Nat) : Nat := (indices (nens axs)).length * dof

/-- Component `c` of local function `t`. -/
def slot (axs : List (Axis K)) (dof : Nat) (t : List Int) (c : Nat) : Nat := (flat (nens axs) t).toNat * dof + c

/-- The sum over all elements and local functions at node `z`. -/
def sumVec (axs : List (Axis K)) (dof : Nat) (f : List Int → Nat → V) (z : List Int) (c : Nat) : V :=
  ((indices (axs.map Axis.nel)).map fun e => ((indices (nens axs)).map fun t =>
    if nodeOf false axs e t = z then f e (slot axs dof t c) else 0).sum).sum

/-- The sum over all elements and pairs of local functions at nodes `z`, `y`. -/
def sumMat (axs : List (Axis K)) (dof : Nat) (a : List Int → Nat → Nat → V) (z : List Int) (c : Nat) (y : List Int) (d : Nat) : V :=
  ((indices (axs.map Axis.nel)).map fun e => ((indices (nens axs)).map fun s => ((indices (nens axs)).map fun t =>
    if nodeOf false axs e s = z ∧ nodeOf false axs e t = y then a e (slot axs dof s c) (slot axs dof t d) else 0).sum).sum).sum

/-- The elements of the grid are inside the element loop of a Galerkin discretisation with `dof` components. -/
def Elements (axs : List (Axis K)) (dof : Nat) (elt : List Int → Elt V P) : Prop :=
  ∀ e, InBox (axs.map Axis.nel) e → Ready (elt e) ∧ (elt e).nen = (indices (nens axs)).length ∧ (elt e).dof = dof

theorem Elements.n_eq {axs : List (Axis K)} {dof : Nat} {elt : List Int → Elt V P} (h : Elements axs dof elt) {e : List Int}
    (he : InBox (axs.map Axis.nel) e) : (elt e).n = unknowns axs dof := by
  obtain ⟨_, a, b⟩ := h e he
  unfold Elt.n unknowns; rw [a, b]

theorem Elements.m_eq {axs : List (Axis K)} {dof : Nat} {elt : List Int → Elt V P} (h : Elements axs dof elt) {e : List Int}
    (he : InBox (axs.map Axis.nel) e) : (elt e).m = unknowns axs dof := by
  rw [(h e he).1.m_eq, h.n_eq he]

theorem valuesOf_length {W : Type} (colloc : Bool) (axs : List (Axis K)) (dof : Nat) (u : List Int → Nat → W) (e : List Int) :
    (valuesOf colloc axs dof u e).length = unknowns axs dof := by
  unfold valuesOf unknowns
  rw [List.length_flatMap]
  simp

theorem valuesOf_map {W W' : Type} (g : W → W') (colloc : Bool) (axs : List (Axis K)) (dof : Nat) (u : List Int → Nat → W) (e : List Int) :
    (valuesOf colloc axs dof u e).map g = valuesOf colloc axs dof (fun x c => g (u x c)) e := by
  unfold valuesOf
  rw [List.map_flatMap]
  simp [Function.comp_def]

variable {g2 : Guess2} {g3 : Guess3} {size : Int} {procs : List Int} {axes axs : List (Axis K)} {Ls : List (Layout K)}

theorem vec_global {W : Type} (S : Setup g2 g3 false size procs axes axs Ls) (hist : Nat → Hist)
    (dof : Nat) (gvec : Int → W) (junk : Nat × Int → W) (u : List Int → Nat → W) (hu : Represents axs Ls dof gvec u)
    (form : Nat → List Int → List W → Res (Nat → V)) (f : List Int → Nat → V)
    (hf : ∀ (r : Nat) (e : List Int), InBox (axs.map Axis.nel) e → ∃ F, form r e (valuesOf false axs dof u e) = .ok F ∧
      ∀ i : Nat, i < unknowns axs dof → F i = f e i) :
    ∃ v, computeVec false Ls hist dof gvec junk form = .ok v ∧ Represents axs Ls dof v (sumVec axs dof f) :=
  C51_vector_partial S hist dof gvec junk u hu form f hf

theorem split_index {N k : Nat} (hk : k < N * N) : k / N < N ∧ k % N < N := by
  have hN : 0 < N := by
    rcases Nat.eq_zero_or_pos N with h | h
    · subst h; omega
    · exact h
  exact ⟨Nat.div_lt_of_lt_mul hk, Nat.mod_lt _ hN⟩

theorem slot_lt (axs : List (Axis K)) {dof : Nat} {t : List Int} {c : Nat} (ht : t ∈ indices (nens axs)) (hc : c < dof) :
    slot axs dof t c < unknowns axs dof := by
  have h1 : (t, (flat (nens axs) t).toNat) ∈ (indices (nens axs)).zipIdx := by
    rw [zipIdx_indices]; exact List.mem_map.2 ⟨t, ht, rfl⟩
  have h2 := (List.mem_zipIdx h1).2.1
  unfold slot unknowns
  have h3 : (flat (nens axs) t).toNat < (indices (nens axs)).length := by omega
  calc _ < (flat (nens axs) t).toNat * dof + dof := by omega
    _ = ((flat (nens axs) t).toNat + 1) * dof := by ring
    _ ≤ _ := Nat.mul_le_mul_right _ h3

theorem mat_global {W : Type} (S : Setup g2 g3 false size procs axes axs Ls) (hist : Nat → Hist)
    (dof : Nat) (gvec : Int → W) (junk : Nat × Int → W) (u : List Int → Nat → W) (hu : Represents axs Ls dof gvec u)
    (form : Nat → List Int → List W → Res (Nat → V)) (a : List Int → Nat → Nat → V)
    (hf : ∀ (r : Nat) (e : List Int), InBox (axs.map Axis.nel) e → ∃ F, form r e (valuesOf false axs dof u e) = .ok F ∧
      ∀ i j : Nat, i < unknowns axs dof → j < unknowns axs dof → F (i * unknowns axs dof + j) = a e i j) :
    ∃ A, computeMat false Ls hist dof gvec junk form = .ok A ∧ RepresentsMat axs Ls dof A (sumMat axs dof a) := by
  obtain ⟨A, h1, h2⟩ := C51_matrix_partial S hist dof gvec junk u hu form
    (fun e k => a e (k / unknowns axs dof) (k % unknowns axs dof)) (by
      intro r e he
      obtain ⟨F, a1, a2⟩ := hf r e he
      refine ⟨F, a1, fun k hk => ?_⟩
      have hk' : k < unknowns axs dof * unknowns axs dof := hk
      obtain ⟨b1, b2⟩ := split_index hk'
      show F k = a e (k / unknowns axs dof) (k % unknowns axs dof)
      rw [← a2 _ _ b1 b2]
      congr 1
      rw [Nat.mul_comm, Nat.div_add_mod])
  refine ⟨A, h1, ?_⟩
  intro z c y d hz hy hc hd
  rw [h2 z c y d hz hy hc hd]
  unfold sumMat
  dsimp only
  congr 1
  apply List.map_congr_left
  intro e _
  congr 1
  apply List.map_congr_left
  intro s hs
  congr 1
  apply List.map_congr_left
  intro t ht
  have e1 : (slot axs dof s c * unknowns axs dof + slot axs dof t d) / unknowns axs dof = slot axs dof s c := by
    have := slot_lt axs ht hd
    rw [Nat.mul_comm, Nat.mul_add_div (by omega), Nat.div_eq_of_lt this, Nat.add_zero]
  have e2 : (slot axs dof s c * unknowns axs dof + slot axs dof t d) % unknowns axs dof = slot axs dof t d := by
    rw [Nat.mul_comm, Nat.mul_add_mod, Nat.mod_eq_of_lt (slot_lt axs ht hd)]
  show (if _ then a e ((slot axs dof s c * unknowns axs dof + slot axs dof t d) / unknowns axs dof)
    ((slot axs dof s c * unknowns axs dof + slot axs dof t d) % unknowns axs dof) else 0) = _
  rw [e1, e2]

/-! ### Differentiating the sums -/

theorem sum_swap {α β V : Type} [AddCommMonoid V] (f : α → β → V) : ∀ (l : List α) (l' : List β),
    (l.map fun a => (l'.map fun b => f a b).sum).sum = (l'.map fun b => (l.map fun a => f a b).sum).sum
  | [], l' => by simp
  | a :: l, l' => by
    simp only [List.map_cons, List.sum_cons, sum_swap f l l']
    rw [List.sum_map_add]

theorem hasDerivAt_sum {α : Type} (f : ℝ → α → ℝ) (f' : α → ℝ) : ∀ l : List α, (∀ a ∈ l, HasDerivAt (fun s => f s a) (f' a) 0) →
    HasDerivAt (fun s => (l.map fun a => f s a).sum) (l.map f').sum 0
  | [], _ => by simpa using hasDerivAt_const (0:ℝ) (0:ℝ)
  | a :: l, h => by
    simp only [List.map_cons, List.sum_cons]
    exact (h a (by simp)).fun_add (hasDerivAt_sum f f' l fun b hb => h b (by simp [hb]))

theorem sum_mul {α : Type} (f : α → V) (c : V) (l : List α) : (l.map f).sum * c = (l.map fun a => f a * c).sum := by
  rw [List.sum_map_mul_right]

theorem getD_flatMap (dof : Nat) (f : List Int → Nat → V) (g : Nat → V) : ∀ l : List (List Int),
    ((List.range (l.length * dof)).map fun j => g j * (l.flatMap fun t => (List.range dof).map (f t)).getD j 0).sum =
      (l.zipIdx.map fun tk => ((List.range dof).map fun d => g (tk.2 * dof + d) * f tk.1 d).sum).sum := by
  intro l
  induction l using List.reverseRecOn with
  | nil => simp
  | append_singleton l t ih =>
    have hlen : (l.flatMap fun t => (List.range dof).map (f t)).length = l.length * dof := by
      rw [List.length_flatMap]; simp
    rw [List.zipIdx_append, List.map_append, List.sum_append, ← ih, List.length_append, List.length_singleton, Nat.add_mul,
      Nat.one_mul, List.range_add, List.map_append, List.sum_append]
    congr 1
    · congr 1
      apply List.map_congr_left
      intro j hj
      rw [List.mem_range] at hj
      rw [List.flatMap_append, List.getD_append _ _ _ _ (by omega)]
    · simp only [List.zipIdx_singleton, List.map_cons, List.map_nil, List.sum_cons, List.sum_nil, add_zero, List.map_map, zero_add]
      congr 1
      apply List.map_congr_left
      intro d hd
      rw [List.mem_range] at hd
      simp only [Function.comp]
      rw [List.flatMap_append, List.getD_append_right _ _ _ _ (by omega), hlen, Nat.add_sub_cancel_left]
      simp [hd]

/-- The sum over the unknowns of an element, by local functions and components. -/
theorem sum_unknowns (axs : List (Axis K)) (dof : Nat) (w : List Int → Nat → V) (e : List Int) (g : Nat → V) :
    ((List.range (unknowns axs dof)).map fun j => g j * (valuesOf false axs dof w e).getD j 0).sum =
      ((indices (nens axs)).map fun t => ((List.range dof).map fun d => g (slot axs dof t d) * w (nodeOf false axs e t) d).sum).sum := by
  have := getD_flatMap dof (fun t c => w (nodeOf false axs e t) c) g (indices (nens axs))
  unfold unknowns valuesOf
  rw [this, zipIdx_indices, List.map_map]
  rfl

theorem nodeOf_inBox (S : Setup g2 g3 false size procs axes axs Ls) {e t : List Int} (he : InBox (axs.map Axis.nel) e)
    (ht : t ∈ indices (nens axs)) : InBox (axs.map Axis.nnp) (nodeOf false axs e t) := by
  obtain ⟨_, hp⟩ := S.grid
  refine modAll_inBox hp ?_
  rw [List.length_map]
  have hl : e.length = axs.length := by rw [Asm.inBox_length he, List.length_map]
  simpa using plus_length axs hl ht

/-- The assembled matrix times a nodal field, element by element. -/
theorem sumMat_mul (S : Setup g2 g3 false size procs axes axs Ls) (dof : Nat) (w : List Int → Nat → V)
    (κ : List Int → Nat → Nat → V) (z : List Int) (c : Nat) :
    ((indices (axs.map Axis.nnp)).map fun y => ((List.range dof).map fun d => sumMat axs dof κ z c y d * w y d).sum).sum =
      ((indices (axs.map Axis.nel)).map fun e => ((indices (nens axs)).map fun s => if nodeOf false axs e s = z then
        ((List.range (unknowns axs dof)).map fun j => κ e (slot axs dof s c) j * (valuesOf false axs dof w e).getD j 0).sum
        else 0).sum).sum := by
  have e1 : ∀ y d, sumMat axs dof κ z c y d * w y d = ((indices (axs.map Axis.nel)).map fun e =>
      ((indices (nens axs)).map fun s => ((indices (nens axs)).map fun t => if nodeOf false axs e s = z ∧ nodeOf false axs e t = y
        then κ e (slot axs dof s c) (slot axs dof t d) * w y d else 0).sum).sum).sum := by
    intro y d
    unfold sumMat
    rw [sum_mul]
    congr 1; apply List.map_congr_left; intro e _
    rw [sum_mul]
    congr 1; apply List.map_congr_left; intro s _
    rw [sum_mul]
    congr 1; apply List.map_congr_left; intro t _
    rw [ite_mul, zero_mul]
  simp only [e1]
  -- bring the element and the row function outside
  have e2 : ∀ y, ((List.range dof).map fun d => ((indices (axs.map Axis.nel)).map fun e =>
      ((indices (nens axs)).map fun s => ((indices (nens axs)).map fun t => if nodeOf false axs e s = z ∧ nodeOf false axs e t = y
        then κ e (slot axs dof s c) (slot axs dof t d) * w y d else 0).sum).sum).sum).sum =
      ((indices (axs.map Axis.nel)).map fun e => ((indices (nens axs)).map fun s => ((indices (nens axs)).map fun t =>
        ((List.range dof).map fun d => if nodeOf false axs e s = z ∧ nodeOf false axs e t = y
        then κ e (slot axs dof s c) (slot axs dof t d) * w y d else 0).sum).sum).sum).sum := by
    intro y
    rw [sum_swap]
    congr 1; apply List.map_congr_left; intro e _
    rw [sum_swap]
    congr 1; apply List.map_congr_left; intro s _
    rw [sum_swap]
  simp only [e2]
  rw [sum_swap]
  congr 1; apply List.map_congr_left; intro e he
  rw [sum_swap]
  congr 1; apply List.map_congr_left; intro s _
  by_cases hs : nodeOf false axs e s = z
  · rw [if_pos hs, sum_unknowns, sum_swap]
    congr 1; apply List.map_congr_left; intro t ht
    have hin := nodeOf_inBox S ((mem_indices _ _).1 he) ht
    rw [sum_nodup (nodup_indices _) ((mem_indices _ _).2 hin)]
    · simp only [hs, true_and, if_true]
    · intro y _ hy
      simp [Ne.symm hy]
  · simp [hs]

/-- The sum over all elements of element derivatives is the assembled matrix times the direction. -/
theorem sumVec_deriv (S : Setup g2 g3 false size procs axes axs Ls) (dof : Nat) (w : List Int → Nat → ℝ)
    (ρ : ℝ → List Int → Nat → ℝ) (κ : List Int → Nat → Nat → ℝ)
    (h : ∀ e, InBox (axs.map Axis.nel) e → ∀ i, i < unknowns axs dof → HasDerivAt (fun s => ρ s e i)
      ((List.range (unknowns axs dof)).map fun j => κ e i j * (valuesOf false axs dof w e).getD j 0).sum 0)
    (z : List Int) (c : Nat) (hc : c < dof) :
    HasDerivAt (fun s => sumVec axs dof (ρ s) z c)
      ((indices (axs.map Axis.nnp)).map fun y => ((List.range dof).map fun d => sumMat axs dof κ z c y d * w y d).sum).sum 0 := by
  rw [sumMat_mul S]
  unfold sumVec
  refine hasDerivAt_sum _ _ _ fun e he => hasDerivAt_sum _ _ _ fun s hs => ?_
  by_cases hz : nodeOf false axs e s = z
  · simp only [if_pos hz]
    exact h e ((mem_indices _ _).1 he) _ (slot_lt axs hs hc)
  · simp only [if_neg hz]
    exact hasDerivAt_const _ _

/-! ### Differentiating on an element -/

/-- `U + s W`. -/
def axpy (U : List ℝ) (s : ℝ) (W : List ℝ) : List ℝ := List.zipWith (fun x y => x + s * y) U W

theorem axpy_getD {U W : List ℝ} (s : ℝ) (h : U.length = W.length) (i : Nat) (hi : i < U.length) :
    (axpy U s W).getD i 0 = U.getD i 0 + s * W.getD i 0 := by
  unfold axpy
  simp only [List.getD_eq_getElem?_getD]
  rw [List.getElem?_zipWith, List.getElem?_eq_getElem hi, List.getElem?_eq_getElem (h ▸ hi)]
  rfl

variable {E : Elt ℝ P}

theorem withValues_axpy {U W : List ℝ} (hU : U.length = E.n) (hW : W.length = E.n) (s : ℝ) :
    withValues E (axpy U s W) = axpy (withValues E U) s (withoutRates E W) := by
  unfold withValues withoutRates
  conv_rhs => unfold axpy
  rw [List.zipWith_map, List.zipWith_self]
  apply List.map_congr_left
  intro i hi
  rw [List.mem_range] at hi
  rw [axpy_getD s (hU.trans hW.symm) i (by omega)]
  cases tableGet E.fixes.fix i <;> simp

theorem withoutRates_axpy {U W : List ℝ} (hU : U.length = E.n) (hW : W.length = E.n) (s : ℝ) :
    withoutRates E (axpy U s W) = axpy (withoutRates E U) s (withoutRates E W) := by
  unfold withoutRates
  conv_rhs => unfold axpy
  rw [List.zipWith_map, List.zipWith_self]
  apply List.map_congr_left
  intro i hi
  rw [List.mem_range] at hi
  rw [axpy_getD s (hU.trans hW.symm) i (by omega)]
  cases tableGet E.fixes.fix i <;> simp

theorem valuesOf_axpy (axs : List (Axis K)) (dof : Nat) (u w : List Int → Nat → ℝ) (s : ℝ) (e : List Int) :
    valuesOf false axs dof (fun x c => u x c + s * w x c) e = axpy (valuesOf false axs dof u e) s (valuesOf false axs dof w e) := by
  unfold valuesOf axpy
  induction indices (nens axs) with
  | nil => rfl
  | cons t l ih =>
    simp only [List.flatMap_cons]
    rw [List.zipWith_append (by simp), ih, List.zipWith_map, List.zipWith_self]

theorem withValues_length (U : List ℝ) : (withValues E U).length = E.n := by simp [withValues]
theorem withoutRates_length (U : List ℝ) : (withoutRates E U).length = E.n := by simp [withoutRates]

theorem pointSum_deriv (qs : List (QP ℝ P)) (r : ℝ → P → ℝ) (r' : P → ℝ) (h : ∀ q ∈ qs, HasDerivAt (fun s => r s q.data) (r' q.data) 0) :
    HasDerivAt (fun s => pointSum qs (r s)) (pointSum qs r') 0 := by
  unfold pointSum
  exact hasDerivAt_sum _ _ _ fun q hq => (h q hq).mul_const _

theorem integral_deriv (E : Elt ℝ P) (r : ℝ → P → ℝ) (r' : P → ℝ)
    (h : ∀ side, ∀ q ∈ E.points side, HasDerivAt (fun s => r s q.data) (r' q.data) 0) :
    HasDerivAt (fun s => integral E (r s)) (integral E r') 0 := by
  unfold integral
  refine (hasDerivAt_sum _ _ _ fun b _ => ?_).fun_add (pointSum_deriv _ _ _ (h none))
  by_cases hb : OnSide E b
  · simp only [if_pos hb]; exact pointSum_deriv _ _ _ (h _)
  · simp only [if_neg hb]; exact hasDerivAt_const _ _

theorem integral_sum (E : Elt ℝ P) (k : Nat → P → ℝ) (w : Nat → ℝ) (n : Nat) :
    integral E (fun p => ((List.range n).map fun j => k j p * w j).sum) =
      ((List.range n).map fun j => integral E (k j) * w j).sum := by
  have hp : ∀ qs : List (QP ℝ P), pointSum qs (fun p => ((List.range n).map fun j => k j p * w j).sum) =
      ((List.range n).map fun j => pointSum qs (k j) * w j).sum := by
    intro qs
    unfold pointSum
    simp only [sum_mul]
    rw [sum_swap]
    congr 1; apply List.map_congr_left; intro j _
    congr 1; apply List.map_congr_left; intro q _
    ring
  unfold integral
  simp only [hp, add_mul, List.sum_map_add, sum_mul]
  congr 1
  rw [sum_swap]
  congr 1; apply List.map_congr_left; intro b _
  by_cases hb : OnSide E b <;> simp [hb]

/-- The derivative of an element residual is the element Jacobian times the direction. -/
theorem residual_deriv (E : Elt ℝ P) (r : ℝ → P → Int → ℝ) (k : P → Int → ℝ) (U W : List ℝ) (hU : U.length = E.n)
    (hW : W.length = E.n)
    (h : ∀ side, ∀ q ∈ E.points side, ∀ i : Nat, i < E.n → HasDerivAt (fun s => r s q.data i)
      ((List.range E.n).map fun (j : Nat) => k q.data (i * E.n + j) * (withoutRates E W).getD j 0).sum 0) (i : Nat) (hi : i < E.n) :
    HasDerivAt (fun s => residualAt E (axpy U s W) (r s) i)
      ((List.range E.n).map fun (j : Nat) => jacobianAt E k i j * W.getD j 0).sum 0 := by
  unfold residualAt jacobianAt
  cases hf : tableGet E.fixes.fix i with
  | some v =>
    have e : ((List.range E.n).map fun (j : Nat) => (if ((some v).isSome = true ∨ (tableGet E.fixes.fix j).isSome = true) then
        (if i = j then 1 else 0) else integral E fun p => k p (i * E.n + j)) * W.getD j 0).sum = W.getD i 0 := by
      rw [sum_single E.n i hi]
      · simp
      · intro j _ hj; simp [Ne.symm hj]
    rw [e]
    dsimp only
    have : (fun s => (axpy U s W).getD i 0 - v) = fun s => U.getD i 0 + s * W.getD i 0 - v := by
      funext s; rw [axpy_getD s (hU.trans hW.symm) i (by omega)]
    rw [this]
    have h1 := (((hasDerivAt_id (0:ℝ)).mul_const (W.getD i 0)).const_add (U.getD i 0)).sub_const v
    simpa using h1
  | none =>
    dsimp only
    have e : ((List.range E.n).map fun (j : Nat) => (if ((none : Option ℝ).isSome = true ∨ (tableGet E.fixes.fix j).isSome = true) then
        (if i = j then 1 else 0) else integral E fun p => k p (i * E.n + j)) * W.getD j 0).sum =
        integral E (fun p => ((List.range E.n).map fun (j : Nat) => k p (i * E.n + j) * (withoutRates E W).getD j 0).sum) := by
      rw [integral_sum E (fun j p => k p (i * E.n + j))]
      congr 1; apply List.map_congr_left; intro j hj
      rw [List.mem_range] at hj
      have hg : (withoutRates E W).getD j 0 = if (tableGet E.fixes.fix j).isSome then 0 else W.getD j 0 := by
        unfold withoutRates
        rw [List.getD_eq_getElem?_getD, List.getElem?_map, List.getElem?_range hj]
        rfl
      rw [hg]
      by_cases hj : (tableGet E.fixes.fix j).isSome = true
      · rw [if_pos (Or.inr hj), if_pos hj, mul_zero]
        have : i ≠ j := by rintro rfl; rw [hf] at hj; simp at hj
        rw [if_neg this, zero_mul]
      · rw [if_neg (by simpa using hj), if_neg hj]
    rw [e]
    exact (integral_deriv E (fun s p => r s p i) _ fun side q hq => h side q hq i hi).sub_const _

/-! ### C78 -/

/-- `a` is the derivative at `s = 0` of the family `f s` of nodal fields which depends on `s` through `u + s w`: every
component of the derivative at every node is the row of `a` times `w`. -/
def IsDerivative (axs : List (Axis K)) (dof : Nat) (f : ℝ → List Int → Nat → ℝ) (a : List Int → Nat → List Int → Nat → ℝ)
    (w : List Int → Nat → ℝ) : Prop :=
  ∀ z (c : Nat), InBox (axs.map Axis.nnp) z → c < dof → HasDerivAt (fun s => f s z c)
    ((indices (axs.map Axis.nnp)).map fun y => ((List.range dof).map fun d => a z c y d * w y d).sum).sum 0

/-- The field `u + s w`. -/
def along (u : List Int → Nat → ℝ) (s : ℝ) (w : List Int → Nat → ℝ) : List Int → Nat → ℝ := fun x c => u x c + s * w x c

theorem valuesOf_along (axs : List (Axis K)) (dof : Nat) (u w : List Int → Nat → ℝ) (s : ℝ) (e : List Int) :
    valuesOf false axs dof (along u s w) e = axpy (valuesOf false axs dof u e) s (valuesOf false axs dof w e) :=
  valuesOf_axpy axs dof u w s e

/-- Row `i` of the `n × n` array `k` times `W`. -/
def rowTimes (n : Nat) (k : Int → ℝ) (i : Nat) (W : List ℝ) : ℝ :=
  ((List.range n).map fun (j : Nat) => k (i * n + j) * W.getD j 0).sum

theorem residualAt_eq {E : Elt V P} {U : List V} {R : P → Int → V} {F : Int → V} (h : IsResidual E U R F) (i : Nat) (hi : i < E.n) :
    F i = residualAt E U R i := h i hi

theorem jacobianAt_eq {E : Elt V P} {k : P → Int → V} {J : Int → V} (h : IsJacobian E k J) (i j : Nat) (hi : i < E.n) (hj : j < E.n) :
    J (i * E.n + j) = jacobianAt E k i j := h i j hi hj

theorem represents_pair {W W' : Type} {gv : Int → W} {gu : Int → W'} {v : List Int → Nat → W} {u : List Int → Nat → W'} {dof : Nat}
    (hv : Represents axs Ls dof gv v) (hu : Represents axs Ls dof gu u) :
    Represents axs Ls dof (fun i => (gv i, gu i)) fun x c => (v x c, u x c) := by
  intro x c hx hc
  dsimp only
  rw [hv x c hx hc, hu x c hx hc]

theorem element_vec {dof : Nat} {elt : List Int → Elt V P} (hE : Elements axs dof elt) {e : List Int} (he : InBox (axs.map Axis.nel) e)
    {r : Res (Int → V)} {U : List V} {R : P → Int → V} (h : ∃ F, r = .ok F ∧ IsResidual (elt e) U R F) :
    ∃ F, entries r = .ok F ∧ ∀ i : Nat, i < unknowns axs dof → F i = residualAt (elt e) U R i := by
  obtain ⟨F, rfl, h2⟩ := h
  exact ⟨_, rfl, fun i hi => h2 i (by rw [hE.n_eq he]; exact hi)⟩

theorem element_mat {dof : Nat} {elt : List Int → Elt V P} (hE : Elements axs dof elt) {e : List Int} (he : InBox (axs.map Axis.nel) e)
    {r : Res (Int → V)} {k : P → Int → V} (h : ∃ F, r = .ok F ∧ IsJacobian (elt e) k F) :
    ∃ F, entries r = .ok F ∧ ∀ i j : Nat, i < unknowns axs dof → j < unknowns axs dof →
      F (i * unknowns axs dof + j) = jacobianAt (elt e) k i j := by
  obtain ⟨F, rfl, h2⟩ := h
  refine ⟨_, rfl, fun i j hi hj => ?_⟩
  have := h2 i j (by rw [hE.n_eq he]; exact hi) (by rw [hE.n_eq he]; exact hj)
  rw [hE.n_eq he] at this
  push_cast
  unfold jacobianAt
  rw [hE.n_eq he]
  exact this

/-- `φ` holds at all the quadrature points, in the interior and on the sides, of all the elements. -/
def AtPoints (axs : List (Axis K)) (elt : List Int → Elt ℝ P) (φ : List Int → P → Prop) : Prop :=
  ∀ e, InBox (axs.map Axis.nel) e → ∀ side, ∀ q ∈ (elt e).points side, φ e q.data

/-- **C78**, `IGAComputeFunction` and `IGAComputeJacobian`, for residuals that are differentiable only at admissible states (a
logarithm, a division): the assembled Jacobian is the derivative of the assembled residual at every field whose values are
admissible at the quadrature points. -/
theorem C78_function_at (axes axs : List (Axis K)) (dof : Nat) (elt : List Int → Elt ℝ P) (hE : Elements axs dof elt)
    (cbR cbK : P → List ℝ → (Int → ℝ) → Res (Int → ℝ)) (R k : P → List ℝ → Int → ℝ)
    (hR : ∀ U, Fills (unknowns axs dof) (fun p => cbR p U) (fun p => R p U))
    (hK : ∀ U, Fills (unknowns axs dof * unknowns axs dof) (fun p => cbK p U) (fun p => k p U))
    (Good : P → List ℝ → Prop) (hD : ∀ p U W, Good p U → U.length = unknowns axs dof → W.length = unknowns axs dof → ∀ i : Nat, i < unknowns axs dof →
      HasDerivAt (fun s => R p (axpy U s W) i) (rowTimes (unknowns axs dof) (k p U) i W) 0) :
    ∃ (f : (List Int → Nat → ℝ) → List Int → Nat → ℝ) (a : (List Int → Nat → ℝ) → List Int → Nat → List Int → Nat → ℝ),
      ∀ {g2 : Guess2} {g3 : Guess3} {size : Int} {procs : List Int} {Ls : List (Layout K)},
        Setup g2 g3 false size procs axes axs Ls →
        (∀ hist pw w vecU junk u, Represents axs Ls dof vecU u →
          (∃ F, computeFunction Ls hist dof ⟨elt, pw, w⟩ cbR vecU junk = .ok F ∧ Represents axs Ls dof F (f u)) ∧
          ∃ J, computeJacobian Ls hist dof ⟨elt, pw, w⟩ cbK vecU junk = .ok J ∧ RepresentsMat axs Ls dof J (a u)) ∧
        ∀ u, AtPoints axs elt (fun e p => Good p (withValues (elt e) (valuesOf false axs dof u e))) →
          ∀ w, IsDerivative axs dof (fun s => f (along u s w)) (a u) w := by
  refine ⟨fun u => sumVec axs dof fun e => residualAt (elt e) (valuesOf false axs dof u e)
      (fun p => R p (withValues (elt e) (valuesOf false axs dof u e))),
    fun u => sumMat axs dof fun e => jacobianAt (elt e) (fun p => k p (withValues (elt e) (valuesOf false axs dof u e))), ?_⟩
  intro g2 g3 size procs Ls S
  refine ⟨fun hist pw w vecU junk u hu => ⟨?_, ?_⟩, ?_⟩
  · refine vec_global S hist dof vecU junk u hu _ _ fun r e he => ?_
    exact element_vec hE he (C77_function (elt e) (hE e he).1 cbR R (by rw [hE.m_eq he]; exact hR) _ _ _)
  · refine mat_global S hist dof vecU junk u hu _ _ fun r e he => ?_
    exact element_mat hE he (C77_jacobian (elt e) (hE e he).1 cbK k (by rw [hE.m_eq he, hE.n_eq he]; exact hK) _ _ _)
  · intro u hu w z c _ hc
    dsimp only
    refine sumVec_deriv S dof w _ _ (fun e he i hi => ?_) z c hc
    have hn := hE.n_eq he
    simp only [valuesOf_along]
    have hl := fun u : List Int → Nat → ℝ => (valuesOf_length false axs dof u e).trans hn.symm
    rw [← hn] at hi ⊢
    refine residual_deriv (elt e) _ _ _ _ (hl u) (hl w) (fun side q hq i hi => ?_) i hi
    simp only [withValues_axpy (hl u) (hl w)]
    have := hD q.data (withValues (elt e) (valuesOf false axs dof u e)) (withoutRates (elt e) (valuesOf false axs dof w e))
      (hu e he side q hq) (by rw [withValues_length, hn]) (by rw [withoutRates_length, hn]) i (by omega)
    unfold rowTimes at this
    rw [← hn] at this
    exact this

/-- **C78**, `IGAComputeFunction` and `IGAComputeJacobian`.  If at every quadrature point the Jacobian callback returns the
derivative of the residual callback, then the assembled Jacobian is the derivative of the assembled residual, boundary
conditions included; neither depends on the decomposition, the histories of the iterators or what the work arrays
contained. -/
theorem C78_function (axes axs : List (Axis K)) (dof : Nat) (elt : List Int → Elt ℝ P) (hE : Elements axs dof elt)
    (cbR cbK : P → List ℝ → (Int → ℝ) → Res (Int → ℝ)) (R k : P → List ℝ → Int → ℝ)
    (hR : ∀ U, Fills (unknowns axs dof) (fun p => cbR p U) (fun p => R p U))
    (hK : ∀ U, Fills (unknowns axs dof * unknowns axs dof) (fun p => cbK p U) (fun p => k p U))
    (hD : ∀ p U W, U.length = unknowns axs dof → W.length = unknowns axs dof → ∀ i : Nat, i < unknowns axs dof →
      HasDerivAt (fun s => R p (axpy U s W) i) (rowTimes (unknowns axs dof) (k p U) i W) 0) :
    ∃ (f : (List Int → Nat → ℝ) → List Int → Nat → ℝ) (a : (List Int → Nat → ℝ) → List Int → Nat → List Int → Nat → ℝ),
      ∀ {g2 : Guess2} {g3 : Guess3} {size : Int} {procs : List Int} {Ls : List (Layout K)},
        Setup g2 g3 false size procs axes axs Ls →
        (∀ hist pw w vecU junk u, Represents axs Ls dof vecU u →
          (∃ F, computeFunction Ls hist dof ⟨elt, pw, w⟩ cbR vecU junk = .ok F ∧ Represents axs Ls dof F (f u)) ∧
          ∃ J, computeJacobian Ls hist dof ⟨elt, pw, w⟩ cbK vecU junk = .ok J ∧ RepresentsMat axs Ls dof J (a u)) ∧
        ∀ u w, IsDerivative axs dof (fun s => f (along u s w)) (a u) w := by
  obtain ⟨f, a, h⟩ := C78_function_at axes axs dof elt hE cbR cbK R k hR hK (fun _ _ => True) fun p U W _ => hD p U W
  exact ⟨f, a, fun S => ⟨(h S).1, fun u => (h S).2 u fun _ _ _ _ _ => trivial⟩⟩


/-- **C78**, `IGAComputeRHSFunction` and `IGAComputeRHSJacobian`. -/
theorem C78_rhsfunction (axes axs : List (Axis K)) (dof : Nat) (elt : List Int → Elt ℝ P) (hE : Elements axs dof elt)
    (cbR cbK : P → ℝ → List ℝ → (Int → ℝ) → Res (Int → ℝ)) (R k : P → ℝ → List ℝ → Int → ℝ)
    (hR : ∀ t U, Fills (unknowns axs dof) (fun p => cbR p t U) (fun p => R p t U))
    (hK : ∀ t U, Fills (unknowns axs dof * unknowns axs dof) (fun p => cbK p t U) (fun p => k p t U))
    (hD : ∀ p t U W, U.length = unknowns axs dof → W.length = unknowns axs dof → ∀ i : Nat, i < unknowns axs dof →
      HasDerivAt (fun s => R p t (axpy U s W) i) (rowTimes (unknowns axs dof) (k p t U) i W) 0) (t : ℝ) :
    ∃ (f : (List Int → Nat → ℝ) → List Int → Nat → ℝ) (a : (List Int → Nat → ℝ) → List Int → Nat → List Int → Nat → ℝ),
      ∀ {g2 : Guess2} {g3 : Guess3} {size : Int} {procs : List Int} {Ls : List (Layout K)},
        Setup g2 g3 false size procs axes axs Ls →
        (∀ hist pw w vecU junk u, Represents axs Ls dof vecU u →
          (∃ F, computeRHSFunction Ls hist dof ⟨elt, pw, w⟩ cbR t vecU junk = .ok F ∧ Represents axs Ls dof F (f u)) ∧
          ∃ J, computeRHSJacobian Ls hist dof ⟨elt, pw, w⟩ cbK t vecU junk = .ok J ∧ RepresentsMat axs Ls dof J (a u)) ∧
        ∀ u w, IsDerivative axs dof (fun s => f (along u s w)) (a u) w :=
  C78_function axes axs dof elt hE (fun p => cbR p t) (fun p => cbK p t) (fun p => R p t) (fun p => k p t) (hR t) (hK t)
    (fun p => hD p t)

/-- **C78**, `IGAComputeIFunction` and `IGAComputeIJacobian`, for residuals that are differentiable only at admissible states. -/
theorem C78_ifunction_at (axes axs : List (Axis K)) (dof : Nat) (elt : List Int → Elt ℝ P) (hE : Elements axs dof elt)
    (cbR cbK : P → ℝ → List ℝ → ℝ → List ℝ → (Int → ℝ) → Res (Int → ℝ)) (R k : P → ℝ → List ℝ → ℝ → List ℝ → Int → ℝ)
    (hR : ∀ a X t U, Fills (unknowns axs dof) (fun p => cbR p a X t U) (fun p => R p a X t U))
    (hK : ∀ a X t U, Fills (unknowns axs dof * unknowns axs dof) (fun p => cbK p a X t U) (fun p => k p a X t U))
    (Good : P → List ℝ → List ℝ → Prop) (hD : ∀ p a X t U W, Good p X U → X.length = unknowns axs dof → U.length = unknowns axs dof → W.length = unknowns axs dof → ∀ i : Nat, i < unknowns axs dof →
      HasDerivAt (fun s => R p a (axpy X (s * a) W) t (axpy U s W) i) (rowTimes (unknowns axs dof) (k p a X t U) i W) 0) (a t : ℝ) :
    ∃ (f : (List Int → Nat → ℝ) → (List Int → Nat → ℝ) → List Int → Nat → ℝ) (a' : (List Int → Nat → ℝ) → (List Int → Nat → ℝ) → List Int → Nat → List Int → Nat → ℝ),
      ∀ {g2 : Guess2} {g3 : Guess3} {size : Int} {procs : List Int} {Ls : List (Layout K)},
        Setup g2 g3 false size procs axes axs Ls →
        (∀ hist pw w vecV vecU junkV junkU v u, Represents axs Ls dof vecV v → Represents axs Ls dof vecU u →
          (∃ F, computeIFunction Ls hist dof ⟨elt, pw, w⟩ cbR a vecV t vecU junkV junkU = .ok F ∧ Represents axs Ls dof F (f v u)) ∧
          ∃ J, computeIJacobian Ls hist dof ⟨elt, pw, w⟩ cbK a vecV t vecU junkV junkU = .ok J ∧ RepresentsMat axs Ls dof J (a' v u)) ∧
        ∀ v u, AtPoints axs elt (fun e p => Good p (withoutRates (elt e) (valuesOf false axs dof v e)) (withValues (elt e) (valuesOf false axs dof u e))) →
          ∀ w, IsDerivative axs dof (fun s => f (along v (s * a) w) (along u s w)) (a' v u) w := by
  refine ⟨fun v u => sumVec axs dof fun e => residualAt (elt e) (valuesOf false axs dof u e) (fun p => R p a (withoutRates (elt e) (valuesOf false axs dof v e)) t (withValues (elt e) (valuesOf false axs dof u e))),
    fun v u => sumMat axs dof fun e => jacobianAt (elt e) (fun p => k p a (withoutRates (elt e) (valuesOf false axs dof v e)) t (withValues (elt e) (valuesOf false axs dof u e))), ?_⟩
  intro g2 g3 size procs Ls S
  refine ⟨fun hist pw w vecV vecU junkV junkU v u hv hu => ⟨?_, ?_⟩, ?_⟩
  · refine vec_global S hist dof _ _ _ (represents_pair hv hu) _ _ fun r e he => ?_
    simp only [valuesOf_map]
    exact element_vec hE he (C77_ifunction (elt e) (hE e he).1 cbR R (by rw [hE.m_eq he]; exact hR) _ _ _ _ _ _)
  · refine mat_global S hist dof _ _ _ (represents_pair hv hu) _ _ fun r e he => ?_
    simp only [valuesOf_map]
    exact element_mat hE he (C77_ijacobian (elt e) (hE e he).1 cbK k (by rw [hE.m_eq he, hE.n_eq he]; exact hK) _ _ _ _ _ _)
  · intro v u hu w z c _ hc
    dsimp only
    refine sumVec_deriv S dof w _ _ (fun e he i hi => ?_) z c hc
    have hn := hE.n_eq he
    simp only [valuesOf_along]
    have hl := fun u : List Int → Nat → ℝ => (valuesOf_length false axs dof u e).trans hn.symm
    rw [← hn] at hi ⊢
    refine residual_deriv (elt e) _ _ _ _ (hl u) (hl w) (fun side q hq i hi => ?_) i hi
    simp only [withValues_axpy (hl u) (hl w), withoutRates_axpy (hl v) (hl w)]
    have := hD q.data a (withoutRates (elt e) (valuesOf false axs dof v e)) t (withValues (elt e) (valuesOf false axs dof u e)) (withoutRates (elt e) (valuesOf false axs dof w e)) (hu e he side q hq) (by rw [withoutRates_length, hn]) (by rw [withValues_length, hn])
      (by rw [withoutRates_length, hn]) i (by omega)
    unfold rowTimes at this
    rw [← hn] at this
    exact this

/-- **C78**, `IGAComputeIFunction` and `IGAComputeIJacobian`: the callback returns `∂R/∂U + a ∂R/∂V`, so
does the assembled Jacobian. -/
theorem C78_ifunction (axes axs : List (Axis K)) (dof : Nat) (elt : List Int → Elt ℝ P) (hE : Elements axs dof elt)
    (cbR cbK : P → ℝ → List ℝ → ℝ → List ℝ → (Int → ℝ) → Res (Int → ℝ)) (R k : P → ℝ → List ℝ → ℝ → List ℝ → Int → ℝ)
    (hR : ∀ a X t U, Fills (unknowns axs dof) (fun p => cbR p a X t U) (fun p => R p a X t U))
    (hK : ∀ a X t U, Fills (unknowns axs dof * unknowns axs dof) (fun p => cbK p a X t U) (fun p => k p a X t U))
    (hD : ∀ p a X t U W, X.length = unknowns axs dof → U.length = unknowns axs dof → W.length = unknowns axs dof → ∀ i : Nat, i < unknowns axs dof →
      HasDerivAt (fun s => R p a (axpy X (s * a) W) t (axpy U s W) i) (rowTimes (unknowns axs dof) (k p a X t U) i W) 0) (a t : ℝ) :
    ∃ (f : (List Int → Nat → ℝ) → (List Int → Nat → ℝ) → List Int → Nat → ℝ) (a' : (List Int → Nat → ℝ) → (List Int → Nat → ℝ) → List Int → Nat → List Int → Nat → ℝ),
      ∀ {g2 : Guess2} {g3 : Guess3} {size : Int} {procs : List Int} {Ls : List (Layout K)},
        Setup g2 g3 false size procs axes axs Ls →
        (∀ hist pw w vecV vecU junkV junkU v u, Represents axs Ls dof vecV v → Represents axs Ls dof vecU u →
          (∃ F, computeIFunction Ls hist dof ⟨elt, pw, w⟩ cbR a vecV t vecU junkV junkU = .ok F ∧ Represents axs Ls dof F (f v u)) ∧
          ∃ J, computeIJacobian Ls hist dof ⟨elt, pw, w⟩ cbK a vecV t vecU junkV junkU = .ok J ∧ RepresentsMat axs Ls dof J (a' v u)) ∧
        ∀ v u w, IsDerivative axs dof (fun s => f (along v (s * a) w) (along u s w)) (a' v u) w := by
  obtain ⟨f, a', h⟩ := C78_ifunction_at axes axs dof elt hE cbR cbK R k hR hK (fun _ _ _ => True) (fun p a X t U W _ => hD p a X t U W) a t
  exact ⟨f, a', fun S => ⟨(h S).1, fun v u => (h S).2 v u fun _ _ _ _ _ => trivial⟩⟩


/-- **C78**, `IGAComputeIEFunction` and `IGAComputeIEJacobian`: the previous state `u0` is a constant. -/
theorem C78_iefunction (axes axs : List (Axis K)) (dof : Nat) (elt : List Int → Elt ℝ P) (hE : Elements axs dof elt)
    (cbR cbK : P → ℝ → List ℝ → ℝ → List ℝ → ℝ → List ℝ → (Int → ℝ) → Res (Int → ℝ)) (R k : P → ℝ → List ℝ → ℝ → List ℝ → ℝ → List ℝ → Int → ℝ)
    (hR : ∀ a X t U t0 U0, Fills (unknowns axs dof) (fun p => cbR p a X t U t0 U0) (fun p => R p a X t U t0 U0))
    (hK : ∀ a X t U t0 U0, Fills (unknowns axs dof * unknowns axs dof) (fun p => cbK p a X t U t0 U0) (fun p => k p a X t U t0 U0))
    (hD : ∀ p a X t U t0 U0 W, X.length = unknowns axs dof → U.length = unknowns axs dof →
      U0.length = unknowns axs dof → W.length = unknowns axs dof → ∀ i : Nat, i < unknowns axs dof →
      HasDerivAt (fun s => R p a (axpy X (s * a) W) t (axpy U s W) t0 U0 i) (rowTimes (unknowns axs dof) (k p a X t U t0 U0) i W) 0) (a t t0 : ℝ) :
    ∃ (f : (List Int → Nat → ℝ) → (List Int → Nat → ℝ) → (List Int → Nat → ℝ) → List Int → Nat → ℝ) (a' : (List Int → Nat → ℝ) → (List Int → Nat → ℝ) → (List Int → Nat → ℝ) → List Int → Nat → List Int → Nat → ℝ),
      ∀ {g2 : Guess2} {g3 : Guess3} {size : Int} {procs : List Int} {Ls : List (Layout K)},
        Setup g2 g3 false size procs axes axs Ls →
        (∀ hist pw w vecV vecU vecU0 junkV junkU junkU0 v u u0, Represents axs Ls dof vecV v → Represents axs Ls dof vecU u → Represents axs Ls dof vecU0 u0 →
          (∃ F, computeIEFunction Ls hist dof ⟨elt, pw, w⟩ cbR a vecV t vecU t0 vecU0 junkV junkU junkU0 = .ok F ∧ Represents axs Ls dof F (f v u u0)) ∧
          ∃ J, computeIEJacobian Ls hist dof ⟨elt, pw, w⟩ cbK a vecV t vecU t0 vecU0 junkV junkU junkU0 = .ok J ∧ RepresentsMat axs Ls dof J (a' v u u0)) ∧
        ∀ v u u0 w, IsDerivative axs dof (fun s => f (along v (s * a) w) (along u s w) u0) (a' v u u0) w := by
  refine ⟨fun v u u0 => sumVec axs dof fun e => residualAt (elt e) (valuesOf false axs dof u e) (fun p => R p a (withoutRates (elt e) (valuesOf false axs dof v e)) t (withValues (elt e) (valuesOf false axs dof u e)) t0 (withValues (elt e) (valuesOf false axs dof u0 e))),
    fun v u u0 => sumMat axs dof fun e => jacobianAt (elt e) (fun p => k p a (withoutRates (elt e) (valuesOf false axs dof v e)) t (withValues (elt e) (valuesOf false axs dof u e)) t0 (withValues (elt e) (valuesOf false axs dof u0 e))), ?_⟩
  intro g2 g3 size procs Ls S
  refine ⟨fun hist pw w vecV vecU vecU0 junkV junkU junkU0 v u u0 hv hu hu0 => ⟨?_, ?_⟩, ?_⟩
  · refine vec_global S hist dof _ _ _ (represents_pair hv (represents_pair hu hu0)) _ _ fun r e he => ?_
    simp only [valuesOf_map]
    exact element_vec hE he (C77_iefunction (elt e) (hE e he).1 cbR R (by rw [hE.m_eq he]; exact hR) _ _ _ _ _ _ _ _)
  · refine mat_global S hist dof _ _ _ (represents_pair hv (represents_pair hu hu0)) _ _ fun r e he => ?_
    simp only [valuesOf_map]
    exact element_mat hE he (C77_iejacobian (elt e) (hE e he).1 cbK k (by rw [hE.m_eq he, hE.n_eq he]; exact hK) _ _ _ _ _ _ _ _)
  · intro v u u0 w z c _ hc
    dsimp only
    refine sumVec_deriv S dof w _ _ (fun e he i hi => ?_) z c hc
    have hn := hE.n_eq he
    simp only [valuesOf_along]
    have hl := fun u : List Int → Nat → ℝ => (valuesOf_length false axs dof u e).trans hn.symm
    rw [← hn] at hi ⊢
    refine residual_deriv (elt e) _ _ _ _ (hl u) (hl w) (fun side q hq i hi => ?_) i hi
    simp only [withValues_axpy (hl u) (hl w), withoutRates_axpy (hl v) (hl w)]
    have := hD q.data a (withoutRates (elt e) (valuesOf false axs dof v e)) t (withValues (elt e) (valuesOf false axs dof u e)) t0 (withValues (elt e) (valuesOf false axs dof u0 e)) (withoutRates (elt e) (valuesOf false axs dof w e)) (by rw [withoutRates_length, hn]) (by rw [withValues_length, hn]) (by rw [withValues_length, hn])
      (by rw [withoutRates_length, hn]) i (by omega)
    unfold rowTimes at this
    rw [← hn] at this
    exact this

/-- **C78**, `IGAComputeI2Function` and `IGAComputeI2Jacobian`: the callback returns
`∂R/∂U + v ∂R/∂V + a ∂R/∂A`, so does the assembled Jacobian. -/
theorem C78_i2function (axes axs : List (Axis K)) (dof : Nat) (elt : List Int → Elt ℝ P) (hE : Elements axs dof elt)
    (cbR cbK : P → ℝ → List ℝ → ℝ → List ℝ → ℝ → List ℝ → (Int → ℝ) → Res (Int → ℝ)) (R k : P → ℝ → List ℝ → ℝ → List ℝ → ℝ → List ℝ → Int → ℝ)
    (hR : ∀ a X b Y t U, Fills (unknowns axs dof) (fun p => cbR p a X b Y t U) (fun p => R p a X b Y t U))
    (hK : ∀ a X b Y t U, Fills (unknowns axs dof * unknowns axs dof) (fun p => cbK p a X b Y t U) (fun p => k p a X b Y t U))
    (hD : ∀ p a X b Y t U W, X.length = unknowns axs dof → Y.length = unknowns axs dof →
      U.length = unknowns axs dof → W.length = unknowns axs dof → ∀ i : Nat, i < unknowns axs dof →
      HasDerivAt (fun s => R p a (axpy X (s * a) W) b (axpy Y (s * b) W) t (axpy U s W) i) (rowTimes (unknowns axs dof) (k p a X b Y t U) i W) 0) (a b t : ℝ) :
    ∃ (f : (List Int → Nat → ℝ) → (List Int → Nat → ℝ) → (List Int → Nat → ℝ) → List Int → Nat → ℝ) (a' : (List Int → Nat → ℝ) → (List Int → Nat → ℝ) → (List Int → Nat → ℝ) → List Int → Nat → List Int → Nat → ℝ),
      ∀ {g2 : Guess2} {g3 : Guess3} {size : Int} {procs : List Int} {Ls : List (Layout K)},
        Setup g2 g3 false size procs axes axs Ls →
        (∀ hist pw w vecA vecV vecU junkA junkV junkU x v u, Represents axs Ls dof vecA x → Represents axs Ls dof vecV v → Represents axs Ls dof vecU u →
          (∃ F, computeI2Function Ls hist dof ⟨elt, pw, w⟩ cbR a vecA b vecV t vecU junkA junkV junkU = .ok F ∧ Represents axs Ls dof F (f x v u)) ∧
          ∃ J, computeI2Jacobian Ls hist dof ⟨elt, pw, w⟩ cbK a vecA b vecV t vecU junkA junkV junkU = .ok J ∧ RepresentsMat axs Ls dof J (a' x v u)) ∧
        ∀ x v u w, IsDerivative axs dof (fun s => f (along x (s * a) w) (along v (s * b) w) (along u s w)) (a' x v u) w := by
  refine ⟨fun x v u => sumVec axs dof fun e => residualAt (elt e) (valuesOf false axs dof u e) (fun p => R p a (withoutRates (elt e) (valuesOf false axs dof x e)) b (withoutRates (elt e) (valuesOf false axs dof v e)) t (withValues (elt e) (valuesOf false axs dof u e))),
    fun x v u => sumMat axs dof fun e => jacobianAt (elt e) (fun p => k p a (withoutRates (elt e) (valuesOf false axs dof x e)) b (withoutRates (elt e) (valuesOf false axs dof v e)) t (withValues (elt e) (valuesOf false axs dof u e))), ?_⟩
  intro g2 g3 size procs Ls S
  refine ⟨fun hist pw w vecA vecV vecU junkA junkV junkU x v u hx hv hu => ⟨?_, ?_⟩, ?_⟩
  · refine vec_global S hist dof _ _ _ (represents_pair hx (represents_pair hv hu)) _ _ fun r e he => ?_
    simp only [valuesOf_map]
    exact element_vec hE he (C77_i2function (elt e) (hE e he).1 cbR R (by rw [hE.m_eq he]; exact hR) _ _ _ _ _ _ _ _)
  · refine mat_global S hist dof _ _ _ (represents_pair hx (represents_pair hv hu)) _ _ fun r e he => ?_
    simp only [valuesOf_map]
    exact element_mat hE he (C77_i2jacobian (elt e) (hE e he).1 cbK k (by rw [hE.m_eq he, hE.n_eq he]; exact hK) _ _ _ _ _ _ _ _)
  · intro x v u w z c _ hc
    dsimp only
    refine sumVec_deriv S dof w _ _ (fun e he i hi => ?_) z c hc
    have hn := hE.n_eq he
    simp only [valuesOf_along]
    have hl := fun u : List Int → Nat → ℝ => (valuesOf_length false axs dof u e).trans hn.symm
    rw [← hn] at hi ⊢
    refine residual_deriv (elt e) _ _ _ _ (hl u) (hl w) (fun side q hq i hi => ?_) i hi
    simp only [withValues_axpy (hl u) (hl w), withoutRates_axpy (hl x) (hl w), withoutRates_axpy (hl v) (hl w)]
    have := hD q.data a (withoutRates (elt e) (valuesOf false axs dof x e)) b (withoutRates (elt e) (valuesOf false axs dof v e)) t (withValues (elt e) (valuesOf false axs dof u e)) (withoutRates (elt e) (valuesOf false axs dof w e)) (by rw [withoutRates_length, hn]) (by rw [withoutRates_length, hn]) (by rw [withValues_length, hn])
      (by rw [withoutRates_length, hn]) i (by omega)
    unfold rowTimes at this
    rw [← hn] at this
    exact this

/-! ### Non-vacuity -/

/-- The elements of the 4 processes example of C51 (`exSetup`): a constrained unknown and a load in element `(0,0)`, a
point inside and one on each visited side. -/
noncomputable def exElts (e : List Int) : Elt ℝ Unit where
  index := 0
  neq := (indices (nens exAxs)).length
  nen := (indices (nens exAxs)).length
  dof := 1
  fixes := if e = [0, 0] then ⟨[(0, 5)], [(1, 7)]⟩ else ⟨[], []⟩
  id := e
  sizes := exAxs.map Axis.nel
  visit := fun i _ => i == 0
  points := fun _ => [⟨1/2, 2, ()⟩]

theorem exUnknowns : unknowns exAxs 1 = 6 := by decide +kernel

theorem exElts_elements : Elements exAxs 1 exElts := by
  intro e _
  have h : (exElts e).n = 6 := exUnknowns
  refine ⟨⟨le_refl _, rfl, ?_, ?_⟩, rfl, rfl⟩ <;> rw [h] <;> unfold exElts <;> dsimp only <;> split_ifs <;>
    exact ⟨by simp, by simp⟩

/-- A diagonal array. -/
noncomputable def diag (n : Nat) (g : Nat → ℝ) (q : Int) : ℝ := if q / n = q % n then g (q % n).toNat else 0

theorem rowTimes_diag (n : Nat) (g : Nat → ℝ) (i : Nat) (hi : i < n) (W : List ℝ) : rowTimes n (diag n g) i W = g i * W.getD i 0 := by
  have e : ∀ j : Nat, j < n → (((i:Int) * n + j) / n = i ∧ ((i:Int) * n + j) % n = j) := by
    intro j hj
    constructor
    · rw [Int.add_comm, Int.add_mul_ediv_right _ _ (by omega), Int.ediv_eq_zero_of_lt (by omega) (by omega), Int.zero_add]
    · rw [Int.add_comm, Int.add_mul_emod_self_right, Int.emod_eq_of_lt (by omega) (by omega)]
  unfold rowTimes
  rw [sum_single n i hi]
  · unfold diag; rw [(e i hi).1, (e i hi).2, if_pos rfl]; simp
  · intro j hj hne
    unfold diag
    rw [(e j hj).1, (e j hj).2, if_neg (by omega), zero_mul]

theorem fills_self (m : Nat) (R : P → Int → ℝ) : Fills m (fun p A => Res.ok fun i => A i + R p i) R := by
  intro p A hA
  exact ⟨_, rfl, fun i h0 h1 => by rw [hA i h0 h1, zero_add]⟩

theorem square_deriv {U W : List ℝ} {n i : Nat} (hU : U.length = n) (hW : W.length = n) (hi : i < n) :
    HasDerivAt (fun s => (axpy U s W).getD i 0 * (axpy U s W).getD i 0) (2 * U.getD i 0 * W.getD i 0) 0 := by
  have : (fun s => (axpy U s W).getD i 0 * (axpy U s W).getD i 0) =
      fun s => (U.getD i 0 + s * W.getD i 0) * (U.getD i 0 + s * W.getD i 0) := by
    funext s; rw [axpy_getD s (hU.trans hW.symm) i (by omega)]
  rw [this]
  have h1 : HasDerivAt (fun s : ℝ => U.getD i 0 + s * W.getD i 0) (1 * W.getD i 0) 0 :=
    ((hasDerivAt_id (0:ℝ)).mul_const (W.getD i 0)).const_add (U.getD i 0)
  have h2 := h1.fun_mul h1
  exact h2.congr_deriv (by ring)

theorem linear_deriv {X W : List ℝ} {n i : Nat} (a : ℝ) (hX : X.length = n) (hW : W.length = n) (hi : i < n) :
    HasDerivAt (fun s => (axpy X (s * a) W).getD i 0) (a * W.getD i 0) 0 := by
  have : (fun s => (axpy X (s * a) W).getD i 0) = fun s => X.getD i 0 + s * (a * W.getD i 0) := by
    funext s; rw [axpy_getD _ (hX.trans hW.symm) i (by omega)]; ring
  rw [this]
  simpa using ((hasDerivAt_id (0:ℝ)).mul_const (a * W.getD i 0)).const_add (X.getD i 0)

/-- The residual `R_i = u_i²`, nonlinear, with Jacobian `2 u_i δ_ij`. -/
example : ∃ Ls : List (Layout Rat), Setup exactGuess2 exactGuess3 false 4 [2,2] [exAx0, exAx1] exAxs Ls ∧
    ∃ (f : (List Int → Nat → ℝ) → List Int → Nat → ℝ) (a : (List Int → Nat → ℝ) → List Int → Nat → List Int → Nat → ℝ),
      (∀ hist pw w vecU junk u, Represents exAxs Ls 1 vecU u → ∃ F, computeFunction Ls hist 1 ⟨exElts, pw, w⟩
        (fun _ U A => .ok fun i => A i + U.getD i.toNat 0 * U.getD i.toNat 0) vecU junk = .ok F ∧ Represents exAxs Ls 1 F (f u)) ∧
      ∀ u w, IsDerivative exAxs 1 (fun s => f (along u s w)) (a u) w := by
  obtain ⟨Ls, S⟩ := exSetup exactGuess2 exactGuess3
  obtain ⟨f, a, h⟩ := C78_function [exAx0, exAx1] exAxs 1 exElts exElts_elements _ _
    (fun _ U i => U.getD i.toNat 0 * U.getD i.toNat 0) (fun _ U => diag (unknowns exAxs 1) fun i => 2 * U.getD i 0)
    (fun U => fills_self _ _) (fun U => fills_self _ _) (by
      intro p U W hU hW i hi
      rw [rowTimes_diag _ _ i hi]
      exact square_deriv hU hW hi)
  exact ⟨Ls, S, f, a, fun hist pw w vecU junk u hu => ((h S).1 hist pw w vecU junk u hu).1, (h S).2⟩

/-- `R_i = u_i² + v_i` with `K = (2 u_i + a) δ_ij`. -/
example : ∃ (cbR cbK : Unit → ℝ → List ℝ → ℝ → List ℝ → (Int → ℝ) → Res (Int → ℝ)) (R k : Unit → ℝ → List ℝ → ℝ → List ℝ → Int → ℝ),
    (∀ a X t U, Fills (unknowns exAxs 1) (fun p => cbR p a X t U) (fun p => R p a X t U)) ∧
    (∀ a X t U, Fills (unknowns exAxs 1 * unknowns exAxs 1) (fun p => cbK p a X t U) (fun p => k p a X t U)) ∧
    ∀ p a X t U W, X.length = unknowns exAxs 1 → U.length = unknowns exAxs 1 → W.length = unknowns exAxs 1 → ∀ i : Nat,
      i < unknowns exAxs 1 → HasDerivAt (fun s => R p a (axpy X (s * a) W) t (axpy U s W) i)
        (rowTimes (unknowns exAxs 1) (k p a X t U) i W) 0 := by
  refine ⟨_, _, fun _ _ X _ U i => U.getD i.toNat 0 * U.getD i.toNat 0 + X.getD i.toNat 0,
    fun _ a _ _ U => diag (unknowns exAxs 1) fun i => 2 * U.getD i 0 + a, fun a X t U => fills_self _ _, fun a X t U => fills_self _ _, ?_⟩
  intro p a X t U W hX hU hW i hi
  rw [rowTimes_diag _ _ i hi, add_mul]
  exact (square_deriv hU hW hi).fun_add (linear_deriv a hX hW hi)

/-- `R_i = u_i² + v_i u0_i` with `K = (2 u_i + a u0_i) δ_ij`. -/
example (p : Unit) (a : ℝ) (X U U0 W : List ℝ) (hX : X.length = 6) (hU : U.length = 6) (hW : W.length = 6) (i : Nat)
    (hi : i < 6) : HasDerivAt (fun s => (fun (_ : Unit) (_ : ℝ) (X : List ℝ) (_ : ℝ) (U : List ℝ) (_ : ℝ) (U0 : List ℝ) (i : Int) =>
      U.getD i.toNat 0 * U.getD i.toNat 0 + X.getD i.toNat 0 * U0.getD i.toNat 0) p a (axpy X (s * a) W) 0 (axpy U s W) 0 U0 i)
      (rowTimes 6 (diag 6 fun i => 2 * U.getD i 0 + a * U0.getD i 0) i W) 0 := by
  rw [rowTimes_diag _ _ i hi, add_mul]
  exact ((square_deriv hU hW hi).fun_add ((linear_deriv a hX hW hi).mul_const (U0.getD i 0))).congr_deriv (by ring)

/-- `R_i = u_i² + 3 v_i + 2 a_i` with `K = (2 u_i + 3 b + 2 a) δ_ij`. -/
example (p : Unit) (a b : ℝ) (X Y U W : List ℝ) (hX : X.length = 6) (hY : Y.length = 6) (hU : U.length = 6) (hW : W.length = 6)
    (i : Nat) (hi : i < 6) : HasDerivAt (fun s => (fun (_ : Unit) (_ : ℝ) (X : List ℝ) (_ : ℝ) (Y : List ℝ) (_ : ℝ) (U : List ℝ) (i : Int) =>
      U.getD i.toNat 0 * U.getD i.toNat 0 + Y.getD i.toNat 0 * 3 + X.getD i.toNat 0 * 2) p a (axpy X (s * a) W) b (axpy Y (s * b) W) 0
        (axpy U s W) i)
      (rowTimes 6 (diag 6 fun i => 2 * U.getD i 0 + 3 * b + 2 * a) i W) 0 := by
  rw [rowTimes_diag _ _ i hi, add_mul, add_mul]
  exact (((square_deriv hU hW hi).fun_add ((linear_deriv b hY hW hi).mul_const 3)).fun_add
    ((linear_deriv a hX hW hi).mul_const 2)).congr_deriv (by ring)

end PetIGA.Drv
