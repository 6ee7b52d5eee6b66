import Verif.Lemmas.Continuity
import Verif.Props.BSplineReal
import Verif.Props.Axis
import Verif.Props.ProbeEval
import Mathlib.Analysis.Calculus.ContDiff.Operations
/-
C96: discrete fields are as smooth across the elements as the multiplicities of the knots say.
-/
set_option linter.unusedSectionVars false
namespace PetIGA.Spec

/-- No value strictly inside the domain `[U p, U (M-p)]` occurs more than `μ` times in the knot vector `U 0, …, U M`. -/
def MultAtMost (p M : Int) (U : Int → ℝ) (μ : Nat) : Prop :=
  ∀ i, 0 ≤ i → i + μ ≤ M → U p < U i → U (i+μ) < U (M-p) → U i < U (i+μ)

/-- The spline with coefficients `f`: the sum over all `n` B-splines of degree `p`. -/
noncomputable def spline1 (U : Int → ℝ) (p n : Nat) (f : List Int → ℝ) (x : Fin 1 → ℝ) : ℝ :=
  ∑ a : Fin n, f [(a.val:Int)] * bspline U p (a.val:Int) (x 0)

/-- The tensor product spline on two knot vectors. -/
noncomputable def spline2 (U V : Int → ℝ) (p q n m : Nat) (f : List Int → ℝ) (x : Fin 2 → ℝ) : ℝ :=
  ∑ a : Fin n × Fin m, f [(a.1.val:Int), (a.2.val:Int)] * (bspline U p (a.1.val:Int) (x 0) * bspline V q (a.2.val:Int) (x 1))

/-- The tensor product spline on three knot vectors. -/
noncomputable def spline3 (U V W : Int → ℝ) (p q s n m l : Nat) (f : List Int → ℝ) (x : Fin 3 → ℝ) : ℝ :=
  ∑ a : Fin n × Fin m × Fin l, f [(a.1.val:Int), (a.2.1.val:Int), (a.2.2.val:Int)] *
    (bspline U p (a.1.val:Int) (x 0) * bspline V q (a.2.1.val:Int) (x 1) * bspline W s (a.2.2.val:Int) (x 2))

end PetIGA.Spec

namespace PetIGA.Bsp
open Polynomial PetIGA.Spec

variable {p : Nat} {M : Int} {U : Int → ℝ} {μ : Nat} {x : ℝ}

theorem bspline_near (hs : SortedKnots M U) (hm : MultAtMost p M U μ) (hμ : μ ≤ p) (hM : (p:Int) ≤ M - p) (h0 : U p < x) (h1 : x < U (M-p)) :
    ∃ k k', IsElement p M U k ∧ IsElement p M U k' ∧ U k < x ∧ x ≤ U (k+1) ∧ U k' ≤ x ∧ x < U (k'+1) ∧
      (∀ i, 0 ≤ i → i + p + 1 ≤ M → bspline U p i =ᶠ[nhds x] glue (piece U k p i) (piece U k' p i) x) ∧
      ∀ i, ∀ t, t ≤ p - μ → (derivative^[t] (piece U k p i)).eval x = (derivative^[t] (piece U k' p i)).eval x := by
  obtain ⟨k, k', e, e', hk, a1, a2, b1, b2, hx⟩ := spans_at hs (by omega) hM h0 h1
  refine ⟨k, k', e, e', a1, a2, b1, b2, ?_, ?_⟩
  · intro i hi him
    filter_upwards [Ioo_mem_nhds a1 b2] with v hv
    unfold glue
    split_ifs with hvx
    · exact (C13_pieces_are_bsplines p M k U hs e i hi him v hv.1.le (lt_of_lt_of_le hvx a2)).symm
    · exact (C13_pieces_are_bsplines p M k' U hs e' i hi him v (b1.trans (not_lt.1 hvx)) hv.2).symm
  · intro i t ht
    have hmul : k' - k ≤ μ := by
      by_contra hc
      have e1 := hx (k+1) (by omega) (by omega)
      have e2 := hx (k+1+μ) (by omega) (by omega)
      have := hm (k+1) (by have := e.1; omega) (by have := e'.2.1; omega) (by rw [e1]; exact h0) (by rw [e2]; exact h1)
      rw [e1, e2] at this
      exact lt_irrefl _ this
    exact deriv_jump U k k' x hx (ne_of_lt a1) (ne_of_gt b2) hk p
      (sep_of_sorted hs e.1 (by have := e.2.1; omega) e.2.2) (sep_of_sorted hs e'.1 (by have := e'.2.1; omega) e'.2.2) t (by omega) i

/-- A B-spline is `p-μ` times continuously differentiable inside the domain. -/
theorem bspline_contDiffAt (hs : SortedKnots M U) (hm : MultAtMost p M U μ) (hμ : μ ≤ p) (hM : (p:Int) ≤ M - p) (h0 : U p < x)
    (h1 : x < U (M-p)) {i : Int} (hi : 0 ≤ i) (him : i + p + 1 ≤ M) : ContDiffAt ℝ ((p - μ : Nat) : WithTop ℕ∞) (bspline U p i) x := by
  obtain ⟨k, k', -, -, -, -, -, -, hE, hD⟩ := bspline_near hs hm hμ hM h0 h1
  exact ((glue_contDiff x (p-μ) _ _ (hD i)).contDiffAt).congr_of_eventuallyEq (hE i hi him)

/-- The derivatives of a B-spline are those of its polynomial piece on any element touching the point. -/
theorem bspline_iteratedDeriv (hs : SortedKnots M U) (hm : MultAtMost p M U μ) (hμ : μ ≤ p) (hM : (p:Int) ≤ M - p) (h0 : U p < x)
    (h1 : x < U (M-p)) {i : Int} (hi : 0 ≤ i) (him : i + p + 1 ≤ M) {k : Int} (hk : IsElement p M U k) (hk0 : U k ≤ x) (hk1 : x ≤ U (k+1))
    {t : Nat} (ht : t ≤ p - μ) : iteratedDeriv t (bspline U p i) x = (derivative^[t] (piece U k p i)).eval x := by
  obtain ⟨a, b, ea, eb, a1, a2, b1, b2, hE, hD⟩ := bspline_near hs hm hμ hM h0 h1
  have mono : ∀ {i j : Int}, 0 ≤ i → i ≤ j → j ≤ M → U i ≤ U j := fun h h' h'' => Ax.sorted_mono hs h h' h''
  have hp0 : (0:Int) ≤ p := by omega
  have hk' : k = a ∨ k = b := by
    obtain ⟨k1, k2, k3⟩ := hk
    rcases lt_or_eq_of_le hk1 with h | h
    · right
      rcases lt_trichotomy k b with hl | hl | hl
      · have := mono (i := k+1) (j := b) (by omega) (by omega) (by have := eb.2.1; omega)
        exact absurd (lt_of_lt_of_le h (this.trans b1)) (lt_irrefl _)
      · exact hl
      · have := mono (i := b+1) (j := k) (by have := eb.1; omega) (by omega) (by omega)
        exact absurd (lt_of_lt_of_le b2 (this.trans hk0)) (lt_irrefl _)
    · left
      have hkx : U k < x := by rw [h]; exact k3
      rcases lt_trichotomy k a with hl | hl | hl
      · have := mono (i := k+1) (j := a) (by omega) (by omega) (by have := ea.2.1; omega)
        rw [← h] at this
        exact absurd (lt_of_lt_of_le a1 this) (lt_irrefl _)
      · exact hl
      · have := mono (i := a+1) (j := k) (by have := ea.1; omega) (by omega) (by omega)
        exact absurd (lt_of_le_of_lt (a2.trans this) hkx) (lt_irrefl _)
  rw [(hE i hi him).iteratedDeriv_eq t, glue_iteratedDeriv x t _ _ (fun s hs => hD i s (by omega))]
  have : glue (derivative^[t] (piece U a p i)) (derivative^[t] (piece U b p i)) x x = (derivative^[t] (piece U b p i)).eval x :=
    if_neg (lt_irrefl x)
  rw [this]
  rcases hk' with rfl | rfl
  · exact (hD i t ht).symm
  · rfl

/-! ### Sums over the functions of an element -/

/-- A sum over all functions of which only those of the element count. -/
theorem sum_span {n p : Nat} {k : Int} (F : Int → ℝ) (h0 : (p:Int) ≤ k) (h1 : k + 1 ≤ n) (hz : ∀ i, i < k - p ∨ k < i → F i = 0) :
    ∑ i : Fin n, F (i.val:Int) = ∑ a : Fin (p+1), F (k - p + (a.val:Int)) := by
  rw [Fin.sum_univ_eq_sum_range (fun i => F (i:Int)) n, Fin.sum_univ_eq_sum_range (fun a => F (k - p + (a:Int))) (p+1)]
  obtain ⟨s, hs⟩ := Int.eq_ofNat_of_zero_le (show 0 ≤ k - p by omega)
  obtain ⟨r, rfl⟩ : ∃ r, n = s + (p+1) + r := ⟨n - (s + (p+1)), by omega⟩
  rw [Finset.sum_range_add, Finset.sum_range_add, Finset.sum_eq_zero (s := Finset.range s), Finset.sum_eq_zero (s := Finset.range r), zero_add, add_zero]
  · refine Finset.sum_congr rfl fun a _ => ?_
    rw [hs]; congr 1
  · intro i _
    exact hz _ (by push_cast; omega)
  · intro i hi
    have := Finset.mem_range.1 hi
    exact hz _ (by omega)

/-- Iterated partial derivatives of a sum of products. -/
theorem pdl_tensor {d : Nat} {ι : Type} [Fintype ι] (c : ι → ℝ) (g : Fin d → ι → ℝ → ℝ) (I : Fin d → Set ℝ) (hI : ∀ j, IsOpen (I j)) :
    ∀ (l : List (Fin d)), (∀ j a, ContDiffOn ℝ ((l.count j : Nat) : WithTop ℕ∞) (g j a) (I j)) → ∀ x : Fin d → ℝ, (∀ j, x j ∈ I j) →
      pdl l (fun z => ∑ a, c a * ∏ j, g j a (z j)) x = ∑ a, c a * ∏ j, iteratedDeriv (l.count j) (g j a) (x j)
  | [], _, x, _ => by simp [pdl]
  | i :: l, hg, x, hx => by
    have ih := pdl_tensor c g I hI l (fun j a => (hg j a).of_le (by
      have : l.count j ≤ (i :: l).count j := List.count_le_count_cons
      exact_mod_cast this))
    show deriv (fun t => pdl l (fun z => ∑ a, c a * ∏ j, g j a (z j)) (Function.update x i t)) (x i) = _
    have e : (fun t => pdl l (fun z => ∑ a, c a * ∏ j, g j a (z j)) (Function.update x i t)) =ᶠ[nhds (x i)]
        fun t => ∑ a, c a * (iteratedDeriv (l.count i) (g i a) t * ∏ j ∈ Finset.univ.erase i, iteratedDeriv (l.count j) (g j a) (x j)) := by
      filter_upwards [(hI i).mem_nhds (hx i)] with t ht
      rw [ih (Function.update x i t)]
      · refine Finset.sum_congr rfl fun a _ => ?_
        rw [← Finset.mul_prod_erase Finset.univ _ (Finset.mem_univ i)]
        congr 2
        · rw [Function.update_self]
        · refine Finset.prod_congr rfl fun j hj => ?_
          rw [Function.update_of_ne (Finset.ne_of_mem_erase hj)]
      · intro j
        by_cases h : j = i
        · subst h; rwa [Function.update_self]
        · rw [Function.update_of_ne h]; exact hx j
    rw [e.deriv_eq]
    have hd : ∀ a, HasDerivAt (iteratedDeriv (l.count i) (g i a)) (iteratedDeriv (l.count i + 1) (g i a) (x i)) (x i) := by
      intro a
      rw [iteratedDeriv_succ]
      refine DifferentiableAt.hasDerivAt ?_
      have h := (hg i a).contDiffAt ((hI i).mem_nhds (hx i))
      rw [List.count_cons_self] at h
      have h' := (h.contDiffWithinAt (s := Set.univ)).differentiableWithinAt_iteratedDerivWithin (m := l.count i)
        (by exact_mod_cast Nat.lt_succ_self _) (by rw [Set.insert_eq_of_mem (Set.mem_univ _)]; exact uniqueDiffOn_univ)
      rwa [iteratedDerivWithin_univ, differentiableWithinAt_univ] at h'
    have := HasDerivAt.fun_sum (u := Finset.univ) fun (a : ι) _ => ((hd a).mul_const (∏ j ∈ Finset.univ.erase i, iteratedDeriv (l.count j) (g j a) (x j))).const_mul (c a)
    rw [this.deriv]
    refine Finset.sum_congr rfl fun a _ => ?_
    rw [← Finset.mul_prod_erase Finset.univ _ (Finset.mem_univ i), List.count_cons_self]
    congr 2
    refine Finset.prod_congr rfl fun j hj => ?_
    rw [List.count_cons_of_ne (Ne.symm (Finset.ne_of_mem_erase hj))]

/-- An axis with `n` functions of degree `p` and a legal knot vector in which the knots inside the domain have multiplicity
at most `μ`. -/
structure SmoothAxis (ax : Ax.Axis ℝ) (p n μ : Nat) : Prop where
  deg : ax.p = p
  num : (n:Int) = ax.m - ax.p
  legal : LegalKnots ax.p ax.m ax.U
  mult : MultAtMost ax.p ax.m ax.U μ
  le : μ ≤ p

/-- The inside of the parametric domain. -/
def inside (ax : Ax.Axis ℝ) : Set ℝ := Set.Ioo (ax.U ax.p) (ax.U (ax.m - ax.p))

namespace SmoothAxis
variable {ax : Ax.Axis ℝ} {p n μ : Nat}

theorem contDiffOn (A : SmoothAxis ax p n μ) {r : Nat} (hr : r ≤ p - μ) (i : Fin n) :
    ContDiffOn ℝ (r : WithTop ℕ∞) (bspline ax.U p (i.val:Int)) (inside ax) := by
  obtain ⟨a, b, c, d, e⟩ := A
  have hm := c.enough
  rw [a] at b c d hm
  intro x hx
  unfold inside at hx
  rw [a] at hx
  have := i.isLt
  exact ((bspline_contDiffAt c.sorted d e (by omega) hx.1 hx.2 (i := (i.val:Int)) (by omega) (by omega)).of_le (by exact_mod_cast hr)).contDiffWithinAt

theorem iter (A : SmoothAxis ax p n μ) {x : ℝ} (hx : x ∈ inside ax) {k : Int} (hk : IsElement ax.p ax.m ax.U k) (hk0 : ax.U k ≤ x)
    (hk1 : x ≤ ax.U (k+1)) {t : Nat} (ht : t ≤ p - μ) (i : Fin n) :
    iteratedDeriv t (bspline ax.U p (i.val:Int)) x = (derivative^[t] (piece ax.U k p (i.val:Int))).eval x := by
  obtain ⟨a, b, c, d, e⟩ := A
  have hm := c.enough
  unfold inside at hx
  rw [a] at b c d hm hx hk
  have := i.isLt
  exact bspline_iteratedDeriv c.sorted d e (by omega) hx.1 hx.2 (by omega) (by omega) hk hk0 hk1 ht

/-- Sums over all functions reduce to the functions of the element. -/
theorem sum (A : SmoothAxis ax p n μ) {x : ℝ} (hx : x ∈ inside ax) {k : Int} (hk : IsElement ax.p ax.m ax.U k) (hk0 : ax.U k ≤ x)
    (hk1 : x ≤ ax.U (k+1)) {t : Nat} (ht : t ≤ p - μ) (F : Int → ℝ) :
    ∑ i : Fin n, F (i.val:Int) * iteratedDeriv t (bspline ax.U p (i.val:Int)) x
      = ∑ a : Fin (p+1), F (k - p + (a.val:Int)) * iteratedDeriv t (Prb.pieces ax.U k p a) x := by
  have h1 : ∀ i : Fin n, F (i.val:Int) * iteratedDeriv t (bspline ax.U p (i.val:Int)) x
      = (fun j : Int => F j * (derivative^[t] (piece ax.U k p j)).eval x) (i.val:Int) := fun i => by
    rw [A.iter hx hk hk0 hk1 ht i]
  have e1 := A.deg
  have e2 := A.num
  have e3 := hk.1
  have e4 := hk.2.1
  rw [Finset.sum_congr rfl fun i _ => h1 i, sum_span (k := k) (p := p) (fun j : Int => F j * (derivative^[t] (piece ax.U k p j)).eval x) (by omega) (by omega)]
  · refine Finset.sum_congr rfl fun a _ => ?_
    show _ = F (k - p + (a.val:Int)) * iteratedDeriv t (fun y => (piece ax.U k p (k - p + (a.val:Int))).eval y) x
    rw [iteratedDeriv_eval]
  · intro i hi
    rw [piece_zero ax.U k p i hi, iterate_derivative_zero, eval_zero, mul_zero]

end SmoothAxis

/-! ### The property -/

/-- **C96**: a spline is `p-μ` times continuously differentiable inside the domain, in particular across the boundaries of the
elements, if the knots there have multiplicity at most `μ`. -/
theorem C96_smooth_1d {ax : Ax.Axis ℝ} {p n μ : Nat} (A : SmoothAxis ax p n μ) (f : List Int → ℝ) :
    ContDiffOn ℝ ((p - μ : Nat) : WithTop ℕ∞) (spline1 ax.U p n f) {x | x 0 ∈ inside ax} := by
  unfold spline1
  refine ContDiffOn.sum fun a _ => ContDiffOn.mul contDiffOn_const ?_
  exact (A.contDiffOn (le_refl _) a).comp (contDiff_apply ℝ ℝ (0 : Fin 1)).contDiffOn fun x hx => hx

/-- **C96** in two dimensions. -/
theorem C96_smooth_2d {ax bx : Ax.Axis ℝ} {p n μ q m ν : Nat} (A : SmoothAxis ax p n μ) (B : SmoothAxis bx q m ν) (f : List Int → ℝ)
    (r : Nat) (h1 : r ≤ p - μ) (h2 : r ≤ q - ν) :
    ContDiffOn ℝ (r : WithTop ℕ∞) (spline2 ax.U bx.U p q n m f) {x | x 0 ∈ inside ax ∧ x 1 ∈ inside bx} := by
  unfold spline2
  refine ContDiffOn.sum fun a _ => ContDiffOn.mul contDiffOn_const (ContDiffOn.mul ?_ ?_)
  · exact (A.contDiffOn h1 a.1).comp (contDiff_apply ℝ ℝ (0 : Fin 2)).contDiffOn fun x hx => hx.1
  · exact (B.contDiffOn h2 a.2).comp (contDiff_apply ℝ ℝ (1 : Fin 2)).contDiffOn fun x hx => hx.2

/-- **C96** in three dimensions. -/
theorem C96_smooth_3d {ax bx cx : Ax.Axis ℝ} {p n μ q m ν s l ρ : Nat} (A : SmoothAxis ax p n μ) (B : SmoothAxis bx q m ν)
    (D : SmoothAxis cx s l ρ) (f : List Int → ℝ) (r : Nat) (h1 : r ≤ p - μ) (h2 : r ≤ q - ν) (h3 : r ≤ s - ρ) :
    ContDiffOn ℝ (r : WithTop ℕ∞) (spline3 ax.U bx.U cx.U p q s n m l f) {x | x 0 ∈ inside ax ∧ x 1 ∈ inside bx ∧ x 2 ∈ inside cx} := by
  unfold spline3
  refine ContDiffOn.sum fun a _ => ContDiffOn.mul contDiffOn_const (ContDiffOn.mul (ContDiffOn.mul ?_ ?_) ?_)
  · exact (A.contDiffOn h1 a.1).comp (contDiff_apply ℝ ℝ (0 : Fin 3)).contDiffOn fun x hx => hx.1
  · exact (B.contDiffOn h2 a.2.1).comp (contDiff_apply ℝ ℝ (1 : Fin 3)).contDiffOn fun x hx => hx.2.1
  · exact (D.contDiffOn h3 a.2.2).comp (contDiff_apply ℝ ℝ (2 : Fin 3)).contDiffOn fun x hx => hx.2.2

/-- **C96**, the tables.  At a point `u` inside the domain, the derivative of order `t ≤ p-μ` that is computed with the table of
any element whose closure contains `u` is the derivative of the spline at `u`; so the two elements meeting at a knot give
the same. -/
theorem C96_tables {ax : Ax.Axis ℝ} {p n μ : Nat} (A : SmoothAxis ax p n μ) (J : Junk ℝ) (F : Int → ℝ) {u : ℝ} (hu : u ∈ inside ax) {k : Int}
    (hk : IsElement ax.p ax.m ax.U k) (hk0 : ax.U k ≤ u) (hk1 : u ≤ ax.U (k+1)) (t : Nat) (ht : t ≤ p - μ) (ht4 : t ≤ 4) :
    ∑ a : Fin (p+1), F (k - p + (a.val:Int)) * basis J k u p (min p 4) ax.U t (a.val:Int)
      = iteratedDeriv t (fun v => ∑ i : Fin n, F (i.val:Int) * bspline ax.U p (i.val:Int) v) u := by
  have hf : iteratedDeriv t (fun v => ∑ i : Fin n, F (i.val:Int) * bspline ax.U p (i.val:Int) v) u
      = ∑ i : Fin n, F (i.val:Int) * iteratedDeriv t (bspline ax.U p (i.val:Int)) u := by
    have hc : ∀ i : Fin n, ContDiffAt ℝ (t : WithTop ℕ∞) (bspline ax.U p (i.val:Int)) u := fun i =>
      (A.contDiffOn ht i).contDiffAt (isOpen_Ioo.mem_nhds hu)
    rw [iteratedDeriv_fun_sum fun i _ => contDiffAt_const.mul (hc i)]
    refine Finset.sum_congr rfl fun i _ => ?_
    rw [iteratedDeriv_const_mul _ (hc i)]
  rw [hf, A.sum hu hk hk0 hk1 ht]
  refine Finset.sum_congr rfl fun a _ => ?_
  have hk' := hk
  rw [A.deg] at hk'
  rw [C13_library_call J p ax.m k ax.U u A.legal.sorted hk' a.val (by omega) t ht4]
  show _ = F (k - p + (a.val:Int)) * iteratedDeriv t (fun y => (piece ax.U k p (k - p + (a.val:Int))).eval y) u
  rw [iteratedDeriv_eval]

/-! ### Axes made by the library -/

theorem mult_of_init {ax ax' : Ax.Axis ℝ} {r C : Int} {u : Int → ℝ} (G : Ax.GoodInit ax ax' r C u) (hr : 1 ≤ r) (hC : 0 ≤ C) (hCp : C < ax.p)
    (hu : ∀ i, 0 ≤ i → i < r → u i < u (i+1)) {p n μ : Nat} (hp : ax.p = p) (hμ : (μ:Int) = ax.p - C) (hn : (n:Int) = ax'.m - ax.p) : SmoothAxis ax' p n μ := by
  have hsort := G.legal.sorted
  refine ⟨by rw [G.kept.1, hp], by rw [G.kept.1]; exact hn, by rw [G.kept.1]; exact G.legal, ?_, by omega⟩
  rw [G.kept.1]
  have mono : ∀ {i j : Int}, 0 ≤ i → i ≤ j → j ≤ ax'.m → ax'.U i ≤ ax'.U j := fun h h' h'' => Ax.sorted_mono hsort h h' h''
  intro i h0 h1 h2 h3
  have hlen := G.len
  have hi : ax.p < i := by
    by_contra hc
    exact absurd h2 (not_lt.2 (mono h0 (by omega) (by omega)))
  have hj : i + μ < ax'.m - ax.p := by
    by_contra hc
    exact absurd h3 (not_lt.2 (mono (by omega) (by omega) (by omega)))
  rw [← hμ] at hlen
  -- the element among the knots `i, …, i+μ-1`
  obtain ⟨t, ht0, ht1⟩ : ∃ t : Nat, i ≤ ax.p + t * μ ∧ ax.p + t * μ < i + (μ:Int) := by
    have hμ0 : (0:Int) < μ := by omega
    refine ⟨((i - ax.p + μ - 1) / μ).toNat, ?_, ?_⟩
    · rw [Int.toNat_of_nonneg (Int.ediv_nonneg (by omega) (by omega))]
      have := Int.emod_add_mul_ediv (i - ax.p + μ - 1) μ
      have := Int.emod_lt_of_pos (i - ax.p + μ - 1) hμ0
      rw [mul_comm (((i - ax.p + μ - 1) / (μ:Int)))]
      omega
    · rw [Int.toNat_of_nonneg (Int.ediv_nonneg (by omega) (by omega))]
      have := Int.emod_add_mul_ediv (i - ax.p + μ - 1) μ
      have := Int.emod_nonneg (i - ax.p + μ - 1) (show (μ:Int) ≠ 0 by omega)
      rw [mul_comm (((i - ax.p + μ - 1) / (μ:Int)))]
      omega
  have htr : (t:Int) < r := by
    by_contra hc
    have : (r-1) * (μ:Int) ≤ (t-1) * (μ:Int) := Int.mul_le_mul_of_nonneg_right (by omega) (by omega)
    have e : ((t:Int)-1) * (μ:Int) = t * μ - μ := by ring
    omega
  obtain ⟨k, hk, e1, e2⟩ := G.elem t htr
  rw [G.mult t htr, ← hμ] at hk
  obtain rfl : ax.p + t * (μ:Int) = k := by simpa using hk
  have := hu t (by omega) htr
  calc ax'.U i ≤ ax'.U (ax.p + t * μ) := mono h0 ht0 (by omega)
    _ = u t := e1
    _ < u (t+1) := this
    _ = ax'.U (ax.p + t * μ + 1) := e2.symm
    _ ≤ ax'.U (i + μ) := mono (by omega) (by omega) (by omega)

/-- **C96**, the axes made by `IGAAxisInitUniform` with continuity `C` (the default is `p-1`): the knots inside the domain have
multiplicity at most `p-C`, so splines are `C` times continuously differentiable inside the domain. -/
theorem C96_uniform (mem : Int → ℝ) (ax : Ax.Axis ℝ) (N : Int) (Ui Uf : ℝ) (C : Int) (h : (Ax.initUniform mem ax N Ui Uf C).1 = .ok ()) :
    ∃ p n c : Nat, ax.p = p ∧ (c:Int) = (if C = Ax.PETSC_DECIDE then ax.p - 1 else C) ∧ c < p ∧
      SmoothAxis (Ax.initUniform mem ax N Ui Uf C).2 p n (p - c) ∧ inside (Ax.initUniform mem ax N Ui Uf C).2 = Set.Ioo Ui Uf ∧
      ∀ f, ContDiffOn ℝ (c : WithTop ℕ∞) (spline1 (Ax.initUniform mem ax N Ui Uf C).2.U p n f) {x | x 0 ∈ Set.Ioo Ui Uf} := by
  have G := Ax.C07_initUniform mem ax N Ui Uf C h
  obtain ⟨C', e, h1, h2, h3, h4, h5, -⟩ := Ax.initUniform_ok h
  rw [← e] at G ⊢
  obtain ⟨p, hp⟩ := Int.eq_ofNat_of_zero_le (show 0 ≤ ax.p by omega)
  obtain ⟨c, hc⟩ := Int.eq_ofNat_of_zero_le h3
  have hen := G.legal.enough
  obtain ⟨n, hn⟩ := Int.eq_ofNat_of_zero_le (show 0 ≤ (Ax.initUniform mem ax N Ui Uf C).2.m - ax.p by omega)
  have hu : ∀ i : Int, 0 ≤ i → i < N → Ui + (i:ℝ)/(N:ℝ) * (Uf-Ui) < Ui + ((i+1 : Int):ℝ)/(N:ℝ) * (Uf-Ui) := by
    intro i _ _
    rw [← Ax.uniformBreak_eq h2, ← Ax.uniformBreak_eq h2]
    exact Ax.uniformBreak_lt h2 h5 i (i+1) (by omega)
  have A := mult_of_init G h2 h3 h4 hu (p := p) (n := n) (μ := p - c) hp (by omega) hn.symm
  have hN : (N:ℝ) ≠ 0 := by exact_mod_cast (show N ≠ 0 by omega)
  have hI : inside (Ax.initUniform mem ax N Ui Uf C).2 = Set.Ioo Ui Uf := by
    unfold inside
    rw [G.kept.1, G.dom.1, G.dom.2]
    simp [div_self hN]
  refine ⟨p, n, c, hp, hc.symm, by omega, A, hI, fun f => ?_⟩
  have := C96_smooth_1d A f
  rwa [hI, show p - (p - c) = c by omega] at this

/-- **C96**, the axes made by `IGAAxisInitBreaks`. -/
theorem C96_breaks (mem : Int → ℝ) (ax : Ax.Axis ℝ) (nu : Int) (u : Int → ℝ) (C : Int) (h : (Ax.initBreaks mem ax nu u C).1 = .ok ()) :
    ∃ p n c : Nat, ax.p = p ∧ (c:Int) = (if C = Ax.PETSC_DECIDE then ax.p - 1 else C) ∧ c < p ∧
      SmoothAxis (Ax.initBreaks mem ax nu u C).2 p n (p - c) ∧ inside (Ax.initBreaks mem ax nu u C).2 = Set.Ioo (u 0) (u (nu-1)) ∧
      ∀ f, ContDiffOn ℝ (c : WithTop ℕ∞) (spline1 (Ax.initBreaks mem ax nu u C).2.U p n f) {x | x 0 ∈ Set.Ioo (u 0) (u (nu-1))} := by
  have G := Ax.C07_initBreaks mem ax nu u C h
  obtain ⟨C', e, h1, h2, h3, h4, h5, -⟩ := Ax.initBreaks_ok h
  rw [← e] at G ⊢
  obtain ⟨p, hp⟩ := Int.eq_ofNat_of_zero_le (show 0 ≤ ax.p by omega)
  obtain ⟨c, hc⟩ := Int.eq_ofNat_of_zero_le h3
  have hen := G.legal.enough
  obtain ⟨n, hn⟩ := Int.eq_ofNat_of_zero_le (show 0 ≤ (Ax.initBreaks mem ax nu u C).2.m - ax.p by omega)
  have A := mult_of_init G (by omega) h3 h4 (fun i a b => h5 i (i+1) a (by omega) (by omega)) (p := p) (n := n) (μ := p - c) hp (by omega) hn.symm
  have hI : inside (Ax.initBreaks mem ax nu u C).2 = Set.Ioo (u 0) (u (nu-1)) := by
    unfold inside
    rw [G.kept.1, G.dom.1, G.dom.2]
  refine ⟨p, n, c, hp, hc.symm, by omega, A, hI, fun f => ?_⟩
  have := C96_smooth_1d A f
  rwa [hI, show p - (p - c) = c by omega] at this

/-! ### Periodic axes -/

/-- The knots of an axis, continued periodically: shifting by `N` knots adds `T`. -/
noncomputable def extend (U : Int → ℝ) (N : Int) (T : ℝ) (j : Int) : ℝ := U (j % N) + ((j / N : Int) : ℝ) * T

theorem extend_add (U : Int → ℝ) {N : Int} (hN : 1 ≤ N) (T : ℝ) (j : Int) : extend U N T (j + N) = extend U N T j + T := by
  unfold extend
  rw [Int.add_emod_right, Int.add_ediv_of_dvd_right (dvd_refl N), Int.ediv_self (by omega)]
  push_cast
  ring

theorem extend_eq {U : Int → ℝ} {N m : Int} (hN : 1 ≤ N) {T : ℝ} (h : ∀ j, 0 ≤ j → j + N ≤ m → U (j + N) = U j + T) {j : Int} (h0 : 0 ≤ j) (h1 : j ≤ m) :
    extend U N T j = U j := by
  have key : ∀ (b : Nat) (a : Int), 0 ≤ a → a + b * N ≤ m → U (a + b * N) = U a + (b:ℝ) * T := by
    intro b
    induction b with
    | zero => intro a _ _; simp
    | succ b ih =>
      intro a ha hb
      push_cast at hb ⊢
      have e : a + ((b:Int) + 1) * N = a + b * N + N := by ring
      have hbN : 0 ≤ (b:Int) * N := Int.mul_nonneg (by omega) (by omega)
      rw [e] at hb ⊢
      rw [h _ (by omega) hb, ih a ha (by omega)]
      ring
  unfold extend
  have h2 := Int.emod_add_mul_ediv j N
  have h3 : 0 ≤ j / N := Int.ediv_nonneg h0 (by omega)
  obtain ⟨b, hb⟩ := Int.eq_ofNat_of_zero_le h3
  rw [hb] at h2 ⊢
  rw [mul_comm] at h2
  have := key b (j % N) (Int.emod_nonneg _ (by omega)) (by rw [h2]; exact h1)
  rw [h2] at this
  rw [this]
  push_cast
  ring

/-- **C96**, the ends of a periodic axis.  If shifting by `N` knots (the number of nodes) shifts the knots by the length of
the domain, and the coefficients repeat after `N`, then all derivatives of order at most `p-μ` that are computed with the table
of the last element at the right end equal those of the first element at the left end; `μ = p + N - (m-p-1)` is the
multiplicity of the knot there. -/
theorem C96_ends (J : Junk ℝ) (p : Nat) (m N : Int) (U : Int → ℝ) (hl : LegalKnots p m U) (hN : 1 ≤ N) (h1 : U p < U (p+1)) (h2 : U (m-p-1) < U (m-p))
    (hper : ∀ j, 0 ≤ j → j + N ≤ m → U (j + N) = U j + (U (m-p) - U p)) (hpN : p + N ≤ m) (hNp : m - p - 1 ≤ p + N)
    (F : Int → ℝ) (hF : ∀ i, F (i + N) = F i) (t : Nat) (ht : t + (p + N - (m - p - 1)) ≤ p) (ht4 : t ≤ 4) :
    ∑ a : Fin (p+1), F (m - p - 1 - p + (a.val:Int)) * basis J (m-p-1) (U (m-p)) p (min p 4) U t (a.val:Int)
      = ∑ a : Fin (p+1), F (a.val:Int) * basis J p (U p) p (min p 4) U t (a.val:Int) := by
  have hen := hl.enough
  have hs := hl.sorted
  set T := U (m-p) - U p with hT
  have mono : ∀ {i j : Int}, 0 ≤ i → i ≤ j → j ≤ m → U i ≤ U j := fun h h' h'' => Ax.sorted_mono hs h h' h''
  have agree : ∀ {j : Int}, 0 ≤ j → j ≤ m → extend U N T j = U j := fun a b => extend_eq hN hper a b
  have el1 : IsElement p m U (m-p-1) := ⟨by omega, by omega, by rw [show m - p - 1 + 1 = m - p by ring]; exact h2⟩
  have el0 : IsElement p m U p := ⟨le_refl _, by omega, h1⟩
  have sep1 := sep_of_sorted hs el1.1 (by omega) el1.2.2
  have sep0 := sep_of_sorted hs el0.1 (by omega) el0.2.2
  have hUpN : U (p + N) = U (m-p) := by rw [hper p (by omega) hpN, hT]; ring
  -- the jump at the right end on the continued knots
  have hj : ∀ i, (derivative^[t] (piece (extend U N T) (m-p-1) p i)).eval (U (m-p)) = (derivative^[t] (piece (extend U N T) (p+N) p i)).eval (U (m-p)) := by
    intro i
    refine deriv_jump _ _ _ _ ?_ ?_ ?_ hNp p ?_ ?_ t ht i
    · intro j a b
      rw [agree (by omega) (by omega)]
      refine le_antisymm ?_ (mono (by omega) (by omega) (by omega))
      rw [← hUpN]
      exact mono (by omega) b hpN
    · rw [agree (by omega) (by omega)]
      exact ne_of_lt h2
    · rw [show (p:Int) + N + 1 = (p + 1) + N by ring, extend_add U hN, agree (by omega) (by omega), hT]
      intro h
      linarith
    · intro a b ha hb hc hd
      rw [agree (by omega) (by omega), agree (by omega) (by omega)]
      exact sep1 a b ha hb hc hd
    · intro a b ha hb hc hd
      have e1 := extend_add U hN T (a - N)
      have e2 := extend_add U hN T (b - N)
      rw [sub_add_cancel, agree (j := a - N) (by omega) (by omega)] at e1
      rw [sub_add_cancel, agree (j := b - N) (by omega) (by omega)] at e2
      rw [e1, e2]
      intro h
      exact sep0 (a - N) (b - N) (by omega) (by omega) (by omega) (by omega) (add_right_cancel h)
  obtain ⟨n, hn⟩ := Int.eq_ofNat_of_zero_le (show 0 ≤ p + N + 1 by omega)
  have s1 := sum_span (n := n) (p := p) (k := m-p-1) (fun i => F i * (derivative^[t] (piece (extend U N T) (m-p-1) p i)).eval (U (m-p))) (by omega) (by omega)
    (fun i hi => by rw [piece_zero _ _ p i hi, iterate_derivative_zero, eval_zero, mul_zero])
  have s2 := sum_span (n := n) (p := p) (k := p+N) (fun i => F i * (derivative^[t] (piece (extend U N T) (p+N) p i)).eval (U (m-p))) (by omega) (by omega)
    (fun i hi => by rw [piece_zero _ _ p i hi, iterate_derivative_zero, eval_zero, mul_zero])
  rw [Finset.sum_congr rfl fun i _ => by rw [hj]] at s1
  have s3 := s1.symm.trans s2
  refine Eq.trans (Finset.sum_congr rfl fun a _ => ?_) (s3.trans (Finset.sum_congr rfl fun a _ => ?_))
  · rw [C13_library_call J p m (m-p-1) U _ hs el1 a.val (by omega) t ht4]
    have := deriv_shift (extend U N T) U (m-p-1) 0 0 p (m-p-1-p+(a.val:Int)) (fun j a b => by
      rw [add_zero, add_zero]; exact agree (by omega) (by omega)) t (U (m-p))
    rw [add_zero, add_zero, add_zero] at this
    rw [this]
  · rw [C13_library_call J p m p U _ hs el0 a.val (by omega) t ht4]
    have := deriv_shift (extend U N T) U p N T p (a.val:Int) (fun j c d => by
      rw [extend_add U hN, agree (by omega) (by omega)]) t (U p)
    rw [show (p:Int) + N - p + (a.val:Int) = a.val + N by ring, hF, show (p:Int) - p + (a.val:Int) = a.val by ring, ← this]
    congr 2
    rw [hT]; ring

/-- **C96** for periodic axes made by `IGAAxisInitUniform` with continuity `C`: all derivatives of order at most `C` of fields
match at the two ends of the domain. -/
theorem C96_periodic (J : Junk ℝ) (mem : Int → ℝ) (ax : Ax.Axis ℝ) (N : Int) (Ui Uf : ℝ) (C : Int) (hax : ax.periodic = true)
    (h : (Ax.initUniform mem ax N Ui Uf C).1 = .ok ()) (p c : Nat) (hp : ax.p = p) (hc : (c:Int) = if C = Ax.PETSC_DECIDE then ax.p - 1 else C)
    (F : Int → ℝ) (hF : ∀ i, F (i + (Ax.initUniform mem ax N Ui Uf C).2.nnp) = F i) (t : Nat) (ht : t ≤ c) (ht4 : t ≤ 4) :
    let ax' := (Ax.initUniform mem ax N Ui Uf C).2
    ∑ a : Fin (p+1), F (ax'.m - p - 1 - p + (a.val:Int)) * basis J (ax'.m - p - 1) Uf p (min p 4) ax'.U t (a.val:Int)
      = ∑ a : Fin (p+1), F (a.val:Int) * basis J p Ui p (min p 4) ax'.U t (a.val:Int) := by
  have G := Ax.C07_initUniform mem ax N Ui Uf C h
  obtain ⟨hnnp, htr⟩ := Ax.C08_initUniform_periodic mem ax N Ui Uf C hax h
  obtain ⟨C', e, h1, h2, h3, h4, h5, -⟩ := Ax.initUniform_ok h
  rw [← e] at G hc hnnp
  generalize (Ax.initUniform mem ax N Ui Uf C).2 = ax' at *
  dsimp only
  have hlen := G.len
  have hN0 : (N:ℝ) ≠ 0 := by exact_mod_cast (show N ≠ 0 by omega)
  have d0 : ax'.U p = Ui := by rw [← hp, G.dom.1]; simp
  have d1 : ax'.U (ax'.m - p) = Uf := by rw [← hp, G.dom.2]; simp [div_self hN0]
  have hleg := G.legal
  rw [hp] at hleg
  rw [hp, ← hc] at hnnp hlen
  have q1 : ∀ i : Nat, (i:Int) < N → ax'.U (p + i * (p - c)) < ax'.U (p + i * (p - c) + 1) := by
    intro i hi
    obtain ⟨k, hk, e1, e2⟩ := G.elem i hi
    rw [G.mult i hi, hp, ← hc] at hk
    obtain rfl : (p:Int) + i * ((p:Int) - c) = k := by simpa using hk
    rw [e1, e2, ← Ax.uniformBreak_eq h2, ← Ax.uniformBreak_eq h2]
    exact Ax.uniformBreak_lt h2 h5 i (i+1) (by omega)
  have hlast : ax'.m - p - 1 = p + (N-1) * (p - c) := by omega
  have hexp : (N - 1) * ((p:Int) - c) = N * (p - c) - (p - c) := by ring
  have := C96_ends J p ax'.m ax'.nnp ax'.U hleg (by rw [hnnp]; nlinarith) (by simpa using q1 0 (by omega))
    (by
      have := q1 (N-1).toNat (by omega)
      rw [Int.toNat_of_nonneg (by omega), ← hlast, show ax'.m - (p:Int) - 1 + 1 = ax'.m - p by ring] at this
      exact this)
    (by rw [d0, d1]; exact htr) (by omega) (by omega) F hF t (by omega) ht4
  rw [d0, d1] at this
  exact this

/-- The knots `0 0 0 1 2 3 3 3`. -/
noncomputable def exSmooth : Int → ℝ := fun i => if i ≤ 2 then 0 else if i = 3 then 1 else if i = 4 then 2 else 3

/-- Non-vacuity: quadratic splines on `0 0 0 1 2 3 3 3`. -/
theorem exSmooth_axis : SmoothAxis { Ax.create (fun _ => (0:ℝ)) with p := 2, m := 7, U := exSmooth } 2 5 1 := by
  have hs : SortedKnots 7 exSmooth := by
    intro i h0 h1
    unfold exSmooth
    split_ifs <;> first | omega | norm_num
  refine ⟨rfl, rfl, ⟨by norm_num, by norm_num, hs, ?_⟩, ?_, by omega⟩
  · intro i h0 h1
    dsimp only at h1 ⊢
    unfold exSmooth
    split_ifs <;> first | omega | norm_num
  · intro i h0 h1 h2 h3
    dsimp only at h1 h2 h3 ⊢
    have i1 : 2 < i := by
      by_contra hc
      unfold exSmooth at h2
      rw [if_pos (by norm_num), if_pos (by omega)] at h2
      exact lt_irrefl _ h2
    push_cast at h1 h3 ⊢
    have i2 : i < 4 := by
      by_contra hc
      unfold exSmooth at h3
      rw [if_neg (by omega), if_neg (by omega), if_neg (by omega)] at h3
      norm_num at h3
    obtain rfl : i = 3 := by omega
    unfold exSmooth
    norm_num

/-- The knots `0 0 0 1 1 2 2 2`. -/
noncomputable def exKink : Int → ℝ := fun i => if i ≤ 2 then 0 else if i ≤ 4 then 1 else 2

/-- The bound is sharp: with the double knot `1` quadratic splines are continuous, but the two elements meeting there give
different first derivatives. -/
theorem C96_kink (J : Junk ℝ) :
    LegalKnots 2 7 exKink ∧ IsElement 2 7 exKink 2 ∧ IsElement 2 7 exKink 4 ∧ exKink 3 = 1 ∧ exKink 4 = 1 ∧
      (let F : Int → ℝ := fun i => if i = 2 then 1 else 0
       (∑ a : Fin 3, F (2 - 2 + (a.val:Int)) * basis J 2 1 2 (min 2 4) exKink 0 (a.val:Int)
          = ∑ a : Fin 3, F (4 - 2 + (a.val:Int)) * basis J 4 1 2 (min 2 4) exKink 0 (a.val:Int)) ∧
       ∑ a : Fin 3, F (2 - 2 + (a.val:Int)) * basis J 2 1 2 (min 2 4) exKink 1 (a.val:Int)
          ≠ ∑ a : Fin 3, F (4 - 2 + (a.val:Int)) * basis J 4 1 2 (min 2 4) exKink 1 (a.val:Int)) := by
  have hs : SortedKnots 7 exKink := by
    intro i h0 h1
    unfold exKink
    split_ifs <;> first | omega | norm_num
  have el2 : IsElement 2 7 exKink 2 := ⟨by norm_num, by norm_num, by unfold exKink; norm_num⟩
  have el4 : IsElement 2 7 exKink 4 := ⟨by norm_num, by norm_num, by unfold exKink; norm_num⟩
  refine ⟨⟨by norm_num, by norm_num, hs, ?_⟩, el2, el4, by unfold exKink; norm_num, by unfold exKink; norm_num, ?_⟩
  · intro i h0 h1
    unfold exKink
    split_ifs <;> first | omega | norm_num
  · have b2 : ∀ (a : Fin 3) (t : Nat), t ≤ 4 → basis J 2 1 2 (min 2 4) exKink t (a.val:Int) = (derivative^[t] (piece exKink 2 2 (2 - 2 + (a.val:Int)))).eval 1 :=
      fun a t ht => C13_library_call J 2 7 2 exKink 1 hs el2 a.val (by omega) t ht
    have b4 : ∀ (a : Fin 3) (t : Nat), t ≤ 4 → basis J 4 1 2 (min 2 4) exKink t (a.val:Int) = (derivative^[t] (piece exKink 4 2 (4 - 2 + (a.val:Int)))).eval 1 :=
      fun a t ht => C13_library_call J 2 7 4 exKink 1 hs el4 a.val (by omega) t ht
    have b20 := fun a => b2 a 0 (by omega)
    have b21 := fun a => b2 a 1 (by omega)
    have b40 := fun a => b4 a 0 (by omega)
    have b41 := fun a => b4 a 1 (by omega)
    simp only [Nat.cast_zero, Nat.cast_one] at b20 b21 b40 b41
    dsimp only
    simp only [b20, b21, b40, b41, Fin.sum_univ_three]
    refine ⟨?_, ?_⟩
    · norm_num [piece, exKink]
    · norm_num [piece, exKink, derivative_mul]

/-- Non-vacuity of `C96_periodic`: a periodic axis of degree 3 and continuity 1 with two elements. -/
example : (Ax.initUniform (fun _ => (77:ℝ)) { Ax.create (fun _ => (0:ℝ)) with p := 3, periodic := true } 2 0 1 1).1 = .ok () :=
  (Ax.C07_initUniform_accepts _ _ _ _ _ _).2 ⟨by show (1:Int) ≤ 3; norm_num, by norm_num, by norm_num, Or.inr ⟨by norm_num, by show (1:Int) < 3; norm_num⟩⟩

end PetIGA.Bsp

namespace PetIGA.Prb
open PetIGA.Spec PetIGA.Bsp PetIGA.Ker PetIGA.Ax Polynomial

variable {dof : Nat}

theorem pieces_contDiff (U : Int → ℝ) (k : Int) (p : Nat) (a : Fin (p+1)) (r : Nat) : ContDiffOn ℝ (r : WithTop ℕ∞) (pieces U k p a) Set.univ := by
  unfold pieces
  apply ContDiff.contDiffOn
  have := (Polynomial.contDiff_aeval (𝕜 := ℝ) (piece U k p (k - p + (a.val:Int))) (n := (r : WithTop ℕ∞)))
  simpa only [Polynomial.coe_aeval_eq_eval] using this

/-- **C96**, the probe in one dimension.  At every point inside the domain, also at the knots, the values and the derivatives
of order at most `p-μ` are those of the one function `spline1`. -/
theorem C96_probe_1d (J : Bsp.Junk ℝ) (ax : Axis ℝ) {p n μ : Nat} (A : SmoothAxis ax p n μ) {x : ℝ} (hx : x ∈ inside ax) {k : Int} (hk : SpanOf ax x k)
    (f : List Int → Nat → ℝ) (order der : Int) (ho : 0 ≤ order ∧ order ≤ 4) (hd : 0 ≤ der ∧ der ≤ order)
    (off collective : Bool) (hc : off = true → collective = true) (old : Tab ℝ 1 (Fin (p+1))) (mem : List (Fin 1) → Fin dof → ℝ) :
    ∃ v, evaluate order der true off collective (tensor1 order (table J k x p order ax.U) old)
        (fun c a => coef (closureVals [ax] [k] dof f) dof c (flat (Asm.nens [ax]) [(a.val:Int)])) mem = .ok v ∧
      ∀ (l : List (Fin 1)) (c : Fin dof), (l.length : Int) = der → l.count 0 ≤ p - μ →
        v l c = pdl l (spline1 ax.U p n fun i => f i c) (fun _ => x) := by
  obtain ⟨v, hv, h⟩ := C52_value_1d J ax p A.deg A.legal.sorted hk f order der ho hd off collective hc old mem
  refine ⟨v, hv, fun l c hl h0 => ?_⟩
  obtain ⟨hk0, hk1⟩ := hk.inside hx.1.le hx.2
  rw [h l c hl]
  have e1 := pdl_tensor (d := 1) (fun a : Fin (p+1) => f [k - p + (a.val:Int)] c) (fun _ a => pieces ax.U k p a) (fun _ => Set.univ)
    (fun _ => isOpen_univ) l (fun _ a => pieces_contDiff ax.U k p a _) (fun _ => x) (fun _ => Set.mem_univ _)
  have e2 := pdl_tensor (d := 1) (fun a : Fin n => f [(a.val:Int)] c) (fun _ a => bspline ax.U p (a.val:Int)) (fun _ => inside ax)
    (fun _ => isOpen_Ioo) l (fun j a => A.contDiffOn (by rw [Subsingleton.elim j 0]; exact h0) a) (fun _ => x) (fun _ => hx)
  simp only [Finset.univ_unique, Fin.default_eq_zero, Finset.prod_singleton] at e1 e2
  unfold spline1
  rw [e1, e2]
  exact (A.sum hx hk.elem hk0 hk1.le h0 (fun i => f [i] c)).symm

/-- **C96**, the probe in two dimensions. -/
theorem C96_probe_2d (J : Bsp.Junk ℝ) (ax bx : Axis ℝ) {p n μ q m ν : Nat} (A : SmoothAxis ax p n μ) (B : SmoothAxis bx q m ν) {x y : ℝ} (hx : x ∈ inside ax)
    (hy : y ∈ inside bx) {k j : Int} (hk : SpanOf ax x k) (hj : SpanOf bx y j)
    (f : List Int → Nat → ℝ) (order der : Int) (ho : 0 ≤ order ∧ order ≤ 4) (hd : 0 ≤ der ∧ der ≤ order)
    (off collective : Bool) (hc : off = true → collective = true) (old : Tab ℝ 2 (Fin (p+1) × Fin (q+1))) (mem : List (Fin 2) → Fin dof → ℝ) :
    ∃ v, evaluate order der true off collective (tensor2 order (table J k x p order ax.U) (table J j y q order bx.U) old)
        (fun c a => coef (closureVals [ax, bx] [k, j] dof f) dof c (flat (Asm.nens [ax, bx]) [(a.1.val:Int), (a.2.val:Int)])) mem = .ok v ∧
      ∀ (l : List (Fin 2)) (c : Fin dof), (l.length : Int) = der → l.count 0 ≤ p - μ → l.count 1 ≤ q - ν →
        v l c = pdl l (spline2 ax.U bx.U p q n m fun i => f i c) (fun i => if i = 0 then x else y) := by
  obtain ⟨v, hv, h⟩ := C52_value_2d J ax bx p q A.deg B.deg A.legal.sorted B.legal.sorted hk hj f order der ho hd off collective hc old mem
  refine ⟨v, hv, fun l c hl h0 h1 => ?_⟩
  obtain ⟨hk0, hk1⟩ := hk.inside hx.1.le hx.2
  obtain ⟨hj0, hj1⟩ := hj.inside hy.1.le hy.2
  rw [h l c hl]
  have e1 := pdl_tensor (d := 2) (fun a : Fin (p+1) × Fin (q+1) => f [k - p + (a.1.val:Int), j - q + (a.2.val:Int)] c)
    (fun i a => if i = 0 then pieces ax.U k p a.1 else pieces bx.U j q a.2) (fun _ => Set.univ)
    (fun _ => isOpen_univ) l (fun i a => by split_ifs <;> exact pieces_contDiff _ _ _ _ _) (fun i => if i = 0 then x else y) (fun _ => Set.mem_univ _)
  have e2 := pdl_tensor (d := 2) (fun a : Fin n × Fin m => f [(a.1.val:Int), (a.2.val:Int)] c)
    (fun i a => if i = 0 then bspline ax.U p (a.1.val:Int) else bspline bx.U q (a.2.val:Int)) (fun i => if i = 0 then inside ax else inside bx)
    (fun i => by split_ifs <;> exact isOpen_Ioo) l (fun i a => by
      split_ifs with hi
      · subst hi; exact A.contDiffOn h0 a.1
      · obtain rfl : i = 1 := by omega
        exact B.contDiffOn h1 a.2) (fun i => if i = 0 then x else y) (fun i => by split_ifs <;> assumption)
  simp only [Fin.prod_univ_two, if_true, one_ne_zero, if_false] at e1 e2
  unfold spline2
  rw [e1, e2, Fintype.sum_prod_type, Fintype.sum_prod_type]
  refine Eq.symm ?_
  have s1 : ∀ a : Fin n, ∑ b : Fin m, f [(a.val:Int), (b.val:Int)] c * (iteratedDeriv (l.count 0) (bspline ax.U p (a.val:Int)) x *
      iteratedDeriv (l.count 1) (bspline bx.U q (b.val:Int)) y)
      = (fun i : Int => ∑ b : Fin (q+1), f [i, j - q + (b.val:Int)] c * iteratedDeriv (l.count 1) (pieces bx.U j q b) y) (a.val:Int) *
        iteratedDeriv (l.count 0) (bspline ax.U p (a.val:Int)) x := by
    intro a
    have := B.sum hy hj.elem hj0 hj1.le h1 (fun i => f [(a.val:Int), i] c * iteratedDeriv (l.count 0) (bspline ax.U p (a.val:Int)) x)
    dsimp only at this ⊢
    rw [Finset.sum_mul]
    refine Eq.trans (Finset.sum_congr rfl fun b _ => ?_) (this.trans (Finset.sum_congr rfl fun b _ => ?_)) <;> ring
  rw [Finset.sum_congr rfl fun a _ => s1 a, A.sum hx hk.elem hk0 hk1.le h0
    (fun i : Int => ∑ b : Fin (q+1), f [i, j - q + (b.val:Int)] c * iteratedDeriv (l.count 1) (pieces bx.U j q b) y)]
  refine Finset.sum_congr rfl fun a _ => ?_
  rw [Finset.sum_mul]
  refine Finset.sum_congr rfl fun b _ => ?_
  ring

/-- **C96**, the probe in three dimensions. -/
theorem C96_probe_3d (J : Bsp.Junk ℝ) (ax bx cx : Axis ℝ) {p n μ q m ν s r ρ : Nat} (A : SmoothAxis ax p n μ) (B : SmoothAxis bx q m ν)
    (D : SmoothAxis cx s r ρ) {x y w : ℝ} (hx : x ∈ inside ax) (hy : y ∈ inside bx) (hw : w ∈ inside cx) {k j i : Int} (hk : SpanOf ax x k)
    (hj : SpanOf bx y j) (hi : SpanOf cx w i)
    (f : List Int → Nat → ℝ) (order der : Int) (ho : 0 ≤ order ∧ order ≤ 4) (hd : 0 ≤ der ∧ der ≤ order)
    (off collective : Bool) (hc : off = true → collective = true) (old : Tab ℝ 3 (Fin (p+1) × Fin (q+1) × Fin (s+1))) (mem : List (Fin 3) → Fin dof → ℝ) :
    ∃ v, evaluate order der true off collective (tensor3 order (table J k x p order ax.U) (table J j y q order bx.U) (table J i w s order cx.U) old)
        (fun c a => coef (closureVals [ax, bx, cx] [k, j, i] dof f) dof c
          (flat (Asm.nens [ax, bx, cx]) [(a.1.val:Int), (a.2.1.val:Int), (a.2.2.val:Int)])) mem = .ok v ∧
      ∀ (l : List (Fin 3)) (c : Fin dof), (l.length : Int) = der → l.count 0 ≤ p - μ → l.count 1 ≤ q - ν → l.count 2 ≤ s - ρ →
        v l c = pdl l (spline3 ax.U bx.U cx.U p q s n m r fun i => f i c) (fun m => if m = 0 then x else if m = 1 then y else w) := by
  obtain ⟨v, hv, h⟩ := C52_value_3d J ax bx cx p q s A.deg B.deg D.deg A.legal.sorted B.legal.sorted D.legal.sorted hk hj hi f order der ho hd off collective
    hc old mem
  refine ⟨v, hv, fun l c hl h0 h1 h2 => ?_⟩
  obtain ⟨hk0, hk1⟩ := hk.inside hx.1.le hx.2
  obtain ⟨hj0, hj1⟩ := hj.inside hy.1.le hy.2
  obtain ⟨hi0, hi1⟩ := hi.inside hw.1.le hw.2
  rw [h l c hl]
  have e1 := pdl_tensor (d := 3) (fun a : Fin (p+1) × Fin (q+1) × Fin (s+1) => f [k - p + (a.1.val:Int), j - q + (a.2.1.val:Int), i - s + (a.2.2.val:Int)] c)
    (fun t a => if t = 0 then pieces ax.U k p a.1 else if t = 1 then pieces bx.U j q a.2.1 else pieces cx.U i s a.2.2) (fun _ => Set.univ)
    (fun _ => isOpen_univ) l (fun i a => by split_ifs <;> exact pieces_contDiff _ _ _ _ _)
    (fun t => if t = 0 then x else if t = 1 then y else w) (fun _ => Set.mem_univ _)
  have e2 := pdl_tensor (d := 3) (fun a : Fin n × Fin m × Fin r => f [(a.1.val:Int), (a.2.1.val:Int), (a.2.2.val:Int)] c)
    (fun t a => if t = 0 then bspline ax.U p (a.1.val:Int) else if t = 1 then bspline bx.U q (a.2.1.val:Int) else bspline cx.U s (a.2.2.val:Int))
    (fun t => if t = 0 then inside ax else if t = 1 then inside bx else inside cx)
    (fun i => by split_ifs <;> exact isOpen_Ioo) l (fun i a => by
      split_ifs with hi hi'
      · subst hi; exact A.contDiffOn h0 a.1
      · subst hi'; exact B.contDiffOn h1 a.2.1
      · obtain rfl : i = 2 := by omega
        exact D.contDiffOn h2 a.2.2) (fun t => if t = 0 then x else if t = 1 then y else w) (fun t => by split_ifs <;> assumption)
  have n1 : ¬ (2 : Fin 3) = 0 := by decide
  have n2 : ¬ (2 : Fin 3) = 1 := by decide
  simp only [Fin.prod_univ_three, if_true, one_ne_zero, if_false, if_neg n1, if_neg n2] at e1 e2
  unfold spline3
  rw [e1, e2]
  simp only [Fintype.sum_prod_type]
  refine Eq.symm ?_
  have s1 : ∀ (a : Fin n) (b : Fin m), ∑ e : Fin r, f [(a.val:Int), (b.val:Int), (e.val:Int)] c * (iteratedDeriv (l.count 0) (bspline ax.U p (a.val:Int)) x *
      iteratedDeriv (l.count 1) (bspline bx.U q (b.val:Int)) y * iteratedDeriv (l.count 2) (bspline cx.U s (e.val:Int)) w)
      = (fun i1 : Int => ∑ e : Fin (s+1), f [(a.val:Int), i1, i - s + (e.val:Int)] c * iteratedDeriv (l.count 2) (pieces cx.U i s e) w *
          iteratedDeriv (l.count 0) (bspline ax.U p (a.val:Int)) x) (b.val:Int) *
        iteratedDeriv (l.count 1) (bspline bx.U q (b.val:Int)) y := by
    intro a b
    have := D.sum hw hi.elem hi0 hi1.le h2 (fun i2 => f [(a.val:Int), (b.val:Int), i2] c * iteratedDeriv (l.count 0) (bspline ax.U p (a.val:Int)) x *
      iteratedDeriv (l.count 1) (bspline bx.U q (b.val:Int)) y)
    dsimp only at this ⊢
    rw [Finset.sum_mul]
    refine Eq.trans (Finset.sum_congr rfl fun e _ => ?_) (this.trans (Finset.sum_congr rfl fun e _ => ?_)) <;> ring
  have s2 : ∀ a : Fin n, ∑ b : Fin m, ∑ e : Fin r, f [(a.val:Int), (b.val:Int), (e.val:Int)] c * (iteratedDeriv (l.count 0) (bspline ax.U p (a.val:Int)) x *
      iteratedDeriv (l.count 1) (bspline bx.U q (b.val:Int)) y * iteratedDeriv (l.count 2) (bspline cx.U s (e.val:Int)) w)
      = (fun i0 : Int => ∑ b : Fin (q+1), ∑ e : Fin (s+1), f [i0, j - q + (b.val:Int), i - s + (e.val:Int)] c * iteratedDeriv (l.count 2) (pieces cx.U i s e) w *
          iteratedDeriv (l.count 1) (pieces bx.U j q b) y) (a.val:Int) * iteratedDeriv (l.count 0) (bspline ax.U p (a.val:Int)) x := by
    intro a
    rw [Finset.sum_congr rfl fun b _ => s1 a b, B.sum hy hj.elem hj0 hj1.le h1
      (fun i1 : Int => ∑ e : Fin (s+1), f [(a.val:Int), i1, i - s + (e.val:Int)] c * iteratedDeriv (l.count 2) (pieces cx.U i s e) w *
          iteratedDeriv (l.count 0) (bspline ax.U p (a.val:Int)) x)]
    dsimp only
    rw [Finset.sum_mul]
    refine Finset.sum_congr rfl fun b _ => ?_
    rw [Finset.sum_mul, Finset.sum_mul]
    refine Finset.sum_congr rfl fun e _ => ?_
    ring
  rw [Finset.sum_congr rfl fun a _ => s2 a, A.sum hx hk.elem hk0 hk1.le h0
    (fun i0 : Int => ∑ b : Fin (q+1), ∑ e : Fin (s+1), f [i0, j - q + (b.val:Int), i - s + (e.val:Int)] c * iteratedDeriv (l.count 2) (pieces cx.U i s e) w *
          iteratedDeriv (l.count 1) (pieces bx.U j q b) y)]
  refine Finset.sum_congr rfl fun a _ => ?_
  rw [Finset.sum_mul]
  refine Finset.sum_congr rfl fun b _ => ?_
  rw [Finset.sum_mul]
  refine Finset.sum_congr rfl fun e _ => ?_
  ring

end PetIGA.Prb
