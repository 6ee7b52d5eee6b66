import Verif.Props.Probe
import Verif.Props.BlockElem
import Verif.Props.BSplineReal
import Verif.Props.Point
import Verif.Props.Tensor
import Mathlib.Analysis.Calculus.ContDiff.Polynomial
/-! Property theorems about the probe (C52): refusals, values, and what goes wrong. -/
set_option linter.unusedSectionVars false
namespace PetIGA.Prb
open PetIGA.Spec PetIGA.Part PetIGA.Lay PetIGA.Ax PetIGA.Grid PetIGA.Asm PetIGA.Blk PetIGA.Ker

section
variable {K V : Type} [Field K] [LinearOrder K] [IsStrictOrderedRing K]
variable {g2 : Guess2} {g3 : Guess3} {colloc : Bool} {size : Int} {procs : List Int} {axes axs : List (Axis K)}
  {Ls : List (Layout K)}

/-- **C52**, refusals: a build with error checking rejects every point outside the domain. -/
theorem C52_outside (S : Setup g2 g3 colloc size procs axes axs Ls) {us : List K} (hu : us.length = axs.length)
    (hdom : ¬ InDomain axs us) (collective : Bool) (arr : Nat → List (Nat × List V)) (old : Nat → List (List V)) :
    setPoint true collective (probes Ls arr old) us = .err .outOfRange := by
  have hne := S.nonempty
  have hlen := S.ranks.1
  cases hL : Ls with
  | nil => rw [hL] at hlen; simp at hlen; omega
  | cons L Ls' =>
    have h0 : Ls[0]? = some L := by rw [hL]; rfl
    have hd := setup_dirs S h0 (R := DirP colloc) (fun ax P r a b c d e f => dirP a b c d e f)
    obtain ⟨-, hax, -, -⟩ := S.get h0
    have key : (List.zipWith inRange (pdirs axs L.dir) us).any not = true := by
      by_contra hn
      apply hdom
      generalize L.dir = ds at hd hn
      clear * - hd hn hu
      unfold InDomain
      unfold pdirs at hn
      induction hd generalizing us with
      | nil => cases us with
        | nil => exact .nil
        | cons => simp at hu
      | cons h1 h2 ih =>
        cases us with
        | nil => simp at hu
        | cons u us =>
          simp only [List.zipWith_cons_cons, List.any_cons, Bool.or_eq_true, not_or] at hn
          refine .cons ?_ (ih (by simpa using hu) hn.2)
          have := hn.1
          unfold inRange pdir at this
          dsimp only at this
          rw [h1.size] at this
          simpa [not_or] using this
    unfold setPoint probes
    rw [List.zipIdx_cons, List.map_cons, List.map_cons, Blk.sequence]
    dsimp only
    rw [hax]
    unfold localPoint
    rw [if_pos ⟨rfl, key⟩]
    rfl

end

/-- **C52**, refusals: an order outside `0..4` is rejected, a derivative outside `0..order` is rejected, and so is an
evaluation without a vector; a process without the data of a probe that is not collective gets zeros. -/
theorem C52_refusals {d dof : Nat} {ι : Type} [Fintype ι] (order der : Int) (hasVec off collective : Bool) (shape : Tab ℝ d ι)
    (A : Fin dof → ι → ℝ) (mem : List (Fin d) → Fin dof → ℝ) :
    (setOrder order = .ok order ↔ 0 ≤ order ∧ order ≤ 4) ∧ (¬ (0 ≤ order ∧ order ≤ 4) → setOrder order = .err .outOfRange) ∧
    (¬ (0 ≤ der ∧ der ≤ order) → evaluate order der hasVec off collective shape A mem = .err .outOfRange) ∧
    (0 ≤ der → der ≤ order → hasVec = false → evaluate order der hasVec off collective shape A mem = .err .wrongState) ∧
    (0 ≤ der → der ≤ order → hasVec = true → off = true → collective = false →
      ∃ v, evaluate order der hasVec off collective shape A mem = .ok v ∧ ∀ l c, (l.length : Int) = der → v l c = 0) := by
  refine ⟨?_, ?_, ?_, ?_, ?_⟩
  · unfold setOrder; split_ifs <;> simp <;> omega
  · intro h; unfold setOrder; rw [if_pos (by omega)]
  · intro h; unfold evaluate; rw [if_pos (by omega)]
  · intro h0 h1 h; unfold evaluate; rw [if_neg (by omega), if_pos h]
  · intro h0 h1 h ho hc
    refine ⟨_, by unfold evaluate; rw [if_neg (by omega), if_neg (by simp [h]), if_pos ⟨ho, hc⟩], ?_⟩
    intro l c hl
    rw [if_pos hl]

/-- A single process never communicates. -/
theorem C52_single (collective : Bool) : setCollective collective 1 = false ∧ ∀ n, n ≠ 1 → setCollective true n = true := by
  refine ⟨by cases collective <;> rfl, ?_⟩
  intro n hn
  unfold setCollective
  simp [hn]

/-! ### Values -/

section
variable {d nsd dof : Nat} {ι : Type} [Fintype ι] {Ω : Set (Fin d → ℝ)}

/-- Evaluation when the tables are right. -/
theorem evaluate_ok (hΩ : IsOpen Ω) (φ : ι → (Fin d → ℝ) → ℝ) (hφ : ∀ a, Smooth Ω (φ a)) (x : Fin d → ℝ) (hx : x ∈ Ω) (order : Int)
    (r : Nat) (hr : (r:Int) = order) (h4 : r ≤ 4) (T : Tab ℝ d ι) (hT : Holds r T φ x) (der : Int) (h0 : 0 ≤ der) (h1 : der ≤ order)
    (off collective : Bool) (ho : off = true → collective = true) (A : Fin dof → ι → ℝ) (mem : List (Fin d) → Fin dof → ℝ) :
    ∃ v, evaluate order der true off collective T A mem = .ok v ∧
      ∀ (l : List (Fin d)) (c : Fin dof), (l.length : Int) = der → v l c = pdl l (field φ (A c)) x := by
  obtain ⟨v, hv, hl⟩ := (C61_evaluate hΩ φ hφ x hx r T hT 0 der A mem).1 (le_refl _) h0 (by omega) h4
  refine ⟨v, ?_, hl⟩
  unfold evaluate
  rw [if_neg (by omega), if_neg (by simp), if_neg, hv]
  rintro ⟨a, b⟩
  rw [ho a] at b
  simp at b

end

/-- The functions of one direction on the interval `k`: the polynomial pieces of the B-splines `k-p, …, k` (they are the
B-splines on the interval, C13). -/
noncomputable def pieces (U : Int → ℝ) (k : Int) (p : Nat) (a : Fin (p+1)) (y : ℝ) : ℝ := (piece U k p (k - p + (a.val:Int))).eval y

/-- The table made by `IGA_Basis_BSpline` for the order of the probe, as an array over the functions. -/
noncomputable def table (J : Bsp.Junk ℝ) (k : Int) (x : ℝ) (p : Nat) (order : Int) (U : Int → ℝ) (t : Nat) (a : Fin (p+1)) : ℝ :=
  Bsp.basis J k x p order.toNat U t (a.val:Int)

theorem holds_table (J : Bsp.Junk ℝ) {m k : Int} {p : Nat} {U : Int → ℝ} (hs : SortedKnots m U) (hel : IsElement p m U k) (x : ℝ) (r : Nat) :
    Holds1 r (table J k x p r U) (pieces U k p) x := by
  intro t ht a
  unfold table
  rw [Int.toNat_natCast, ((Bsp.C13_any_order J p r m k U x hs hel a.val (by omega) t).1 ht)]
  unfold pieces
  rw [Bsp.iteratedDeriv_eval]

theorem smooth_piece {d : Nat} (U : Int → ℝ) (k : Int) (p : Nat) (a : Fin (p+1)) (i : Fin d) :
    Smooth Set.univ (fun y : Fin d → ℝ => pieces U k p a (y i)) := by
  unfold Smooth pieces
  apply ContDiff.contDiffOn
  have := (Polynomial.contDiff_aeval (𝕜 := ℝ) (piece U k p (k - p + (a.val:Int))) (n := (⊤ : ℕ∞))).comp (contDiff_apply ℝ ℝ i)
  simpa only [Function.comp_def, Polynomial.coe_aeval_eq_eval] using this

theorem smooth_prod {d : Nat} {f g : (Fin d → ℝ) → ℝ} (hf : Smooth Set.univ f) (hg : Smooth Set.univ g) :
    Smooth Set.univ (fun y => f y * g y) := ContDiffOn.mul hf hg

/-- The coefficient of component `c` at the function with the given position in the closure, `A[c + a*dof]`. -/
def coef (vals : List ℝ) (dof : Nat) (c : Fin dof) (pos : Int) : ℝ := vals.getD (pos * dof + (c.val:Int)).toNat 0

theorem coef_eq {K : Type} [Field K] [LinearOrder K] [IsStrictOrderedRing K] {axs : List (Axis K)} (ks : List Int) (dof : Nat) (f : List Int → Nat → ℝ) (c : Fin dof) {t : List Int} (ht : InBox (nens axs) t) :
    coef (closureVals axs ks dof f) dof c (flat (nens axs) t) = f (plus (List.zipWith (fun k (ax : Axis K) => k - ax.p) ks axs) t) c.val := by
  unfold coef closureVals
  obtain ⟨f0, -⟩ := flat_range ht
  have hz := zipIdx_indices (nens axs)
  have hi : (indices (nens axs))[(flat (nens axs) t).toNat]? = some t := by
    have h1 : (t, (flat (nens axs) t).toNat) ∈ (indices (nens axs)).zipIdx := by
      rw [hz, List.mem_map]
      exact ⟨t, (mem_indices _ _).2 ht, rfl⟩
    exact List.mem_zipIdx_iff_getElem?.1 h1
  have key : ∀ (l : List (List Int)) (n : Nat) (g : List Int → Nat → ℝ), l[n]? = some t →
      (l.flatMap fun t => (List.range dof).map fun (c : Nat) => g t c)[n * dof + c.val]? = some (g t c.val) := by
    intro l
    induction l with
    | nil => intro n g h; simp at h
    | cons b l ih =>
      intro n g h
      rw [List.flatMap_cons]
      cases n with
      | zero =>
        simp only [List.getElem?_cons_zero, Option.some.injEq] at h
        subst h
        rw [List.getElem?_append_left (by simp [c.isLt])]
        simp [c.isLt]
      | succ n =>
        rw [List.getElem?_append_right (by simp; nlinarith)]
        simp only [List.length_map, List.length_range]
        rw [show (n+1) * dof + c.val - dof = n * dof + c.val by rw [add_mul, one_mul]; omega]
        exact ih n g (by simpa using h)
  have hk := key _ _ (fun t c => f (plus (List.zipWith (fun k (ax : Axis K) => k - ax.p) ks axs) t) c) hi
  rw [show (flat (nens axs) t * (dof:Int) + (c.val:Int)).toNat = (flat (nens axs) t).toNat * dof + c.val by
    have : 0 ≤ flat (nens axs) t * (dof:Int) := Int.mul_nonneg f0 (by omega)
    zify
    rw [Int.toNat_of_nonneg (by omega), Int.toNat_of_nonneg f0]]
  rw [List.getD_eq_getElem?_getD, hk]
  rfl

variable {dof : Nat}

/-- **C52**, values in one dimension.  Whatever the tables contained before, after the point `x` with interval `k` has
been set and the values `f` at the functions of the interval copied (`C52_collective`, `C52_independent`), evaluating
a derivative of order `0 ≤ der ≤ order ≤ 4` gives that derivative of the spline with the coefficients `f`. -/
theorem C52_value_1d (J : Bsp.Junk ℝ) (ax : Axis ℝ) (p : Nat) (hp : ax.p = p) (h : SortedKnots ax.m ax.U) {x : ℝ} {k : Int} (hk : SpanOf ax x k)
    (f : List Int → Nat → ℝ) (order der : Int) (ho : 0 ≤ order ∧ order ≤ 4) (hd : 0 ≤ der ∧ der ≤ order)
    (off collective : Bool) (hc : off = true → collective = true) (old : Tab ℝ 1 (Fin (p+1))) (mem : List (Fin 1) → Fin dof → ℝ) :
    ∃ v, evaluate order der true off collective (tensor1 order (table J k x p order ax.U) old)
        (fun c a => coef (closureVals [ax] [k] dof f) dof c (flat (nens [ax]) [(a.val:Int)])) mem = .ok v ∧
      ∀ (l : List (Fin 1)) (c : Fin dof), (l.length : Int) = der →
        v l c = pdl l (fun y => ∑ a : Fin (p+1), f [k - p + a.val] c * pieces ax.U k p a (y 0)) (fun _ => x) := by
  obtain ⟨r, rfl⟩ := Int.eq_ofNat_of_zero_le ho.1
  have hel := hk.elem
  rw [hp] at hel
  have hT := C42_tensor_1d r r (by omega) (le_refl _) (fun _ => x) (pieces ax.U k p) (table J k x p r ax.U)
    (holds_table J h hel x r) old
  obtain ⟨v, hv, hl⟩ := evaluate_ok isOpen_univ _ (fun a => smooth_piece ax.U k p a 0) _ (Set.mem_univ _) r r rfl (by omega) _ hT der hd.1 hd.2 off
    collective hc (fun c a => coef (closureVals [ax] [k] dof f) dof c (flat (nens [ax]) [(a.val:Int)])) mem
  refine ⟨v, hv, fun l c hlen => ?_⟩
  rw [hl l c hlen]
  congr 1
  funext y
  unfold field
  refine Finset.sum_congr rfl fun a _ => ?_
  dsimp only
  rw [coef_eq]
  · simp [plus, hp]
  · exact .cons (by dsimp only; rw [hp]; constructor <;> omega) .nil

/-- **C52**, values in two dimensions. -/
theorem C52_value_2d (J : Bsp.Junk ℝ) (ax bx : Axis ℝ) (p q : Nat) (hp : ax.p = p) (hq : bx.p = q) (h : SortedKnots ax.m ax.U) (h' : SortedKnots bx.m bx.U) {x y : ℝ}
    {k j : Int} (hk : SpanOf ax x k) (hj : SpanOf bx y j)
    (f : List Int → Nat → ℝ) (order der : Int) (ho : 0 ≤ order ∧ order ≤ 4) (hd : 0 ≤ der ∧ der ≤ order)
    (off collective : Bool) (hc : off = true → collective = true) (old : Tab ℝ 2 (Fin (p+1) × Fin (q+1))) (mem : List (Fin 2) → Fin dof → ℝ) :
    ∃ v, evaluate order der true off collective (tensor2 order (table J k x p order ax.U) (table J j y q order bx.U) old)
        (fun c a => coef (closureVals [ax, bx] [k, j] dof f) dof c (flat (nens [ax, bx]) [(a.1.val:Int), (a.2.val:Int)])) mem = .ok v ∧
      ∀ (l : List (Fin 2)) (c : Fin dof), (l.length : Int) = der →
        v l c = pdl l (fun z => ∑ a : Fin (p+1) × Fin (q+1), f [k - p + a.1.val, j - q + a.2.val] c *
          (pieces ax.U k p a.1 (z 0) * pieces bx.U j q a.2 (z 1))) (fun i => if i = 0 then x else y) := by
  obtain ⟨r, rfl⟩ := Int.eq_ofNat_of_zero_le ho.1
  have hel := hk.elem
  have hel' := hj.elem
  rw [hp] at hel
  rw [hq] at hel'
  have hT := C42_tensor_2d r r (by omega) (le_refl _) (fun i => if i = 0 then x else y) (pieces ax.U k p) (pieces bx.U j q)
    (table J k x p r ax.U) (table J j y q r bx.U) (holds_table J h hel x r) (holds_table J h' hel' y r) old
  obtain ⟨v, hv, hl⟩ := evaluate_ok isOpen_univ _ (fun (a : Fin (p+1) × Fin (q+1)) => smooth_prod (smooth_piece ax.U k p a.1 0) (smooth_piece bx.U j q a.2 1))
    _ (Set.mem_univ _) r r rfl (by omega) _ hT der hd.1 hd.2 off
    collective hc (fun c a => coef (closureVals [ax, bx] [k, j] dof f) dof c (flat (nens [ax, bx]) [(a.1.val:Int), (a.2.val:Int)])) mem
  refine ⟨v, hv, fun l c hlen => ?_⟩
  rw [hl l c hlen]
  congr 1
  funext z
  unfold field
  refine Finset.sum_congr rfl fun a _ => ?_
  dsimp only
  rw [coef_eq]
  · simp [plus, hp, hq]
  · exact .cons (by dsimp only; rw [hp]; constructor <;> omega) (.cons (by dsimp only; rw [hq]; constructor <;> omega) .nil)

/-- **C52**, values in three dimensions. -/
theorem C52_value_3d (J : Bsp.Junk ℝ) (ax bx cx : Axis ℝ) (p q s : Nat) (hp : ax.p = p) (hq : bx.p = q) (hs : cx.p = s) (h : SortedKnots ax.m ax.U) (h' : SortedKnots bx.m bx.U)
    (h'' : SortedKnots cx.m cx.U) {x y w : ℝ} {k j i : Int} (hk : SpanOf ax x k) (hj : SpanOf bx y j) (hi : SpanOf cx w i)
    (f : List Int → Nat → ℝ) (order der : Int) (ho : 0 ≤ order ∧ order ≤ 4) (hd : 0 ≤ der ∧ der ≤ order)
    (off collective : Bool) (hc : off = true → collective = true) (old : Tab ℝ 3 (Fin (p+1) × Fin (q+1) × Fin (s+1))) (mem : List (Fin 3) → Fin dof → ℝ) :
    ∃ v, evaluate order der true off collective (tensor3 order (table J k x p order ax.U) (table J j y q order bx.U) (table J i w s order cx.U) old)
        (fun c a => coef (closureVals [ax, bx, cx] [k, j, i] dof f) dof c
          (flat (nens [ax, bx, cx]) [(a.1.val:Int), (a.2.1.val:Int), (a.2.2.val:Int)])) mem = .ok v ∧
      ∀ (l : List (Fin 3)) (c : Fin dof), (l.length : Int) = der →
        v l c = pdl l (fun z => ∑ a : Fin (p+1) × Fin (q+1) × Fin (s+1), f [k - p + a.1.val, j - q + a.2.1.val, i - s + a.2.2.val] c *
          (pieces ax.U k p a.1 (z 0) * pieces bx.U j q a.2.1 (z 1) * pieces cx.U i s a.2.2 (z 2)))
          (fun m => if m = 0 then x else if m = 1 then y else w) := by
  obtain ⟨r, rfl⟩ := Int.eq_ofNat_of_zero_le ho.1
  have hel := hk.elem
  have hel' := hj.elem
  have hel'' := hi.elem
  rw [hp] at hel
  rw [hq] at hel'
  rw [hs] at hel''
  have hT := C42_tensor_3d r r (by omega) (le_refl _) (fun m => if m = 0 then x else if m = 1 then y else w) (pieces ax.U k p) (pieces bx.U j q)
    (pieces cx.U i s) (table J k x p r ax.U) (table J j y q r bx.U) (table J i w s r cx.U) (holds_table J h hel x r)
    (holds_table J h' hel' y r) (holds_table J h'' hel'' w r) old
  obtain ⟨v, hv, hl⟩ := evaluate_ok isOpen_univ _ (fun (a : Fin (p+1) × Fin (q+1) × Fin (s+1)) => smooth_prod (smooth_prod (smooth_piece ax.U k p a.1 0)
    (smooth_piece bx.U j q a.2.1 1)) (smooth_piece cx.U i s a.2.2 2))
    _ (Set.mem_univ _) r r rfl (by omega) _ hT der hd.1 hd.2 off
    collective hc (fun c a => coef (closureVals [ax, bx, cx] [k, j, i] dof f) dof c
      (flat (nens [ax, bx, cx]) [(a.1.val:Int), (a.2.1.val:Int), (a.2.2.val:Int)])) mem
  refine ⟨v, hv, fun l c hlen => ?_⟩
  rw [hl l c hlen]
  congr 1
  funext z
  unfold field
  refine Finset.sum_congr rfl fun a _ => ?_
  dsimp only
  rw [coef_eq]
  · simp [plus, hp, hq, hs]
  · exact .cons (by dsimp only; rw [hp]; constructor <;> omega) (.cons (by dsimp only; rw [hq]; constructor <;> omega) (.cons (by dsimp only; rw [hs]; constructor <;> omega) .nil))

/-! ### Weights and geometry -/

section
variable {d nsd dof : Nat} {ι : Type} [Fintype ι] [DecidableEq ι] {Ω : Set (Fin d → ℝ)}

/-- **C52** with weights and without a map onto a space of the same dimension: if the tables hold the tensor products
(as in `C52_value_1d/2d/3d`), derivatives up to order 3 are those of the NURBS field, and the reported position is the
point itself or, on a manifold, its image.  Missing: order 4 (C40). -/
theorem C52_parametric_partial (hΩ : IsOpen Ω) (order : Int) (rational : Option (ι → ℝ)) (geometry : Option (Fin nsd → ι → ℝ))
    (hg : geometry = none ∨ nsd ≠ d) (N : ι → (Fin d → ℝ) → ℝ) (hN : ∀ a, Smooth Ω (N a))
    (hW : ∀ W, rational = some W → ∀ y ∈ Ω, ∑ b, W b * N b y ≠ 0) (x : Fin d → ℝ) (hx : x ∈ Ω) (r : Nat) (hr : (r : Int) = order)
    (h3 : r ≤ 3) (T : Tab ℝ d ι) (hT : Holds r T N x) (J : ℝ) (mem : PtOut d nsd ι)
    (off collective : Bool) (hc : off = true → collective = true) (A : Fin dof → ι → ℝ) :
    ∃ o, tabulate (ptIn order rational geometry) T J mem = .ok o ∧
      (∀ der mem', 0 ≤ der → der ≤ order → ∃ v, evaluate order der true off collective (pointShape (ptIn order rational geometry) o) A mem' = .ok v ∧
        ∀ (l : List (Fin d)) (c : Fin dof), (l.length : Int) = der → v l c = pdl l (field (elemFuns rational N) (A c)) x) ∧
      (∀ C, geometry = some C → geomMap true off collective o.mapX.t0 x = .ok fun l => field (elemFuns rational N) (C l) x) := by
  obtain ⟨o, h1, h2, -, h4, -⟩ := C71_parametric_partial hΩ (ptIn order rational geometry) hg N hN hW x hx r h3 (by exact hr.le) T hT J mem
  refine ⟨o, h1, fun der mem' d0 d1 => evaluate_ok hΩ _ (smooth_elemFuns rational N hN hW) x hx order r hr (by omega) _ h2 der d0 d1 off collective hc A mem', ?_⟩
  intro C hC
  unfold geomMap
  rw [if_neg (by rintro ⟨a, b⟩; rw [hc a] at b; simp at b), if_pos rfl]
  congr 1
  funext l
  exact (h4 C hC).1 l

/-- Without a geometry the probe reports the point itself. -/
theorem C52_position (off collective : Bool) (hc : off = true → collective = true) (mapX x : Fin d → ℝ) :
    geomMap false off collective mapX x = .ok x := by
  unfold geomMap
  rw [if_neg (by rintro ⟨a, b⟩; rw [hc a] at b; simp at b), if_neg (by simp), dif_pos (le_refl _)]
  rfl

end

/-- **C52** with a map onto a space of the same dimension, at a point where its Jacobian determinant is not zero: the
derivatives up to order 3 are those of the field with respect to the physical coordinates, at the image of the point,
and the reported position is the image.  Missing: order 4 (C40, C41). -/
theorem C52_mapped_partial {n dof : Nat} {ι : Type} [Fintype ι] [DecidableEq ι] (hn : n ≤ 2) {Ω Ω' : Set (Fin (n+1) → ℝ)} (hΩ : IsOpen Ω) (hΩ' : IsOpen Ω')
    (order : Int) (rational : Option (ι → ℝ)) (C : Fin (n+1) → ι → ℝ) (N : ι → (Fin (n+1) → ℝ) → ℝ)
    (hN : ∀ a, Smooth Ω (N a)) (hW : ∀ W, rational = some W → ∀ y ∈ Ω, ∑ b, W b * N b y ≠ 0)
    (φ : ι → (Fin (n+1) → ℝ) → ℝ) (hφ : ∀ a, Smooth Ω' (φ a))
    (hm : ∀ y ∈ Ω, (fun l => field (elemFuns rational N) (C l) y) ∈ Ω')
    (hφN : ∀ a, ∀ y ∈ Ω, φ a (fun l => field (elemFuns rational N) (C l) y) = elemFuns rational N a y)
    (x : Fin (n+1) → ℝ) (hx : x ∈ Ω)
    (hdet : (Matrix.of fun a l => pd a (field (elemFuns rational N) (C l)) x).det ≠ 0) (r : Nat) (hr : (r : Int) = order) (h1 : 1 ≤ r) (h3 : r ≤ 3)
    (T : Tab ℝ (n+1) ι) (hT : Holds r T N x) (J : ℝ) (mem : PtOut (n+1) (n+1) ι)
    (off collective : Bool) (hc : off = true → collective = true) (A : Fin dof → ι → ℝ) :
    ∃ o, tabulate (ptIn order rational (some C)) T J mem = .ok o ∧
      (∀ der mem', 0 ≤ der → der ≤ order → ∃ v, evaluate order der true off collective (pointShape (ptIn order rational (some C)) o) A mem' = .ok v ∧
        ∀ (l : List (Fin (n+1))) (c : Fin dof), (l.length : Int) = der →
          v l c = pdl l (field φ (A c)) (fun l => field (elemFuns rational N) (C l) x)) ∧
      geomMap true off collective o.mapX.t0 x = .ok fun l => field (elemFuns rational N) (C l) x := by
  obtain ⟨o, e1, e2, e3, -, -⟩ := C71_mapped_partial hn hΩ hΩ' (ptIn order rational (some C)) C rfl N hN hW φ hφ hm hφN x hx _ rfl hdet
    (fun h => by simp [ptIn] at h) r h1 h3 (by exact hr.le) T hT J mem
  refine ⟨o, e1, fun der mem' d0 d1 => evaluate_ok hΩ' φ hφ _ (hm x hx) order r hr (by omega) _ e2 der d0 d1 off collective hc A mem', ?_⟩
  unfold geomMap
  rw [if_neg (by rintro ⟨a, b⟩; rw [hc a] at b; simp at b), if_pos rfl]
  congr 1
  funext l
  exact e3.1 l

/-! ### What fails -/

theorem lay_eq {x : Res (Layout Rat)} {d : List Dir} {a : List (Int × Int × Int)} (h : summary x = .ok (d, a)) : x = .ok (lay x) := by
  obtain ⟨L, rfl, -⟩ := summary_ok h
  rfl

theorem setUp_one {ax : Axis Rat} (h : (Ax.setUp ax).1 = .ok ()) : setUpAxes [ax] = .ok [(Ax.setUp ax).2] := by
  unfold setUpAxes
  generalize Ax.setUp ax = y at *
  obtain ⟨a, b⟩ := y
  subst h
  rfl

/-- Degree 3 on the breaks `0, 1, 1.1, 1.2, 2`: the interval `[1, 1.1]` contains no Greville point. -/
def exAxK : Axis Rat := (Ax.step (Ax.step (Ax.create fun _ => 0) (.setDegree 3)).2
  (.setKnots 10 fun i => if i ≤ 3 then 0 else if i = 4 then 1 else if i = 5 then 11/10 else if i = 6 then 12/10 else 2)).2

theorem exAxK_reached : ∀ ax ∈ [exAxK], Reached ax := by
  intro ax h
  simp only [List.mem_cons, List.not_mem_nil, or_false] at h
  subst h
  exact .step _ _ (.step _ _ (.create _) (by decide +kernel)) (by decide +kernel)

def exK (r : Int) : Layout Rat := lay (stage1 exactGuess2 exactGuess3 true 3 r [3] [exAxK])

theorem exSetupK : Setup exactGuess2 exactGuess3 true 3 [3] [exAxK] [(Ax.setUp exAxK).2] [exK 0, exK 1, exK 2] := by
  have h0 : stage1 exactGuess2 exactGuess3 true 3 0 [3] [exAxK] = .ok (exK 0) :=
    lay_eq (d := [⟨7,0,3,7,0,3,0,4,0,7,0,3,0,4⟩]) (a := [(3,10,7)]) (by decide +kernel)
  have h1 : stage1 exactGuess2 exactGuess3 true 3 1 [3] [exAxK] = .ok (exK 1) :=
    lay_eq (d := [⟨7,3,2,7,3,2,2,5,0,7,3,2,2,5⟩]) (a := [(3,10,7)]) (by decide +kernel)
  have h2 : stage1 exactGuess2 exactGuess3 true 3 2 [3] [exAxK] = .ok (exK 2) :=
    lay_eq (d := [⟨7,5,2,7,5,2,3,4,0,7,5,2,3,4⟩]) (a := [(3,10,7)]) (by decide +kernel)
  refine ⟨exAxK_reached, by simp, setUp_one (by decide +kernel), by omega, ⟨rfl, ?_⟩, ?_⟩
  · intro r L h
    match r, h with
    | 0, h => simp only [List.getElem?_cons_zero, Option.some.injEq] at h; rw [← h]; exact h0
    | 1, h => simp only [List.getElem?_cons_succ, List.getElem?_cons_zero, Option.some.injEq] at h; rw [← h]; exact h1
    | 2, h => simp only [List.getElem?_cons_succ, List.getElem?_cons_zero, Option.some.injEq] at h; rw [← h]; exact h2
    | (n+3), h => simp at h
  · intro ax h
    simp only [List.mem_cons, List.not_mem_nil, or_false] at h
    subst h
    exact ⟨by simp, fun _ => by decide +kernel⟩

/-- **C52 fails** with collocation: after a successful set-up on three processes no process has the closure of the point
`1.05` of the domain in its ghosted box, so the collective probe broadcasts from the process `-1`. -/
theorem C52_collocation_refuted : Setup exactGuess2 exactGuess3 true 3 [3] [exAxK] [(Ax.setUp exAxK).2] [exK 0, exK 1, exK 2] ∧
    InDomain [(Ax.setUp exAxK).2] [(21/20 : Rat)] ∧
    setPoint true true (probes [exK 0, exK 1, exK 2] (fun r => [(1, List.replicate (if r = 1 then 5 else 4) (0:Int))]) (fun _ => [[]])) [21/20]
      = .err .lib := by
  refine ⟨exSetupK, .cons (by decide +kernel) .nil, by decide +kernel⟩

/-- Degree 3, periodic, on the breaks `0, 2, 4, 6, 7` with continuity 2. -/
def exAxQ : Axis Rat := (Ax.step (Ax.step (Ax.step (Ax.create fun _ => 0) (.setPeriodic true)).2 (.setDegree 3)).2
  (.initBreaks (fun _ => 0) 5 (fun i => if i = 4 then 7 else 2 * (i:Rat)) 2)).2

theorem exAxQ_reached : ∀ ax ∈ [exAxQ], Reached ax := by
  intro ax h
  simp only [List.mem_cons, List.not_mem_nil, or_false] at h
  subst h
  exact .step _ _ (.step _ _ (.step _ _ (.create _) (by decide +kernel)) (by decide +kernel)) (by decide +kernel)

def exQ : Layout Rat := lay (stage1 exactGuess2 exactGuess3 true 1 0 [1] [exAxQ])

theorem exSetupQ : Setup exactGuess2 exactGuess3 true 1 [1] [exAxQ] [(Ax.setUp exAxQ).2] [exQ] ∧
    exQ.dir.map (fun d => d.nodeGwidth) = [6] := by
  have h0 : stage1 exactGuess2 exactGuess3 true 1 0 [1] [exAxQ] = .ok exQ :=
    lay_eq (d := [⟨4,0,4,7,0,7,0,7,1,4,0,4,-1,6⟩]) (a := [(3,10,4)]) (by decide +kernel)
  refine ⟨⟨exAxQ_reached, by simp, setUp_one (by decide +kernel), by omega, ⟨rfl, ?_⟩, ?_⟩, by decide +kernel⟩
  · intro r L h
    match r, h with
    | 0, h => simp only [List.getElem?_cons_zero, Option.some.injEq] at h; rw [← h]; exact h0
    | (n+1), h => simp at h
  · intro ax h
    simp only [List.mem_cons, List.not_mem_nil, or_false] at h
    subst h
    exact ⟨by simp, fun _ => by decide +kernel⟩

/-- **C52 fails** with collocation and a periodic direction: the local array of a vector has the six ghosted nodes, but
the closure of the last interval reads a seventh, on a single process, at the point `6.5` of the domain `[0, 7]`. -/
theorem C52_periodic_collocation_refuted :
    Setup exactGuess2 exactGuess3 true 1 [1] [exAxQ] [(Ax.setUp exAxQ).2] [exQ] ∧ exQ.dir.map (fun d => d.nodeGwidth) = [6] ∧
    InDomain [(Ax.setUp exAxQ).2] [(13/2 : Rat)] ∧
    setPoint true true (probes [exQ] (fun _ => [(1, List.replicate 6 (0:Int))]) (fun _ => [[]])) [13/2] = .ub := by
  refine ⟨exSetupQ.1, exSetupQ.2, .cons (by decide +kernel) .nil, by decide +kernel⟩

/-! ### Order changed after the point was set -/

/-- The knots `0 0 0 1 1 1`. -/
noncomputable def exR : Axis ℝ := { periodic := false, p := 2, m := 5, U := fun i => if i ≤ 2 then 0 else 1, nnp := 3, nel := 1, span := [2] }

theorem exR_sorted : SortedKnots exR.m exR.U := by
  intro i h0 h1
  unfold exR
  dsimp only
  split_ifs <;> first | omega | norm_num

theorem exR_span : SpanOf exR (1/2) 2 := by
  refine ⟨⟨le_refl _, by decide, by unfold exR; norm_num⟩, ?_, ?_, ?_⟩
  · intro _ _; unfold exR; norm_num
  · unfold exR; norm_num
  · unfold exR; norm_num

theorem exR_piece (y : ℝ) : pieces exR.U 2 2 2 y = y * y := by
  unfold pieces exR
  norm_num [piece]
  
/-- **C52 fails** if `IGAProbeSetOrder` raises the order after `IGAProbeSetPoint`: the tables of the higher order are
not computed, and the evaluation reports success with the contents they had, zero after `IGAProbeCreate`.
Here the field is `y ↦ y²` and the second derivative reported is `0`, not `2`. -/
theorem C52_stale_refuted (J : Bsp.Junk ℝ) (old : Tab ℝ 1 (Fin 3)) (hold : ∀ i j a, old.t2 i j a = 0) (mem : List (Fin 1) → Fin 1 → ℝ)
    (f : List Int → Nat → ℝ) (hf : ∀ i c, f [i] c = if i = 2 then 1 else 0) :
    setOrder 2 = .ok 2 ∧
    (∃ v, evaluate 2 2 true false true (tensor1 1 (table J 2 (1/2) 2 1 exR.U) old)
      (fun c a => coef (closureVals [exR] [2] 1 f) 1 c (flat (nens [exR]) [(a.val:Int)])) mem = .ok v ∧ v [0, 0] 0 = 0) ∧
    (∃ v, evaluate 2 2 true false true (tensor1 2 (table J 2 (1/2) 2 2 exR.U) old)
      (fun c a => coef (closureVals [exR] [2] 1 f) 1 c (flat (nens [exR]) [(a.val:Int)])) mem = .ok v ∧ v [0, 0] 0 = 2) := by
  refine ⟨rfl, ?_, ?_⟩
  · refine ⟨_, rfl, ?_⟩
    have e : ∀ a, (tensor1 1 (table J 2 (1/2) 2 1 exR.U) old).t2 0 0 a = 0 := fun a => hold 0 0 a
    rw [if_neg (by simp)]
    dsimp only
    unfold Ker.evaluate
    refine Finset.sum_eq_zero fun a _ => ?_
    dsimp only
    rw [e a, zero_mul]
  · obtain ⟨v, h1, h2⟩ := C52_value_1d J exR 2 rfl exR_sorted exR_span f 2 2 (by omega) (by omega) false true (by simp) old mem
    refine ⟨v, h1, ?_⟩
    rw [h2 [0, 0] 0 rfl]
    have e : (fun y : Fin 1 → ℝ => ∑ a : Fin 3, f [2 - ((2:Nat):Int) + a.val] (0 : Fin 1) * pieces exR.U 2 2 a (y 0)) = fun y => y 0 * y 0 := by
      funext y
      rw [Fin.sum_univ_three, ← exR_piece]
      simp only [hf]
      norm_num
    rw [e]
    have e1 : pd (0 : Fin 1) (fun y => y 0 * y 0) = fun y => 2 * y 0 := by
      funext y
      unfold pd
      simp only [Function.update_self]
      rw [deriv_fun_mul differentiableAt_id differentiableAt_id]
      simp
      ring
    show pd 0 (pd 0 (fun y => y 0 * y 0)) _ = _
    rw [e1]
    unfold pd
    simp only [Function.update_self]
    rw [deriv_const_mul _ differentiableAt_id]
    simp

/-! ### Non-vacuity -/

theorem exB_stores : AllStore [exB0, exB1] (fun r => [(1, if r = 0 then [0, 1, 2, 3] else [2, 3, 4, 5])]) [(1, fun y _ => y.headD 0)] := by
  have key : ∀ s : Int, Stores [s] [4] 1 [s, s+1, s+2, s+3] (fun y _ => y.headD 0) := by
    intro s y c hy hc
    obtain rfl : c = 0 := by omega
    cases hy with
    | cons h h' =>
      cases h'
      rename_i a
      obtain ⟨i, hi⟩ : ∃ i, a = s + i := ⟨a - s, by ring⟩
      subst hi
      have : 0 ≤ i ∧ i < 4 := by omega
      obtain ⟨i0, i1⟩ := this
      interval_cases i <;> simp [flat, rel]
  intro r L h
  match r, h with
  | 0, h =>
    simp only [List.getElem?_cons_zero, Option.some.injEq] at h
    subst h
    rw [exB_dir.1]
    exact .cons ⟨rfl, key 0⟩ .nil
  | 1, h =>
    simp only [List.getElem?_cons_succ, List.getElem?_cons_zero, Option.some.injEq] at h
    subst h
    rw [exB_dir.2]
    exact .cons ⟨rfl, key 2⟩ .nil
  | (n+2), h => simp at h

/-- The hypotheses of `C52_collective`, `C52_independent` and `C52_outside`: six nodes on two processes, arrays with one
value per ghosted node, two points of the domain and one outside. -/
example : Setup exactGuess2 exactGuess3 false 2 [2] [exAxB] [(Ax.setUp exAxB).2] [exB0, exB1] ∧
    AllStore [exB0, exB1] (fun r => [(1, if r = 0 then [0, 1, 2, 3] else [2, 3, 4, 5])]) [(1, fun y _ => y.headD 0)] ∧
    InDomain [(Ax.setUp exAxB).2] [(3/8 : Rat)] ∧ InDomain [(Ax.setUp exAxB).2] [(1 : Rat)] ∧ ¬ InDomain [(Ax.setUp exAxB).2] [(9/8 : Rat)] := by
  refine ⟨exSetupB, exB_stores, .cons (by decide +kernel) .nil, .cons (by decide +kernel) .nil, ?_⟩
  intro h
  cases h with
  | cons h _ => exact absurd h.2 (by decide +kernel)

/-- The values in that case: both processes get the coefficients of the functions 1, 2 and 3 from process 0 (only
process 0 has all of them). -/
example : setPoint true true (probes [exB0, exB1] (fun r => [(1, if r = 0 then [0, 1, 2, 3] else [2, 3, 4, 5])]) (fun _ => [[]])) [(3/8 : Rat)]
    = .ok [(false, [[1, 2, 3]]), (true, [[(1 : Int), 2, 3]])] := by decide +kernel

/-- The hypotheses of `C52_vector`, for any nodal field. -/
example (u : List Int → Nat → Int) : ∃ gvec, Represents [(Ax.setUp exAxB).2] [exB0, exB1] 3 gvec u := represents_exists exSetupB 3 u

/-- The hypotheses of `C52_collocation_partial`: degree 2, four elements, two processes. -/
example : ∃ Ls, Setup exactGuess2 exactGuess3 true 2 [2] [exAxB] [(Ax.setUp exAxB).2] Ls ∧
    (∀ ax ∈ [(Ax.setUp exAxB).2], ax.U ax.p < ax.U (ax.p+1) ∧ ax.U (ax.m-ax.p-1) < ax.U (ax.m-ax.p)) ∧
    (∀ ax ∈ [(Ax.setUp exAxB).2], ∀ k, IsElement ax.p ax.m ax.U k → ∃ i, 0 ≤ i ∧ i < ax.nnp ∧ spanOf true ax i = .ok k) := by
  have h0 : stage1 exactGuess2 exactGuess3 true 2 0 [2] [exAxB] = .ok (lay (stage1 exactGuess2 exactGuess3 true 2 0 [2] [exAxB])) :=
    lay_eq (d := [⟨6,0,3,6,0,3,0,4,0,6,0,3,0,4⟩]) (a := [(2,8,6)]) (by decide +kernel)
  obtain ⟨Ls, h⟩ := allRanks_exists exactGuess2 exactGuess3 true 2 [2] _ _ 0 exAxB_reached h0
  refine ⟨Ls, ⟨exAxB_reached, by simp, rfl, by omega, h, ?_⟩, ?_, ?_⟩
  · intro ax h
    simp only [List.mem_cons, List.not_mem_nil, or_false] at h
    subst h
    exact ⟨by simp, fun _ => by decide +kernel⟩
  · intro ax h
    simp only [List.mem_cons, List.not_mem_nil, or_false] at h
    subst h
    decide +kernel
  · intro ax h k hk
    simp only [List.mem_cons, List.not_mem_nil, or_false] at h
    subst h
    have hp : (Ax.setUp exAxB).2.p = 2 := by decide +kernel
    have hm : (Ax.setUp exAxB).2.m = 8 := by decide +kernel
    obtain ⟨k0, k1, -⟩ := hk
    rw [hp] at k0 k1
    rw [hm] at k1
    have hn : (Ax.setUp exAxB).2.nnp = 6 := by decide +kernel
    rw [hn]
    have : k ≤ 5 := by omega
    interval_cases k
    · exact ⟨0, by omega, by omega, by decide +kernel⟩
    · exact ⟨2, by omega, by omega, by decide +kernel⟩
    · exact ⟨3, by omega, by omega, by decide +kernel⟩
    · exact ⟨5, by omega, by omega, by decide +kernel⟩

/-- The hypotheses of `C52_value_1d`: see `exR_sorted` and `exR_span`. -/
example : SortedKnots exR.m exR.U ∧ SpanOf exR (1/2) 2 ∧ exR.p = (2:Nat) := ⟨exR_sorted, exR_span, rfl⟩

end PetIGA.Prb
