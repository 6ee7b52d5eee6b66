import Verif.Props.ReproduceProbe
import Verif.Props.ProjectEx
import Mathlib.Analysis.Convex.Combination

/-!
C117: fields stay between the smallest and the largest coefficient, geometries in the convex hull of the control points.
-/
set_option linter.unusedSectionVars false

namespace PetIGA.Itg
open PetIGA.Quad PetIGA.Drv PetIGA.Spec PetIGA.Ax PetIGA.Lay PetIGA.Asm PetIGA.Rule PetIGA.Grid PetIGA.Part PetIGA.Ker PetIGA.PCA
open Polynomial

variable {g2 : Guess2} {g3 : Guess3} {size : Int} {procs : List Int} {axes : List (Axis ℝ)} {Ls : List (Layout ℝ)}

/-- The weights of the NURBS, if there are any, are positive. -/
def PositiveWeights {d nsd n : Nat} (c : PtIn d nsd (Fin n)) : Prop := ∀ W, c.rational = some W → ∀ a, 0 < W a

/-- The points of the rules are in the reference interval. -/
def PointsInside (ds : List (Direction Line)) : Prop := ∀ δ ∈ ds, ∀ x ∈ δ.X, -1 ≤ x ∧ x ≤ 1

/-- Every function of the element has its place in the box of local indices. -/
theorem local_index (axs : List (Axis ℝ)) (a : Fin (nenOf axs)) : ∃ t, InBox (nens axs) t ∧ (a:Int) = flat (nens axs) t := by
  have hlt : (a:Nat) < (indices (nens axs)).length := a.isLt
  have hz : ((indices (nens axs))[(a:Nat)], (a:Nat)) ∈ (indices (nens axs)).zipIdx := by
    rw [List.mk_mem_zipIdx_iff_getElem?, List.getElem?_eq_getElem hlt]
  rw [zipIdx_indices] at hz
  obtain ⟨t, ht, e1⟩ := List.mem_map.1 hz
  have h0 := (flat_range ((mem_indices _ _).1 ht)).1
  have := (Prod.mk.inj e1).2
  exact ⟨t, (mem_indices _ _).1 ht, by omega⟩

/-- At a point of an element the functions, rational or not, are not negative. -/
theorem basis_nonneg {ds : List (Direction Line)} (hw : ∀ δ ∈ ds, WF δ.ax) {nsd : Nat}
    (c : PtIn ds.length nsd (Fin (nenOf (ds.map Direction.ax)))) (hR : PositiveWeights c) (hX : PointsInside ds) {e : List Int}
    (he : InBox (ds.map fun δ => δ.ax.nel) e) {pts : List (Pt Line)} (hp : pts ∈ tensorPoints (lines ds e))
    {N : Tab ℝ ds.length (Fin (nenOf (ds.map Direction.ax)))}
    (hN : ∀ t, InBox (nens (ds.map Direction.ax)) t → ∀ a : Fin (nenOf (ds.map Direction.ax)), (a:Int) = flat (nens (ds.map Direction.ax)) t →
      N.t0 a = evalProd (bpolys (ds.map Direction.ax) e (List.replicate ds.length 0) t) (pts.map Pt.x) ∧
      (1 ≤ c.order → ∀ i, N.t1 i a = evalProd (bpolys (ds.map Direction.ax) e (unitOrder i) t) (pts.map Pt.x))) :
    ∀ a, 0 ≤ (basisOf c N).t0 a := by
  have hw' : ∀ ax ∈ ds.map Direction.ax, WF ax := by
    intro ax hax
    obtain ⟨δ, hδ, rfl⟩ := List.mem_map.1 hax
    exact hw δ hδ
  have he' : InBox ((ds.map Direction.ax).map fun ax => ax.nel) e := by rw [List.map_map]; exact he
  have hin := lines_inside hw hX he (mem_tensorPoints hp)
  have hnn : ∀ a, 0 ≤ N.t0 a := by
    intro a
    obtain ⟨t, ht', hta⟩ := local_index (ds.map Direction.ax) a
    rw [(hN t ht' a hta).1]
    have := tensor_nonneg (ds.map Direction.ax) e t (pts.map Pt.x) hw' he' ht' hin
    rwa [List.length_map] at this
  intro a
  cases hr : c.rational with
  | none =>
    have hB : basisOf c N = N := by unfold basisOf; rw [hr]
    rw [hB]
    exact hnn a
  | some W =>
    have hR0 : (basisOf c N).t0 a = W a * N.t0 a / ∑ a, W a * N.t0 a := by
      unfold basisOf
      rw [hr]
      dsimp only
      unfold rationalize
      split_ifs <;> rfl
    rw [hR0]
    exact div_nonneg (mul_nonneg (hR W hr a).le (hnn a)) (Finset.sum_nonneg fun b _ => mul_nonneg (hR W hr b).le (hnn b))

/-- The nodes of element `e`. -/
def NodeOf (axs : List (Axis ℝ)) (e z : List Int) : Prop := ∃ t, InBox (nens axs) t ∧ z = nodeOf false axs e t

/-- **C117**, fields at the points of the elements: the functions are not negative and sum to one; hence whatever bounds the
values of the field at the nodes of the element bounds its value at the point. -/
theorem C117_between {ds : List (Direction Line)} (S : Setup g2 g3 false size procs axes (ds.map Direction.ax) Ls)
    (hT : ∀ δ ∈ ds, δ.Tabulated) (hs : ∀ δ ∈ ds, IsSpline δ) (hX : PointsInside ds) {nsd : Nat}
    (c : PtIn ds.length nsd (Fin (nenOf (ds.map Direction.ax)))) (hR : PositiveWeights c) {e : List Int}
    (he : InBox (ds.map fun δ => δ.ax.nel) e) {mem} {qs} (h : tabulateElement c (ds.map Direction.B) e mem = .ok qs) :
    ∀ q ∈ qs, (∀ a, 0 ≤ q.data.shape.t0 a) ∧ ∑ a, q.data.shape.t0 a = 1 ∧
      ∀ (u : List Int → Nat → ℝ) (k : Nat) (lo hi : ℝ), (∀ z, NodeOf (ds.map Direction.ax) e z → lo ≤ u z k ∧ u z k ≤ hi) →
        lo ≤ combine (ds.map Direction.ax) e q.data.shape.t0 u k ∧ combine (ds.map Direction.ax) e q.data.shape.t0 u k ≤ hi := by
  obtain ⟨h1, h3, hw⟩ := setup_facts S
  intro q hq
  obtain ⟨pts, hp, N, m, o, hN, ho, rfl⟩ := (tabulated_points rfl h1 h3 hT hs hw c he mem h).2 q hq
  obtain ⟨s0, -⟩ := basis_sums hw c (fun W hW => ⟨hR W hW, hX⟩) he hp hN
  have hn := basis_nonneg hw c hR hX he hp hN
  obtain ⟨b1, b2⟩ := tabulate_basis ho
  dsimp only
  rw [b2]
  refine ⟨hn, s0, fun u k lo hi hu => ?_⟩
  choose t ht hta using local_index (ds.map Direction.ax)
  rw [combine_fin (ds.map Direction.ax) rfl e _ (fun a => u (nodeOf false (ds.map Direction.ax) e (t a)) k) u k (fun s hs a ha => by
    rw [show t a = s from flat_inj (ht a) hs (by rw [← hta a, ha])])]
  have hb : ∀ a, lo ≤ u (nodeOf false (ds.map Direction.ax) e (t a)) k ∧ u (nodeOf false (ds.map Direction.ax) e (t a)) k ≤ hi :=
    fun a => hu _ ⟨t a, ht a, rfl⟩
  constructor
  · calc lo = ∑ a, lo * (basisOf c N).t0 a := by rw [← Finset.mul_sum, s0, mul_one]
      _ ≤ _ := Finset.sum_le_sum fun a _ => mul_le_mul_of_nonneg_right (hb a).1 (hn a)
  · calc _ ≤ ∑ a, hi * (basisOf c N).t0 a := Finset.sum_le_sum fun a _ => mul_le_mul_of_nonneg_right (hb a).2 (hn a)
      _ = hi := by rw [← Finset.mul_sum, s0, mul_one]

/-- **C117**, the geometry: the position that `IGAPointFormGeomMap` reports at a point of an element is in the convex hull of
the control points of the element. -/
theorem C117_geometry {ds : List (Direction Line)} (S : Setup g2 g3 false size procs axes (ds.map Direction.ax) Ls)
    (hT : ∀ δ ∈ ds, δ.Tabulated) (hs : ∀ δ ∈ ds, IsSpline δ) (hX : PointsInside ds) {nsd : Nat}
    (c : PtIn ds.length nsd (Fin (nenOf (ds.map Direction.ax)))) (hR : PositiveWeights c) (C) (hC : c.geometry = some C) {e : List Int}
    (he : InBox (ds.map fun δ => δ.ax.nel) e) {mem} {qs} (h : tabulateElement c (ds.map Direction.B) e mem = .ok qs)
    (X : List Int → Nat → ℝ) (hN : OnNet (ds.map Direction.ax) e C X) :
    ∀ q ∈ qs, q.data.arrays.mapX.t0 ∈ convexHull ℝ {x : Fin nsd → ℝ | ∃ z, NodeOf (ds.map Direction.ax) e z ∧ ∀ l : Fin nsd, x l = X z l} := by
  intro q hq
  obtain ⟨hn, s0, -⟩ := C117_between S hT hs hX c hR he h q hq
  have key : q.data.arrays.mapX.t0 = ∑ a, q.data.shape.t0 a • (fun l => C l a) := by
    funext l
    have := C97_affine S hT hs c (fun W hW => ⟨hR W hW, hX⟩) C hC he h X hN 0 (fun i => if i = l then 1 else 0) 0 q hq
    simp only [ite_mul, one_mul, zero_mul, Finset.sum_ite_eq', Finset.mem_univ, if_true, zero_add] at this
    rw [← this, combine_fin (ds.map Direction.ax) rfl e _ (fun a => C l a) _ 0 (fun s hs a ha => (hN s hs a ha l).symm), Finset.sum_apply]
    exact Finset.sum_congr rfl fun a _ => by rw [Pi.smul_apply, smul_eq_mul, mul_comm]
  rw [key]
  refine (convex_convexHull ℝ _).sum_mem (fun a _ => hn a) s0 fun a _ => subset_convexHull ℝ _ ?_
  obtain ⟨t, ht, hta⟩ := local_index (ds.map Direction.ax) a
  exact ⟨_, ⟨t, ht, rfl⟩, fun l => hN t ht a hta l⟩

/-- The theorems apply to every NURBS surface in space with the weights 1, 2, …, 9 on the mesh of `exRealSetup` (two processes):
every element has points, and they lie in the hull of its control points. -/
example (g2 : Guess2) (g3 : Guess3) (J : Bsp.Junk ℝ) (X : List Int → Nat → ℝ) (e : List Int) (he : InBox ((exLines J).map fun δ => δ.ax.nel) e) (mem) :
    ∃ qs, tabulateElement (exPtS J X e) ((exLines J).map Direction.B) e mem = .ok qs ∧ qs ≠ [] ∧ ∀ q ∈ qs, q.data.arrays.mapX.t0 ∈
      convexHull ℝ {x : Fin 3 → ℝ | ∃ z, NodeOf ((exLines J).map Direction.ax) e z ∧ ∀ l : Fin 3, x l = X z l} := by
  obtain ⟨Ls, S⟩ := exRealSetup g2 g3
  have S' : Setup g2 g3 false 2 [2,1] [exRealAx, exRealAx] ((exLines J).map Direction.ax) Ls := S
  have hok := exLines_ok J
  have hw := setup_facts S'
  obtain ⟨qs, hqs⟩ := tabulateElement_ok rfl hw.1 hw.2.1 (fun δ h => (hok δ h).1) (fun δ h => (hok δ h).2.1) hw.2.2 (exPtS J X e)
    (.inr (.inl (by simp [exLines]))) he mem
  refine ⟨qs, hqs, ?_, ?_⟩
  · have hne : tensorPoints (lines (exLines J) e) ≠ [] := by
      refine tensorPoints_ne fun l hl => ?_
      match e, PetIGA.Grid.inBox_length he with
      | [a, b], _ =>
        simp only [lines, exLines, List.zipWith_cons_cons, List.zipWith_nil_left, List.mem_cons, List.not_mem_nil, or_false] at hl
        rcases hl with rfl | rfl <;> simp [exLine]
    obtain ⟨pts, rest, hp⟩ := List.exists_cons_of_ne_nil hne
    obtain ⟨q, hq, -⟩ := (tabulated_points rfl hw.1 hw.2.1 (fun δ h => (hok δ h).1) (fun δ h => (hok δ h).2.1) hw.2.2 (exPtS J X e) he mem hqs).1 pts
      (by rw [hp]; exact List.mem_cons_self)
    exact List.ne_nil_of_mem hq
  · exact C117_geometry S' (fun δ h => (hok δ h).1) (fun δ h => (hok δ h).2.1) (fun δ h => (hok δ h).2.2.2) (exPtS J X e)
      (fun W hW a => by simp only [exPtS, Option.some.injEq] at hW; subst hW; positivity) _ rfl he hqs X (netPoints_on _ _ _)

end PetIGA.Itg

namespace PetIGA.Prb
open PetIGA.Spec PetIGA.Ker PetIGA.Ax PetIGA.Bsp PetIGA.Lay PetIGA.Asm Polynomial
variable {dof : Nat}

/-- The coordinate is in the domain of the direction. -/
def Within (ax : Axis ℝ) (x : ℝ) : Prop := ax.U ax.p ≤ x ∧ x ≤ ax.U (ax.m - ax.p)

theorem span_inside {ax : Axis ℝ} {x : ℝ} {k : Int} (hk : SpanOf ax x k) (hx : Within ax x) : ax.U k ≤ x ∧ x ≤ ax.U (k+1) := by
  rcases lt_or_ge x (ax.U (ax.m - ax.p)) with h | h
  · exact ⟨(hk.inside hx.1 h).1, (hk.inside hx.1 h).2.le⟩
  · have e := hk.right h
    have hel := hk.elem.2.2
    have e2 : k + 1 = ax.m - ax.p := by omega
    rw [e2] at hel ⊢
    exact ⟨by linarith, hx.2⟩

theorem pieces_hull (J : Junk ℝ) {ax : Axis ℝ} {p : Nat} (hp : ax.p = p) (h : SortedKnots ax.m ax.U) {x : ℝ} {k : Int} (hk : SpanOf ax x k) (hx : Within ax x) :
    (∀ a : Fin (p+1), 0 ≤ pieces ax.U k p a x) ∧ ∑ a : Fin (p+1), pieces ax.U k p a x = 1 := by
  have hel := hk.elem
  rw [hp] at hel
  obtain ⟨i1, i2⟩ := span_inside hk hx
  have hv : ∀ r : Nat, r ≤ p → basis J k x p (min p 4) ax.U 0 r = (piece ax.U k p (k - p + r)).eval x := fun r hr => by
    have := C13_library_call J p ax.m k ax.U x h hel r hr 0 (by omega)
    simpa using this
  obtain ⟨c1, -, c3⟩ := C12_partition_of_unity J p ax.m k ax.U x h hel
  refine ⟨fun a => ?_, ?_⟩
  · have := c3 i1 i2 a.val (by omega)
    rw [hv a.val (by omega)] at this
    exact this
  · rw [Finset.sum_range] at c1
    rw [← c1]
    exact Finset.sum_congr rfl fun a _ => (hv a.val (by omega)).symm

theorem between {ι : Type} [Fintype ι] (g b : ι → ℝ) (lo hi : ℝ) (hb : ∀ a, 0 ≤ b a) (h1 : ∑ a, b a = 1) (hg : ∀ a, lo ≤ g a ∧ g a ≤ hi) :
    lo ≤ ∑ a, g a * b a ∧ ∑ a, g a * b a ≤ hi := by
  constructor
  · calc lo = ∑ a, lo * b a := by rw [← Finset.mul_sum, h1, mul_one]
      _ ≤ _ := Finset.sum_le_sum fun a _ => mul_le_mul_of_nonneg_right (hg a).1 (hb a)
  · calc _ ≤ ∑ a, hi * b a := Finset.sum_le_sum fun a _ => mul_le_mul_of_nonneg_right (hg a).2 (hb a)
      _ = hi := by rw [← Finset.mul_sum, h1, mul_one]

/-- **C117**, probe, one direction: at every point of the domain the value is between the bounds of the coefficients. -/
theorem C117_probe_1d (J : Bsp.Junk ℝ) (ax : Axis ℝ) (p : Nat) (hp : ax.p = p) (h : SortedKnots ax.m ax.U) {x : ℝ} {k : Int} (hk : SpanOf ax x k)
    (hx : Within ax x) (f : List Int → Nat → ℝ) (order : Int) (ho : 0 ≤ order ∧ order ≤ 4)
    (off collective : Bool) (hc : off = true → collective = true) (old : Tab ℝ 1 (Fin (p+1))) (mem : List (Fin 1) → Fin dof → ℝ)
    (c : Fin dof) (lo hi : ℝ) (hf : ∀ a : Fin (p+1), lo ≤ f [k - p + a.val] c ∧ f [k - p + a.val] c ≤ hi) :
    ∃ v, evaluate order 0 true off collective (tensor1 order (table J k x p order ax.U) old)
        (fun c a => coef (closureVals [ax] [k] dof f) dof c (flat (nens [ax]) [(a.val:Int)])) mem = .ok v ∧ lo ≤ v [] c ∧ v [] c ≤ hi := by
  obtain ⟨v, h1, h2⟩ := C52_value_1d J ax p hp h hk f order 0 ho ⟨le_refl _, ho.1⟩ off collective hc old mem
  refine ⟨v, h1, ?_⟩
  rw [h2 [] c rfl]
  obtain ⟨a1, a2⟩ := pieces_hull J hp h hk hx
  exact between (fun a => f [k - p + a.val] c) _ lo hi a1 a2 hf

/-- **C117**, probe, two directions. -/
theorem C117_probe_2d (J : Bsp.Junk ℝ) (ax bx : Axis ℝ) (p q : Nat) (hp : ax.p = p) (hq : bx.p = q) (h : SortedKnots ax.m ax.U) (h' : SortedKnots bx.m bx.U)
    {x y : ℝ} {k j : Int} (hk : SpanOf ax x k) (hj : SpanOf bx y j) (hx : Within ax x) (hy : Within bx y)
    (f : List Int → Nat → ℝ) (order : Int) (ho : 0 ≤ order ∧ order ≤ 4)
    (off collective : Bool) (hc : off = true → collective = true) (old : Tab ℝ 2 (Fin (p+1) × Fin (q+1))) (mem : List (Fin 2) → Fin dof → ℝ)
    (c : Fin dof) (lo hi : ℝ) (hf : ∀ (a : Fin (p+1)) (b : Fin (q+1)), lo ≤ f [k - p + a.val, j - q + b.val] c ∧ f [k - p + a.val, j - q + b.val] c ≤ hi) :
    ∃ v, evaluate order 0 true off collective (tensor2 order (table J k x p order ax.U) (table J j y q order bx.U) old)
        (fun c a => coef (closureVals [ax, bx] [k, j] dof f) dof c (flat (nens [ax, bx]) [(a.1.val:Int), (a.2.val:Int)])) mem = .ok v ∧
      lo ≤ v [] c ∧ v [] c ≤ hi := by
  obtain ⟨v, h1, h2⟩ := C52_value_2d J ax bx p q hp hq h h' hk hj f order 0 ho ⟨le_refl _, ho.1⟩ off collective hc old mem
  refine ⟨v, h1, ?_⟩
  rw [h2 [] c rfl]
  obtain ⟨a1, a2⟩ := pieces_hull J hp h hk hx
  obtain ⟨b1, b2⟩ := pieces_hull J hq h' hj hy
  refine between (fun a : Fin (p+1) × Fin (q+1) => f [k - p + a.1.val, j - q + a.2.val] c)
    (fun a => pieces ax.U k p a.1 x * pieces bx.U j q a.2 y) lo hi (fun a => mul_nonneg (a1 _) (b1 _)) ?_ fun a => hf a.1 a.2
  simp only [← Finset.univ_product_univ, Finset.sum_product, ← Finset.mul_sum, b2, mul_one, a2]

/-- **C117**, probe, three directions. -/
theorem C117_probe_3d (J : Bsp.Junk ℝ) (ax bx cx : Axis ℝ) (p q s : Nat) (hp : ax.p = p) (hq : bx.p = q) (hs : cx.p = s) (h : SortedKnots ax.m ax.U)
    (h' : SortedKnots bx.m bx.U) (h'' : SortedKnots cx.m cx.U) {x y w : ℝ} {k j i : Int} (hk : SpanOf ax x k) (hj : SpanOf bx y j) (hi : SpanOf cx w i)
    (hx : Within ax x) (hy : Within bx y) (hw : Within cx w)
    (f : List Int → Nat → ℝ) (order : Int) (ho : 0 ≤ order ∧ order ≤ 4)
    (off collective : Bool) (hc : off = true → collective = true) (old : Tab ℝ 3 (Fin (p+1) × Fin (q+1) × Fin (s+1))) (mem : List (Fin 3) → Fin dof → ℝ)
    (c : Fin dof) (lo up : ℝ) (hf : ∀ (a : Fin (p+1)) (b : Fin (q+1)) (d : Fin (s+1)),
      lo ≤ f [k - p + a.val, j - q + b.val, i - s + d.val] c ∧ f [k - p + a.val, j - q + b.val, i - s + d.val] c ≤ up) :
    ∃ v, evaluate order 0 true off collective (tensor3 order (table J k x p order ax.U) (table J j y q order bx.U) (table J i w s order cx.U) old)
        (fun c a => coef (closureVals [ax, bx, cx] [k, j, i] dof f) dof c
          (flat (nens [ax, bx, cx]) [(a.1.val:Int), (a.2.1.val:Int), (a.2.2.val:Int)])) mem = .ok v ∧
      lo ≤ v [] c ∧ v [] c ≤ up := by
  obtain ⟨v, h1, h2⟩ := C52_value_3d J ax bx cx p q s hp hq hs h h' h'' hk hj hi f order 0 ho ⟨le_refl _, ho.1⟩ off collective hc old mem
  refine ⟨v, h1, ?_⟩
  rw [h2 [] c rfl]
  obtain ⟨a1, a2⟩ := pieces_hull J hp h hk hx
  obtain ⟨b1, b2⟩ := pieces_hull J hq h' hj hy
  obtain ⟨c1, c2⟩ := pieces_hull J hs h'' hi hw
  refine between (fun a : Fin (p+1) × Fin (q+1) × Fin (s+1) => f [k - p + a.1.val, j - q + a.2.1.val, i - s + a.2.2.val] c)
    (fun a => pieces ax.U k p a.1 x * pieces bx.U j q a.2.1 y * pieces cx.U i s a.2.2 w) lo up
    (fun a => mul_nonneg (mul_nonneg (a1 _) (b1 _)) (c1 _)) ?_ fun a => hf a.1 a.2.1 a.2.2
  simp only [← Finset.univ_product_univ, Finset.sum_product, ← Finset.mul_sum, c2, mul_one]
  simp only [← Finset.mul_sum, b2, mul_one, a2]

/-- The point 1/2 of the quadratic axis `exR` meets the hypotheses. -/
example : SortedKnots exR.m exR.U ∧ SpanOf exR (1/2) 2 ∧ exR.p = (2:Nat) ∧ Within exR (1/2) := by
  refine ⟨exR_sorted, exR_span, rfl, ?_⟩
  unfold Within exR
  norm_num

/-- Outside the domain (a probe checks its points only in a build with error checking) the bounds do not hold: the coefficients
0, 0, 1 of `exR` give the value 4 at the point 2. -/
example (J : Bsp.Junk ℝ) (old : Tab ℝ 1 (Fin 3)) (mem : List (Fin 1) → Fin 1 → ℝ) : SpanOf exR 2 2 ∧
    ∃ v, evaluate 0 0 true false false (tensor1 0 (table J 2 2 2 0 exR.U) old)
      (fun c a => coef (closureVals [exR] [2] 1 fun z _ => if z = [2] then 1 else 0) 1 c (flat (nens [exR]) [(a.val:Int)])) mem = .ok v ∧ v [] 0 = 4 := by
  have hk : SpanOf exR 2 2 := by
    refine ⟨exR_span.elem, ?_, ?_, ?_⟩
    · intro _ h; unfold exR at h; norm_num at h
    · intro h; unfold exR at h; norm_num at h
    · intro _; rfl
  refine ⟨hk, ?_⟩
  obtain ⟨v, h1, h2⟩ := C52_value_1d (dof := 1) J exR 2 rfl exR_sorted hk (fun z _ => if z = [2] then 1 else 0) 0 0 ⟨by omega, by omega⟩ ⟨by omega, by omega⟩
    false false (by simp) old mem
  refine ⟨v, h1, ?_⟩
  rw [h2 [] 0 rfl]
  show ∑ a : Fin 3, (if [(2:Int) - (2:Nat) + (a.val:Int)] = [2] then (1:ℝ) else 0) * pieces exR.U 2 2 a 2 = 4
  rw [Fin.sum_univ_three, exR_piece]
  norm_num

end PetIGA.Prb
