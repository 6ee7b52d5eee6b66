import Verif.Props.Face
import Verif.Props.FaceEx
import Verif.Props.Poisson
import Mathlib.MeasureTheory.Integral.IntervalIntegral.FundThmCalculus

/-!
C121: the sums over the points of the elements and of the sides satisfy the divergence theorem.
-/
set_option linter.unusedSectionVars false

namespace PetIGA.Itg
open PetIGA.Quad PetIGA.Drv PetIGA.Spec PetIGA.Ax PetIGA.Lay PetIGA.Asm PetIGA.Rule PetIGA.Grid PetIGA.Part PetIGA.Ker PetIGA.PCA
open Polynomial

variable {g2 : Guess2} {g3 : Guess3} {size : Int} {procs : List Int} {axes : List (Axis ℝ)} {Ls : List (Layout ℝ)}

/-! ### Sums over tensor products -/

theorem sum_flatMap_map {α β : Type} (l : List α) (r : α → List β) (f : β → ℝ) :
    ((l.flatMap r).map f).sum = (l.map fun a => ((r a).map f).sum).sum := by
  induction l with
  | nil => simp
  | cons a l ih => simp [ih]

theorem sum_sum_swap {α β : Type} (l : List α) (r : List β) (f : α → β → ℝ) :
    (l.map fun a => (r.map fun b => f a b).sum).sum = (r.map fun b => (l.map fun a => f a b).sum).sum := by
  induction l with
  | nil => simp
  | cons a l ih => simp only [List.map_cons, List.sum_cons, ih, List.sum_map_add]

/-- One direction of a tensor product can be summed last. -/
theorem sum_tensor_insert {α : Type} : ∀ (ls : List (List α)) (i : Nat) (l : List α), ls[i]? = some l → ∀ f : List α → ℝ,
    ((tensorPoints ls).map f).sum = ((tensorPoints (ls.eraseIdx i)).map fun r => (l.map fun p => f (r.insertIdx i p)).sum).sum
  | [], _, _, h, _ => by simp at h
  | l0 :: ls, 0, l, h, f => by
    simp only [List.getElem?_cons_zero, Option.some.injEq] at h
    subst h
    simp only [tensorPoints, List.eraseIdx_zero, List.tail_cons, List.insertIdx_zero]
    rw [sum_flatMap_map]
    simp only [List.map_map, Function.comp_def]
  | l0 :: ls, i+1, l, h, f => by
    simp only [List.getElem?_cons_succ] at h
    simp only [tensorPoints, List.eraseIdx_cons_succ]
    rw [sum_flatMap_map, sum_flatMap_map]
    simp only [List.map_map, Function.comp_def, List.insertIdx_succ_cons]
    rw [sum_tensor_insert ls i l h fun rest => (l0.map fun p => f (p :: rest)).sum]
    congr 1
    refine List.map_congr_left fun r _ => ?_
    exact sum_sum_swap _ _ _

theorem indices_tensor : ∀ ns : List Int, indices ns = tensorPoints (ns.map fun n => (List.range n.toNat).map fun (k : Nat) => (k:Int))
  | [] => rfl
  | n :: ns => by
    simp only [indices, tensorPoints, List.map_cons, indices_tensor ns, List.map_map, Function.comp_def]

theorem lines_erase {V : Type} : ∀ (ds : List (Direction V)) (e : List Int) (i : Nat), (lines ds e).eraseIdx i = lines (ds.eraseIdx i) (e.eraseIdx i)
  | [], _, _ => by simp [lines]
  | _ :: _, [], i => by cases i <;> simp [lines]
  | d :: ds, a :: e, 0 => by simp [lines]
  | d :: ds, a :: e, i+1 => by
    have := lines_erase ds e i
    unfold lines at this ⊢
    simp [this]

/-- The points of a direction in its element `e0`. -/
noncomputable def linePts (δ : Direction Line) (e0 : Int) : List (Pt Line) := (δ.X.zip δ.W).map (ptOf δ (sp δ.ax e0))

/-- The sum over all points of the mesh, direction `i` last. -/
theorem sum_mesh_elem (ds : List (Direction Line)) (i : Fin ds.length) (G : List Int → List (Pt Line) → ℝ) :
    ((indices (ds.map fun δ => δ.ax.nel)).map fun e => ((tensorPoints (lines ds e)).map (G e)).sum).sum =
      ((indices ((ds.eraseIdx i).map fun δ => δ.ax.nel)).map fun e => ((tensorPoints (lines (ds.eraseIdx i) e)).map fun r =>
        ((List.range ds[i].ax.nel.toNat).map fun (k : Nat) => ((linePts ds[i] k).map fun p => G (e.insertIdx i (k:Int)) (r.insertIdx i p)).sum).sum).sum).sum := by
  have hg : ((ds.map fun δ => δ.ax.nel).map fun n => (List.range n.toNat).map fun (k : Nat) => (k:Int))[(i:Nat)]? =
      some ((List.range ds[i].ax.nel.toNat).map fun (k : Nat) => (k:Int)) := by simp
  rw [indices_tensor, sum_tensor_insert _ i _ hg, indices_tensor, List.eraseIdx_map, List.eraseIdx_map]
  congr 1
  refine List.map_congr_left fun e he => ?_
  have hel : e.length + 1 = ds.length := by
    have h := (mem_tensorPoints he).length_eq
    simp only [List.length_map] at h
    have hl : (ds.eraseIdx i).length + 1 = ds.length := by rw [List.length_eraseIdx]; have := i.isLt; simp; omega
    omega
  rw [List.map_map, ← sum_sum_swap]
  congr 1
  refine List.map_congr_left fun k _ => ?_
  simp only [Function.comp_def]
  have hi := i.isLt
  have hget : (lines ds (e.insertIdx i (k:Int)))[(i:Nat)]? = some (linePts ds[i] k) := by
    unfold lines
    rw [List.getElem?_zipWith, insert_get _ _ _ (by omega)]
    simp [linePts]
  rw [sum_tensor_insert _ i _ hget, lines_erase, insert_erase _ _ _ (by omega)]

theorem sum_mesh (ds : List (Direction Line)) (i : Fin ds.length) (G : List (Pt Line) → ℝ) :
    ((indices (ds.map fun δ => δ.ax.nel)).map fun e => ((tensorPoints (lines ds e)).map G).sum).sum =
      ((indices ((ds.eraseIdx i).map fun δ => δ.ax.nel)).map fun e => ((tensorPoints (lines (ds.eraseIdx i) e)).map fun r =>
        ((List.range ds[i].ax.nel.toNat).map fun (k : Nat) => ((linePts ds[i] k).map fun p => G (r.insertIdx i p)).sum).sum).sum).sum :=
  sum_mesh_elem ds i fun _ => G

/-! ### One line -/

/-- The sum over the points of a line of the mesh of a derivative is the difference of the values at the ends. -/
theorem line_telescope {δ : Direction Line} (hw : WF δ.ax) {n : Nat} (hx : ExactRule n δ.X δ.W) (hX : ∀ x ∈ δ.X, -1 < x ∧ x < 1)
    (F dF : ℝ → ℝ) (hc : ContinuousOn F (Set.Icc (domain δ.ax).1 (domain δ.ax).2))
    (hd : ∀ e0 : Int, 0 ≤ e0 → e0 < δ.ax.nel → ∀ s, (cell δ.ax e0).1 < s → s < (cell δ.ax e0).2 → HasDerivAt F (dF s) s)
    (P : Int → ℝ[X]) (hP : ∀ e0 : Int, 0 ≤ e0 → e0 < δ.ax.nel → (P e0).natDegree ≤ n ∧
      ∀ s, (cell δ.ax e0).1 < s → s < (cell δ.ax e0).2 → dF s = (P e0).eval s) :
    ((List.range δ.ax.nel.toNat).map fun (k : Nat) => ((linePts δ k).map fun p => dF p.x * (p.J * p.w)).sum).sum =
      F (domain δ.ax).2 - F (domain δ.ax).1 := by
  have hm := hw.legal.enough
  have hp := hw.legal.degree
  have mono : ∀ {i j : Int}, 0 ≤ i → i ≤ j → j ≤ δ.ax.m → δ.ax.U i ≤ δ.ax.U j := fun h h' h'' => Ax.sorted_mono hw.legal.sorted h h' h''
  have cellsum : ∀ k ∈ List.range δ.ax.nel.toNat, ((linePts δ k).map fun p => dF p.x * (p.J * p.w)).sum =
      F (δ.ax.U (sp δ.ax k + 1)) - F (δ.ax.U (sp δ.ax k)) := by
    intro k hk
    have hk := List.mem_range.1 hk
    obtain ⟨s1, s2, s3⟩ := sp_elem hw.toPreWF (i := (k:Int)) (by omega) (by omega)
    have hPk := hP k (by omega) (by omega)
    have hval : ((linePts δ k).map fun p => dF p.x * (p.J * p.w)) = (linePts δ k).map fun p => (P k).eval p.x * (p.J * p.w) := by
      refine List.map_congr_left fun p hp' => ?_
      unfold linePts at hp'
      obtain ⟨xw, hxw, rfl⟩ := List.mem_map.1 hp'
      have h := hX xw.1 (List.of_mem_zip hxw).1
      rw [hPk.2]
      · show δ.ax.U _ < _
        simp only [ptOf]
        nlinarith [h.1]
      · show _ < δ.ax.U _
        simp only [ptOf]
        nlinarith [h.2]
    rw [hval]
    unfold linePts
    rw [line_exact δ hx (sp δ.ax k) (P k) hPk.1]
    refine intervalIntegral.integral_eq_sub_of_hasDerivAt_of_le s3.le (hc.mono ?_) ?_ ((P k).continuous.intervalIntegrable _ _)
    · exact Set.Icc_subset_Icc (mono (by omega) (by omega) (by omega)) (mono (by omega) (by omega) (by omega))
    · intro s hs
      have := hd k (by omega) (by omega) s hs.1 hs.2
      rwa [hPk.2 s hs.1 hs.2] at this
  rw [List.map_congr_left cellsum]
  have e2 := span_range hw fun k => F (δ.ax.U (k + 1)) - F (δ.ax.U k)
  rw [← e2, sum_spans hw]
  · have := Finset.sum_range_sub (fun i : Nat => F (δ.ax.U (δ.ax.p + (i:Int)))) (δ.ax.m - 2 * δ.ax.p).toNat
    simp only [Nat.cast_add, Nat.cast_one, Nat.cast_zero, add_zero, ← add_assoc] at this
    rw [this, show δ.ax.p + (((δ.ax.m - 2 * δ.ax.p).toNat : Nat) : Int) = δ.ax.m - δ.ax.p by omega]
    rfl
  · intro k hk k1 k2
    have hle := hw.legal.sorted k (by omega) (by omega)
    rcases hle.lt_or_eq with h' | h'
    · exact absurd ⟨k1, k2, h'⟩ hk
    · rw [h', sub_self]

/-! ### Points strictly inside -/

theorem lines_strict : ∀ {ds : List (Direction Line)} {e : List Int} {pts : List (Pt Line)}, (∀ δ ∈ ds, WF δ.ax) →
    (∀ δ ∈ ds, ∀ x ∈ δ.X, -1 < x ∧ x < 1) → InBox (ds.map fun δ => δ.ax.nel) e →
    List.Forall₂ (fun l p => p ∈ l) (lines ds e) pts → InsideBox (cellBox (ds.map Direction.ax) e) (pts.map Pt.x)
  | [], _, _, _, _, he, hp => by cases he; cases hp; exact .nil
  | δ :: ds, _, _, hw, hX, he, hp => by
    cases he with
    | cons he0 he =>
    rename_i e0 es
    rw [show lines (δ :: ds) (e0 :: es) = (δ.X.zip δ.W).map (ptOf δ (sp δ.ax e0)) :: lines ds es from rfl] at hp
    cases hp with
    | cons hp0 hp =>
    obtain ⟨xw, hxw, rfl⟩ := List.mem_map.1 hp0
    have hx := hX δ (by simp) xw.1 (List.of_mem_zip hxw).1
    have hel := (isElement_sp (hw δ (by simp)) he0.1 he0.2).2.2
    refine .cons ?_ (lines_strict (fun d h => hw d (by simp [h])) (fun d h => hX d (by simp [h])) he hp)
    simp only [ptOf, cell]
    constructor <;> nlinarith [hx.1, hx.2]

theorem inside_insert : ∀ {axs : List (Axis ℝ)} {e : List Int} {ys : List ℝ} {i : Nat} {ax : Axis ℝ} {e0 : Int} {s : ℝ}, axs[i]? = some ax →
    e.length + 1 = axs.length → InsideBox (cellBox (axs.eraseIdx i) e) ys → (cell ax e0).1 < s → s < (cell ax e0).2 →
    InsideBox (cellBox axs (e.insertIdx i e0)) (ys.insertIdx i s)
  | [], _, _, _, _, _, _, h, _, _, _, _ => by simp at h
  | a :: axs, e, ys, 0, ax, e0, s, h, _, hin, h1, h2 => by
    simp only [List.getElem?_cons_zero, Option.some.injEq] at h
    subst h
    simp only [List.eraseIdx_zero, List.tail_cons] at hin
    exact .cons ⟨h1, h2⟩ hin
  | a :: axs, [], ys, i+1, ax, e0, s, h, hl, _, _, _ => by
    simp only [List.length_nil, List.length_cons] at hl
    have : axs = [] := List.length_eq_zero_iff.1 (by omega)
    subst this
    simp at h
  | a :: axs, b :: e, ys, i+1, ax, e0, s, h, hl, hin, h1, h2 => by
    simp only [List.getElem?_cons_succ] at h
    simp only [List.length_cons] at hl
    rw [List.eraseIdx_cons_succ] at hin
    cases ys with
    | nil => cases hin
    | cons y ys =>
      rw [show cellBox (a :: axs.eraseIdx i) (b :: e) = cell a b :: cellBox (axs.eraseIdx i) e from rfl] at hin
      cases hin with
      | cons hy hin =>
        rw [List.insertIdx_succ_cons, List.insertIdx_succ_cons]
        exact .cons hy (inside_insert h (by omega) hin h1 h2)

/-! ### Polynomials along a line -/

theorem evalProd_insert : ∀ {P : List ℝ[X]} {ys : List ℝ} {i : Nat} {p : ℝ[X]} (s : ℝ), P[i]? = some p → ys.length + 1 = P.length →
    evalProd P (ys.insertIdx i s) = p.eval s * evalProd (P.eraseIdx i) ys
  | [], _, _, _, _, h, _ => by simp at h
  | q :: P, ys, 0, p, s, h, _ => by
    simp only [List.getElem?_cons_zero, Option.some.injEq] at h
    subst h
    simp [evalProd]
  | q :: P, [], i+1, p, s, h, hl => by
    simp only [List.length_nil, List.length_cons] at hl
    have : P = [] := List.length_eq_zero_iff.1 (by omega)
    subst this
    simp at h
  | q :: P, y :: ys, i+1, p, s, h, hl => by
    simp only [List.getElem?_cons_succ] at h
    have := evalProd_insert s h (ys := ys) (by simpa using hl)
    unfold evalProd at this ⊢
    simp only [List.insertIdx_succ_cons, List.zipWith_cons_cons, List.prod_cons, List.eraseIdx_cons_succ]
    rw [this]
    ring

theorem line_poly (terms : List (List ℝ[X])) {degs : List Nat} {i : Nat} {n : Nat} (hn : degs[i]? = some n)
    (hd : ∀ P ∈ terms, List.Forall₂ (fun p d => p.natDegree ≤ d) P degs) (ys : List ℝ) (hy : ys.length + 1 = degs.length) :
    ∃ Q : ℝ[X], Q.natDegree ≤ n ∧ ∀ s, (terms.map fun P => evalProd P (ys.insertIdx i s)).sum = Q.eval s := by
  induction terms with
  | nil => exact ⟨0, by simp, by simp⟩
  | cons P terms ih =>
    obtain ⟨Q, q1, q2⟩ := ih fun P' h' => hd P' (by simp [h'])
    have hP := hd P (by simp)
    have hlt : i < P.length := by rw [hP.length_eq]; exact (List.getElem?_eq_some_iff.1 hn).1
    refine ⟨C (evalProd (P.eraseIdx i) ys) * P[i] + Q, ?_, fun s => ?_⟩
    · refine le_trans (natDegree_add_le _ _) (max_le (le_trans (natDegree_C_mul_le _ _) ?_) q1)
      have h2 := (List.forall₂_iff_get.1 hP).2 i hlt (by rw [← hP.length_eq]; exact hlt)
      simp only [List.get_eq_getElem] at h2
      have h3 := (List.getElem?_eq_some_iff.1 hn).2
      rw [← h3]
      exact h2
    · simp only [List.map_cons, List.sum_cons, q2 s]
      rw [evalProd_insert s (List.getElem?_eq_getElem hlt) (by rw [hy, hP.length_eq])]
      simp [mul_comm]

/-! ### One direction of the mesh -/

/-- `dF` is the derivative of `F` in direction `i` on the parametric domain of the mesh: `F` is continuous along the lines of direction `i`
(also from element to element) and differentiable inside the elements, where `dF` is a polynomial within the degrees `degs`. -/
structure Along (ds : List (Direction Line)) (degs : List Nat) (i : Fin ds.length) (F dF : List ℝ → ℝ) : Prop where
  poly : ∀ e, InBox (ds.map fun δ => δ.ax.nel) e → PolyOn (InsideBox (cellBox (ds.map Direction.ax) e)) degs dF
  cont : ∀ e, InBox ((ds.eraseIdx i).map fun δ => δ.ax.nel) e → ∀ ys, InsideBox (cellBox ((ds.eraseIdx i).map Direction.ax) e) ys →
    ContinuousOn (fun s => F (ys.insertIdx i s)) (Set.Icc (domain ds[i].ax).1 (domain ds[i].ax).2)
  deriv : ∀ e, InBox ((ds.eraseIdx i).map fun δ => δ.ax.nel) e → ∀ ys, InsideBox (cellBox ((ds.eraseIdx i).map Direction.ax) e) ys →
    ∀ e0 : Int, 0 ≤ e0 → e0 < ds[i].ax.nel → ∀ s, (cell ds[i].ax e0).1 < s → s < (cell ds[i].ax e0).2 →
      HasDerivAt (fun s => F (ys.insertIdx i s)) (dF (ys.insertIdx i s)) s

theorem green_axis {ds : List (Direction Line)} (hw : ∀ δ ∈ ds, WF δ.ax) (hX : ∀ δ ∈ ds, ∀ x ∈ δ.X, -1 < x ∧ x < 1) {degs : List Nat}
    (hx : List.Forall₂ (fun d n => ExactRule n d.X d.W) ds degs) (i : Fin ds.length) {F dF : List ℝ → ℝ} (hA : Along ds degs i F dF) :
    ((indices (ds.map fun δ => δ.ax.nel)).map fun e => ((tensorPoints (lines ds e)).map fun pts =>
        dF (pts.map Pt.x) * ((pts.map Pt.J).prod * (pts.map Pt.w).prod)).sum).sum =
      ((indices ((ds.eraseIdx i).map fun δ => δ.ax.nel)).map fun e => ((tensorPoints (lines (ds.eraseIdx i) e)).map fun r =>
        (F ((r.map Pt.x).insertIdx i (sideEnd ds[i].ax true)) - F ((r.map Pt.x).insertIdx i (sideEnd ds[i].ax false))) *
          ((r.map Pt.J).prod * (r.map Pt.w).prod)).sum).sum := by
  rw [sum_mesh ds i]
  have hi := i.isLt
  have hlen : (ds.eraseIdx i).length + 1 = ds.length := by rw [List.length_eraseIdx]; simp; omega
  have hmem : ∀ δ ∈ ds.eraseIdx i, δ ∈ ds := fun δ hd => List.mem_of_mem_eraseIdx hd
  have hdl := hx.length_eq
  congr 1
  refine List.map_congr_left fun e he => ?_
  have he := (mem_indices _ e).1 he
  have hel : e.length + 1 = ds.length := by rw [PetIGA.Grid.inBox_length he]; simpa using hlen
  congr 1
  refine List.map_congr_left fun r hr => ?_
  have hrl : r.length + 1 = ds.length := by
    have := (mem_tensorPoints hr).length_eq
    have hll : (lines (ds.eraseIdx i) e).length = e.length := by unfold lines; rw [List.length_zipWith]; omega
    omega
  have hin := lines_strict (fun δ hd => hw δ (hmem δ hd)) (fun δ hd => hX δ (hmem δ hd)) he (mem_tensorPoints hr)
  have e1 : ∀ p : Pt Line, dF ((r.insertIdx i p).map Pt.x) * (((r.insertIdx i p).map Pt.J).prod * ((r.insertIdx i p).map Pt.w).prod) =
      (dF ((r.map Pt.x).insertIdx i p.x) * (p.J * p.w)) * ((r.map Pt.J).prod * (r.map Pt.w).prod) := by
    intro p
    rw [map_insertIdx, map_insertIdx, map_insertIdx, List.prod_insertIdx (by simp; omega) (fun a _ => Commute.all _ _),
      List.prod_insertIdx (by simp; omega) (fun a _ => Commute.all _ _)]
    ring
  simp only [e1, List.sum_map_mul_right]
  congr 1
  have hn : degs[(i:Nat)]? = some (degs[(i:Nat)]'(by omega)) := List.getElem?_eq_getElem (by omega)
  have hxi : ExactRule (degs[(i:Nat)]'(by omega)) ds[i].X ds[i].W := by
    have := (List.forall₂_iff_get.1 hx).2 i hi (by omega)
    simpa using this
  have hQ : ∀ e0 : Int, ∃ Q : ℝ[X], 0 ≤ e0 → e0 < ds[i].ax.nel → Q.natDegree ≤ degs[(i:Nat)]'(by omega) ∧
      ∀ s, (cell ds[i].ax e0).1 < s → s < (cell ds[i].ax e0).2 → dF ((r.map Pt.x).insertIdx i s) = Q.eval s := by
    intro e0
    by_cases hb : 0 ≤ e0 ∧ e0 < ds[i].ax.nel
    · have hns : (ds.map fun δ => δ.ax.nel)[(i:Nat)]? = some ds[i].ax.nel := by simp
      obtain ⟨T, t1, t2⟩ := hA.poly (e.insertIdx i e0) (inBox_insert hns (by rw [List.eraseIdx_map]; exact he) hb.1 hb.2)
      obtain ⟨Q, q1, q2⟩ := line_poly T hn t1 (r.map Pt.x) (by simp; omega)
      refine ⟨Q, fun _ _ => ⟨q1, fun s h1 h2 => ?_⟩⟩
      rw [t2 _ (inside_insert (ax := ds[i].ax) (by simp) (by simp; omega) (by rw [List.eraseIdx_map]; exact hin) h1 h2), q2 s]
    · exact ⟨0, fun h1 h2 => absurd ⟨h1, h2⟩ hb⟩
  choose Q hQ using hQ
  have := line_telescope (hw ds[i] (by simp)) hxi (hX ds[i] (by simp)) (fun s => F ((r.map Pt.x).insertIdx i s)) (fun s => dF ((r.map Pt.x).insertIdx i s))
    (hA.cont e he _ hin) (hA.deriv e he _ hin) Q (fun e0 h1 h2 => hQ e0 h1 h2)
  rw [this]
  simp [sideEnd]

/-! ### Sums over the points of elements and sides -/

/-- The points of an element without geometry, in a sum. -/
theorem element_sum {ds : List (Direction Line)} (h1 : 1 ≤ ds.length) (h3 : ds.length ≤ 3) (hT : ∀ δ ∈ ds, δ.Tabulated)
    (hs : ∀ δ ∈ ds, IsSpline δ) (hw : ∀ δ ∈ ds, WF δ.ax) {nsd : Nat} (c : PtIn ds.length nsd (Fin (nenOf (ds.map Direction.ax))))
    (hgeo : c.geometry = none) {e : List Int} (he : InBox (ds.map fun δ => δ.ax.nel) e) {mem} {qs}
    (h : tabulateElement c (ds.map Direction.B) e mem = .ok qs) (f : List ℝ → ℝ) :
    qs.map (fun q => f q.data.u * (q.detJac * q.weight)) =
      (tensorPoints (lines ds e)).map fun pts => f (pts.map Pt.x) * ((pts.map Pt.J).prod * (pts.map Pt.w).prod) := by
  have hF := tabulated_list rfl h1 h3 hT hs hw c he h
  symm
  refine List.ext_getElem (by simpa using hF.length_eq) fun i i1 i2 => ?_
  obtain ⟨hl, hF⟩ := List.forall₂_iff_get.1 hF
  obtain ⟨N, m, o, hN, hto, hqe⟩ := hF i (by simpa using i1) (by simpa using i2)
  have i3 : i < (tensorPoints (lines ds e)).length := by simpa using i1
  simp only [List.get_eq_getElem] at hqe hto hN
  simp only [List.getElem_map]
  rw [hqe]
  have hJ : o.detJac = ((tensorPoints (lines ds e))[i].map Pt.J).prod := by
    unfold Ker.tabulate at hto
    rw [hgeo] at hto
    dsimp only at hto
    cases hb : c.boundary with
    | none => rw [hb] at hto; simp only [Res.ok.injEq] at hto; rw [← hto]
    | some b => rw [hb] at hto; simp only [Res.ok.injEq] at hto; rw [← hto]
  dsimp only
  rw [hJ]

/-- The points of a side without geometry, in a sum: the normal is that of the box. -/
theorem face_sum {ds : List (Direction Line)} (h1 : 1 ≤ ds.length) (h3 : ds.length ≤ 3) (hT : ∀ δ ∈ ds, δ.Tabulated)
    (hs : ∀ δ ∈ ds, IsSpline δ) (hw : ∀ δ ∈ ds, WF δ.ax) (axis : Fin ds.length) (side : Bool) (ho : OpenEnds ds[axis].ax) {nsd : Nat}
    (c : PtIn ds.length nsd (Fin (nenOf (ds.map Direction.ax)))) (hgeo : c.geometry = none) {e : List Int}
    (he : InBox ((ds.eraseIdx axis).map fun δ => δ.ax.nel) e) {mem} {qs}
    (h : tabulateFace c (ds.map Direction.B) (ds.map fun d => endPoints d.ax) (onSide ds[axis].ax axis side e) axis side mem = .ok qs)
    (f : List ℝ → (Fin nsd → ℝ) → ℝ) :
    qs.map (fun q => f q.data.u q.data.arrays.normal * (q.detJac * q.weight)) =
      (tensorPoints (lines (ds.eraseIdx axis) e)).map fun pts =>
        f ((pts.map Pt.x).insertIdx axis (sideEnd ds[axis].ax side)) (flatNormal axis (if side then 1 else 0)) *
          ((pts.map Pt.J).prod * (pts.map Pt.w).prod) := by
  have ha := axis.isLt
  have hlen : (ds.eraseIdx axis).length + 1 = ds.length := by rw [List.length_eraseIdx]; simp; omega
  have hδ : ds[(axis:Nat)]? = some ds[axis] := by simp
  obtain ⟨-, sn0, sn1⟩ := sideElem_sp (hw ds[axis] (by simp)) ho side
  have hel : e.length + 1 = ds.length := by rw [PetIGA.Grid.inBox_length he]; simpa using hlen
  have hns : (ds.map fun δ => δ.ax.nel)[(axis:Nat)]? = some ds[axis].ax.nel := by simp
  have heB : InBox (ds.map fun δ => δ.ax.nel) (onSide ds[axis].ax axis side e) :=
    inBox_insert hns (by rw [List.eraseIdx_map]; exact he) sn0 sn1
  have hse : (onSide ds[axis].ax axis side e)[(axis:Nat)]? = some (sideElem ds[axis].ax side) := insert_get _ _ _ (by omega)
  have hF := face_tabulated rfl h1 h3 hT hs hw c heB mem hδ ho hse h
  rw [tensor_face (by unfold onSide; rw [List.length_insertIdx_of_le_length (by omega)]; omega) hδ hse, show (onSide ds[axis].ax axis side e).eraseIdx axis = e from insert_erase _ _ _ (by omega)] at hF
  symm
  rw [List.forall₂_map_left_iff] at hF
  refine List.ext_getElem (by simpa using hF.length_eq) fun i i1 i2 => ?_
  obtain ⟨hl, hF⟩ := List.forall₂_iff_get.1 hF
  have i3 : i < (tensorPoints (lines (ds.eraseIdx axis) e)).length := by simpa using i1
  obtain ⟨N, m, o, hN, hto, hqe⟩ := hF i i3 (by simpa using i2)
  simp only [List.get_eq_getElem] at hqe hto hN
  simp only [List.getElem_map]
  rw [hqe]
  have hpl : (tensorPoints (lines (ds.eraseIdx axis) e))[i].length + 1 = ds.length := by
    have := (mem_tensorPoints (List.getElem_mem (h := by simpa using i1) : (tensorPoints (lines (ds.eraseIdx axis) e))[i] ∈ _)).length_eq
    have hll : (lines (ds.eraseIdx axis) e).length = e.length := by unfold lines; rw [List.length_zipWith]; omega
    omega
  have hJ : o.detJac = ((tensorPoints (lines (ds.eraseIdx axis) e))[i].map Pt.J).prod ∧ o.normal = flatNormal axis (if side then 1 else 0) := by
    unfold Ker.tabulate at hto
    rw [show (atSide c axis side).geometry = none from hgeo] at hto
    dsimp only [atSide] at hto
    simp only [Res.ok.injEq] at hto
    rw [← hto, map_insertIdx]
    exact ⟨prod_insert (by simp; omega), rfl⟩
  dsimp only
  rw [hJ.1, hJ.2, map_insertIdx, map_insertIdx, prod_insert (by simp; omega)]

theorem list_sum_finset {α : Type} {d : Nat} (l : List α) (f : α → Fin d → ℝ) :
    (l.map fun a => ∑ i, f a i).sum = ∑ i, (l.map fun a => f a i).sum := by
  induction l with
  | nil => simp
  | cons a l ih => simp only [List.map_cons, List.sum_cons, ih, Finset.sum_add_distrib]

/-- **C121**, the divergence theorem: without geometry, the sum over all elements and their points of the divergence of a vector field times
weight and Jacobian equals the sum over the sides, their elements and points, of the field times the normal, weight and Jacobian the
boundary callbacks get – for every field whose derivatives are, inside the elements, polynomials that the rules integrate exactly. -/
theorem C121_divergence {ds : List (Direction Line)} (S : Setup g2 g3 false size procs axes (ds.map Direction.ax) Ls)
    (hT : ∀ δ ∈ ds, δ.Tabulated) (hs : ∀ δ ∈ ds, IsSpline δ) (hX : ∀ δ ∈ ds, ∀ x ∈ δ.X, -1 < x ∧ x < 1) {degs : List Nat}
    (hx : List.Forall₂ (fun d n => ExactRule n d.X d.W) ds degs) (F dF : Fin ds.length → List ℝ → ℝ) (hF : ∀ i, Along ds degs i (F i) (dF i))
    (c : List Int → PtIn ds.length ds.length (Fin (nenOf (ds.map Direction.ax)))) (hgeo : ∀ e, (c e).geometry = none)
    (mem : List Int → Nat → Tab ℝ ds.length ℕ × PtOut ds.length ds.length (Fin (nenOf (ds.map Direction.ax))))
    (qs : List Int → List (QP ℝ (PtData ds.length ds.length (nenOf (ds.map Direction.ax)))))
    (hqs : ∀ e, InBox (ds.map fun δ => δ.ax.nel) e → tabulateElement (c e) (ds.map Direction.B) e (mem e) = .ok (qs e))
    (cb : Fin ds.length → Bool → List Int → PtIn ds.length ds.length (Fin (nenOf (ds.map Direction.ax)))) (hgeob : ∀ i s e, (cb i s e).geometry = none)
    (memb : Fin ds.length → Bool → List Int → Nat → Tab ℝ ds.length ℕ × PtOut ds.length ds.length (Fin (nenOf (ds.map Direction.ax))))
    (qb : Fin ds.length → Bool → List Int → List (QP ℝ (PtData ds.length ds.length (nenOf (ds.map Direction.ax)))))
    (hqb : ∀ (i : Fin ds.length) s e, InBox ((ds.eraseIdx i).map fun δ => δ.ax.nel) e →
      tabulateFace (cb i s e) (ds.map Direction.B) (ds.map fun d => endPoints d.ax) (onSide ds[i].ax i s e) i s (memb i s e) = .ok (qb i s e)) :
    ((indices (ds.map fun δ => δ.ax.nel)).map fun e => ((qs e).map fun q => (∑ i, dF i q.data.u) * (q.detJac * q.weight)).sum).sum =
      ∑ i : Fin ds.length, ∑ s : Bool, ((indices ((ds.eraseIdx i).map fun δ => δ.ax.nel)).map fun e =>
        ((qb i s e).map fun q => (∑ l, F l q.data.u * q.data.arrays.normal l) * (q.detJac * q.weight)).sum).sum := by
  obtain ⟨h1, h3, hw⟩ := setup_facts S
  have el : ((indices (ds.map fun δ => δ.ax.nel)).map fun e => ((qs e).map fun q => (∑ i, dF i q.data.u) * (q.detJac * q.weight)).sum).sum =
      ∑ i, ((indices (ds.map fun δ => δ.ax.nel)).map fun e => ((tensorPoints (lines ds e)).map fun pts =>
        dF i (pts.map Pt.x) * ((pts.map Pt.J).prod * (pts.map Pt.w).prod)).sum).sum := by
    rw [← list_sum_finset]
    congr 1
    refine List.map_congr_left fun e he => ?_
    have he := (mem_indices _ e).1 he
    rw [← list_sum_finset, element_sum h1 h3 hT hs hw (c e) (hgeo e) he (hqs e he) fun u => ∑ i, dF i u]
    simp only [Finset.sum_mul]
  rw [el]
  refine Finset.sum_congr rfl fun i _ => ?_
  rw [green_axis hw hX hx i (hF i), Fintype.sum_bool]
  have side : ∀ s, ((indices ((ds.eraseIdx i).map fun δ => δ.ax.nel)).map fun e =>
      ((qb i s e).map fun q => (∑ l, F l q.data.u * q.data.arrays.normal l) * (q.detJac * q.weight)).sum).sum =
      ((indices ((ds.eraseIdx i).map fun δ => δ.ax.nel)).map fun e => ((tensorPoints (lines (ds.eraseIdx i) e)).map fun r =>
        (F i ((r.map Pt.x).insertIdx i (sideEnd ds[i].ax s)) * (if s then 1 else -1)) * ((r.map Pt.J).prod * (r.map Pt.w).prod)).sum).sum := by
    intro s
    congr 1
    refine List.map_congr_left fun e he => ?_
    have he := (mem_indices _ e).1 he
    rw [face_sum h1 h3 hT hs hw i s (setup_open S _ (by simp)) (cb i s e) (hgeob i s e) he (hqb i s e he) fun u n => ∑ l, F l u * n l]
    congr 1
    refine List.map_congr_left fun r _ => ?_
    congr 1
    rw [Finset.sum_eq_single i]
    · cases s <;> simp [flatNormal]
    · intro l _ hl
      simp [flatNormal, Fin.val_ne_of_ne hl]
    · intro h; exact absurd (Finset.mem_univ i) h
  rw [side true, side false, ← List.sum_map_add]
  congr 1
  refine List.map_congr_left fun e _ => ?_
  rw [← List.sum_map_add]
  congr 1
  refine List.map_congr_left fun r _ => ?_
  simp
  ring

/-! ### Polynomial vector fields -/

theorem insert_set (ys : List ℝ) (i : Nat) (hi : i ≤ ys.length) (a s : ℝ) : (ys.insertIdx i a).set i s = ys.insertIdx i s := by
  refine List.ext_getElem? fun k => ?_
  rw [List.getElem?_set, List.getElem?_insertIdx, List.getElem?_insertIdx, List.length_insertIdx_of_le_length hi]
  by_cases hk : i = k
  · subst hk
    simp [hi]
  · rw [if_neg hk, if_neg (Ne.symm hk), if_neg (Ne.symm hk)]

theorem derivs_degree : ∀ {P : List ℝ[X]} {degs : List Nat} (os : List Nat), os.length = P.length → List.Forall₂ (fun p d => p.natDegree ≤ d) P degs →
    List.Forall₂ (fun p d => p.natDegree ≤ d) (derivs P os) degs
  | [], _, _, _, h => by cases h; exact .nil
  | p :: P, _, [], hl, _ => by simp at hl
  | p :: P, _, o :: os, hl, h => by
    cases h with
    | cons h0 h =>
    exact .cons (le_trans (natDegree_iterate_derivative p o) (by omega)) (derivs_degree os (by simpa using hl) h)

theorem poly_along {ds : List (Direction Line)} {degs : List Nat} (hd : degs.length = ds.length) (i : Fin ds.length) (T : List (List ℝ[X]))
    (hT : ∀ P ∈ T, List.Forall₂ (fun p d => p.natDegree ≤ d) P degs) :
    Along ds degs i (fun xs => (T.map fun P => evalProd P xs).sum) (fun xs => (T.map fun P => evalProd (derivs P (unitOrder i)) xs).sum) := by
  have hPl : ∀ P ∈ T, P.length = ds.length := fun P hP => by rw [(hT P hP).length_eq, hd]
  have hi := i.isLt
  have hlen : (ds.eraseIdx i).length + 1 = ds.length := by rw [List.length_eraseIdx]; simp; omega
  have hder : ∀ e, InBox ((ds.eraseIdx i).map fun δ => δ.ax.nel) e → ∀ ys, InsideBox (cellBox ((ds.eraseIdx i).map Direction.ax) e) ys → ∀ s,
      HasDerivAt (fun s => (T.map fun P => evalProd P (ys.insertIdx i s)).sum)
        ((T.map fun P => evalProd (derivs P (unitOrder i)) (ys.insertIdx i s)).sum) s := by
    intro e he ys hy s
    have hel : e.length + 1 = ds.length := by rw [PetIGA.Grid.inBox_length he]; simpa using hlen
    have hyl : ys.length + 1 = ds.length := by
      have := List.Forall₂.length_eq hy
      have hc : (cellBox ((ds.eraseIdx i).map Direction.ax) e).length = e.length := by unfold cellBox; simp; omega
      omega
    have := terms_deriv T (ys.insertIdx i 0) i hPl (by rw [List.length_insertIdx_of_le_length (by omega)]; omega) s
    simpa only [insert_set ys i (by omega) 0] using this
  refine ⟨fun e _ => ⟨T.map fun P => derivs P (unitOrder i), fun P hP => ?_, fun xs _ => by rw [List.map_map]; rfl⟩, fun e he ys hy => ?_, fun e he ys hy _ _ _ s _ _ => hder e he ys hy s⟩
  · obtain ⟨Q, hQ, rfl⟩ := List.mem_map.1 hP
    exact derivs_degree _ (by simp [unitOrder, hPl Q hQ]) (hT Q hQ)
  · exact fun s _ => (hder e he ys hy s).continuousAt.continuousWithinAt

/-! ### Example -/

/-- A rule with points inside the elements: `±3/4` and `0`. -/
theorem inner_exact : ExactRule 3 [-(3/4), 0, 3/4] [16/27, 22/27, 16/27] := by
  refine exactRule_of_moments 3 _ _ fun k hk => ?_
  interval_cases k <;> norm_num [quadSum, moment]

noncomputable def exInner (J : Bsp.Junk ℝ) : List (Direction Line) :=
  [exLine J [-(3/4), 0, 3/4] [16/27, 22/27, 16/27], exLine J [-(3/4), 0, 3/4] [16/27, 22/27, 16/27]]

theorem exInner_ok (J) : ∀ δ ∈ exInner J, δ.Tabulated ∧ IsSpline δ ∧ ∀ x ∈ δ.X, -1 < x ∧ x < 1 := by
  intro δ hδ
  simp only [exInner, List.mem_cons, List.not_mem_nil, or_false, or_self] at hδ
  subst hδ
  refine ⟨exLine_tabulated J rfl (by simp) (by intro w hw; simp at hw; rcases hw with rfl | rfl | rfl <;> norm_num), fun k u => ⟨J, rfl⟩, ?_⟩
  intro x hx
  simp [exLine] at hx
  rcases hx with rfl | rfl | rfl <;> norm_num

/-- `C121_divergence` applies: two processes, 3 × 3 elements of degree 2, the field `(x³y, x y² + y)`. -/
example (g2 : Guess2) (g3 : Guess3) (J : Bsp.Junk ℝ) : ∃ (qs : List Int → List (QP ℝ (PtData (exInner J).length (exInner J).length (nenOf ((exInner J).map Direction.ax)))))
    (qb : Fin (exInner J).length → Bool → List Int → List (QP ℝ (PtData (exInner J).length (exInner J).length (nenOf ((exInner J).map Direction.ax))))),
    ((indices ((exInner J).map fun δ => δ.ax.nel)).map fun e => ((qs e).map fun q =>
        (∑ i : Fin (exInner J).length, ((![[[X^3, X]], [[X, X^2], [1, X]]] : Fin 2 → List (List ℝ[X])) i |>.map fun P => evalProd (derivs P (unitOrder i)) q.data.u).sum) *
          (q.detJac * q.weight)).sum).sum =
      ∑ i : Fin (exInner J).length, ∑ s : Bool, ((indices (((exInner J).eraseIdx i).map fun δ => δ.ax.nel)).map fun e =>
        ((qb i s e).map fun q => (∑ l : Fin (exInner J).length, ((![[[X^3, X]], [[X, X^2], [1, X]]] : Fin 2 → List (List ℝ[X])) l |>.map fun P => evalProd P q.data.u).sum *
          q.data.arrays.normal l) * (q.detJac * q.weight)).sum).sum := by
  obtain ⟨Ls, S⟩ := exRealSetup g2 g3
  have S' : Setup g2 g3 false 2 [2,1] [exRealAx, exRealAx] ((exInner J).map Direction.ax) Ls := S
  have hok := exInner_ok J
  obtain ⟨h1, h3, hw⟩ := setup_facts S'
  let c : PtIn (exInner J).length (exInner J).length (Fin (nenOf ((exInner J).map Direction.ax))) := ⟨1, none, none, none, false, true⟩
  let m0 : Nat → Tab ℝ (exInner J).length Nat × PtOut (exInner J).length (exInner J).length (Fin (nenOf ((exInner J).map Direction.ax))) := fun _ =>
    (⟨fun _ => 0, fun _ _ => 0, fun _ _ _ => 0, fun _ _ _ _ => 0, fun _ _ _ _ _ => 0⟩,
     ⟨⟨fun _ => 0, fun _ _ => 0, fun _ _ _ => 0, fun _ _ _ _ => 0, fun _ _ _ _ _ => 0⟩,
      ⟨fun _ => 0, fun _ _ => 0, fun _ _ _ => 0, fun _ _ _ _ => 0, fun _ _ _ _ _ => 0⟩, 0,
      ⟨fun _ => 0, fun _ _ => 0, fun _ _ _ => 0, fun _ _ _ _ => 0, fun _ _ _ _ _ => 0⟩,
      ⟨fun _ => 0, fun _ _ => 0, fun _ _ _ => 0, fun _ _ _ _ => 0, fun _ _ _ _ _ => 0⟩, 0, fun _ => 0, 0⟩)
  have htab : ∀ e, InBox ((exInner J).map fun δ => δ.ax.nel) e → ∃ qs, tabulateElement c ((exInner J).map Direction.B) e m0 = .ok qs := fun e he =>
    tabulateElement_ok rfl h1 h3 (fun δ h => (hok δ h).1) (fun δ h => (hok δ h).2.1) hw c (.inl rfl) he m0
  have hface : ∀ (i : Fin (exInner J).length) s e, InBox (((exInner J).eraseIdx i).map fun δ => δ.ax.nel) e → ∃ qs,
      tabulateFace c ((exInner J).map Direction.B) ((exInner J).map fun d => endPoints d.ax) (onSide (exInner J)[i].ax i s e) i s m0 = .ok qs := by
    intro i s e he
    have ho := setup_open S' (exInner J)[i] (by simp)
    obtain ⟨-, sn0, sn1⟩ := sideElem_sp (hw (exInner J)[i] (by simp)) ho s
    have hi := i.isLt
    have hel : e.length + 1 = (exInner J).length := by
      rw [PetIGA.Grid.inBox_length he, List.length_map, List.length_eraseIdx]; simp; omega
    obtain ⟨qs, h, -⟩ := tabulateFace_ok rfl h1 h3 (fun δ h => (hok δ h).1) (fun δ h => (hok δ h).2.1) hw c (.inl rfl)
      (inBox_insert (i := (i:Nat)) (show ((exInner J).map fun δ => δ.ax.nel)[(i:Nat)]? = some (exInner J)[i].ax.nel by simp) (by rw [List.eraseIdx_map]; exact he) sn0 sn1) m0
      (show (exInner J)[(i:Nat)]? = some (exInner J)[i] by simp) ho (insert_get _ _ _ (by omega))
    exact ⟨qs, h⟩
  choose! qs hqs using htab
  choose! qb hqb using hface
  refine ⟨qs, qb, ?_⟩
  refine C121_divergence S' (fun δ h => (hok δ h).1) (fun δ h => (hok δ h).2.1) (fun δ h => (hok δ h).2.2) (degs := [3, 3])
    (.cons inner_exact (.cons inner_exact .nil))
    (fun i xs => ((![[[X^3, X]], [[X, X^2], [1, X]]] : Fin 2 → List (List ℝ[X])) i |>.map fun P => evalProd P xs).sum)
    (fun i xs => ((![[[X^3, X]], [[X, X^2], [1, X]]] : Fin 2 → List (List ℝ[X])) i |>.map fun P => evalProd (derivs P (unitOrder i)) xs).sum)
    (fun i => poly_along rfl i _ fun P hP => ?_) (fun _ => c) (fun _ => rfl) (fun _ => m0) qs hqs (fun _ _ _ => c) (fun _ _ _ => rfl) (fun _ _ _ => m0) qb hqb
  change Fin 2 at i
  fin_cases i
  · simp at hP
    subst hP
    exact .cons (by simp) (.cons (by simp) .nil)
  · simp at hP
    rcases hP with rfl | rfl
    · exact .cons (by simp) (.cons (by simp) .nil)
    · exact .cons (by simp) (.cons (by simp) .nil)

end PetIGA.Itg
