import Verif.Model.Integrate
import Verif.Spec.Integral
import Verif.Props.Quad
import Verif.Props.Assemble
import Verif.Props.Block
import Mathlib.Analysis.SpecialFunctions.Integrals.Basic
import Mathlib.Topology.Algebra.Polynomial
import Mathlib.Algebra.Polynomial.Degree.Lemmas
/-
C86: what `IGAComputeScalar` returns is the integral over the parametric domain.  One-dimensional tables (Model/Quad) →
points of an element (Model/Integrate) → sum over elements and processes (Model/Assemble).
-/
set_option linter.unusedSectionVars false
namespace PetIGA.Itg
open PetIGA.Quad PetIGA.Drv PetIGA.Spec PetIGA.Ax PetIGA.Lay PetIGA.Asm PetIGA.Rule PetIGA.Grid PetIGA.Part
open Polynomial

/-- A parametric direction: axis, reference rule on `[-1,1]`, basis kernel and the tables made from them. -/
structure Direction (V : Type) where
  ax : Axis ℝ
  X : List ℝ
  W : List ℝ
  cb : Int → ℝ → V
  B : Basis ℝ V

/-- `B` is what `IGABasisInitQuadrature` made from the axis and a rule (not the reduced one) with points `X` and positive
weights `W`. -/
def Direction.Tabulated {V : Type} (d : Direction V) : Prop :=
  ∃ huge bt r r', initQuadrature d.cb huge bt d.ax r = (.ok (), r', some d.B) ∧ Ready r d.X d.W ∧ r.type ≠ .reduced ∧
    ∀ w ∈ d.W, 0 < w

/-- The parametric domain of a direction. -/
def domain (ax : Axis ℝ) : ℝ × ℝ := (ax.U ax.p, ax.U (ax.m - ax.p))

/-- Element `e` of a direction: the `e`-th nonempty knot interval. -/
def cell (ax : Axis ℝ) (e : Int) : ℝ × ℝ := (ax.U (sp ax e), ax.U (sp ax e + 1))

/-- The box of the element with indices `e`. -/
def cellBox (axs : List (Axis ℝ)) (e : List Int) : List (ℝ × ℝ) := List.zipWith cell axs e

/-- The rule integrates polynomials of degree `n` or less exactly on `[-1,1]`. -/
def ExactRule (n : Nat) (X W : List ℝ) : Prop :=
  ∀ P : ℝ[X], P.natDegree ≤ n → quadSum X W (fun x => P.eval x) = integral11 P

/-! ### Points of an element -/

theorem trim_pos (w : List ℝ) (hw : ∀ x ∈ w, 0 < x) : trim w w.length = w.length := by
  cases h : w.length with
  | zero => rfl
  | succ n =>
    unfold trim
    rw [if_neg]
    have hn : n < w.length := by omega
    rw [List.getD_eq_getElem?_getD, List.getElem?_eq_getElem hn]
    exact not_le.2 (hw _ (List.getElem_mem hn))

/-- The point of an element for a reference point. -/
noncomputable def ptOf {V : Type} (d : Direction V) (k : Int) (xw : ℝ × ℝ) : Pt V :=
  let J := (d.ax.U (k+1) - d.ax.U k) / 2
  ⟨(xw.1 + 1) * J + d.ax.U k, xw.2, J, some (d.cb k ((xw.1 + 1) * J + d.ax.U k))⟩

theorem elems_of {V : Type} {d : Direction V} (h : d.Tabulated) : ∃ huge, ∃ n : Nat, d.B.nqp = n ∧ d.X.length = n ∧ d.W.length = n ∧
    (∀ w ∈ d.W, 0 < w) ∧ d.B.nen = d.ax.p + 1 ∧
    d.B.elems = d.ax.span.map (mkElem d.cb d.ax.p d.ax.U n huge d.X d.W) := by
  obtain ⟨huge, bt, r, r', h, ⟨h1, h2, h3, h4, h5⟩, ht, hW⟩ := h
  unfold initQuadrature at h
  simp only [show ¬ r.nqp < 1 by omega, if_false, h2, h3, ht, ne_eq, not_false_eq_true, if_true] at h
  split_ifs at h with hc
  · simp at h
  · simp only [Prod.mk.injEq, Option.some.injEq, true_and] at h
    obtain ⟨_, e⟩ := h
    rw [← e]
    exact ⟨huge, d.X.length, by simp only; omega, rfl, by omega, hW, rfl, by rw [show r.nqp.toNat = d.X.length by omega]⟩

theorem dirPoints_ok {V : Type} {d : Direction V} (h : d.Tabulated) (hw : WF d.ax) {e : Int} (h0 : 0 ≤ e)
    (h1 : e < d.ax.nel) : dirPoints d.B e = .ok ((d.X.zip d.W).map (ptOf d (sp d.ax e))) := by
  obtain ⟨huge, n, b1, b2, b3, hW, _, b4⟩ := elems_of h
  have hn := hw.nel
  have hi : e.toNat < d.ax.span.length := by omega
  unfold dirPoints
  rw [if_neg (by omega), b4, List.getElem?_map, List.getElem?_eq_getElem hi]
  simp only [Option.map_some]
  have hk : d.ax.span[e.toNat] = sp d.ax e := by
    unfold sp; rw [List.getD_eq_getElem?_getD, List.getElem?_eq_getElem hi]; rfl
  rw [hk]
  set k := sp d.ax e
  unfold mkElem Quad.setRule
  simp only [b2, b3, Nat.sub_self, List.replicate_zero, List.append_nil, b1, Int.toNat_natCast]
  have ht : trim d.W n = n := by rw [← b3]; exact trim_pos _ hW
  rw [ht]
  congr 1
  apply List.ext_getElem
  · simp [b2, b3]
  · intro q q1 q2
    have q3 : q < n := by simpa using q1
    have e1 : d.X[q]? = some (d.X[q]'(by omega)) := List.getElem?_eq_getElem _
    have e2 : d.W[q]? = some (d.W[q]'(by omega)) := List.getElem?_eq_getElem _
    simp only [List.getElem_map, List.getElem_range, List.getElem_zip, ptOf, List.getD_eq_getElem?_getD, e2,
      List.getElem?_map, e1, Option.map_some, Option.getD_some]
    congr 1
    have hp := tabulate_pos (d.cb k) d.W (d.X.map fun x => (x + 1) * ((d.ax.U (k+1) - d.ax.U k) / 2) + d.ax.U k)
      (by simp; omega) hW
    rw [hp]
    simp [e1]

/-- `Σ_q g(q)` over the tensor product of lists, for a product `g` of functions of one direction each. -/
theorem tensor_sum {α : Type} : ∀ (gs : List (α → ℝ)) (ls : List (List α)), gs.length = ls.length →
    ((tensorPoints ls).map fun pts => (List.zipWith (fun g p => g p) gs pts).prod).sum =
      (List.zipWith (fun g l => (l.map g).sum) gs ls).prod
  | [], [], _ => by simp [tensorPoints]
  | g :: gs, l :: ls, h => by
    have ih := tensor_sum gs ls (by simpa using h)
    simp only [tensorPoints, List.map_flatMap, List.map_map, Function.comp_def, List.zipWith_cons_cons, List.prod_cons]
    rw [← ih, List.flatMap_def, List.sum_flatten, List.map_map]
    simp only [Function.comp_def, List.sum_map_mul_right, List.sum_map_mul_left]
  | [], _ :: _, h => by simp at h
  | _ :: _, [], h => by simp at h

theorem quadrature_eq (l : List (ℝ × ℝ × ℝ)) (h : l.length ≤ 3) :
    Ker.quadrature l = (l.map fun a => a.1, (l.map fun a => a.2.1).prod, (l.map fun a => a.2.2).prod) := by
  match l, h with
  | [], _ => rfl
  | [a], _ => simp [Ker.quadrature]
  | [a, b], _ => simp [Ker.quadrature]
  | [a, b, c], _ => simp [Ker.quadrature, mul_assoc]
  | _ :: _ :: _ :: _ :: _, h => exact absurd h (by simp)

theorem mem_tensorPoints {α : Type} : ∀ {ls : List (List α)} {pts : List α}, pts ∈ tensorPoints ls →
    List.Forall₂ (fun l p => p ∈ l) ls pts
  | [], pts, h => by simp [tensorPoints] at h; subst h; exact .nil
  | l :: ls, pts, h => by
    simp only [tensorPoints, List.mem_flatMap, List.mem_map] at h
    obtain ⟨r, hr, p, hp, rfl⟩ := h
    exact .cons hp (mem_tensorPoints hr)

/-- The tables of the directions of an element. -/
noncomputable def lines {V : Type} (ds : List (Direction V)) (e : List Int) : List (List (Pt V)) :=
  List.zipWith (fun d i => (d.X.zip d.W).map (ptOf d (sp d.ax i))) ds e

theorem lines_ok {V : Type} : ∀ {ds : List (Direction V)} {e : List Int}, (∀ d ∈ ds, d.Tabulated) → (∀ d ∈ ds, WF d.ax) →
    InBox (ds.map fun d => d.ax.nel) e →
    Blk.sequence (List.zipWith dirPoints (ds.map Direction.B) e) = .ok (lines ds e)
  | [], e, _, _, h => by cases h; rfl
  | d :: ds, e, hT, hw, h => by
    cases h with
    | cons ha hr =>
      simp only [List.map_cons, List.zipWith_cons_cons, Blk.sequence, lines]
      rw [dirPoints_ok (hT d (by simp)) (hw d (by simp)) ha.1 ha.2]
      simp only [Res.bind]
      have ih := lines_ok (fun d' h' => hT d' (by simp [h'])) (fun d' h' => hw d' (by simp [h'])) hr
      rw [ih]
      rfl

/-- The points `IGAComputeScalar` sees on the element `e`. -/
noncomputable def pointsOf {V : Type} (Bs : List (Basis ℝ V)) (e : List Int) : List (Asm.QPoint (List ℝ × List (Option V))) :=
  match elemPoints Bs e with
  | .ok l => l.map fun q => ⟨q.detJac, q.weight, q.data⟩
  | _ => []

theorem elemPoints_ok {V : Type} {ds : List (Direction V)} {e : List Int} (hd : ds.length ≤ 3)
    (hT : ∀ d ∈ ds, d.Tabulated) (hw : ∀ d ∈ ds, WF d.ax) (h : InBox (ds.map fun d => d.ax.nel) e) :
    elemPoints (ds.map Direction.B) e = .ok ((tensorPoints (lines ds e)).map fun pts =>
      ⟨(pts.map Pt.J).prod, (pts.map Pt.w).prod, (pts.map Pt.x, pts.map Pt.value)⟩) := by
  unfold elemPoints
  rw [lines_ok hT hw h]
  simp only [Res.bind]
  congr 1
  refine List.map_congr_left fun pts hp => ?_
  have hl := (mem_tensorPoints hp).length_eq
  have hl2 : (lines ds e).length ≤ 3 := by unfold lines; simp; omega
  rw [quadrature_eq _ (by simp; omega)]
  simp [List.map_map, Function.comp_def]

/-! ### One direction -/

theorem quadSum_map (X W : List ℝ) (f : ℝ → ℝ) (c : ℝ) :
    ((X.zip W).map fun xw => f xw.1 * (c * xw.2)).sum = c * quadSum X W f := by
  unfold quadSum
  induction X generalizing W with
  | nil => simp
  | cons x X ih =>
    cases W with
    | nil => simp
    | cons w W => simp only [List.zip_cons_cons, List.map_cons, List.sum_cons, List.zipWith_cons_cons, ih W]; ring

theorem line_exact {V : Type} (d : Direction V) {n : Nat} (hx : ExactRule n d.X d.W) (k : Int) (P : ℝ[X])
    (hP : P.natDegree ≤ n) :
    (((d.X.zip d.W).map (ptOf d k)).map fun p => P.eval p.x * (p.J * p.w)).sum =
      ∫ x in d.ax.U k..d.ax.U (k+1), P.eval x := by
  set J := (d.ax.U (k+1) - d.ax.U k) / 2 with hJ
  set Q : ℝ[X] := P.comp (C J * X + C (J + d.ax.U k)) with hQ
  have hdeg : Q.natDegree ≤ n := by
    rw [hQ]
    refine le_trans (natDegree_comp_le) ?_
    refine le_trans (Nat.mul_le_mul_left _ (natDegree_linear_le)) (by omega)
  have he : ∀ x, Q.eval x = P.eval (J * x + (J + d.ax.U k)) := by intro x; rw [hQ]; simp
  rw [List.map_map]
  have h1 : ((fun p : Pt V => P.eval p.x * (p.J * p.w)) ∘ ptOf d k) =
      fun xw : ℝ × ℝ => (fun x => Q.eval x) xw.1 * (J * xw.2) := by
    funext xw
    simp only [Function.comp, ptOf, he]
    rw [← hJ]
    congr 2
    ring
  rw [h1, quadSum_map d.X d.W (fun x => Q.eval x) J, hx Q hdeg]
  unfold integral11
  simp only [he]
  rw [intervalIntegral.mul_integral_comp_mul_add (f := fun x => P.eval x)]
  congr 1 <;> rw [hJ] <;> ring

theorem sum_spans {ax : Axis ℝ} (h : WF ax) (g : Int → ℝ) (hg : ∀ k, ¬ IsElement ax.p ax.m ax.U k → ax.p ≤ k → k ≤ ax.m-ax.p-1 → g k = 0) :
    (ax.span.map g).sum = ∑ i ∈ Finset.range (ax.m-2*ax.p).toNat, g (ax.p + (i:Int)) := by
  have hp := h.legal.degree
  have hm := h.legal.enough
  obtain ⟨h1, h2⟩ := computeSpans_spec h.legal.sorted hp (by omega)
  have hnd : (computeSpans ax.p ax.m ax.U).Nodup := h2.imp (fun h => ne_of_lt h)
  rw [h.span, ← List.sum_toFinset _ hnd]
  have hsub : (computeSpans ax.p ax.m ax.U).toFinset ⊆ (Finset.range (ax.m-2*ax.p).toNat).image (fun i : Nat => ax.p + (i:Int)) := by
    intro k hk
    have := (h1 k).1 (List.mem_toFinset.1 hk)
    unfold IsElement at this
    exact Finset.mem_image.2 ⟨(k-ax.p).toNat, by simp; omega, by omega⟩
  rw [Finset.sum_subset hsub, Finset.sum_image (by intro a _ b _ h; simp at h; omega)]
  intro k hk hk'
  obtain ⟨i, hi, rfl⟩ := Finset.mem_image.1 hk
  have hi := Finset.mem_range.1 hi
  exact hg _ (fun h => hk' (List.mem_toFinset.2 ((h1 _).2 h))) (by omega) (by omega)

theorem span_range {ax : Axis ℝ} (h : WF ax) (g : Int → ℝ) :
    (ax.span.map g).sum = ((List.range ax.nel.toNat).map fun (e : Nat) => g (sp ax e)).sum := by
  congr 1
  have := h.nel
  apply List.ext_getElem
  · simp; omega
  · intro i i1 i2
    have i3 : i < ax.span.length := by simpa using i1
    simp only [List.getElem_map, List.getElem_range]
    unfold sp
    rw [Int.toNat_natCast, List.getD_eq_getElem?_getD, List.getElem?_eq_getElem i3]; rfl

/-- The elements of a direction tile its domain. -/
theorem split_elements {ax : Axis ℝ} (h : WF ax) (F : ℝ → ℝ) (G : Int → ℝ → ℝ)
    (hG : ∀ e : Int, 0 ≤ e → e < ax.nel → Continuous (G e))
    (hF : ∀ e : Int, 0 ≤ e → e < ax.nel → ∀ x, (cell ax e).1 < x → x < (cell ax e).2 → F x = G e x) :
    ∫ x in (domain ax).1..(domain ax).2, F x =
      ((List.range ax.nel.toNat).map fun (e : Nat) => ∫ x in (cell ax e).1..(cell ax e).2, G e x).sum := by
  have hm := h.legal.enough
  have hp := h.legal.degree
  have hn := h.nel
  set I : Int → ℝ := fun k => ∫ x in ax.U k..ax.U (k+1), F x with hI
  have hz : ∀ k, ¬ IsElement ax.p ax.m ax.U k → ax.p ≤ k → k ≤ ax.m-ax.p-1 → ax.U k = ax.U (k+1) := by
    intro k hk k1 k2
    unfold IsElement at hk
    have hle := h.legal.sorted k (by omega) (by omega)
    rcases hle.lt_or_eq with h' | h'
    · exact absurd ⟨k1, k2, h'⟩ hk
    · exact h'
  have e1 := sum_spans h I (fun k hk k1 k2 => by rw [hI]; simp only; rw [hz k hk k1 k2]; simp)
  have e2 := span_range h I
  have e3 := intervalIntegral.sum_integral_adjacent_intervals (f := F) (μ := MeasureTheory.volume)
    (a := fun i : Nat => ax.U (ax.p + (i:Int))) (n := (ax.m-2*ax.p).toNat) (by
      intro k hk
      by_cases hk' : IsElement ax.p ax.m ax.U (ax.p + (k:Int))
      · obtain ⟨e, a, b, c⟩ := mem_sp h.toPreWF hk'
        have hc := (hG e a b).intervalIntegrable (μ := MeasureTheory.volume) (ax.U (ax.p + (k:Int))) (ax.U (ax.p + ((k+1 : Nat):Int)))
        refine hc.congr_uIoo ?_
        intro x hx
        rw [Set.uIoo_of_le (by push_cast; rw [← add_assoc]; exact hk'.2.2.le)] at hx
        refine (hF e a b x ?_ ?_).symm
        · unfold cell; rw [c]; exact hx.1
        · unfold cell; rw [c]; have := hx.2; push_cast at this; rw [← add_assoc] at this; exact this
      · have := hz _ hk' (by omega) (by omega)
        show IntervalIntegrable F _ (ax.U (ax.p + (k:Int))) (ax.U (ax.p + ((k+1 : Nat):Int)))
        rw [show ax.p + ((k+1 : Nat):Int) = ax.p + (k:Int) + 1 by push_cast; ring, ← this])
  simp only [Nat.cast_zero, add_zero] at e3
  rw [show ax.p + (((ax.m-2*ax.p).toNat : Nat) : Int) = ax.m - ax.p by omega] at e3
  unfold domain
  simp only
  rw [← e3]
  have e4 : ∀ i : Nat, (∫ x in ax.U (ax.p + (i:Int))..ax.U (ax.p + ((i+1 : Nat):Int)), F x) = I (ax.p + (i:Int)) := by
    intro i; rw [hI]; simp only; rw [show ax.p + ((i+1 : Nat):Int) = ax.p + (i:Int) + 1 by push_cast; ring]
  simp only [e4]
  rw [← e1, e2]
  congr 1
  refine List.map_congr_left fun e he => ?_
  have he := List.mem_range.1 he
  have hel := sp_elem h.toPreWF (i := (e:Int)) (by omega) (by omega)
  rw [hI]
  simp only
  refine intervalIntegral.integral_congr_Ioo_of_le hel.2.2.le ?_
  intro x hx
  exact hF e (by omega) (by omega) x hx.1 hx.2

/-! ### Boxes -/

/-- Integral of a product of polynomials over a box. -/
noncomputable def intProd (box : List (ℝ × ℝ)) (P : List ℝ[X]) : ℝ :=
  (List.zipWith (fun ab p => ∫ x in ab.1..ab.2, p.eval x) box P).prod

theorem sum_indices (n : Int) (ns : List Int) (f : List Int → ℝ) :
    ((indices (n :: ns)).map f).sum =
      ((List.range n.toNat).map fun (k : Nat) => ((indices ns).map fun e => f ((k:Int) :: e)).sum).sum := by
  have hsw : ∀ (l : List (List Int)) (r : List Nat), ((l.map fun e => (r.map fun (k : Nat) => f ((k:Int) :: e)).sum)).sum =
      (r.map fun (k : Nat) => (l.map fun e => f ((k:Int) :: e)).sum).sum := by
    intro l r
    induction l with
    | nil => simp
    | cons a l ih => simp only [List.map_cons, List.sum_cons, ih]; rw [← List.sum_map_add]
  simp only [indices, List.map_flatMap, List.map_map, Function.comp_def]
  rw [List.flatMap_def, List.sum_flatten, List.map_map]
  simp only [Function.comp_def]
  exact hsw _ _

theorem integralBox_terms : ∀ (axs : List (Axis ℝ)), (∀ ax ∈ axs, WF ax) → ∀ (f : List ℝ → ℝ)
    (T : List Int → List (ℝ × List ℝ[X])),
    (∀ e, InBox (axs.map fun ax => ax.nel) e → ∀ cP ∈ T e, cP.2.length = axs.length) →
    (∀ e, InBox (axs.map fun ax => ax.nel) e → ∀ xs, InsideBox (cellBox axs e) xs →
      f xs = ((T e).map fun cP => cP.1 * evalProd cP.2 xs).sum) →
    integralBox (axs.map domain) f = ((indices (axs.map fun ax => ax.nel)).map fun e =>
      ((T e).map fun cP => cP.1 * intProd (cellBox axs e) cP.2).sum).sum := by
  intro axs
  induction axs with
  | nil =>
    intro _ f T hl h
    have := h [] .nil [] .nil
    have hnil : ∀ cP ∈ T [], cP.2 = [] := fun cP hc => List.length_eq_zero_iff.1 (hl [] .nil cP hc)
    simp only [List.map_nil, integralBox, indices, List.map_cons, List.sum_cons, List.sum_nil, add_zero, this]
    congr 1
    refine List.map_congr_left fun cP hc => ?_
    rw [hnil cP hc]
    simp [evalProd, intProd, cellBox]
  | cons ax axs ih =>
    intro hw f T hl h
    simp only [List.map_cons]
    have hwa := hw ax (by simp)
    rw [sum_indices]
    -- the integral over the other variables, as a polynomial on each element
    set G : Int → ℝ → ℝ := fun e0 x => ((indices (axs.map fun ax => ax.nel)).map fun e =>
      ((T (e0 :: e)).map fun cP => (cP.1 * (cP.2.headD 0).eval x) * intProd (cellBox axs e) cP.2.tail).sum).sum with hG
    have key : ∀ e0 : Int, 0 ≤ e0 → e0 < ax.nel → ∀ x, (cell ax e0).1 < x → x < (cell ax e0).2 →
        integralBox (axs.map domain) (fun xs => f (x :: xs)) = G e0 x := by
      intro e0 h0 h1 x hx hx'
      have := ih (fun a ha => hw a (by simp [ha])) (fun xs => f (x :: xs))
        (fun e => (T (e0 :: e)).map fun cP => (cP.1 * (cP.2.headD 0).eval x, cP.2.tail)) (by
          intro e he cP hc
          obtain ⟨cP', hc', rfl⟩ := List.mem_map.1 hc
          have := hl (e0 :: e) (.cons ⟨h0, h1⟩ he) cP' hc'
          simp at this ⊢
          omega) (by
          intro e he xs hxs
          have hh := h (e0 :: e) (.cons ⟨h0, h1⟩ he) (x :: xs) (.cons ⟨hx, hx'⟩ hxs)
          rw [hh, List.map_map]
          congr 1
          refine List.map_congr_left fun cP hc => ?_
          have hlen := hl (e0 :: e) (.cons ⟨h0, h1⟩ he) cP hc
          obtain ⟨c, P⟩ := cP
          cases P with
          | nil => simp at hlen
          | cons p P => simp [evalProd, mul_assoc])
      rw [this, hG]
      simp only [List.map_map, Function.comp_def]
    have hcont : ∀ e0 : Int, Continuous (G e0) := by
      intro e0
      rw [hG]
      simp only
      refine continuous_list_sum _ fun e _ => continuous_list_sum _ fun cP _ => ?_
      exact (continuous_const.mul (Polynomial.continuous _)).mul continuous_const
    have hs := split_elements hwa (fun x => integralBox (axs.map domain) fun xs => f (x :: xs)) G
      (fun e _ _ => hcont e) key
    unfold integralBox
    rw [show domain ax = ((domain ax).1, (domain ax).2) from rfl]
    simp only
    rw [hs]
    congr 1
    refine List.map_congr_left fun e0 he0 => ?_
    have he0 := List.mem_range.1 he0
    rw [hG]
    simp only
    have hint : ∀ (l : List (ℝ → ℝ)), (∀ g ∈ l, Continuous g) → ∀ a b : ℝ,
        ∫ x in a..b, (l.map fun g => g x).sum = (l.map fun g => ∫ x in a..b, g x).sum := by
      intro l
      induction l with
      | nil => simp
      | cons g l ih =>
        intro hl a b
        simp only [List.map_cons, List.sum_cons]
        rw [intervalIntegral.integral_add ((hl g (by simp)).intervalIntegrable _ _)
          ((continuous_list_sum _ fun g' hg' => hl g' (by simp [hg'])).intervalIntegrable _ _),
          ih (fun g' hg' => hl g' (by simp [hg']))]
    have i1 := hint ((indices (axs.map fun ax => ax.nel)).map fun e => fun x =>
      ((T ((e0:Int) :: e)).map fun cP => (cP.1 * (cP.2.headD 0).eval x) * intProd (cellBox axs e) cP.2.tail).sum) (by
        intro g hg
        obtain ⟨e, _, rfl⟩ := List.mem_map.1 hg
        refine continuous_list_sum _ fun cP _ => ?_
        exact (continuous_const.mul (Polynomial.continuous _)).mul continuous_const) (cell ax e0).1 (cell ax e0).2
    simp only [List.map_map, Function.comp_def] at i1
    rw [i1]
    congr 1
    refine List.map_congr_left fun e he => ?_
    have he := (mem_indices _ e).1 he
    have i2 := hint ((T ((e0:Int) :: e)).map fun cP => fun x => (cP.1 * (cP.2.headD 0).eval x) * intProd (cellBox axs e) cP.2.tail) (by
        intro g hg
        obtain ⟨cP, _, rfl⟩ := List.mem_map.1 hg
        exact (continuous_const.mul (Polynomial.continuous _)).mul continuous_const) (cell ax e0).1 (cell ax e0).2
    simp only [List.map_map, Function.comp_def] at i2
    rw [i2]
    congr 1
    refine List.map_congr_left fun cP hc => ?_
    have hlen := hl ((e0:Int) :: e) (.cons ⟨by omega, by show (e0:Int) < ax.nel; omega⟩ he) cP hc
    obtain ⟨c, P⟩ := cP
    cases P with
    | nil => simp at hlen
    | cons p P =>
      simp only [List.headD_cons, List.tail_cons, intProd, cellBox, List.zipWith_cons_cons, List.prod_cons]
      rw [intervalIntegral.integral_mul_const, intervalIntegral.integral_const_mul]
      ring

/-! ### The elements -/

theorem prod_points {V : Type} : ∀ (P : List ℝ[X]) (pts : List (Pt V)), P.length = pts.length →
    (List.zipWith (fun g p => g p) (P.map fun p => fun (pt : Pt V) => p.eval pt.x * (pt.J * pt.w)) pts).prod =
      evalProd P (pts.map Pt.x) * ((pts.map Pt.J).prod * (pts.map Pt.w).prod)
  | [], [], _ => by simp [evalProd]
  | p :: P, pt :: pts, h => by
    have ih := prod_points P pts (by simpa using h)
    simp only [evalProd] at ih
    simp only [List.map_cons, List.zipWith_cons_cons, List.prod_cons, evalProd]
    rw [ih]
    ring
  | [], _ :: _, h => by simp at h
  | _ :: _, [], h => by simp at h

theorem line_prod {V : Type} : ∀ (ds : List (Direction V)) (degs : List Nat) (P : List ℝ[X]) (e : List Int),
    List.Forall₂ (fun d n => ExactRule n d.X d.W) ds degs → List.Forall₂ (fun p n => p.natDegree ≤ n) P degs →
    ds.length = e.length →
    (List.zipWith (fun g l => (l.map g).sum) (P.map fun p => fun (pt : Pt V) => p.eval pt.x * (pt.J * pt.w)) (lines ds e)).prod =
      intProd (cellBox (ds.map Direction.ax) e) P
  | [], _, P, e, h1, h2, h3 => by
    cases h1; cases h2
    simp [intProd, lines]
  | d :: ds, _, _, [], _, _, h3 => by simp at h3
  | d :: ds, _, _, i :: e, .cons hd hds, .cons hp hP, h3 => by
    have ih := line_prod ds _ _ e hds hP (by simpa using h3)
    simp only [lines, intProd, cellBox] at ih
    simp only [lines, intProd, cellBox, List.map_cons, List.zipWith_cons_cons, List.prod_cons]
    rw [ih, line_exact d hd (sp d.ax i) _ hp]
    rfl

/-- Quadrature on one element of a product of polynomials within the degrees of the rules. -/
theorem element_exact {V : Type} {ds : List (Direction V)} {degs : List Nat} {P : List ℝ[X]} {e : List Int}
    (hx : List.Forall₂ (fun d n => ExactRule n d.X d.W) ds degs)
    (hP : List.Forall₂ (fun p n => p.natDegree ≤ n) P degs) (he : ds.length = e.length) :
    ((tensorPoints (lines ds e)).map fun pts => evalProd P (pts.map Pt.x) * ((pts.map Pt.J).prod * (pts.map Pt.w).prod)).sum =
      intProd (cellBox (ds.map Direction.ax) e) P := by
  have hl : P.length = ds.length := by rw [hP.length_eq, hx.length_eq]
  have hll : (lines ds e).length = ds.length := by unfold lines; simp; omega
  rw [← line_prod ds degs P e hx hP he, ← tensor_sum _ _ (by simp; omega)]
  congr 1
  refine List.map_congr_left fun pts hp => ?_
  rw [prod_points P pts (by rw [← (mem_tensorPoints hp).length_eq]; omega)]

theorem gridSize_map (axs : List (Axis ℝ)) : axs.map (gridSize false) = axs.map fun ax => ax.nel := by
  refine List.map_congr_left fun ax _ => by simp [gridSize]

theorem elements_sum {V : Type} {ds : List (Direction V)} {degs : List Nat} (hd : ds.length ≤ 3)
    (hT : ∀ d ∈ ds, d.Tabulated) (hw : ∀ d ∈ ds, WF d.ax)
    (hx : List.Forall₂ (fun d n => ExactRule n d.X d.W) ds degs)
    (s : List Int → List ℝ × List (Option V) → ℝ) (T : List Int → List (ℝ × List ℝ[X]))
    (hdeg : ∀ e, InBox (ds.map fun d => d.ax.nel) e → ∀ cP ∈ T e, List.Forall₂ (fun p n => p.natDegree ≤ n) cP.2 degs)
    (hs : ∀ e, InBox (ds.map fun d => d.ax.nel) e → ∀ pts ∈ tensorPoints (lines ds e),
      s e (pts.map Pt.x, pts.map Pt.value) = ((T e).map fun cP => cP.1 * evalProd cP.2 (pts.map Pt.x)).sum) :
    ((indices (ds.map fun d => d.ax.nel)).map fun e => ((pointsOf (ds.map Direction.B) e).map fun q =>
      s e q.data * (q.detJac * q.weight)).sum).sum =
    ((indices (ds.map fun d => d.ax.nel)).map fun e =>
      ((T e).map fun cP => cP.1 * intProd (cellBox (ds.map Direction.ax) e) cP.2).sum).sum := by
  congr 1
  refine List.map_congr_left fun e he => ?_
  have he := (mem_indices _ e).1 he
  have hlen : ds.length = e.length := by rw [PetIGA.Grid.inBox_length he]; simp
  unfold pointsOf
  rw [elemPoints_ok hd hT hw he]
  simp only [List.map_map, Function.comp_def]
  have h1 : ((tensorPoints (lines ds e)).map fun pts => s e (pts.map Pt.x, pts.map Pt.value) *
        ((pts.map Pt.J).prod * (pts.map Pt.w).prod)) =
      (tensorPoints (lines ds e)).map fun pts => ((T e).map fun cP => cP.1 * (evalProd cP.2 (pts.map Pt.x) *
        ((pts.map Pt.J).prod * (pts.map Pt.w).prod))).sum := by
    refine List.map_congr_left fun pts hp => ?_
    rw [hs e he pts hp, ← List.sum_map_mul_right]
    congr 1
    refine List.map_congr_left fun cP _ => by ring
  rw [h1]
  have hsw : ∀ (l : List (List (Pt V))) (r : List (ℝ × List ℝ[X])) (F : List (Pt V) → ℝ × List ℝ[X] → ℝ),
      (l.map fun p => (r.map fun c => F p c).sum).sum = (r.map fun c => (l.map fun p => F p c).sum).sum := by
    intro l r F
    induction l with
    | nil => simp
    | cons a l ih => simp only [List.map_cons, List.sum_cons, ih]; rw [← List.sum_map_add]
  rw [hsw]
  congr 1
  refine List.map_congr_left fun cP hc => ?_
  rw [List.sum_map_mul_left, element_exact hx (hdeg e he cP hc) hlen]

/-- Points of reference rules inside `(-1,1)` give points inside the element. -/
theorem points_inside {V : Type} (R : ℝ × ℝ → ℝ → Prop) : ∀ {ds : List (Direction V)} {e : List Int} {pts : List (Pt V)},
    (∀ d ∈ ds, WF d.ax) → InBox (ds.map fun d => d.ax.nel) e →
    (∀ d ∈ ds, ∀ k, d.ax.U k < d.ax.U (k+1) → ∀ xw ∈ d.X.zip d.W, R (d.ax.U k, d.ax.U (k+1)) (ptOf d k xw).x) →
    pts ∈ tensorPoints (lines ds e) →
    List.Forall₂ R (cellBox (ds.map Direction.ax) e) (pts.map Pt.x)
  | [], e, pts, _, he, _, h => by
    cases he
    simp [lines, tensorPoints] at h
    subst h
    exact .nil
  | d :: ds, _, pts, hw, .cons (b := i) (l₂ := e) ha he, hR, h => by
    simp only [lines, List.zipWith_cons_cons, tensorPoints, List.mem_flatMap, List.mem_map] at h
    obtain ⟨rest, hr, p, ⟨xw, hxw, rfl⟩, rfl⟩ := h
    refine .cons ?_ (points_inside R (fun d' h' => hw d' (by simp [h'])) he (fun d' h' => hR d' (by simp [h'])) hr)
    exact hR d (by simp) _ (sp_elem (hw d (by simp)).toPreWF ha.1 ha.2).2.2 xw hxw

section
variable {g2 : Guess2} {g3 : Guess3} {size : Int} {procs : List Int} {axes : List (Axis ℝ)} {Ls : List (Layout ℝ)}

theorem setup_ds {V : Type} {ds : List (Direction V)} (S : Setup g2 g3 false size procs axes (ds.map Direction.ax) Ls) :
    (∀ d ∈ ds, WF d.ax) ∧ 1 ≤ ds.length ∧ ds.length ≤ 3 := by
  have hl := setUpAxes_length S.set
  have := S.dim
  simp at hl
  exact ⟨fun d hd => setUpAxes_wf S.reached S.set d.ax (List.mem_map_of_mem hd), by omega, by omega⟩

theorem compute_core {V : Type} {ds : List (Direction V)}
    (S : Setup g2 g3 false size procs axes (ds.map Direction.ax) Ls) (hT : ∀ d ∈ ds, d.Tabulated)
    {degs : List Nat} (hx : List.Forall₂ (fun d n => ExactRule n d.X d.W) ds degs)
    (R : ℝ × ℝ → ℝ → Prop) (hR : ∀ a b x : ℝ, a < x → x < b → R (a, b) x)
    (hin : ∀ d ∈ ds, ∀ k, d.ax.U k < d.ax.U (k+1) → ∀ xw ∈ d.X.zip d.W, R (d.ax.U k, d.ax.U (k+1)) (ptOf d k xw).x)
    (f : List ℝ → ℝ)
    (hf : ∀ e, InBox (ds.map fun d => d.ax.nel) e → PolyOn (List.Forall₂ R (cellBox (ds.map Direction.ax) e)) degs f) :
    ((indices ((ds.map Direction.ax).map (gridSize false))).map fun e => ((pointsOf (ds.map Direction.B) e).map fun q =>
      f q.data.1 * (q.detJac * q.weight)).sum).sum = integralBox ((ds.map Direction.ax).map domain) f := by
  obtain ⟨hw, _, hd⟩ := setup_ds S
  classical
  choose! T h1 h2 using hf
  have e1 := elements_sum hd hT hw hx (fun _ p => f p.1) (fun e => (T e).map fun P => (1, P))
    (by
      intro e he cP hc
      obtain ⟨P, hP, rfl⟩ := List.mem_map.1 hc
      exact h1 e he P hP)
    (by
      intro e he pts hp
      simp only [List.map_map, Function.comp_def, one_mul]
      exact h2 e he _ (points_inside R hw he hin hp))
  have e2 := integralBox_terms (ds.map Direction.ax) (by simpa using hw) f (fun e => (T e).map fun P => (1, P))
    (by
      intro e he cP hc
      rw [List.map_map] at he
      obtain ⟨P, hP, rfl⟩ := List.mem_map.1 hc
      have := (h1 e he P hP).length_eq
      rw [this, ← hx.length_eq]
      simp)
    (by
      intro e he xs hxs
      rw [List.map_map] at he
      simp only [List.map_map, Function.comp_def, one_mul]
      refine h2 e he xs (hxs.imp fun ab x h => ?_)
      exact hR ab.1 ab.2 x h.1 h.2)
  rw [gridSize_map, e2]
  simp only [List.map_map, Function.comp_def] at e1 ⊢
  exact e1

/-- **C86**, continuous piecewise polynomials: whatever the number of processes and their grid, `IGAComputeScalar` with
callbacks that evaluate `f i` at the point returns `∫ f i` over the parametric domain, for every `f i` that is on each
element (with its boundary) a polynomial within the degrees the rules integrate exactly. -/
theorem C86_exact {V : Type} {ds : List (Direction V)}
    (S : Setup g2 g3 false size procs axes (ds.map Direction.ax) Ls) (hT : ∀ d ∈ ds, d.Tabulated)
    {degs : List Nat} (hx : List.Forall₂ (fun d n => ExactRule n d.X d.W) ds degs)
    (hX : ∀ d ∈ ds, ∀ x ∈ d.X, -1 ≤ x ∧ x ≤ 1)
    (hist : Nat → Hist) (dof n : Nat) (gvec : Int → ℝ) (junk : Nat × Int → ℝ) (u : List Int → Nat → ℝ)
    (hu : Represents (ds.map Direction.ax) Ls dof gvec u) (heap : Nat → Nat → ℝ)
    (f : Nat → List ℝ → ℝ)
    (hf : ∀ i : Nat, i < n → ∀ e, InBox (ds.map fun d => d.ax.nel) e →
      PolyOn (InClosedBox (cellBox (ds.map Direction.ax) e)) degs (f i))
    (scalar : List ℝ × List (Option V) → List ℝ → (Nat → ℝ) → Res (Nat → ℝ))
    (hs : Computes n scalar fun p _ i => f i p.1) (arr : Nat → ℝ) :
    computeScalar false Ls hist dof n gvec junk heap (pointsOf (ds.map Direction.B)) scalar arr =
      .ok fun i => if i < n then integralBox ((ds.map Direction.ax).map domain) (f i) else arr i := by
  rw [C48_compute_scalar_partial S hist dof n gvec junk u hu heap _ scalar _ hs arr]
  congr 1
  funext i
  by_cases hi : i < n
  · simp only [if_pos hi]
    refine compute_core S hT hx (fun ab x => ab.1 ≤ x ∧ x ≤ ab.2) (fun a b x h h' => ⟨h.le, h'.le⟩) ?_ (f i) (hf i hi)
    intro d hd k hk xw hxw
    have := hX d hd xw.1 (List.of_mem_zip hxw).1
    simp only [ptOf]
    constructor <;> nlinarith [this.1, this.2]
  · simp only [if_neg hi]

/-- **C86**, discontinuous piecewise polynomials: as above for rules whose points are strictly inside `(-1,1)` (the Gauss
rules), when `f i` is polynomial inside each element, whatever its values on the element boundaries. -/
theorem C86_exact_interior {V : Type} {ds : List (Direction V)}
    (S : Setup g2 g3 false size procs axes (ds.map Direction.ax) Ls) (hT : ∀ d ∈ ds, d.Tabulated)
    {degs : List Nat} (hx : List.Forall₂ (fun d n => ExactRule n d.X d.W) ds degs)
    (hX : ∀ d ∈ ds, ∀ x ∈ d.X, -1 < x ∧ x < 1)
    (hist : Nat → Hist) (dof n : Nat) (gvec : Int → ℝ) (junk : Nat × Int → ℝ) (u : List Int → Nat → ℝ)
    (hu : Represents (ds.map Direction.ax) Ls dof gvec u) (heap : Nat → Nat → ℝ)
    (f : Nat → List ℝ → ℝ)
    (hf : ∀ i : Nat, i < n → ∀ e, InBox (ds.map fun d => d.ax.nel) e →
      PolyOn (InsideBox (cellBox (ds.map Direction.ax) e)) degs (f i))
    (scalar : List ℝ × List (Option V) → List ℝ → (Nat → ℝ) → Res (Nat → ℝ))
    (hs : Computes n scalar fun p _ i => f i p.1) (arr : Nat → ℝ) :
    computeScalar false Ls hist dof n gvec junk heap (pointsOf (ds.map Direction.B)) scalar arr =
      .ok fun i => if i < n then integralBox ((ds.map Direction.ax).map domain) (f i) else arr i := by
  rw [C48_compute_scalar_partial S hist dof n gvec junk u hu heap _ scalar _ hs arr]
  congr 1
  funext i
  by_cases hi : i < n
  · simp only [if_pos hi]
    refine compute_core S hT hx (fun ab x => ab.1 < x ∧ x < ab.2) (fun a b x h h' => ⟨h, h'⟩) ?_ (f i) (hf i hi)
    intro d hd k hk xw hxw
    have := hX d hd xw.1 (List.of_mem_zip hxw).1
    simp only [ptOf]
    constructor <;> nlinarith [this.1, this.2]
  · simp only [if_neg hi]

end

end PetIGA.Itg
