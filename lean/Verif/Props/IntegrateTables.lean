import Verif.Props.Integrate
import Verif.Props.SetUpSucceeds
import Verif.Props.Rule
/-
C86 for the tables of the library, which are rounded to 36 digits: an explicit bound for the difference between what
`IGAComputeScalar` returns and the integral.  Then examples over the real numbers.
-/
set_option linter.unusedSectionVars false
namespace PetIGA.Itg
open PetIGA.Quad PetIGA.Drv PetIGA.Spec PetIGA.Ax PetIGA.Lay PetIGA.Asm PetIGA.Rule PetIGA.Grid PetIGA.Part
open Polynomial

/-- `Σ_k |c_k|` of a polynomial. -/
noncomputable def coefs (P : ℝ[X]) : ℝ := ∑ k ∈ Finset.range (P.natDegree+1), |P.coeff k|

/-- The polynomial seen from the reference interval `[-1,1]`. -/
noncomputable def pull (ab : ℝ × ℝ) (P : ℝ[X]) : ℝ[X] := P.comp (C ((ab.2 - ab.1)/2) * X + C ((ab.1 + ab.2)/2))

/-- The rule integrates polynomials of degree `n` or less on `[-1,1]` up to `ε` times the sum of the coefficients. -/
def NearRule (ε : ℝ) (n : Nat) (X W : List ℝ) : Prop :=
  ∀ P : ℝ[X], P.natDegree ≤ n → |quadSum X W (fun x => P.eval x) - integral11 P| ≤ ε * coefs P

/-- Error bound in one direction on the interval `ab`. -/
noncomputable def lineErr (ε : ℝ) (ab : ℝ × ℝ) (P : ℝ[X]) : ℝ := ε * ((ab.2 - ab.1)/2 * coefs (pull ab P))

/-- Error bound for `Π_k P_k` on a box: `Π (|I_k| + δ_k) - Π |I_k|`. -/
noncomputable def boxErr (ε : ℝ) (box : List (ℝ × ℝ)) (P : List ℝ[X]) : ℝ :=
  (List.zipWith (fun ab p => |∫ x in ab.1..ab.2, p.eval x| + lineErr ε ab p) box P).prod -
  (List.zipWith (fun ab p => |∫ x in ab.1..ab.2, p.eval x|) box P).prod

theorem line_near {V : Type} (d : Direction V) {n : Nat} {ε : ℝ} (hx : NearRule ε n d.X d.W) (k : Int)
    (hk : d.ax.U k ≤ d.ax.U (k+1)) (P : ℝ[X]) (hP : P.natDegree ≤ n) :
    |(((d.X.zip d.W).map (ptOf d k)).map fun p => P.eval p.x * (p.J * p.w)).sum -
      ∫ x in d.ax.U k..d.ax.U (k+1), P.eval x| ≤ lineErr ε (d.ax.U k, d.ax.U (k+1)) P := by
  set J := (d.ax.U (k+1) - d.ax.U k) / 2 with hJ
  have hJ0 : 0 ≤ J := by rw [hJ]; linarith
  set Q : ℝ[X] := pull (d.ax.U k, d.ax.U (k+1)) P with hQ
  have hQ' : Q = P.comp (C J * X + C (J + d.ax.U k)) := by
    rw [hQ]; unfold pull; simp only
    rw [show (d.ax.U k + d.ax.U (k+1))/2 = J + d.ax.U k by rw [hJ]; ring]
  have hdeg : Q.natDegree ≤ n := by
    rw [hQ']
    refine le_trans (natDegree_comp_le) ?_
    refine le_trans (Nat.mul_le_mul_left _ (natDegree_linear_le)) (by omega)
  have he : ∀ x, Q.eval x = P.eval (J * x + (J + d.ax.U k)) := by intro x; rw [hQ']; simp
  rw [List.map_map]
  have h1 : ((fun p : Pt V => P.eval p.x * (p.J * p.w)) ∘ ptOf d k) =
      fun xw : ℝ × ℝ => (fun x => Q.eval x) xw.1 * (J * xw.2) := by
    funext xw
    simp only [Function.comp, ptOf, he]
    rw [← hJ]
    congr 2
    ring
  have h2 : (∫ x in d.ax.U k..d.ax.U (k+1), P.eval x) = J * integral11 Q := by
    unfold integral11
    simp only [he]
    rw [intervalIntegral.mul_integral_comp_mul_add (f := fun x => P.eval x)]
    congr 1 <;> rw [hJ] <;> ring
  rw [h1, quadSum_map d.X d.W (fun x => Q.eval x) J, h2, ← mul_sub, abs_mul, abs_of_nonneg hJ0]
  have := hx Q hdeg
  unfold lineErr
  simp only
  rw [← hJ, ← hQ]
  calc J * |quadSum d.X d.W (fun x => Q.eval x) - integral11 Q| ≤ J * (ε * coefs Q) := by gcongr
    _ = _ := by ring

theorem lineErr_nonneg {ε : ℝ} (h : 0 ≤ ε) {ab : ℝ × ℝ} (hab : ab.1 ≤ ab.2) (P : ℝ[X]) : 0 ≤ lineErr ε ab P := by
  unfold lineErr coefs
  have : 0 ≤ (ab.2 - ab.1)/2 := by linarith
  have : 0 ≤ ∑ k ∈ Finset.range ((pull ab P).natDegree+1), |(pull ab P).coeff k| := Finset.sum_nonneg fun _ _ => abs_nonneg _
  positivity

theorem line_prod_near {V : Type} {ε : ℝ} (hε : 0 ≤ ε) : ∀ (ds : List (Direction V)) (degs : List Nat) (P : List ℝ[X]) (e : List Int),
    (∀ d ∈ ds, WF d.ax) → InBox (ds.map fun d => d.ax.nel) e →
    List.Forall₂ (fun d n => NearRule ε n d.X d.W) ds degs → List.Forall₂ (fun p n => p.natDegree ≤ n) P degs →
    |(List.zipWith (fun g l => (l.map g).sum) (P.map fun p => fun (pt : Pt V) => p.eval pt.x * (pt.J * pt.w)) (lines ds e)).prod -
      intProd (cellBox (ds.map Direction.ax) e) P| ≤ boxErr ε (cellBox (ds.map Direction.ax) e) P ∧
    |(List.zipWith (fun g l => (l.map g).sum) (P.map fun p => fun (pt : Pt V) => p.eval pt.x * (pt.J * pt.w)) (lines ds e)).prod| ≤
      (List.zipWith (fun ab p => |∫ x in ab.1..ab.2, p.eval x| + lineErr ε ab p) (cellBox (ds.map Direction.ax) e) P).prod ∧
    |intProd (cellBox (ds.map Direction.ax) e) P| =
      (List.zipWith (fun ab p => |∫ x in ab.1..ab.2, p.eval x|) (cellBox (ds.map Direction.ax) e) P).prod
  | [], _, P, e, _, _, h1, h2 => by
    cases h1; cases h2
    simp [intProd, lines, boxErr]
  | d :: ds, _, _, _, hw, .cons (b := i) (l₂ := e) hi he, .cons (l₂ := degs) hd hds, .cons (a := p) (l₁ := P) hp hP => by
    obtain ⟨i1, i2, i3⟩ := line_prod_near hε ds _ _ e (fun d' h' => hw d' (by simp [h'])) he hds hP
    have hel := sp_elem (hw d (by simp)).toPreWF hi.1 hi.2
    have hl := line_near d hd (sp d.ax i) hel.2.2.le p hp
    have hδ := lineErr_nonneg hε (ab := (d.ax.U (sp d.ax i), d.ax.U (sp d.ax i + 1))) hel.2.2.le p
    simp only [lines, intProd, cellBox, boxErr] at i1 i2 i3
    simp only [lines, intProd, cellBox, boxErr, List.map_cons, List.zipWith_cons_cons, List.prod_cons]
    simp only [cell]
    set q := (((d.X.zip d.W).map (ptOf d (sp d.ax i))).map fun pt => p.eval pt.x * (pt.J * pt.w)).sum
    set I := ∫ x in d.ax.U (sp d.ax i)..d.ax.U (sp d.ax i + 1), p.eval x
    set δ := lineErr ε (d.ax.U (sp d.ax i), d.ax.U (sp d.ax i + 1)) p
    set q' := (List.zipWith (fun g l => (List.map g l).sum) (P.map fun p => fun (pt : Pt V) => p.eval pt.x * (pt.J * pt.w))
      (List.zipWith (fun d i => (d.X.zip d.W).map (ptOf d (sp d.ax i))) ds e)).prod
    set I' := (List.zipWith (fun ab p => ∫ x in ab.1..ab.2, eval x p) (List.zipWith cell (ds.map Direction.ax) e) P).prod
    set B := (List.zipWith (fun ab p => |∫ x in ab.1..ab.2, eval x p| + lineErr ε ab p) (List.zipWith cell (ds.map Direction.ax) e) P).prod
    set A := (List.zipWith (fun ab p => |∫ x in ab.1..ab.2, eval x p|) (List.zipWith cell (ds.map Direction.ax) e) P).prod
    have hq : |q| ≤ |I| + δ := by
      have := abs_sub_abs_le_abs_sub q I
      linarith
    refine ⟨?_, ?_, ?_⟩
    · have e1 : q * q' - I * I' = (q - I) * q' + I * (q' - I') := by ring
      rw [e1]
      calc |(q - I) * q' + I * (q' - I')| ≤ |(q - I) * q'| + |I * (q' - I')| := abs_add_le _ _
        _ = |q - I| * |q'| + |I| * |q' - I'| := by rw [abs_mul, abs_mul]
        _ ≤ δ * B + |I| * (B - A) := by
          have h1 : |q - I| * |q'| ≤ δ * B := mul_le_mul hl i2 (abs_nonneg _) hδ
          have h2 : |I| * |q' - I'| ≤ |I| * (B - A) := mul_le_mul_of_nonneg_left i1 (abs_nonneg _)
          linarith
        _ = _ := by ring
    · rw [abs_mul]
      exact mul_le_mul hq i2 (abs_nonneg _) (by positivity)
    · rw [abs_mul, i3]

section
variable {g2 : Guess2} {g3 : Guess3} {size : Int} {procs : List Int} {axes : List (Axis ℝ)} {Ls : List (Layout ℝ)}

theorem abs_list_sum {α : Type} (l : List α) (f g h : α → ℝ) (H : ∀ a ∈ l, |f a - g a| ≤ h a) :
    |(l.map f).sum - (l.map g).sum| ≤ (l.map h).sum := by
  induction l with
  | nil => simp
  | cons a l ih =>
    simp only [List.map_cons, List.sum_cons]
    have h1 := H a (by simp)
    have h2 := ih fun b hb => H b (by simp [hb])
    rw [show f a + (l.map f).sum - (g a + (l.map g).sum) = (f a - g a) + ((l.map f).sum - (l.map g).sum) by ring]
    exact (abs_add_le _ _).trans (by linarith)

/-- **C86**, rules that are exact up to `ε`: for functions that are on each element (with its boundary) the sum of the
given products of polynomials within the degrees of the rules, the value `IGAComputeScalar` returns differs from the
integral by no more than the sum of `boxErr ε` over the elements and products. -/
theorem C86_near {V : Type} {ds : List (Direction V)}
    (S : Setup g2 g3 false size procs axes (ds.map Direction.ax) Ls) (hT : ∀ d ∈ ds, d.Tabulated)
    {ε : ℝ} (hε : 0 ≤ ε) {degs : List Nat} (hx : List.Forall₂ (fun d n => NearRule ε n d.X d.W) ds degs)
    (hX : ∀ d ∈ ds, ∀ x ∈ d.X, -1 ≤ x ∧ x ≤ 1)
    (hist : Nat → Hist) (dof n : Nat) (gvec : Int → ℝ) (junk : Nat × Int → ℝ) (u : List Int → Nat → ℝ)
    (hu : Represents (ds.map Direction.ax) Ls dof gvec u) (heap : Nat → Nat → ℝ)
    (f : Nat → List ℝ → ℝ) (T : Nat → List Int → List (List ℝ[X]))
    (hf : ∀ i : Nat, i < n → ∀ e, InBox (ds.map fun d => d.ax.nel) e →
      (∀ P ∈ T i e, List.Forall₂ (fun p m => p.natDegree ≤ m) P degs) ∧
      ∀ xs, InClosedBox (cellBox (ds.map Direction.ax) e) xs → f i xs = ((T i e).map fun P => evalProd P xs).sum)
    (scalar : List ℝ × List (Option V) → List ℝ → (Nat → ℝ) → Res (Nat → ℝ))
    (hs : Computes n scalar fun p _ i => f i p.1) (arr : Nat → ℝ) :
    ∃ r, computeScalar false Ls hist dof n gvec junk heap (pointsOf (ds.map Direction.B)) scalar arr = .ok r ∧
      ∀ i : Nat, i < n → |r i - integralBox ((ds.map Direction.ax).map domain) (f i)| ≤
        ((indices (ds.map fun d => d.ax.nel)).map fun e =>
          ((T i e).map fun P => boxErr ε (cellBox (ds.map Direction.ax) e) P).sum).sum := by
  refine ⟨_, C48_compute_scalar_partial S hist dof n gvec junk u hu heap _ scalar _ hs arr, ?_⟩
  intro i hi
  simp only [if_pos hi]
  obtain ⟨hw, _, hd⟩ := setup_ds S
  have e2 := integralBox_terms (ds.map Direction.ax) (by simpa using hw) (f i) (fun e => (T i e).map fun P => (1, P))
    (by
      intro e he cP hc
      rw [List.map_map] at he
      obtain ⟨P, hP, rfl⟩ := List.mem_map.1 hc
      have := ((hf i hi e he).1 P hP).length_eq
      rw [this, ← hx.length_eq]
      simp)
    (by
      intro e he xs hxs
      rw [List.map_map] at he
      simp only [List.map_map, Function.comp_def, one_mul]
      exact (hf i hi e he).2 xs (hxs.imp fun ab x h => ⟨h.1.le, h.2.le⟩))
  rw [gridSize_map, e2]
  simp only [List.map_map, Function.comp_def, one_mul]
  refine abs_list_sum _ _ _ _ fun e he => ?_
  have he := (mem_indices _ e).1 he
  have hlen : ds.length = e.length := by rw [PetIGA.Grid.inBox_length he]; simp
  have hpt : ((pointsOf (ds.map Direction.B) e).map fun q => f i q.data.1 * (q.detJac * q.weight)).sum =
      ((T i e).map fun P => ((tensorPoints (lines ds e)).map fun pts => evalProd P (pts.map Pt.x) *
        ((pts.map Pt.J).prod * (pts.map Pt.w).prod)).sum).sum := by
    unfold pointsOf
    rw [elemPoints_ok hd hT hw he]
    simp only [List.map_map, Function.comp_def]
    have h1 : ((tensorPoints (lines ds e)).map fun pts => f i (pts.map Pt.x) *
          ((pts.map Pt.J).prod * (pts.map Pt.w).prod)) =
        (tensorPoints (lines ds e)).map fun pts => ((T i e).map fun P => (evalProd P (pts.map Pt.x) *
          ((pts.map Pt.J).prod * (pts.map Pt.w).prod))).sum := by
      refine List.map_congr_left fun pts hp => ?_
      have hin := points_inside (fun ab x => ab.1 ≤ x ∧ x ≤ ab.2) hw he (by
        intro d hd k hk xw hxw
        have := hX d hd xw.1 (List.of_mem_zip hxw).1
        simp only [ptOf]
        constructor <;> nlinarith [this.1, this.2]) hp
      rw [(hf i hi e he).2 _ hin, ← List.sum_map_mul_right]
    rw [h1]
    have hsw : ∀ (l : List (List (Pt V))) (r : List (List ℝ[X])) (F : List (Pt V) → List ℝ[X] → ℝ),
        (l.map fun p => (r.map fun c => F p c).sum).sum = (r.map fun c => (l.map fun p => F p c).sum).sum := by
      intro l r F
      induction l with
      | nil => simp
      | cons a l ih => simp only [List.map_cons, List.sum_cons, ih]; rw [← List.sum_map_add]
    rw [hsw]
  rw [hpt]
  refine abs_list_sum _ _ _ _ fun P hP => ?_
  have hP' := (hf i hi e he).1 P hP
  have hl : P.length = ds.length := by rw [hP'.length_eq, hx.length_eq]
  have hll : (lines ds e).length = ds.length := by unfold lines; simp; omega
  have h1 : ((tensorPoints (lines ds e)).map fun pts => evalProd P (pts.map Pt.x) * ((pts.map Pt.J).prod * (pts.map Pt.w).prod)).sum =
      (List.zipWith (fun g l => (l.map g).sum) (P.map fun p => fun (pt : Pt V) => p.eval pt.x * (pt.J * pt.w)) (lines ds e)).prod := by
    rw [← tensor_sum _ _ (by simp; omega)]
    congr 1
    refine List.map_congr_left fun pts hp => ?_
    rw [prod_points P pts (by rw [← (mem_tensorPoints hp).length_eq]; omega)]
  rw [h1]
  exact (line_prod_near hε ds degs P e hw he hx hP').1

/-- The rule of a direction is the Gauss–Legendre table with `q` points. -/
def IsLegendre {V : Type} (q : Nat) (d : Direction V) : Prop :=
  ∃ X W, legendreTable q = some (X, W) ∧ d.X = X.map (fun x : Rat => (x:ℝ)) ∧ d.W = W.map fun w : Rat => (w:ℝ)

/-- **C86**, the Gauss–Legendre tables of the library: with `q_k` points in direction `k` the bound holds with
`ε = 10⁻³⁴` for piecewise polynomials of degree `2q_k - 1` in variable `k`. -/
theorem C86_legendre {V : Type} {ds : List (Direction V)}
    (S : Setup g2 g3 false size procs axes (ds.map Direction.ax) Ls) (hT : ∀ d ∈ ds, d.Tabulated)
    {qs : List Nat} (hq : List.Forall₂ (fun d q => IsLegendre q d) ds qs)
    (hist : Nat → Hist) (dof n : Nat) (gvec : Int → ℝ) (junk : Nat × Int → ℝ) (u : List Int → Nat → ℝ)
    (hu : Represents (ds.map Direction.ax) Ls dof gvec u) (heap : Nat → Nat → ℝ)
    (f : Nat → List ℝ → ℝ) (T : Nat → List Int → List (List ℝ[X]))
    (hf : ∀ i : Nat, i < n → ∀ e, InBox (ds.map fun d => d.ax.nel) e →
      (∀ P ∈ T i e, List.Forall₂ (fun p q => p.natDegree ≤ 2*q-1) P qs) ∧
      ∀ xs, InClosedBox (cellBox (ds.map Direction.ax) e) xs → f i xs = ((T i e).map fun P => evalProd P xs).sum)
    (scalar : List ℝ × List (Option V) → List ℝ → (Nat → ℝ) → Res (Nat → ℝ))
    (hs : Computes n scalar fun p _ i => f i p.1) (arr : Nat → ℝ) :
    ∃ r, computeScalar false Ls hist dof n gvec junk heap (pointsOf (ds.map Direction.B)) scalar arr = .ok r ∧
      ∀ i : Nat, i < n → |r i - integralBox ((ds.map Direction.ax).map domain) (f i)| ≤
        ((indices (ds.map fun d => d.ax.nel)).map fun e =>
          ((T i e).map fun P => boxErr (1/10^34) (cellBox (ds.map Direction.ax) e) P).sum).sum := by
  have key : ∀ (d : Direction V) (q : Nat), IsLegendre q d → NearRule (1/10^34) (2*q-1) d.X d.W ∧ ∀ x ∈ d.X, -1 ≤ x ∧ x ≤ 1 := by
    rintro d q ⟨X, W, hl, hX, hW⟩
    have hq : 1 ≤ (q:Int) ∧ (q:Int) ≤ 10 := by
      by_contra hc
      have := (C16_legendre q).2 (by omega)
      rw [this] at hl
      simp at hl
    obtain ⟨X', W', hl', hi⟩ := (C16_legendre q).1 hq.1 hq.2
    rw [hl] at hl'
    simp only [Option.some.injEq, Prod.mk.injEq] at hl'
    obtain ⟨rfl, rfl⟩ := hl'
    rw [hX, hW]
    refine ⟨fun P hP => ?_, fun x hx => ?_⟩
    · exact hi.exact P (by simpa using hP)
    · obtain ⟨y, hy, rfl⟩ := List.mem_map.1 hx
      have := hi.inside y hy
      exact ⟨by exact_mod_cast this.1, by exact_mod_cast this.2⟩
  refine C86_near S hT (by positivity) (degs := qs.map fun q => 2*q-1) ?_ ?_ hist dof n gvec junk u hu heap f T ?_ scalar hs arr
  · rw [List.forall₂_map_right_iff]
    exact hq.imp fun d q h => (key d q h).1
  · intro d hd
    obtain ⟨q, h⟩ : ∃ q, IsLegendre q d := by
      clear hf hs hu hT S
      induction hq with
      | nil => simp at hd
      | cons h _ ih =>
        rcases List.mem_cons.1 hd with rfl | hd
        · exact ⟨_, h⟩
        · exact ih hd
    exact (key d q h).2
  · intro i hi e he
    obtain ⟨h1, h2⟩ := hf i hi e he
    exact ⟨fun P hP => by rw [List.forall₂_map_right_iff]; exact h1 P hP, h2⟩

end

/-! ### Examples over the real numbers -/

/-- Knots 0,0,0,1,2,3,3,3. -/
noncomputable def exU : Int → ℝ := fun i => if i ≤ 2 then 0 else if i = 3 then 1 else if i = 4 then 2 else 3

theorem exU_legal : LegalKnots 2 7 exU := by
  refine ⟨by omega, by omega, ?_, ?_⟩
  · intro i h0 h1
    interval_cases i <;> norm_num [exU]
  · intro i h0 h1
    have : i < 5 := by omega
    interval_cases i <;> norm_num [exU]

theorem exU_spans : computeSpans 2 7 exU = [2, 3, 4] := by
  obtain ⟨h1, h2⟩ := computeSpans_spec exU_legal.sorted (by omega : (1:Int) ≤ 2) (by omega)
  refine pairwise_ext h2 (by decide) fun i => ?_
  rw [h1]
  unfold IsElement
  constructor
  · rintro ⟨a, b, _⟩
    simp; omega
  · intro h
    simp at h
    rcases h with rfl | rfl | rfl <;> norm_num [exU]

/-- The axis: degree 2, three elements. -/
noncomputable def exRealAx : Axis ℝ := knotAxis false 2 7 exU

theorem exRealAx_wf : WF exRealAx := ⟨⟨exU_legal, rfl, rfl⟩, rfl⟩

theorem exRealAx_nel : exRealAx.nel = 3 := by
  show ((computeSpans 2 7 exU).length : Int) = 3
  rw [exU_spans]; rfl

theorem exRealSetup (g2 : Guess2) (g3 : Guess3) : ∃ Ls, Setup g2 g3 false 2 [2,1] [exRealAx, exRealAx] [exRealAx, exRealAx] Ls := by
  refine knot_setup g2 g3 2 [2,1] [exRealAx, exRealAx] ?_ (by simp) ?_ rfl (by omega)
  · intro ax hax
    simp only [List.mem_cons, List.not_mem_nil, or_false, or_self] at hax
    subst hax
    exact ⟨false, 2, 7, exU, rfl, exU_legal, by norm_num [exU], by norm_num [exU]⟩
  · have : gridSize false exRealAx = 3 := by simp [gridSize, exRealAx_nel]
    simp only [List.map_cons, List.map_nil, this]
    exact .cons (by omega) (.cons (by omega) .nil)

/-- A rule with the given points. -/
noncomputable def exRule (X W : List ℝ) : Rule ℝ := { (Rule.create : Rule ℝ) with type := .user, nqp := X.length, point := some X, weight := some W }

/-- The tables made from it by `IGABasisInitQuadrature`. -/
noncomputable def exDir (X W : List ℝ) : Direction Unit :=
  ⟨exRealAx, X, W, fun _ _ => (), ⟨X.length, 3, exRealAx.span.map (mkElem (fun _ _ => ()) 2 exU X.length 0 X W), ((), ())⟩⟩

theorem exDir_tabulated {X W : List ℝ} (hl : X.length = W.length) (h1 : 1 ≤ X.length) (hW : ∀ w ∈ W, 0 < w) : (exDir X W).Tabulated := by
  have hr : Ready (exRule X W) X W := ⟨by simp [exRule]; omega, rfl, rfl, rfl, by simp [exRule]; omega⟩
  exact ⟨0, .bspline, exRule X W, exRule X W, initQuadrature_std _ _ _ _ X W hr (by simp [exRule]), hr, by simp [exRule], hW⟩

theorem exactRule_of_moments (n : Nat) (X W : List ℝ) (h : ∀ k : Nat, k ≤ n → quadSum X W (fun x => x^k) = ((moment k : Rat) : ℝ)) :
    ExactRule n X W := by
  intro P hP
  rw [integral11_eq]
  simp only [eval_eq_sum_range]
  rw [quadSum_sum]
  refine Finset.sum_congr rfl fun k hk => ?_
  have := Finset.mem_range.1 hk
  rw [h k (by omega)]

theorem simpson_exact : ExactRule 3 [-1, 0, 1] [1/3, 4/3, 1/3] := by
  refine exactRule_of_moments 3 _ _ fun k hk => ?_
  interval_cases k <;> norm_num [quadSum, moment]

/-- `C86_exact` applies: two processes, Simpson's rule in both directions, `∫∫ x y²`. -/
example (g2 : Guess2) (g3 : Guess3) (hist : Nat → Hist) (junk : Nat × Int → ℝ) (heap : Nat → Nat → ℝ) (arr : Nat → ℝ) :
    ∃ (Ls : List (Layout ℝ)) (gvec : Int → ℝ), computeScalar false Ls hist 1 1 gvec junk heap
        (pointsOf ([exDir [-1, 0, 1] [1/3, 4/3, 1/3], exDir [-1, 0, 1] [1/3, 4/3, 1/3]].map Direction.B))
        (fun p _ _ => .ok fun _ => p.1.getD 0 0 * p.1.getD 1 0 ^ 2) arr =
      .ok fun i => if i < 1 then integralBox [(0, 3), (0, 3)] (fun xs => xs.getD 0 0 * xs.getD 1 0 ^ 2) else arr i := by
  obtain ⟨Ls, S⟩ := exRealSetup g2 g3
  obtain ⟨gvec, hu⟩ := represents_exists S 1 (fun _ _ => (0:ℝ))
  refine ⟨Ls, gvec, ?_⟩
  have hdom : domain exRealAx = (0, 3) := by
    unfold domain exRealAx knotAxis
    norm_num [exU]
  have := C86_exact (ds := [exDir [-1, 0, 1] [1/3, 4/3, 1/3], exDir [-1, 0, 1] [1/3, 4/3, 1/3]]) S
    (fun d hd => by
      simp only [List.mem_cons, List.not_mem_nil, or_false, or_self] at hd
      subst hd
      exact exDir_tabulated rfl (by simp) (by intro w hw; simp at hw; rcases hw with rfl | rfl | rfl <;> norm_num))
    (degs := [3, 3]) (.cons simpson_exact (.cons simpson_exact .nil))
    (fun d hd x hx => by
      simp only [List.mem_cons, List.not_mem_nil, or_false, or_self] at hd
      subst hd
      simp [exDir] at hx
      rcases hx with rfl | rfl | rfl <;> norm_num)
    hist 1 1 gvec junk _ hu heap (fun _ xs => xs.getD 0 0 * xs.getD 1 0 ^ 2)
    (fun i _ e he => ⟨[[X, X^2]], by
        intro P hP
        simp only [List.mem_singleton] at hP
        subst hP
        exact .cons (by simp) (.cons (by simp) .nil), by
        intro xs hxs
        have h1 := List.Forall₂.length_eq hxs
        have h2 := PetIGA.Grid.inBox_length he
        simp [cellBox] at h1 h2
        obtain ⟨x, y, rfl⟩ : ∃ x y, xs = [x, y] := by
          match xs, (by omega : xs.length = 2) with
          | [x, y], _ => exact ⟨x, y, rfl⟩
        simp [evalProd]⟩)
    (fun p _ _ => .ok fun _ => p.1.getD 0 0 * p.1.getD 1 0 ^ 2) (fun p U w _ => ⟨_, rfl, fun i _ => rfl⟩) arr
  rw [this]
  simp only [exDir, List.map_cons, List.map_nil, hdom]

/-- The hypotheses of `C86_legendre` hold: the table with three points. -/
example : ∃ d : Direction Unit, IsLegendre 3 d ∧ d.Tabulated ∧ d.ax = exRealAx := by
  obtain ⟨X, W, h, hi⟩ := (C16_legendre 3).1 (by omega) (by omega)
  refine ⟨exDir (X.map fun x : Rat => (x:ℝ)) (W.map fun x : Rat => (x:ℝ)), ⟨X, W, h, rfl, rfl⟩, ?_, rfl⟩
  refine exDir_tabulated (by simp [hi.npoints, hi.nweights]) (by simp [hi.npoints]) ?_
  intro w hw
  obtain ⟨v, hv, rfl⟩ := List.mem_map.1 hw
  exact_mod_cast hi.pos v hv

end PetIGA.Itg
