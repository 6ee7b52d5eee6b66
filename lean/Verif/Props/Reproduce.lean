import Verif.Lemmas.Marsden
import Verif.Props.Mass
import Verif.Props.RigidBody
import Verif.Props.Continuity
import Verif.Props.IntegrateTables
/-
C97: fields of degree p reproduce polynomials of degree p.
-/
set_option linter.unusedSectionVars false
namespace PetIGA.Bsp
open Polynomial PetIGA.Spec
variable {K : Type} [Field K] [LinearOrder K] [IsStrictOrderedRing K]

theorem knotPoly_degree (U : Int → K) : ∀ (q : Nat) (i : Int), (knotPoly U q i).Monic ∧ (knotPoly U q i).natDegree = q
  | 0, i => by simp [knotPoly, monic_one]
  | q+1, i => by
    obtain ⟨h1, h2⟩ := knotPoly_degree U q i
    refine ⟨h1.mul (monic_X_sub_C _), ?_⟩
    rw [knotPoly, h1.natDegree_mul (monic_X_sub_C _), h2, natDegree_X_sub_C]

theorem knotPoly_lead (U : Int → K) (q : Nat) (i : Int) : (knotPoly U q i).coeff q = 1 := by
  obtain ⟨h1, h2⟩ := knotPoly_degree U q i
  have := h1.coeff_natDegree
  rwa [h2] at this

theorem knotPoly_next (U : Int → K) : ∀ (q : Nat) (i : Int), (knotPoly U (q+1) i).coeff q = - ∑ j ∈ Finset.range (q+1), U (i + 1 + (j:Int))
  | 0, i => by simp [knotPoly]
  | q+1, i => by
    rw [knotPoly, mul_sub, coeff_sub, coeff_mul_X, coeff_mul_C, knotPoly_next U q i, knotPoly_lead, Finset.sum_range_succ (n := q+1)]
    rw [show i + ((q+1:Nat):Int) + 1 = i + 1 + ((q+1:Nat):Int) by ring]
    ring

theorem polyCoef_one (U : Int → K) (p : Nat) (i : Int) : polyCoef U p 1 i = 1 := by
  unfold polyCoef
  rw [Finset.sum_eq_single_of_mem 0 (by simp) (fun s _ h => by rw [coeff_one, if_neg h, zero_mul])]
  simp [monoCoef, knotPoly_lead]

theorem polyCoef_X (U : Int → K) (p : Nat) (i : Int) : polyCoef U (p+1) X i = (∑ j ∈ Finset.range (p+1), U (i + 1 + (j:Int))) / ((p+1:Nat):K) := by
  unfold polyCoef
  rw [Finset.sum_eq_single_of_mem 1 (by simp) (fun s _ h => by rw [coeff_X, if_neg (Ne.symm h), zero_mul])]
  simp [monoCoef, knotPoly_next]
  ring

theorem coef_tables (U : Int → K) (p : Nat) (m : Int) (hs : SortedKnots m U) (P : K[X]) (hP : P.natDegree ≤ p)
    (J : Junk K) (k : Int) (hk : IsElement p m U k) (u : K) (t : Nat) (ht : t ≤ 4) :
    ∑ a : Fin (p+1), polyCoef U p P (k - p + (a.val:Int)) * basis J k u p (min p 4) U t (a.val:Int) = (derivative^[t] P).eval u := by
  obtain ⟨e1, e2, e3⟩ := hk
  have hsep : Sep U k p := sep_of_sorted hs e1 (by omega) e3
  have hb : ∀ a : Fin (p+1), basis J k u p (min p 4) U t (a.val:Int) = (derivative^[t] (piece U k p (k - p + (a.val:Int)))).eval u := by
    intro a
    exact C13_library_call J p m k U u hs ⟨e1, e2, e3⟩ a.val (by have := a.isLt; omega) t ht
  simp only [hb]
  have h := congrArg (fun Q => (derivative^[t] Q).eval u) (poly_repr U k p hsep P hP)
  simp only [iterate_derivative_sum, eval_finset_sum, iterate_derivative_C_mul, eval_mul, eval_C] at h
  rw [← h, Finset.sum_range]

/-- **C97**, one direction.  For every polynomial `P` of degree at most `p` there are coefficients, the same for all elements, with
which the values and the derivatives computed from the tables of any element at any point are those of `P`. -/
theorem C97_poly (U : Int → K) (p : Nat) (m : Int) (hs : SortedKnots m U) (P : K[X]) (hP : P.natDegree ≤ p) :
    ∃ F : Int → K, ∀ (J : Junk K) (k : Int), IsElement p m U k → ∀ (u : K) (t : Nat), t ≤ 4 →
      ∑ a : Fin (p+1), F (k - p + (a.val:Int)) * basis J k u p (min p 4) U t (a.val:Int) = (derivative^[t] P).eval u :=
  ⟨polyCoef U p P, fun J k hk u t ht => coef_tables U p m hs P hP J k hk u t ht⟩

/-- **C97**, the identity: its coefficients are the Greville points `(U_{i+1}+…+U_{i+p})/p`. -/
theorem C97_greville (U : Int → K) (p : Nat) (hp : 1 ≤ p) (m : Int) (hs : SortedKnots m U) (J : Junk K) (k : Int) (hk : IsElement p m U k) (u : K) :
    ∑ a : Fin (p+1), ((∑ j ∈ Finset.range p, U (k - p + (a.val:Int) + 1 + (j:Int))) / (p:K)) * basis J k u p (min p 4) U 0 (a.val:Int) = u := by
  obtain ⟨q, rfl⟩ : ∃ q, p = q + 1 := ⟨p - 1, by omega⟩
  have h := coef_tables U (q+1) m hs X (by simp) J k hk u 0 (by omega)
  simp only [Function.iterate_zero, id, eval_X, Nat.cast_zero] at h
  refine Eq.trans (Finset.sum_congr rfl fun a _ => ?_) h
  rw [polyCoef_X]

/-- Quadratic splines on the knots `0 0 0 1 2 3 3 3` and the polynomial `x² - x` meet the hypotheses; the third knot span is an element. -/
example : SortedKnots 7 Itg.exU ∧ (X^2 - X : ℝ[X]).natDegree ≤ 2 ∧ IsElement 2 7 Itg.exU 4 := by
  refine ⟨Itg.exU_legal.sorted, ?_, ?_⟩
  · refine (natDegree_sub_le _ _).trans ?_
    simp
  · refine ⟨by omega, by omega, ?_⟩
    norm_num [Itg.exU]

end PetIGA.Bsp

namespace PetIGA.Itg
open PetIGA.Quad PetIGA.Drv PetIGA.Spec PetIGA.Ax PetIGA.Lay PetIGA.Asm PetIGA.Rule PetIGA.Grid PetIGA.Part PetIGA.Ker PetIGA.PCA
open Polynomial

/-- The product over the directions of the coefficients of `P_j` at node `i`. -/
noncomputable def termCoef : List (Axis ℝ) → List ℝ[X] → List Int → ℝ
  | ax :: axs, P :: Ps, i :: is => Bsp.polyCoef ax.U ax.p.toNat P i * termCoef axs Ps is
  | _, _, _ => 1

/-- The derivative of order `o_j` of the factor `P_j`. -/
noncomputable def derivs (P : List ℝ[X]) (os : List Nat) : List ℝ[X] := List.zipWith (fun p o => derivative^[o] p) P os

theorem bpoly_repr {ax : Axis ℝ} (hw : WF ax) {e : Int} (h0 : 0 ≤ e) (h1 : e < ax.nel) (P : ℝ[X]) (hP : P.natDegree ≤ ax.p.toNat) (o : Nat) (x : ℝ) :
    ∑ r ∈ Finset.range (ax.p.toNat + 1), Bsp.polyCoef ax.U ax.p.toNat P (sp ax e - ax.p + r) * (derivative^[o] (bpoly ax e r)).eval x =
      (derivative^[o] P).eval x := by
  have hp := hw.legal.degree
  have h := congrArg (fun Q => (derivative^[o] Q).eval x) (Bsp.poly_repr ax.U (sp ax e) ax.p.toNat (sep_sp hw h0 h1) P hP)
  simp only [iterate_derivative_sum, eval_finset_sum, iterate_derivative_C_mul, eval_mul, eval_C] at h
  rw [Int.toNat_of_nonneg (by omega)] at h
  exact h

theorem tensor_repr : ∀ (axs : List (Axis ℝ)) (e : List Int) (xs : List ℝ) (os : List Nat) (P : List ℝ[X]), (∀ ax ∈ axs, WF ax ∧ ax.periodic = false) →
    InBox (axs.map Axis.nel) e → xs.length = axs.length → os.length = axs.length →
    List.Forall₂ (fun p (ax : Axis ℝ) => p.natDegree ≤ ax.p.toNat) P axs →
    ((indices (nens axs)).map fun t => termCoef axs P (nodeOf false axs e t) * evalProd (bpolys axs e os t) xs).sum = evalProd (derivs P os) xs
  | [], _, _, _, _, _, he, hx, ho, hP => by
    cases he; cases hP
    simp [nens, indices, bpolys, evalProd, derivs, termCoef]
  | ax :: axs, _, x :: xs, o :: os, _, hw, he, hx, ho, hP => by
    cases he with
    | cons he0 he =>
    cases hP with
    | cons hP0 hP =>
    rename_i e0 es P0 Ps
    obtain ⟨hw0, hper⟩ := hw ax (by simp)
    have ih := tensor_repr axs es xs os Ps (fun a h => hw a (by simp [h])) he (by simpa using hx) (by simpa using ho) hP
    have hp := hw0.legal.degree
    rw [show nens (ax :: axs) = (ax.p + 1) :: nens axs from rfl, sum_indices]
    have hn : ∀ k : Nat, k ∈ List.range (ax.p + 1).toNat → ∀ t, nodeOf false (ax :: axs) (e0 :: es) ((k:Int) :: t) =
        (sp ax e0 - ax.p + (k:Int)) :: nodeOf false axs es t := by
      intro k hk t
      have hk' := List.mem_range.1 hk
      show (firstNode false ax e0 + (k:Int)) % ax.nnp :: nodeOf false axs es t = _
      rw [firstNode_eq hw0.toPreWF he0.1 he0.2]
      obtain ⟨a, b, -⟩ := isElement_sp hw0 he0.1 he0.2
      have := (nnp_bounds hw0).2.2.1 hper
      rw [Int.emod_eq_of_lt (by omega) (by omega)]
    have e1 : ((List.range (ax.p + 1).toNat).map fun (k : Nat) => ((indices (nens axs)).map fun t =>
          termCoef (ax :: axs) (P0 :: Ps) (nodeOf false (ax :: axs) (e0 :: es) ((k:Int) :: t)) *
            evalProd (bpolys (ax :: axs) (e0 :: es) (o :: os) ((k:Int) :: t)) (x :: xs)).sum).sum =
        ((List.range (ax.p + 1).toNat).map fun (k : Nat) =>
          Bsp.polyCoef ax.U ax.p.toNat P0 (sp ax e0 - ax.p + k) * (derivative^[o] (bpoly ax e0 k)).eval x * evalProd (derivs Ps os) xs).sum := by
      congr 1
      refine List.map_congr_left fun k hk => ?_
      rw [← ih, ← List.sum_map_mul_left]
      congr 1
      refine List.map_congr_left fun t _ => ?_
      rw [hn k hk t]
      simp only [termCoef, bpolys, evalProd, List.zipWith_cons_cons, List.prod_cons, Int.toNat_natCast]
      ring
    rw [e1, List.sum_map_mul_right, show (ax.p + 1).toNat = ax.p.toNat + 1 by omega, ← finset_list,
      bpoly_repr hw0 he0.1 he0.2 P0 hP0 o x]
    simp [derivs, evalProd]
  | _ :: _, _, [], _, _, _, _, hx, _, _ => by simp at hx
  | _ :: _, _, _ :: _, [], _, _, _, _, ho, _ => by simp at ho

/-- The nodal field of a sum of products of polynomials. -/
noncomputable def polyField (axs : List (Axis ℝ)) (terms : List (List ℝ[X])) (z : List Int) : ℝ := (terms.map fun P => termCoef axs P z).sum

theorem polyField_repr (axs : List (Axis ℝ)) (hw : ∀ ax ∈ axs, WF ax ∧ ax.periodic = false) {e : List Int} (he : InBox (axs.map Axis.nel) e)
    (xs : List ℝ) (hx : xs.length = axs.length) (os : List Nat) (ho : os.length = axs.length) (terms : List (List ℝ[X]))
    (hP : ∀ P ∈ terms, List.Forall₂ (fun p d => p.natDegree ≤ d) P (axs.map fun ax => ax.p.toNat)) :
    ((indices (nens axs)).map fun t => polyField axs terms (nodeOf false axs e t) * evalProd (bpolys axs e os t) xs).sum =
      (terms.map fun P => evalProd (derivs P os) xs).sum := by
  induction terms with
  | nil => simp [polyField]
  | cons P terms ih =>
    have h1 := tensor_repr axs e xs os P hw he hx ho (by have := hP P (by simp); rwa [List.forall₂_map_right_iff] at this)
    have h2 := ih fun Q hQ => hP Q (by simp [hQ])
    rw [List.map_cons, List.sum_cons, ← h1, ← h2, ← List.sum_map_add]
    congr 1
    refine List.map_congr_left fun t _ => ?_
    unfold polyField
    rw [List.map_cons, List.sum_cons, add_mul]

theorem derivs_zero : ∀ (P : List ℝ[X]), derivs P (List.replicate P.length 0) = P
  | [] => rfl
  | p :: P => by
    have := derivs_zero P
    unfold derivs at this ⊢
    rw [List.length_cons, List.replicate_succ, List.zipWith_cons_cons, this]
    rfl

/-- The derivative of `Π P_j(x_j)` in variable `i`. -/
theorem evalProd_deriv : ∀ (P : List ℝ[X]) (xs : List ℝ) {d : Nat} (i : Fin d), P.length = d → xs.length = d →
    HasDerivAt (fun s => evalProd P (xs.set i s)) (evalProd (derivs P (unitOrder i)) xs) (xs.getD i 0)
  | [], _, _, i, hP, _ => by subst hP; exact i.elim0
  | p :: P, [], _, _, hP, hx => by subst hP; simp at hx
  | p :: P, x :: xs, d, i, hP, hx => by
    subst hP
    change Fin (P.length + 1) at i
    show HasDerivAt _ (evalProd (derivs (p :: P) (unitOrder (d := P.length + 1) i)) (x :: xs)) _
    refine Fin.cases ?_ (fun j => ?_) i
    · have h0 := derivs_zero P
      simp only [Fin.val_zero, List.set_cons_zero, List.getD_cons_zero, unitOrder_zero]
      unfold derivs at h0 ⊢
      rw [List.zipWith_cons_cons, h0]
      simp only [evalProd, List.zipWith_cons_cons, List.prod_cons, Function.iterate_one]
      exact (p.hasDerivAt x).mul_const _
    · have ih := evalProd_deriv P xs j rfl (by simpa using hx)
      simp only [Fin.val_succ, List.set_cons_succ, List.getD_cons_succ, unitOrder_succ]
      unfold derivs at ih ⊢
      simp only [evalProd, List.zipWith_cons_cons, List.prod_cons, Function.iterate_zero, id] at ih ⊢
      exact ih.const_mul _

theorem list_hasDerivAt {α : Type} (l : List α) (f : α → ℝ → ℝ) (f' : α → ℝ) (x : ℝ) (h : ∀ a ∈ l, HasDerivAt (f a) (f' a) x) :
    HasDerivAt (fun s => (l.map fun a => f a s).sum) (l.map f').sum x := by
  induction l with
  | nil => simpa using hasDerivAt_const x (0:ℝ)
  | cons a l ih =>
    simp only [List.map_cons, List.sum_cons]
    exact (h a (by simp)).fun_add (ih fun b hb => h b (by simp [hb]))

variable {g2 : Guess2} {g3 : Guess3} {size : Int} {procs : List Int} {axes : List (Axis ℝ)} {Ls : List (Layout ℝ)}

/-- **C97**, the points of the elements.  For every function `g` of the parameters that is a polynomial of degree at most `p_j` in
direction `j` there are nodal values with which the field is `g` at every point of every element, and, without a geometry, its
derivatives are those of `g`. -/
theorem C97_points {ds : List (Direction Line)} (S : Setup g2 g3 false size procs axes (ds.map Direction.ax) Ls)
    (hT : ∀ δ ∈ ds, δ.Tabulated) (hs : ∀ δ ∈ ds, IsSpline δ) (hper : ∀ δ ∈ ds, δ.ax.periodic = false)
    (g : List ℝ → ℝ) (hg : PolyOn (fun xs => xs.length = ds.length) (ds.map fun δ => δ.ax.p.toNat) g) :
    ∃ u : List Int → ℝ, ∀ (nsd : Nat) (c : PtIn ds.length nsd (Fin (nenOf (ds.map Direction.ax)))), c.rational = none →
      ∀ e, InBox (ds.map fun δ => δ.ax.nel) e → ∀ mem qs, tabulateElement c (ds.map Direction.B) e mem = .ok qs → ∀ q ∈ qs,
        (∀ k, combine (ds.map Direction.ax) e q.data.shape.t0 (fun z _ => u z) k = g q.data.u) ∧
        (c.geometry = none → 1 ≤ c.order → ∀ (i : Fin ds.length) (k : Nat),
          HasDerivAt (fun s => g (q.data.u.set i s)) (combine (ds.map Direction.ax) e (q.data.shape.t1 i) (fun z _ => u z) k) (q.data.u.getD i 0)) := by
  obtain ⟨terms, hdeg, hval⟩ := hg
  obtain ⟨h1, h3, hw⟩ := setup_facts S
  refine ⟨polyField (ds.map Direction.ax) terms, fun nsd c hr e he mem qs h q hq => ?_⟩
  obtain ⟨pts, hp, N, m, o, hN, ho, rfl⟩ := (tabulated_points rfl h1 h3 hT hs hw c he mem h).2 q hq
  have hw' : ∀ ax ∈ ds.map Direction.ax, WF ax ∧ ax.periodic = false := by
    intro ax hax
    obtain ⟨δ, hδ, rfl⟩ := List.mem_map.1 hax
    exact ⟨hw δ hδ, hper δ hδ⟩
  have he' : InBox ((ds.map Direction.ax).map Axis.nel) e := by rw [List.map_map]; exact he
  have hlen : (pts.map Pt.x).length = ds.length := by
    rw [List.length_map, ← (mem_tensorPoints hp).length_eq]
    simp [lines, PetIGA.Grid.inBox_length he]
  have hlen' : (pts.map Pt.x).length = (ds.map Direction.ax).length := by rw [hlen, List.length_map]
  have hB : basisOf c N = N := by unfold basisOf; rw [hr]
  have hdeg' : ∀ P ∈ terms, List.Forall₂ (fun p d => p.natDegree ≤ d) P ((ds.map Direction.ax).map fun ax => ax.p.toNat) := by
    rw [List.map_map]; exact hdeg
  have hPl : ∀ P ∈ terms, P.length = ds.length := fun P hP => by have := (hdeg P hP).length_eq; simpa using this
  obtain ⟨b1, b2⟩ := tabulate_basis ho
  rw [hB] at b1 b2
  have comb : ∀ (G : Fin (nenOf (ds.map Direction.ax)) → ℝ) (os : List Nat), os.length = ds.length →
      (∀ t, InBox (nens (ds.map Direction.ax)) t → ∀ a : Fin (nenOf (ds.map Direction.ax)), (a:Int) = flat (nens (ds.map Direction.ax)) t →
        G a = evalProd (bpolys (ds.map Direction.ax) e os t) (pts.map Pt.x)) → ∀ k,
      combine (ds.map Direction.ax) e G (fun z _ => polyField (ds.map Direction.ax) terms z) k = (terms.map fun P => evalProd (derivs P os) (pts.map Pt.x)).sum := by
    intro G os hos hG k
    rw [← polyField_repr (ds.map Direction.ax) hw' he' _ hlen' os (by simpa using hos) terms hdeg']
    unfold combine
    congr 1; refine List.map_congr_left fun t ht => ?_
    have hlt := flat_lt_nen (ds.map Direction.ax) ht
    have ht' := (mem_indices _ _).1 ht
    unfold ent
    rw [dif_pos hlt, hG t ht' ⟨_, hlt⟩ (by
      have := (flat_range ht').1
      simp only; omega)]
  refine ⟨fun k => ?_, fun hgeo hord i k => ?_⟩
  · dsimp only
    rw [b2, comb N.t0 (List.replicate ds.length 0) (by simp) (fun t ht a ha => (hN t ht a ha).1), hval _ hlen]
    congr 1; refine List.map_congr_left fun P hP => ?_
    rw [← hPl P hP, derivs_zero]
  · have hsh : (pointShape c o).t1 = N.t1 := by
      unfold pointShape; rw [hgeo]; simp [b1]
    dsimp only
    rw [hsh, comb (N.t1 i) (unitOrder i) (by simp [unitOrder]) (fun t ht a ha => (hN t ht a ha).2 hord i)]
    have hd := list_hasDerivAt terms (fun P s => evalProd P ((pts.map Pt.x).set i s)) (fun P => evalProd (derivs P (unitOrder i)) (pts.map Pt.x))
      ((pts.map Pt.x).getD i 0) (fun P hP => evalProd_deriv P (pts.map Pt.x) i (hPl P hP) hlen)
    refine hd.congr_of_eventuallyEq (Filter.Eventually.of_forall fun s => ?_)
    exact hval _ (by show List.length _ = _; rw [List.length_set]; exact hlen)

/-- At a point of an element the functions, rational or not, sum to one, and their derivatives to zero. -/
theorem basis_sums {ds : List (Direction Line)} (hw : ∀ δ ∈ ds, WF δ.ax) {nsd : Nat}
    (c : PtIn ds.length nsd (Fin (nenOf (ds.map Direction.ax)))) (hR : Weights ds c) {e : List Int}
    (he : InBox (ds.map fun δ => δ.ax.nel) e) {pts : List (Pt Line)} (hp : pts ∈ tensorPoints (lines ds e))
    {N : Tab ℝ ds.length (Fin (nenOf (ds.map Direction.ax)))}
    (hN : ∀ t, InBox (nens (ds.map Direction.ax)) t → ∀ a : Fin (nenOf (ds.map Direction.ax)), (a:Int) = flat (nens (ds.map Direction.ax)) t →
      N.t0 a = evalProd (bpolys (ds.map Direction.ax) e (List.replicate ds.length 0) t) (pts.map Pt.x) ∧
      (1 ≤ c.order → ∀ i, N.t1 i a = evalProd (bpolys (ds.map Direction.ax) e (unitOrder i) t) (pts.map Pt.x))) :
    ∑ a, (basisOf c N).t0 a = 1 ∧ (1 ≤ c.order → ∀ i, ∑ a, (basisOf c N).t1 i a = 0) := by
  have hlen : (pts.map Pt.x).length = (ds.map Direction.ax).length := by
    rw [List.length_map, List.length_map, ← (mem_tensorPoints hp).length_eq]
    simp [lines, PetIGA.Grid.inBox_length he]
  have hw' : ∀ ax ∈ ds.map Direction.ax, WF ax := by
    intro ax hax
    obtain ⟨δ, hδ, rfl⟩ := List.mem_map.1 hax
    exact hw δ hδ
  have he' : InBox ((ds.map Direction.ax).map fun ax => ax.nel) e := by rw [List.map_map]; exact he
  have hent : ∀ (G : Fin (nenOf (ds.map Direction.ax)) → ℝ) (F : List Int → ℝ),
      (∀ t, InBox (nens (ds.map Direction.ax)) t → ∀ a : Fin (nenOf (ds.map Direction.ax)), (a:Int) = flat (nens (ds.map Direction.ax)) t → G a = F t) →
      ∀ t ∈ indices (nens (ds.map Direction.ax)), ent (ds.map Direction.ax) G t = F t := by
    intro G F h t ht
    have hlt := flat_lt_nen (ds.map Direction.ax) ht
    unfold ent
    rw [dif_pos hlt]
    exact h t ((mem_indices _ _).1 ht) ⟨_, hlt⟩ (by
      have := (flat_range ((mem_indices _ _).1 ht)).1
      simp only; omega)
  have hone : ∑ a, N.t0 a = 1 := by
    rw [fin_sum, List.map_congr_left (hent N.t0 _ fun t ht a ha => (hN t ht a ha).1)]
    have := tensor_one (ds.map Direction.ax) e (pts.map Pt.x) hw' he' hlen
    rw [List.length_map] at this
    exact this
  have hzero : 1 ≤ c.order → ∀ i, ∑ a, N.t1 i a = 0 := by
    intro hord i
    rw [fin_sum, List.map_congr_left (hent (N.t1 i) _ fun t ht a ha => (hN t ht a ha).2 hord i)]
    exact tensor_unit' (ds.map Direction.ax) e (pts.map Pt.x) i (by simp) hw' he' hlen
  cases hr : c.rational with
  | none =>
    have hB : basisOf c N = N := by unfold basisOf; rw [hr]
    rw [hB]
    exact ⟨hone, hzero⟩
  | some W =>
    obtain ⟨hW, hX⟩ := hR W hr
    have hin := lines_inside hw hX he (mem_tensorPoints hp)
    have hnn : ∀ a, 0 ≤ N.t0 a := by
      intro a
      have hlt : (a:Nat) < (indices (nens (ds.map Direction.ax))).length := a.isLt
      obtain ⟨t, ht, hta⟩ : ∃ t ∈ indices (nens (ds.map Direction.ax)), (a:Int) = flat (nens (ds.map Direction.ax)) t := by
        have hz : ((indices (nens (ds.map Direction.ax)))[(a:Nat)], (a:Nat)) ∈ (indices (nens (ds.map Direction.ax))).zipIdx := by
          rw [List.mk_mem_zipIdx_iff_getElem?, List.getElem?_eq_getElem hlt]
        rw [zipIdx_indices] at hz
        obtain ⟨t, ht, e1⟩ := List.mem_map.1 hz
        refine ⟨t, ht, ?_⟩
        have h0 := (flat_range ((mem_indices _ _).1 ht)).1
        have := (Prod.mk.inj e1).2
        omega
      have ht' := (mem_indices _ _).1 ht
      rw [(hN t ht' a hta).1]
      have := tensor_nonneg (ds.map Direction.ax) e t (pts.map Pt.x) hw' he' ht' hin
      rwa [List.length_map] at this
    have hpos : 0 < ∑ a, W a * N.t0 a := by
      refine lt_of_le_of_ne (Finset.sum_nonneg fun a _ => mul_nonneg (hW a).le (hnn a)) fun h0 => ?_
      have hall := (Finset.sum_eq_zero_iff_of_nonneg (fun a _ => mul_nonneg (hW a).le (hnn a))).1 h0.symm
      have : ∑ a, N.t0 a = 0 := Finset.sum_eq_zero fun a ha => (mul_eq_zero.1 (hall a ha)).resolve_left (hW a).ne'
      rw [hone] at this
      exact one_ne_zero this
    have hR0 : ∀ a, (basisOf c N).t0 a = W a * N.t0 a / ∑ a, W a * N.t0 a := by
      intro a
      unfold basisOf
      rw [hr]
      dsimp only
      unfold rationalize
      split_ifs <;> rfl
    have hs0 : ∑ a, (basisOf c N).t0 a = 1 := by
      simp only [hR0]
      rw [← Finset.sum_div, div_self hpos.ne']
    refine ⟨hs0, fun hord i => ?_⟩
    have hR1 : ∀ a, (basisOf c N).t1 i a = (W a * N.t1 i a - (basisOf c N).t0 a * ∑ a, W a * N.t1 i a) / ∑ a, W a * N.t0 a := by
      intro a
      rw [hR0]
      unfold basisOf
      rw [hr]
      dsimp only
      unfold rationalize
      rw [if_neg (by omega)]
      dsimp only
      split_ifs <;> rfl
    simp only [hR1]
    rw [← Finset.sum_div, Finset.sum_sub_distrib, ← Finset.sum_mul, hs0, one_mul, sub_self, zero_div]

/-- The control points of the element are those of the net `X`. -/
def OnNet {nsd n : Nat} (axs : List (Axis ℝ)) (e : List Int) (C : Fin nsd → Fin n → ℝ) (X : List Int → Nat → ℝ) : Prop :=
  ∀ t, InBox (nens axs) t → ∀ a : Fin n, (a:Int) = flat (nens axs) t → ∀ l : Fin nsd, C l a = X (nodeOf false axs e t) l

theorem combine_fin {n : Nat} (axs : List (Axis ℝ)) (hn : n = nenOf axs) (e : List Int) (G U : Fin n → ℝ) (u : List Int → Nat → ℝ) (k : Nat)
    (hU : ∀ t, InBox (nens axs) t → ∀ a : Fin n, (a:Int) = flat (nens axs) t → u (nodeOf false axs e t) k = U a) :
    combine axs e G u k = ∑ a, U a * G a := by
  subst hn
  rw [fin_sum]
  unfold combine
  congr 1; refine List.map_congr_left fun t ht => ?_
  have hlt := flat_lt_nen axs ht
  unfold ent
  rw [dif_pos hlt, dif_pos hlt, hU t ((mem_indices _ _).1 ht) ⟨_, hlt⟩ (by
    have := (flat_range ((mem_indices _ _).1 ht)).1
    simp only; omega)]

/-- **C97**, mapped domains, also NURBS.  With the nodal values `t + Σ_l R_l X_l` of an affine function of the control points `X`, the
field is the same affine function of the position of the point that `IGAPointFormGeomMap` reports. -/
theorem C97_affine {ds : List (Direction Line)} (S : Setup g2 g3 false size procs axes (ds.map Direction.ax) Ls)
    (hT : ∀ δ ∈ ds, δ.Tabulated) (hs : ∀ δ ∈ ds, IsSpline δ) {nsd : Nat}
    (c : PtIn ds.length nsd (Fin (nenOf (ds.map Direction.ax)))) (hR : Weights ds c) (C) (hC : c.geometry = some C) {e : List Int}
    (he : InBox (ds.map fun δ => δ.ax.nel) e) {mem} {qs} (h : tabulateElement c (ds.map Direction.B) e mem = .ok qs)
    (X : List Int → Nat → ℝ) (hX : OnNet (ds.map Direction.ax) e C X) (t : ℝ) (R : Fin nsd → ℝ) (k : Nat) :
    ∀ q ∈ qs, combine (ds.map Direction.ax) e q.data.shape.t0 (fun z _ => t + ∑ l, R l * X z l) k =
      t + ∑ l, R l * q.data.arrays.mapX.t0 l := by
  obtain ⟨h1, h3, hw⟩ := setup_facts S
  intro q hq
  obtain ⟨pts, hp, N, m, o, hN, ho, rfl⟩ := (tabulated_points rfl h1 h3 hT hs hw c he mem h).2 q hq
  obtain ⟨s0, -⟩ := basis_sums hw c hR he hp hN
  obtain ⟨b1, b2⟩ := tabulate_basis ho
  have hmap : ∀ l, o.mapX.t0 l = ∑ a, C l a * (basisOf c N).t0 a := by
    intro l
    have hg : ∀ m', (geometryMap c.order C (basisOf c N) m').t0 l = ∑ a, C l a * (basisOf c N).t0 a := by
      intro m'
      unfold geometryMap
      dsimp only
      split_ifs <;> rfl
    rw [← hg m.mapX]
    unfold Ker.tabulate at ho
    rw [hC] at ho
    dsimp only at ho
    split at ho
    · rename_i hd
      subst hd
      dsimp only at ho
      split_ifs at ho
      all_goals split at ho <;> (simp only [Res.ok.injEq] at ho; rw [← ho])
    · split at ho <;> (simp only [Res.ok.injEq] at ho; rw [← ho])
  dsimp only
  rw [b2, combine_fin (ds.map Direction.ax) rfl e _ (fun a => t + ∑ l, R l * C l a) _ k (fun s hs a ha => by
    congr 1; exact Finset.sum_congr rfl fun l _ => by rw [hX s hs a ha l])]
  simp only [add_mul, Finset.sum_add_distrib, ← Finset.mul_sum, s0, mul_one, hmap]
  congr 1
  simp only [Finset.sum_mul]
  rw [Finset.sum_comm]
  refine Finset.sum_congr rfl fun l _ => ?_
  rw [Finset.mul_sum]
  exact Finset.sum_congr rfl fun a _ => by ring

/-- **C97**, mapped domains, also NURBS: if the map goes to a space of the same dimension and its Jacobian at the point is not zero,
the gradient of the field with nodal values `t + Σ_l R_l X_l` is `R`. -/
theorem C97_affine_gradient {ds : List (Direction Line)} (S : Setup g2 g3 false size procs axes (ds.map Direction.ax) Ls)
    (hT : ∀ δ ∈ ds, δ.Tabulated) (hs : ∀ δ ∈ ds, IsSpline δ)
    (c : PtIn ds.length ds.length (Fin (nenOf (ds.map Direction.ax)))) (hR : Weights ds c) (C) (hC : c.geometry = some C)
    (hord : 1 ≤ c.order) {e : List Int}
    (he : InBox (ds.map fun δ => δ.ax.nel) e) {mem} {qs} (h : tabulateElement c (ds.map Direction.B) e mem = .ok qs)
    (X : List Int → Nat → ℝ) (hX : OnNet (ds.map Direction.ax) e C X) (t : ℝ) (R : Fin ds.length → ℝ) (k : Nat) :
    ∀ q ∈ qs, q.data.arrays.detX ≠ 0 → ∀ i,
      combine (ds.map Direction.ax) e (q.data.shape.t1 i) (fun z _ => t + ∑ l, R l * X z l) k = R i := by
  obtain ⟨h1, h3, hw⟩ := setup_facts S
  intro q hq hdet i
  obtain ⟨pts, hp, N, m, o, hN, ho, rfl⟩ := (tabulated_points rfl h1 h3 hT hs hw c he mem h).2 q hq
  obtain ⟨-, s1⟩ := basis_sums hw c hR he hp hN
  have s1 := s1 hord
  set B := basisOf c N with hB
  set Y := geometryMap c.order C B m.mapX with hY
  have hfacts : o.detX = (inverseMap c.order Y (m.detX, m.mapU)).1 ∧
      o.shape = shapeFunctions c.order (inverseMap c.order Y (m.detX, m.mapU)).2 B { m.shape with t0 := B.t0 } := by
    unfold Ker.tabulate at ho
    rw [hC] at ho
    dsimp only at ho
    rw [dif_pos rfl] at ho
    split_ifs at ho
    all_goals split at ho <;> (simp only [Res.ok.injEq] at ho; rw [← ho]; exact ⟨rfl, rfl⟩)
  have hsh : (pointShape c o) = o.shape := by unfold pointShape; rw [hC]; simp
  have hXt : ∀ u v, Y.t1 u v = ∑ a, C v a * B.t1 u a := by
    intro u v
    rw [hY]
    unfold geometryMap
    rw [if_neg (by omega)]
    dsimp only
    split_ifs <;> rfl
  have hI : (inverseMap c.order Y (m.detX, m.mapU)).1 = determinant ds.length Y.t1 ∧
      (inverseMap c.order Y (m.detX, m.mapU)).2.t1 = inverse ds.length (determinant ds.length Y.t1) Y.t1 := by
    unfold inverseMap
    rw [if_neg (by omega)]
    dsimp only
    split_ifs <;> exact ⟨rfl, rfl⟩
  obtain ⟨c1, c2⟩ := C43_det_inverse ds.length ⟨h1, h3⟩ Y.t1
  obtain ⟨c3, c4⟩ := c2 (by rw [← c1, ← hI.1, ← hfacts.1]; exact hdet)
  have hsh1 : ∀ a, (pointShape c o).t1 i a = ∑ j, B.t1 j a * inverse ds.length (determinant ds.length Y.t1) Y.t1 i j := by
    intro a
    rw [hsh, hfacts.2, ← hI.2]
    unfold shapeFunctions
    rw [if_neg (by omega)]
    dsimp only
    split_ifs <;> rfl
  dsimp only
  rw [combine_fin (ds.map Direction.ax) rfl e _ (fun a => t + ∑ l, R l * C l a) _ k (fun s hs a ha => by
    congr 1; exact Finset.sum_congr rfl fun l _ => by rw [hX s hs a ha l])]
  have hsum : ∑ a, (pointShape c o).t1 i a = 0 := by
    simp only [hsh1]
    rw [Finset.sum_comm]
    refine Finset.sum_eq_zero fun j _ => ?_
    rw [← Finset.sum_mul, s1, zero_mul]
  have hlin : ∀ l, ∑ a, C l a * (pointShape c o).t1 i a = if i = l then 1 else 0 := by
    intro l
    have := congrFun (congrFun c3 i) l
    rw [Matrix.mul_apply, Matrix.one_apply] at this
    rw [← this]
    simp only [Matrix.of_apply, hXt, hsh1, Finset.mul_sum]
    rw [Finset.sum_comm]
    exact Finset.sum_congr rfl fun j _ => Finset.sum_congr rfl fun a _ => by ring
  simp only [add_mul, Finset.sum_add_distrib, ← Finset.mul_sum, hsum, mul_zero, zero_add, Finset.sum_mul]
  rw [Finset.sum_comm]
  have e1 : ∀ l, ∑ a, R l * C l a * (pointShape c o).t1 i a = R l * if i = l then 1 else 0 := by
    intro l
    rw [← hlin l, Finset.mul_sum]
    exact Finset.sum_congr rfl fun a _ => by ring
  simp [e1]

end PetIGA.Itg
