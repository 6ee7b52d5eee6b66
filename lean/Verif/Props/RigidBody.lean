import Verif.Props.Laplace
import Verif.Props.Coords
import Verif.Model.RigidBody
/-
Rigid body modes: the null space of `IGACreateRigidBody` (C89).
-/
set_option linter.unusedSectionVars false
namespace PetIGA.Itg
open PetIGA.Quad PetIGA.Drv PetIGA.Spec PetIGA.Ax PetIGA.Lay PetIGA.Asm PetIGA.Rule PetIGA.Grid PetIGA.Part PetIGA.Ker PetIGA.PCA PetIGA.Crd
open Polynomial

/-! ### The gradient of the coordinates -/

/-- Coefficients that reproduce the coordinate of direction `c`. -/
theorem tensor_coord : ∀ (axs : List (Axis ℝ)) (e : List Int) (xs : List ℝ) (i c : Fin axs.length) (g : Nat → ℝ), (∀ ax ∈ axs, WF ax) →
    InBox (axs.map fun ax => ax.nel) e → xs.length = axs.length →
    (∑ r ∈ Finset.range ((axs.get c).p.toNat + 1), C (g r) * bpoly (axs.get c) (e.getD c 0) r = X) →
    ((indices (nens axs)).map fun t => g (t.getD c 0).toNat * evalProd (bpolys axs e (unitOrder i) t) xs).sum = if i = c then 1 else 0
  | [], _, _, i, _, _, _, _, _, _ => i.elim0
  | ax :: axs, _, x :: xs, i, c, g, hw, he, hx, hg => by
    cases he with
    | cons he0 he =>
    rename_i e0 es
    have hp := (hw ax (by simp)).legal.degree
    have hw' : ∀ a ∈ axs, WF a := fun a h => hw a (by simp [h])
    have hx' : xs.length = axs.length := by simpa using hx
    rw [show nens (ax :: axs) = (ax.p + 1) :: nens axs from rfl, sum_indices]
    have hsum := bpoly_sum (hw ax (by simp)) he0.1 he0.2
    have hn : (ax.p + 1).toNat = ax.p.toNat + 1 := by omega
    have h1 := tensor_one axs es xs hw' he hx'
    unfold evalProd at h1
    revert hg
    refine Fin.cases ?_ (fun i' => ?_) i <;> refine Fin.cases ?_ (fun c' => ?_) c <;> intro hg
    · rw [unitOrder_zero]
      simp only [bpolys, evalProd, List.zipWith_cons_cons, List.prod_cons, Fin.val_zero, List.getD_cons_zero, Int.toNat_natCast,
        Function.iterate_one, if_true]
      simp only [← mul_assoc, List.sum_map_mul_left]
      rw [List.sum_map_mul_right, h1, mul_one, hn, ← finset_list]
      have := congrArg (fun P => (derivative P).eval x) hg
      simp only [List.get_eq_getElem, Fin.val_zero, List.getElem_cons_zero, List.getD_cons_zero, derivative_sum, derivative_C_mul,
        eval_finset_sum, derivative_X, eval_one, eval_mul, eval_C] at this
      exact this
    · rw [unitOrder_zero, if_neg (Fin.succ_ne_zero _).symm]
      simp only [bpolys, evalProd, List.zipWith_cons_cons, List.prod_cons, Fin.val_succ, List.getD_cons_succ, Int.toNat_natCast,
        Function.iterate_one]
      simp only [mul_left_comm _ (eval x _), List.sum_map_mul_left]
      rw [List.sum_map_mul_right, hn, ← finset_list]
      have := congrArg (fun P => (derivative P).eval x) hsum
      simp only [derivative_sum, eval_finset_sum, derivative_one, eval_zero] at this
      rw [this, zero_mul]
    · rw [unitOrder_succ, if_neg (Fin.succ_ne_zero _)]
      simp only [bpolys, evalProd, List.zipWith_cons_cons, List.prod_cons, Fin.val_zero, List.getD_cons_zero, Int.toNat_natCast]
      simp only [← mul_assoc, List.sum_map_mul_left]
      have := tensor_unit axs es xs i' hw' he hx'
      unfold evalProd at this
      rw [List.sum_map_mul_right, this, mul_zero]
    · rw [unitOrder_succ]
      simp only [bpolys, evalProd, List.zipWith_cons_cons, List.prod_cons, Fin.val_succ, List.getD_cons_succ, Int.toNat_natCast,
        Function.iterate_zero, id]
      simp only [mul_left_comm _ (eval x _), List.sum_map_mul_left]
      have ih := tensor_coord axs es xs i' c' g hw' he hx' (by simpa using hg)
      unfold evalProd at ih
      rw [List.sum_map_mul_right, ih, hn, ← finset_list]
      have := congrArg (fun P => P.eval x) hsum
      simp only [eval_finset_sum, eval_one] at this
      rw [this, one_mul]
      simp [Fin.succ_inj]
  | _ :: _, _, [], _, _, _, _, _, hx, _ => by simp at hx

theorem tensor_coord' (axs : List (Axis ℝ)) (e : List Int) (xs : List ℝ) {d : Nat} (hd : d = axs.length) (i c : Fin d) (g : Nat → ℝ) (hw : ∀ ax ∈ axs, WF ax)
    (he : InBox (axs.map fun ax => ax.nel) e) (hx : xs.length = axs.length)
    (hg : ∑ r ∈ Finset.range ((axs.get (c.cast hd)).p.toNat + 1), C (g r) * bpoly (axs.get (c.cast hd)) (e.getD c 0) r = X) :
    ((indices (nens axs)).map fun t => g (t.getD c 0).toNat * evalProd (bpolys axs e (unitOrder i) t) xs).sum = if i = c then 1 else 0 := by
  subst hd
  exact tensor_coord axs e xs i c g hw he hx hg

theorem nodeOf_getD : ∀ (axs : List (Axis ℝ)), (∀ ax ∈ axs, WF ax ∧ ax.periodic = false) → ∀ {e t : List Int}, InBox (axs.map Axis.nel) e →
    InBox (nens axs) t → ∀ c : Fin axs.length, (nodeOf false axs e t).getD c 0 = sp (axs.get c) (e.getD c 0) - (axs.get c).p + t.getD c 0 ∧
      0 ≤ t.getD c 0 ∧ t.getD c 0 ≤ (axs.get c).p ∧ 0 ≤ e.getD c 0 ∧ e.getD c 0 < (axs.get c).nel
  | [], _, _, _, _, _, c => c.elim0
  | ax :: axs, hw, _, _, he, ht, c => by
    rw [show nens (ax :: axs) = (ax.p + 1) :: nens axs from rfl] at ht
    cases he with
    | @cons _ e0 _ es he0 he =>
    cases ht with
    | @cons _ t0 _ ts ht0 ht =>
    rw [nodeOf_cons]
    refine Fin.cases ?_ (fun c' => ?_) c
    · simp only [Fin.val_zero, List.getD_cons_zero, List.get_eq_getElem, List.getElem_cons_zero]
      obtain ⟨h, hper⟩ := hw ax (by simp)
      have h1 := firstNode_eq h.toPreWF he0.1 he0.2
      obtain ⟨b1, b2, b3⟩ := sp_elem h.toPreWF he0.1 he0.2
      have hn : ax.nnp = ax.m - ax.p := by
        rw [h.nnp, hper]; simp [computeNnp]
      rw [h1, Int.emod_eq_of_lt (by omega) (by omega)]
      omega
    · simp only [Fin.val_succ, List.getD_cons_succ, List.get_eq_getElem, List.getElem_cons_succ]
      exact nodeOf_getD axs (fun a h => hw a (by simp [h])) he ht c'

theorem inBox_getD : ∀ {axs : List (Axis ℝ)} {e : List Int}, InBox (axs.map Axis.nel) e → ∀ c : Fin axs.length, 0 ≤ e.getD c 0 ∧ e.getD c 0 < (axs.get c).nel
  | [], _, _, c => c.elim0
  | ax :: axs, _, he, c => by
    cases he with
    | @cons _ e0 _ es he0 he =>
    refine Fin.cases ?_ (fun c' => ?_) c
    · exact he0
    · exact inBox_getD he c'

theorem sum_fin_indices {n : Nat} (axs : List (Axis ℝ)) (hn : n = nenOf axs) (f : Fin n → ℝ) :
    ∑ a, f a = ((indices (nens axs)).map (ent axs f)).sum := by
  subst hn
  have h := zipIdx_indices (nens axs)
  have e1 : ∑ a, f a = ((List.range (nenOf axs)).map fun (i : Nat) => if h : i < nenOf axs then f ⟨i, h⟩ else 0).sum := by
    rw [← finset_list, Finset.sum_range]
    simp
  rw [e1]
  unfold ent
  have e2 : ((indices (nens axs)).map fun t => if h : (flat (nens axs) t).toNat < nenOf axs then f ⟨(flat (nens axs) t).toNat, h⟩ else 0) =
      ((indices (nens axs)).zipIdx.map Prod.snd).map fun i => if h : i < nenOf axs then f ⟨i, h⟩ else 0 := by
    rw [h, List.map_map, List.map_map]
    rfl
  rw [e2, List.zipIdx_map_snd, List.range_eq_range']
  rfl

/-- `X` is the net of the identity map on the element: the control points if there is a geometry of the dimension of the
domain, and otherwise the Greville points of the nodes. -/
def IsNet {d nsd n : Nat} (axs : List (Axis ℝ)) (e : List Int) (c : PtIn d nsd (Fin n)) (X : List Int → Nat → ℝ) : Prop :=
  match c.geometry with
  | none => (∀ ax ∈ axs, ax.periodic = false) ∧ ∀ z, InBox (axs.map Axis.nnp) z → ∀ l : Fin axs.length,
      ((axs.get l).p : ℝ) * X z l = ∑ j ∈ Finset.range (axs.get l).p.toNat, (axs.get l).U (z.getD l 0 + 1 + (j:Int))
  | some C => nsd = d ∧ ∀ t, InBox (nens axs) t → ∀ a : Fin n, (a:Int) = flat (nens axs) t → ∀ l : Fin nsd, C l a = X (nodeOf false axs e t) l

/-- The gradient of the coordinates is the identity at all points. -/
theorem net_gradient {ds : List (Direction Line)} {procs axes Ls g2 g3 size} (S : Setup g2 g3 false size procs axes (ds.map Direction.ax) Ls)
    (hT : ∀ δ ∈ ds, δ.Tabulated) (hs : ∀ δ ∈ ds, IsSpline δ) {nsd : Nat}
    (c : PtIn ds.length nsd (Fin (nenOf (ds.map Direction.ax)))) (hc : FirstOrder c) {e : List Int}
    (he : InBox (ds.map fun δ => δ.ax.nel) e) {mem} {qs} (h : tabulateElement c (ds.map Direction.B) e mem = .ok qs)
    (hJ : ∀ q ∈ qs, q.detJac ≠ 0) (X : List Int → Nat → ℝ) (hX : IsNet (ds.map Direction.ax) e c X) :
    ∀ q ∈ qs, ∀ i l : Fin ds.length, combine (ds.map Direction.ax) e (q.data.shape.t1 i) X l = if i = l then 1 else 0 := by
  obtain ⟨h1, h3, hw⟩ := setup_facts S
  obtain ⟨-, a2⟩ := tabulated_points rfl h1 h3 hT hs hw c he mem h
  intro q hq i l
  obtain ⟨pts, hp, N, m, o, hN, ho, rfl⟩ := a2 q hq
  have hw' : ∀ ax ∈ ds.map Direction.ax, WF ax := by
    intro ax hax
    obtain ⟨δ, hδ, rfl⟩ := List.mem_map.1 hax
    exact hw δ hδ
  have he' : InBox ((ds.map Direction.ax).map Axis.nel) e := by rw [List.map_map]; exact he
  have hB : basisOf c N = N := by unfold basisOf; rw [hc.spline]
  have hord := hc.order
  unfold Ker.tabulate at ho
  rw [hc.interior, hB] at ho
  unfold IsNet at hX
  dsimp only
  cases hg : c.geometry with
  | none =>
    rw [hg] at ho hX
    simp only [Res.ok.injEq] at ho
    have hsh : (pointShape c o).t1 = N.t1 := by
      rw [← ho]; unfold pointShape; rw [hg]; simp
    rw [hsh]
    obtain ⟨hper, hX⟩ := hX
    have hlen : (pts.map Pt.x).length = (ds.map Direction.ax).length := by
      rw [List.length_map, List.length_map, ← (mem_tensorPoints hp).length_eq]
      simp [lines, PetIGA.Grid.inBox_length he]
    set l' : Fin (ds.map Direction.ax).length := l.cast (by simp) with hl'
    set ax := (ds.map Direction.ax).get l' with hax
    have hwa : WF ax := hw' ax (List.get_mem _ _)
    have hp1 := hwa.legal.degree
    have hpR : (ax.p : ℝ) ≠ 0 := by exact_mod_cast (by omega : ax.p ≠ 0)
    set g : Nat → ℝ := fun r => knotSum ax.U ax.p.toNat (sp ax (e.getD l 0) - ax.p + r) / ax.p with hgdef
    have key := tensor_coord' (ds.map Direction.ax) e (pts.map Pt.x) (by simp : ds.length = _) i l g hw' he' hlen (by
      have h0 : 0 ≤ e.getD l 0 ∧ e.getD l 0 < ax.nel := by
        have := inBox_getD he' l'
        exact this
      have hl := piece_linear ax.U (sp ax (e.getD l 0)) ax.p.toNat (sep_sp hwa h0.1 h0.2)
      have hpn : ((ax.p.toNat : Nat) : Int) = ax.p := by omega
      have hpc : ((ax.p.toNat : Nat) : ℝ[X]) = C (ax.p : ℝ) := by
        have : (ax.p : ℝ) = ((ax.p.toNat : Nat) : ℝ) := by exact_mod_cast hpn.symm
        rw [this]; exact (map_natCast C _).symm
      rw [hpc] at hl
      have hC : (C (ax.p : ℝ)⁻¹ : ℝ[X]) * C (ax.p : ℝ) = 1 := by rw [← C_mul, inv_mul_cancel₀ hpR, C_1]
      have e1 : ∀ r : Nat, C (g r) * bpoly ax (e.getD l 0) r = C (ax.p : ℝ)⁻¹ * (C (knotSum ax.U ax.p.toNat (sp ax (e.getD l 0) - ax.p.toNat + r)) *
          piece ax.U (sp ax (e.getD l 0)) ax.p.toNat (sp ax (e.getD l 0) - ax.p.toNat + r)) := by
        intro r
        rw [hgdef, hpn]
        dsimp only
        unfold bpoly
        rw [div_eq_mul_inv, C_mul]
        ring
      show ∑ r ∈ Finset.range (ax.p.toNat + 1), C (g r) * bpoly ax (e.getD l 0) r = Polynomial.X
      rw [Finset.sum_congr rfl fun r _ => e1 r, ← Finset.mul_sum, hl, ← mul_assoc, hC, one_mul])
    rw [← key]
    unfold combine
    congr 1; refine List.map_congr_left fun t ht => ?_
    have hlt := flat_lt_nen (ds.map Direction.ax) ht
    have ht' := (mem_indices _ _).1 ht
    unfold ent
    rw [dif_pos hlt, (hN t ht' ⟨_, hlt⟩ (by
      have := (flat_range ht').1
      simp only; omega)).2 hc.order]
    congr 1
    obtain ⟨z1, z2, z3, z4, z5⟩ := nodeOf_getD (ds.map Direction.ax) (fun a h => ⟨hw' a h, hper a h⟩) he' ht' l'
    have hx := hX _ (nodeOf_inBox S he' ht) l'
    rw [z1] at hx
    rw [hgdef, eq_div_iff hpR, mul_comm]
    refine hx.trans ?_
    unfold knotSum
    rw [show ((t.getD l 0).toNat : Int) = t.getD l' 0 from Int.toNat_of_nonneg z2]
    rfl
  | some C =>
    rw [hg] at ho hX
    obtain ⟨rfl, hC⟩ := hX
    dsimp only at ho
    rw [dif_pos rfl] at ho
    by_cases hx : c.debug = true ∧ (inverseMap c.order (geometryMap c.order C N m.mapX) (m.detX, m.mapU)).1 ≤ 0
    · rw [if_pos hx] at ho; simp at ho
    rw [if_neg hx] at ho
    simp only [Res.ok.injEq] at ho
    have hdj : o.detJac = (pts.map Pt.J).prod * (inverseMap c.order (geometryMap c.order C N m.mapX) (m.detX, m.mapU)).1 := by
      rw [← ho]; simp [hc.galerkin]
    have hsh : (pointShape c o).t1 = (shapeFunctions c.order (inverseMap c.order (geometryMap c.order C N m.mapX) (m.detX, m.mapU)).2 N
        { m.shape with t0 := N.t0 }).t1 := by
      rw [← ho]; unfold pointShape; rw [hg]; simp
    have hXt : ∀ u v, (geometryMap c.order C N m.mapX).t1 u v = ∑ a, C v a * N.t1 u a := by
      intro u v
      unfold geometryMap
      rw [if_neg (by omega)]
      dsimp only
      split_ifs <;> rfl
    set Y := geometryMap c.order C N m.mapX with hY
    have hI : (inverseMap c.order Y (m.detX, m.mapU)).1 = determinant ds.length Y.t1 ∧
        (inverseMap c.order Y (m.detX, m.mapU)).2.t1 = inverse ds.length (determinant ds.length Y.t1) Y.t1 := by
      unfold inverseMap
      rw [if_neg (by omega)]
      dsimp only
      split_ifs <;> exact ⟨rfl, rfl⟩
    obtain ⟨c1, c2⟩ := C43_det_inverse ds.length ⟨h1, h3⟩ Y.t1
    obtain ⟨c3, c4⟩ := c2 (by
      rw [← c1, ← hI.1]
      intro h0
      rw [h0, mul_zero] at hdj
      exact hJ _ hq hdj)
    have hsh1 : ∀ a, (pointShape c o).t1 i a = ∑ j, N.t1 j a * inverse ds.length (determinant ds.length Y.t1) Y.t1 i j := by
      intro a
      rw [hsh, ← hI.2]
      unfold shapeFunctions
      rw [if_neg (by omega)]
      dsimp only
      split_ifs <;> rfl
    have hcomb : combine (ds.map Direction.ax) e ((pointShape c o).t1 i) X l = ∑ a, C l a * (pointShape c o).t1 i a := by
      rw [sum_fin_indices (ds.map Direction.ax) rfl]
      unfold combine
      congr 1; refine List.map_congr_left fun t ht => ?_
      have hlt := flat_lt_nen (ds.map Direction.ax) ht
      have ht' := (mem_indices _ _).1 ht
      unfold ent
      rw [dif_pos hlt, dif_pos hlt]
      dsimp only
      rw [hC t ht' ⟨_, hlt⟩ (by
        have := (flat_range ht').1
        simp only; omega)]
    rw [hcomb]
    have := congrFun (congrFun c3 i) l
    rw [Matrix.mul_apply, Matrix.one_apply] at this
    rw [← this]
    simp only [Matrix.of_apply, hXt, hsh1, Finset.mul_sum]
    rw [Finset.sum_comm]
    exact Finset.sum_congr rfl fun j _ => Finset.sum_congr rfl fun a _ => by ring

/-! ### Rigid fields -/

/-- The field is a rigid motion of the points `X`: a translation and an infinitesimal rotation. -/
def IsRigid (d : Nat) (axs : List (Axis ℝ)) (X u : List Int → Nat → ℝ) : Prop :=
  ∃ (t : Fin d → ℝ) (R : Fin d → Fin d → ℝ), (∀ i j, R i j = -R j i) ∧
    ∀ z, InBox (axs.map Axis.nnp) z → ∀ i : Fin d, u z i = t i + ∑ j, R i j * X z j

theorem combine_affine {n d : Nat} (axs : List (Axis ℝ)) (e : List Int) (g : Fin n → ℝ) (X u : List Int → Nat → ℝ) (k : Nat) (t : ℝ) (R : Fin d → ℝ)
    (hu : ∀ s, InBox (nens axs) s → u (nodeOf false axs e s) k = t + ∑ j, R j * X (nodeOf false axs e s) j) :
    combine axs e g u k = combine axs e g (fun _ _ => t) k + ∑ j : Fin d, R j * combine axs e g X j := by
  unfold combine
  have : ∀ l : List (List Int), (∀ s ∈ l, InBox (nens axs) s) → (l.map fun s => u (nodeOf false axs e s) k * ent axs g s).sum =
      (l.map fun s => t * ent axs g s).sum + ∑ j : Fin d, R j * (l.map fun s => X (nodeOf false axs e s) j * ent axs g s).sum := by
    intro l
    induction l with
    | nil => simp
    | cons s l ih =>
      intro hl
      simp only [List.map_cons, List.sum_cons, mul_add, Finset.sum_add_distrib]
      rw [ih fun s hs => hl s (by simp [hs]), hu s (hl s (by simp)), add_mul, Finset.sum_mul]
      rw [Finset.sum_congr rfl fun j _ => mul_assoc (R j) _ _]
      ring
  exact this _ fun s hs => (mem_indices _ _).1 hs

/-- Zero strain: the symmetric part of the gradient of a rigid field vanishes at all points. -/
theorem rigid_strain {ds : List (Direction Line)} {procs axes Ls g2 g3 size} (S : Setup g2 g3 false size procs axes (ds.map Direction.ax) Ls)
    (hT : ∀ δ ∈ ds, δ.Tabulated) (hs : ∀ δ ∈ ds, IsSpline δ) {nsd : Nat}
    (c : PtIn ds.length nsd (Fin (nenOf (ds.map Direction.ax)))) (hc : FirstOrder c) {e : List Int}
    (he : InBox (ds.map fun δ => δ.ax.nel) e) {mem} {qs} (h : tabulateElement c (ds.map Direction.B) e mem = .ok qs)
    (hJ : ∀ q ∈ qs, q.detJac ≠ 0) (X u : List Int → Nat → ℝ) (hX : IsNet (ds.map Direction.ax) e c X)
    (hu : IsRigid ds.length (ds.map Direction.ax) X u) :
    ∀ q ∈ qs, ∀ i l : Fin ds.length, combine (ds.map Direction.ax) e (q.data.shape.t1 i) u l + combine (ds.map Direction.ax) e (q.data.shape.t1 l) u i = 0 := by
  obtain ⟨h1, h3, hw⟩ := setup_facts S
  have he' : InBox ((ds.map Direction.ax).map Axis.nel) e := by rw [List.map_map]; exact he
  obtain ⟨t, R, hR, hu⟩ := hu
  have hgrad := net_gradient S hT hs c hc he h hJ X hX
  intro q hq i l
  have key : ∀ i l : Fin ds.length, combine (ds.map Direction.ax) e (q.data.shape.t1 i) u l = R l i := by
    intro i l
    rw [combine_affine (ds.map Direction.ax) e _ X u l (t l) (R l) fun s hs => hu _ (nodeOf_inBox S he' ((mem_indices _ _).2 hs)) l,
      const_gradient h1 h3 hT hs hw c hc he h hJ (fun _ _ => t l) l (t l) (fun _ _ => rfl) q hq i, zero_add]
    simp [hgrad q hq]
  rw [key, key, hR l i]
  ring

/-! ### What PETSc makes of the coordinates -/

/-- `v` is in the span of the vectors. -/
def InSpan (ms : List (Int → ℝ)) (v : Int → ℝ) : Prop := ∃ a : Nat → ℝ, ∀ i, v i = (ms.zipIdx.map fun m => a m.2 * m.1 i).sum

/-- All combinations of the modes are rigid motions. -/
theorem modes_rigid {axs : List (Axis ℝ)} {Ls : List (Layout ℝ)} {d : Nat} (h1 : 1 ≤ d) (h3 : d ≤ 3) {x : Int → ℝ} {X : List Int → Nat → ℝ}
    (hX : Represents axs Ls d x X) {v : Int → ℝ} (hv : InSpan (rigidModes d x) v) :
    IsRigid d axs X fun z i => v (Blk.unknown Ls axs d z i) := by
  obtain ⟨a, hv⟩ := hv
  have hx : ∀ z, InBox (axs.map Axis.nnp) z → ∀ j : Nat, j < d → ∀ k : Int, k = Blk.unknown Ls axs d z j → x k = X z j := by
    intro z hz j hj k hk
    rw [hk, ← hX z j hz hj]
    rfl
  have hun : ∀ (z : List Int) (j : Nat), ∃ n : Int, ∀ j : Nat, Blk.unknown Ls axs d z j = d * n + j := fun z _ => ⟨_, fun _ => rfl⟩
  interval_cases d
  · refine ⟨fun _ => a 0, fun _ _ => 0, fun _ _ => by simp, fun z hz i => ?_⟩
    simp [hv, rigidModes]
  · refine ⟨fun i => if i = 0 then a 0 else a 1, fun i j => if i = 0 ∧ j = 1 then -a 2 else if i = 1 ∧ j = 0 then a 2 else 0, ?_, fun z hz i => ?_⟩
    · intro i j
      fin_cases i <;> fin_cases j <;> simp
    · obtain ⟨n, hn⟩ := hun z 0
      dsimp only
      rw [hv, hn]
      have x0 := hx z hz 0 (by omega) (2 * n) (by rw [hn]; norm_num)
      have x1 := hx z hz 1 (by omega) (2 * n + 1) (by rw [hn]; norm_num)
      have r1 : (2 * n + 1) % 2 = 1 := by omega
      fin_cases i <;> simp [rigidModes, Fin.sum_univ_two, x0, x1, r1]
  · refine ⟨fun i => a i, fun i j => if i = 0 ∧ j = 1 then a 3 else if i = 1 ∧ j = 0 then -a 3 else
      if i = 1 ∧ j = 2 then -a 4 else if i = 2 ∧ j = 1 then a 4 else if i = 0 ∧ j = 2 then a 5 else if i = 2 ∧ j = 0 then -a 5 else 0, ?_, fun z hz i => ?_⟩
    · intro i j
      fin_cases i <;> fin_cases j <;> simp
    · obtain ⟨n, hn⟩ := hun z 0
      dsimp only
      rw [hv, hn]
      have x0 := hx z hz 0 (by omega) (3 * n) (by rw [hn]; norm_num)
      have x1 := hx z hz 1 (by omega) (3 * n + 1) (by rw [hn]; norm_num)
      have x2 := hx z hz 2 (by omega) (3 * n + 2) (by rw [hn]; norm_num)
      have r1 : (3 * n + 1) % 3 = 1 := by omega
      have r2 : (3 * n + 2) % 3 = 2 := by omega
      have s1 : 3 * n + 1 + 1 = 3 * n + 2 := by ring
      have s2 : 3 * n + 2 - 1 = 3 * n + 1 := by ring
      fin_cases i <;> simp [rigidModes, Fin.sum_univ_three, x0, x1, x2, r1, r2, s1, s2] <;> ring

/-- The vectors are linearly independent on the entries `0, …, n-1`. -/
def Independent (n : Nat) (ms : List (Int → ℝ)) : Prop :=
  ∀ a : Nat → ℝ, (∀ i : Nat, i < n → (ms.zipIdx.map fun m => a m.2 * m.1 i).sum = 0) → ∀ j, j < ms.length → a j = 0

/-- The modes are independent if in every direction there are two nodes that differ in this coordinate only. -/
theorem modes_independent {g2 g3 size procs axes} {axs : List (Axis ℝ)} {Ls : List (Layout ℝ)} (S : Setup g2 g3 false size procs axes axs Ls)
    {d : Nat} (h1 : 1 ≤ d) (h3 : d ≤ 3) {x : Int → ℝ} {X : List Int → Nat → ℝ} (hX : Represents axs Ls d x X)
    (hz : ∃ z, InBox (axs.map Axis.nnp) z)
    (hd : ∀ l < d, ∃ z z', InBox (axs.map Axis.nnp) z ∧ InBox (axs.map Axis.nnp) z' ∧ X z l ≠ X z' l ∧ ∀ i < d, i ≠ l → X z i = X z' i) :
    (rigidModes d x).length = d * (d+1) / 2 ∧ Independent (total axs d) (rigidModes d x) := by
  have hx : ∀ z, InBox (axs.map Axis.nnp) z → ∀ j : Nat, j < d → ∀ k : Int, k = Blk.unknown Ls axs d z j → x k = X z j := by
    intro z hz j hj k hk
    rw [hk, ← hX z j hz hj]
    rfl
  have hun : ∀ (z : List Int), InBox (axs.map Axis.nnp) z → ∃ n : Int, ∀ j : Nat, j < d → Blk.unknown Ls axs d z j = d * n + j ∧
      ∃ k : Nat, k < total axs d ∧ (k:Int) = d * n + j := by
    intro z hz
    refine ⟨appToPetsc (world (appWorld Ls)) (flat (axs.map Axis.nnp) z), fun j hj => ⟨rfl, ?_⟩⟩
    obtain ⟨b0, b1⟩ := unknown_bounds S hz hj
    obtain ⟨k, hk⟩ := Int.eq_ofNat_of_zero_le b0
    rw [hk] at b1
    exact ⟨k, by omega, by rw [← hk]; rfl⟩
  interval_cases d
  · refine ⟨rfl, fun a ha j hj => ?_⟩
    obtain ⟨z, hz⟩ := hz
    obtain ⟨n, hn⟩ := hun z hz
    obtain ⟨-, k, hk, -⟩ := hn 0 (by omega)
    have := ha k hk
    simp [rigidModes] at this hj
    rw [hj]; exact this
  · refine ⟨rfl, fun a ha j hj => ?_⟩
    have key : ∀ z, InBox (axs.map Axis.nnp) z → a 0 - a 2 * X z 1 = 0 ∧ a 1 + a 2 * X z 0 = 0 := by
      intro z hz
      obtain ⟨n, hn⟩ := hun z hz
      have x0 := hx z hz 0 (by omega) (2 * n) (by rw [(hn 0 (by omega)).1]; norm_num)
      have x1 := hx z hz 1 (by omega) (2 * n + 1) (by rw [(hn 1 (by omega)).1]; norm_num)
      have r1 : (2 * n + 1) % 2 = 1 := by omega
      obtain ⟨-, k0, l0, e0⟩ := hn 0 (by omega)
      obtain ⟨-, k1, l1, e1⟩ := hn 1 (by omega)
      have q0 := ha k0 l0
      have q1 := ha k1 l1
      rw [e0] at q0
      rw [e1] at q1
      simp [rigidModes, x0, x1, r1] at q0 q1
      exact ⟨by linarith, by linarith⟩
    obtain ⟨z, z', m, m', ne, -⟩ := hd 0 (by omega)
    have k1 := key z m
    have k2 := key z' m'
    have a2 : a 2 = 0 := by
      have : a 2 * (X z 0 - X z' 0) = 0 := by linarith [k1.2, k2.2]
      exact (mul_eq_zero.1 this).resolve_right (sub_ne_zero.2 ne)
    rw [a2] at k1
    have hj : j < 3 := hj
    interval_cases j
    · linarith [k1.1]
    · linarith [k1.2]
    · exact a2
  · refine ⟨rfl, fun a ha j hj => ?_⟩
    have key : ∀ z, InBox (axs.map Axis.nnp) z → a 0 + a 3 * X z 1 + a 5 * X z 2 = 0 ∧ a 1 - a 3 * X z 0 - a 4 * X z 2 = 0 ∧
        a 2 + a 4 * X z 1 - a 5 * X z 0 = 0 := by
      intro z hz
      obtain ⟨n, hn⟩ := hun z hz
      have x0 := hx z hz 0 (by omega) (3 * n) (by rw [(hn 0 (by omega)).1]; norm_num)
      have x1 := hx z hz 1 (by omega) (3 * n + 1) (by rw [(hn 1 (by omega)).1]; norm_num)
      have x2 := hx z hz 2 (by omega) (3 * n + 2) (by rw [(hn 2 (by omega)).1]; norm_num)
      have r1 : (3 * n + 1) % 3 = 1 := by omega
      have r2 : (3 * n + 2) % 3 = 2 := by omega
      have s1 : 3 * n + 1 + 1 = 3 * n + 2 := by ring
      have s2 : 3 * n + 2 - 1 = 3 * n + 1 := by ring
      obtain ⟨-, k0, l0, e0⟩ := hn 0 (by omega)
      obtain ⟨-, k1, l1, e1⟩ := hn 1 (by omega)
      obtain ⟨-, k2, l2, e2⟩ := hn 2 (by omega)
      have q0 := ha k0 l0
      have q1 := ha k1 l1
      have q2 := ha k2 l2
      rw [e0] at q0
      rw [e1] at q1
      rw [e2] at q2
      simp [rigidModes, x0, x1, x2, r1, r2, s1, s2] at q0 q1 q2
      exact ⟨by linarith, by linarith, by linarith⟩
    obtain ⟨z, z', m, m', ne, eq⟩ := hd 1 (by omega)
    have k1 := key z m
    have k2 := key z' m'
    rw [eq 0 (by omega) (by omega), eq 2 (by omega) (by omega)] at k1
    have a3 : a 3 = 0 := by
      have : a 3 * (X z 1 - X z' 1) = 0 := by linarith [k1.1, k2.1]
      exact (mul_eq_zero.1 this).resolve_right (sub_ne_zero.2 ne)
    have a4 : a 4 = 0 := by
      have : a 4 * (X z 1 - X z' 1) = 0 := by linarith [k1.2.2, k2.2.2]
      exact (mul_eq_zero.1 this).resolve_right (sub_ne_zero.2 ne)
    obtain ⟨y, y', n, n', ne', -⟩ := hd 0 (by omega)
    have j1 := key y n
    have j2 := key y' n'
    rw [a4] at j1 j2
    have a5 : a 5 = 0 := by
      have : a 5 * (X y 0 - X y' 0) = 0 := by linarith [j1.2.2, j2.2.2]
      exact (mul_eq_zero.1 this).resolve_right (sub_ne_zero.2 ne')
    rw [a3, a5] at j1
    have hj : j < 6 := hj
    interval_cases j
    · linarith [j1.1]
    · linarith [j1.2.1]
    · linarith [j1.2.2]
    · exact a3
    · exact a4
    · exact a5

/-- The Greville points of the first and the last function differ. -/
theorem greville_ends {ax : Axis ℝ} (h : WF ax) {x y : ℝ}
    (hx : (ax.p : ℝ) * x = ∑ j ∈ Finset.range ax.p.toNat, ax.U (0 + 1 + (j:Int)))
    (hy : (ax.p : ℝ) * y = ∑ j ∈ Finset.range ax.p.toNat, ax.U (ax.m - ax.p - 1 + 1 + (j:Int))) : x ≠ y := by
  rintro rfl
  have hp := h.legal.degree
  have hm := h.legal.enough
  have hs := h.legal.sorted
  rw [hx] at hy
  have : ∀ j ∈ Finset.range ax.p.toNat, ax.U (0 + 1 + (j:Int)) < ax.U (ax.m - ax.p - 1 + 1 + (j:Int)) := by
    intro j hj
    have hj := Finset.mem_range.1 hj
    have h1 := h.legal.mult (0 + 1 + (j:Int)) (by omega) (by omega)
    exact lt_of_lt_of_le h1 (sorted_mono hs (by omega) (by omega) (by omega))
  exact absurd hy (Finset.sum_lt_sum_of_nonempty ⟨0, by simp; omega⟩ this).ne

/-! ### The null space -/

/-- The form depends on the displacement by its strain only: where the symmetric part of the gradient of the field with
coefficients `U` vanishes, so do all equations of the point applied to `U`.  (All models of elasticity are like this:
the stress is a function of the strain.) -/
def StrainOnly {d nsd n : Nat} (k : PtData d nsd n → Int → ℝ) : Prop :=
  ∀ (p : PtData d nsd n) (U : Fin n → Fin d → ℝ),
    (∀ i l : Fin d, ∑ a, U a l * p.shape.t1 i a + ∑ a, U a i * p.shape.t1 l a = 0) →
    ∀ (b : Fin n) (m : Fin d), ∑ a : Fin n, ∑ l : Fin d, k p ((((b:Nat) * d + m) * (n * d) + ((a:Nat) * d + l) : Nat) : Int) * U a l = 0

theorem getD_indices {ns t : List Int} (ht : t ∈ indices ns) : (indices ns).getD (flat ns t).toNat [] = t := by
  have h1 : (t, (flat ns t).toNat) ∈ (indices ns).zipIdx := by
    rw [zipIdx_indices]; exact List.mem_map.2 ⟨t, ht, rfl⟩
  rw [List.mk_mem_zipIdx_iff_getElem?] at h1
  rw [List.getD_eq_getElem?_getD, h1]
  rfl

/-- The equations of an element applied to a field without strain at the points. -/
theorem strain_elem {d nsd : Nat} (axs : List (Axis ℝ)) {k : PtData d nsd (nenOf axs) → Int → ℝ} (hk : StrainOnly k)
    (qs : List (QP ℝ (PtData d nsd (nenOf axs)))) (u v : List Int → Nat → ℝ) (e : List Int)
    (hv : ∀ q ∈ qs, ∀ i l : Fin d, combine axs e (q.data.shape.t1 i) v l + combine axs e (q.data.shape.t1 l) v i = 0) :
    elemForm (unknowns axs d) (fun i j => pointSum qs fun p => k p ((i:Int) * unknowns axs d + j)) (valuesOf false axs d u e)
      (valuesOf false axs d v e) = 0 := by
  unfold pointSum
  rw [elemForm_sum _ qs (fun q i j => k q.data ((i:Int) * unknowns axs d + j) * (q.detJac * q.weight))]
  refine List.sum_eq_zero fun x hx => ?_
  obtain ⟨q, hq, rfl⟩ := List.mem_map.1 hx
  rw [elemForm_scale, elemForm_slots]
  refine mul_eq_zero_of_left (List.sum_eq_zero fun x hx => ?_) _
  obtain ⟨s, hs, rfl⟩ := List.mem_map.1 hx
  refine List.sum_eq_zero fun x hx => ?_
  obtain ⟨m, hm, rfl⟩ := List.mem_map.1 hx
  refine mul_eq_zero_of_right _ ?_
  have hm := List.mem_range.1 hm
  set U : Fin (nenOf axs) → Fin d → ℝ := fun a l => v (nodeOf false axs e ((indices (nens axs)).getD a [])) l with hU
  have h1 : ∀ (g : Fin (nenOf axs) → ℝ) (l : Fin d), ∑ a, U a l * g a = combine axs e g v l := by
    intro g l
    rw [sum_fin_indices axs rfl]
    unfold combine
    congr 1; refine List.map_congr_left fun t ht => ?_
    have hlt := flat_lt_nen axs ht
    unfold ent
    rw [dif_pos hlt, dif_pos hlt]
    simp only [hU]
    rw [getD_indices ht]
  have h2 := hk q.data U (fun i l => by rw [h1, h1]; exact hv q hq i l) ⟨_, flat_lt_nen axs hs⟩ ⟨m, hm⟩
  rw [← h2, sum_fin_indices axs rfl]
  congr 1; refine List.map_congr_left fun t ht => ?_
  have hlt := flat_lt_nen axs ht
  unfold ent
  rw [dif_pos hlt, ← finset_list, Finset.sum_range]
  refine Finset.sum_congr rfl fun l _ => ?_
  simp only [hU]
  rw [getD_indices ht]
  congr 2

variable {g2 : Guess2} {g3 : Guess3} {size : Int} {procs : List Int} {axes : List (Axis ℝ)} {Ls : List (Layout ℝ)}

/-- **C89**: a matrix assembled by `IGAComputeMatrix` for a form that depends on the strain only annihilates all rigid
motions of the net of the map: of the control points, or of the Greville points if there is no geometry. -/
theorem C89_rigid_motions {ds : List (Direction Line)} (S : Setup g2 g3 false size procs axes (ds.map Direction.ax) Ls)
    (hT : ∀ δ ∈ ds, δ.Tabulated) (hs : ∀ δ ∈ ds, IsSpline δ) {nsd : Nat}
    {c : List Int → PtIn ds.length nsd (Fin (nenOf (ds.map Direction.ax)))} (hc : ∀ e, FirstOrder (c e))
    {elt : List Int → Elt ℝ (PtData ds.length nsd (nenOf (ds.map Direction.ax)))} (hI : Interior ds ds.length c elt)
    (hJ : ∀ e, InBox (ds.map fun δ => δ.ax.nel) e → ∀ q ∈ (elt e).points none, q.detJac ≠ 0)
    (X : List Int → Nat → ℝ) (hX : ∀ e, InBox (ds.map fun δ => δ.ax.nel) e → IsNet (ds.map Direction.ax) e (c e) X)
    (cb : PtData ds.length nsd (nenOf (ds.map Direction.ax)) → (Int → ℝ) → Res (Int → ℝ)) (k)
    (hK : Fills (unknowns (ds.map Direction.ax) ds.length * unknowns (ds.map Direction.ax) ds.length) cb k)
    (hk : StrainOnly k) (hist) (pw) (w) :
    ∃ A, computeMatrix Ls hist ds.length ⟨elt, pw, w⟩ cb = .ok A ∧
      ∀ v : Int → ℝ, IsRigid ds.length (ds.map Direction.ax) X (fun z i => v (Blk.unknown Ls (ds.map Direction.ax) ds.length z i)) →
        ∀ i : Nat, i < total (ds.map Direction.ax) ds.length →
          ∑ j ∈ Finset.range (total (ds.map Direction.ax) ds.length), A ((i:Int), (j:Int)) * v j = 0 := by
  obtain ⟨A, hA, hM⟩ := gram_matrix S hI cb k hK hist pw w
  refine ⟨A, hA, fun v hv i hi => ?_⟩
  have := global_form S ds.length _ A hM (fun j => if j = (i:Int) then 1 else 0) v
  rw [Finset.sum_eq_single_of_mem i (Finset.mem_range.2 hi) (fun j _ hj => Finset.sum_eq_zero fun l _ => by
    rw [if_neg (by exact_mod_cast hj)]; ring)] at this
  simp only [if_true, one_mul] at this
  rw [this]
  refine List.sum_eq_zero fun a ha => ?_
  obtain ⟨e, he, rfl⟩ := List.mem_map.1 ha
  have he : InBox (ds.map fun δ => δ.ax.nel) e := by
    have := (mem_indices _ _).1 he
    rw [List.map_map] at this; exact this
  obtain ⟨mem, hm⟩ := hI.points e he
  exact strain_elem (ds.map Direction.ax) hk _ _ _ e (rigid_strain S hT hs (c e) (hc e) he hm (hJ e he) X _ (hX e he) hv)

/-- **C89** without a geometry and without periodic directions: what `IGACreateRigidBody` returns is in the null space of
every matrix assembled for a form that depends on the strain only, and consists of `d(d+1)/2` independent vectors.
Missing because false: see `C89_geometry_refuted` for a geometry and `C89_periodic_refuted` for periodic directions. -/
theorem C89_rigid_body_partial {ds : List (Direction Line)} (S : Setup g2 g3 false size procs axes (ds.map Direction.ax) Ls)
    (hT : ∀ δ ∈ ds, δ.Tabulated) (hs : ∀ δ ∈ ds, IsSpline δ) (hper : ∀ δ ∈ ds, δ.ax.periodic = false) {nsd : Nat}
    {c : List Int → PtIn ds.length nsd (Fin (nenOf (ds.map Direction.ax)))} (hc : ∀ e, FirstOrder (c e)) (hg : ∀ e, (c e).geometry = none)
    {elt : List Int → Elt ℝ (PtData ds.length nsd (nenOf (ds.map Direction.ax)))} (hI : Interior ds ds.length c elt)
    (cb : PtData ds.length nsd (nenOf (ds.map Direction.ax)) → (Int → ℝ) → Res (Int → ℝ)) (k)
    (hK : Fills (unknowns (ds.map Direction.ax) ds.length * unknowns (ds.map Direction.ax) ds.length) cb k)
    (hk : StrainOnly k) (hist) (pw) (w) (huge : ℝ) (xyz : Nat → Option (List ℝ)) :
    ∃ ms A, createRigidBody huge (ds.map fun _ => .bspline) 0 ds.length Ls xyz = .ok ms ∧
      computeMatrix Ls hist ds.length ⟨elt, pw, w⟩ cb = .ok A ∧
      (ms.length = ds.length * (ds.length + 1) / 2 ∧ Independent (total (ds.map Direction.ax) ds.length) ms) ∧
      ∀ v, InSpan ms v → ∀ i : Nat, i < total (ds.map Direction.ax) ds.length →
          ∑ j ∈ Finset.range (total (ds.map Direction.ax) ds.length), A ((i:Int), (j:Int)) * v j = 0 := by
  obtain ⟨h1, h3, hw⟩ := setup_facts S
  obtain ⟨outs, X, o1, -, o2, o3⟩ := C50_parametric S huge (ds.map fun _ => .bspline) (by
    rw [List.forall₂_map_left_iff, List.forall₂_map_right_iff, List.forall₂_same]
    exact fun δ hδ => ⟨(S.cond δ.ax (List.mem_map_of_mem hδ)).1 rfl, by simp⟩) 0 xyz (.inl rfl)
  have hnsd : nsdOf (ds.map Direction.ax).length 0 = ds.length := by
    unfold nsdOf
    rw [List.length_map]; omega
  have hnsd' : nsdOf ds.length 0 = ds.length := by unfold nsdOf; omega
  rw [hnsd] at o2
  have hJ : ∀ e, InBox (ds.map fun δ => δ.ax.nel) e → ∀ q ∈ (elt e).points none, q.detJac ≠ 0 := by
    intro e he q hq
    obtain ⟨mem, hm⟩ := hI.points e he
    obtain ⟨pts, hp, N, m, o, -, ho, rfl⟩ := (tabulated_points rfl h1 h3 hT hs hw (c e) he mem hm).2 q hq
    exact (detJac_pos ho (lines_J hw he (mem_tensorPoints hp)) (hc e).interior (.inl (hg e))).ne'
  have hN : ∀ z, InBox ((ds.map Direction.ax).map Axis.nnp) z → ∀ l : Fin (ds.map Direction.ax).length,
      (((ds.map Direction.ax).get l).p : ℝ) * X z l =
        ∑ j ∈ Finset.range ((ds.map Direction.ax).get l).p.toNat, ((ds.map Direction.ax).get l).U (z.getD l 0 + 1 + (j:Int)) := by
    intro z hz l
    have hl : (l:Nat) < ds.length := by have := l.2; simpa using this
    have hlz : z.length = ds.length := by rw [PetIGA.Grid.inBox_length hz]; simp
    have := ((o3 z hz).1 l ((ds.map Direction.ax).get l) .bspline (z.getD l 0) (List.getElem?_eq_getElem l.2) (by simp [hl]) (by
      rw [List.getD_eq_getElem?_getD, List.getElem?_eq_getElem (by omega)]; rfl)).1 (by simp)
    simpa [shiftOf] using this
  obtain ⟨A, a1, a2⟩ := C89_rigid_motions S hT hs hc hI hJ X (fun e he => by
    unfold IsNet
    rw [hg e]
    refine ⟨fun ax hax => ?_, hN⟩
    obtain ⟨δ, hδ, rfl⟩ := List.mem_map.1 hax
    exact hper δ hδ) cb k hK hk hist pw w
  refine ⟨_, A, by unfold createRigidBody; rw [o1]; rfl, a1, ?_, fun v hv => ?_⟩
  · rw [hnsd']
    have hnn : ∀ ax ∈ ds.map Direction.ax, WF ax ∧ ax.nnp = ax.m - ax.p := by
      intro ax hax
      obtain ⟨δ, hδ, rfl⟩ := List.mem_map.1 hax
      exact ⟨hw δ hδ, (nnp_bounds (hw δ hδ)).2.2.1 (hper δ hδ)⟩
    have hbox : ∀ (axs : List (Axis ℝ)), (∀ ax ∈ axs, WF ax ∧ ax.nnp = ax.m - ax.p) →
        InBox (axs.map Axis.nnp) (axs.map fun _ => 0) ∧
        ∀ l : Fin axs.length, ∃ z, InBox (axs.map Axis.nnp) z ∧ z.getD l 0 = (axs.get l).m - (axs.get l).p - 1 ∧
          ∀ i : Nat, i ≠ l → z.getD i 0 = (axs.map fun _ => (0:Int)).getD i 0 := by
      intro axs
      induction axs with
      | nil => exact fun _ => ⟨.nil, fun l => l.elim0⟩
      | cons ax axs ih =>
        intro h
        obtain ⟨b1, b2⟩ := ih fun a ha => h a (by simp [ha])
        obtain ⟨hwa, hna⟩ := h ax (by simp)
        have e1 := hwa.legal.degree
        have e2 := hwa.legal.enough
        refine ⟨.cons (by dsimp only; omega) b1, fun l => ?_⟩
        refine Fin.cases ?_ (fun l => ?_) l
        · refine ⟨(ax.m - ax.p - 1) :: axs.map fun _ => 0, .cons (by omega) b1, rfl, fun i hi => ?_⟩
          cases i with
          | zero => exact absurd rfl hi
          | succ i => rfl
        · obtain ⟨z, z1, z2, z3⟩ := b2 l
          refine ⟨0 :: z, .cons (by omega) z1, z2, fun i hi => ?_⟩
          cases i with
          | zero => rfl
          | succ i => exact z3 i fun h => hi (by rw [h]; rfl)
    obtain ⟨b1, b2⟩ := hbox _ hnn
    refine modes_independent S h1 h3 o2 ⟨_, b1⟩ fun l hl => ?_
    have hl' : l < (ds.map Direction.ax).length := by simpa using hl
    obtain ⟨z, z1, z2, z3⟩ := b2 ⟨l, hl'⟩
    refine ⟨_, z, b1, z1, ?_, fun i hi hne => ?_⟩
    · have q0 := hN _ b1 ⟨l, hl'⟩
      have q1 := hN z z1 ⟨l, hl'⟩
      rw [z2] at q1
      refine greville_ends (hnn _ (List.get_mem _ ⟨l, hl'⟩)).1 ?_ q1
      have e0 : ((ds.map Direction.ax).map fun _ => (0:Int)).getD l 0 = 0 := by
        rw [List.getD_eq_getElem?_getD, List.getElem?_map, List.getElem?_eq_getElem hl']; rfl
      rw [e0] at q0
      exact q0
    · have hi' : i < (ds.map Direction.ax).length := by simpa using hi
      have q0 := hN _ b1 ⟨i, hi'⟩
      have q1 := hN z z1 ⟨i, hi'⟩
      rw [z3 i (by simpa using hne), ← q0] at q1
      have hp := (hnn _ (List.get_mem _ ⟨i, hi'⟩)).1.legal.degree
      have : (((ds.map Direction.ax).get ⟨i, hi'⟩).p : ℝ) ≠ 0 := by
        have h0 : ((ds.map Direction.ax).get ⟨i, hi'⟩).p ≠ 0 := by omega
        exact_mod_cast h0
      exact (mul_left_cancel₀ this q1).symm
  · rw [hnsd'] at hv
    exact a2 v (modes_rigid h1 h3 o2 hv)

/-- **C89** does not hold with a geometry of dimension two (see `C50_geometry_refuted`): if the first two control points
of a process have the same second coordinate, and this is not the first coordinate of the second one, then the third
vector of `IGACreateRigidBody` is not a rigid motion of the control points. -/
theorem C89_geometry_refuted {ax0 ax1 : Axis ℝ} (S : Setup g2 g3 false size procs axes [ax0, ax1] Ls)
    (huge : ℝ) (types : List BasisType) (xyz : Nat → Option (List ℝ)) (X : List Int → Nat → ℝ) (hX : HasGeometry Ls 2 xyz X)
    (r : Nat) (L : Layout ℝ) (hL : Ls[r]? = some L) (d0 d1 : Dir) (hd : L.dir = [d0, d1]) (hw : 2 ≤ d0.nodeLwidth)
    (h1 : X [d0.nodeLstart, d1.nodeLstart] 1 = X [d0.nodeLstart + 1, d1.nodeLstart] 1)
    (h2 : X [d0.nodeLstart, d1.nodeLstart] 1 ≠ X [d0.nodeLstart + 1, d1.nodeLstart] 0) :
    ∃ ms m, createRigidBody huge types 2 2 Ls xyz = .ok ms ∧ ms[2]? = some m ∧
      ¬ IsRigid 2 [ax0, ax1] X fun z i => m (Blk.unknown Ls [ax0, ax1] 2 z i) := by
  obtain ⟨outs, u, a, b, h⟩ := C50_geometry_read S (.inl rfl) huge types 2 (by simp) (by omega) xyz X hX
  obtain ⟨arr, e1, e2, e3⟩ := hX r L hL
  have hW := Blk.setup_dirs S hL (R := Blk.DirW false) (fun ax P r a b c d e f => Blk.dirW a b c d e f)
  have hP := Blk.setup_dirs S hL (R := Prb.DirP false) (fun ax P r a b c d e f => Prb.dirP a b c d e f)
  rw [hd] at hW hP e3
  obtain _ | ⟨w0, _ | ⟨w1, -⟩⟩ := hW
  obtain _ | ⟨p0, _ | ⟨p1, -⟩⟩ := hP
  have s0 := w0.gal rfl
  have s1 := w1.gal rfl
  have g0 := p0.gstart
  have g1 := p1.gstart
  have gw0 := p0.gwidth (.inl rfl)
  have gw1 := p1.gwidth (.inl rfl)
  have o0 := w0.ok.ok.ghost.owned
  have o1 := w1.ok.ok.ghost.owned
  have l1 := w1.own
  have l0 := w0.own
  rw [show shiftOf false ax0 = 0 from rfl] at g0
  rw [show shiftOf false ax1 = 0 from rfl] at g1
  have q1 := h r L arr [d0.nodeLstart, d1.nodeLstart] 1 hL e1 (by
    rw [hd]; exact .cons ⟨by omega, by omega⟩ (.cons ⟨by omega, by omega⟩ .nil)) (by omega)
  have q2 := h r L arr [d0.nodeLstart + 1, d1.nodeLstart] 1 hL e1 (by
    rw [hd]; exact .cons ⟨by omega, by omega⟩ (.cons ⟨by omega, by omega⟩ .nil)) (by omega)
  have t1 := e3 [d0.nodeLstart, d1.nodeLstart] 1 (.cons ⟨by omega, by omega⟩ (.cons ⟨by omega, by omega⟩ .nil)) (by omega)
  have t2 := e3 [d0.nodeLstart + 1, d1.nodeLstart] 0 (.cons ⟨by omega, by omega⟩ (.cons ⟨by omega, by omega⟩ .nil)) (by omega)
  rw [hd] at q1 q2
  simp only [List.map_cons, List.map_nil, rel, List.zipWith_cons_cons, List.zipWith_nil_left, flat, s0, s1, g0, g1, add_zero, sub_self, mul_zero,
    zero_mul, zero_add, Int.toNat_zero, add_sub_cancel_left, Int.toNat_one, one_mul] at q1 q2 t1 t2
  have t1' : arr[1]? = some (X [d0.nodeLstart, d1.nodeLstart] 1) := t1
  have t2' : arr[1 + 1]? = some (X [d0.nodeLstart + 1, d1.nodeLstart] 0) := t2
  have u1 : u [d0.nodeLstart, d1.nodeLstart] 1 = X [d0.nodeLstart, d1.nodeLstart] 1 := Option.some.inj (q1.symm.trans t1')
  have u2 : u [d0.nodeLstart + 1, d1.nodeLstart] 1 = X [d0.nodeLstart + 1, d1.nodeLstart] 0 := Option.some.inj (q2.symm.trans t2')
  refine ⟨_, _, by unfold createRigidBody; rw [a]; rfl, rfl, ?_⟩
  rintro ⟨t, R, hR, hu⟩
  have b1 : InBox ([ax0, ax1].map Axis.nnp) [d0.nodeLstart, d1.nodeLstart] := .cons (by omega) (.cons (by omega) .nil)
  have b2 : InBox ([ax0, ax1].map Axis.nnp) [d0.nodeLstart + 1, d1.nodeLstart] := .cons (by omega) (.cons (by omega) .nil)
  have R0 : R 0 0 = 0 := by have := hR 0 0; linarith
  have val : ∀ z, InBox ([ax0, ax1].map Axis.nnp) z → -u z 1 = t 0 + R 0 1 * X z 1 := by
    intro z hz
    have e := hu z hz 0
    rw [Fin.sum_univ_two, R0, zero_mul, zero_add] at e
    rw [show t 0 + R 0 1 * X z 1 = t 0 + R 0 1 * X z ((1 : Fin 2) : Nat) from rfl, ← e, ← b z 1 hz (by omega)]
    have m0 : Blk.unknown Ls [ax0, ax1] 2 z ((0 : Fin 2) : Nat) % 2 = 0 := by
      unfold Blk.unknown; simp
    simp only [m0, if_true]
    have m1 : Blk.unknown Ls [ax0, ax1] 2 z ((0 : Fin 2) : Nat) + 1 =
        (2:Nat) * appToPetsc (world (appWorld Ls)) (flat ([ax0, ax1].map Axis.nnp) z) + ((1:Nat):Int) := by
      unfold Blk.unknown; simp
    rw [m1]
    rfl
  have v1 := val _ b1
  have v2 := val _ b2
  rw [u1] at v1
  rw [u2, ← h1, ← v1] at v2
  exact h2 (neg_injective v2).symm

end PetIGA.Itg
