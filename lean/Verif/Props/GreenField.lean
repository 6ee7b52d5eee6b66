import Verif.Props.Green

/-!
C121: integration by parts with the fields of the tables.
-/
set_option linter.unusedSectionVars false

namespace PetIGA.Itg
open PetIGA.Quad PetIGA.Drv PetIGA.Spec PetIGA.Ax PetIGA.Lay PetIGA.Asm PetIGA.Rule PetIGA.Grid PetIGA.Part PetIGA.Ker PetIGA.PCA
open Polynomial

variable {g2 : Guess2} {g3 : Guess3} {size : Int} {procs : List Int} {axes : List (Axis ℝ)} {Ls : List (Layout ℝ)}

/-- The derivative of orders `os` of the field with the nodal values `u`, continued from element `e`. -/
noncomputable def nodal (axs : List (Axis ℝ)) (u : List Int → ℝ) (e : List Int) (os : List Nat) (xs : List ℝ) : ℝ :=
  ((indices (axs.map Axis.nnp)).map fun z => u z * evalProd (zpolys axs e os z) xs).sum

theorem nodal_eq {axs : List (Axis ℝ)} (S : Setup g2 g3 false size procs axes axs Ls) (hw : ∀ ax ∈ axs, WF ax ∧ ax.periodic = false) (u : List Int → ℝ)
    {e : List Int} (he : InBox (axs.map Axis.nel) e) {xs : List ℝ} (hx : xs.length = axs.length) {os : List Nat} (ho : os.length = axs.length) :
    ((indices (nens axs)).map fun t => u (nodeOf false axs e t) * evalProd (bpolys axs e os t) xs).sum = nodal axs u e os xs := by
  unfold nodal
  have h1 : ∀ z ∈ indices (axs.map Axis.nnp), u z * evalProd (zpolys axs e os z) xs =
      ((indices (nens axs)).map fun t => u z * ((if nodeOf false axs e t = z then (1:ℝ) else 0) * evalProd (bpolys axs e os t) xs)).sum := by
    intro z hz
    have hzl : z.length = axs.length := by rw [PetIGA.Grid.inBox_length ((mem_indices _ z).1 hz)]; simp
    rw [← pick_tensor axs e xs os z hw he hx ho hzl, List.sum_map_mul_left]
  rw [List.map_congr_left h1, list_list_sum]
  congr 1
  refine List.map_congr_left fun t ht => ?_
  rw [sum_nodup (nodup_indices _) (a := nodeOf false axs e t) ((mem_indices _ _).2 (nodeOf_inBox S he ht))]
  · rw [if_pos rfl, one_mul]
  · intro z _ hz
    rw [if_neg (Ne.symm hz)]; simp

theorem zpolys_get : ∀ {axs : List (Axis ℝ)} {e : List Int} {os : List Nat} {z : List Int} {i : Nat} {ax : Axis ℝ} {e0 : Int} {o : Nat} {z0 : Int},
    axs[i]? = some ax → e[i]? = some e0 → os[i]? = some o → z[i]? = some z0 →
    (zpolys axs e os z)[i]? = some (derivative^[o] (piece ax.U (sp ax e0) ax.p.toNat z0))
  | a :: axs, b :: e, c :: os, d :: z, 0, _, _, _, _, h1, h2, h3, h4 => by
    simp only [List.getElem?_cons_zero, Option.some.injEq] at h1 h2 h3 h4
    subst h1 h2 h3 h4
    simp [zpolys]
  | a :: axs, b :: e, c :: os, d :: z, i+1, _, _, _, _, h1, h2, h3, h4 => by
    simp only [List.getElem?_cons_succ] at h1 h2 h3 h4
    simpa [zpolys] using zpolys_get h1 h2 h3 h4
  | [], _, _, _, _, _, _, _, _, h, _, _, _ => by simp at h
  | _ :: _, [], _, _, _, _, _, _, _, _, h, _, _ => by simp at h
  | _ :: _, _ :: _, [], _, _, _, _, _, _, _, _, h, _ => by simp at h
  | _ :: _, _ :: _, _ :: _, [], _, _, _, _, _, _, _, _, h => by simp at h

theorem zpolys_length : ∀ (axs : List (Axis ℝ)) (e : List Int) (os : List Nat) (z : List Int), e.length = axs.length → os.length = axs.length →
    z.length = axs.length → (zpolys axs e os z).length = axs.length
  | [], _, _, _, _, _, _ => by simp [zpolys]
  | _ :: axs, _ :: e, _ :: os, _ :: z, h1, h2, h3 => by
    simp [zpolys, zpolys_length axs e os z (by simpa using h1) (by simpa using h2) (by simpa using h3)]
  | _ :: _, [], _, _, h, _, _ => by simp at h
  | _ :: _, _ :: _, [], _, _, h, _ => by simp at h
  | _ :: _, _ :: _, _ :: _, [], _, _, h => by simp at h

theorem zpolys_erase : ∀ (axs : List (Axis ℝ)) (e : List Int) (os : List Nat) (z : List Int) (i : Nat), e.length = axs.length → os.length = axs.length →
    z.length = axs.length → (zpolys axs e os z).eraseIdx i = zpolys (axs.eraseIdx i) (e.eraseIdx i) (os.eraseIdx i) (z.eraseIdx i)
  | [], _, _, _, _, _, _, _ => by simp [zpolys]
  | _ :: axs, _ :: e, _ :: os, _ :: z, 0, _, _, _ => by simp [zpolys]
  | _ :: axs, _ :: e, _ :: os, _ :: z, i+1, h1, h2, h3 => by
    simp [zpolys, zpolys_erase axs e os z i (by simpa using h1) (by simpa using h2) (by simpa using h3)]
  | _ :: _, [], _, _, _, h, _, _ => by simp at h
  | _ :: _, _ :: _, [], _, _, _, h, _ => by simp at h
  | _ :: _, _ :: _, _ :: _, [], _, _, _, h => by simp at h

/-- The field along a line of direction `i` in element `e0` of that direction. -/
noncomputable def alongPoly (axs : List (Axis ℝ)) (i : Fin axs.length) (u : List Int → ℝ) (e : List Int) (ys : List ℝ) (e0 : Int) (o : Nat) : ℝ[X] :=
  ((indices (axs.map Axis.nnp)).map fun z => C (u z * evalProd (zpolys (axs.eraseIdx i) e (List.replicate (axs.length - 1) 0) (z.eraseIdx i)) ys) *
    derivative^[o] (piece axs[i].U (sp axs[i] e0) axs[i].p.toNat (z.getD i 0))).sum

theorem eval_list_sum {α : Type} (l : List α) (f : α → ℝ[X]) (x : ℝ) : ((l.map f).sum).eval x = (l.map fun a => (f a).eval x).sum := by
  induction l with
  | nil => simp
  | cons a l ih => simp [ih]

theorem nodal_along {axs : List (Axis ℝ)} (i : Fin axs.length) (u : List Int → ℝ) {e : List Int} (he : e.length + 1 = axs.length) {ys : List ℝ}
    (hy : ys.length + 1 = axs.length) (e0 : Int) {os : List Nat} {o : Nat} (hol : os.length = axs.length) (ho : os[(i:Nat)]? = some o)
    (hos : os.eraseIdx i = List.replicate (axs.length - 1) 0) (s : ℝ) :
    nodal axs u (e.insertIdx i e0) os (ys.insertIdx i s) = (alongPoly axs i u e ys e0 o).eval s := by
  unfold nodal alongPoly
  rw [eval_list_sum]
  congr 1
  refine List.map_congr_left fun z hz => ?_
  have hi := i.isLt
  have hzl : z.length = axs.length := by rw [PetIGA.Grid.inBox_length ((mem_indices _ z).1 hz)]; simp
  have hel : (e.insertIdx i e0).length = axs.length := by rw [List.length_insertIdx_of_le_length (by omega)]; omega
  have hz0 : z[(i:Nat)]? = some (z.getD i 0) := by
    rw [List.getD_eq_getElem?_getD, List.getElem?_eq_getElem (by omega)]; simp
  rw [evalProd_insert s (zpolys_get (ax := axs[i]) (by simp) (insert_get _ _ _ (by omega)) ho hz0)
    (by rw [zpolys_length _ _ _ _ hel hol hzl]; exact hy), zpolys_erase _ _ _ _ _ hel hol hzl, insert_erase _ _ _ (by omega), hos]
  simp only [eval_mul, eval_C]
  ring

theorem along_derivative {axs : List (Axis ℝ)} (i : Fin axs.length) (u : List Int → ℝ) (e : List Int) (ys : List ℝ) (e0 : Int) :
    derivative (alongPoly axs i u e ys e0 0) = alongPoly axs i u e ys e0 1 := by
  unfold alongPoly
  induction indices (axs.map Axis.nnp) with
  | nil => simp
  | cons a l ih => simp only [List.map_cons, List.sum_cons, derivative_add, ih]; simp

theorem along_degree {axs : List (Axis ℝ)} (i : Fin axs.length) (u : List Int → ℝ) (e : List Int) (ys : List ℝ) (e0 : Int) :
    (alongPoly axs i u e ys e0 0).natDegree ≤ axs[i].p.toNat := by
  unfold alongPoly
  induction indices (axs.map Axis.nnp) with
  | nil => simp
  | cons a l ih =>
    simp only [List.map_cons, List.sum_cons]
    refine le_trans (natDegree_add_le _ _) (max_le (le_trans (natDegree_C_mul_le _ _) ?_) ih)
    exact natDegree_le_of_degree_le (Bsp.piece_natDegree _ _ _ _)

/-- The field is continuous from element to element. -/
theorem along_match {axs : List (Axis ℝ)} (i : Fin axs.length) (h : WF axs[i]) (u : List Int → ℝ) (e : List Int) (ys : List ℝ) {e0 : Int} (h0 : 0 ≤ e0)
    (h1 : e0 + 1 < axs[i].nel) :
    (alongPoly axs i u e ys e0 0).eval (axs[i].U (sp axs[i] e0 + 1)) = (alongPoly axs i u e ys (e0+1) 0).eval (axs[i].U (sp axs[i] (e0+1))) := by
  have hfl := flat_between h h0 h1
  obtain ⟨a1, a2, a3⟩ := sp_elem h.toPreWF (i := e0) (by omega) (by omega)
  obtain ⟨b1, b2, b3⟩ := sp_elem h.toPreWF (i := e0+1) (by omega) (by omega)
  have hlt := sp_lt h.toPreWF (i := e0) (j := e0 + 1) (by omega) (by omega) (by omega)
  have hst := Crd.sp_step h.toPreWF h0 h1
  have hU := hfl (sp axs[i] (e0+1)) hlt (le_refl _)
  rw [hU]
  unfold alongPoly
  rw [eval_list_sum, eval_list_sum]
  congr 1
  refine List.map_congr_left fun z _ => ?_
  simp only [eval_mul, Function.iterate_zero, id]
  rw [Bsp.jump_zero axs[i].U (sp axs[i] e0) (sp axs[i] (e0+1)) (axs[i].U (sp axs[i] e0 + 1)) hfl a3.ne (by rw [← hU]; exact b3.ne') hlt.le _ (by omega)]

/-- The sum over the points of a line of the mesh of the derivatives of polynomials that match at the knots. -/
theorem line_match {δ : Direction Line} (hw : WF δ.ax) (ho : OpenEnds δ.ax) {n : Nat} (hx : ExactRule n δ.X δ.W) (Q : Int → ℝ[X])
    (hd : ∀ e0, (derivative (Q e0)).natDegree ≤ n) (hm : ∀ e0 : Int, 0 ≤ e0 → e0 + 1 < δ.ax.nel →
      (Q e0).eval (δ.ax.U (sp δ.ax e0 + 1)) = (Q (e0+1)).eval (δ.ax.U (sp δ.ax (e0+1)))) :
    ((List.range δ.ax.nel.toNat).map fun (k : Nat) => ((linePts δ k).map fun p => (derivative (Q k)).eval p.x * (p.J * p.w)).sum).sum =
      (Q (sideElem δ.ax true)).eval (sideEnd δ.ax true) - (Q (sideElem δ.ax false)).eval (sideEnd δ.ax false) := by
  have hn := face_nel_pos hw ho
  have e2 : ∀ e : Nat, ((linePts δ e).map fun p => (derivative (Q e)).eval p.x * (p.J * p.w)).sum =
      (Q e).eval (δ.ax.U (sp δ.ax e + 1)) - (Q e).eval (δ.ax.U (sp δ.ax e)) := by
    intro e
    unfold linePts
    rw [line_exact δ hx (sp δ.ax e) (derivative (Q e)) (hd e), intervalIntegral.integral_eq_sub_of_hasDerivAt (fun x _ => (Q e).hasDerivAt x)]
    exact ((derivative (Q e)).continuous).intervalIntegrable _ _
  simp only [e2]
  rw [telescope (fun e : Nat => (Q e).eval (δ.ax.U (sp δ.ax e + 1))) (fun e : Nat => (Q e).eval (δ.ax.U (sp δ.ax e)))]
  · have s1 := (sideElem_sp hw ho true).1
    have s0 := (sideElem_sp hw ho false).1
    simp only [sideElem, sideEnd, domain, if_true, Bool.false_eq_true, if_false] at s1 s0 ⊢
    rw [show ((δ.ax.nel.toNat - 1 : Nat):Int) = δ.ax.nel - 1 by omega, s1, show δ.ax.m - δ.ax.p - 1 + 1 = δ.ax.m - δ.ax.p by ring]
    rw [Nat.cast_zero, s0]
  · intro e he
    have := hm e (by omega) (by omega)
    push_cast
    exact this
  · omega

theorem unitOrder_get {d : Nat} (i : Fin d) : (unitOrder i)[(i:Nat)]? = some 1 := by
  unfold unitOrder
  simp

theorem unitOrder_erase {d : Nat} (i : Fin d) : (unitOrder i).eraseIdx i = List.replicate (d-1) 0 := by
  refine List.eq_replicate_iff.2 ⟨by rw [List.length_eraseIdx]; simp [unitOrder], fun b hb => ?_⟩
  obtain ⟨k, hk, h1, h2⟩ := List.mem_eraseIdx_iff_getElem.1 hb
  rw [← h2]
  simp only [unitOrder, List.getElem_map, List.getElem_finRange]
  rw [if_neg]
  intro h
  rw [← h] at h1
  exact h1 rfl

/-- Integration by parts over the mesh, in one direction. -/
theorem green_field {ds : List (Direction Line)} (S : Setup g2 g3 false size procs axes (ds.map Direction.ax) Ls)
    (hx : ∀ δ ∈ ds, ExactRule (2 * δ.ax.p.toNat) δ.X δ.W) (i : Fin ds.length) (u v : List Int → ℝ) :
    ((indices (ds.map fun δ => δ.ax.nel)).map fun e => ((tensorPoints (lines ds e)).map fun pts =>
        (nodal (ds.map Direction.ax) u e (unitOrder i) (pts.map Pt.x) * nodal (ds.map Direction.ax) v e (List.replicate ds.length 0) (pts.map Pt.x) +
          nodal (ds.map Direction.ax) u e (List.replicate ds.length 0) (pts.map Pt.x) * nodal (ds.map Direction.ax) v e (unitOrder i) (pts.map Pt.x)) *
          ((pts.map Pt.J).prod * (pts.map Pt.w).prod)).sum).sum =
      ((indices ((ds.eraseIdx i).map fun δ => δ.ax.nel)).map fun e => ((tensorPoints (lines (ds.eraseIdx i) e)).map fun r =>
        (nodal (ds.map Direction.ax) u (onSide ds[i].ax i true e) (List.replicate ds.length 0) ((r.map Pt.x).insertIdx i (sideEnd ds[i].ax true)) *
            nodal (ds.map Direction.ax) v (onSide ds[i].ax i true e) (List.replicate ds.length 0) ((r.map Pt.x).insertIdx i (sideEnd ds[i].ax true)) -
          nodal (ds.map Direction.ax) u (onSide ds[i].ax i false e) (List.replicate ds.length 0) ((r.map Pt.x).insertIdx i (sideEnd ds[i].ax false)) *
            nodal (ds.map Direction.ax) v (onSide ds[i].ax i false e) (List.replicate ds.length 0) ((r.map Pt.x).insertIdx i (sideEnd ds[i].ax false))) *
          ((r.map Pt.J).prod * (r.map Pt.w).prod)).sum).sum := by
  obtain ⟨h1, h3, hw⟩ := setup_facts S
  rw [sum_mesh_elem ds i]
  have hi := i.isLt
  have hlen : (ds.eraseIdx i).length + 1 = ds.length := by rw [List.length_eraseIdx]; simp; omega
  congr 1
  refine List.map_congr_left fun e he => ?_
  have he := (mem_indices _ e).1 he
  have hel : e.length + 1 = ds.length := by rw [PetIGA.Grid.inBox_length he]; simpa using hlen
  congr 1
  refine List.map_congr_left fun r hr => ?_
  have hrl : r.length + 1 = ds.length := by
    have := (mem_tensorPoints hr).length_eq
    have hll : (lines (ds.eraseIdx i) e).length = e.length := by unfold lines; rw [List.length_zipWith]; omega
    omega
  let j : Fin (ds.map Direction.ax).length := ⟨i, by simp⟩
  have hj : (ds.map Direction.ax)[j] = ds[i].ax := by simp [j]
  have hwj : WF (ds.map Direction.ax)[j] := by rw [hj]; exact hw _ (by simp)
  have ho := setup_open S ds[i] (by simp)
  have n0 : ∀ (w : List Int → ℝ) (k : Int) (s : ℝ), nodal (ds.map Direction.ax) w (e.insertIdx i k) (List.replicate ds.length 0) ((r.map Pt.x).insertIdx i s) =
      (alongPoly (ds.map Direction.ax) j w e (r.map Pt.x) k 0).eval s := fun w k s =>
    nodal_along j w (by simpa using hel) (by simpa using hrl) k (by simp) (by simp [j]) (by simp [j, List.eraseIdx_replicate]) s
  have n1 : ∀ (w : List Int → ℝ) (k : Int) (s : ℝ), nodal (ds.map Direction.ax) w (e.insertIdx i k) (unitOrder i) ((r.map Pt.x).insertIdx i s) =
      (alongPoly (ds.map Direction.ax) j w e (r.map Pt.x) k 1).eval s := fun w k s =>
    nodal_along j w (by simpa using hel) (by simpa using hrl) k (by simp [unitOrder]) (unitOrder_get i) (by simpa using unitOrder_erase i) s
  set Q : Int → ℝ[X] := fun k => alongPoly (ds.map Direction.ax) j u e (r.map Pt.x) k 0 * alongPoly (ds.map Direction.ax) j v e (r.map Pt.x) k 0 with hQ
  have hder : ∀ k, derivative (Q k) = alongPoly (ds.map Direction.ax) j u e (r.map Pt.x) k 1 * alongPoly (ds.map Direction.ax) j v e (r.map Pt.x) k 0 +
      alongPoly (ds.map Direction.ax) j u e (r.map Pt.x) k 0 * alongPoly (ds.map Direction.ax) j v e (r.map Pt.x) k 1 := by
    intro k
    rw [hQ]
    simp only [derivative_mul, along_derivative]
  have e1 : ∀ (k : Int) (p : Pt Line),
      (nodal (ds.map Direction.ax) u (e.insertIdx i k) (unitOrder i) ((r.insertIdx i p).map Pt.x) *
          nodal (ds.map Direction.ax) v (e.insertIdx i k) (List.replicate ds.length 0) ((r.insertIdx i p).map Pt.x) +
        nodal (ds.map Direction.ax) u (e.insertIdx i k) (List.replicate ds.length 0) ((r.insertIdx i p).map Pt.x) *
          nodal (ds.map Direction.ax) v (e.insertIdx i k) (unitOrder i) ((r.insertIdx i p).map Pt.x)) *
        (((r.insertIdx i p).map Pt.J).prod * ((r.insertIdx i p).map Pt.w).prod) =
      ((derivative (Q k)).eval p.x * (p.J * p.w)) * ((r.map Pt.J).prod * (r.map Pt.w).prod) := by
    intro k p
    rw [map_insertIdx, map_insertIdx, map_insertIdx, List.prod_insertIdx (by simp; omega) (fun a _ => Commute.all _ _),
      List.prod_insertIdx (by simp; omega) (fun a _ => Commute.all _ _), n0, n0, n1, n1, hder]
    simp only [eval_add, eval_mul]
    ring
  simp only [e1, List.sum_map_mul_right]
  congr 1
  rw [line_match (hw _ (by simp)) ho (hx ds[i] (by simp)) Q]
  · unfold onSide
    rw [n0, n0, n0, n0]
    simp only [hQ, eval_mul]
  · intro e0
    have a := along_degree j u e (r.map Pt.x) e0
    have b := along_degree j v e (r.map Pt.x) e0
    rw [hj] at a b
    have c := natDegree_derivative_le (Q e0)
    have d : (Q e0).natDegree ≤ ds[i].ax.p.toNat + ds[i].ax.p.toNat := natDegree_mul_le.trans (by omega)
    omega
  · intro e0 b0 b1
    have a := along_match j hwj u e (r.map Pt.x) b0 (by rw [hj]; exact b1)
    have b := along_match j hwj v e (r.map Pt.x) b0 (by rw [hj]; exact b1)
    rw [hj] at a b
    simp only [hQ, eval_mul, a, b]

/-- **C121**, integration by parts with the fields the tables give: without geometry and without weights, for all nodal fields `u`, `v`, and
components `k`, `l`, the sum over all elements and points of `∂ᵢu v + u ∂ᵢv` times weight and Jacobian equals the sum over the sides, their
elements and points, of `u v nᵢ` times weight and Jacobian, if the rules integrate polynomials of twice the degree of the space. -/
theorem C121_by_parts {ds : List (Direction Line)} (S : Setup g2 g3 false size procs axes (ds.map Direction.ax) Ls)
    (hT : ∀ δ ∈ ds, δ.Tabulated) (hs : ∀ δ ∈ ds, IsSpline δ) (hper : ∀ δ ∈ ds, δ.ax.periodic = false)
    (hx : ∀ δ ∈ ds, ExactRule (2 * δ.ax.p.toNat) δ.X δ.W) (i : Fin ds.length) (u v : List Int → Nat → ℝ) (k l : Nat)
    (c : List Int → PtIn ds.length ds.length (Fin (nenOf (ds.map Direction.ax)))) (hc : ∀ e, FirstOrder (c e)) (hgeo : ∀ e, (c e).geometry = none)
    (mem : List Int → Nat → Tab ℝ ds.length ℕ × PtOut ds.length ds.length (Fin (nenOf (ds.map Direction.ax))))
    (qs : List Int → List (QP ℝ (PtData ds.length ds.length (nenOf (ds.map Direction.ax)))))
    (hqs : ∀ e, InBox (ds.map fun δ => δ.ax.nel) e → tabulateElement (c e) (ds.map Direction.B) e (mem e) = .ok (qs e))
    (cb : Fin ds.length → Bool → List Int → PtIn ds.length ds.length (Fin (nenOf (ds.map Direction.ax))))
    (hcb : ∀ a s e, (cb a s e).geometry = none ∧ (cb a s e).rational = none)
    (memb : Fin ds.length → Bool → List Int → Nat → Tab ℝ ds.length ℕ × PtOut ds.length ds.length (Fin (nenOf (ds.map Direction.ax))))
    (qb : Fin ds.length → Bool → List Int → List (QP ℝ (PtData ds.length ds.length (nenOf (ds.map Direction.ax)))))
    (hqb : ∀ (a : Fin ds.length) s e, InBox ((ds.eraseIdx a).map fun δ => δ.ax.nel) e →
      tabulateFace (cb a s e) (ds.map Direction.B) (ds.map fun d => endPoints d.ax) (onSide ds[a].ax a s e) a s (memb a s e) = .ok (qb a s e)) :
    ((indices (ds.map fun δ => δ.ax.nel)).map fun e => ((qs e).map fun q =>
        (combine (ds.map Direction.ax) e (q.data.shape.t1 i) u k * combine (ds.map Direction.ax) e q.data.shape.t0 v l +
          combine (ds.map Direction.ax) e q.data.shape.t0 u k * combine (ds.map Direction.ax) e (q.data.shape.t1 i) v l) *
          (q.detJac * q.weight)).sum).sum =
      ∑ a : Fin ds.length, ∑ s : Bool, ((indices ((ds.eraseIdx a).map fun δ => δ.ax.nel)).map fun e => ((qb a s e).map fun q =>
        (combine (ds.map Direction.ax) (onSide ds[a].ax a s e) q.data.shape.t0 u k *
          combine (ds.map Direction.ax) (onSide ds[a].ax a s e) q.data.shape.t0 v l * q.data.arrays.normal i) * (q.detJac * q.weight)).sum).sum := by
  obtain ⟨h1, h3, hw⟩ := setup_facts S
  have hw' : ∀ ax ∈ ds.map Direction.ax, WF ax ∧ ax.periodic = false := by
    intro ax hax
    obtain ⟨δ, hδ, rfl⟩ := List.mem_map.1 hax
    exact ⟨hw δ hδ, hper δ hδ⟩
  have el : ∀ e ∈ indices (ds.map fun δ => δ.ax.nel), ((qs e).map fun q =>
        (combine (ds.map Direction.ax) e (q.data.shape.t1 i) u k * combine (ds.map Direction.ax) e q.data.shape.t0 v l +
          combine (ds.map Direction.ax) e q.data.shape.t0 u k * combine (ds.map Direction.ax) e (q.data.shape.t1 i) v l) *
          (q.detJac * q.weight)).sum =
      ((tensorPoints (lines ds e)).map fun pts =>
        (nodal (ds.map Direction.ax) (fun z => u z k) e (unitOrder i) (pts.map Pt.x) * nodal (ds.map Direction.ax) (fun z => v z l) e (List.replicate ds.length 0) (pts.map Pt.x) +
          nodal (ds.map Direction.ax) (fun z => u z k) e (List.replicate ds.length 0) (pts.map Pt.x) * nodal (ds.map Direction.ax) (fun z => v z l) e (unitOrder i) (pts.map Pt.x)) *
          ((pts.map Pt.J).prod * (pts.map Pt.w).prod)).sum := by
    intro e he
    have he := (mem_indices _ e).1 he
    have heb : InBox ((ds.map Direction.ax).map Axis.nel) e := by rw [List.map_map]; exact he
    refine sum_forall2 (tabulated_list rfl h1 h3 hT hs hw (c e) he (hqs e he)) fun pts hp q hq => ?_
    obtain ⟨f1, f2, f3, f4⟩ := point_facts (hc e) (hgeo e) hq
    have hlen : (pts.map Pt.x).length = ds.length := by
      rw [List.length_map, ← (mem_tensorPoints hp).length_eq]
      simp [lines, PetIGA.Grid.inBox_length he]
    have g0 : ∀ (w : List Int → Nat → ℝ) (n : Nat), combine (ds.map Direction.ax) e q.data.shape.t0 w n =
        nodal (ds.map Direction.ax) (fun z => w z n) e (List.replicate ds.length 0) (pts.map Pt.x) := fun w n => by
      rw [(f4 w n).1]
      exact nodal_eq S hw' (fun z => w z n) heb (by simpa using hlen) (by simp)
    have g1 : ∀ (w : List Int → Nat → ℝ) (n : Nat), combine (ds.map Direction.ax) e (q.data.shape.t1 i) w n =
        nodal (ds.map Direction.ax) (fun z => w z n) e (unitOrder i) (pts.map Pt.x) := fun w n => by
      rw [(f4 w n).2 i]
      exact nodal_eq S hw' (fun z => w z n) heb (by simpa using hlen) (by simp [unitOrder])
    rw [g0, g0, g1, g1, f1, f2]
  rw [List.map_congr_left el, green_field S hx i]
  have side : ∀ (a : Fin ds.length) s, ((indices ((ds.eraseIdx a).map fun δ => δ.ax.nel)).map fun e => ((qb a s e).map fun q =>
        (combine (ds.map Direction.ax) (onSide ds[a].ax a s e) q.data.shape.t0 u k *
          combine (ds.map Direction.ax) (onSide ds[a].ax a s e) q.data.shape.t0 v l * q.data.arrays.normal i) * (q.detJac * q.weight)).sum).sum =
      ((indices ((ds.eraseIdx a).map fun δ => δ.ax.nel)).map fun e => ((tensorPoints (lines (ds.eraseIdx a) e)).map fun r =>
        (nodal (ds.map Direction.ax) (fun z => u z k) (onSide ds[a].ax a s e) (List.replicate ds.length 0) ((r.map Pt.x).insertIdx a (sideEnd ds[a].ax s)) *
          nodal (ds.map Direction.ax) (fun z => v z l) (onSide ds[a].ax a s e) (List.replicate ds.length 0) ((r.map Pt.x).insertIdx a (sideEnd ds[a].ax s)) *
            (if i = a then (if s then 1 else -1) else 0)) * ((r.map Pt.J).prod * (r.map Pt.w).prod)).sum).sum := by
    intro a s
    congr 1
    refine List.map_congr_left fun e he => ?_
    have he := (mem_indices _ e).1 he
    have ho := setup_open S ds[a] (by simp)
    have ha := a.isLt
    obtain ⟨-, sn0, sn1⟩ := sideElem_sp (hw ds[a] (by simp)) ho s
    have hel : e.length + 1 = ds.length := by
      rw [PetIGA.Grid.inBox_length he, List.length_map, List.length_eraseIdx]; simp; omega
    have hns : (ds.map fun δ => δ.ax.nel)[(a:Nat)]? = some ds[a].ax.nel := by simp
    have heB : InBox (ds.map fun δ => δ.ax.nel) (onSide ds[a].ax a s e) := inBox_insert hns (by rw [List.eraseIdx_map]; exact he) sn0 sn1
    have heB' : InBox ((ds.map Direction.ax).map Axis.nel) (onSide ds[a].ax a s e) := by rw [List.map_map]; exact heB
    have hse : (onSide ds[a].ax a s e)[(a:Nat)]? = some (sideElem ds[a].ax s) := insert_get _ _ _ (by omega)
    have val : ∀ q ∈ qb a s e, ∀ (w : List Int → Nat → ℝ) (n : Nat), combine (ds.map Direction.ax) (onSide ds[a].ax a s e) q.data.shape.t0 w n =
        nodal (ds.map Direction.ax) (fun z => w z n) (onSide ds[a].ax a s e) (List.replicate ds.length 0) q.data.u := by
      intro q hq w n
      obtain ⟨p1, -, -, p4⟩ := C119_points S hT hs (cb a s e) heB a s hse (hqb a s e he) q hq
      rw [← nodal_eq S hw' (fun z => w z n) heB' (by simpa using p1) (by simp)]
      unfold combine
      congr 1; refine List.map_congr_left fun t ht => ?_
      have hlt := flat_lt_nen (ds.map Direction.ax) ht
      have ht' := (mem_indices _ _).1 ht
      unfold ent
      rw [dif_pos hlt, p4 t ht' ⟨_, hlt⟩ (by
        have := (flat_range ht').1
        simp only; omega) (hcb a s e).2]
    rw [List.map_congr_left fun q hq => by rw [val q hq, val q hq]]
    rw [face_sum h1 h3 hT hs hw a s ho (cb a s e) (hcb a s e).1 he (hqb a s e he) fun x nrm =>
      nodal (ds.map Direction.ax) (fun z => u z k) (onSide ds[a].ax a s e) (List.replicate ds.length 0) x *
        nodal (ds.map Direction.ax) (fun z => v z l) (onSide ds[a].ax a s e) (List.replicate ds.length 0) x * nrm i]
    congr 1
    refine List.map_congr_left fun r _ => ?_
    have : (flatNormal a (if s then 1 else 0) : Fin ds.length → ℝ) i = if i = a then (if s then 1 else -1) else 0 := by
      by_cases h : i = a
      · subst h; cases s <;> simp [flatNormal]
      · simp [flatNormal, Fin.val_ne_of_ne h, h]
    rw [this]
  rw [Finset.sum_eq_single i]
  · rw [Fintype.sum_bool, side i true, side i false, ← List.sum_map_add]
    congr 1
    refine List.map_congr_left fun e _ => ?_
    rw [← List.sum_map_add]
    congr 1
    refine List.map_congr_left fun r _ => ?_
    simp
    ring
  · intro a _ ha
    rw [Fintype.sum_bool, side a true, side a false]
    simp [Ne.symm ha]
  · intro h; exact absurd (Finset.mem_univ i) h

/-! ### Example -/

/-- Boole's rule. -/
theorem boole_exact : ExactRule 4 [-1, -(1/2), 0, 1/2, 1] [7/45, 32/45, 12/45, 32/45, 7/45] := by
  refine exactRule_of_moments 4 _ _ fun k hk => ?_
  interval_cases k <;> norm_num [quadSum, moment]

noncomputable def exBoole (J : Bsp.Junk ℝ) : List (Direction Line) :=
  [exLine J [-1, -(1/2), 0, 1/2, 1] [7/45, 32/45, 12/45, 32/45, 7/45], exLine J [-1, -(1/2), 0, 1/2, 1] [7/45, 32/45, 12/45, 32/45, 7/45]]

theorem exBoole_ok (J) : ∀ δ ∈ exBoole J, δ.Tabulated ∧ IsSpline δ ∧ δ.ax.periodic = false ∧ ExactRule (2 * δ.ax.p.toNat) δ.X δ.W := by
  intro δ hδ
  simp only [exBoole, List.mem_cons, List.not_mem_nil, or_false, or_self] at hδ
  subst hδ
  exact ⟨exLine_tabulated J rfl (by simp) (by intro w hw; simp at hw; rcases hw with rfl | rfl | rfl | rfl | rfl <;> norm_num), fun k u => ⟨J, rfl⟩, rfl, boole_exact⟩

/-- `C121_by_parts` applies: two processes, 3 × 3 elements of degree 2, any two fields. -/
example (g2 : Guess2) (g3 : Guess3) (J : Bsp.Junk ℝ) (i : Fin (exBoole J).length) (u v : List Int → Nat → ℝ) :
    ∃ (qs : List Int → List (QP ℝ (PtData (exBoole J).length (exBoole J).length (nenOf ((exBoole J).map Direction.ax)))))
    (qb : Fin (exBoole J).length → Bool → List Int → List (QP ℝ (PtData (exBoole J).length (exBoole J).length (nenOf ((exBoole J).map Direction.ax))))),
    ((indices ((exBoole J).map fun δ => δ.ax.nel)).map fun e => ((qs e).map fun q =>
        (combine ((exBoole J).map Direction.ax) e (q.data.shape.t1 i) u 0 * combine ((exBoole J).map Direction.ax) e q.data.shape.t0 v 1 +
          combine ((exBoole J).map Direction.ax) e q.data.shape.t0 u 0 * combine ((exBoole J).map Direction.ax) e (q.data.shape.t1 i) v 1) *
          (q.detJac * q.weight)).sum).sum =
      ∑ a : Fin (exBoole J).length, ∑ s : Bool, ((indices (((exBoole J).eraseIdx a).map fun δ => δ.ax.nel)).map fun e => ((qb a s e).map fun q =>
        (combine ((exBoole J).map Direction.ax) (onSide (exBoole J)[a].ax a s e) q.data.shape.t0 u 0 *
          combine ((exBoole J).map Direction.ax) (onSide (exBoole J)[a].ax a s e) q.data.shape.t0 v 1 * q.data.arrays.normal i) * (q.detJac * q.weight)).sum).sum := by
  obtain ⟨Ls, S⟩ := exRealSetup g2 g3
  have S' : Setup g2 g3 false 2 [2,1] [exRealAx, exRealAx] ((exBoole J).map Direction.ax) Ls := S
  have hok := exBoole_ok J
  obtain ⟨h1, h3, hw⟩ := setup_facts S'
  let c : PtIn (exBoole J).length (exBoole J).length (Fin (nenOf ((exBoole J).map Direction.ax))) := ⟨1, none, none, none, false, true⟩
  let m0 : Nat → Tab ℝ (exBoole J).length Nat × PtOut (exBoole J).length (exBoole J).length (Fin (nenOf ((exBoole J).map Direction.ax))) := fun _ =>
    (⟨fun _ => 0, fun _ _ => 0, fun _ _ _ => 0, fun _ _ _ _ => 0, fun _ _ _ _ _ => 0⟩,
     ⟨⟨fun _ => 0, fun _ _ => 0, fun _ _ _ => 0, fun _ _ _ _ => 0, fun _ _ _ _ _ => 0⟩,
      ⟨fun _ => 0, fun _ _ => 0, fun _ _ _ => 0, fun _ _ _ _ => 0, fun _ _ _ _ _ => 0⟩, 0,
      ⟨fun _ => 0, fun _ _ => 0, fun _ _ _ => 0, fun _ _ _ _ => 0, fun _ _ _ _ _ => 0⟩,
      ⟨fun _ => 0, fun _ _ => 0, fun _ _ _ => 0, fun _ _ _ _ => 0, fun _ _ _ _ _ => 0⟩, 0, fun _ => 0, 0⟩)
  have htab : ∀ e, InBox ((exBoole J).map fun δ => δ.ax.nel) e → ∃ qs, tabulateElement c ((exBoole J).map Direction.B) e m0 = .ok qs := fun e he =>
    tabulateElement_ok rfl h1 h3 (fun δ h => (hok δ h).1) (fun δ h => (hok δ h).2.1) hw c (.inl rfl) he m0
  have hface : ∀ (a : Fin (exBoole J).length) s e, InBox (((exBoole J).eraseIdx a).map fun δ => δ.ax.nel) e → ∃ qs,
      tabulateFace c ((exBoole J).map Direction.B) ((exBoole J).map fun d => endPoints d.ax) (onSide (exBoole J)[a].ax a s e) a s m0 = .ok qs := by
    intro a s e he
    have ho := setup_open S' (exBoole J)[a] (by simp)
    obtain ⟨-, sn0, sn1⟩ := sideElem_sp (hw (exBoole J)[a] (by simp)) ho s
    have ha := a.isLt
    have hel : e.length + 1 = (exBoole J).length := by
      rw [PetIGA.Grid.inBox_length he, List.length_map, List.length_eraseIdx]; simp; omega
    obtain ⟨qs, h, -⟩ := tabulateFace_ok rfl h1 h3 (fun δ h => (hok δ h).1) (fun δ h => (hok δ h).2.1) hw c (.inl rfl)
      (inBox_insert (i := (a:Nat)) (show ((exBoole J).map fun δ => δ.ax.nel)[(a:Nat)]? = some (exBoole J)[a].ax.nel by simp) (by rw [List.eraseIdx_map]; exact he) sn0 sn1) m0
      (show (exBoole J)[(a:Nat)]? = some (exBoole J)[a] by simp) ho (insert_get _ _ _ (by omega))
    exact ⟨qs, h⟩
  choose! qs hqs using htab
  choose! qb hqb using hface
  exact ⟨qs, qb, C121_by_parts S' (fun δ h => (hok δ h).1) (fun δ h => (hok δ h).2.1) (fun δ h => (hok δ h).2.2.1) (fun δ h => (hok δ h).2.2.2) i u v 0 1
    (fun _ => c) (fun _ => ⟨le_refl _, rfl, rfl, rfl⟩) (fun _ => rfl) (fun _ => m0) qs hqs (fun _ _ _ => c) (fun _ _ _ => ⟨rfl, rfl⟩) (fun _ _ _ => m0) qb hqb⟩

end PetIGA.Itg
