import Verif.Props.RigidBodyEx
/-
Rigid body modes with periodic directions (C89).
-/
set_option linter.unusedSectionVars false
namespace PetIGA.Itg
open PetIGA.Quad PetIGA.Drv PetIGA.Spec PetIGA.Ax PetIGA.Lay PetIGA.Asm PetIGA.Rule PetIGA.Grid PetIGA.Part PetIGA.Ker PetIGA.PCA PetIGA.Crd
open Polynomial

variable {g2 : Guess2} {g3 : Guess3} {size : Int} {procs : List Int} {axes : List (Axis ℝ)} {Ls : List (Layout ℝ)}

/-! ### Translations -/

/-- **C89, translations**: a matrix assembled for a form that depends on the strain only annihilates all translations, with
periodic directions or not, with or without a geometry. -/
theorem C89_translations {ds : List (Direction Line)} (S : Setup g2 g3 false size procs axes (ds.map Direction.ax) Ls)
    (hT : ∀ δ ∈ ds, δ.Tabulated) (hs : ∀ δ ∈ ds, IsSpline δ) {nsd : Nat}
    {c : List Int → PtIn ds.length nsd (Fin (nenOf (ds.map Direction.ax)))} (hc : ∀ e, FirstOrder (c e))
    {elt : List Int → Elt ℝ (PtData ds.length nsd (nenOf (ds.map Direction.ax)))} (hI : Interior ds ds.length c elt)
    (hJ : ∀ e, InBox (ds.map fun δ => δ.ax.nel) e → ∀ q ∈ (elt e).points none, q.detJac ≠ 0)
    (cb : PtData ds.length nsd (nenOf (ds.map Direction.ax)) → (Int → ℝ) → Res (Int → ℝ)) (k)
    (hK : Fills (unknowns (ds.map Direction.ax) ds.length * unknowns (ds.map Direction.ax) ds.length) cb k)
    (hk : StrainOnly k) (hist) (pw) (w) :
    ∃ A, computeMatrix Ls hist ds.length ⟨elt, pw, w⟩ cb = .ok A ∧
      ∀ (v : Int → ℝ) (t : Nat → ℝ), (∀ z, InBox ((ds.map Direction.ax).map Axis.nnp) z → ∀ i < ds.length,
          v (Blk.unknown Ls (ds.map Direction.ax) ds.length z i) = t i) →
        ∀ i : Nat, i < total (ds.map Direction.ax) ds.length →
          ∑ j ∈ Finset.range (total (ds.map Direction.ax) ds.length), A ((i:Int), (j:Int)) * v j = 0 := by
  obtain ⟨h1, h3, hw⟩ := setup_facts S
  obtain ⟨A, hA, hM⟩ := gram_matrix S hI cb k hK hist pw w
  refine ⟨A, hA, fun v t hv i hi => ?_⟩
  have := global_form S ds.length _ A hM (fun j => if j = (i:Int) then 1 else 0) v
  rw [Finset.sum_eq_single_of_mem i (Finset.mem_range.2 hi) (fun j _ hj => Finset.sum_eq_zero fun l _ => by
    rw [if_neg (by exact_mod_cast hj)]; ring)] at this
  simp only [if_true, one_mul] at this
  rw [this]
  refine List.sum_eq_zero fun a ha => ?_
  obtain ⟨e, he, rfl⟩ := List.mem_map.1 ha
  have he' := (mem_indices _ _).1 he
  have he : InBox (ds.map fun δ => δ.ax.nel) e := by
    have := he'
    rw [List.map_map] at this; exact this
  obtain ⟨mem, hm⟩ := hI.points e he
  refine strain_elem (ds.map Direction.ax) hk _ _ _ e fun q hq i l => ?_
  have key : ∀ i l : Fin ds.length, combine (ds.map Direction.ax) e (q.data.shape.t1 i)
      (fun z c => v (Blk.unknown Ls (ds.map Direction.ax) ds.length z c)) l = 0 := fun i l =>
    const_gradient h1 h3 hT hs hw (c e) (hc e) he hm (hJ e he) _ l (t l)
      (fun s hs' => hv _ (nodeOf_inBox S he' ((mem_indices _ _).2 hs')) l l.2) q hq i
  rw [key, key, add_zero]

/-! ### Strain energy -/

/-- The form of an element at one point, as sums over functions and components. -/
theorem elemForm_fin {d nsd : Nat} (axs : List (Axis ℝ)) (k : PtData d nsd (nenOf axs) → Int → ℝ) (p : PtData d nsd (nenOf axs))
    (u v : List Int → Nat → ℝ) (e : List Int) :
    elemForm (unknowns axs d) (fun i j => k p ((i:Int) * unknowns axs d + j)) (valuesOf false axs d u e) (valuesOf false axs d v e) =
      ∑ b : Fin (nenOf axs), ∑ m : Fin d, u (nodeOf false axs e ((indices (nens axs)).getD b [])) m *
        ∑ a : Fin (nenOf axs), ∑ l : Fin d, k p ((((b:Nat) * d + m) * (nenOf axs * d) + ((a:Nat) * d + l) : Nat) : Int) *
          v (nodeOf false axs e ((indices (nens axs)).getD a [])) l := by
  rw [elemForm_slots, sum_fin_indices axs rfl]
  congr 1; refine List.map_congr_left fun s hs => ?_
  have hls := flat_lt_nen axs hs
  unfold ent
  rw [dif_pos hls, ← finset_list, Finset.sum_range]
  refine Finset.sum_congr rfl fun m _ => ?_
  dsimp only
  rw [getD_indices hs, sum_fin_indices axs rfl]
  congr 2; refine List.map_congr_left fun t ht => ?_
  have hlt := flat_lt_nen axs ht
  unfold ent
  rw [dif_pos hlt, ← finset_list, Finset.sum_range]
  refine Finset.sum_congr rfl fun l _ => ?_
  dsimp only
  rw [getD_indices ht]
  congr 2

theorem combine_fin_sum {n : Nat} (axs : List (Axis ℝ)) (hn : n = nenOf axs) (e : List Int) (g : Fin n → ℝ) (u : List Int → Nat → ℝ) (l : Nat) :
    combine axs e g u l = ∑ a : Fin n, u (nodeOf false axs e ((indices (nens axs)).getD a [])) l * g a := by
  rw [sum_fin_indices axs hn]
  unfold combine
  congr 1; refine List.map_congr_left fun t ht => ?_
  have hlt := flat_lt_nen axs ht
  subst hn
  unfold ent
  rw [dif_pos hlt, dif_pos hlt]
  dsimp only
  rw [getD_indices ht]

/-- The elastic energy of an element is the sum of the squares of the strains at its points. -/
theorem elastic_energy {d nsd : Nat} (axs : List (Axis ℝ)) (qs : List (QP ℝ (PtData d nsd (nenOf axs)))) (u : List Int → Nat → ℝ) (e : List Int) :
    elemForm (unknowns axs d) (fun i j => pointSum qs fun p => elastic p ((i:Int) * unknowns axs d + j)) (valuesOf false axs d u e)
      (valuesOf false axs d u e) = (qs.map fun q => (∑ i : Fin d, ∑ l : Fin d,
        (combine axs e (q.data.shape.t1 i) u l + combine axs e (q.data.shape.t1 l) u i) ^ 2) / 2 * (q.detJac * q.weight)).sum := by
  unfold pointSum
  rw [elemForm_sum _ qs (fun q i j => elastic q.data ((i:Int) * unknowns axs d + j) * (q.detJac * q.weight))]
  congr 1; refine List.map_congr_left fun q _ => ?_
  rw [elemForm_scale, elemForm_fin axs elastic]
  congr 1
  simp only [elastic_entry, combine_fin_sum axs rfl]
  set U : Fin (nenOf axs) → Fin d → ℝ := fun a l => u (nodeOf false axs e ((indices (nens axs)).getD a [])) l with hU
  set g := q.data.shape.t1
  set G : Fin d → Fin d → ℝ := fun i l => ∑ a, U a l * g i a with hG
  have hin : ∀ (b : Fin (nenOf axs)) (m : Fin d), ∑ a, ∑ l, ((if m = l then ∑ i, g i b * g i a else 0) + g l b * g m a) * U a l =
      ∑ i, g i b * (G i m + G m i) := by
    intro b m
    simp only [add_mul, Finset.sum_add_distrib, mul_add]
    congr 1
    · have : ∀ a : Fin (nenOf axs), ∑ l : Fin d, (if m = l then ∑ i, g i b * g i a else 0) * U a l = ∑ i, g i b * (U a m * g i a) := by
        intro a
        rw [Finset.sum_eq_single m (fun l _ h => by rw [if_neg (Ne.symm h), zero_mul]) (fun h => absurd (Finset.mem_univ _) h), if_pos rfl, Finset.sum_mul]
        exact Finset.sum_congr rfl fun i _ => by ring
      rw [Finset.sum_congr rfl fun a _ => this a, Finset.sum_comm]
      exact Finset.sum_congr rfl fun i _ => by rw [hG, Finset.mul_sum]
    · rw [Finset.sum_comm]
      refine Finset.sum_congr rfl fun i _ => ?_
      rw [hG, Finset.mul_sum]
      exact Finset.sum_congr rfl fun a _ => by ring
  show ∑ b, ∑ m, U b m * ∑ a, ∑ l, ((if m = l then ∑ i, g i b * g i a else 0) + g l b * g m a) * U a l =
    (∑ i, ∑ l, (G i l + G l i) ^ 2) / 2
  simp only [hin]
  have h1 : ∑ b, ∑ m, U b m * ∑ i, g i b * (G i m + G m i) = ∑ m, ∑ i, G i m * (G i m + G m i) := by
    rw [Finset.sum_comm]
    refine Finset.sum_congr rfl fun m _ => ?_
    simp only [Finset.mul_sum]
    rw [Finset.sum_comm]
    refine Finset.sum_congr rfl fun i _ => ?_
    rw [show G i m = ∑ a, U a m * g i a from rfl, Finset.sum_mul]
    exact Finset.sum_congr rfl fun b _ => by ring
  rw [h1]
  have h2 : ∑ i, ∑ l, (G i l + G l i) ^ 2 = ∑ i, ∑ l, G i l * (G i l + G l i) + ∑ i, ∑ l, G l i * (G l i + G i l) := by
    rw [← Finset.sum_add_distrib]
    refine Finset.sum_congr rfl fun i _ => ?_
    rw [← Finset.sum_add_distrib]
    exact Finset.sum_congr rfl fun l _ => by ring
  have h3 : ∑ i, ∑ l, G i l * (G i l + G l i) = ∑ m, ∑ i, G i m * (G i m + G m i) := Finset.sum_comm
  rw [h2, h3]
  ring

/-- A field in the null space of the elasticity matrix has no strain at the points. -/
theorem elastic_null {ds : List (Direction Line)} (S : Setup g2 g3 false size procs axes (ds.map Direction.ax) Ls)
    (hT : ∀ δ ∈ ds, δ.Tabulated) (hs : ∀ δ ∈ ds, IsSpline δ) {nsd : Nat}
    {c : List Int → PtIn ds.length nsd (Fin (nenOf (ds.map Direction.ax)))}
    {elt : List Int → Elt ℝ (PtData ds.length nsd (nenOf (ds.map Direction.ax)))} (hI : Interior ds ds.length c elt)
    (hJ : ∀ e, InBox (ds.map fun δ => δ.ax.nel) e → ∀ q ∈ (elt e).points none, 0 < q.detJac)
    (cb : PtData ds.length nsd (nenOf (ds.map Direction.ax)) → (Int → ℝ) → Res (Int → ℝ))
    (hK : Fills (unknowns (ds.map Direction.ax) ds.length * unknowns (ds.map Direction.ax) ds.length) cb elastic) (hist) (pw) (w) :
    ∃ A, computeMatrix Ls hist ds.length ⟨elt, pw, w⟩ cb = .ok A ∧
      ∀ v : Int → ℝ, (∀ i : Nat, i < total (ds.map Direction.ax) ds.length →
          ∑ j ∈ Finset.range (total (ds.map Direction.ax) ds.length), A ((i:Int), (j:Int)) * v j = 0) →
        ∀ e, InBox (ds.map fun δ => δ.ax.nel) e → ∀ q ∈ (elt e).points none, ∀ i l : Fin ds.length,
          combine (ds.map Direction.ax) e (q.data.shape.t1 i) (fun z c => v (Blk.unknown Ls (ds.map Direction.ax) ds.length z c)) l +
          combine (ds.map Direction.ax) e (q.data.shape.t1 l) (fun z c => v (Blk.unknown Ls (ds.map Direction.ax) ds.length z c)) i = 0 := by
  obtain ⟨A, hA, hM⟩ := gram_matrix S hI cb elastic hK hist pw w
  refine ⟨A, hA, fun v hv => ?_⟩
  have h0 := global_form S ds.length _ A hM v v
  rw [Finset.sum_eq_zero fun i hi => by
    have := hv i (Finset.mem_range.1 hi)
    calc ∑ j ∈ Finset.range (total (ds.map Direction.ax) ds.length), v i * A ((i:Int), (j:Int)) * v j
        = v i * ∑ j ∈ Finset.range (total (ds.map Direction.ax) ds.length), A ((i:Int), (j:Int)) * v j := by
          rw [Finset.mul_sum]; exact Finset.sum_congr rfl fun j _ => by ring
      _ = 0 := by rw [this, mul_zero]] at h0
  have hnn : ∀ e, InBox (ds.map fun δ => δ.ax.nel) e → ∀ q ∈ (elt e).points none, 0 ≤ (∑ i : Fin ds.length, ∑ l : Fin ds.length,
        (combine (ds.map Direction.ax) e (q.data.shape.t1 i) (fun z c => v (Blk.unknown Ls (ds.map Direction.ax) ds.length z c)) l +
          combine (ds.map Direction.ax) e (q.data.shape.t1 l) (fun z c => v (Blk.unknown Ls (ds.map Direction.ax) ds.length z c)) i) ^ 2) / 2 *
        (q.detJac * q.weight) := fun e he q hq =>
    mul_nonneg (div_nonneg (Finset.sum_nonneg fun i _ => Finset.sum_nonneg fun l _ => sq_nonneg _) (by norm_num))
      (mul_pos (hJ e he q hq) (weight_pos S hT hs hI he hq)).le
  have hmap : ∀ {e}, e ∈ indices ((ds.map Direction.ax).map Axis.nel) → InBox (ds.map fun δ => δ.ax.nel) e := by
    intro e he
    have := (mem_indices _ _).1 he
    rw [List.map_map] at this; exact this
  intro e he q hq i l
  have h1 := sum_zero_all (fun e he => by
    rw [elastic_energy]
    refine List.sum_nonneg fun x hx => ?_
    obtain ⟨q, hq, rfl⟩ := List.mem_map.1 hx
    exact hnn e (hmap he) q hq) h0.symm e ((mem_indices _ _).2 (by rw [List.map_map]; exact he))
  rw [elastic_energy] at h1
  have h2 := sum_zero_all (fun q hq => hnn e he q hq) h1 q hq
  have h3 := (mul_eq_zero.1 h2).resolve_right (mul_pos (hJ e he q hq) (weight_pos S hT hs hI he hq)).ne'
  have h4 := (div_eq_zero_iff.1 h3).resolve_right (by norm_num)
  have h5 := (Finset.sum_eq_zero_iff_of_nonneg fun i _ => Finset.sum_nonneg fun l _ => sq_nonneg _).1 h4 i (Finset.mem_univ _)
  exact pow_eq_zero_iff (by norm_num) |>.1 ((Finset.sum_eq_zero_iff_of_nonneg fun l _ => sq_nonneg _).1 h5 l (Finset.mem_univ _))

/-! ### Local coordinates -/

/-- The Greville point of function `j`, numbered without wrapping around. -/
noncomputable def grev (ax : Axis ℝ) (j : Int) : ℝ := knotSum ax.U ax.p.toNat j / ax.p

/-- On an element the Greville points of its functions reproduce the coordinate. -/
theorem greville_local (axs : List (Axis ℝ)) (e : List Int) (xs : List ℝ) {d : Nat} (hd : d = axs.length) (i l : Fin d) (hw : ∀ ax ∈ axs, WF ax)
    (he : InBox (axs.map Axis.nel) e) (hx : xs.length = axs.length) :
    ((indices (nens axs)).map fun t => grev (axs.get (l.cast hd)) (sp (axs.get (l.cast hd)) (e.getD l 0) - (axs.get (l.cast hd)).p + t.getD l 0) *
      evalProd (bpolys axs e (unitOrder i) t) xs).sum = if i = l then 1 else 0 := by
  set ax := axs.get (l.cast hd) with hax
  have hwa : WF ax := hw ax (List.get_mem _ _)
  have hp1 := hwa.legal.degree
  have hpR : (ax.p : ℝ) ≠ 0 := by exact_mod_cast (by omega : ax.p ≠ 0)
  set g : Nat → ℝ := fun r => knotSum ax.U ax.p.toNat (sp ax (e.getD l 0) - ax.p + r) / ax.p with hgdef
  have key := tensor_coord' axs e xs hd i l g hw he hx (by
    have h0 : 0 ≤ e.getD l 0 ∧ e.getD l 0 < ax.nel := inBox_getD he (l.cast hd)
    have hl := piece_linear ax.U (sp ax (e.getD l 0)) ax.p.toNat (sep_sp hwa h0.1 h0.2)
    have hpn : ((ax.p.toNat : Nat) : Int) = ax.p := by omega
    have hpc : ((ax.p.toNat : Nat) : ℝ[X]) = C (ax.p : ℝ) := by
      have : (ax.p : ℝ) = ((ax.p.toNat : Nat) : ℝ) := by exact_mod_cast hpn.symm
      rw [this]; exact (map_natCast C _).symm
    rw [hpc] at hl
    have hC : (C (ax.p : ℝ)⁻¹ : ℝ[X]) * C (ax.p : ℝ) = 1 := by rw [← C_mul, inv_mul_cancel₀ hpR, C_1]
    have e1 : ∀ r : Nat, C (g r) * bpoly ax (e.getD l 0) r = C (ax.p : ℝ)⁻¹ * (C (knotSum ax.U ax.p.toNat (sp ax (e.getD l 0) - ax.p.toNat + r)) *
        piece ax.U (sp ax (e.getD l 0)) ax.p.toNat (sp ax (e.getD l 0) - ax.p.toNat + r)) := by
      intro r
      rw [hgdef, hpn]
      dsimp only
      unfold bpoly
      rw [div_eq_mul_inv, C_mul]
      ring
    show ∑ r ∈ Finset.range (ax.p.toNat + 1), C (g r) * bpoly ax (e.getD l 0) r = Polynomial.X
    rw [Finset.sum_congr rfl fun r _ => e1 r, ← Finset.mul_sum, hl, ← mul_assoc, hC, one_mul])
  rw [← key]
  congr 1; refine List.map_congr_left fun t ht => ?_
  have ht' := (mem_indices _ _).1 ht
  have ht0 : 0 ≤ t.getD l 0 := by
    unfold InBox at ht'
    rw [List.forall₂_iff_get] at ht'
    by_cases hlt : (l:Nat) < t.length
    · have := ht'.2 l (by rw [ht'.1]; exact hlt) hlt
      rw [List.getD_eq_getElem?_getD, List.getElem?_eq_getElem hlt]
      exact this.1
    · rw [List.getD_eq_getElem?_getD, List.getElem?_eq_none (by omega)]; simp
  rw [hgdef]
  dsimp only
  rw [Int.toNat_of_nonneg ht0]
  rfl

/-- Without a geometry the derivatives at the points are those of the tensor product polynomials. -/
theorem combine_none {ds : List (Direction Line)} {nsd : Nat} {c : PtIn ds.length nsd (Fin (nenOf (ds.map Direction.ax)))} (hc : FirstOrder c)
    (hg : c.geometry = none) {e : List Int} {pts} {q} (h : PointOf ds c e pts q) (i : Fin ds.length) (u : List Int → Nat → ℝ) (k : Nat) :
    combine (ds.map Direction.ax) e (q.data.shape.t1 i) u k = ((indices (nens (ds.map Direction.ax))).map fun t =>
      u (nodeOf false (ds.map Direction.ax) e t) k * evalProd (bpolys (ds.map Direction.ax) e (unitOrder i) t) (pts.map Pt.x)).sum := by
  obtain ⟨N, m, o, hN, ho, rfl⟩ := h
  have hB : basisOf c N = N := by unfold basisOf; rw [hc.spline]
  unfold Ker.tabulate at ho
  rw [hc.interior, hB, hg] at ho
  simp only [Res.ok.injEq] at ho
  have hsh : (pointShape c o).t1 = N.t1 := by
    rw [← ho]; unfold pointShape; rw [hg]; simp
  dsimp only
  rw [hsh]
  unfold combine
  congr 1; refine List.map_congr_left fun t ht => ?_
  have hlt := flat_lt_nen (ds.map Direction.ax) ht
  have ht' := (mem_indices _ _).1 ht
  unfold ent
  rw [dif_pos hlt, (hN t ht' ⟨_, hlt⟩ (by
    have := (flat_range ht').1
    simp only; omega)).2 hc.order]

theorem nodeOf_mod : ∀ (axs : List (Axis ℝ)), (∀ ax ∈ axs, WF ax) → ∀ {e t : List Int}, InBox (axs.map Axis.nel) e →
    InBox (nens axs) t → ∀ c : Fin axs.length,
      (nodeOf false axs e t).getD c 0 = (sp (axs.get c) (e.getD c 0) - (axs.get c).p + t.getD c 0) % (axs.get c).nnp
  | [], _, _, _, _, _, c => c.elim0
  | ax :: axs, hw, _, _, he, ht, c => by
    rw [show nens (ax :: axs) = (ax.p + 1) :: nens axs from rfl] at ht
    cases he with
    | @cons _ e0 _ es he0 he =>
    cases ht with
    | @cons _ t0 _ ts ht0 ht =>
    rw [nodeOf_cons]
    refine Fin.cases ?_ (fun c' => ?_) c
    · simp only [Fin.val_zero, List.getD_cons_zero, List.get_eq_getElem, List.getElem_cons_zero]
      rw [firstNode_eq (hw ax (by simp)).toPreWF he0.1 he0.2]
    · simp only [Fin.val_succ, List.getD_cons_succ, List.get_eq_getElem, List.getElem_cons_succ]
      exact nodeOf_mod axs (fun a h => hw a (by simp [h])) he ht c'

/-- Coefficients on an element whose gradient is zero at the points are constant. -/
theorem local_const {ds : List (Direction Line)} (hT : ∀ δ ∈ ds, δ.Tabulated) (hw : ∀ δ ∈ ds, WF δ.ax) (hE : ∀ δ ∈ ds, Enough δ) {e : List Int}
    (he : InBox (ds.map fun δ => δ.ax.nel) e) (f : List Int → ℝ)
    (hz : ∀ pts ∈ tensorPoints (lines ds e), ∀ i : Fin ds.length, ((indices (nens (ds.map Direction.ax))).map fun t =>
      f t * evalProd (bpolys (ds.map Direction.ax) e (unitOrder i) t) (pts.map Pt.x)).sum = 0) :
    ∀ t t', InBox (nens (ds.map Direction.ax)) t → InBox (nens (ds.map Direction.ax)) t' → f t = f t' := by
  refine const_of_sets f fun t ht j hj => ?_
  have hj' : j < ds.length := by simpa [nens] using hj
  have hl : t.length = ds.length := by rw [PetIGA.Grid.inBox_length ht]; simp [nens]
  have key := tensor_independent ds e (unitOrder ⟨j, hj'⟩) hT hw hE he (by simp [unitOrder]) (by
      intro o ho
      obtain ⟨k, -, rfl⟩ := List.mem_map.1 ho
      split_ifs <;> omega) f (fun pts hp => hz pts hp ⟨j, hj'⟩) t ((mem_indices _ _).2 ht)
  rw [diffs_unit _ _ t hl] at key
  exact sub_eq_zero.1 key

/-- Greville points increase. -/
theorem grev_lt {ax : Axis ℝ} (h : WF ax) {i j : Int} (h0 : 0 ≤ i) (hij : i < j) (h1 : j ≤ ax.m - ax.p - 1) : grev ax i < grev ax j := by
  have hp := h.legal.degree
  have hpR : (0:ℝ) < ax.p := by exact_mod_cast (by omega : 0 < ax.p)
  have step : ∀ i : Int, 0 ≤ i → i + 1 ≤ ax.m - ax.p - 1 → grev ax i < grev ax (i+1) := by
    intro i h0 h1
    unfold grev
    refine div_lt_div_of_pos_right ?_ hpR
    obtain ⟨n, hn⟩ : ∃ n : Nat, ax.p.toNat = n + 1 := ⟨ax.p.toNat - 1, by omega⟩
    unfold knotSum
    rw [hn, Finset.sum_range_succ', Finset.sum_range_succ (fun j => ax.U (i + 1 + 1 + (j:Int)))]
    have h2 := h.legal.mult (i + 1) (by omega) (by omega)
    have e1 : ax.U (i + 1 + 1 + (n:Int)) = ax.U (i + 1 + ax.p) := by congr 1; omega
    rw [e1]
    have e2 : ∑ k ∈ Finset.range n, ax.U (i + 1 + ((k + 1 : Nat) : Int)) = ∑ k ∈ Finset.range n, ax.U (i + 1 + 1 + (k:Int)) :=
      Finset.sum_congr rfl fun k _ => by congr 1; push_cast; ring
    rw [e2]
    push_cast
    rw [add_zero]
    linarith
  obtain ⟨n, rfl⟩ : ∃ n : Nat, j = i + 1 + n := ⟨(j - i - 1).toNat, by omega⟩
  clear hij
  induction n with
  | zero => simpa using step i h0 (by simpa using h1)
  | succ n ih =>
    have h2 : i + 1 + (n:Int) + 1 ≤ ax.m - ax.p - 1 := by push_cast at h1; omega
    have := ih (by omega)
    have h3 := step (i + 1 + n) (by omega) h2
    push_cast
    rw [← add_assoc]
    exact this.trans h3

theorem inBox_set {ns z : List Int} (hz : InBox ns z) (a : Nat) (x : Int) (h : ∀ n, ns[a]? = some n → 0 ≤ x ∧ x < n) : InBox ns (z.set a x) := by
  unfold InBox at hz ⊢
  rw [List.forall₂_iff_get] at hz ⊢
  refine ⟨by simpa using hz.1, fun j h1 h2 => ?_⟩
  have h3 := hz.2 j h1 (by simpa using h2)
  simp only [List.get_eq_getElem, List.getElem_set] at h3 ⊢
  split_ifs with hj
  · subst hj
    exact h _ (List.getElem?_eq_getElem h1)
  · exact h3

theorem getD_set_self {z : List Int} {a : Nat} (h : a < z.length) (x : Int) : (z.set a x).getD a 0 = x := by
  rw [List.getD_eq_getElem?_getD, List.getElem?_set_self h]; rfl

/-- The first and the last interval of the domain are not empty (checked by the set-up, see C09). -/
def EndsOpen (ax : Axis ℝ) : Prop := ax.U ax.p < ax.U (ax.p+1) ∧ ax.U (ax.m-ax.p-1) < ax.U (ax.m-ax.p)

theorem nel_pos {ax : Axis ℝ} (h : WF ax) (ho : EndsOpen ax) : 0 < ax.nel := by
  have := h.legal.degree; have := h.legal.enough
  obtain ⟨i, h0, h1, e⟩ := mem_sp h.toPreWF (k := ax.p) ⟨le_refl _, by omega, ho.1⟩
  omega

/-- A field that depends on a periodic direction cannot have slope 1 everywhere. -/
theorem periodic_slope {ds : List (Direction Line)} (hT : ∀ δ ∈ ds, δ.Tabulated) (hw : ∀ δ ∈ ds, WF δ.ax) (hE : ∀ δ ∈ ds, Enough δ)
    (ho : ∀ δ ∈ ds, EndsOpen δ.ax) (a : Fin ds.length) (hper : (ds.get a).ax.periodic = true) (f : Int → ℝ)
    (hf : ∀ j : Int, 0 ≤ j → j < (ds.get a).ax.nnp → f j = grev (ds.get a).ax j)
    (hg : ∀ e, InBox (ds.map fun δ => δ.ax.nel) e → ∀ pts ∈ tensorPoints (lines ds e), ∀ i : Fin ds.length,
      ((indices (nens (ds.map Direction.ax))).map fun t => f ((nodeOf false (ds.map Direction.ax) e t).getD a 0) *
        evalProd (bpolys (ds.map Direction.ax) e (unitOrder i) t) (pts.map Pt.x)).sum = if i = a then 1 else 0) : False := by
  have hw' : ∀ ax ∈ ds.map Direction.ax, WF ax := by
    intro ax hax
    obtain ⟨δ, hδ, rfl⟩ := List.mem_map.1 hax
    exact hw δ hδ
  set a' : Fin (ds.map Direction.ax).length := a.cast (by simp) with ha'
  obtain ⟨ax, hax⟩ : ∃ ax, ax = (ds.get a).ax := ⟨_, rfl⟩
  have hget : (ds.map Direction.ax).get a' = ax := by rw [hax, ha']; simp
  rw [← hax] at hper hf
  have hwa : WF ax := by rw [hax]; exact hw _ (List.get_mem _ _)
  have hp := hwa.legal.degree
  have hm := hwa.legal.enough
  have hnn := nnp_bounds hwa
  have hoa : EndsOpen ax := by rw [hax]; exact ho _ (List.get_mem _ _)
  have hnel := nel_pos hwa hoa
  have hal : (a:Nat) < ds.length := a.2
  -- on every element: `f` minus the local coordinate is constant
  have key : ∀ n : Int, 0 ≤ n → n < ax.nel → ∀ r s : Int, 0 ≤ r → r ≤ ax.p → 0 ≤ s → s ≤ ax.p →
      f ((sp ax n - ax.p + r) % ax.nnp) - grev ax (sp ax n - ax.p + r) = f ((sp ax n - ax.p + s) % ax.nnp) - grev ax (sp ax n - ax.p + s) := by
    intro n n0 n1 r s r0 r1 s0 s1
    have hz0 : InBox (ds.map fun δ => δ.ax.nel) (ds.map fun _ => (0:Int)) := by
      unfold InBox
      rw [List.forall₂_map_left_iff, List.forall₂_map_right_iff, List.forall₂_same]
      exact fun δ hδ => ⟨le_refl _, nel_pos (hw δ hδ) (ho δ hδ)⟩
    have ht0 : InBox (nens (ds.map Direction.ax)) (ds.map fun _ => (0:Int)) := by
      unfold InBox nens
      rw [List.map_map, List.forall₂_map_left_iff, List.forall₂_map_right_iff, List.forall₂_same]
      exact fun δ hδ => ⟨le_refl _, by have := (hw δ hδ).legal.degree; simp only [Function.comp]; omega⟩
    set e := (ds.map fun _ => (0:Int)).set a n with he
    have hein : InBox (ds.map fun δ => δ.ax.nel) e := inBox_set hz0 a n fun m hm => by
      rw [List.getElem?_map, List.getElem?_eq_getElem hal] at hm
      simp only [Option.map_some, Option.some.injEq] at hm
      rw [← hm]
      have : (ds[(a:Nat)]).ax = ax := by rw [hax]; rfl
      rw [this]; exact ⟨n0, n1⟩
    have hein' : InBox ((ds.map Direction.ax).map Axis.nel) e := by rw [List.map_map]; exact hein
    have htin : ∀ r : Int, 0 ≤ r → r ≤ ax.p → InBox (nens (ds.map Direction.ax)) ((ds.map fun _ => (0:Int)).set a r) := fun r r0 r1 =>
      inBox_set ht0 a r fun m hm => by
        unfold nens at hm
        rw [List.map_map, List.getElem?_map, List.getElem?_eq_getElem hal] at hm
        simp only [Option.map_some, Option.some.injEq, Function.comp] at hm
        have : (ds[(a:Nat)]).ax = ax := by rw [hax]; rfl
        rw [this] at hm
        omega
    have hea : e.getD a 0 = n := getD_set_self (by simpa using hal) n
    have hc := local_const hT hw hE hein (fun t => f ((nodeOf false (ds.map Direction.ax) e t).getD a 0) -
        grev ax (sp ax (e.getD a 0) - ax.p + t.getD a 0)) (by
      intro pts hpts i
      have h1 := hg e hein pts hpts i
      have hlen : (pts.map Pt.x).length = (ds.map Direction.ax).length := by
        rw [List.length_map, List.length_map, ← (mem_tensorPoints hpts).length_eq]
        simp [lines, PetIGA.Grid.inBox_length hein]
      have h2 := greville_local (ds.map Direction.ax) e (pts.map Pt.x) (by simp : ds.length = _) i a hw' hein' hlen
      rw [show (ds.map Direction.ax).get (a.cast (by simp)) = ax from hget] at h2
      simp only [sub_mul]
      rw [list_sum_sub, h1, h2, sub_self])
    have := hc _ _ (htin r r0 r1) (htin s s0 s1)
    have hno : ∀ r : Int, 0 ≤ r → r ≤ ax.p → (nodeOf false (ds.map Direction.ax) e ((ds.map fun _ => (0:Int)).set a r)).getD a 0 =
        (sp ax n - ax.p + r) % ax.nnp := by
      intro r r0 r1
      have h := nodeOf_mod (ds.map Direction.ax) hw' hein' (htin r r0 r1) a'
      rw [hget] at h
      have e1 : (((ds.map fun _ => (0:Int)).set a r).getD a' 0) = r := getD_set_self (by simpa using hal) r
      rw [e1] at h
      rw [← hea]
      exact h
    simp only [hno r r0 r1, hno s s0 s1, hea, getD_set_self (show (a:Nat) < (ds.map fun _ => (0:Int)).length by simpa using hal)] at this
    exact this
  -- all elements have the same constant
  have chain : ∀ n : Nat, (n:Int) < ax.nel → f ((sp ax n - ax.p + 0) % ax.nnp) - grev ax (sp ax n - ax.p + 0) = f ((sp ax 0 - ax.p + 0) % ax.nnp) - grev ax (sp ax 0 - ax.p + 0) := by
    intro n
    induction n with
    | zero => intro _; rfl
    | succ n ih =>
      intro hn
      push_cast at hn
      have h1 := sp_step hwa.toPreWF (e := (n:Int)) (by omega) hn
      have h2 := sp_lt hwa.toPreWF (i := (n:Int)) (j := n + 1) (by omega) (by omega) hn
      rw [← ih (by omega), key n (by omega) (by omega) 0 (sp ax (n+1) - sp ax n) (le_refl _) (by omega) (by omega) (by omega)]
      push_cast
      rw [show sp ax n - ax.p + (sp ax (n+1) - sp ax n) = sp ax (n+1) - ax.p + 0 by ring]
  have first : sp ax 0 = ax.p := sp_first hwa.toPreWF (by omega) hoa.1
  have last : sp ax (ax.nel - 1) = ax.m - ax.p - 1 := sp_last hwa.toPreWF (by omega) hoa.2
  have c0 := hf 0 (le_refl _) (by omega)
  have hl := chain (ax.nel - 1).toNat (by omega)
  rw [Int.toNat_of_nonneg (by omega), ← key (ax.nel - 1) (by omega) (by omega) ax.p 0 (by omega) (le_refl _) (le_refl _) (by omega), last, first] at hl
  simp only [sub_self, add_zero, Int.zero_emod, sub_add_cancel, c0] at hl
  have hpos := hnn.2.2.2 hper
  have hmod0 := Int.emod_nonneg (ax.m - ax.p - 1) (show ax.nnp ≠ 0 by omega)
  have hmod1 := Int.emod_lt_of_pos (ax.m - ax.p - 1) (show 0 < ax.nnp by omega)
  rw [hf _ hmod0 hmod1] at hl
  have := grev_lt hwa hmod0 (j := ax.m - ax.p - 1) (by omega) (le_refl _)
  linarith

/-- The rotation in the plane of two directions is among the modes, up to its sign. -/
theorem mode_plane {axs : List (Axis ℝ)} {Ls : List (Layout ℝ)} {d : Nat} (h3 : d ≤ 3) {x : Int → ℝ} {X : List Int → Nat → ℝ}
    (hX : Represents axs Ls d x X) (a b : Fin d) (hab : a ≠ b) :
    ∃ m ∈ rigidModes d x, ∃ σ : ℝ, σ ≠ 0 ∧ ∀ z, InBox (axs.map Axis.nnp) z → ∀ i : Fin d,
      m (Blk.unknown Ls axs d z i) = if i = a then σ * X z b else if i = b then -σ * X z a else 0 := by
  have hx : ∀ z, InBox (axs.map Axis.nnp) z → ∀ j : Nat, j < d → ∀ k : Int, k = Blk.unknown Ls axs d z j → x k = X z j := by
    intro z hz j hj k hk
    rw [hk, ← hX z j hz hj]
    rfl
  have hun : ∀ (z : List Int) (j : Nat), ∃ n : Int, ∀ j : Nat, Blk.unknown Ls axs d z j = d * n + j := fun z _ => ⟨_, fun _ => rfl⟩
  have h1 : 1 ≤ d := by have := a.2; omega
  have two : ∀ m : Int → ℝ, m ∈ rigidModes d x → ∀ (a b : Fin d), a ≠ b → (∃ σ : ℝ, σ ≠ 0 ∧ ∀ z, InBox (axs.map Axis.nnp) z → ∀ i : Fin d,
      m (Blk.unknown Ls axs d z i) = if i = a then σ * X z b else if i = b then -σ * X z a else 0) →
      (∃ m ∈ rigidModes d x, ∃ σ : ℝ, σ ≠ 0 ∧ ∀ z, InBox (axs.map Axis.nnp) z → ∀ i : Fin d,
      m (Blk.unknown Ls axs d z i) = if i = a then σ * X z b else if i = b then -σ * X z a else 0) ∧
      (∃ m ∈ rigidModes d x, ∃ σ : ℝ, σ ≠ 0 ∧ ∀ z, InBox (axs.map Axis.nnp) z → ∀ i : Fin d,
      m (Blk.unknown Ls axs d z i) = if i = b then σ * X z a else if i = a then -σ * X z b else 0) := by
    rintro m hm a b hab ⟨σ, h0, h⟩
    refine ⟨⟨m, hm, σ, h0, h⟩, ⟨m, hm, -σ, neg_ne_zero.2 h0, fun z hz i => ?_⟩⟩
    rw [h z hz i]
    by_cases ha : i = a
    · rw [if_pos ha, if_neg (by rw [ha]; exact hab), if_pos ha, neg_neg]
    · rw [if_neg ha, if_neg ha]
  interval_cases d
  · exact absurd (Subsingleton.elim a b) hab
  · have h01 := two (fun i => if i % 2 = 0 then -x (i+1) else x (i-1)) (by simp [rigidModes]) 0 1 (by decide) ⟨-1, by norm_num, fun z hz i => by
      obtain ⟨n, hn⟩ := hun z 0
      rw [hn]
      have x0 := hx z hz 0 (by omega) (2 * n) (by rw [hn]; norm_num)
      have x1 := hx z hz 1 (by omega) (2 * n + 1) (by rw [hn]; norm_num)
      have r1 : (2 * n + 1) % 2 = 1 := by omega
      fin_cases i <;> simp [x0, x1, r1]⟩
    fin_cases a <;> fin_cases b
    · exact absurd rfl hab
    · exact h01.1
    · exact h01.2
    · exact absurd rfl hab
  · have vals : ∀ z, InBox (axs.map Axis.nnp) z → ∃ n : Int, (∀ j : Nat, Blk.unknown Ls axs 3 z j = (3:Nat) * n + j) ∧ x (3 * n) = X z 0 ∧
        x (3 * n + 1) = X z 1 ∧ x (3 * n + 2) = X z 2 := by
      intro z hz
      obtain ⟨n, hn⟩ := hun z 0
      exact ⟨n, hn, hx z hz 0 (by omega) (3 * n) (by rw [hn]; norm_num), hx z hz 1 (by omega) (3 * n + 1) (by rw [hn]; norm_num),
        hx z hz 2 (by omega) (3 * n + 2) (by rw [hn]; norm_num)⟩
    have r1 : ∀ n : Int, (3 * n + 1) % 3 = 1 := by omega
    have r2 : ∀ n : Int, (3 * n + 2) % 3 = 2 := by omega
    have s1 : ∀ n : Int, 3 * n + 1 + 1 = 3 * n + 2 := by intro n; ring
    have s2 : ∀ n : Int, 3 * n + 2 - 1 = 3 * n + 1 := by intro n; ring
    have h01 := two (fun i => if i % 3 = 0 then x (i+1) else if i % 3 = 1 then -x (i-1) else 0) (by simp [rigidModes]) 0 1 (by decide)
      ⟨1, by norm_num, fun z hz i => by
        obtain ⟨n, hn, x0, x1, x2⟩ := vals z hz
        rw [hn]
        fin_cases i <;> simp [x0, x1, x2, r1, r2, s1, s2]⟩
    have h12 := two (fun i => if i % 3 = 1 then -x (i+1) else if i % 3 = 2 then x (i-1) else 0) (by simp [rigidModes]) 1 2 (by decide)
      ⟨-1, by norm_num, fun z hz i => by
        obtain ⟨n, hn, x0, x1, x2⟩ := vals z hz
        rw [hn]
        fin_cases i <;> simp [x0, x1, x2, r1, r2, s1, s2]⟩
    have h02 := two (fun i => if i % 3 = 0 then x (i+2) else if i % 3 = 2 then -x (i-2) else 0) (by simp [rigidModes]) 0 2 (by decide)
      ⟨1, by norm_num, fun z hz i => by
        obtain ⟨n, hn, x0, x1, x2⟩ := vals z hz
        rw [hn]
        fin_cases i <;> simp [x0, x1, x2, r1, r2, s1, s2]⟩
    fin_cases a <;> fin_cases b
    · exact absurd rfl hab
    · exact h01.1
    · exact h02.1
    · exact h01.2
    · exact absurd rfl hab
    · exact h12.1
    · exact h02.2
    · exact h12.2
    · exact absurd rfl hab

/-- **C89, refuted for periodic directions**: without a geometry, with one direction periodic and another one not, one of the vectors of
`IGACreateRigidBody` (the rotation in their plane) is not in the null space of the elasticity matrix: it jumps where the direction closes. -/
theorem C89_periodic_refuted {ds : List (Direction Line)} (S : Setup g2 g3 false size procs axes (ds.map Direction.ax) Ls)
    (hT : ∀ δ ∈ ds, δ.Tabulated) (hs : ∀ δ ∈ ds, IsSpline δ) (hE : ∀ δ ∈ ds, Enough δ) (a b : Fin ds.length)
    (ha : (ds.get a).ax.periodic = true) (hb : (ds.get b).ax.periodic = false) {nsd : Nat}
    {c : List Int → PtIn ds.length nsd (Fin (nenOf (ds.map Direction.ax)))} (hc : ∀ e, FirstOrder (c e)) (hg : ∀ e, (c e).geometry = none)
    {elt : List Int → Elt ℝ (PtData ds.length nsd (nenOf (ds.map Direction.ax)))} (hI : Interior ds ds.length c elt)
    (cb : PtData ds.length nsd (nenOf (ds.map Direction.ax)) → (Int → ℝ) → Res (Int → ℝ))
    (hK : Fills (unknowns (ds.map Direction.ax) ds.length * unknowns (ds.map Direction.ax) ds.length) cb elastic)
    (hist) (pw) (w) (huge : ℝ) (xyz : Nat → Option (List ℝ)) :
    ∃ ms A, createRigidBody huge (ds.map fun _ => .bspline) 0 ds.length Ls xyz = .ok ms ∧
      computeMatrix Ls hist ds.length ⟨elt, pw, w⟩ cb = .ok A ∧
      ∃ m ∈ ms, ∃ i : Nat, i < total (ds.map Direction.ax) ds.length ∧
        ∑ j ∈ Finset.range (total (ds.map Direction.ax) ds.length), A ((i:Int), (j:Int)) * m j ≠ 0 := by
  obtain ⟨h1, h3, hw⟩ := setup_facts S
  have hw' := Prb.setup_wf S
  have hab : a ≠ b := by rintro rfl; rw [ha] at hb; exact absurd hb (by simp)
  have ho : ∀ δ ∈ ds, EndsOpen δ.ax := fun δ hδ => (S.cond δ.ax (List.mem_map_of_mem hδ)).1 rfl
  obtain ⟨outs, X, o1, -, o2, o3⟩ := C50_parametric S huge (ds.map fun _ => .bspline) (by
    rw [List.forall₂_map_left_iff, List.forall₂_map_right_iff, List.forall₂_same]
    exact fun δ hδ => ⟨(S.cond δ.ax (List.mem_map_of_mem hδ)).1 rfl, by simp⟩) 0 xyz (.inl rfl)
  have hnsd : nsdOf (ds.map Direction.ax).length 0 = ds.length := by
    unfold nsdOf
    rw [List.length_map]; omega
  have hnsd' : nsdOf ds.length 0 = ds.length := by unfold nsdOf; omega
  rw [hnsd] at o2
  have hJ : ∀ e, InBox (ds.map fun δ => δ.ax.nel) e → ∀ q ∈ (elt e).points none, 0 < q.detJac := by
    intro e he q hq
    obtain ⟨mem, hm⟩ := hI.points e he
    obtain ⟨pts, hp, N, m, o, -, ho, rfl⟩ := (tabulated_points rfl h1 h3 hT hs hw (c e) he mem hm).2 q hq
    exact detJac_pos ho (lines_J hw he (mem_tensorPoints hp)) (hc e).interior (.inl (hg e))
  have hN : ∀ z, InBox ((ds.map Direction.ax).map Axis.nnp) z → ∀ l : Fin ds.length, X z l = grev (ds.get l).ax (z.getD l 0) := by
    intro z hz l
    have hl : (l:Nat) < ds.length := l.2
    have hlz : z.length = ds.length := by rw [PetIGA.Grid.inBox_length hz]; simp
    have := ((o3 z hz).1 l (ds.get l).ax .bspline (z.getD l 0) (by simp) (by simp [hl]) (by
      rw [List.getD_eq_getElem?_getD, List.getElem?_eq_getElem (by omega)]; rfl)).1 (by simp)
    have hpR : ((ds.get l).ax.p : ℝ) ≠ 0 := by
      have := (hw _ (List.get_mem ds l)).legal.degree
      exact_mod_cast (by omega : (ds.get l).ax.p ≠ 0)
    unfold grev
    rw [eq_div_iff hpR, mul_comm, this]
    simp [shiftOf, knotSum]
  obtain ⟨A, a1, a2⟩ := elastic_null S hT hs hI hJ cb hK hist pw w
  obtain ⟨m, hm, σ, hσ, hval⟩ := mode_plane h3 o2 a b hab
  refine ⟨_, A, by unfold createRigidBody; rw [o1]; rfl, a1, m, by rw [hnsd']; exact hm, ?_⟩
  by_contra hcon
  push Not at hcon
  have hstr := a2 m hcon
  refine periodic_slope hT hw hE ho a ha (grev (ds.get a).ax) (fun _ _ _ => rfl) fun e he pts hpts i => ?_
  have he' : InBox ((ds.map Direction.ax).map Axis.nel) e := by rw [List.map_map]; exact he
  obtain ⟨mem, hmm⟩ := hI.points e he
  obtain ⟨q, hq, hqp⟩ := (tabulated_points rfl h1 h3 hT hs hw (c e) he mem hmm).1 pts hpts
  have hlen : (pts.map Pt.x).length = (ds.map Direction.ax).length := by
    rw [List.length_map, List.length_map, ← (mem_tensorPoints hpts).length_eq]
    simp [lines, PetIGA.Grid.inBox_length he]
  set v : List Int → Nat → ℝ := fun z c => m (Blk.unknown Ls (ds.map Direction.ax) ds.length z c) with hv
  have hcomb : ∀ i l : Fin ds.length, combine (ds.map Direction.ax) e (q.data.shape.t1 i) v l = ((indices (nens (ds.map Direction.ax))).map fun t =>
      (if l = a then σ * X (nodeOf false (ds.map Direction.ax) e t) b else if l = b then -σ * X (nodeOf false (ds.map Direction.ax) e t) a else 0) *
        evalProd (bpolys (ds.map Direction.ax) e (unitOrder i) t) (pts.map Pt.x)).sum := by
    intro i l
    rw [combine_none (hc e) (hg e) hqp]
    congr 1; refine List.map_congr_left fun t ht => ?_
    rw [show v (nodeOf false (ds.map Direction.ax) e t) l = _ from hval _ (nodeOf_inBox S he' ht) l]
  -- the component of the periodic direction
  have hA : ∀ i : Fin ds.length, combine (ds.map Direction.ax) e (q.data.shape.t1 i) v a = if i = b then σ else 0 := by
    intro i
    rw [hcomb i a]
    have hgl := greville_local (ds.map Direction.ax) e (pts.map Pt.x) (by simp : ds.length = _) i b hw' he' hlen
    have hget : (ds.map Direction.ax).get (b.cast (by simp)) = (ds.get b).ax := by simp
    have : ∀ t ∈ indices (nens (ds.map Direction.ax)), (if a = a then σ * X (nodeOf false (ds.map Direction.ax) e t) b else if a = b then -σ * X (nodeOf false (ds.map Direction.ax) e t) a else 0) *
        evalProd (bpolys (ds.map Direction.ax) e (unitOrder i) t) (pts.map Pt.x) = σ * (grev ((ds.map Direction.ax).get (b.cast (by simp)))
          (sp ((ds.map Direction.ax).get (b.cast (by simp))) (e.getD b 0) - ((ds.map Direction.ax).get (b.cast (by simp))).p + t.getD b 0) *
          evalProd (bpolys (ds.map Direction.ax) e (unitOrder i) t) (pts.map Pt.x)) := by
      intro t ht
      have ht' := (mem_indices _ _).1 ht
      have hno := nodeOf_mod (ds.map Direction.ax) hw' he' ht' (b.cast (by simp))
      rw [if_pos rfl, hN _ (nodeOf_inBox S he' ht) b]
      rw [hget] at hno ⊢
      have e0 := inBox_getD he' (b.cast (by simp))
      rw [hget] at e0
      have t0 : 0 ≤ t.getD b 0 ∧ t.getD b 0 ≤ (ds.get b).ax.p := by
        unfold InBox nens at ht'
        rw [List.map_map, List.forall₂_map_left_iff, List.forall₂_iff_get] at ht'
        have hbt : (b:Nat) < t.length := by rw [← ht'.1]; exact b.2
        have := ht'.2 b b.2 hbt
        rw [List.getD_eq_getElem?_getD, List.getElem?_eq_getElem hbt]
        have h2 := this.2
        simp only [Function.comp] at h2
        exact ⟨this.1, Int.lt_add_one_iff.1 h2⟩
      have hwb := hw _ (List.get_mem ds b)
      obtain ⟨b1, b2, b3⟩ := sp_elem hwb.toPreWF e0.1 e0.2
      have hn : (ds.get b).ax.nnp = (ds.get b).ax.m - (ds.get b).ax.p := (nnp_bounds hwb).2.2.1 hb
      have hc1 : ((b.cast (by simp) : Fin (ds.map Direction.ax).length) : Nat) = b := rfl
      rw [hc1] at hno e0 b1 b2 b3
      rw [hno, hn, Int.emod_eq_of_lt (by omega) (by omega)]
      ring
    rw [List.map_congr_left this, List.sum_map_mul_left, hgl]
    split_ifs <;> simp
  have hB : combine (ds.map Direction.ax) e (q.data.shape.t1 i) v b = if i = a then -σ else 0 := by
    have h := hstr e he q hq i b
    by_cases hia : i = a
    · subst hia
      rw [if_pos rfl]
      rw [hA b, if_pos rfl] at h
      linarith
    · rw [if_neg hia]
      by_cases hib : i = b
      · subst hib; linarith
      · have h0 : combine (ds.map Direction.ax) e (q.data.shape.t1 b) v i = 0 := by
          rw [hcomb b i]
          simp [hia, hib]
        rw [h0, add_zero] at h
        exact h
  rw [hcomb i b] at hB
  have hfin : ∀ t ∈ indices (nens (ds.map Direction.ax)), (if b = a then σ * X (nodeOf false (ds.map Direction.ax) e t) b else if b = b then -σ * X (nodeOf false (ds.map Direction.ax) e t) a else 0) *
        evalProd (bpolys (ds.map Direction.ax) e (unitOrder i) t) (pts.map Pt.x) = -σ * (grev (ds.get a).ax ((nodeOf false (ds.map Direction.ax) e t).getD a 0) *
          evalProd (bpolys (ds.map Direction.ax) e (unitOrder i) t) (pts.map Pt.x)) := by
    intro t ht
    rw [if_neg (Ne.symm hab), if_pos rfl, hN _ (nodeOf_inBox S he' ht) a]
    ring
  rw [List.map_congr_left hfin, List.sum_map_mul_left] at hB
  have hσ' : -σ ≠ 0 := neg_ne_zero.2 hσ
  apply mul_left_cancel₀ hσ'
  rw [hB]
  split_ifs <;> simp

end PetIGA.Itg
