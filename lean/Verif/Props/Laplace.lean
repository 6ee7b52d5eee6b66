import Verif.Props.Mass
import Verif.Props.BoundaryValue
import Verif.Props.Det
/-
Matrices of forms that contain the gradient: zero energy means constant, and with Dirichlet conditions positive definite.
-/
set_option linter.unusedSectionVars false
namespace PetIGA.Itg
open PetIGA.Quad PetIGA.Drv PetIGA.Spec PetIGA.Ax PetIGA.Lay PetIGA.Asm PetIGA.Rule PetIGA.Grid PetIGA.Part PetIGA.Ker PetIGA.PCA
open Polynomial

/-! ### Constant on every element means constant -/

theorem nodeOf_cons {K : Type} [Field K] [LinearOrder K] [IsStrictOrderedRing K] (ax : Axis K) (axs : List (Axis K)) (e t : Int) (es ts : List Int) :
    nodeOf false (ax :: axs) (e :: es) (t :: ts) = (firstNode false ax e + t) % ax.nnp :: nodeOf false axs es ts := rfl

/-- Neighbouring elements share a function, so a function of the nodes that is constant on every element is constant. -/
theorem connected {K : Type} [Field K] [LinearOrder K] [IsStrictOrderedRing K] {α : Type} : ∀ (axs : List (Axis K)), (∀ ax ∈ axs, WF ax) → ∀ (f : List Int → α),
    (∀ e, InBox (axs.map Axis.nel) e → ∀ t t', InBox (nens axs) t → InBox (nens axs) t' → f (nodeOf false axs e t) = f (nodeOf false axs e t')) →
    ∀ e e', InBox (axs.map Axis.nel) e → InBox (axs.map Axis.nel) e' → ∀ t t', InBox (nens axs) t → InBox (nens axs) t' →
      f (nodeOf false axs e t) = f (nodeOf false axs e' t')
  | [], _, f, _, _, _, he, he', _, _, ht, ht' => by cases he; cases he'; cases ht; cases ht'; rfl
  | ax :: axs, hw, f, hf, _, _, he, he', _, _, ht, ht' => by
    have hn : nens (ax :: axs) = (ax.p + 1) :: nens axs := rfl
    rw [hn] at ht ht' hf
    cases he with
    | @cons _ e0 _ es he0 he =>
    cases he' with
    | @cons _ e0' _ es' he0' he' =>
    cases ht with
    | @cons _ t0 _ ts ht0 ht =>
    cases ht' with
    | @cons _ t0' _ ts' ht0' ht' =>
    have h := hw ax (by simp)
    have hp := h.legal.degree
    have tail := connected axs (fun a ha => hw a (by simp [ha])) (fun zs => f ((firstNode false ax e0 + t0) % ax.nnp :: zs))
      (fun e he t t' ht ht' => hf (e0 :: e) (.cons he0 he) (t0 :: t) (t0 :: t') (.cons ht0 ht) (.cons ht0 ht')) es es' he he' ts ts' ht ht'
    rw [nodeOf_cons, nodeOf_cons]
    refine tail.trans ?_
    -- along the first direction
    have same : ∀ e : Int, 0 ≤ e → e < ax.nel → ∀ a b : Int, 0 ≤ a → a < ax.p + 1 → 0 ≤ b → b < ax.p + 1 →
        f ((firstNode false ax e + a) % ax.nnp :: nodeOf false axs es' ts') = f ((firstNode false ax e + b) % ax.nnp :: nodeOf false axs es' ts') :=
      fun e e0 e1 a b a0 a1 b0 b1 => hf (e :: es') (.cons ⟨e0, e1⟩ he') (a :: ts') (b :: ts') (.cons ⟨a0, a1⟩ ht') (.cons ⟨b0, b1⟩ ht')
    have walk : ∀ n : Nat, (n:Int) < ax.nel → f ((firstNode false ax n + 0) % ax.nnp :: nodeOf false axs es' ts') =
        f ((firstNode false ax 0 + 0) % ax.nnp :: nodeOf false axs es' ts') := by
      intro n
      induction n with
      | zero => intro _; rfl
      | succ n ih =>
        intro hn
        push_cast at hn
        have h1 := gal_next_le h.toPreWF (e := (n:Int)) (by omega) (by omega)
        have h2 := sp_lt h.toPreWF (i := (n:Int)) (j := n + 1) (by omega) (by omega) hn
        have g1 := firstNode_eq h.toPreWF (e := (n:Int)) (by omega) (by omega)
        have g2 := firstNode_eq h.toPreWF (e := (n:Int) + 1) (by omega) hn
        rw [← ih (by omega), same n (by omega) (by omega) 0 (sp ax (n+1) - sp ax n) (le_refl _) (by omega) (by omega) (by omega)]
        congr 2
        push_cast
        rw [g1, g2]
        congr 1
        ring
    rw [same e0 he0.1 he0.2 t0 0 ht0.1 ht0.2 (le_refl _) (by omega), same e0' he0'.1 he0'.2 t0' 0 ht0'.1 ht0'.2 (le_refl _) (by omega)]
    have w1 := walk e0.toNat (by have := he0.1; have := he0.2; omega)
    have w2 := walk e0'.toNat (by have := he0'.1; have := he0'.2; omega)
    rw [Int.toNat_of_nonneg he0.1] at w1
    rw [Int.toNat_of_nonneg he0'.1] at w2
    rw [w1, w2]

/-! ### Zero gradient at the points means constant on the element -/

theorem unitOrder_zero (d : Nat) : unitOrder (0 : Fin (d+1)) = 1 :: List.replicate d 0 := by
  unfold unitOrder
  rw [List.finRange_succ, List.map_cons, List.map_map]
  simp only [if_true, List.cons.injEq, true_and]
  rw [List.eq_replicate_iff]
  refine ⟨by simp, fun b hb => ?_⟩
  obtain ⟨k, -, rfl⟩ := List.mem_map.1 hb
  simp [Fin.succ_ne_zero]

theorem unitOrder_succ {d : Nat} (i : Fin d) : unitOrder i.succ = 0 :: unitOrder i := by
  unfold unitOrder
  rw [List.finRange_succ, List.map_cons, List.map_map]
  simp only [(Fin.succ_ne_zero i).symm, if_false, List.cons.injEq, true_and]
  refine List.map_congr_left fun k _ => ?_
  simp [Fin.succ_inj]

theorem diffs_unit : ∀ {d : Nat} (i : Fin d) (u : List Int → ℝ) (t : List Int), t.length = d →
    diffs (unitOrder i) u t = u t - u (t.set i 0)
  | 0, i, _, _, _ => i.elim0
  | d+1, i, u, [], h => by simp at h
  | d+1, i, u, a :: t, h => by
    refine Fin.cases ?_ (fun j => ?_) i
    · rw [unitOrder_zero, diffs, diffs_zero]
      simp
    · rw [unitOrder_succ, diffs, diffs_unit j _ t (by simpa using h)]
      simp

/-- A function of the indices that does not change when one index is set to zero is constant. -/
theorem const_of_sets {ns : List Int} (f : List Int → ℝ) (h : ∀ t, InBox ns t → ∀ i, i < ns.length → f t = f (t.set i 0)) :
    ∀ t t', InBox ns t → InBox ns t' → f t = f t' := by
  have key : ∀ t, InBox ns t → f t = f (List.replicate ns.length 0) := by
    intro t ht
    have hl := PetIGA.Grid.inBox_length ht
    have step : ∀ m : Nat, m ≤ ns.length → f t = f (List.replicate m 0 ++ t.drop m) ∧ InBox ns (List.replicate m 0 ++ t.drop m) := by
      intro m
      induction m with
      | zero => intro _; simpa using ht
      | succ m ih =>
        intro hm
        obtain ⟨i1, i2⟩ := ih (by omega)
        have e : (List.replicate m 0 ++ t.drop m).set m 0 = List.replicate (m+1) 0 ++ t.drop (m+1) := by
          rw [List.set_append_right _ _ (by simp), List.length_replicate, Nat.sub_self,
            List.drop_eq_getElem_cons (by omega : m < t.length), List.set_cons_zero, List.replicate_succ', List.append_assoc]
          rfl
        rw [← e]
        refine ⟨i1.trans (h _ i2 m (by omega)), ?_⟩
        unfold InBox at i2 ⊢
        rw [List.forall₂_iff_get] at i2 ⊢
        refine ⟨by simpa using i2.1, fun j h1 h2 => ?_⟩
        have h3 := i2.2 j h1 (by simpa using h2)
        simp only [List.get_eq_getElem] at h3 ⊢
        rw [List.getElem_set]
        split_ifs
        · omega
        · exact h3
    obtain ⟨s1, -⟩ := step ns.length (le_refl _)
    rw [s1, List.drop_eq_nil_of_le (by omega), List.append_nil]
  intro t t' ht ht'
  rw [key t ht, key t' ht']

/-- The gradients of the shape functions are an invertible linear image of the parametric ones. -/
theorem gradient_map {d nsd : Nat} {ι : Type} [Fintype ι] (hd : 1 ≤ d ∧ d ≤ 3) {c : PtIn d nsd ι} {N : Tab ℝ d ι} {J : ℝ} {mem o : PtOut d nsd ι}
    (h : Ker.tabulate c N J mem = .ok o) (ho : 1 ≤ c.order) (hr : c.rational = none) (hb : c.boundary = none) (hcol : c.collocation = false)
    (hJ : o.detJac ≠ 0) :
    ∃ M : Fin d → Fin d → ℝ, (∀ i a, (pointShape c o).t1 i a = ∑ j, N.t1 j a * M i j) ∧
      ∀ v : Fin d → ℝ, (∀ i, ∑ j, v j * M i j = 0) → ∀ j, v j = 0 := by
  have hB : basisOf c N = N := by unfold basisOf; rw [hr]
  have triv : (pointShape c o).t1 = N.t1 → ∃ M : Fin d → Fin d → ℝ, (∀ i a, (pointShape c o).t1 i a = ∑ j, N.t1 j a * M i j) ∧
      ∀ v : Fin d → ℝ, (∀ i, ∑ j, v j * M i j = 0) → ∀ j, v j = 0 := by
    intro e
    refine ⟨fun i j => if j = i then 1 else 0, fun i a => ?_, fun v hv j => ?_⟩
    · rw [e]; simp
    · simpa using hv j
  unfold Ker.tabulate at h
  rw [hb, hB] at h
  cases hg : c.geometry with
  | none =>
    rw [hg] at h
    simp only [Res.ok.injEq] at h
    subst h
    exact triv (by unfold pointShape; rw [hg]; simp)
  | some C =>
    rw [hg] at h
    dsimp only at h
    by_cases hn : nsd = d
    · subst hn
      rw [dif_pos rfl] at h
      dsimp only at h
      by_cases hx : c.debug = true ∧ (inverseMap c.order (geometryMap c.order C N mem.mapX) (mem.detX, mem.mapU)).1 ≤ 0
      · rw [if_pos hx] at h; simp at h
      · rw [if_neg hx] at h
        simp only [Res.ok.injEq] at h
        have hdj : o.detJac = J * (inverseMap c.order (geometryMap c.order C N mem.mapX) (mem.detX, mem.mapU)).1 := by
          rw [← h]; simp [hcol]
        have hsh : (pointShape c o).t1 = (shapeFunctions c.order (inverseMap c.order (geometryMap c.order C N mem.mapX) (mem.detX, mem.mapU)).2 N
            { mem.shape with t0 := N.t0 }).t1 := by
          rw [← h]; unfold pointShape; rw [hg]; simp
        set X := geometryMap c.order C N mem.mapX with hX
        have hI : (inverseMap c.order X (mem.detX, mem.mapU)).1 = determinant nsd X.t1 ∧
            (inverseMap c.order X (mem.detX, mem.mapU)).2.t1 = inverse nsd (determinant nsd X.t1) X.t1 := by
          unfold inverseMap
          rw [if_neg (by omega)]
          dsimp only
          split_ifs <;> exact ⟨rfl, rfl⟩
        obtain ⟨c1, c2⟩ := C43_det_inverse nsd hd X.t1
        obtain ⟨c3, c4⟩ := c2 (by
          rw [← c1, ← hI.1]
          intro h0
          rw [h0, mul_zero] at hdj
          exact hJ hdj)
        refine ⟨inverse nsd (determinant nsd X.t1) X.t1, fun i a => ?_, fun v hv j => ?_⟩
        · rw [hsh, ← hI.2]
          unfold shapeFunctions
          rw [if_neg (by omega)]
          dsimp only
          split_ifs <;> rfl
        · set E := Matrix.of (inverse nsd (determinant nsd X.t1) X.t1) with hE
          have e1 : E.mulVec v = 0 := by
            funext i
            rw [Matrix.mulVec, dotProduct]
            simp only [hE, Matrix.of_apply, Pi.zero_apply]
            rw [← hv i]
            exact Finset.sum_congr rfl fun j _ => mul_comm _ _
          have e2 : v = (Matrix.of X.t1 * E).mulVec v := by rw [c4, Matrix.one_mulVec]
          rw [e2, ← Matrix.mulVec_mulVec, e1, Matrix.mulVec_zero]
          rfl
    · rw [dif_neg hn] at h
      simp only [Res.ok.injEq] at h
      subst h
      exact triv (by unfold pointShape; rw [if_neg (by rintro ⟨-, h⟩; exact hn h.symm)])

/-- What an interior element of a Galerkin discretisation with B-splines and first derivatives hands to the tabulation. -/
structure FirstOrder {d nsd n : Nat} (c : PtIn d nsd (Fin n)) : Prop where
  order : 1 ≤ c.order
  spline : c.rational = none
  interior : c.boundary = none
  galerkin : c.collocation = false

theorem combine_sum {n d : Nat} (axs : List (Axis ℝ)) (e : List Int) (g : Fin d → Fin n → ℝ) (M : Fin d → ℝ) (u : List Int → Nat → ℝ) (k : Nat) :
    combine axs e (fun a => ∑ j, g j a * M j) u k = ∑ j, combine axs e (g j) u k * M j := by
  unfold combine
  induction indices (nens axs) with
  | nil => simp
  | cons t l ih =>
    simp only [List.map_cons, List.sum_cons, ih, add_mul, Finset.sum_add_distrib]
    congr 1
    unfold ent
    split_ifs
    · rw [Finset.mul_sum]
      exact Finset.sum_congr rfl fun j _ => by ring
    · simp

/-- A field whose gradients vanish at all points of the element is constant on the element. -/
theorem element_const {ds : List (Direction Line)} (h1 : 1 ≤ ds.length) (h3 : ds.length ≤ 3)
    (hT : ∀ δ ∈ ds, δ.Tabulated) (hs : ∀ δ ∈ ds, IsSpline δ) (hw : ∀ δ ∈ ds, WF δ.ax) (hE : ∀ δ ∈ ds, Enough δ) {nsd : Nat}
    (c : PtIn ds.length nsd (Fin (nenOf (ds.map Direction.ax)))) (hc : FirstOrder c) {e : List Int}
    (he : InBox (ds.map fun δ => δ.ax.nel) e) {mem} {qs} (h : tabulateElement c (ds.map Direction.B) e mem = .ok qs)
    (hJ : ∀ q ∈ qs, q.detJac ≠ 0) (u : List Int → Nat → ℝ) (k : Nat)
    (hz : ∀ q ∈ qs, ∀ i, combine (ds.map Direction.ax) e (q.data.shape.t1 i) u k = 0) :
    ∀ t t', InBox (nens (ds.map Direction.ax)) t → InBox (nens (ds.map Direction.ax)) t' →
      u (nodeOf false (ds.map Direction.ax) e t) k = u (nodeOf false (ds.map Direction.ax) e t') k := by
  obtain ⟨a1, -⟩ := tabulated_points rfl h1 h3 hT hs hw c he mem h
  refine const_of_sets (fun t => u (nodeOf false (ds.map Direction.ax) e t) k) fun t ht j hj => ?_
  have hj' : j < ds.length := by simpa [nens] using hj
  have hl : t.length = ds.length := by rw [PetIGA.Grid.inBox_length ht]; simp [nens]
  have key := tensor_independent ds e (unitOrder ⟨j, hj'⟩) hT hw hE he (by simp [unitOrder]) (by
      intro o ho
      obtain ⟨k, -, rfl⟩ := List.mem_map.1 ho
      split_ifs <;> omega) (fun t => u (nodeOf false (ds.map Direction.ax) e t) k) (by
      intro pts hp
      obtain ⟨q, hq, N, m, o, hN, ho, rfl⟩ := a1 pts hp
      obtain ⟨M, m1, m2⟩ := gradient_map ⟨h1, h3⟩ ho hc.order hc.spline hc.interior hc.galerkin (hJ _ hq)
      have hz' := hz _ hq
      have e0 : ∀ j, combine (ds.map Direction.ax) e (N.t1 j) u k = 0 := by
        refine m2 (fun j => combine (ds.map Direction.ax) e (N.t1 j) u k) fun i => ?_
        rw [← combine_sum, ← hz' i]
        congr 1
        funext a
        exact (m1 i a).symm
      rw [← e0 ⟨j, hj'⟩]
      unfold combine
      congr 1; refine List.map_congr_left fun t ht => ?_
      have hlt := flat_lt_nen (ds.map Direction.ax) ht
      unfold ent
      rw [dif_pos hlt, (hN t ((mem_indices _ _).1 ht) ⟨_, hlt⟩ (by
        have := (flat_range ((mem_indices _ _).1 ht)).1
        simp only; omega)).2 hc.order]) t ((mem_indices _ _).2 ht)
  rw [diffs_unit _ _ t hl] at key
  exact sub_eq_zero.1 key

/-! ### Dirichlet conditions -/

/-- The quadratic form of an element matrix with constrained rows and columns of the identity. -/
theorem elemForm_fixed {P : Type} (E : Elt ℝ P) (k : P → Int → ℝ) (U : List ℝ) :
    elemForm E.n (jacobianAt E k) U U = ((List.range E.n).map fun (i : Nat) =>
        if (tableGet E.fixes.fix i).isSome then U.getD i 0 * U.getD i 0 else 0).sum +
      elemForm E.n (fun i j => integral E fun p => k p (i * E.n + j)) (withoutRates E U) (withoutRates E U) := by
  have hW : ∀ i : Nat, i < E.n → (withoutRates E U).getD i 0 = if (tableGet E.fixes.fix i).isSome then 0 else U.getD i 0 := by
    intro i hi
    unfold withoutRates
    rw [List.getD_eq_getElem?_getD, List.getElem?_map, List.getElem?_range hi]
    rfl
  unfold elemForm
  rw [← List.sum_map_add]
  congr 1; refine List.map_congr_left fun i hi => ?_
  have hi := List.mem_range.1 hi
  rw [hW i hi]
  by_cases hf : (tableGet E.fixes.fix (i:Int)).isSome = true
  · rw [if_pos hf, if_pos hf, zero_mul, add_zero]
    congr 1
    rw [sum_nodup List.nodup_range (List.mem_range.2 hi)]
    · unfold jacobianAt
      rw [if_pos (.inl hf), if_pos rfl, one_mul]
    · intro j _ hj
      unfold jacobianAt
      rw [if_pos (.inl hf), if_neg (Ne.symm hj), zero_mul]
  · rw [if_neg hf, if_neg hf, zero_add]
    congr 2; refine List.map_congr_left fun j hj => ?_
    rw [hW j (List.mem_range.1 hj)]
    unfold jacobianAt
    by_cases hg : (tableGet E.fixes.fix (j:Int)).isSome = true
    · rw [if_pos (.inr hg), if_pos hg, if_neg (by rintro rfl; exact hf hg)]; ring
    · rw [if_neg (by rintro (h | h); exacts [hf h, hg h]), if_neg hg]

variable {g2 : Guess2} {g3 : Guess3} {size : Int} {procs : List Int} {axes : List (Axis ℝ)} {Ls : List (Layout ℝ)}

/-- The elements of the grid with the boundary conditions in force after the calls `ops`: their lists are built by
`IGAElementBuildFix`, their points are those `IGAElementBuildTabulation` makes from the axes, rules, control points and
weights, and no boundary integrals are requested. -/
structure Assembled {nsd : Nat} (ds : List (Direction Line)) (ops : List (Form.Op ℝ)) (dof : Nat) (UG : Option (List Int → Int → ℝ))
    (c : List Int → PtIn ds.length nsd (Fin (nenOf (ds.map Direction.ax))))
    (elt : List Int → Elt ℝ (PtData ds.length nsd (nenOf (ds.map Direction.ax)))) : Prop where
  built : ∀ e, InBox ((ds.map Direction.ax).map Axis.nel) e → Built (ds.map Direction.ax) ops dof UG e (elt e)
  points : ∀ e, InBox (ds.map fun δ => δ.ax.nel) e →
    ∃ mem, tabulateElement (c e) (ds.map Direction.B) e mem = .ok ((elt e).points none)
  noForms : ∀ e, InBox (ds.map fun δ => δ.ax.nel) e → ∀ a b, (elt e).visit a b = false

theorem Assembled.interior {nsd : Nat} {ds : List (Direction Line)} {ops : List (Form.Op ℝ)} {dof : Nat} {UG : Option (List Int → Int → ℝ)}
    {c : List Int → PtIn ds.length nsd (Fin (nenOf (ds.map Direction.ax)))}
    {elt : List Int → Elt ℝ (PtData ds.length nsd (nenOf (ds.map Direction.ax)))} (hw : ∀ ax ∈ ds.map Direction.ax, WF ax)
    (h : Assembled ds ops dof UG c elt) : Interior ds dof c elt := ⟨built_elements hw h.built, h.points, h.noForms⟩

/-- Zero energy means zero gradients at the points. -/
theorem energy_zero {axs : List (Axis ℝ)} {dof : Nat} {P : Type} {L : List (P → Fin (nenOf axs) → ℝ)} {ρ : P → ℝ} {k : P → Int → ℝ}
    (hk : GramForm dof (nenOf axs) L ρ k) {qs : List (QP ℝ P)} (hpos : ∀ q ∈ qs, 0 < ρ q.data * (q.detJac * q.weight))
    (u : List Int → Nat → ℝ) (e : List Int) :
    0 ≤ elemForm (unknowns axs dof) (fun i j => pointSum qs fun p => k p ((i:Int) * unknowns axs dof + j)) (valuesOf false axs dof u e)
      (valuesOf false axs dof u e) ∧
    (elemForm (unknowns axs dof) (fun i j => pointSum qs fun p => k p ((i:Int) * unknowns axs dof + j)) (valuesOf false axs dof u e)
      (valuesOf false axs dof u e) = 0 ↔ ∀ q ∈ qs, ∀ g ∈ L, ∀ i, i < dof → combine axs e (g q.data) u i = 0) := by
  have hnn : ∀ q ∈ qs, 0 ≤ (L.map fun g => ((List.range dof).map fun i =>
        combine axs e (g q.data) u i * combine axs e (g q.data) u i).sum).sum * (ρ q.data * (q.detJac * q.weight)) := by
    intro q hq
    refine mul_nonneg ?_ (hpos q hq).le
    refine List.sum_nonneg fun x hx => ?_
    obtain ⟨g, -, rfl⟩ := List.mem_map.1 hx
    refine List.sum_nonneg fun x hx => ?_
    obtain ⟨i, -, rfl⟩ := List.mem_map.1 hx
    exact mul_self_nonneg _
  rw [gram_elem axs dof L ρ k hk]
  refine ⟨List.sum_nonneg fun x hx => ?_, fun h0 q hq g hg i hi => ?_, fun h => ?_⟩
  · obtain ⟨q, hq, rfl⟩ := List.mem_map.1 hx
    exact hnn q hq
  · have h1 := sum_zero_all hnn h0 q hq
    have h2 := (mul_eq_zero.1 h1).resolve_right (hpos q hq).ne'
    have h3 := sum_zero_all (fun g _ => by
      refine List.sum_nonneg fun x hx => ?_
      obtain ⟨i, -, rfl⟩ := List.mem_map.1 hx
      exact mul_self_nonneg _) h2 g hg
    exact mul_self_eq_zero.1 (sum_zero_all (fun i _ => mul_self_nonneg _) h3 i (List.mem_range.2 hi))
  · have e0 : ∀ q ∈ qs, (L.map fun g => ((List.range dof).map fun i =>
        combine axs e (g q.data) u i * combine axs e (g q.data) u i).sum).sum * (ρ q.data * (q.detJac * q.weight)) = 0 := by
      intro q hq
      have : (L.map fun g => ((List.range dof).map fun i => combine axs e (g q.data) u i * combine axs e (g q.data) u i).sum) =
          L.map fun _ => (0:ℝ) := by
        refine List.map_congr_left fun g hg => ?_
        rw [show ((List.range dof).map fun i => combine axs e (g q.data) u i * combine axs e (g q.data) u i) =
          (List.range dof).map fun _ => (0:ℝ) from List.map_congr_left fun i hi => by
            rw [h q hq g hg i (List.mem_range.1 hi), zero_mul]]
        simp
      rw [this]
      simp
    rw [List.map_congr_left e0]
    simp

/-- The matrix `IGAComputeSystem` assembles for a form `∫ ρ Σ_g g(u) g(v)` is symmetric positive definite if a field on which the `g` are zero at
the points, and that is zero at the constrained nodes, is zero. -/
theorem posDef_system {ds : List (Direction Line)} (S : Setup g2 g3 false size procs axes (ds.map Direction.ax) Ls)
    (hT : ∀ δ ∈ ds, δ.Tabulated) (hs : ∀ δ ∈ ds, IsSpline δ) {nsd dof : Nat} {ops : List (Form.Op ℝ)}
    {UG : Option (List Int → Int → ℝ)} {c : List Int → PtIn ds.length nsd (Fin (nenOf (ds.map Direction.ax)))}
    {elt : List Int → Elt ℝ (PtData ds.length nsd (nenOf (ds.map Direction.ax)))} (hI : Assembled ds ops dof UG c elt)
    (hJ : ∀ e, InBox (ds.map fun δ => δ.ax.nel) e → ∀ q ∈ (elt e).points none, 0 < q.detJac)
    (cb : PtData ds.length nsd (nenOf (ds.map Direction.ax)) → (Int → ℝ) → (Int → ℝ) → Res ((Int → ℝ) × (Int → ℝ))) (k r) (ρ) (L)
    (hK : FillsSys (unknowns (ds.map Direction.ax) dof) (unknowns (ds.map Direction.ax) dof) cb k r)
    (hk : GramForm dof (nenOf (ds.map Direction.ax)) L ρ k)
    (hρ : ∀ e, InBox (ds.map fun δ => δ.ax.nel) e → ∀ q ∈ (elt e).points none, 0 < ρ q.data)
    (hN : ∀ v : List Int → Nat → ℝ,
      (∀ e, InBox ((ds.map Direction.ax).map Axis.nel) e → ∀ q ∈ (elt e).points none, ∀ g ∈ L, ∀ i, i < dof → combine (ds.map Direction.ax) e (g q.data) v i = 0) →
      (∀ z (i : Nat), InBox ((ds.map Direction.ax).map Axis.nnp) z → i < dof →
        (Fix.prescribedAt (ds.map Direction.ax) ops UG (z, (i:Int))).isSome → v z i = 0) →
      ∀ z (i : Nat), InBox ((ds.map Direction.ax).map Axis.nnp) z → i < dof → v z i = 0) (hist) (pw) (w) :
    ∃ A b, computeSystem Ls hist dof ⟨elt, pw, w⟩ cb = .ok (A, b) ∧ PosDef (total (ds.map Direction.ax) dof) fun i j => A (i, j) := by
  obtain ⟨l1, l3, hw⟩ := setup_facts S
  have hw' := Prb.setup_wf S
  have hIn := hI.interior hw'
  have hEl := hIn.elements
  have hu : Represents (ds.map Direction.ax) Ls dof (fun _ : Int => ()) (fun _ _ => ()) := fun _ _ _ _ => rfl
  obtain ⟨A, a1, a2⟩ := mat_global S hist dof (fun _ => ()) (fun _ => ()) _ hu
    (fun r e _ => entries ((system (elt e) cb (pw r e) (w r e)).bind fun s => .ok s.1)) (fun e => jacobianAt (elt e) k) fun r' e he => by
      obtain ⟨A, B, h1, h2, _⟩ := C77_system (elt e) (hEl e he).1 cb k r (by rw [hEl.m_eq he, hEl.n_eq he]; exact hK) (pw r' e) (w r' e)
      exact element_mat hEl he ⟨A, by rw [h1]; rfl, h2⟩
  obtain ⟨b, b1, b2⟩ := vec_global S hist dof (fun _ => ()) (fun _ => ()) _ hu
    (fun r e _ => entries ((system (elt e) cb (pw r e) (w r e)).bind fun s => .ok s.2)) (fun e => rhsAt (elt e) k r) fun r' e he => by
      obtain ⟨A, B, h1, _, h3⟩ := C77_system (elt e) (hEl e he).1 cb k r (by rw [hEl.m_eq he, hEl.n_eq he]; exact hK) (pw r' e) (w r' e)
      rw [h1]
      exact ⟨_, rfl, fun i hi => h3 i (by rw [hEl.n_eq he]; exact hi)⟩
  refine ⟨A, b, by unfold computeSystem; rw [a1]; show Res.bind _ _ = _; rw [b1]; rfl, ?_⟩
  have hmap : ∀ {e}, InBox ((ds.map Direction.ax).map Axis.nel) e → InBox (ds.map fun δ => δ.ax.nel) e := by
    intro e he; rw [List.map_map] at he; exact he
  have hpos : ∀ e, InBox (ds.map fun δ => δ.ax.nel) e → ∀ q ∈ (elt e).points none, 0 < ρ q.data * (q.detJac * q.weight) :=
    fun e he q hq => mul_pos (hρ e he q hq) (mul_pos (hJ e he q hq) (weight_pos S hT hs hIn he hq))
  have hform : ∀ e, InBox ((ds.map Direction.ax).map Axis.nel) e → ∀ u : List Int → Nat → ℝ,
      elemForm (unknowns (ds.map Direction.ax) dof) (jacobianAt (elt e) k) (valuesOf false (ds.map Direction.ax) dof u e)
        (valuesOf false (ds.map Direction.ax) dof u e) = ((List.range (unknowns (ds.map Direction.ax) dof)).map fun (i : Nat) =>
        if (tableGet (elt e).fixes.fix i).isSome then (valuesOf false (ds.map Direction.ax) dof u e).getD i 0 *
          (valuesOf false (ds.map Direction.ax) dof u e).getD i 0 else 0).sum +
      elemForm (unknowns (ds.map Direction.ax) dof) (fun i j => pointSum ((elt e).points none) fun p =>
        k p ((i:Int) * unknowns (ds.map Direction.ax) dof + j))
        (valuesOf false (ds.map Direction.ax) dof (freeRates (ds.map Direction.ax) ops UG u) e)
        (valuesOf false (ds.map Direction.ax) dof (freeRates (ds.map Direction.ax) ops UG u) e) := by
    intro e he u
    have := elemForm_fixed (elt e) k (valuesOf false (ds.map Direction.ax) dof u e)
    rw [hEl.n_eq he, withoutRates_free hw' hI.built he] at this
    rw [this]
    congr 2
    funext i j
    exact integral_interior _ (hI.noForms e (hmap he)) _
  have hsq : ∀ e (u : List Int → Nat → ℝ), ∀ i ∈ List.range (unknowns (ds.map Direction.ax) dof), 0 ≤
      if (tableGet (elt e).fixes.fix (i:Nat)).isSome then (valuesOf false (ds.map Direction.ax) dof u e).getD i 0 *
          (valuesOf false (ds.map Direction.ax) dof u e).getD i 0 else 0 := by
    intro e u i _
    split_ifs
    · exact mul_self_nonneg _
    · exact le_refl _
  have hsum : ∀ e (u : List Int → Nat → ℝ), 0 ≤ ((List.range (unknowns (ds.map Direction.ax) dof)).map fun (i : Nat) =>
        if (tableGet (elt e).fixes.fix i).isSome then (valuesOf false (ds.map Direction.ax) dof u e).getD i 0 *
          (valuesOf false (ds.map Direction.ax) dof u e).getD i 0 else 0).sum := by
    intro e u
    refine List.sum_nonneg fun x hx => ?_
    obtain ⟨i, hi, rfl⟩ := List.mem_map.1 hx
    exact hsq e u i hi
  refine posDef_of_elements S dof _ A a2 (fun e he i j hi hj => ?_) (fun e he u => ?_) (fun u hu => ?_)
  · unfold jacobianAt
    have hg := gram_symm (ds.map Direction.ax) hw' dof L ρ k hk ((elt e).points none) hi hj
    rw [hEl.n_eq he, integral_interior _ (hI.noForms e (hmap he)), integral_interior _ (hI.noForms e (hmap he)), hg]
    by_cases hij : i = j
    · subst hij; rfl
    · rw [if_neg hij, if_neg (Ne.symm hij)]
      simp only [or_comm]
  · rw [hform e he u]
    exact add_nonneg (hsum e u) (energy_zero hk (hpos e (hmap he)) _ e).1
  · have h0 : ∀ e, InBox ((ds.map Direction.ax).map Axis.nel) e → _ ∧ _ := fun e he => by
      have h := hu e he
      rw [hform e he u] at h
      exact (add_eq_zero_iff_of_nonneg (hsum e u) (energy_zero hk (hpos e (hmap he)) _ e).1).1 h
    have hz0 := hN (freeRates (ds.map Direction.ax) ops UG u) (fun e he q hq g hg i hi => (energy_zero hk (hpos e (hmap he)) _ e).2.1 (h0 e he).2 q hq g hg i hi)
      (fun z i _ _ h => by unfold freeRates; rw [if_pos h])
    intro z i hz hi
    by_cases hfix : (Fix.prescribedAt (ds.map Direction.ax) ops UG (z, (i:Int))).isSome = true
    · obtain ⟨e, t, he, ht, rfl⟩ := node_covered hw' S.cond hz
      have h1 := sum_zero_all (hsq e u) (h0 e he).1 (slot (ds.map Direction.ax) dof t i)
        (List.mem_range.2 (slot_lt _ ((mem_indices _ _).2 ht) hi))
      rw [((hI.built e he).spec hw' he).2 t i ht hi, if_pos hfix, valuesOf_slot _ _ _ _ ht hi] at h1
      exact mul_self_eq_zero.1 h1
    · have h1 := hz0 z i hz hi
      unfold freeRates at h1
      rw [if_neg hfix] at h1
      exact h1

/-- **C88**: the matrix `IGAComputeSystem` assembles for a form `∫ ρ (∇u·∇v + …)` (the gradients and possibly more
symmetric terms) is symmetric positive definite as soon as every component has a constrained node. -/
theorem C88_dirichlet {ds : List (Direction Line)} (S : Setup g2 g3 false size procs axes (ds.map Direction.ax) Ls)
    (hT : ∀ δ ∈ ds, δ.Tabulated) (hs : ∀ δ ∈ ds, IsSpline δ) (hE : ∀ δ ∈ ds, Enough δ) {nsd dof : Nat} {ops : List (Form.Op ℝ)}
    {UG : Option (List Int → Int → ℝ)} {c : List Int → PtIn ds.length nsd (Fin (nenOf (ds.map Direction.ax)))} (hc : ∀ e, FirstOrder (c e))
    {elt : List Int → Elt ℝ (PtData ds.length nsd (nenOf (ds.map Direction.ax)))} (hI : Assembled ds ops dof UG c elt)
    (hJ : ∀ e, InBox (ds.map fun δ => δ.ax.nel) e → ∀ q ∈ (elt e).points none, 0 < q.detJac)
    (hD : ∀ i : Nat, i < dof → ∃ z, InBox ((ds.map Direction.ax).map Axis.nnp) z ∧ (Fix.prescribedAt (ds.map Direction.ax) ops UG (z, (i:Int))).isSome)
    (cb : PtData ds.length nsd (nenOf (ds.map Direction.ax)) → (Int → ℝ) → (Int → ℝ) → Res ((Int → ℝ) × (Int → ℝ))) (k r) (ρ) (L)
    (hK : FillsSys (unknowns (ds.map Direction.ax) dof) (unknowns (ds.map Direction.ax) dof) cb k r)
    (hk : GramForm dof (nenOf (ds.map Direction.ax)) L ρ k) (hL : ∀ i, (fun p a => p.shape.t1 i a) ∈ L)
    (hρ : ∀ e, InBox (ds.map fun δ => δ.ax.nel) e → ∀ q ∈ (elt e).points none, 0 < ρ q.data) (hist) (pw) (w) :
    ∃ A b, computeSystem Ls hist dof ⟨elt, pw, w⟩ cb = .ok (A, b) ∧ PosDef (total (ds.map Direction.ax) dof) fun i j => A (i, j) := by
  obtain ⟨l1, l3, hw⟩ := setup_facts S
  have hw' := Prb.setup_wf S
  have hmap : ∀ {e}, InBox ((ds.map Direction.ax).map Axis.nel) e → InBox (ds.map fun δ => δ.ax.nel) e := by
    intro e he; rw [List.map_map] at he; exact he
  refine posDef_system S hT hs hI hJ cb k r ρ L hK hk hρ (fun v hv hfix z i hz hi => ?_) hist pw w
  -- zero energy: constant, and zero at a constrained node
  obtain ⟨z', hz', hf'⟩ := hD i hi
  rw [← hfix z' i hz' hi hf']
  obtain ⟨e, t, he, ht, rfl⟩ := node_covered hw' S.cond hz
  obtain ⟨e', t', he', ht', rfl⟩ := node_covered hw' S.cond hz'
  refine connected (ds.map Direction.ax) hw' (fun z => v z i) (fun e he => ?_) e e' he he' t t' ht ht'
  obtain ⟨mem, hm⟩ := hI.points e (hmap he)
  exact element_const l1 l3 hT hs hw hE (c e) (hc e) (hmap he) hm (fun q hq => (hJ e (hmap he) q hq).ne') _ i fun q hq j => hv e he q hq _ (hL j) i hi

/-- **C87**: also the matrix `IGAComputeSystem` assembles for a mass form is symmetric positive definite, whatever values are prescribed. -/
theorem C87_system {ds : List (Direction Line)} (S : Setup g2 g3 false size procs axes (ds.map Direction.ax) Ls)
    (hT : ∀ δ ∈ ds, δ.Tabulated) (hs : ∀ δ ∈ ds, IsSpline δ) (hE : ∀ δ ∈ ds, Enough δ) {nsd dof : Nat} {ops : List (Form.Op ℝ)}
    {UG : Option (List Int → Int → ℝ)} {c : List Int → PtIn ds.length nsd (Fin (nenOf (ds.map Direction.ax)))} (hR : ∀ e, Weights ds (c e))
    {elt : List Int → Elt ℝ (PtData ds.length nsd (nenOf (ds.map Direction.ax)))} (hI : Assembled ds ops dof UG c elt)
    (hJ : ∀ e, InBox (ds.map fun δ => δ.ax.nel) e → ∀ q ∈ (elt e).points none, 0 < q.detJac)
    (cb : PtData ds.length nsd (nenOf (ds.map Direction.ax)) → (Int → ℝ) → (Int → ℝ) → Res ((Int → ℝ) × (Int → ℝ))) (k r) (ρ) (L)
    (hK : FillsSys (unknowns (ds.map Direction.ax) dof) (unknowns (ds.map Direction.ax) dof) cb k r)
    (hk : GramForm dof (nenOf (ds.map Direction.ax)) L ρ k) (hL : (fun p a => p.shape.t0 a) ∈ L)
    (hρ : ∀ e, InBox (ds.map fun δ => δ.ax.nel) e → ∀ q ∈ (elt e).points none, 0 < ρ q.data) (hist) (pw) (w) :
    ∃ A b, computeSystem Ls hist dof ⟨elt, pw, w⟩ cb = .ok (A, b) ∧ PosDef (total (ds.map Direction.ax) dof) fun i j => A (i, j) := by
  obtain ⟨l1, l3, hw⟩ := setup_facts S
  have hw' := Prb.setup_wf S
  refine posDef_system S hT hs hI hJ cb k r ρ L hK hk hρ (fun v hv _ z i hz hi => ?_) hist pw w
  obtain ⟨e, t, he, ht, rfl⟩ := node_covered hw' S.cond hz
  have h0 := hv e he
  rw [List.map_map] at he
  obtain ⟨mem, hm⟩ := hI.points e he
  exact element_zero l1 l3 hT hs hw hE (c e) (hR e) he hm _ i (fun q hq => h0 q hq _ hL i hi) t ((mem_indices _ _).2 ht)

/-! ### Solvability -/

/-- A linear system with a positive definite matrix has exactly one solution. -/
theorem posDef_solve {N : Nat} {A : Int → Int → ℝ} (hA : PosDef N A) (b : Int → ℝ) :
    ∃ x : Int → ℝ, (∀ i : Nat, i < N → ∑ j ∈ Finset.range N, A i j * x j = b i) ∧
      ∀ y : Int → ℝ, (∀ i : Nat, i < N → ∑ j ∈ Finset.range N, A i j * y j = b i) → ∀ i : Nat, i < N → y i = x i := by
  have huniq : ∀ v : Int → ℝ, (∀ i : Nat, i < N → ∑ j ∈ Finset.range N, A i j * v j = 0) → ∀ i : Nat, i < N → v i = 0 := by
    intro v hv i hi
    by_contra hne
    have h1 := hA.2 v ⟨i, by omega, by omega, hne⟩
    have h2 : ∑ i ∈ Finset.range N, ∑ j ∈ Finset.range N, v i * A i j * v j = 0 := by
      refine Finset.sum_eq_zero fun i hi => ?_
      have := hv i (Finset.mem_range.1 hi)
      rw [show ∑ j ∈ Finset.range N, v i * A i j * v j = v i * ∑ j ∈ Finset.range N, A i j * v j by
        rw [Finset.mul_sum]; exact Finset.sum_congr rfl fun j _ => by ring, this, mul_zero]
    rw [h2] at h1
    exact lt_irrefl _ h1
  set M : Matrix (Fin N) (Fin N) ℝ := Matrix.of fun i j => A (i:Nat) (j:Nat) with hM
  have hdet : M.det ≠ 0 := by
    intro h0
    obtain ⟨v, hv, hz⟩ := Matrix.exists_mulVec_eq_zero_iff.2 h0
    apply hv
    funext i
    have := huniq (fun j => if h : j.toNat < N then v ⟨j.toNat, h⟩ else 0) (by
      intro i hi
      have h1 := congrFun hz ⟨i, hi⟩
      rw [Matrix.mulVec, dotProduct] at h1
      rw [Finset.sum_range]
      refine Eq.trans (Finset.sum_congr rfl fun j _ => ?_) (h1.trans rfl)
      simp [hM]) i i.2
    simpa using this
  have hu : IsUnit M.det := isUnit_iff_ne_zero.2 hdet
  set v := M⁻¹.mulVec fun i => b (i:Nat) with hv
  have hMv : M.mulVec v = fun i : Fin N => b (i:Nat) := by rw [hv, Matrix.mulVec_mulVec, Matrix.mul_nonsing_inv _ hu, Matrix.one_mulVec]
  refine ⟨fun j => if h : j.toNat < N then v ⟨j.toNat, h⟩ else 0, fun i hi => ?_, fun y hy i hi => ?_⟩
  · have h1 := congrFun hMv ⟨i, hi⟩
    rw [Matrix.mulVec, dotProduct] at h1
    dsimp only at h1
    rw [← h1, Finset.sum_range]
    refine Finset.sum_congr rfl fun j _ => ?_
    simp [hM]
  · refine sub_eq_zero.1 (huniq (fun j => y j - (if h : j.toNat < N then v ⟨j.toNat, h⟩ else 0)) (fun i hi => ?_) i hi)
    have h1 := congrFun hMv ⟨i, hi⟩
    rw [Matrix.mulVec, dotProduct] at h1
    dsimp only at h1
    simp only [mul_sub, Finset.sum_sub_distrib]
    rw [hy i hi, ← h1, Finset.sum_range, sub_eq_zero]
    refine Finset.sum_congr rfl fun j _ => ?_
    simp [hM]

/-- **C88**: under the same hypotheses the discrete problem assembled by `IGAComputeSystem` has exactly one solution. -/
theorem C88_solvable {ds : List (Direction Line)} (S : Setup g2 g3 false size procs axes (ds.map Direction.ax) Ls)
    (hT : ∀ δ ∈ ds, δ.Tabulated) (hs : ∀ δ ∈ ds, IsSpline δ) (hE : ∀ δ ∈ ds, Enough δ) {nsd dof : Nat} {ops : List (Form.Op ℝ)}
    {UG : Option (List Int → Int → ℝ)} {c : List Int → PtIn ds.length nsd (Fin (nenOf (ds.map Direction.ax)))} (hc : ∀ e, FirstOrder (c e))
    {elt : List Int → Elt ℝ (PtData ds.length nsd (nenOf (ds.map Direction.ax)))} (hI : Assembled ds ops dof UG c elt)
    (hJ : ∀ e, InBox (ds.map fun δ => δ.ax.nel) e → ∀ q ∈ (elt e).points none, 0 < q.detJac)
    (hD : ∀ i : Nat, i < dof → ∃ z, InBox ((ds.map Direction.ax).map Axis.nnp) z ∧ (Fix.prescribedAt (ds.map Direction.ax) ops UG (z, (i:Int))).isSome)
    (cb : PtData ds.length nsd (nenOf (ds.map Direction.ax)) → (Int → ℝ) → (Int → ℝ) → Res ((Int → ℝ) × (Int → ℝ))) (k r) (ρ) (L)
    (hK : FillsSys (unknowns (ds.map Direction.ax) dof) (unknowns (ds.map Direction.ax) dof) cb k r)
    (hk : GramForm dof (nenOf (ds.map Direction.ax)) L ρ k) (hL : ∀ i, (fun p a => p.shape.t1 i a) ∈ L)
    (hρ : ∀ e, InBox (ds.map fun δ => δ.ax.nel) e → ∀ q ∈ (elt e).points none, 0 < ρ q.data) (hist) (pw) (w) :
    ∃ A b, computeSystem Ls hist dof ⟨elt, pw, w⟩ cb = .ok (A, b) ∧ ∃ x : Int → ℝ,
      (∀ i : Nat, i < total (ds.map Direction.ax) dof → ∑ j ∈ Finset.range (total (ds.map Direction.ax) dof), A ((i:Int), (j:Int)) * x j = b i) ∧
      ∀ y : Int → ℝ, (∀ i : Nat, i < total (ds.map Direction.ax) dof →
        ∑ j ∈ Finset.range (total (ds.map Direction.ax) dof), A ((i:Int), (j:Int)) * y j = b i) →
        ∀ i : Nat, i < total (ds.map Direction.ax) dof → y i = x i := by
  obtain ⟨A, b, h1, h2⟩ := C88_dirichlet S hT hs hE hc hI hJ hD cb k r ρ L hK hk hL hρ hist pw w
  exact ⟨A, b, h1, posDef_solve h2 b⟩

/-! ### Without boundary conditions -/

theorem tensor_unit : ∀ (axs : List (Axis ℝ)) (e : List Int) (xs : List ℝ) (i : Fin axs.length), (∀ ax ∈ axs, WF ax) →
    InBox (axs.map fun ax => ax.nel) e → xs.length = axs.length →
    ((indices (nens axs)).map fun t => evalProd (bpolys axs e (unitOrder i) t) xs).sum = 0
  | [], _, _, i, _, _, _ => i.elim0
  | ax :: axs, _, x :: xs, i, hw, he, hx => by
    cases he with
    | cons he0 he =>
    rename_i e0 es
    have hp := (hw ax (by simp)).legal.degree
    rw [show nens (ax :: axs) = (ax.p + 1) :: nens axs from rfl, sum_indices]
    have hsum := bpoly_sum (hw ax (by simp)) he0.1 he0.2
    refine Fin.cases ?_ (fun j => ?_) i
    · rw [unitOrder_zero]
      simp only [bpolys, evalProd, List.zipWith_cons_cons, List.prod_cons, List.sum_map_mul_left]
      rw [List.sum_map_mul_right, show (ax.p + 1).toNat = ax.p.toNat + 1 by omega, ← finset_list]
      have := congrArg (fun P => (derivative P).eval x) hsum
      simp only [derivative_sum, eval_finset_sum, derivative_one, eval_zero] at this
      simp only [Int.toNat_natCast, Function.iterate_one]
      rw [this, zero_mul]
    · rw [unitOrder_succ]
      simp only [bpolys, evalProd, List.zipWith_cons_cons, List.prod_cons, List.sum_map_mul_left]
      rw [List.sum_map_mul_right]
      have := tensor_unit axs es xs j (fun a h => hw a (by simp [h])) he (by simpa using hx)
      rw [show ((indices (nens axs)).map fun t => (List.zipWith (fun (p : ℝ[X]) x => p.eval x) (bpolys axs es (unitOrder j) t) xs).prod).sum = 0 from this, mul_zero]
  | _ :: _, _, [], _, _, _, hx => by simp at hx

theorem tensor_unit' (axs : List (Axis ℝ)) (e : List Int) (xs : List ℝ) {d : Nat} (i : Fin d) (hd : d = axs.length) (hw : ∀ ax ∈ axs, WF ax)
    (he : InBox (axs.map fun ax => ax.nel) e) (hx : xs.length = axs.length) :
    ((indices (nens axs)).map fun t => evalProd (bpolys axs e (unitOrder i) t) xs).sum = 0 := by
  subst hd
  exact tensor_unit axs e xs i hw he hx

/-- The gradient of a field that is constant on the element vanishes at all its points. -/
theorem const_gradient {ds : List (Direction Line)} (h1 : 1 ≤ ds.length) (h3 : ds.length ≤ 3)
    (hT : ∀ δ ∈ ds, δ.Tabulated) (hs : ∀ δ ∈ ds, IsSpline δ) (hw : ∀ δ ∈ ds, WF δ.ax) {nsd : Nat}
    (c : PtIn ds.length nsd (Fin (nenOf (ds.map Direction.ax)))) (hc : FirstOrder c) {e : List Int}
    (he : InBox (ds.map fun δ => δ.ax.nel) e) {mem} {qs} (h : tabulateElement c (ds.map Direction.B) e mem = .ok qs)
    (hJ : ∀ q ∈ qs, q.detJac ≠ 0) (u : List Int → Nat → ℝ) (k : Nat) (v : ℝ)
    (hu : ∀ t, InBox (nens (ds.map Direction.ax)) t → u (nodeOf false (ds.map Direction.ax) e t) k = v) :
    ∀ q ∈ qs, ∀ i, combine (ds.map Direction.ax) e (q.data.shape.t1 i) u k = 0 := by
  obtain ⟨-, a2⟩ := tabulated_points rfl h1 h3 hT hs hw c he mem h
  intro q hq i
  obtain ⟨pts, hp, N, m, o, hN, ho, rfl⟩ := a2 q hq
  obtain ⟨M, m1, -⟩ := gradient_map ⟨h1, h3⟩ ho hc.order hc.spline hc.interior hc.galerkin (hJ _ hq)
  have e0 : ∀ j, combine (ds.map Direction.ax) e (N.t1 j) u k = 0 := by
    intro j
    have hlen : (pts.map Pt.x).length = (ds.map Direction.ax).length := by
      rw [List.length_map, List.length_map, ← (mem_tensorPoints hp).length_eq]
      simp [lines, PetIGA.Grid.inBox_length he]
    have key := tensor_unit' (ds.map Direction.ax) e (pts.map Pt.x) j (by simp) (by
      intro ax hax
      obtain ⟨δ, hδ, rfl⟩ := List.mem_map.1 hax
      exact hw δ hδ) (by rw [List.map_map]; exact he) hlen
    unfold combine
    rw [show ((indices (nens (ds.map Direction.ax))).map fun t => u (nodeOf false (ds.map Direction.ax) e t) k * ent (ds.map Direction.ax) (N.t1 j) t) =
      (indices (nens (ds.map Direction.ax))).map fun t => v * evalProd (bpolys (ds.map Direction.ax) e (unitOrder j) t) (pts.map Pt.x) from
      List.map_congr_left fun t ht => by
        have hlt := flat_lt_nen (ds.map Direction.ax) ht
        rw [hu t ((mem_indices _ _).1 ht)]
        unfold ent
        rw [dif_pos hlt, (hN t ((mem_indices _ _).1 ht) ⟨_, hlt⟩ (by
          have := (flat_range ((mem_indices _ _).1 ht)).1
          simp only; omega)).2 hc.order]]
    rw [List.sum_map_mul_left, key, mul_zero]
  dsimp only
  rw [show (pointShape c o).t1 i = fun a => ∑ j, N.t1 j a * M i j from funext (m1 i)]
  rw [combine_sum]
  exact Finset.sum_eq_zero fun j _ => by rw [e0 j, zero_mul]

/-- **C88**: without boundary conditions, what such a matrix annihilates are exactly the constants: it is symmetric
positive semidefinite, and `A x = 0` iff every component of `x` has the same value at all nodes. -/
theorem C88_constants {ds : List (Direction Line)} (S : Setup g2 g3 false size procs axes (ds.map Direction.ax) Ls)
    (hT : ∀ δ ∈ ds, δ.Tabulated) (hs : ∀ δ ∈ ds, IsSpline δ) (hE : ∀ δ ∈ ds, Enough δ) {nsd dof : Nat}
    {c : List Int → PtIn ds.length nsd (Fin (nenOf (ds.map Direction.ax)))} (hc : ∀ e, FirstOrder (c e))
    {elt : List Int → Elt ℝ (PtData ds.length nsd (nenOf (ds.map Direction.ax)))} (hI : Interior ds dof c elt)
    (hJ : ∀ e, InBox (ds.map fun δ => δ.ax.nel) e → ∀ q ∈ (elt e).points none, 0 < q.detJac)
    (cb : PtData ds.length nsd (nenOf (ds.map Direction.ax)) → (Int → ℝ) → Res (Int → ℝ)) (k) (ρ)
    (hK : Fills (unknowns (ds.map Direction.ax) dof * unknowns (ds.map Direction.ax) dof) cb k)
    (hk : GramForm dof (nenOf (ds.map Direction.ax)) (List.ofFn fun i p a => p.shape.t1 i a) ρ k)
    (hρ : ∀ e, InBox (ds.map fun δ => δ.ax.nel) e → ∀ q ∈ (elt e).points none, 0 < ρ q.data) (hist) (pw) (w) :
    ∃ A, computeMatrix Ls hist dof ⟨elt, pw, w⟩ cb = .ok A ∧
      (∀ i j : Int, 0 ≤ i → i < total (ds.map Direction.ax) dof → 0 ≤ j → j < total (ds.map Direction.ax) dof → A (i, j) = A (j, i)) ∧
      ∀ x : Int → ℝ,
        0 ≤ ∑ i ∈ Finset.range (total (ds.map Direction.ax) dof), ∑ j ∈ Finset.range (total (ds.map Direction.ax) dof),
          x i * A ((i:Int), (j:Int)) * x j ∧
        ((∀ i : Nat, i < total (ds.map Direction.ax) dof →
            ∑ j ∈ Finset.range (total (ds.map Direction.ax) dof), A ((i:Int), (j:Int)) * x j = 0) ↔
          ∀ i : Nat, i < dof → ∀ z z', InBox ((ds.map Direction.ax).map Axis.nnp) z → InBox ((ds.map Direction.ax).map Axis.nnp) z' →
            x (Blk.unknown Ls (ds.map Direction.ax) dof z i) = x (Blk.unknown Ls (ds.map Direction.ax) dof z' i)) := by
  obtain ⟨A, hA, hM⟩ := gram_matrix S hI cb k hK hist pw w
  refine ⟨A, hA, ?_⟩
  obtain ⟨l1, l3, hw⟩ := setup_facts S
  have hw' := Prb.setup_wf S
  have hmap : ∀ {e}, InBox ((ds.map Direction.ax).map Axis.nel) e → InBox (ds.map fun δ => δ.ax.nel) e := by
    intro e he; rw [List.map_map] at he; exact he
  have hpos : ∀ e, InBox (ds.map fun δ => δ.ax.nel) e → ∀ q ∈ (elt e).points none, 0 < ρ q.data * (q.detJac * q.weight) :=
    fun e he q hq => mul_pos (hρ e he q hq) (mul_pos (hJ e he q hq) (weight_pos S hT hs hI he hq))
  refine ⟨fun i j i0 i1 j0 j1 => ?_, fun x => ?_⟩
  · obtain ⟨z, c, hz, hc, rfl⟩ := unknown_onto S i0 i1
    obtain ⟨y, d, hy, hd, rfl⟩ := unknown_onto S j0 j1
    have e1 := hM z c y d hz hy hc hd
    have e2 := hM y d z c hy hz hd hc
    refine e1.trans (Eq.trans (sumMat_symm (ds.map Direction.ax) dof _ (fun e he i j hi hj => ?_) z c y d hc hd) e2.symm)
    exact gram_symm _ hw' dof _ ρ k hk _ hi hj
  set u : List Int → Nat → ℝ := fun z i => x (Blk.unknown Ls (ds.map Direction.ax) dof z i) with hu
  have hf := fun y => global_form S dof _ A hM y x
  have hnn : ∀ e ∈ indices ((ds.map Direction.ax).map Axis.nel), 0 ≤ elemForm (unknowns (ds.map Direction.ax) dof)
      (fun i j => pointSum ((elt e).points none) fun p => k p ((i:Int) * unknowns (ds.map Direction.ax) dof + j))
      (valuesOf false (ds.map Direction.ax) dof u e) (valuesOf false (ds.map Direction.ax) dof u e) :=
    fun e he => (energy_zero hk (hpos e (hmap ((mem_indices _ _).1 he))) _ e).1
  refine ⟨?_, fun h0 i hi z z' hz hz' => ?_, fun hx i hi => ?_⟩
  · rw [hf x]
    refine List.sum_nonneg fun a ha => ?_
    obtain ⟨e, he, rfl⟩ := List.mem_map.1 ha
    exact hnn e he
  · have hq : ∑ i ∈ Finset.range (total (ds.map Direction.ax) dof), ∑ j ∈ Finset.range (total (ds.map Direction.ax) dof),
          x i * A ((i:Int), (j:Int)) * x j = 0 := by
      refine Finset.sum_eq_zero fun i hi => ?_
      rw [show ∑ j ∈ Finset.range (total (ds.map Direction.ax) dof), x i * A ((i:Int), (j:Int)) * x j =
        x i * ∑ j ∈ Finset.range (total (ds.map Direction.ax) dof), A ((i:Int), (j:Int)) * x j by
        rw [Finset.mul_sum]; exact Finset.sum_congr rfl fun j _ => by ring, h0 i (Finset.mem_range.1 hi), mul_zero]
    rw [hf x] at hq
    have h1 := sum_zero_all hnn hq
    obtain ⟨e, t, he, ht, rfl⟩ := node_covered hw' S.cond hz
    obtain ⟨e', t', he', ht', rfl⟩ := node_covered hw' S.cond hz'
    refine connected (ds.map Direction.ax) hw' (fun z => u z i) (fun e he => ?_) e e' he he' t t' ht ht'
    obtain ⟨mem, hm⟩ := hI.points e (hmap he)
    refine element_const l1 l3 hT hs hw hE (c e) (hc e) (hmap he) hm (fun q hq => (hJ e (hmap he) q hq).ne') _ i fun q hq j => ?_
    exact ((energy_zero hk (hpos e (hmap he)) _ e).2.1 (h1 e ((mem_indices _ _).2 he))) q hq _
      ((List.mem_ofFn (f := fun i (p : PtData ds.length nsd (nenOf (ds.map Direction.ax))) a => p.shape.t1 i a)).2 ⟨j, rfl⟩) i hi
  · have := hf fun j => if j = (i:Int) then 1 else 0
    rw [Finset.sum_eq_single_of_mem i (Finset.mem_range.2 hi) (fun j _ hj => Finset.sum_eq_zero fun l _ => by
      rw [if_neg (by exact_mod_cast hj)]; ring)] at this
    simp only [if_true, one_mul] at this
    rw [this]
    refine List.sum_eq_zero fun a ha => ?_
    obtain ⟨e, he, rfl⟩ := List.mem_map.1 ha
    have he := (mem_indices _ _).1 he
    rw [gram_elem (ds.map Direction.ax) dof _ ρ k hk]
    refine List.sum_eq_zero fun a ha => ?_
    obtain ⟨q, hq, rfl⟩ := List.mem_map.1 ha
    refine mul_eq_zero_of_left (List.sum_eq_zero fun a ha => ?_) _
    obtain ⟨g, hg, rfl⟩ := List.mem_map.1 ha
    obtain ⟨j, rfl⟩ := List.mem_ofFn.1 hg
    refine List.sum_eq_zero fun a ha => ?_
    obtain ⟨l, hl, rfl⟩ := List.mem_map.1 ha
    have hl := List.mem_range.1 hl
    refine mul_eq_zero_of_right _ ?_
    obtain ⟨mem, hm⟩ := hI.points e (hmap he)
    obtain ⟨v, hv⟩ : ∃ v, ∀ t, InBox (nens (ds.map Direction.ax)) t → u (nodeOf false (ds.map Direction.ax) e t) l = v := by
      by_cases h : ∃ t, InBox (nens (ds.map Direction.ax)) t
      · obtain ⟨t0, h0⟩ := h
        exact ⟨_, fun t ht => hx l hl _ _ (nodeOf_inBox S he ((mem_indices _ _).2 ht)) (nodeOf_inBox S he ((mem_indices _ _).2 h0))⟩
      · exact ⟨0, fun t ht => (h ⟨t, ht⟩).elim⟩
    exact const_gradient l1 l3 hT hs hw (c e) (hc e) (hmap he) hm (fun q hq => (hJ e (hmap he) q hq).ne') u l v hv q hq j

end PetIGA.Itg
