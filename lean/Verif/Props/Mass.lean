import Verif.Props.Gram
/-
C87: mass matrices are symmetric positive definite.
-/
set_option linter.unusedSectionVars false
namespace PetIGA.Itg
open PetIGA.Quad PetIGA.Drv PetIGA.Spec PetIGA.Ax PetIGA.Lay PetIGA.Asm PetIGA.Rule PetIGA.Grid PetIGA.Part PetIGA.Ker PetIGA.PCA
open Polynomial

theorem fin_sum {K : Type} [Field K] [LinearOrder K] (axs : List (Axis K)) (f : Fin (nenOf axs) → ℝ) :
    ∑ a, f a = ((indices (nens axs)).map fun t => ent axs f t).sum := by
  rw [← List.sum_ofFn]
  congr 1
  apply List.ext_getElem
  · rw [List.length_ofFn, List.length_map]; rfl
  · intro i h1 h2
    have hi : i < (indices (nens axs)).length := by simpa using h2
    rw [List.getElem_ofFn, List.getElem_map]
    have hz : ((indices (nens axs))[i], i) ∈ (indices (nens axs)).zipIdx := by
      rw [List.mk_mem_zipIdx_iff_getElem?, List.getElem?_eq_getElem hi]
    rw [zipIdx_indices] at hz
    obtain ⟨t, -, ht⟩ := List.mem_map.1 hz
    obtain ⟨rfl, e⟩ := Prod.mk.inj ht
    unfold ent
    rw [dif_pos (by rw [e]; exact hi)]
    congr 1
    exact Fin.ext e.symm

/-! ### The functions of an element are nonnegative with sum 1 -/

theorem bpoly_nonneg {ax : Axis ℝ} (hw : WF ax) {e : Int} (h0 : 0 ≤ e) (h1 : e < ax.nel) {x : ℝ} (hx : ax.U (sp ax e) ≤ x)
    (hx2 : x ≤ ax.U (sp ax e + 1)) (r : Nat) (hr : (r:Int) ≤ ax.p) : 0 ≤ (bpoly ax e r).eval x := by
  have hp := hw.legal.degree
  have hel := isElement_sp hw h0 h1
  have h := (Bsp.C12_partition_of_unity (K := ℝ) ⟨⟨fun _ _ => 0, fun _ => 0, fun _ => 0⟩, fun _ _ => 0, fun _ _ => 0⟩ ax.p.toNat ax.m (sp ax e) ax.U x hw.legal.sorted
    (by rw [Int.toNat_of_nonneg (by omega)]; exact hel)).2.2 hx hx2 r (by omega)
  rw [show (0:Int) = ((0:Nat):Int) from rfl, Bsp.C13_library_call _ ax.p.toNat ax.m (sp ax e) ax.U x hw.legal.sorted
    (by rw [Int.toNat_of_nonneg (by omega)]; exact hel) r (by omega) 0 (by omega), Int.toNat_of_nonneg (by omega)] at h
  exact h

/-- The point lies in the element. -/
def InCell (axs : List (Axis ℝ)) (e : List Int) (xs : List ℝ) : Prop :=
  List.Forall₂ (fun ab x => ab.1 ≤ x ∧ x ≤ ab.2) (cellBox axs e) xs

theorem tensor_nonneg : ∀ (axs : List (Axis ℝ)) (e t : List Int) (xs : List ℝ), (∀ ax ∈ axs, WF ax) →
    InBox (axs.map fun ax => ax.nel) e → InBox (nens axs) t → InCell axs e xs →
    0 ≤ evalProd (bpolys axs e (List.replicate axs.length 0) t) xs
  | [], _, _, _, _, he, ht, hx => by
    cases he; cases ht; cases hx
    simp [bpolys, evalProd]
  | ax :: axs, _, _, _, hw, he, ht, hx => by
    cases he with
    | cons he0 he =>
    change InBox ((ax.p + 1) :: nens axs) _ at ht
    cases ht with
    | cons ht0 ht =>
    rename_i e0 es i is
    rw [InCell, show cellBox (ax :: axs) (e0 :: es) = cell ax e0 :: cellBox axs es from rfl] at hx
    cases hx with
    | cons hx0 hx =>
    have ih := tensor_nonneg axs es is _ (fun a h => hw a (by simp [h])) he ht hx
    simp only [List.length_cons, List.replicate_succ, bpolys, evalProd, List.zipWith_cons_cons, List.prod_cons]
    exact mul_nonneg (bpoly_nonneg (hw ax (by simp)) he0.1 he0.2 hx0.1 hx0.2 _ (by omega)) ih

theorem tensor_one : ∀ (axs : List (Axis ℝ)) (e : List Int) (xs : List ℝ), (∀ ax ∈ axs, WF ax) →
    InBox (axs.map fun ax => ax.nel) e → xs.length = axs.length →
    ((indices (nens axs)).map fun t => evalProd (bpolys axs e (List.replicate axs.length 0) t) xs).sum = 1
  | [], _, _, _, he, hx => by
    cases he
    simp [nens, indices, bpolys, evalProd]
  | ax :: axs, _, x :: xs, hw, he, hx => by
    cases he with
    | cons he0 he =>
    rename_i e0 es
    have ih := tensor_one axs es xs (fun a h => hw a (by simp [h])) he (by simpa using hx)
    have hp := (hw ax (by simp)).legal.degree
    rw [show nens (ax :: axs) = (ax.p + 1) :: nens axs from rfl, sum_indices]
    simp only [List.length_cons, List.replicate_succ, bpolys, evalProd, List.zipWith_cons_cons, List.prod_cons, List.sum_map_mul_left]
    rw [List.sum_map_mul_right]
    rw [show ((indices (nens axs)).map fun t => (List.zipWith (fun (p : ℝ[X]) x => p.eval x) (bpolys axs es (List.replicate axs.length 0) t) xs).prod).sum = 1 from ih,
      mul_one, show (ax.p + 1).toNat = ax.p.toNat + 1 by omega, ← finset_list]
    have := congrArg (fun P => P.eval x) (bpoly_sum (hw ax (by simp)) he0.1 he0.2)
    simp only [eval_finset_sum, eval_one] at this
    exact this
  | _ :: _, _, [], _, _, hx => by simp at hx

theorem lines_inside : ∀ {ds : List (Direction Line)} {e : List Int} {pts : List (Pt Line)}, (∀ δ ∈ ds, WF δ.ax) →
    (∀ δ ∈ ds, ∀ x ∈ δ.X, -1 ≤ x ∧ x ≤ 1) → InBox (ds.map fun δ => δ.ax.nel) e →
    List.Forall₂ (fun l p => p ∈ l) (lines ds e) pts → InCell (ds.map Direction.ax) e (pts.map Pt.x)
  | [], _, _, _, _, he, hp => by cases he; cases hp; exact .nil
  | δ :: ds, _, _, hw, hX, he, hp => by
    cases he with
    | cons he0 he =>
    rename_i e0 es
    rw [show lines (δ :: ds) (e0 :: es) = (δ.X.zip δ.W).map (ptOf δ (sp δ.ax e0)) :: lines ds es from rfl] at hp
    cases hp with
    | cons hp0 hp =>
    obtain ⟨xw, hxw, rfl⟩ := List.mem_map.1 hp0
    have hx := hX δ (by simp) xw.1 (List.of_mem_zip hxw).1
    have hel := (isElement_sp (hw δ (by simp)) he0.1 he0.2).2.2
    refine .cons ?_ (lines_inside (fun d h => hw d (by simp [h])) (fun d h => hX d (by simp [h])) he hp)
    simp only [ptOf, cell]
    constructor <;> nlinarith

theorem lines_J : ∀ {ds : List (Direction Line)} {e : List Int} {pts : List (Pt Line)}, (∀ δ ∈ ds, WF δ.ax) →
    InBox (ds.map fun δ => δ.ax.nel) e → List.Forall₂ (fun l p => p ∈ l) (lines ds e) pts → 0 < (pts.map Pt.J).prod
  | [], _, _, _, he, hp => by cases he; cases hp; simp
  | δ :: ds, _, _, hw, he, hp => by
    cases he with
    | cons he0 he =>
    rename_i e0 es
    rw [show lines (δ :: ds) (e0 :: es) = (δ.X.zip δ.W).map (ptOf δ (sp δ.ax e0)) :: lines ds es from rfl] at hp
    cases hp with
    | cons hp0 hp =>
    obtain ⟨xw, hxw, rfl⟩ := List.mem_map.1 hp0
    have hel := (isElement_sp (hw δ (by simp)) he0.1 he0.2).2.2
    have ih := lines_J (fun d h => hw d (by simp [h])) he hp
    simp only [List.map_cons, List.prod_cons, ptOf]
    exact mul_pos (by linarith) ih

theorem lines_w : ∀ {ds : List (Direction Line)} {e : List Int} {pts : List (Pt Line)}, (∀ δ ∈ ds, δ.Tabulated) →
    List.Forall₂ (fun l p => p ∈ l) (lines ds e) pts → 0 < (pts.map Pt.w).prod
  | [], _, _, _, hp => by cases hp; simp
  | δ :: ds, [], _, _, hp => by cases hp; simp
  | δ :: ds, e0 :: es, _, hT, hp => by
    rw [show lines (δ :: ds) (e0 :: es) = (δ.X.zip δ.W).map (ptOf δ (sp δ.ax e0)) :: lines ds es from rfl] at hp
    cases hp with
    | cons hp0 hp =>
    obtain ⟨xw, hxw, rfl⟩ := List.mem_map.1 hp0
    obtain ⟨huge, n, -, -, -, hW, -, -⟩ := elems_of (hT δ (by simp))
    have ih := lines_w (fun d h => hT d (by simp [h])) hp
    simp only [List.map_cons, List.prod_cons, ptOf]
    exact mul_pos (hW _ (List.of_mem_zip hxw).2) ih

/-! ### The tables at a point -/

theorem tabulate_basis {d nsd : Nat} {ι : Type} [Fintype ι] {c : PtIn d nsd ι} {N : Tab ℝ d ι} {J : ℝ} {mem o : PtOut d nsd ι}
    (h : Ker.tabulate c N J mem = .ok o) : o.basis = basisOf c N ∧ (pointShape c o).t0 = (basisOf c N).t0 := by
  have hs : ∀ (E : Tab ℝ d (Fin d)) (B m : Tab ℝ d ι), (shapeFunctions c.order E B m).t0 = m.t0 := by
    intro E B m
    unfold shapeFunctions
    split_ifs <;> rfl
  unfold Ker.tabulate at h
  unfold pointShape
  cases hg : c.geometry with
  | none =>
    rw [hg] at h
    dsimp only at h
    cases hb : c.boundary with
    | none =>
      rw [hb] at h
      simp only [Res.ok.injEq] at h
      subst h
      simp
    | some as =>
      rw [hb] at h
      simp only [Res.ok.injEq] at h
      subst h
      simp
  | some C =>
    rw [hg] at h
    dsimp only at h
    by_cases hd : nsd = d
    · subst hd
      rw [dif_pos rfl] at h
      dsimp only at h
      by_cases hx : c.debug = true ∧ (inverseMap c.order (geometryMap c.order C (basisOf c N) mem.mapX) (mem.detX, mem.mapU)).1 ≤ 0
      · rw [if_pos hx] at h; simp at h
      rw [if_neg hx] at h
      cases hb : c.boundary with
      | none =>
        rw [hb] at h
        simp only [Res.ok.injEq] at h
        subst h
        simp [hs]
      | some as =>
        rw [hb] at h
        simp only [Res.ok.injEq] at h
        subst h
        simp [hs]
    · rw [dif_neg hd] at h
      have hd' : ¬ d = nsd := fun e => hd e.symm
      cases hb : c.boundary with
      | none =>
        rw [hb] at h
        simp only [Res.ok.injEq] at h
        subst h
        simp [hd']
      | some as =>
        rw [hb] at h
        simp only [Res.ok.injEq] at h
        subst h
        simp [hd']

/-- The measure is positive: without a map onto a space of the same dimension, or in a build with error checking. -/
theorem detJac_pos {d nsd : Nat} {ι : Type} [Fintype ι] {c : PtIn d nsd ι} {N : Tab ℝ d ι} {J : ℝ} {mem o : PtOut d nsd ι}
    (h : Ker.tabulate c N J mem = .ok o) (hJ : 0 < J) (hb : c.boundary = none)
    (hc : c.geometry = none ∨ nsd ≠ d ∨ c.debug = true ∨ c.collocation = true) : 0 < o.detJac := by
  unfold Ker.tabulate at h
  rw [hb] at h
  cases hg : c.geometry with
  | none =>
    rw [hg] at h
    simp only [Res.ok.injEq] at h
    subst h
    exact hJ
  | some C =>
    rw [hg] at h
    dsimp only at h
    by_cases hd : nsd = d
    · subst hd
      rw [dif_pos rfl] at h
      dsimp only at h
      by_cases hx : c.debug = true ∧ (inverseMap c.order (geometryMap c.order C (basisOf c N) mem.mapX) (mem.detX, mem.mapU)).1 ≤ 0
      · rw [if_pos hx] at h; simp at h
      · rw [if_neg hx] at h
        simp only [Res.ok.injEq] at h
        subst h
        dsimp only
        by_cases hcc : c.collocation = true
        · rw [if_pos hcc]; exact hJ
        · rw [if_neg hcc]
          have hdb : c.debug = true := by
            rcases hc with h1 | h1 | h1 | h1
            · rw [hg] at h1; simp at h1
            · exact absurd rfl h1
            · exact h1
            · exact absurd h1 hcc
          exact mul_pos hJ (not_le.1 fun h1 => hx ⟨hdb, h1⟩)
    · rw [dif_neg hd] at h
      simp only [Res.ok.injEq] at h
      subst h
      exact hJ

variable {g2 : Guess2} {g3 : Guess3} {size : Int} {procs : List Int} {axes : List (Axis ℝ)} {Ls : List (Layout ℝ)}

/-- Rational functions have positive weights and the points are in the elements. -/
def Weights {d nsd n : Nat} (ds : List (Direction Line)) (c : PtIn d nsd (Fin n)) : Prop :=
  ∀ W, c.rational = some W → (∀ a, 0 < W a) ∧ ∀ δ ∈ ds, ∀ x ∈ δ.X, -1 ≤ x ∧ x ≤ 1

/-- A field whose values vanish at all points of the element is zero on the element. -/
theorem element_zero {ds : List (Direction Line)} (h1 : 1 ≤ ds.length) (h3 : ds.length ≤ 3)
    (hT : ∀ δ ∈ ds, δ.Tabulated) (hs : ∀ δ ∈ ds, IsSpline δ) (hw : ∀ δ ∈ ds, WF δ.ax) (hE : ∀ δ ∈ ds, Enough δ) {nsd : Nat}
    (c : PtIn ds.length nsd (Fin (nenOf (ds.map Direction.ax)))) (hR : Weights ds c) {e : List Int}
    (he : InBox (ds.map fun δ => δ.ax.nel) e) {mem} {qs} (h : tabulateElement c (ds.map Direction.B) e mem = .ok qs)
    (u : List Int → Nat → ℝ) (k : Nat) (hz : ∀ q ∈ qs, combine (ds.map Direction.ax) e q.data.shape.t0 u k = 0) :
    ∀ t ∈ indices (nens (ds.map Direction.ax)), u (nodeOf false (ds.map Direction.ax) e t) k = 0 := by
  obtain ⟨a1, -⟩ := tabulated_points rfl h1 h3 hT hs hw c he mem h
  have hlen : ∀ pts ∈ tensorPoints (lines ds e), (pts.map Pt.x).length = (ds.map Direction.ax).length := by
    intro pts hp
    have := (mem_tensorPoints hp).length_eq
    have h2 := he.length_eq
    unfold lines at this
    simp at this h2 ⊢
    omega
  have he' : InBox ((ds.map Direction.ax).map fun ax => ax.nel) e := by rw [List.map_map]; exact he
  have hw' : ∀ ax ∈ ds.map Direction.ax, WF ax := by
    intro ax hax
    obtain ⟨δ, hδ, rfl⟩ := List.mem_map.1 hax
    exact hw δ hδ
  cases hr : c.rational with
  | none =>
    have := tensor_independent ds e (List.replicate ds.length 0) hT hw hE he (by simp) (by
      intro o ho; rw [List.eq_of_mem_replicate ho]; omega) (fun t => u (nodeOf false (ds.map Direction.ax) e t) k) (by
      intro pts hp
      obtain ⟨q, hq, N, m, o, hN, ho, rfl⟩ := a1 pts hp
      rw [← hz _ hq]
      unfold combine
      congr 1; refine List.map_congr_left fun t ht => ?_
      have hlt := flat_lt_nen (ds.map Direction.ax) ht
      unfold ent
      dsimp only
      rw [dif_pos hlt, (tabulate_basis ho).2, basisOf, hr]
      rw [(hN t ((mem_indices _ _).1 ht) ⟨_, hlt⟩ (by
        have := (flat_range ((mem_indices _ _).1 ht)).1
        simp only; omega)).1])
    intro t ht
    have := this t ht
    rw [diffs_zero] at this
    exact this
  | some W =>
    obtain ⟨hW, hX⟩ := hR W hr
    have := tensor_independent ds e (List.replicate ds.length 0) hT hw hE he (by simp) (by
      intro o ho; rw [List.eq_of_mem_replicate ho]; omega) (fun t => u (nodeOf false (ds.map Direction.ax) e t) k * ent (ds.map Direction.ax) W t) (by
      intro pts hp
      obtain ⟨q, hq, N, m, o, hN, ho, rfl⟩ := a1 pts hp
      have hin := lines_inside hw hX he (mem_tensorPoints hp)
      have hN0 : ∀ t ∈ indices (nens (ds.map Direction.ax)), ent (ds.map Direction.ax) N.t0 t =
          evalProd (bpolys (ds.map Direction.ax) e (List.replicate ds.length 0) t) (pts.map Pt.x) := by
        intro t ht
        have hlt := flat_lt_nen (ds.map Direction.ax) ht
        unfold ent
        rw [dif_pos hlt]
        exact (hN t ((mem_indices _ _).1 ht) ⟨_, hlt⟩ (by
          have := (flat_range ((mem_indices _ _).1 ht)).1
          simp only; omega)).1
      set W0 := ∑ a, W a * N.t0 a with hW0
      have hpos : 0 < W0 := by
        have hnn : ∀ t ∈ indices (nens (ds.map Direction.ax)), 0 ≤ ent (ds.map Direction.ax) (fun a => W a * N.t0 a) t := by
          intro t ht
          have hlt := flat_lt_nen (ds.map Direction.ax) ht
          have h0 := hN0 t ht
          have h1 := tensor_nonneg (ds.map Direction.ax) e t (pts.map Pt.x) hw' he' ((mem_indices _ _).1 ht) hin
          rw [List.length_map, ← h0] at h1
          unfold ent at h1 ⊢
          rw [dif_pos hlt] at h1 ⊢
          exact mul_nonneg (hW _).le h1
        rw [hW0, fin_sum]
        refine lt_of_le_of_ne (List.sum_nonneg (by
          intro a ha
          obtain ⟨t, ht, rfl⟩ := List.mem_map.1 ha
          exact hnn t ht)) fun hzero => ?_
        have hall := sum_zero_all hnn hzero.symm
        have hone := tensor_one (ds.map Direction.ax) e (pts.map Pt.x) hw' he' (hlen pts hp)
        rw [List.length_map] at hone
        have hz0 : ((indices (nens (ds.map Direction.ax))).map fun t =>
            evalProd (bpolys (ds.map Direction.ax) e (List.replicate ds.length 0) t) (pts.map Pt.x)).sum =
            ((indices (nens (ds.map Direction.ax))).map fun _ => (0:ℝ)).sum := by
          congr 1; refine List.map_congr_left fun t ht => ?_
          rw [← hN0 t ht]
          have h0 := hall t ht
          have hlt := flat_lt_nen (ds.map Direction.ax) ht
          unfold ent at h0 ⊢
          rw [dif_pos hlt] at h0 ⊢
          exact (mul_eq_zero.1 h0).resolve_left (hW _).ne'
        rw [hone] at hz0
        simp at hz0
      have hc0 := hz _ hq
      have e1 : ((indices (nens (ds.map Direction.ax))).map fun t => u (nodeOf false (ds.map Direction.ax) e t) k * ent (ds.map Direction.ax) W t *
          evalProd (bpolys (ds.map Direction.ax) e (List.replicate ds.length 0) t) (pts.map Pt.x)).sum =
          combine (ds.map Direction.ax) e (basisOf c N).t0 u k * W0 := by
        unfold combine
        rw [← List.sum_map_mul_right]
        congr 1; refine List.map_congr_left fun t ht => ?_
        rw [← hN0 t ht]
        have hlt := flat_lt_nen (ds.map Direction.ax) ht
        have hR0 : (basisOf c N).t0 ⟨_, hlt⟩ = W ⟨_, hlt⟩ * N.t0 ⟨_, hlt⟩ / W0 := by
          unfold basisOf
          rw [hr]
          dsimp only
          unfold rationalize
          split_ifs <;> rfl
        unfold ent
        rw [dif_pos hlt, dif_pos hlt, dif_pos hlt, hR0]
        field_simp
      rw [e1]
      dsimp only at hc0
      rw [(tabulate_basis ho).2] at hc0
      rw [hc0, zero_mul])
    intro t ht
    have := this t ht
    rw [diffs_zero] at this
    have hlt := flat_lt_nen (ds.map Direction.ax) ht
    unfold ent at this
    rw [dif_pos hlt] at this
    exact (mul_eq_zero.1 this).resolve_right (hW _).ne'

/-- `elt` are the elements of the grid: inside the element loop, with the points made by `IGAElementBuildTabulation` from
the axes, rules, control points and weights, and without boundary forms. -/
structure Interior {nsd : Nat} (ds : List (Direction Line)) (dof : Nat)
    (c : List Int → PtIn ds.length nsd (Fin (nenOf (ds.map Direction.ax))))
    (elt : List Int → Elt ℝ (PtData ds.length nsd (nenOf (ds.map Direction.ax)))) : Prop where
  elements : Elements (ds.map Direction.ax) dof elt
  points : ∀ e, InBox (ds.map fun δ => δ.ax.nel) e →
    ∃ mem, tabulateElement (c e) (ds.map Direction.B) e mem = .ok ((elt e).points none)
  noForms : ∀ e, InBox (ds.map fun δ => δ.ax.nel) e → ∀ a b, (elt e).visit a b = false

theorem integral_interior {V P : Type} [CommRing V] (E : Elt V P) (h : ∀ a b, E.visit a b = false) (R : P → V) :
    integral E R = pointSum (E.points none) R := by
  unfold integral
  have : ∀ b : Nat, ¬ OnSide E b := fun b hb => by have := hb.2; rw [h] at this; simp at this
  simp [this]

theorem setup_facts {ds : List (Direction Line)} (S : Setup g2 g3 false size procs axes (ds.map Direction.ax) Ls) :
    1 ≤ ds.length ∧ ds.length ≤ 3 ∧ (∀ δ ∈ ds, WF δ.ax) := by
  have h1 := Prb.setup_len S
  have h2 := Prb.setup_wf S
  simp at h1 h2
  exact ⟨h1.1, h1.2, h2⟩

/-- The matrix a `GramForm` callback leads to, and its quadratic form. -/
theorem gram_matrix {ds : List (Direction Line)} (S : Setup g2 g3 false size procs axes (ds.map Direction.ax) Ls)
    {nsd dof : Nat} {c : List Int → PtIn ds.length nsd (Fin (nenOf (ds.map Direction.ax)))}
    {elt : List Int → Elt ℝ (PtData ds.length nsd (nenOf (ds.map Direction.ax)))} (hI : Interior ds dof c elt)
    (cb : PtData ds.length nsd (nenOf (ds.map Direction.ax)) → (Int → ℝ) → Res (Int → ℝ)) (k)
    (hK : Fills (unknowns (ds.map Direction.ax) dof * unknowns (ds.map Direction.ax) dof) cb k) (hist) (pw) (w) :
    ∃ A, computeMatrix Ls hist dof ⟨elt, pw, w⟩ cb = .ok A ∧ RepresentsMat (ds.map Direction.ax) Ls dof A
      (sumMat (ds.map Direction.ax) dof fun e i j =>
        pointSum ((elt e).points none) fun p => k p (i * unknowns (ds.map Direction.ax) dof + j)) := by
  have hE := hI.elements
  have hu : Represents (ds.map Direction.ax) Ls dof (fun _ : Int => ()) (fun _ _ => ()) := fun _ _ _ _ => rfl
  refine mat_global S hist dof (fun _ => ()) (fun _ => ()) _ hu _ _ fun r' e he => ?_
  obtain ⟨A, h1, h2⟩ := C77_matrix (elt e) (hE e he).1 cb k (by rw [hE.m_eq he, hE.n_eq he]; exact hK) (pw r' e) (w r' e)
  rw [h1]
  refine ⟨_, rfl, fun i j hi hj => ?_⟩
  have := h2 i j (by rw [hE.n_eq he]; exact hi) (by rw [hE.n_eq he]; exact hj)
  rw [hE.n_eq he, integral_interior _ (hI.noForms e (by rw [List.map_map] at he; exact he))] at this
  push_cast
  exact this

theorem weight_pos {ds : List (Direction Line)} (S : Setup g2 g3 false size procs axes (ds.map Direction.ax) Ls)
    (hT : ∀ δ ∈ ds, δ.Tabulated) (hs : ∀ δ ∈ ds, IsSpline δ) {nsd dof : Nat}
    {c : List Int → PtIn ds.length nsd (Fin (nenOf (ds.map Direction.ax)))}
    {elt : List Int → Elt ℝ (PtData ds.length nsd (nenOf (ds.map Direction.ax)))} (hI : Interior ds dof c elt) {e : List Int}
    (he : InBox (ds.map fun δ => δ.ax.nel) e) {q} (hq : q ∈ (elt e).points none) : 0 < q.weight := by
  obtain ⟨h1, h3, hw⟩ := setup_facts S
  obtain ⟨mem, hm⟩ := hI.points e he
  obtain ⟨pts, hp, N, m, o, -, -, rfl⟩ := (tabulated_points rfl h1 h3 hT hs hw (c e) he mem hm).2 q hq
  exact lines_w hT (mem_tensorPoints hp)

/-- **C87**: the matrix `IGAComputeMatrix` assembles for a mass form `∫ ρ u v` (each component separately, `ρ > 0`) is
symmetric positive definite, for every number of processes, every legal axes (periodic or not), every rule with more
than `p` different points and positive weights, every geometry with positive Jacobian at the points, and NURBS with
positive weights. -/
theorem C87_mass {ds : List (Direction Line)} (S : Setup g2 g3 false size procs axes (ds.map Direction.ax) Ls)
    (hT : ∀ δ ∈ ds, δ.Tabulated) (hs : ∀ δ ∈ ds, IsSpline δ) (hE : ∀ δ ∈ ds, Enough δ) {nsd dof : Nat}
    {c : List Int → PtIn ds.length nsd (Fin (nenOf (ds.map Direction.ax)))} (hR : ∀ e, Weights ds (c e))
    {elt : List Int → Elt ℝ (PtData ds.length nsd (nenOf (ds.map Direction.ax)))} (hI : Interior ds dof c elt)
    (hJ : ∀ e, InBox (ds.map fun δ => δ.ax.nel) e → ∀ q ∈ (elt e).points none, 0 < q.detJac)
    (cb : PtData ds.length nsd (nenOf (ds.map Direction.ax)) → (Int → ℝ) → Res (Int → ℝ)) (k) (ρ)
    (hK : Fills (unknowns (ds.map Direction.ax) dof * unknowns (ds.map Direction.ax) dof) cb k)
    (hk : GramForm dof (nenOf (ds.map Direction.ax)) [fun p a => p.shape.t0 a] ρ k)
    (hρ : ∀ e, InBox (ds.map fun δ => δ.ax.nel) e → ∀ q ∈ (elt e).points none, 0 < ρ q.data) (hist) (pw) (w) :
    ∃ A, computeMatrix Ls hist dof ⟨elt, pw, w⟩ cb = .ok A ∧ PosDef (total (ds.map Direction.ax) dof) fun i j => A (i, j) := by
  obtain ⟨A, hA, hM⟩ := gram_matrix S hI cb k hK hist pw w
  refine ⟨A, hA, ?_⟩
  obtain ⟨l1, l3, hw⟩ := setup_facts S
  have hw' := Prb.setup_wf S
  have hpos : ∀ e, InBox (ds.map fun δ => δ.ax.nel) e → ∀ q ∈ (elt e).points none, 0 < ρ q.data * (q.detJac * q.weight) :=
    fun e he q hq => mul_pos (hρ e he q hq) (mul_pos (hJ e he q hq) (weight_pos S hT hs hI he hq))
  have hform := fun (e : List Int) (u : List Int → Nat → ℝ) => gram_elem (ds.map Direction.ax) dof
    [fun (p : PtData ds.length nsd (nenOf (ds.map Direction.ax))) a => p.shape.t0 a] ρ k hk ((elt e).points none) u u e
  have hnn : ∀ e, InBox (ds.map fun δ => δ.ax.nel) e → ∀ u : List Int → Nat → ℝ, ∀ q ∈ (elt e).points none,
      0 ≤ ([fun (p : PtData ds.length nsd (nenOf (ds.map Direction.ax))) a => p.shape.t0 a].map fun g => ((List.range dof).map fun i =>
        combine (ds.map Direction.ax) e (g q.data) u i * combine (ds.map Direction.ax) e (g q.data) u i).sum).sum *
        (ρ q.data * (q.detJac * q.weight)) := by
    intro e he u q hq
    refine mul_nonneg ?_ (hpos e he q hq).le
    refine List.sum_nonneg fun x hx => ?_
    obtain ⟨g, -, rfl⟩ := List.mem_map.1 hx
    refine List.sum_nonneg fun x hx => ?_
    obtain ⟨i, -, rfl⟩ := List.mem_map.1 hx
    exact mul_self_nonneg _
  refine posDef_of_elements S dof _ A hM (fun e he i j hi hj => gram_symm _ hw' dof _ ρ k hk _ hi hj) (fun e he u => ?_) (fun u hu z i hz hi => ?_)
  · rw [List.map_map] at he
    rw [hform]
    refine List.sum_nonneg fun x hx => ?_
    obtain ⟨q, hq, rfl⟩ := List.mem_map.1 hx
    exact hnn e he u q hq
  · obtain ⟨e, t, he, ht, rfl⟩ := node_covered hw' S.cond hz
    have hz0 := hu e he
    rw [List.map_map] at he
    rw [hform] at hz0
    obtain ⟨mem, hm⟩ := hI.points e he
    refine element_zero l1 l3 hT hs hw hE (c e) (hR e) he hm u i (fun q hq => ?_) t ((mem_indices _ _).2 ht)
    have h0 := sum_zero_all (hnn e he u) hz0 q hq
    have h1 := (mul_eq_zero.1 h0).resolve_right (hpos e he q hq).ne'
    simp only [List.map_cons, List.map_nil, List.sum_cons, List.sum_nil, add_zero] at h1
    have h2 := sum_zero_all (fun i _ => mul_self_nonneg _) h1 i (List.mem_range.2 hi)
    exact mul_self_eq_zero.1 h2

/-- **C87**, in a build with error checking (`PETSC_USE_DEBUG`), or without a map onto a space of the same dimension: the
Jacobian needs no hypothesis, that the elements could be tabulated is enough. -/
theorem C87_mass_checked {ds : List (Direction Line)} (S : Setup g2 g3 false size procs axes (ds.map Direction.ax) Ls)
    (hT : ∀ δ ∈ ds, δ.Tabulated) (hs : ∀ δ ∈ ds, IsSpline δ) (hE : ∀ δ ∈ ds, Enough δ) {nsd dof : Nat}
    {c : List Int → PtIn ds.length nsd (Fin (nenOf (ds.map Direction.ax)))} (hR : ∀ e, Weights ds (c e))
    (hc : ∀ e, (c e).boundary = none ∧ ((c e).geometry = none ∨ nsd ≠ ds.length ∨ (c e).debug = true))
    {elt : List Int → Elt ℝ (PtData ds.length nsd (nenOf (ds.map Direction.ax)))} (hI : Interior ds dof c elt)
    (cb : PtData ds.length nsd (nenOf (ds.map Direction.ax)) → (Int → ℝ) → Res (Int → ℝ)) (k) (ρ)
    (hK : Fills (unknowns (ds.map Direction.ax) dof * unknowns (ds.map Direction.ax) dof) cb k)
    (hk : GramForm dof (nenOf (ds.map Direction.ax)) [fun p a => p.shape.t0 a] ρ k)
    (hρ : ∀ e, InBox (ds.map fun δ => δ.ax.nel) e → ∀ q ∈ (elt e).points none, 0 < ρ q.data) (hist) (pw) (w) :
    ∃ A, computeMatrix Ls hist dof ⟨elt, pw, w⟩ cb = .ok A ∧ PosDef (total (ds.map Direction.ax) dof) fun i j => A (i, j) := by
  refine C87_mass S hT hs hE hR hI (fun e he q hq => ?_) cb k ρ hK hk hρ hist pw w
  obtain ⟨h1, h3, hw⟩ := setup_facts S
  obtain ⟨mem, hm⟩ := hI.points e he
  obtain ⟨pts, hp, N, m, o, -, ho, rfl⟩ := (tabulated_points rfl h1 h3 hT hs hw (c e) he mem hm).2 q hq
  obtain ⟨hb, h⟩ := hc e
  refine detJac_pos ho (lines_J hw he (mem_tensorPoints hp)) hb ?_
  rcases h with h | h | h
  · exact .inl h
  · exact .inr (.inl h)
  · exact .inr (.inr (.inl h))

end PetIGA.Itg
