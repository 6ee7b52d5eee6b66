import Verif.Props.ShapeSums
import Verif.Props.DemoForms
import Verif.Props.Energy
import Verif.Props.Project
/-
C107: the assembled residuals of the time-dependent demo programs conserve what the equations conserve.
-/
set_option linter.unusedSectionVars false
namespace PetIGA.Frm
open PetIGA.Itg PetIGA.Ker PetIGA.Demo PetIGA.Drv PetIGA.Spec PetIGA.Ax PetIGA.Lay PetIGA.Asm PetIGA.Rule PetIGA.Grid PetIGA.Part PetIGA.Fix PetIGA.Quad

/-! ### Specification -/

/-- The integral of `g` over the domain, by the quadrature rule: the sum over all elements and quadrature points. -/
noncomputable def domainIntegral {P : Type} (axs : List (Axis ℝ)) (elt : List Int → Elt ℝ P) (g : List Int → P → ℝ) : ℝ :=
  ((indices (axs.map Axis.nel)).map fun e => pointSum ((elt e).points none) (g e)).sum

/-- The integral over the domain of component `k` of the field with the nodal values `u`. -/
noncomputable def fieldIntegral {d nsd : Nat} (axs : List (Axis ℝ)) (elt : List Int → Elt ℝ (PtData d nsd (nenOf axs))) (u : List Int → Nat → ℝ) (k : Nat) : ℝ :=
  domainIntegral axs elt fun e p => combine axs e p.shape.t0 u k

/-- The sum of the rows of component `k` of a vector. -/
noncomputable def rowSum (Ls : List (Layout ℝ)) (axs : List (Axis ℝ)) (dof : Nat) (F : Int → ℝ) (k : Nat) : ℝ :=
  ((indices (axs.map Axis.nnp)).map fun z => F (Blk.unknown Ls axs dof z k)).sum

/-! ### Sums of rows -/

variable {g2 : Guess2} {g3 : Guess3} {size : Int} {procs : List Int} {axes : List (Axis ℝ)} {Ls : List (Layout ℝ)}

theorem sumVec_rows {axs : List (Axis ℝ)} (S : Setup g2 g3 false size procs axes axs Ls) {dof : Nat} (ρ : List Int → Nat → ℝ) {k : Nat} (hk : k < dof) :
    ((indices (axs.map Axis.nnp)).map fun z => sumVec axs dof ρ z k).sum =
      ((indices (axs.map Axis.nel)).map fun e => ((indices (nens axs)).map fun t => ρ e (slot axs dof t k)).sum).sum := by
  have h := sumVec_work S dof (fun _ c => if c = k then 1 else 0) ρ
  have one : ∀ f : Nat → ℝ, ((List.range dof).map fun c => f c * if c = k then 1 else 0).sum = f k := by
    intro f
    rw [sum_nodup List.nodup_range (List.mem_range.2 hk)]
    · simp
    · intro y _ hy
      simp [hy]
  simp only [sum_unknowns, one] at h
  exact h

theorem pointSum_list {P α : Type} (qs : List (QP ℝ P)) (l : List α) (g : α → P → ℝ) :
    (l.map fun t => pointSum qs (g t)).sum = pointSum qs fun p => (l.map fun t => g t p).sum := by
  unfold pointSum
  rw [Drv.sum_swap]
  congr 1; apply List.map_congr_left; intro q _
  rw [Drv.sum_mul]

theorem pointSum_congr {P : Type} (qs : List (QP ℝ P)) {f g : P → ℝ} (h : ∀ q ∈ qs, f q.data = g q.data) : pointSum qs f = pointSum qs g := by
  unfold pointSum
  congr 1; apply List.map_congr_left; intro q hq
  rw [h q hq]

theorem rows_total {ds : List (Direction Line)} (S : Setup g2 g3 false size procs axes (ds.map Direction.ax) Ls)
    {nsd dof : Nat} {ops : List (Form.Op ℝ)} {UG : Option (List Int → Int → ℝ)}
    {c : List Int → PtIn ds.length nsd (Fin (nenOf (ds.map Direction.ax)))}
    {elt : List Int → Elt ℝ (PtData ds.length nsd (nenOf (ds.map Direction.ax)))} (hI : Assembled ds ops dof UG c elt) (hno : NoLoads ops)
    (k : Fin dof) (hfree : ∀ z, prescribedAt (ds.map Direction.ax) ops UG (z, ((k:Nat):Int)) = none) {F : Int → ℝ} (u : List Int → Nat → ℝ)
    (R : List Int → PtData ds.length nsd (nenOf (ds.map Direction.ax)) → Int → ℝ)
    (r : List Int → PtData ds.length nsd (nenOf (ds.map Direction.ax)) → Fin (nenOf (ds.map Direction.ax)) → Fin dof → ℝ)
    (hr : ∀ e p a, R e p (at1 dof a k) = r e p a k)
    (hF : Represents (ds.map Direction.ax) Ls dof F (sumVec (ds.map Direction.ax) dof fun e => residualAt (elt e) (valuesOf false (ds.map Direction.ax) dof u e) (R e))) :
    rowSum Ls (ds.map Direction.ax) dof F k = domainIntegral (ds.map Direction.ax) elt fun e p => ∑ a, r e p a k := by
  have hw := Prb.setup_wf S
  have e1 : ∀ z ∈ indices ((ds.map Direction.ax).map Axis.nnp), F (Blk.unknown Ls (ds.map Direction.ax) dof z k) =
      sumVec (ds.map Direction.ax) dof (fun e i => integral (elt e) fun p => R e p i) z k := by
    intro z hz
    rw [Blk.unknown, hF z k ((mem_indices _ _).1 hz) k.2, residual_eq hw hI.built u R z k k.2, hfree]
    dsimp only
    rw [no_loads hw hI.built hno z k k.2, sub_zero]
    rfl
  unfold rowSum domainIntegral
  rw [List.map_congr_left e1, sumVec_rows S _ k.2]
  congr 1; apply List.map_congr_left; intro e he
  have he' := (mem_indices _ _).1 he
  have he2 : InBox (ds.map fun δ => δ.ax.nel) e := by rw [List.map_map] at he'; exact he'
  simp only [integral_interior (elt e) (hI.noForms e he2)]
  rw [pointSum_list]
  refine pointSum_congr _ fun q _ => ?_
  rw [fin_sum]
  congr 1; apply List.map_congr_left; intro t ht
  have hlt := flat_lt_nen (ds.map Direction.ax) ht
  unfold ent
  rw [dif_pos hlt]
  exact hr e q.data ⟨_, hlt⟩

/-- The value `IGAPointFormValue` computes at a point of an element. -/
theorem value_combine {d nsd dof : Nat} (axs : List (Axis ℝ)) (p : PtData d nsd (nenOf axs)) (u : List Int → Nat → ℝ) (e : List Int) (k : Fin dof) :
    value dof p (valuesOf false axs dof u e) k = combine axs e p.shape.t0 u k := by
  have hfld : ∀ t, InBox (nens axs) t → ∀ a : Fin (nenOf axs), (a:Int) = flat (nens axs) t →
      u (nodeOf false axs e t) k = fld (dof := dof) (valuesOf false axs dof u e) k a := by
    intro t ht a ha
    rw [← valuesOf_slot axs dof u e ht k.2]
    unfold fld slot
    rw [← ha, Int.toNat_natCast]
  rw [combine_fin axs rfl e p.shape.t0 (fun a => fld (dof := dof) (valuesOf false axs dof u e) k a) u k hfld]
  unfold value Ker.evaluate
  exact Finset.sum_congr rfl fun a _ => mul_comm _ _

theorem combine_congr (axs : List (Axis ℝ)) (e : List Int) (g : Fin (nenOf axs) → ℝ) {u v : List Int → Nat → ℝ} {k : Nat} (h : ∀ z, u z k = v z k) :
    combine axs e g u k = combine axs e g v k := by
  unfold combine
  simp only [h]

/-- Sums of the functions at a point and of their derivatives. -/
def PartUnity {d nsd n : Nat} (p : PtData d nsd n) : Prop :=
  ∑ a, p.shape.t0 a = 1 ∧ (∀ i, ∑ a, p.shape.t1 i a = 0) ∧ ∀ i j, ∑ a, p.shape.t2 i j a = 0

theorem ifunction_rows {ds : List (Direction Line)} (S : Setup g2 g3 false size procs axes (ds.map Direction.ax) Ls)
    (hT : ∀ δ ∈ ds, δ.Tabulated) (hs : ∀ δ ∈ ds, IsSpline δ)
    {nsd dof : Nat} {ops : List (Form.Op ℝ)} {UG : Option (List Int → Int → ℝ)}
    {c : List Int → PtIn ds.length nsd (Fin (nenOf (ds.map Direction.ax)))} (hR : ∀ e, Weights ds (c e)) (hord : ∀ e, 2 ≤ (c e).order)
    {elt : List Int → Elt ℝ (PtData ds.length nsd (nenOf (ds.map Direction.ax)))} (hI : Assembled ds ops dof UG c elt) (hno : NoLoads ops)
    (cb : PtData ds.length nsd (nenOf (ds.map Direction.ax)) → ℝ → List ℝ → ℝ → List ℝ → (Int → ℝ) → Res (Int → ℝ))
    (r : PtData ds.length nsd (nenOf (ds.map Direction.ax)) → ℝ → List ℝ → ℝ → List ℝ → Fin (nenOf (ds.map Direction.ax)) → Fin dof → ℝ)
    (hcb : ∀ p a X t U A, cb p a X t U A = .ok (fillVec (r p a X t U) A)) (hist) (pw) (w) (shift t : ℝ) (vecV vecU : Int → ℝ) (junkV junkU)
    (v u : List Int → Nat → ℝ) (hv : Represents (ds.map Direction.ax) Ls dof vecV v) (hu : Represents (ds.map Direction.ax) Ls dof vecU u) :
    ∃ F, computeIFunction Ls hist dof ⟨elt, pw, w⟩ cb shift vecV t vecU junkV junkU = .ok F ∧
      ∀ k : Fin dof, (∀ z, prescribedAt (ds.map Direction.ax) ops UG (z, ((k:Nat):Int)) = none) →
        ∀ g : List Int → PtData ds.length nsd (nenOf (ds.map Direction.ax)) → ℝ,
          (∀ e p, PartUnity p → ∑ a, r p shift (valuesOf false (ds.map Direction.ax) dof (freeRates (ds.map Direction.ax) ops UG v) e) t
            (valuesOf false (ds.map Direction.ax) dof (imposed (ds.map Direction.ax) ops UG u) e) a k = g e p) →
          rowSum Ls (ds.map Direction.ax) dof F k = domainIntegral (ds.map Direction.ax) elt g := by
  have hw := Prb.setup_wf S
  obtain ⟨l1, l3, hw'⟩ := setup_facts S
  have hE := built_elements hw hI.built
  obtain ⟨F, h1, h2⟩ := vec_global S hist dof _ (fun rj => (junkV rj, junkU rj)) _ (represents_pair hv hu) (fun r e X =>
      entries (ifunction (elt e) cb shift (X.map Prod.fst) t (X.map Prod.snd) (pw r e) (w r e)))
    (fun e => residualAt (elt e) (valuesOf false (ds.map Direction.ax) dof u e) (fun p => outcome (cb p shift
      (withoutRates (elt e) (valuesOf false (ds.map Direction.ax) dof v e)) t (withValues (elt e) (valuesOf false (ds.map Direction.ax) dof u e))))) fun r' e he => by
      simp only [valuesOf_map]
      exact element_vec hE he (C77_ifunction (elt e) (hE e he).1 cb (fun p a X t U => outcome (cb p a X t U)) (by
        rw [hE.m_eq he]
        exact fun a X t U => fills_vec _ (fun p => r p a X t U) fun p A => hcb p a X t U A) _ _ _ _ _ _)
  refine ⟨F, h1, fun k hfree g hg => ?_⟩
  rw [rows_total S hI hno k hfree u _ (fun e p => r p shift (withoutRates (elt e) (valuesOf false (ds.map Direction.ax) dof v e)) t
    (withValues (elt e) (valuesOf false (ds.map Direction.ax) dof u e))) (fun e p a => by simp only [outcome, hcb, fillVec_at]) h2]
  unfold domainIntegral
  congr 1; apply List.map_congr_left; intro e he
  have he' := (mem_indices _ _).1 he
  have he2 : InBox (ds.map fun δ => δ.ax.nel) e := by rw [List.map_map] at he'; exact he'
  obtain ⟨mem, hm⟩ := hI.points e he2
  refine pointSum_congr _ fun q hq => ?_
  obtain ⟨s0, s1, s2⟩ := shape_sums l1 l3 hT hs hw' (c e) (hR e) he2 hm q hq
  dsimp only
  rw [withoutRates_free hw hI.built he', withValues_imposed hw hI.built he']
  exact hg e q.data ⟨s0, s1 (by have := hord e; omega), s2 (hord e)⟩

/-- If the callback leaves zeros in the rows of a component at every point, the rows of the component are zero. -/
theorem ifunction_zero {ds : List (Direction Line)} (S : Setup g2 g3 false size procs axes (ds.map Direction.ax) Ls)
    (hT : ∀ δ ∈ ds, δ.Tabulated) (hs : ∀ δ ∈ ds, IsSpline δ)
    {nsd dof : Nat} {ops : List (Form.Op ℝ)} {UG : Option (List Int → Int → ℝ)}
    {c : List Int → PtIn ds.length nsd (Fin (nenOf (ds.map Direction.ax)))} (hR : ∀ e, Weights ds (c e)) (hord : ∀ e, 2 ≤ (c e).order)
    {elt : List Int → Elt ℝ (PtData ds.length nsd (nenOf (ds.map Direction.ax)))} (hI : Assembled ds ops dof UG c elt) (hno : NoLoads ops)
    (cb : PtData ds.length nsd (nenOf (ds.map Direction.ax)) → ℝ → List ℝ → ℝ → List ℝ → (Int → ℝ) → Res (Int → ℝ))
    (r : PtData ds.length nsd (nenOf (ds.map Direction.ax)) → ℝ → List ℝ → ℝ → List ℝ → Fin (nenOf (ds.map Direction.ax)) → Fin dof → ℝ)
    (hcb : ∀ p a X t U A, cb p a X t U A = .ok (fillVec (r p a X t U) A)) (hist) (pw) (w) (shift t : ℝ) (vecV vecU : Int → ℝ) (junkV junkU)
    (v u : List Int → Nat → ℝ) (hv : Represents (ds.map Direction.ax) Ls dof vecV v) (hu : Represents (ds.map Direction.ax) Ls dof vecU u)
    (hfree : ∀ z (k : Nat), k < dof → prescribedAt (ds.map Direction.ax) ops UG (z, (k:Int)) = none)
    (hz : ∀ e p, PartUnity p → ∀ a k, r p shift (valuesOf false (ds.map Direction.ax) dof (freeRates (ds.map Direction.ax) ops UG v) e) t
            (valuesOf false (ds.map Direction.ax) dof (imposed (ds.map Direction.ax) ops UG u) e) a k = 0) :
    ∃ F, computeIFunction Ls hist dof ⟨elt, pw, w⟩ cb shift vecV t vecU junkV junkU = .ok F ∧ Represents (ds.map Direction.ax) Ls dof F fun _ _ => 0 := by
  have hw := Prb.setup_wf S
  obtain ⟨l1, l3, hw'⟩ := setup_facts S
  have hE := built_elements hw hI.built
  obtain ⟨F, h1, h2⟩ := vec_global S hist dof _ (fun rj => (junkV rj, junkU rj)) _ (represents_pair hv hu) (fun r e X =>
      entries (ifunction (elt e) cb shift (X.map Prod.fst) t (X.map Prod.snd) (pw r e) (w r e)))
    (fun e => residualAt (elt e) (valuesOf false (ds.map Direction.ax) dof u e) (fun p => outcome (cb p shift
      (withoutRates (elt e) (valuesOf false (ds.map Direction.ax) dof v e)) t (withValues (elt e) (valuesOf false (ds.map Direction.ax) dof u e))))) fun r' e he => by
      simp only [valuesOf_map]
      exact element_vec hE he (C77_ifunction (elt e) (hE e he).1 cb (fun p a X t U => outcome (cb p a X t U)) (by
        rw [hE.m_eq he]
        exact fun a X t U => fills_vec _ (fun p => r p a X t U) fun p A => hcb p a X t U A) _ _ _ _ _ _)
  refine ⟨F, h1, fun z k hzb hk => ?_⟩
  rw [h2 z k hzb hk, residual_eq hw hI.built u _ z k hk, hfree z k hk]
  dsimp only
  rw [no_loads hw hI.built hno z k hk, sub_zero]
  unfold weak sumVec
  apply List.sum_eq_zero
  intro x hx
  obtain ⟨e, he, rfl⟩ := List.mem_map.1 hx
  apply List.sum_eq_zero
  intro x hx
  obtain ⟨b, hb, rfl⟩ := List.mem_map.1 hx
  beta_reduce
  split_ifs
  · have he' := (mem_indices _ _).1 he
    have he2 : InBox (ds.map fun δ => δ.ax.nel) e := by rw [List.map_map] at he'; exact he'
    obtain ⟨mem, hm⟩ := hI.points e he2
    rw [integral_interior (elt e) (hI.noForms e he2), pointSum_congr (g := fun _ => 0) _ fun q hq => ?_]
    · unfold pointSum
      simp
    · obtain ⟨s0, s1, s2⟩ := shape_sums l1 l3 hT hs hw' (c e) (hR e) he2 hm q hq
      have hlt := flat_lt_nen (ds.map Direction.ax) hb
      rw [withoutRates_free hw hI.built he', withValues_imposed hw hI.built he']
      unfold outcome
      rw [hcb]
      have h := fillVec_at (dof := dof) (r q.data shift (valuesOf false (ds.map Direction.ax) dof (freeRates (ds.map Direction.ax) ops UG v) e) t
            (valuesOf false (ds.map Direction.ax) dof (imposed (ds.map Direction.ax) ops UG u) e)) (fun _ => 0) ⟨_, hlt⟩ ⟨k, hk⟩
      rw [hz e q.data ⟨s0, s1 (by have := hord e; omega), s2 (hord e)⟩] at h
      exact h
  · rfl

/-- The same for an implicit-explicit residual: the rows of a component add up to the integral of what the callback adds to the rows of one point. -/
theorem iefunction_rows {ds : List (Direction Line)} (S : Setup g2 g3 false size procs axes (ds.map Direction.ax) Ls)
    (hT : ∀ δ ∈ ds, δ.Tabulated) (hs : ∀ δ ∈ ds, IsSpline δ)
    {nsd dof : Nat} {ops : List (Form.Op ℝ)} {UG : Option (List Int → Int → ℝ)}
    {c : List Int → PtIn ds.length nsd (Fin (nenOf (ds.map Direction.ax)))} (hR : ∀ e, Weights ds (c e)) (hord : ∀ e, 1 ≤ (c e).order)
    {elt : List Int → Elt ℝ (PtData ds.length nsd (nenOf (ds.map Direction.ax)))} (hI : Assembled ds ops dof UG c elt) (hno : NoLoads ops)
    (cb : PtData ds.length nsd (nenOf (ds.map Direction.ax)) → ℝ → List ℝ → ℝ → List ℝ → ℝ → List ℝ → (Int → ℝ) → Res (Int → ℝ))
    (r : PtData ds.length nsd (nenOf (ds.map Direction.ax)) → ℝ → List ℝ → ℝ → List ℝ → ℝ → List ℝ → Fin (nenOf (ds.map Direction.ax)) → Fin dof → ℝ)
    (hcb : ∀ p a X t U t0 U0 A, cb p a X t U t0 U0 A = .ok (fillVec (r p a X t U t0 U0) A)) (hist) (pw) (w) (shift t t0 : ℝ) (vecV vecU vecU0 : Int → ℝ)
    (junkV junkU junkU0) (v u u0 : List Int → Nat → ℝ) (hv : Represents (ds.map Direction.ax) Ls dof vecV v) (hu : Represents (ds.map Direction.ax) Ls dof vecU u)
    (hu0 : Represents (ds.map Direction.ax) Ls dof vecU0 u0) :
    ∃ F, computeIEFunction Ls hist dof ⟨elt, pw, w⟩ cb shift vecV t vecU t0 vecU0 junkV junkU junkU0 = .ok F ∧
      ∀ k : Fin dof, (∀ z, prescribedAt (ds.map Direction.ax) ops UG (z, ((k:Nat):Int)) = none) →
        ∀ g : List Int → PtData ds.length nsd (nenOf (ds.map Direction.ax)) → ℝ,
          (∀ e p, ∑ a, p.shape.t0 a = 1 → (∀ i, ∑ a, p.shape.t1 i a = 0) →
            ∑ a, r p shift (valuesOf false (ds.map Direction.ax) dof (freeRates (ds.map Direction.ax) ops UG v) e) t
              (valuesOf false (ds.map Direction.ax) dof (imposed (ds.map Direction.ax) ops UG u) e) t0
              (valuesOf false (ds.map Direction.ax) dof (imposed (ds.map Direction.ax) ops UG u0) e) a k = g e p) →
          rowSum Ls (ds.map Direction.ax) dof F k = domainIntegral (ds.map Direction.ax) elt g := by
  have hw := Prb.setup_wf S
  obtain ⟨l1, l3, hw'⟩ := setup_facts S
  have hE := built_elements hw hI.built
  obtain ⟨F, h1, h2⟩ := vec_global S hist dof _ (fun rj => (junkV rj, junkU rj, junkU0 rj)) _ (represents_triple hv hu hu0) (fun r e X =>
      entries (iefunction (elt e) cb shift (X.map Prod.fst) t (X.map fun x => x.2.1) t0 (X.map fun x => x.2.2) (pw r e) (w r e)))
    (fun e => residualAt (elt e) (valuesOf false (ds.map Direction.ax) dof u e) (fun p => outcome (cb p shift
      (withoutRates (elt e) (valuesOf false (ds.map Direction.ax) dof v e)) t (withValues (elt e) (valuesOf false (ds.map Direction.ax) dof u e)) t0
      (withValues (elt e) (valuesOf false (ds.map Direction.ax) dof u0 e))))) fun r' e he => by
      simp only [valuesOf_map]
      exact element_vec hE he (C77_iefunction (elt e) (hE e he).1 cb (fun p a X t U t0 U0 => outcome (cb p a X t U t0 U0)) (by
        rw [hE.m_eq he]
        exact fun a X t U t0 U0 => fills_vec _ (fun p => r p a X t U t0 U0) fun p A => hcb p a X t U t0 U0 A) _ _ _ _ _ _ _ _)
  refine ⟨F, h1, fun k hfree g hg => ?_⟩
  rw [rows_total S hI hno k hfree u _ (fun e p => r p shift (withoutRates (elt e) (valuesOf false (ds.map Direction.ax) dof v e)) t
    (withValues (elt e) (valuesOf false (ds.map Direction.ax) dof u e)) t0 (withValues (elt e) (valuesOf false (ds.map Direction.ax) dof u0 e)))
    (fun e p a => by simp only [outcome, hcb, fillVec_at]) h2]
  unfold domainIntegral
  congr 1; apply List.map_congr_left; intro e he
  have he' := (mem_indices _ _).1 he
  have he2 : InBox (ds.map fun δ => δ.ax.nel) e := by rw [List.map_map] at he'; exact he'
  obtain ⟨mem, hm⟩ := hI.points e he2
  refine pointSum_congr _ fun q hq => ?_
  obtain ⟨s0, s1, -⟩ := shape_sums l1 l3 hT hs hw' (c e) (hR e) he2 hm q hq
  dsimp only
  rw [withoutRates_free hw hI.built he', withValues_imposed hw hI.built he', withValues_imposed hw hI.built he']
  exact hg e q.data s0 (s1 (hord e))

theorem rowSum_zero {axs : List (Axis ℝ)} {dof : Nat} {F : Int → ℝ} (h : Represents axs Ls dof F fun _ _ => 0) {k : Nat} (hk : k < dof) :
    rowSum Ls axs dof F k = 0 := by
  unfold rowSum Blk.unknown
  rw [List.map_congr_left (g := fun _ => (0:ℝ)) fun z hz => h z k ((mem_indices _ _).1 hz) hk]
  simp

theorem fieldIntegral_sub {d nsd : Nat} (axs : List (Axis ℝ)) (elt : List Int → Elt ℝ (PtData d nsd (nenOf axs))) (s : ℝ) (u v : List Int → Nat → ℝ) (k : Nat) :
    fieldIntegral axs elt (fun z c => s * (u z c - v z c)) k = s * (fieldIntegral axs elt u k - fieldIntegral axs elt v k) := by
  have hsub : ∀ {α : Type} (f g : α → ℝ) (l : List α), s * ((l.map f).sum - (l.map g).sum) = (l.map fun p => s * (f p - g p)).sum := by
    intro α f g l
    induction l with
    | nil => simp
    | cons a L ih => simp only [List.map_cons, List.sum_cons]; rw [← ih]; ring
  unfold fieldIntegral domainIntegral pointSum combine
  rw [hsub]
  congr 1; apply List.map_congr_left; intro e _
  rw [hsub]
  congr 1; apply List.map_congr_left; intro q _
  dsimp only
  rw [← sub_mul, ← mul_assoc s, hsub]
  congr 1
  congr 1; apply List.map_congr_left; intro t _
  ring

theorem free_rate {axs : List (Axis ℝ)} {ops : List (Form.Op ℝ)} {UG : Option (List Int → Int → ℝ)} {dof : Nat} {k : Fin dof}
    (h : ∀ z, prescribedAt axs ops UG (z, ((k:Nat):Int)) = none) (v : List Int → Nat → ℝ) (z : List Int) : freeRates axs ops UG v z k = v z k := by
  unfold freeRates
  rw [h]
  simp

theorem free_value {axs : List (Axis ℝ)} {ops : List (Form.Op ℝ)} {UG : Option (List Int → Int → ℝ)} {dof : Nat} {k : Fin dof}
    (h : ∀ z, prescribedAt axs ops UG (z, ((k:Nat):Int)) = none) (v : List Int → Nat → ℝ) (z : List Int) : imposed axs ops UG v z k = v z k := by
  unfold imposed
  rw [h]
  rfl

/-- The value at a point of a component without prescribed values. -/
theorem value_rate {d nsd dof : Nat} {axs : List (Axis ℝ)} {ops : List (Form.Op ℝ)} {UG : Option (List Int → Int → ℝ)} (p : PtData d nsd (nenOf axs))
    (v : List Int → Nat → ℝ) (e : List Int) {k : Fin dof} (h : ∀ z, prescribedAt axs ops UG (z, ((k:Nat):Int)) = none) :
    value dof p (valuesOf false axs dof (freeRates axs ops UG v) e) k = combine axs e p.shape.t0 v k := by
  rw [value_combine, combine_congr axs e _ (free_rate h v)]

theorem value_state {d nsd dof : Nat} {axs : List (Axis ℝ)} {ops : List (Form.Op ℝ)} {UG : Option (List Int → Int → ℝ)} (p : PtData d nsd (nenOf axs))
    (v : List Int → Nat → ℝ) (e : List Int) {k : Fin dof} (h : ∀ z, prescribedAt axs ops UG (z, ((k:Nat):Int)) = none) :
    value dof p (valuesOf false axs dof (imposed axs ops UG v) e) k = combine axs e p.shape.t0 v k := by
  rw [value_combine, combine_congr axs e _ (free_value h v)]

/-- A uniform field: its value at a point, and its derivatives, which vanish. -/
theorem uniform_point {d nsd : Nat} {axs : List (Axis ℝ)} {p : PtData d nsd (nenOf axs)} (hp : PartUnity p) (κ : ℝ) (u : List Int → Nat → ℝ)
    (hu : ∀ z, u z 0 = κ) (e : List Int) :
    value 1 p (valuesOf false axs 1 u e) 0 = κ ∧ (∀ i, grad 1 p (valuesOf false axs 1 u e) 0 i = 0) ∧ del2 1 p (valuesOf false axs 1 u e) 0 = 0 ∧
      ∀ i j, hess 1 p (valuesOf false axs 1 u e) 0 i j = 0 := by
  have hfld : ∀ a : Fin (nenOf axs), fld (dof := 1) (valuesOf false axs 1 u e) 0 a = κ := by
    intro a
    unfold fld
    have hlt : (a:Nat) * 1 + ((0 : Fin 1) : Nat) < (valuesOf false axs 1 u e).length := by
      rw [valuesOf_length]
      have h := a.2
      show (a:Nat) * 1 + 0 < _
      unfold unknowns
      unfold nenOf at h
      omega
    rw [List.getD_eq_getElem _ _ hlt]
    have hmem := List.getElem_mem hlt
    generalize (valuesOf false axs 1 u e)[(a:Nat) * 1 + ((0 : Fin 1) : Nat)] = x at hmem ⊢
    unfold valuesOf at hmem
    obtain ⟨t, -, hx⟩ := List.mem_flatMap.1 hmem
    simp only [List.range_one, List.map_cons, List.map_nil, List.mem_cons, List.not_mem_nil, or_false] at hx
    rw [hx, hu]
  obtain ⟨s0, s1, s2⟩ := hp
  refine ⟨?_, fun i => ?_, ?_, fun i j => ?_⟩
  · simp only [value, Ker.evaluate, hfld, ← Finset.sum_mul, s0, one_mul]
  · simp only [grad, Ker.evaluate, hfld, ← Finset.sum_mul, s1, zero_mul]
  · simp only [del2, Ker.getDel2, hfld, ← Finset.sum_mul]
    rw [Finset.sum_comm]
    simp only [s2, Finset.sum_const_zero, zero_mul]
  · simp only [hess, Ker.evaluate, hfld, ← Finset.sum_mul, s2, zero_mul]

/-! ### Cahn-Hilliard -/

section two
variable {δ₀ δ₁ : Direction Line}

/-- **C107**, demo/CahnHilliard2D.c.  Whatever the state, the sum of all entries of the assembled residual is the integral of the rate of the
concentration, for every decomposition, with periodic directions, weights and geometry. -/
theorem C107_cahn_hilliard_2d (S : Setup g2 g3 false size procs axes ([δ₀, δ₁].map Direction.ax) Ls) (hT : ∀ δ ∈ [δ₀, δ₁], δ.Tabulated)
    (hs : ∀ δ ∈ [δ₀, δ₁], IsSpline δ) {nsd : Nat} {ops : List (Form.Op ℝ)} {UG : Option (List Int → Int → ℝ)}
    {c : List Int → PtIn 2 nsd (Fin (nenOf ([δ₀, δ₁].map Direction.ax)))} (hR : ∀ e, Weights [δ₀, δ₁] (c e)) (hord : ∀ e, 2 ≤ (c e).order)
    {elt : List Int → Elt ℝ (PtData 2 nsd (nenOf ([δ₀, δ₁].map Direction.ax)))} (hI : Assembled [δ₀, δ₁] ops 1 UG c elt)
    (hno : NoLoads ops) (hfree : ∀ z, prescribedAt ([δ₀, δ₁].map Direction.ax) ops UG (z, 0) = none)
    (alpha theta : ℝ) (hist) (pw) (w) (shift t : ℝ) (vecV vecU : Int → ℝ) (junkV junkU) (v u : List Int → Nat → ℝ)
    (hv : Represents ([δ₀, δ₁].map Direction.ax) Ls 1 vecV v) (hu : Represents ([δ₀, δ₁].map Direction.ax) Ls 1 vecU u) :
    ∃ F, computeIFunction Ls hist 1 ⟨elt, pw, w⟩ (ch2Residual alpha theta) shift vecV t vecU junkV junkU = .ok F ∧
      rowSum Ls ([δ₀, δ₁].map Direction.ax) 1 F 0 = fieldIntegral ([δ₀, δ₁].map Direction.ax) elt v 0 := by
  obtain ⟨F, h1, h2⟩ := ifunction_rows S hT hs hR hord hI hno (ch2Residual alpha theta) _ (fun _ _ _ _ _ _ => rfl) hist pw w shift t vecV vecU junkV junkU v u hv hu
  refine ⟨F, h1, h2 0 hfree _ fun e p hp => ?_⟩
  obtain ⟨s0, s1, s2⟩ := hp
  simp only [Finset.sum_add_distrib, ← Finset.sum_mul, s0, s1, s2]
  rw [value_rate p v e hfree]
  simp

/-- **C107**: so every step of a time integrator that solves the discrete equations of demo/CahnHilliard2D.c with the rate `s (u₁ - u₀)`, `s ≠ 0`,
conserves the amount of substance, at whatever state and time the residual was evaluated. -/
theorem C107_cahn_hilliard_2d_step (S : Setup g2 g3 false size procs axes ([δ₀, δ₁].map Direction.ax) Ls) (hT : ∀ δ ∈ [δ₀, δ₁], δ.Tabulated)
    (hs : ∀ δ ∈ [δ₀, δ₁], IsSpline δ) {nsd : Nat} {ops : List (Form.Op ℝ)} {UG : Option (List Int → Int → ℝ)}
    {c : List Int → PtIn 2 nsd (Fin (nenOf ([δ₀, δ₁].map Direction.ax)))} (hR : ∀ e, Weights [δ₀, δ₁] (c e)) (hord : ∀ e, 2 ≤ (c e).order)
    {elt : List Int → Elt ℝ (PtData 2 nsd (nenOf ([δ₀, δ₁].map Direction.ax)))} (hI : Assembled [δ₀, δ₁] ops 1 UG c elt)
    (hno : NoLoads ops) (hfree : ∀ z, prescribedAt ([δ₀, δ₁].map Direction.ax) ops UG (z, 0) = none)
    (alpha theta : ℝ) (hist) (pw) (w) (shift t s : ℝ) (h0 : s ≠ 0) (vecV vecU : Int → ℝ) (junkV junkU) (u u₀ u₁ : List Int → Nat → ℝ)
    (hv : Represents ([δ₀, δ₁].map Direction.ax) Ls 1 vecV fun z k => s * (u₁ z k - u₀ z k)) (hu : Represents ([δ₀, δ₁].map Direction.ax) Ls 1 vecU u)
    (F) (hF : computeIFunction Ls hist 1 ⟨elt, pw, w⟩ (ch2Residual alpha theta) shift vecV t vecU junkV junkU = .ok F)
    (hz : Represents ([δ₀, δ₁].map Direction.ax) Ls 1 F fun _ _ => 0) :
    fieldIntegral ([δ₀, δ₁].map Direction.ax) elt u₁ 0 = fieldIntegral ([δ₀, δ₁].map Direction.ax) elt u₀ 0 := by
  obtain ⟨F', h1, h2⟩ := C107_cahn_hilliard_2d S hT hs hR hord hI hno hfree alpha theta hist pw w shift t vecV vecU junkV junkU _ u hv hu
  rw [hF] at h1
  cases h1
  rw [fieldIntegral_sub, rowSum_zero hz Nat.one_pos] at h2
  exact sub_eq_zero.1 ((mul_eq_zero.1 h2.symm).resolve_left h0)

/-- **C107**, demo/CahnHilliard2D.c: uniform states are equilibria.  At a uniform state with zero rate every entry of the assembled residual is zero. -/
theorem C107_cahn_hilliard_2d_uniform (S : Setup g2 g3 false size procs axes ([δ₀, δ₁].map Direction.ax) Ls) (hT : ∀ δ ∈ [δ₀, δ₁], δ.Tabulated)
    (hs : ∀ δ ∈ [δ₀, δ₁], IsSpline δ) {nsd : Nat} {ops : List (Form.Op ℝ)} {UG : Option (List Int → Int → ℝ)}
    {c : List Int → PtIn 2 nsd (Fin (nenOf ([δ₀, δ₁].map Direction.ax)))} (hR : ∀ e, Weights [δ₀, δ₁] (c e)) (hord : ∀ e, 2 ≤ (c e).order)
    {elt : List Int → Elt ℝ (PtData 2 nsd (nenOf ([δ₀, δ₁].map Direction.ax)))} (hI : Assembled [δ₀, δ₁] ops 1 UG c elt)
    (hno : NoLoads ops) (hfree : ∀ z, prescribedAt ([δ₀, δ₁].map Direction.ax) ops UG (z, 0) = none)
    (alpha theta κ : ℝ) (hist) (pw) (w) (shift t : ℝ) (vecV vecU : Int → ℝ) (junkV junkU)
    (hv : Represents ([δ₀, δ₁].map Direction.ax) Ls 1 vecV fun _ _ => 0) (hu : Represents ([δ₀, δ₁].map Direction.ax) Ls 1 vecU fun _ _ => κ) :
    ∃ F, computeIFunction Ls hist 1 ⟨elt, pw, w⟩ (ch2Residual alpha theta) shift vecV t vecU junkV junkU = .ok F ∧
      Represents ([δ₀, δ₁].map Direction.ax) Ls 1 F fun _ _ => 0 := by
  have hfree' : ∀ z (k : Nat), k < 1 → prescribedAt ([δ₀, δ₁].map Direction.ax) ops UG (z, (k:Int)) = none := by
    intro z k hk
    obtain rfl : k = 0 := by omega
    exact hfree z
  refine ifunction_zero S hT hs hR hord hI hno (ch2Residual alpha theta) _ (fun _ _ _ _ _ _ => rfl) hist pw w shift t vecV vecU junkV junkU _ _ hv hu hfree' fun e p hp a k => ?_
  obtain ⟨v1, -, -, -⟩ := uniform_point hp 0 _ (fun z => free_rate (dof := 1) (k := 0) hfree (fun _ _ => (0:ℝ)) z) e
  obtain ⟨-, u2, u3, u4⟩ := uniform_point hp κ _ (fun z => free_value (dof := 1) (k := 0) hfree (fun _ _ => κ) z) e
  simp only [v1, u2, u3, u4, mul_zero, add_zero, zero_mul]

/-! ### Navier-Stokes-Korteweg -/

/-- **C107**, demo/NavierStokesKorteweg2D.c.  If no value of the density is prescribed, the sum of the rows of the density is the integral of its rate; if no value at
all is prescribed, the sum of the rows of the velocity component `i` is the integral of the rate of the momentum, `ρ_t u_i + ρ (u_i)_t`. -/
theorem C107_nsk (S : Setup g2 g3 false size procs axes ([δ₀, δ₁].map Direction.ax) Ls) (hT : ∀ δ ∈ [δ₀, δ₁], δ.Tabulated)
    (hs : ∀ δ ∈ [δ₀, δ₁], IsSpline δ) {nsd : Nat} {ops : List (Form.Op ℝ)} {UG : Option (List Int → Int → ℝ)}
    {c : List Int → PtIn 2 nsd (Fin (nenOf ([δ₀, δ₁].map Direction.ax)))} (hR : ∀ e, Weights [δ₀, δ₁] (c e)) (hord : ∀ e, 2 ≤ (c e).order)
    {elt : List Int → Elt ℝ (PtData 2 nsd (nenOf ([δ₀, δ₁].map Direction.ax)))} (hI : Assembled [δ₀, δ₁] ops 3 UG c elt)
    (hno : NoLoads ops) (hfree : ∀ z, prescribedAt ([δ₀, δ₁].map Direction.ax) ops UG (z, 0) = none)
    (Ca Re theta : ℝ) (hist) (pw) (w) (shift t : ℝ) (vecV vecU : Int → ℝ) (junkV junkU) (v u : List Int → Nat → ℝ)
    (hv : Represents ([δ₀, δ₁].map Direction.ax) Ls 3 vecV v) (hu : Represents ([δ₀, δ₁].map Direction.ax) Ls 3 vecU u) :
    ∃ F, computeIFunction Ls hist 3 ⟨elt, pw, w⟩ (nskResidual Ca Re theta) shift vecV t vecU junkV junkU = .ok F ∧
      rowSum Ls ([δ₀, δ₁].map Direction.ax) 3 F 0 = fieldIntegral ([δ₀, δ₁].map Direction.ax) elt v 0 ∧
      ((∀ z (k : Nat), k < 3 → prescribedAt ([δ₀, δ₁].map Direction.ax) ops UG (z, (k:Int)) = none) → ∀ i : Nat, i = 1 ∨ i = 2 →
        rowSum Ls ([δ₀, δ₁].map Direction.ax) 3 F i = domainIntegral ([δ₀, δ₁].map Direction.ax) elt fun e p =>
          combine ([δ₀, δ₁].map Direction.ax) e p.shape.t0 v 0 * combine ([δ₀, δ₁].map Direction.ax) e p.shape.t0 u i +
          combine ([δ₀, δ₁].map Direction.ax) e p.shape.t0 u 0 * combine ([δ₀, δ₁].map Direction.ax) e p.shape.t0 v i) := by
  obtain ⟨F, h1, h2⟩ := ifunction_rows S hT hs hR hord hI hno (nskResidual Ca Re theta) _ (fun _ _ _ _ _ _ => rfl) hist pw w shift t vecV vecU junkV junkU v u hv hu
  refine ⟨F, h1, h2 0 hfree _ fun e p hp => ?_, fun hall i hi => ?_⟩
  · obtain ⟨s0, s1, s2⟩ := hp
    simp only [Fin.cons_zero, Finset.sum_add_distrib, Finset.sum_sub_distrib, ← Finset.sum_mul, ← Finset.mul_sum, s0, s1, s2]
    rw [value_rate p v e hfree]
    simp
  · obtain ⟨j, rfl⟩ : ∃ j : Fin 2, i = (j.succ : Fin 3) := by
      rcases hi with rfl | rfl
      · exact ⟨0, rfl⟩
      · exact ⟨1, rfl⟩
    refine h2 j.succ (fun z => hall z _ (j.succ).2) _ fun e p hp => ?_
    obtain ⟨s0, s1, s2⟩ := hp
    simp only [Fin.cons_succ, Finset.sum_add_distrib, Finset.sum_sub_distrib, ← Finset.sum_mul, ← Finset.mul_sum, Finset.sum_neg_distrib, s0, s1, s2]
    rw [value_rate p v e (k := (0 : Fin 3)) hfree, value_state p u e (k := (0 : Fin 3)) hfree, value_rate p v e (fun z => hall z _ (j.succ).2), value_state p u e (fun z => hall z _ (j.succ).2)]
    simp

/-! ### Pattern formation -/

/-- **C107**, demo/PatternFormation.c: the sum of the rows of each species is the integral of its rate minus the integral of its reaction term, which is evaluated at the
new state if the demo runs with `-implicit`, else at the old one: diffusion conserves both species. -/
theorem C107_pattern_formation (S : Setup g2 g3 false size procs axes ([δ₀, δ₁].map Direction.ax) Ls) (hT : ∀ δ ∈ [δ₀, δ₁], δ.Tabulated)
    (hs : ∀ δ ∈ [δ₀, δ₁], IsSpline δ) {nsd : Nat} {ops : List (Form.Op ℝ)} {UG : Option (List Int → Int → ℝ)}
    {c : List Int → PtIn 2 nsd (Fin (nenOf ([δ₀, δ₁].map Direction.ax)))} (hR : ∀ e, Weights [δ₀, δ₁] (c e)) (hord : ∀ e, 1 ≤ (c e).order)
    {elt : List Int → Elt ℝ (PtData 2 nsd (nenOf ([δ₀, δ₁].map Direction.ax)))} (hI : Assembled [δ₀, δ₁] ops 2 UG c elt)
    (hno : NoLoads ops) (hfree : ∀ z (k : Nat), k < 2 → prescribedAt ([δ₀, δ₁].map Direction.ax) ops UG (z, (k:Int)) = none)
    (m : Pattern) (hist) (pw) (w) (shift t t0 : ℝ) (vecV vecU vecU0 : Int → ℝ) (junkV junkU junkU0) (v u u0 : List Int → Nat → ℝ)
    (hv : Represents ([δ₀, δ₁].map Direction.ax) Ls 2 vecV v) (hu : Represents ([δ₀, δ₁].map Direction.ax) Ls 2 vecU u)
    (hu0 : Represents ([δ₀, δ₁].map Direction.ax) Ls 2 vecU0 u0) :
    ∃ F, computeIEFunction Ls hist 2 ⟨elt, pw, w⟩ (patFunction m) shift vecV t vecU t0 vecU0 junkV junkU junkU0 = .ok F ∧
      (rowSum Ls ([δ₀, δ₁].map Direction.ax) 2 F 0 = domainIntegral ([δ₀, δ₁].map Direction.ax) elt fun e p =>
        let at_ := fun (y : List Int → Nat → ℝ) (k : Nat) => combine ([δ₀, δ₁].map Direction.ax) e p.shape.t0 y k
        let a := at_ (if m.implicit then u else u0) 0
        let b := at_ (if m.implicit then u else u0) 1
        at_ v 0 - (m.alpha * a * (1 - m.tau1 * b ^ 2) + b * (1 - m.tau2 * a))) ∧
      rowSum Ls ([δ₀, δ₁].map Direction.ax) 2 F 1 = domainIntegral ([δ₀, δ₁].map Direction.ax) elt fun e p =>
        let at_ := fun (y : List Int → Nat → ℝ) (k : Nat) => combine ([δ₀, δ₁].map Direction.ax) e p.shape.t0 y k
        let a := at_ (if m.implicit then u else u0) 0
        let b := at_ (if m.implicit then u else u0) 1
        at_ v 1 - (m.beta * b * (1 + m.alpha * m.tau1 / m.beta * a * b) + a * (m.gamma + m.tau2 * b)) := by
  obtain ⟨F, h1, h2⟩ := iefunction_rows S hT hs hR hord hI hno (patFunction m) _ (fun _ _ _ _ _ _ _ _ => rfl) hist pw w shift t t0 vecV vecU vecU0 junkV junkU junkU0
    v u u0 hv hu hu0
  have f0 : ∀ z, prescribedAt ([δ₀, δ₁].map Direction.ax) ops UG (z, (((0 : Fin 2) : Nat) : Int)) = none := fun z => hfree z 0 (by omega)
  have f1 : ∀ z, prescribedAt ([δ₀, δ₁].map Direction.ax) ops UG (z, (((1 : Fin 2) : Nat) : Int)) = none := fun z => hfree z 1 (by omega)
  refine ⟨F, h1, h2 0 f0 _ fun e p s0 s1 => ?_, h2 1 f1 _ fun e p s0 s1 => ?_⟩
  · obtain ⟨imp, delta, D1, D2, alpha, beta, gamma, tau1, tau2⟩ := m
    simp only [if_true, Finset.sum_add_distrib, Finset.sum_sub_distrib, ← Finset.sum_mul, ← Finset.mul_sum, s0, s1]
    rw [value_rate p v e f0]
    cases imp <;>
    · simp only [if_true, Bool.false_eq_true, if_false]
      rw [value_state p _ e f0, value_state p _ e f1]
      simp only [Fin.isValue, Fin.val_zero, Fin.val_one]
      ring
  · obtain ⟨imp, delta, D1, D2, alpha, beta, gamma, tau1, tau2⟩ := m
    simp only [one_ne_zero, if_false, Finset.sum_add_distrib, Finset.sum_sub_distrib, ← Finset.sum_mul, ← Finset.mul_sum, s0, s1]
    rw [value_rate p v e f1]
    cases imp <;>
    · simp only [if_true, Bool.false_eq_true, if_false]
      rw [value_state p _ e f0, value_state p _ e f1]
      simp only [Fin.isValue, Fin.val_zero, Fin.val_one]
      ring

end two

section three
variable {δ₀ δ₁ δ₂ : Direction Line}

/-- **C107**, demo/CahnHilliard3D.c. -/
theorem C107_cahn_hilliard_3d (S : Setup g2 g3 false size procs axes ([δ₀, δ₁, δ₂].map Direction.ax) Ls) (hT : ∀ δ ∈ [δ₀, δ₁, δ₂], δ.Tabulated)
    (hs : ∀ δ ∈ [δ₀, δ₁, δ₂], IsSpline δ) {nsd : Nat} {ops : List (Form.Op ℝ)} {UG : Option (List Int → Int → ℝ)}
    {c : List Int → PtIn 3 nsd (Fin (nenOf ([δ₀, δ₁, δ₂].map Direction.ax)))} (hR : ∀ e, Weights [δ₀, δ₁, δ₂] (c e)) (hord : ∀ e, 2 ≤ (c e).order)
    {elt : List Int → Elt ℝ (PtData 3 nsd (nenOf ([δ₀, δ₁, δ₂].map Direction.ax)))} (hI : Assembled [δ₀, δ₁, δ₂] ops 1 UG c elt)
    (hno : NoLoads ops) (hfree : ∀ z, prescribedAt ([δ₀, δ₁, δ₂].map Direction.ax) ops UG (z, 0) = none)
    (theta L0 lambda : ℝ) (hist) (pw) (w) (shift t : ℝ) (vecV vecU : Int → ℝ) (junkV junkU) (v u : List Int → Nat → ℝ)
    (hv : Represents ([δ₀, δ₁, δ₂].map Direction.ax) Ls 1 vecV v) (hu : Represents ([δ₀, δ₁, δ₂].map Direction.ax) Ls 1 vecU u) :
    ∃ F, computeIFunction Ls hist 1 ⟨elt, pw, w⟩ (ch3Residual theta L0 lambda) shift vecV t vecU junkV junkU = .ok F ∧
      rowSum Ls ([δ₀, δ₁, δ₂].map Direction.ax) 1 F 0 = fieldIntegral ([δ₀, δ₁, δ₂].map Direction.ax) elt v 0 := by
  obtain ⟨F, h1, h2⟩ := ifunction_rows S hT hs hR hord hI hno (ch3Residual theta L0 lambda) _ (fun _ _ _ _ _ _ => rfl) hist pw w shift t vecV vecU junkV junkU v u hv hu
  refine ⟨F, h1, h2 0 hfree _ fun e p hp => ?_⟩
  obtain ⟨s0, s1, s2⟩ := hp
  simp only [Finset.sum_add_distrib, ← Finset.sum_mul, s0, s1, s2]
  rw [value_rate p v e hfree]
  simp

/-- **C107**, demo/CahnHilliard3D.c: uniform states are equilibria.  At a uniform state with zero rate every entry of the assembled residual is zero. -/
theorem C107_cahn_hilliard_3d_uniform (S : Setup g2 g3 false size procs axes ([δ₀, δ₁, δ₂].map Direction.ax) Ls) (hT : ∀ δ ∈ [δ₀, δ₁, δ₂], δ.Tabulated)
    (hs : ∀ δ ∈ [δ₀, δ₁, δ₂], IsSpline δ) {nsd : Nat} {ops : List (Form.Op ℝ)} {UG : Option (List Int → Int → ℝ)}
    {c : List Int → PtIn 3 nsd (Fin (nenOf ([δ₀, δ₁, δ₂].map Direction.ax)))} (hR : ∀ e, Weights [δ₀, δ₁, δ₂] (c e)) (hord : ∀ e, 2 ≤ (c e).order)
    {elt : List Int → Elt ℝ (PtData 3 nsd (nenOf ([δ₀, δ₁, δ₂].map Direction.ax)))} (hI : Assembled [δ₀, δ₁, δ₂] ops 1 UG c elt)
    (hno : NoLoads ops) (hfree : ∀ z, prescribedAt ([δ₀, δ₁, δ₂].map Direction.ax) ops UG (z, 0) = none)
    (theta L0 lambda κ : ℝ) (hist) (pw) (w) (shift t : ℝ) (vecV vecU : Int → ℝ) (junkV junkU)
    (hv : Represents ([δ₀, δ₁, δ₂].map Direction.ax) Ls 1 vecV fun _ _ => 0) (hu : Represents ([δ₀, δ₁, δ₂].map Direction.ax) Ls 1 vecU fun _ _ => κ) :
    ∃ F, computeIFunction Ls hist 1 ⟨elt, pw, w⟩ (ch3Residual theta L0 lambda) shift vecV t vecU junkV junkU = .ok F ∧
      Represents ([δ₀, δ₁, δ₂].map Direction.ax) Ls 1 F fun _ _ => 0 := by
  have hfree' : ∀ z (k : Nat), k < 1 → prescribedAt ([δ₀, δ₁, δ₂].map Direction.ax) ops UG (z, (k:Int)) = none := by
    intro z k hk
    obtain rfl : k = 0 := by omega
    exact hfree z
  refine ifunction_zero S hT hs hR hord hI hno (ch3Residual theta L0 lambda) _ (fun _ _ _ _ _ _ => rfl) hist pw w shift t vecV vecU junkV junkU _ _ hv hu hfree' fun e p hp a k => ?_
  obtain ⟨v1, -, -, -⟩ := uniform_point hp 0 _ (fun z => free_rate (dof := 1) (k := 0) hfree (fun _ _ => (0:ℝ)) z) e
  obtain ⟨-, u2, u3, u4⟩ := uniform_point hp κ _ (fun z => free_value (dof := 1) (k := 0) hfree (fun _ _ => κ) z) e
  simp only [v1, u2, u3, u4, mul_zero, add_zero, zero_mul]

end three

end PetIGA.Frm
