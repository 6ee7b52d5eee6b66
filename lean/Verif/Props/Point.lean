import Verif.Model.Point
import Verif.Props.Mapped
import Verif.Props.MappedEx
import Verif.Props.Normal
import Verif.Props.Tensor
/-
C61: values of fields at a point.  C70: gradient of the geometry map.  C71: the tables of a point, end to end.
-/
set_option linter.unusedSectionVars false
namespace PetIGA.Spec

/-- `∂_{i1} ⋯ ∂_{ir} f` for a list of directions. -/
noncomputable def pdl {d : Nat} (l : List (Fin d)) (f : (Fin d → ℝ) → ℝ) : (Fin d → ℝ) → ℝ := l.foldr pd f

/-- The discrete field with coefficients `u`. -/
def field {d : Nat} {ι : Type} [Fintype ι] (φ : ι → (Fin d → ℝ) → ℝ) (u : ι → ℝ) : (Fin d → ℝ) → ℝ :=
  fun y => ∑ a, u a * φ a y

end PetIGA.Spec

namespace PetIGA.Ker
open PetIGA.Spec Finset
open scoped ContDiff

variable {d nsd : Nat} {Ω : Set (Fin d → ℝ)} {ι : Type} [Fintype ι]

/-! ### Derivatives of linear combinations -/

theorem smooth_field {φ : ι → (Fin d → ℝ) → ℝ} (h : ∀ a, Smooth Ω (φ a)) (u : ι → ℝ) : Smooth Ω (field φ u) :=
  smooth_sum fun a => smooth_cmul _ (h a)

theorem pd_field (hΩ : IsOpen Ω) {φ : ι → (Fin d → ℝ) → ℝ} (h : ∀ a, Smooth Ω (φ a)) (u : ι → ℝ) (i : Fin d) :
    Set.EqOn (pd i (field φ u)) (field (fun a => pd i (φ a)) u) Ω := by
  intro x hx
  have e : ∀ a, HasDerivAt (fun t => φ a (Function.update x i t)) (pd i (φ a) x) (x i) := by
    intro a
    have hd := smooth_diff hΩ (h a) hx
    have hu := hasDerivAt_update x i (x i)
    have hxx : Function.update x i (x i) = x := Function.update_eq_self i x
    have hf : HasFDerivAt (φ a) (fderiv ℝ (φ a) x) (Function.update x i (x i)) := by rw [hxx]; exact hd.hasFDerivAt
    exact (hf.comp_hasDerivAt (x i) hu).differentiableAt.hasDerivAt
  unfold pd field
  exact HasDerivAt.deriv (HasDerivAt.fun_sum fun a _ => (e a).const_mul (u a))

theorem pdl_smooth (hΩ : IsOpen Ω) (l : List (Fin d)) {f : (Fin d → ℝ) → ℝ} (h : Smooth Ω f) : Smooth Ω (pdl l f) := by
  induction l with
  | nil => exact h
  | cons i l ih => exact smooth_pd hΩ ih i

theorem pdl_congr (hΩ : IsOpen Ω) (l : List (Fin d)) {f g : (Fin d → ℝ) → ℝ} (h : Set.EqOn f g Ω) :
    Set.EqOn (pdl l f) (pdl l g) Ω := by
  induction l with
  | nil => exact h
  | cons i l ih => exact pd_congr hΩ ih i

theorem pdl_field (hΩ : IsOpen Ω) {φ : ι → (Fin d → ℝ) → ℝ} (h : ∀ a, Smooth Ω (φ a)) (u : ι → ℝ) (l : List (Fin d)) :
    Set.EqOn (pdl l (field φ u)) (field (fun a => pdl l (φ a)) u) Ω := by
  induction l with
  | nil => exact fun _ _ => rfl
  | cons i l ih =>
    have a : Set.EqOn (pdl (i :: l) (field φ u)) (pd i (field (fun a => pdl l (φ a)) u)) Ω := pd_congr hΩ ih i
    exact a.trans (pd_field hΩ (fun a => pdl_smooth hΩ l (h a)) u i)

theorem holds_congr (hΩ : IsOpen Ω) {r : Nat} {T : Tab ℝ d ι} {f g : ι → (Fin d → ℝ) → ℝ} {x : Fin d → ℝ} (hx : x ∈ Ω)
    (h : ∀ a, Set.EqOn (f a) (g a) Ω) (H : Holds r T f x) : Holds r T g x := by
  obtain ⟨h0, h1, h2, h3, h4⟩ := H
  refine ⟨fun a => ?_, fun hr i a => ?_, fun hr i j a => ?_, fun hr i j k a => ?_, fun hr i j k l a => ?_⟩
  · rw [h0, h a hx]
  · rw [h1 hr]; exact pdl_congr hΩ [i] (h a) hx
  · rw [h2 hr]; exact pdl_congr hΩ [i, j] (h a) hx
  · rw [h3 hr]; exact pdl_congr hΩ [i, j, k] (h a) hx
  · rw [h4 hr]; exact pdl_congr hΩ [i, j, k, l] (h a) hx

/-- The geometry kernel: its tables hold the derivatives of the coordinates `∑ C(l,a) N_a`. -/
theorem holds_geometry (hΩ : IsOpen Ω) (N : ι → (Fin d → ℝ) → ℝ) (hN : ∀ a, Smooth Ω (N a)) (C : Fin nsd → ι → ℝ)
    (x : Fin d → ℝ) (hx : x ∈ Ω) (order : Int) (r : Nat) (ho : (r : Int) ≤ order) (T : Tab ℝ d ι) (hT : Holds r T N x)
    (mem : Tab ℝ d (Fin nsd)) : Holds r (geometryMap order C T mem) (fun l => field N (C l)) x := by
  obtain ⟨h0, h1, h2, h3, h4⟩ := hT
  refine ⟨fun a => ?_, fun hr i a => ?_, fun hr i j a => ?_, fun hr i j k a => ?_, fun hr i j k l a => ?_⟩
  · have e : (geometryMap order C T mem).t0 a = ∑ n, C a n * T.t0 n := by
      unfold geometryMap; dsimp only; split_ifs <;> rfl
    rw [e]; exact Finset.sum_congr rfl fun n _ => by rw [h0]
  · have e : (geometryMap order C T mem).t1 i a = ∑ n, C a n * T.t1 i n := by
      unfold geometryMap; dsimp only; rw [if_neg (by omega)]; split_ifs <;> rfl
    rw [e, show pd i (field N (C a)) x = _ from pdl_field hΩ hN (C a) [i] hx]
    exact Finset.sum_congr rfl fun n _ => by rw [h1 hr]; rfl
  · have e : (geometryMap order C T mem).t2 i j a = ∑ n, C a n * T.t2 i j n := by
      unfold geometryMap; dsimp only; rw [if_neg (by omega), if_neg (by omega)]; split_ifs <;> rfl
    rw [e, show pd i (pd j (field N (C a))) x = _ from pdl_field hΩ hN (C a) [i, j] hx]
    exact Finset.sum_congr rfl fun n _ => by rw [h2 hr]; rfl
  · have e : (geometryMap order C T mem).t3 i j k a = ∑ n, C a n * T.t3 i j k n := by
      unfold geometryMap; dsimp only; rw [if_neg (by omega), if_neg (by omega), if_neg (by omega)]; split_ifs <;> rfl
    rw [e, show pd i (pd j (pd k (field N (C a)))) x = _ from pdl_field hΩ hN (C a) [i, j, k] hx]
    exact Finset.sum_congr rfl fun n _ => by rw [h3 hr]; rfl
  · have e : (geometryMap order C T mem).t4 i j k l a = ∑ n, C a n * T.t4 i j k l n := by
      unfold geometryMap; dsimp only
      rw [if_neg (by omega), if_neg (by omega), if_neg (by omega), if_neg (by omega)]
    rw [e, show pd i (pd j (pd k (pd l (field N (C a))))) x = _ from pdl_field hΩ hN (C a) [i, j, k, l] hx]
    exact Finset.sum_congr rfl fun n _ => by rw [h4 hr]; rfl

/-! ### C61 -/

/-- **C61**: during a point loop `IGAPointEvaluate` with derivative order `ider ≤ 4` returns, for every list of `ider`
directions and every field, the derivative of the discrete field `∑_a U_a φ_a` at the point, provided the shape
function tables hold the derivatives of the functions `φ_a` up to that order; outside the loop or for other orders it
is refused. -/
theorem C61_evaluate {dof : Nat} (hΩ : IsOpen Ω) (φ : ι → (Fin d → ℝ) → ℝ) (hφ : ∀ a, Smooth Ω (φ a)) (x : Fin d → ℝ)
    (hx : x ∈ Ω) (r : Nat) (S : Tab ℝ d ι) (hS : Holds r S φ x) (index ider : Int) (U : Fin dof → ι → ℝ)
    (mem : List (Fin d) → Fin dof → ℝ) :
    (0 ≤ index → 0 ≤ ider → ider ≤ r → r ≤ 4 → ∃ V, pointEvaluate index ider S U mem = .ok V ∧
      ∀ (l : List (Fin d)) (c : Fin dof), (l.length : Int) = ider → V l c = pdl l (field φ (U c)) x) ∧
    (index < 0 → pointEvaluate index ider S U mem = .err .wrongState) ∧
    (0 ≤ index → (ider < 0 ∨ 4 < ider) → pointEvaluate index ider S U mem = .err .outOfRange) := by
  refine ⟨fun hi h0 hr h4 => ?_, fun h => if_pos h, fun hi h => ?_⟩
  · have hnot : ¬ (ider < 0 ∨ ider > 4) := by omega
    refine ⟨_, by unfold pointEvaluate; rw [if_neg (by omega), if_neg hnot], ?_⟩
    intro l c hl
    rw [if_neg (by omega), pdl_field hΩ hφ (U c) l hx]
    obtain ⟨s0, s1, s2, s3, s4⟩ := hS
    match l, hl with
    | [], _ => exact Finset.sum_congr rfl fun a _ => by dsimp only; rw [s0, mul_comm]; rfl
    | [i], h => exact Finset.sum_congr rfl fun a _ => by rw [s1 (by simp at h; omega), mul_comm]; rfl
    | [i, j], h => exact Finset.sum_congr rfl fun a _ => by dsimp only; rw [s2 (by simp at h; omega), mul_comm]; rfl
    | [i, j, k], h => exact Finset.sum_congr rfl fun a _ => by dsimp only; rw [s3 (by simp at h; omega), mul_comm]; rfl
    | [i, j, k, l], h =>
      exact Finset.sum_congr rfl fun a _ => by dsimp only; rw [s4 (by simp at h; omega), mul_comm]; rfl
    | _ :: _ :: _ :: _ :: _ :: _, h => exact absurd h (by simp only [List.length_cons]; omega)
  · unfold pointEvaluate; rw [if_neg (by omega), if_pos (by omega)]

/-- **C61**, Laplacian: `IGAPointFormDel2` returns the sum of the second derivatives of the field. -/
theorem C61_laplacian {dof : Nat} (hΩ : IsOpen Ω) (φ : ι → (Fin d → ℝ) → ℝ) (hφ : ∀ a, Smooth Ω (φ a)) (x : Fin d → ℝ)
    (hx : x ∈ Ω) (S : Tab ℝ d ι) (hS : Holds 2 S φ x) (U : Fin dof → ι → ℝ) (c : Fin dof) :
    pointDel2 S U c = ∑ i, pd i (pd i (field φ (U c))) x := by
  unfold pointDel2 getDel2
  rw [Finset.sum_comm]
  refine Finset.sum_congr rfl fun i _ => ?_
  rw [show pd i (pd i (field φ (U c))) x = _ from pdl_field hΩ hφ (U c) [i, i] hx]
  exact Finset.sum_congr rfl fun a _ => by rw [hS.2.2.1 (le_refl 2), mul_comm]; rfl

/-- **C61**, linearity: the value returned for a combination of coefficients is the combination of the values. -/
theorem C61_linear {dof : Nat} (index ider : Int) (S : Tab ℝ d ι) (U V : Fin dof → ι → ℝ) (s t : ℝ)
    (mem : List (Fin d) → Fin dof → ℝ) (hi : 0 ≤ index) (h0 : 0 ≤ ider) (h4 : ider ≤ 4) :
    ∃ u v w, pointEvaluate index ider S U mem = .ok u ∧ pointEvaluate index ider S V mem = .ok v ∧
      pointEvaluate index ider S (fun c a => s * U c a + t * V c a) mem = .ok w ∧
      ∀ (l : List (Fin d)) (c : Fin dof), (l.length : Int) = ider → w l c = s * u l c + t * v l c := by
  have hnot : ¬ (ider < 0 ∨ ider > 4) := by omega
  refine ⟨_, _, _, by unfold pointEvaluate; rw [if_neg (by omega), if_neg hnot],
    by unfold pointEvaluate; rw [if_neg (by omega), if_neg hnot],
    by unfold pointEvaluate; rw [if_neg (by omega), if_neg hnot], ?_⟩
  intro l c hl
  rw [if_neg (by omega), if_neg (by omega), if_neg (by omega)]
  have key : ∀ {τ : Type} (N : τ → ι → ℝ) (k : τ), evaluate N (fun c a => s * U c a + t * V c a) k c
      = s * evaluate N U k c + t * evaluate N V k c := by
    intro τ N k
    unfold evaluate
    rw [Finset.mul_sum, Finset.mul_sum, ← Finset.sum_add_distrib]
    exact Finset.sum_congr rfl fun a _ => by ring
  match l, hl with
  | [], _ => exact key _ _
  | [i], _ => exact key _ _
  | [i, j], _ => exact key _ _
  | [i, j, k], _ => exact key _ _
  | [i, j, k, l], _ => exact key _ _
  | _ :: _ :: _ :: _ :: _ :: _, h => exact absurd h (by simp only [List.length_cons]; omega)

theorem pdl_const (l : List (Fin d)) (hl : l ≠ []) (u : ℝ) (x : Fin d → ℝ) : pdl l (fun _ => u) x = 0 := by
  have z : ∀ (m : List (Fin d)), pdl m (fun _ => (0:ℝ)) = fun _ => (0:ℝ) := by
    intro m
    induction m with
    | nil => rfl
    | cons i m ih =>
      change pd i (pdl m fun _ => (0:ℝ)) = _
      rw [ih]
      funext y
      unfold pd; exact deriv_const _ _
  have g : ∀ (m : List (Fin d)), m ≠ [] → pdl m (fun _ => u) = fun _ => (0:ℝ) := by
    intro m
    induction m with
    | nil => intro h; exact absurd rfl h
    | cons i m ih =>
      intro _
      change pd i (pdl m fun _ => u) = _
      by_cases hm : m = []
      · subst hm
        funext y
        unfold pd pdl; exact deriv_const _ _
      · rw [ih hm]
        funext y
        unfold pd; exact deriv_const _ _
  rw [g l hl]

/-- **C61**, constants: if the functions sum to one, equal coefficients `u` give the value `u` and derivatives zero. -/
theorem C61_constants {dof : Nat} (hΩ : IsOpen Ω) (φ : ι → (Fin d → ℝ) → ℝ) (hφ : ∀ a, Smooth Ω (φ a))
    (hone : ∀ y ∈ Ω, ∑ a, φ a y = 1) (x : Fin d → ℝ) (hx : x ∈ Ω) (r : Nat) (hr4 : r ≤ 4) (S : Tab ℝ d ι)
    (hS : Holds r S φ x) (index ider : Int) (hi : 0 ≤ index) (h0 : 0 ≤ ider) (hr : ider ≤ r) (u : Fin dof → ℝ)
    (mem : List (Fin d) → Fin dof → ℝ) :
    ∃ V, pointEvaluate index ider S (fun c _ => u c) mem = .ok V ∧
      ∀ (l : List (Fin d)) (c : Fin dof), (l.length : Int) = ider → V l c = if l = [] then u c else 0 := by
  obtain ⟨V, hV, hl⟩ := (C61_evaluate hΩ φ hφ x hx r S hS index ider (fun c _ => u c) mem).1 hi h0 hr hr4
  refine ⟨V, hV, fun l c h => ?_⟩
  rw [hl l c h]
  have e : Set.EqOn (field φ (fun _ => u c)) (fun _ => u c) Ω := fun y hy => by
    unfold field; rw [← Finset.mul_sum, hone y hy, mul_one]
  rw [pdl_congr hΩ l e hx]
  split_ifs with hl
  · subst hl; rfl
  · exact pdl_const l hl _ x

/-! ### C71: the tables of a point, end to end -/

/-- The functions of the element: the given ones, or the NURBS quotients. -/
noncomputable def elemFuns (rational : Option (ι → ℝ)) (N : ι → (Fin d → ℝ) → ℝ) : ι → (Fin d → ℝ) → ℝ :=
  match rational with
  | some W => quotient W N
  | none => N

theorem smooth_elemFuns (rational : Option (ι → ℝ)) (N : ι → (Fin d → ℝ) → ℝ) (hN : ∀ a, Smooth Ω (N a))
    (hW : ∀ W, rational = some W → ∀ y ∈ Ω, ∑ b, W b * N b y ≠ 0) (a : ι) : Smooth Ω (elemFuns rational N a) := by
  cases rational with
  | none => exact hN a
  | some W => exact smooth_quotient hN W (hW W rfl) a

theorem holds_elemFuns (hΩ : IsOpen Ω) (rational : Option (ι → ℝ)) (N : ι → (Fin d → ℝ) → ℝ) (hN : ∀ a, Smooth Ω (N a))
    (hW : ∀ W, rational = some W → ∀ y ∈ Ω, ∑ b, W b * N b y ≠ 0) (x : Fin d → ℝ) (hx : x ∈ Ω) (order : Int) (r : Nat)
    (hr : r ≤ 3) (ho : (r : Int) ≤ order) (T : Tab ℝ d ι) (hT : Holds r T N x) :
    Holds r (match rational with
      | some W => rationalize order W T
      | none => T) (elemFuns rational N) x := by
  cases rational with
  | none => exact hT
  | some W => exact C40_rational_partial hΩ N hN W (hW W rfl) x hx order r hr ho T hT

/-- **C71**, the part without a geometry map onto a space of the same dimension (none at all, or a manifold): the
shape function tables of the point hold the derivatives up to order `r ≤ 3` of the element functions with respect to
the parametric coordinates, the coordinates of the point (on a manifold) and their derivatives are those of the
mapped point, and the measure is the parametric one.  Missing: order 4 with weights (C40). -/
theorem C71_parametric_partial (hΩ : IsOpen Ω) (c : PtIn d nsd ι) (hc : c.geometry = none ∨ nsd ≠ d)
    (N : ι → (Fin d → ℝ) → ℝ) (hN : ∀ a, Smooth Ω (N a))
    (hW : ∀ W, c.rational = some W → ∀ y ∈ Ω, ∑ b, W b * N b y ≠ 0) (x : Fin d → ℝ) (hx : x ∈ Ω) (r : Nat)
    (hr : r ≤ 3) (ho : (r : Int) ≤ c.order) (T : Tab ℝ d ι) (hT : Holds r T N x) (J : ℝ) (mem : PtOut d nsd ι) :
    ∃ o, tabulate c T J mem = .ok o ∧ Holds r (pointShape c o) (elemFuns c.rational N) x ∧ o.detJac = J ∧
      (∀ C, c.geometry = some C → Holds r o.mapX (fun l => field (elemFuns c.rational N) (C l)) x) ∧
      (∀ axis side, c.boundary = some (axis, side) → o.detS = 1 ∧
        ∀ i : Fin nsd, o.normal i = if i.val = axis.val then (if side = 0 then -1 else 1) else 0) := by
  have hB := holds_elemFuns hΩ c.rational N hN hW x hx c.order r hr ho T hT
  have hfl : ∀ (axis : Fin d) (side : Int) (i : Fin nsd),
      flatNormal axis side i = if i.val = axis.val then (if side = 0 then -1 else 1) else 0 := by
    intro axis side i
    unfold flatNormal
    split_ifs <;> first | rfl | contradiction
  cases hg : c.geometry with
  | none =>
    have hs : ∀ o : PtOut d nsd ι, pointShape c o = o.basis := fun o => by
      unfold pointShape; rw [hg]; exact if_neg (by simp)
    cases hb : c.boundary with
    | none =>
      refine ⟨_, by unfold tabulate; rw [hg]; dsimp only; rw [hb], ?_, rfl, fun C h => by simp at h,
        fun _ _ h => by simp at h⟩
      rw [hs]; exact hB
    | some b =>
      refine ⟨_, by unfold tabulate; rw [hg]; dsimp only; rw [hb], ?_, rfl, fun C h => by simp at h, ?_⟩
      · rw [hs]; exact hB
      · intro axis side h
        obtain rfl := Option.some.inj h
        exact ⟨rfl, fun i => hfl axis side i⟩
  | some C =>
    have hne : nsd ≠ d := by
      rcases hc with h | h
      · rw [hg] at h; exact absurd h (by simp)
      · exact h
    have hs : ∀ o : PtOut d nsd ι, pointShape c o = o.basis := fun o => by
      unfold pointShape; exact if_neg (fun h => hne h.2.symm)
    have hX := fun mm => holds_geometry hΩ (elemFuns c.rational N) (smooth_elemFuns c.rational N hN hW) C x hx c.order r ho _ hB mm
    cases hb : c.boundary with
    | none =>
      refine ⟨_, by unfold tabulate; rw [hg]; dsimp only; rw [dif_neg hne, hb], ?_, rfl, fun C' h => ?_,
        fun _ _ h => by simp at h⟩
      · rw [hs]; exact hB
      · obtain rfl := Option.some.inj h
        exact hX _
    | some b =>
      refine ⟨_, by unfold tabulate; rw [hg]; dsimp only; rw [dif_neg hne, hb], ?_, rfl, fun C' h => ?_, ?_⟩
      · rw [hs]; exact hB
      · obtain rfl := Option.some.inj h
        exact hX _
      · intro axis side h
        obtain rfl := Option.some.inj h
        exact ⟨rfl, fun i => hfl axis side i⟩

theorem tabulate_mapped (c : PtIn d d ι) (C : Fin d → ι → ℝ) (hc : c.geometry = some C) (T : Tab ℝ d ι) (J : ℝ)
    (mem : PtOut d d ι) (X : Tab ℝ d (Fin d)) (hX : X = geometryMap c.order C (basisOf c T) mem.mapX)
    (I : ℝ × Tab ℝ d (Fin d)) (hI : I = inverseMap c.order X (mem.detX, mem.mapU)) (hdbg : ¬ (c.debug = true ∧ I.1 ≤ 0)) :
    (c.boundary = none → tabulate c T J mem = .ok
      { basis := basisOf c T, mapX := X, detX := I.1, mapU := I.2,
        shape := shapeFunctions c.order I.2 (basisOf c T) { mem.shape with t0 := (basisOf c T).t0 }
        detS := mem.detS, normal := mem.normal, detJac := if c.collocation then J else J * I.1 }) ∧
    (∀ axis side, c.boundary = some (axis, side) → tabulate c T J mem = .ok
      { basis := basisOf c T, mapX := X, detX := I.1, mapU := I.2,
        shape := shapeFunctions c.order I.2 (basisOf c T) { mem.shape with t0 := (basisOf c T).t0 }
        detS := (getNormal d axis.val side X.t1 (mem.detS, mem.normal)).1,
        normal := (getNormal d axis.val side X.t1 (mem.detS, mem.normal)).2,
        detJac := if c.collocation then J else J * (getNormal d axis.val side X.t1 (mem.detS, mem.normal)).1 }) := by
  subst hX
  subst hI
  constructor
  · intro hb
    unfold tabulate
    rw [hc]
    dsimp only
    rw [dif_pos rfl, if_neg hdbg, hb]
  · intro axis side hb
    unfold tabulate
    rw [hc]
    dsimp only
    rw [dif_pos rfl, if_neg hdbg, hb]

/-- **C71**, with a geometry map onto a space of the same dimension: at a point where the Jacobian determinant of the
map `y ↦ X(y) = ∑_a C_a N_a(y)` is not zero (positive in a build with error checking),
the shape function tables hold the derivatives up to order `r ≤ 3`, with respect to the physical coordinates, of the
functions `φ_a` with `φ_a(X(y)) = N_a(y)`;
inside the domain the measure is the parametric one times the determinant (not for collocation);
at the boundary the normal and the measure are those of `C44_normal`.
Missing: order 4 (C40, C41). -/
theorem C71_mapped_partial {n : Nat} (hn : n ≤ 2) {Ω Ω' : Set (Fin (n+1) → ℝ)} (hΩ : IsOpen Ω) (hΩ' : IsOpen Ω')
    (c : PtIn (n+1) (n+1) ι) (C : Fin (n+1) → ι → ℝ) (hc : c.geometry = some C) (N : ι → (Fin (n+1) → ℝ) → ℝ)
    (hN : ∀ a, Smooth Ω (N a)) (hW : ∀ W, c.rational = some W → ∀ y ∈ Ω, ∑ b, W b * N b y ≠ 0)
    (φ : ι → (Fin (n+1) → ℝ) → ℝ) (hφ : ∀ a, Smooth Ω' (φ a))
    (hm : ∀ y ∈ Ω, (fun l => field (elemFuns c.rational N) (C l) y) ∈ Ω')
    (hφN : ∀ a, ∀ y ∈ Ω, φ a (fun l => field (elemFuns c.rational N) (C l) y) = elemFuns c.rational N a y)
    (x : Fin (n+1) → ℝ) (hx : x ∈ Ω)
    (D : ℝ) (hD : D = (Matrix.of fun a l => pd a (field (elemFuns c.rational N) (C l)) x).det)
    (hdet : D ≠ 0) (hpos : c.debug = true → 0 < D) (r : Nat) (h1 : 1 ≤ r) (hr : r ≤ 3) (ho : (r : Int) ≤ c.order)
    (T : Tab ℝ (n+1) ι) (hT : Holds r T N x) (J : ℝ) (mem : PtOut (n+1) (n+1) ι) :
    ∃ o, tabulate c T J mem = .ok o ∧
      Holds r (pointShape c o) φ (fun l => field (elemFuns c.rational N) (C l) x) ∧
      Holds r o.mapX (fun l => field (elemFuns c.rational N) (C l)) x ∧
      (c.boundary = none → o.detJac = if c.collocation then J else J * D) ∧
      (∀ axis side, c.boundary = some (axis, side) →
        (o.detJac = if c.collocation then J else J * o.detS) ∧
        0 ≤ o.detS ∧ o.detS ^ 2 = gram axis (fun a l => pd a (field (elemFuns c.rational N) (C l)) x) ∧
        (∀ b, b ≠ axis → ∑ i, o.normal i * pd b (field (elemFuns c.rational N) (C i)) x = 0) ∧
        ∑ i, o.normal i ^ 2 = 1 ∧
        (0 < D → ∀ v, Enters axis side v →
          along o.normal (fun a l => pd a (field (elemFuns c.rational N) (C l)) x) v < 0)) := by
  have hR := smooth_elemFuns c.rational N hN hW
  have hB := holds_elemFuns hΩ c.rational N hN hW x hx c.order r hr ho T hT
  change Holds r (basisOf c T) _ _ at hB
  have hX := holds_geometry hΩ (elemFuns c.rational N) hR C x hx c.order r ho _ hB mem.mapX
  have hBφ := holds_congr hΩ hx (fun a y hy => (hφN a y hy).symm) hB
  obtain ⟨k1, k2⟩ := C41_mapped_partial (by omega) hΩ hΩ' (fun l => field (elemFuns c.rational N) (C l))
    (fun l => smooth_field hR (C l)) hm φ hφ x hx (hD ▸ hdet) c.order r hr ho _ hX _ hBφ (mem.detX, mem.mapU) mem.shape
  have k1 := k1 h1
  rw [← hD] at k1
  generalize hXe : geometryMap c.order C (basisOf c T) mem.mapX = X at *
  generalize hIe : inverseMap c.order X (mem.detX, mem.mapU) = I at *
  have hX1 : X.t1 = fun a l => pd a (field (elemFuns c.rational N) (C l)) x := by
    funext a l; exact hX.2.1 h1 a l
  have hs : ∀ o : PtOut (n+1) (n+1) ι, pointShape c o = o.shape := fun o => by
    unfold pointShape; rw [hc]; exact if_pos ⟨rfl, rfl⟩
  have hdbg : ¬ (c.debug = true ∧ I.1 ≤ 0) := by
    rw [k1]
    rintro ⟨a, b⟩
    exact absurd (hpos a) (not_lt.2 b)
  obtain ⟨e1, e2⟩ := tabulate_mapped c C hc T J mem X hXe.symm I hIe.symm hdbg
  cases hb : c.boundary with
  | none =>
    refine ⟨_, e1 hb, ?_, hX, ?_, ?_⟩
    · rw [hs]; exact k2
    · intro _; dsimp only; rw [k1]
    · intro _ _ h; simp at h
  | some b =>
    obtain ⟨axis, side⟩ := b
    refine ⟨_, e2 axis side hb, ?_, hX, ?_, ?_⟩
    · rw [hs]; exact k2
    · intro h; simp at h
    · intro axis' side' h
      obtain ⟨rfl, rfl⟩ := Prod.mk.inj (Option.some.inj h)
      obtain ⟨⟨g1, g2⟩, g3, g4, g5⟩ := C44_normal n hn axis side X.t1 (mem.detS, mem.normal)
      rw [hX1] at g1 g2 g3 g4 g5
      dsimp only
      rw [hX1]
      refine ⟨rfl, g1, g2, g3, g4 ?_, fun hp => g5 (hD ▸ hp)⟩
      exact (gram_pos_of_det n hn axis _ (hD ▸ hdet)).ne'

/-! ### C70 -/

theorem store_at {m n : Nat} (A : Fin m → Fin n → ℝ) (mem : Nat → ℝ) (i : Fin m) (j : Fin n) :
    store A mem (j * m + i) = A i j := by
  have hm : 0 < m := Nat.lt_of_le_of_lt (Nat.zero_le _) i.2
  have h : j.val * m + i.val < m * n := by
    calc j.val * m + i.val < j.val * m + m := by omega
      _ = m * (j.val + 1) := by ring
      _ ≤ m * n := Nat.mul_le_mul_left _ j.2
  unfold store
  rw [dif_pos h]
  congr 1
  · apply Fin.ext
    dsimp only
    rw [Nat.mul_comm, Nat.mul_add_mod, Nat.mod_eq_of_lt i.2]
  · apply Fin.ext
    dsimp only
    rw [Nat.mul_comm, Nat.mul_add_div hm, Nat.div_eq_of_lt i.2, Nat.add_zero]

theorem tabulate_geometry (c : PtIn d nsd ι) (C : Fin nsd → ι → ℝ) (hc : c.geometry = some C) (T : Tab ℝ d ι) (J : ℝ)
    (mem o : PtOut d nsd ι) (h : tabulate c T J mem = .ok o) :
    o.basis = basisOf c T ∧ o.mapX = geometryMap c.order C (basisOf c T) mem.mapX := by
  unfold tabulate at h
  rw [hc] at h
  dsimp only at h
  cases hb : c.boundary with
  | none =>
    rw [hb] at h
    split_ifs at h <;> injection h with h <;> subst h <;> exact ⟨rfl, rfl⟩
  | some b =>
    obtain ⟨a, b⟩ := b
    rw [hb] at h
    split_ifs at h <;> injection h with h <;> subst h <;> exact ⟨rfl, rfl⟩

theorem tabulate_inverse (c : PtIn d d ι) (C : Fin d → ι → ℝ) (hc : c.geometry = some C) (T : Tab ℝ d ι) (J : ℝ)
    (mem o : PtOut d d ι) (h : tabulate c T J mem = .ok o) :
    o.mapU = (inverseMap c.order o.mapX (mem.detX, mem.mapU)).2 := by
  unfold tabulate at h
  rw [hc] at h
  dsimp only at h
  rw [dif_pos rfl] at h
  cases hb : c.boundary with
  | none =>
    rw [hb] at h
    split_ifs at h <;> injection h with h <;> subst h <;> rfl
  | some b =>
    obtain ⟨a, b⟩ := b
    rw [hb] at h
    split_ifs at h <;> injection h with h <;> subst h <;> rfl

/-- The tangents of the map with control points `C`: `F0(a,i) = ∑_n N_{n,a} C(i,n)`. -/
def tangent (o : PtOut d nsd ι) (C : Fin nsd → ι → ℝ) (a : Fin d) (i : Fin nsd) : ℝ := ∑ n, o.basis.t1 a n * C i n

theorem grad_entry (c : PtIn d nsd ι) (C : Fin nsd → ι → ℝ) (hc : c.geometry = some C) (ho : 1 ≤ c.order) (T : Tab ℝ d ι)
    (J : ℝ) (mem o : PtOut d nsd ι) (h : tabulate c T J mem = .ok o) (L m : Nat → ℝ) (a : Fin d) (i : Fin nsd) :
    pointGradGeomMap c o L m (i * d + a) = tangent o C a i * L a := by
  obtain ⟨h1, h2⟩ := tabulate_geometry c C hc T J mem o h
  have hd : 0 < d := Nat.lt_of_le_of_lt (Nat.zero_le _) a.2
  have hlt : i.val * d + a.val < nsd * d := by
    calc i.val * d + a.val < i.val * d + d := by omega
      _ = (i.val + 1) * d := by ring
      _ ≤ nsd * d := Nat.mul_le_mul_right _ i.2
  have hmod : (i.val * d + a.val) % d = a.val := by rw [Nat.mul_comm, Nat.mul_add_mod, Nat.mod_eq_of_lt a.2]
  unfold pointGradGeomMap
  rw [hc]
  dsimp only
  rw [if_pos hlt, hmod]
  congr 1
  split_ifs with e
  · rw [store_at, h2]
    have q : (geometryMap c.order C (basisOf c T) mem.mapX).t1 a i = ∑ n, C i n * (basisOf c T).t1 a n := by
      unfold geometryMap; dsimp only; rw [if_neg (by omega)]; split_ifs <;> rfl
    rw [q]
    unfold tangent
    rw [h1]
    exact Finset.sum_congr rfl fun n _ => mul_comm _ _
  · rw [store_at]; rfl

theorem invgrad_entry (c : PtIn d nsd ι) (C : Fin nsd → ι → ℝ) (hc : c.geometry = some C) (o : PtOut d nsd ι)
    (L m : Nat → ℝ) (a : Fin d) (i : Fin nsd) :
    pointInvGradGeomMap c o L m (a * nsd + i) =
      (if d = nsd then store o.mapU.t1 m else store (invGradGeomMap o.basis.t1 C) m) (a * nsd + i) / L a := by
  have hd : 0 < nsd := Nat.lt_of_le_of_lt (Nat.zero_le _) i.2
  have hlt : a.val * nsd + i.val < d * nsd := by
    calc a.val * nsd + i.val < a.val * nsd + nsd := by omega
      _ = (a.val + 1) * nsd := by ring
      _ ≤ d * nsd := Nat.mul_le_mul_right _ a.2
  have hdiv : (a.val * nsd + i.val) / nsd = a.val := by
    rw [Nat.mul_comm, Nat.mul_add_div hd, Nat.div_eq_of_lt i.2, Nat.add_zero]
  unfold pointInvGradGeomMap
  rw [hc]
  dsimp only
  rw [if_pos hlt, hdiv]

/-- **C70**, with a geometry: the array `F` returned by `IGAPointFormGradGeomMap` and the array `G` returned by
`IGAPointFormInvGradGeomMap` (`F[i*dim+a]`, `G[a*nsd+i]`) satisfy `∑_i F(a,i) G(i,b) = δ_ab` whenever the tangents are
independent; if both spaces have the same dimension they are two-sided inverses; and in every case the columns of `G`
are combinations of the tangents. -/
theorem C70_inverse (hd : 1 ≤ d ∧ d ≤ 3) (c : PtIn d nsd ι) (C : Fin nsd → ι → ℝ) (hc : c.geometry = some C)
    (ho : 1 ≤ c.order) (T : Tab ℝ d ι) (J : ℝ) (mem o : PtOut d nsd ι) (h : tabulate c T J mem = .ok o) (L m m' : Nat → ℝ)
    (hL : ∀ a, a < d → L a ≠ 0)
    (hM : (Matrix.of fun u v => ∑ i, tangent o C u i * tangent o C v i).det ≠ 0) :
    (∀ a b : Fin d, ∑ i : Fin nsd, pointGradGeomMap c o L m (i * d + a) * pointInvGradGeomMap c o L m' (b * nsd + i)
      = if a = b then 1 else 0) ∧
    (nsd = d → ∀ i j : Fin nsd, ∑ a : Fin d,
      pointGradGeomMap c o L m (i * d + a) * pointInvGradGeomMap c o L m' (a * nsd + j) = if i = j then 1 else 0) ∧
    (∀ b : Fin d, ∃ w : Fin d → ℝ, ∀ i : Fin nsd,
      pointInvGradGeomMap c o L m' (b * nsd + i) = ∑ v, w v * pointGradGeomMap c o L m (i * d + v)) := by
  have eF := grad_entry c C hc ho T J mem o h L m
  have eG := invgrad_entry c C hc o L m'
  by_cases e : d = nsd
  · subst e
    have hU := tabulate_inverse c C hc T J mem o h
    obtain ⟨h1, h2⟩ := tabulate_geometry c C hc T J mem o h
    have hX1 : o.mapX.t1 = tangent o C := by
      funext a i
      rw [h2]
      have q : (geometryMap c.order C (basisOf c T) mem.mapX).t1 a i = ∑ n, C i n * (basisOf c T).t1 a n := by
        unfold geometryMap; dsimp only; rw [if_neg (by omega)]; split_ifs <;> rfl
      rw [q]
      unfold tangent
      rw [h1]
      exact Finset.sum_congr rfl fun n _ => mul_comm _ _
    have hU1 : o.mapU.t1 = inverse d (determinant d (tangent o C)) (tangent o C) := by
      rw [hU]
      unfold inverseMap
      dsimp only
      rw [if_neg (by omega), hX1]
      split_ifs <;> rfl
    have hdet : (Matrix.of (tangent o C)).det ≠ 0 := by
      intro hz
      apply hM
      have : (Matrix.of fun u v => ∑ i, tangent o C u i * tangent o C v i)
          = Matrix.of (tangent o C) * (Matrix.of (tangent o C)).transpose := by
        ext u v; rw [Matrix.mul_apply]; rfl
      rw [this, Matrix.det_mul, hz, zero_mul]
    obtain ⟨i1, i2⟩ := (C43_det_inverse d hd (tangent o C)).2 hdet
    have G : ∀ (a i : Fin d), pointInvGradGeomMap c o L m' (a * d + i)
        = inverse d (determinant d (tangent o C)) (tangent o C) i a / L a := by
      intro a i
      rw [eG a i, if_pos rfl, store_at, hU1]
    refine ⟨fun a b => ?_, fun _ i j => ?_, fun b => ?_⟩
    · have := congrFun (congrFun i2 a) b
      rw [Matrix.mul_apply, Matrix.one_apply] at this
      have e1 : ∀ i : Fin d, pointGradGeomMap c o L m (i * d + a) * pointInvGradGeomMap c o L m' (b * d + i)
          = tangent o C a i * inverse d (determinant d (tangent o C)) (tangent o C) i b * (L a / L b) := by
        intro i; rw [eF, G]; ring
      rw [Finset.sum_congr rfl fun i _ => e1 i, ← Finset.sum_mul]
      change ∑ i, tangent o C a i * inverse d (determinant d (tangent o C)) (tangent o C) i b = _ at this
      rw [this]
      split_ifs with hab
      · rw [hab, div_self (hL b b.2), mul_one]
      · rw [zero_mul]
    · have := congrFun (congrFun i1 j) i
      rw [Matrix.mul_apply, Matrix.one_apply] at this
      have e1 : ∀ a : Fin d, pointGradGeomMap c o L m (i * d + a) * pointInvGradGeomMap c o L m' (a * d + j)
          = inverse d (determinant d (tangent o C)) (tangent o C) j a * tangent o C a i := by
        intro a
        have := hL a a.2
        rw [eF, G]; field_simp
      rw [Finset.sum_congr rfl fun a _ => e1 a]
      refine this.trans ?_
      split_ifs with u v v
      · rfl
      · exact absurd u.symm v
      · exact absurd v.symm u
      · rfl
    · let w : Fin d → ℝ := fun v => ∑ k, inverse d (determinant d (tangent o C)) (tangent o C) k b *
        inverse d (determinant d (tangent o C)) (tangent o C) k v / (L b * L v)
      refine ⟨w, fun i => ?_⟩
      have e1 : ∀ v : Fin d, w v * pointGradGeomMap c o L m (i * d + v)
          = ∑ k, inverse d (determinant d (tangent o C)) (tangent o C) k b / L b *
              (inverse d (determinant d (tangent o C)) (tangent o C) k v * tangent o C v i) := by
        intro v
        have := hL v v.2
        rw [eF, Finset.sum_mul]
        refine Finset.sum_congr rfl fun k _ => ?_
        field_simp
      rw [Finset.sum_congr rfl fun v _ => e1 v, Finset.sum_comm, G]
      have e2 : ∀ k, ∑ v, inverse d (determinant d (tangent o C)) (tangent o C) k b / L b *
              (inverse d (determinant d (tangent o C)) (tangent o C) k v * tangent o C v i)
          = inverse d (determinant d (tangent o C)) (tangent o C) k b / L b * if k = i then 1 else 0 := by
        intro k
        rw [← Finset.mul_sum]
        congr 1
        have := congrFun (congrFun i1 k) i
        rw [Matrix.mul_apply, Matrix.one_apply] at this
        exact this
      rw [Finset.sum_congr rfl fun k _ => e2 k]
      simp
  · obtain ⟨k1, k2⟩ := C70_manifold hd o.basis.t1 C hM
    have G : ∀ (a : Fin d) (i : Fin nsd), pointInvGradGeomMap c o L m' (a * nsd + i)
        = invGradGeomMap o.basis.t1 C i a / L a := by
      intro a i
      rw [eG a i, if_neg e, store_at]
    refine ⟨fun a b => ?_, fun h => absurd h.symm e, fun b => ?_⟩
    · have e1 : ∀ i : Fin nsd, pointGradGeomMap c o L m (i * d + a) * pointInvGradGeomMap c o L m' (b * nsd + i)
          = invGradGeomMap o.basis.t1 C i b * gradGeomMap o.basis.t1 C a i * (L a / L b) := by
        intro i; rw [eF, G]; change gradGeomMap o.basis.t1 C a i * L a * _ = _; ring
      rw [Finset.sum_congr rfl fun i _ => e1 i, ← Finset.sum_mul, k1]
      split_ifs with u v v
      · rw [u, div_self (hL a a.2), mul_one]
      · exact absurd u.symm v
      · exact absurd v.symm u
      · rw [zero_mul]
    · obtain ⟨w, hw⟩ := k2 b
      refine ⟨fun v => w v / (L b * L v), fun i => ?_⟩
      rw [G, hw, Finset.sum_div]
      refine Finset.sum_congr rfl fun v _ => ?_
      have := hL v v.2
      have := hL b b.2
      rw [eF]
      change w v * tangent o C v i / L b = _
      field_simp

/-- **C70**: `F` is the gradient of the geometry map with respect to the reference coordinates of the element: if the
basis tables hold the first derivatives of the functions `R_n`, then `F[i*dim+a] = L[a] ∂_a (∑_n C(i,n) R_n)`. -/
theorem C70_gradient (hΩ : IsOpen Ω) (c : PtIn d nsd ι) (C : Fin nsd → ι → ℝ) (hc : c.geometry = some C)
    (ho : 1 ≤ c.order) (T : Tab ℝ d ι) (J : ℝ) (mem o : PtOut d nsd ι) (h : tabulate c T J mem = .ok o)
    (R : ι → (Fin d → ℝ) → ℝ) (hR : ∀ a, Smooth Ω (R a)) (x : Fin d → ℝ) (hx : x ∈ Ω) (hB : Holds 1 o.basis R x)
    (L m : Nat → ℝ) (a : Fin d) (i : Fin nsd) :
    pointGradGeomMap c o L m (i * d + a) = L a * pd a (field R (C i)) x := by
  rw [grad_entry c C hc ho T J mem o h, mul_comm, show pd a (field R (C i)) x = _ from pdl_field hΩ hR (C i) [a] hx]
  congr 1
  exact Finset.sum_congr rfl fun n _ => by rw [hB.2.1 (le_refl 1), mul_comm]; rfl

/-- **C70** without a geometry: diagonal matrices of the scales and of their inverses. -/
theorem C70_none (c : PtIn d nsd ι) (hc : c.geometry = none) (o : PtOut d nsd ι) (L m m' : Nat → ℝ) (a b : Fin d) :
    pointGradGeomMap c o L m (b * d + a) = (if a = b then L a else 0) ∧
    pointInvGradGeomMap c o L m' (b * d + a) = (if a = b then 1 / L a else 0) := by
  have hd : 0 < d := Nat.lt_of_le_of_lt (Nat.zero_le _) a.2
  have hlt : b.val * d + a.val < d * d := by
    calc b.val * d + a.val < b.val * d + d := by omega
      _ = (b.val + 1) * d := by ring
      _ ≤ d * d := Nat.mul_le_mul_right _ b.2
  have hmod : (b.val * d + a.val) % d = a.val := by rw [Nat.mul_comm, Nat.mul_add_mod, Nat.mod_eq_of_lt a.2]
  have hdiv : (b.val * d + a.val) / d = b.val := by
    rw [Nat.mul_comm, Nat.mul_add_div hd, Nat.div_eq_of_lt a.2, Nat.add_zero]
  unfold pointGradGeomMap pointInvGradGeomMap
  rw [hc]
  dsimp only
  rw [if_pos hlt, if_pos hlt, hmod, hdiv]
  constructor <;> split_ifs with u v v <;> first | rfl | (exfalso; apply v; exact Fin.ext u.symm) | (exfalso; apply u; rw [v])

end PetIGA.Ker
