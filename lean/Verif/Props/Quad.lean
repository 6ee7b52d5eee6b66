import Verif.Model.Quad
import Verif.Lemmas.Axis
import Verif.Props.Axis
import Verif.Props.Rule
import Mathlib.Data.List.Forall2
import Mathlib.Algebra.BigOperators.Intervals
import Mathlib.Tactic.Linarith
import Mathlib.Tactic.Ring
import Mathlib.Tactic.FieldSimp
/-! Property theorems about the tabulated quadrature of a direction (C17, C18, C64). -/
set_option linter.unusedSectionVars false
namespace PetIGA.Quad
open PetIGA.Ax PetIGA.Rule PetIGA.Spec

variable {K : Type} [Field K] [LinearOrder K] [IsStrictOrderedRing K]

/-- What C17 says about one element `[a,b]` whose points came from the reference rule `(X,W)`. -/
structure Measures {V : Type} (a b : K) (X W : List K) (e : Elem K V) : Prop where
  /-- the points are the images of the reference points under the affine map `[-1,1] → [a,b]` … -/
  affine : ∀ (i : Nat) (x : K), X[i]? = some x → e.point[i]? = some (a + (x - (-1)) / (1 - (-1)) * (b - a))
  /-- … with the reference weights … -/
  weights : ∀ (i : Nat) (w : K), W[i]? = some w → e.weight[i]? = some w
  /-- … and a point beyond the reference rule has weight zero. -/
  padding : ∀ (i : Nat) (w : K), W.length ≤ i → e.weight[i]? = some w → w = 0
  /-- points of positive weight are inside the element -/
  inside : (∀ x ∈ X, -1 ≤ x ∧ x ≤ 1) → ∀ (i : Nat) (w u : K), e.weight[i]? = some w → e.point[i]? = some u → 0 < w →
    a ≤ u ∧ u ≤ b
  /-- weights times Jacobian measure the element -/
  measure : W.sum = 2 → (e.weight.map fun w => w * e.detJac).sum = b - a

theorem map_mul_sum (c : K) : ∀ l : List K, (l.map fun w => w * c).sum = l.sum * c
  | [] => by simp
  | a :: l => by simp [map_mul_sum c l]; ring

theorem mkElem_measures {V : Type} (cb : Int → K → V) (p : Int) (U : Int → K) (nqp : Nat) (huge : K) (X W : List K)
    (k : Int) (hl : X.length = W.length) (hU : U k ≤ U (k+1)) :
    Measures (U k) (U (k+1)) X W (mkElem cb p U nqp huge X W k) := by
  constructor
  · intro i x hx
    have hi := (List.getElem?_eq_some_iff.1 hx).1
    show (X.map _ ++ _)[i]? = _
    rw [List.getElem?_append_left (by simpa using hi), List.getElem?_map, hx]
    simp only [Option.map_some, Option.some.injEq]
    ring
  · intro i w hw
    have hi := (List.getElem?_eq_some_iff.1 hw).1
    show (W ++ _)[i]? = _
    rw [List.getElem?_append_left hi, hw]
  · intro i w hi hw
    change (W ++ List.replicate (nqp - W.length) 0)[i]? = some w at hw
    rw [List.getElem?_append_right hi, List.getElem?_replicate] at hw
    split at hw
    · simp at hw; exact hw.symm
    · simp at hw
  · intro hX i w u hw hu h0
    change (W ++ List.replicate (nqp - W.length) 0)[i]? = some w at hw
    change (X.map (fun x => (x + 1) * ((U (k+1) - U k)/2) + U k) ++ List.replicate (nqp - X.length) huge)[i]? = some u at hu
    by_cases hi : i < W.length
    · rw [List.getElem?_append_left (by simp; omega), List.getElem?_map] at hu
      rw [List.getElem?_eq_getElem (by omega : i < X.length)] at hu
      simp only [Option.map_some, Option.some.injEq] at hu
      have hx := hX _ (List.getElem_mem (by omega : i < X.length))
      generalize X[i] = x at hu hx
      subst hu
      constructor
      · nlinarith [hx.1]
      · nlinarith [hx.2]
    · rw [List.getElem?_append_right (by omega), List.getElem?_replicate] at hw
      split at hw
      · simp at hw; rw [← hw] at h0; exact absurd h0 (lt_irrefl _)
      · simp at hw
  · intro h2
    show ((W ++ List.replicate (nqp - W.length) 0).map fun w => w * ((U (k+1) - U k)/2)).sum = _
    rw [map_mul_sum, List.sum_append, h2]
    simp
    ring

/-- The elements of an axis tile its domain: their lengths add up to `U[m-p] - U[p]`. -/
theorem sum_lengths {p m : Int} {U : Int → K} (hs : SortedKnots m U) (hp : 1 ≤ p) (hm : 2*p+1 ≤ m) :
    ((computeSpans p m U).map fun k => U (k+1) - U k).sum = U (m-p) - U p := by
  obtain ⟨h1, h2⟩ := computeSpans_spec hs hp (by omega)
  have hnd : (computeSpans p m U).Nodup := h2.imp (fun h => ne_of_lt h)
  rw [← List.sum_toFinset _ hnd]
  have hsub : (computeSpans p m U).toFinset ⊆ (Finset.range (m-2*p).toNat).image (fun i : Nat => p + (i:Int)) := by
    intro k hk
    have := (h1 k).1 (List.mem_toFinset.1 hk)
    unfold IsElement at this
    exact Finset.mem_image.2 ⟨(k-p).toNat, by simp; omega, by omega⟩
  rw [Finset.sum_subset hsub, Finset.sum_image (by intro a _ b _ h; simp at h; omega)]
  · have := Finset.sum_range_sub (fun i : Nat => U (p + (i:Int))) (m-2*p).toNat
    simp only [Nat.cast_zero, add_zero] at this
    rw [show p + (((m-2*p).toNat : Nat) : Int) = m - p by omega] at this
    rw [← this]
    refine Finset.sum_congr rfl (fun i _ => ?_)
    rw [show p + (i:Int) + 1 = p + ((i+1 : Nat) : Int) by push_cast; ring]
  · intro k hk hk'
    obtain ⟨i, hi, rfl⟩ := Finset.mem_image.1 hk
    have hi := Finset.mem_range.1 hi
    have hn : ¬ IsElement p m U (p+i) := fun h => hk' (List.mem_toFinset.2 ((h1 _).2 h))
    unfold IsElement at hn
    have hle := hs (p+i) (by omega) (by omega)
    have : ¬ U (p+i) < U (p+i+1) := fun h => hn ⟨by omega, by omega, h⟩
    linarith [not_lt.1 this]

/-- The rule holds `nqp` points and weights. -/
def Ready (r : Rule K) (X W : List K) : Prop :=
  1 ≤ r.nqp ∧ r.point = some X ∧ r.weight = some W ∧ (X.length : Int) = r.nqp ∧ (W.length : Int) = r.nqp

theorem initQuadrature_std {V : Type} (cb : Int → K → V) (huge : K) (ax : Axis K) (r : Rule K) (X W : List K)
    (hr : Ready r X W) (ht : r.type ≠ .reduced) :
    initQuadrature cb huge .bspline ax r = (.ok (), r, some ⟨r.nqp, ax.p+1,
      ax.span.map (mkElem cb ax.p ax.U r.nqp.toNat huge X W),
      (cb ax.p (ax.U ax.p), cb (ax.m-ax.p-1) (ax.U (ax.m-ax.p-1+1)))⟩) := by
  obtain ⟨h1, h2, h3, _, _⟩ := hr
  unfold initQuadrature
  simp only [show ¬ r.nqp < 1 by omega, if_false, ne_eq, not_true_eq_false, false_and, h2, h3, ht, not_false_eq_true,
    if_true]

/-- **C17**, every rule type except the reduced one: after an axis accepted its knots and a rule of `nqp`
points is set, the tabulation succeeds with one entry per element of the axis, in order; every entry is the affine
image of the rule, lies in its knot span, and measures it; and together they measure the domain. -/
theorem C17_mapped_quadrature {V : Type} (cb : Int → K → V) (huge : K) (ax0 : Axis K) (m : Int) (U : Int → K)
    (r : Rule K) (X W : List K) (hax : (setKnots ax0 m U).1 = .ok ()) (hr : Ready r X W) (ht : r.type ≠ .reduced)
    (hX : ∀ x ∈ X, -1 ≤ x ∧ x ≤ 1) (hW : W.sum = 2) :
    ∃ B, initQuadrature cb huge .bspline (setKnots ax0 m U).2 r = (.ok (), r, some B) ∧ B.nqp = r.nqp ∧
      List.Forall₂ (fun k e => e.offset = k - ax0.p ∧ Measures (U k) (U (k+1)) X W e ∧
          (e.weight.length : Int) = r.nqp ∧ (e.point.length : Int) = r.nqp ∧ ∀ u ∈ e.point, U k ≤ u ∧ u ≤ U (k+1))
        (setKnots ax0 m U).2.span B.elems ∧
      (B.elems.map fun e => (e.weight.map fun w => w * e.detJac).sum).sum = U (m - ax0.p) - U ax0.p := by
  have hleg := (C05_accepts_exactly_legal ax0 m U).1 hax
  obtain ⟨hp, hm, hs, _⟩ := hleg
  obtain ⟨em, eU, _, ep, hspan⟩ : (setKnots ax0 m U).2.m = m ∧ (setKnots ax0 m U).2.U = U ∧ True ∧
      (setKnots ax0 m U).2.p = ax0.p ∧ (setKnots ax0 m U).2.span = computeSpans ax0.p m U := by
    unfold setKnots at hax ⊢
    split_ifs at hax ⊢
    exact ⟨rfl, rfl, trivial, rfl, rfl⟩
  refine ⟨_, initQuadrature_std cb huge _ r X W hr ht, rfl, ?_, ?_⟩
  · rw [eU, ep]
    dsimp only
    rw [List.forall₂_map_right_iff, List.forall₂_same]
    intro k hk
    rw [hspan] at hk
    have hk := ((computeSpans_spec hs hp (by omega)).1 k).1 hk
    obtain ⟨_, hx, hw, lx, lw⟩ := hr
    refine ⟨rfl, mkElem_measures _ _ _ _ _ _ _ _ (by omega) hk.2.2.le, ?_, ?_, ?_⟩
    · show ((W ++ List.replicate (r.nqp.toNat - W.length) 0).length : Int) = _
      simp; omega
    · show ((X.map _ ++ List.replicate (r.nqp.toNat - X.length) huge).length : Int) = _
      simp; omega
    · intro u hu
      have hpad : r.nqp.toNat - X.length = 0 := by omega
      change u ∈ X.map (fun x => (x + 1) * ((U (k+1) - U k)/2) + U k) ++ List.replicate (r.nqp.toNat - X.length) huge at hu
      rw [hpad, List.replicate_zero, List.append_nil] at hu
      obtain ⟨x, hx, rfl⟩ := List.mem_map.1 hu
      have := hX x hx
      have h3 := hk.2.2
      constructor <;> nlinarith [this.1, this.2]
  · rw [← sum_lengths hs hp hm, eU, ep, hspan]
    dsimp only
    rw [List.map_map]
    congr 1
    refine List.map_congr_left (fun k hk => ?_)
    have hk := ((computeSpans_spec hs hp (by omega)).1 k).1 hk
    obtain ⟨_, hx, hw, lx, lw⟩ := hr
    exact (mkElem_measures cb ax0.p U r.nqp.toNat huge X W k (by omega) hk.2.2.le).measure hW

/-- **C17**, reduced rule: a successful tabulation uses the rule itself on the first and last element and the
Gauss rule with one point less on the others, padded with weight-zero points, so that on each of them points of
positive weight are inside the element and the weights measure it (when the reference weights sum to 2). -/
theorem C17_reduced {V : Type} (cb : Int → K → V) (huge : K) (bt : BasisType) (ax : Axis K) (r r' : Rule K)
    (X W : List K) (B : Basis K V) (hr : Ready r X W) (ht : r.type = .reduced)
    (hsorted : ∀ k ∈ ax.span, ax.U k ≤ ax.U (k+1))
    (h : initQuadrature cb huge bt ax r = (.ok (), r', some B)) :
    B.nqp = r.nqp ∧ B.elems.length = ax.span.length ∧
    ∀ i k e, ax.span[i]? = some k → B.elems[i]? = some e →
      e.offset = k - ax.p ∧
      (((i = 0 ∨ i + 1 = ax.span.length) ∨ r.nqp = 1) → Measures (ax.U k) (ax.U (k+1)) X W e) ∧
      (i ≠ 0 → i + 1 ≠ ax.span.length → 1 < r.nqp → ∃ X' W', legendreTable (r.nqp - 1) = some (X', W') ∧
        Measures (ax.U k) (ax.U (k+1)) (X'.map fun x : Rat => ((x:Rat):K)) (W'.map fun x : Rat => ((x:Rat):K)) e) := by
  obtain ⟨h1, hx, hw, lx, lw⟩ := hr
  have hlen : X.length = W.length := by omega
  unfold initQuadrature at h
  simp only [show ¬ r.nqp < 1 by omega, if_false, hx, hw, ht, ne_eq, not_true_eq_false] at h
  split_ifs at h with hc h2 hq
  · simp at h
  · have hss : setSize r (r.nqp - 1) = Rule.setUp { reset r with nqp := r.nqp - 1 } := by
      unfold setSize; rw [if_neg (by omega), if_neg (by omega)]
    rw [hss] at h
    unfold Rule.setUp reset at h
    simp only [show ¬ r.nqp - 1 < 1 by omega, if_false, table, ht] at h
    cases hT : legendreTable (r.nqp-1) with
    | none => rw [hT] at h; simp at h
    | some T =>
      rw [hT] at h
      obtain ⟨X', W'⟩ := T
      simp only [Prod.mk.injEq, Option.some.injEq, true_and] at h
      obtain ⟨_, rfl⟩ := h
      refine ⟨rfl, by simp, ?_⟩
      intro i k e hk he
      simp only [List.getElem?_mapIdx, hk, Option.map_some, Option.some.injEq] at he
      have hmem : k ∈ ax.span := List.mem_of_getElem? hk
      have hi := (List.getElem?_eq_some_iff.1 hk).1
      refine ⟨by subst he; split_ifs <;> rfl, ?_, ?_⟩
      · intro hh
        have : i = 0 ∨ i = ax.span.length - 1 := by omega
        rw [if_pos this] at he; subst he
        exact mkElem_measures _ _ _ _ _ _ _ _ hlen (hsorted k hmem)
      · intro a b _
        rw [if_neg (by omega)] at he; subst he
        have hl := table_len .legendre (r.nqp-1) X' W' (by simp only [table, hT])
        exact ⟨X', W', rfl, mkElem_measures _ _ _ _ _ _ _ _ (by simp; omega) (hsorted k hmem)⟩
  · simp only [hx, hw, Prod.mk.injEq, Option.some.injEq, true_and] at h
    obtain ⟨_, rfl⟩ := h
    refine ⟨rfl, by simp, ?_⟩
    intro i k e hk he
    simp only [List.getElem?_mapIdx, hk, Option.map_some, Option.some.injEq, ite_self] at he
    subst he
    have hmem : k ∈ ax.span := List.mem_of_getElem? hk
    exact ⟨rfl, fun _ => mkElem_measures _ _ _ _ _ _ _ _ hlen (hsorted k hmem), fun _ _ h => absurd h (by omega)⟩
  · simp only [Prod.mk.injEq, Option.some.injEq, true_and] at h
    obtain ⟨_, rfl⟩ := h
    refine ⟨rfl, by simp, ?_⟩
    intro i k e hk he
    simp only [List.getElem?_map, hk, Option.map_some, Option.some.injEq] at he
    subst he
    have hmem : k ∈ ax.span := List.mem_of_getElem? hk
    have hi := (List.getElem?_eq_some_iff.1 hk).1
    exact ⟨rfl, fun _ => mkElem_measures _ _ _ _ _ _ _ _ hlen (hsorted k hmem), fun a b _ => absurd a (by omega)⟩

/-- A sample axis: degree 2, knots 0,0,0,1,2,3,3,3 (three elements). -/
def sampleU : Int → Rat := fun i => if i ≤ 2 then 0 else if i = 3 then 1 else if i = 4 then 2 else 3

def sampleAx : Axis Rat := (Ax.init (Ax.create fun _ => 0) 2 7 sampleU).2

/-- A three-point user rule on `[-1,1]`. -/
def sampleRule : Rule Rat := (Rule.setRule Rule.create 3 [-1, 0, 1] [1/3, 4/3, 1/3]).2

example : Ready sampleRule [-1, 0, 1] [1/3, 4/3, 1/3] ∧ sampleRule.type ≠ .reduced ∧
    ([1/3, 4/3, 1/3] : List Rat).sum = 2 ∧ (∀ x ∈ ([-1, 0, 1] : List Rat), -1 ≤ x ∧ x ≤ 1) ∧
    (setKnots { Ax.create (fun _ => (0:Rat)) with p := 2 } 7 sampleU).1 = .ok () := by
  refine ⟨⟨?_, ?_, ?_, ?_, ?_⟩, ?_, ?_, ?_, ?_⟩ <;> decide +kernel

/-- **C18 is false** for the reduced rule: a second set up gives one quadrature point less. -/
theorem C18_repeated_setup_refuted :
    ∃ (ax : Axis Rat) (r : Rule Rat) (B1 B2 : Basis Rat Unit) (r1 r2 : Rule Rat),
      ax = sampleAx ∧ (Ax.init (Ax.create fun _ => 0) 2 7 sampleU).1 = .ok () ∧
      r.type = .reduced ∧ Rule.Sound r ∧
      initQuadrature (fun _ _ => ()) 0 .bspline ax r = (.ok (), r1, some B1) ∧
      initQuadrature (fun _ _ => ()) 0 .bspline ax r1 = (.ok (), r2, some B2) ∧
      B1.nqp = 3 ∧ B2.nqp = 2 := by
  have h0 : (Rule.setType (Rule.create : Rule Rat) .reduced).1 = .ok () := by decide +kernel
  have s0 := step_sound (K := Rat) create (.setType .reduced) (Or.inl ⟨rfl, rfl, rfl⟩) h0
  have h1 : (Rule.setSize (Rule.setType (Rule.create : Rule Rat) .reduced).2 3).1 = .ok () := by decide +kernel
  have s1 := setSize_sound _ 3 s0 h1
  refine ⟨sampleAx, (Rule.setSize (Rule.setType (Rule.create : Rule Rat) .reduced).2 3).2, _, _, _, _,
    rfl, by decide +kernel, by decide +kernel, s1.1, rfl, rfl, rfl, rfl⟩

/-- **C18**, partial: for every rule type except `reduced`, setting up again (any number of times, since the
result is a fixed point) gives the same rule and the same tables. Missing, and false: the reduced rule. -/
theorem C18_repeated_setup_partial {V : Type} (cb : Int → K → V) (huge : K) (bt : BasisType) (ax : Axis K)
    (r r1 : Rule K) (B : Basis K V) (ht : r.type ≠ .reduced)
    (h : initQuadrature cb huge bt ax r = (.ok (), r1, some B)) :
    initQuadrature cb huge bt ax r1 = (.ok (), r1, some B) ∧ r1.type = r.type ∧
      (1 ≤ r.nqp → r1 = r) ∧ B.nqp = r1.nqp ∧ 1 ≤ r1.nqp := by
  have key : ∀ r0 : Rule K, 1 ≤ r0.nqp → r0.type ≠ .reduced →
      initQuadrature cb huge bt ax r0 = (.ok (), r1, some B) → r1 = r0 ∧ B.nqp = r1.nqp := by
    intro r0 h0 ht0 h
    unfold initQuadrature at h
    simp only [show ¬ r0.nqp < 1 by omega, if_false] at h
    split_ifs at h with hc
    · simp at h
    cases hx : r0.point with
    | none => simp [hx] at h
    | some X =>
      cases hw : r0.weight with
      | none => simp [hx, hw] at h
      | some W =>
        simp only [hx, hw, Prod.mk.injEq, Option.some.injEq, true_and] at h
        obtain ⟨rfl, rfl⟩ := h
        exact ⟨rfl, rfl⟩
  by_cases hn : r.nqp < 1
  · have e : initQuadrature cb huge bt ax r = initQuadrature cb huge bt ax (setSize r (ax.p+1)).2 ∧
        1 ≤ (setSize r (ax.p+1)).2.nqp ∧ (setSize r (ax.p+1)).2.type = r.type := by
      have hok : (setSize r (ax.p+1)).1 = .ok () := by
        unfold initQuadrature at h
        rw [if_pos hn] at h
        cases hss : setSize r (ax.p+1) with
        | mk e r' =>
          rw [hss] at h
          cases e with
          | ok u => rfl
          | err e => simp at h
          | ub => simp at h
      have hnt : (setSize r (ax.p+1)).2.nqp = ax.p+1 ∧ (setSize r (ax.p+1)).2.type = r.type ∧ 1 ≤ ax.p + 1 := by
        unfold setSize at hok ⊢
        split_ifs at hok ⊢ with a b
        · exact ⟨b, rfl, by omega⟩
        · unfold Rule.setUp at hok ⊢
          dsimp only [reset] at hok ⊢
          rw [if_neg a] at hok ⊢
          cases hT : table r.type (ax.p+1) with
          | none => exact ⟨rfl, rfl, by omega⟩
          | some o => cases o with
            | none => rw [hT] at hok; simp at hok
            | some T => exact ⟨rfl, rfl, by omega⟩
      obtain ⟨e1, e2, e3⟩ := hnt
      refine ⟨?_, by omega, e2⟩
      unfold initQuadrature
      rw [if_pos hn, if_neg (by omega : ¬ (setSize r (ax.p+1)).2.nqp < 1)]
      generalize setSize r (ax.p+1) = y at hok
      obtain ⟨e, r'⟩ := y
      simp only at hok; subst hok
      rfl
    obtain ⟨e1, e2, e3⟩ := e
    have := key _ e2 (by rw [e3]; exact ht) (by rw [← e1]; exact h)
    refine ⟨by rw [this.1, ← this.1, ← h, e1, this.1], by rw [this.1, e3], fun h => by omega, this.2, by rw [this.1]; exact e2⟩
  · have := key r (by omega) ht h
    exact ⟨by rw [this.1, h, this.1], by rw [this.1], fun _ => this.1, this.2, by rw [this.1]; omega⟩

example : ∃ (r1 : Rule Rat) (B : Basis Rat Unit), (Rule.create : Rule Rat).type ≠ .reduced ∧
    initQuadrature (fun _ _ => ()) 0 .bspline sampleAx Rule.create = (.ok (), r1, some B) ∧ r1.nqp = 3 :=
  ⟨_, _, by decide, rfl, rfl⟩

/-- **C64 is false**: a user rule with a weight that is not positive is accepted, but no basis value is
computed at that point nor at any later one, whatever their weight. -/
theorem C64_user_rule_tabulated_refuted :
    ∃ (r : Rule Rat) (B : Basis Rat Unit), Rule.setRule Rule.create 2 [-1, 1] [0, 2] = (.ok (), r) ∧
      initQuadrature (fun _ _ => ()) 0 .bspline sampleAx r = (.ok (), r, some B) ∧
      ∀ e ∈ B.elems, e.weight = [0, 2] ∧ e.value = [none, none] := by
  refine ⟨_, _, rfl, rfl, ?_⟩
  intro e he
  simp only [sampleAx, Ax.init, setDegree, setKnots] at he
  obtain ⟨k, _, rfl⟩ := List.mem_map.1 he
  exact ⟨rfl, rfl⟩

theorem tabulate_pos {V : Type} (cb : K → V) : ∀ (W u : List K), W.length = u.length → (∀ w ∈ W, 0 < w) →
    tabulate cb W u = u.map fun x => some (cb x)
  | [], [], _, _ => rfl
  | w :: W, x :: u, hl, h => by
    unfold tabulate
    rw [if_pos (h w (by simp)), tabulate_pos cb W u (by simpa using hl) (fun w hw => h w (by simp [hw]))]
    rfl
  | [], _ :: _, hl, _ => by simp at hl
  | _ :: _, [], hl, _ => by simp at hl

/-- **C64**, partial: when all weights are positive the basis is evaluated at every quadrature point of every
element, on the knot span of that element. Missing, and false: rules with a non-positive weight. -/
theorem C64_user_rule_tabulated_partial {V : Type} (cb : Int → K → V) (huge : K) (ax : Axis K)
    (r : Rule K) (X W : List K) (hr : Ready r X W) (ht : r.type ≠ .reduced) (hW : ∀ w ∈ W, 0 < w) :
    ∃ B, initQuadrature cb huge .bspline ax r = (.ok (), r, some B) ∧
      List.Forall₂ (fun k e => e.point.length = X.length ∧ e.value = e.point.map fun u => some (cb k u)) ax.span B.elems := by
  refine ⟨_, initQuadrature_std cb huge ax r X W hr ht, ?_⟩
  dsimp only
  rw [List.forall₂_map_right_iff, List.forall₂_same]
  intro k _
  obtain ⟨_, hx, hw, lx, lw⟩ := hr
  have h1 : r.nqp.toNat - W.length = 0 := by omega
  have h2 : r.nqp.toNat - X.length = 0 := by omega
  unfold mkElem setRule
  dsimp only
  rw [h1, h2]
  simp only [List.replicate_zero, List.append_nil]
  exact ⟨by simp, tabulate_pos (cb k) W _ (by simp; omega) hW⟩

example : Ready sampleRule [-1, 0, 1] [1/3, 4/3, 1/3] ∧ ∀ w ∈ ([1/3, 4/3, 1/3] : List Rat), 0 < w := by
  refine ⟨⟨?_, ?_, ?_, ?_, ?_⟩, ?_⟩ <;> decide +kernel

end PetIGA.Quad
