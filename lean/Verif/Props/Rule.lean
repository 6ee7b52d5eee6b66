import Verif.Model.Rule
import Verif.Spec.Quadrature
import Mathlib.Tactic.IntervalCases
import Mathlib.Tactic.NormNum
import Mathlib.Tactic.Linarith
import Mathlib.Tactic.Ring
/-! Property theorems about quadrature rules (C16, C19). -/
namespace PetIGA.Rule
open PetIGA.Spec Polynomial

/-- `∫_{-1}^{1} x^k` as a rational number. -/
def moment (k : Nat) : Rat := (1 - (-1)^(k+1)) / ((k:Rat)+1)

theorem integral11_eq (f : ℝ[X]) :
    integral11 f = ∑ k ∈ Finset.range (f.natDegree+1), f.coeff k * ((moment k : Rat) : ℝ) := by
  unfold integral11
  simp only [eval_eq_sum_range]
  rw [intervalIntegral.integral_finset_sum]
  · refine Finset.sum_congr rfl (fun k _ => ?_)
    rw [intervalIntegral.integral_const_mul, integral_pow]
    unfold moment
    push_cast
    simp
  · intro k _
    exact (Continuous.intervalIntegrable (by fun_prop) _ _)

theorem quadSum_sum {K : Type} [Field K] (c : Nat → K) (n : Nat) : ∀ (X W : List K),
    quadSum X W (fun x => ∑ k ∈ Finset.range n, c k * x^k) =
      ∑ k ∈ Finset.range n, c k * quadSum X W (fun x => x^k)
  | [], W => by simp [quadSum]
  | x :: X, [] => by simp [quadSum]
  | x :: X, w :: W => by
    have ih := quadSum_sum c n X W
    unfold quadSum at ih ⊢
    simp only [List.zipWith_cons_cons, List.sum_cons]
    rw [ih, Finset.mul_sum, ← Finset.sum_add_distrib]
    exact Finset.sum_congr rfl (fun k _ => by ring)

theorem quadSum_cast (k : Nat) : ∀ (X W : List Rat),
    quadSum (X.map fun x : Rat => (x:ℝ)) (W.map fun w : Rat => (w:ℝ)) (fun x => x^k) =
      ((quadSum X W (fun x => x^k) : Rat) : ℝ)
  | [], W => by simp [quadSum]
  | x :: X, [] => by simp [quadSum]
  | x :: X, w :: W => by
    have ih := quadSum_cast k X W
    unfold quadSum at ih ⊢
    simp only [List.map_cons, List.zipWith_cons_cons, List.sum_cons]
    rw [ih]; push_cast; rfl

/-- Lifting of a moment check to all polynomials. -/
theorem lift_moments (X W : List Rat) (d : Nat) (ε : Rat)
    (h : ∀ k, k ≤ d → |quadSum X W (fun x => x^k) - moment k| ≤ ε) (f : ℝ[X]) (hf : f.natDegree ≤ d) :
    |quadSum (X.map fun x : Rat => (x:ℝ)) (W.map fun w : Rat => (w:ℝ)) (fun x => f.eval x) - integral11 f|
      ≤ (ε:ℝ) * ∑ k ∈ Finset.range (f.natDegree+1), |f.coeff k| := by
  rw [integral11_eq]
  have e : quadSum (X.map fun x : Rat => (x:ℝ)) (W.map fun w : Rat => (w:ℝ)) (fun x => f.eval x) =
      ∑ k ∈ Finset.range (f.natDegree+1), f.coeff k * ((quadSum X W (fun x => x^k) : Rat) : ℝ) := by
    simp only [eval_eq_sum_range]
    rw [quadSum_sum]
    exact Finset.sum_congr rfl (fun k _ => by rw [quadSum_cast])
  rw [e, ← Finset.sum_sub_distrib, Finset.mul_sum]
  refine (Finset.abs_sum_le_sum_abs _ _).trans (Finset.sum_le_sum (fun k hk => ?_))
  have hk' : k ≤ d := by have := Finset.mem_range.1 hk; omega
  rw [← mul_sub, abs_mul, mul_comm]
  refine mul_le_mul_of_nonneg_right ?_ (abs_nonneg _)
  have := h k hk'
  exact_mod_cast this

/-- The checks on one table: sizes, positive weights, increasing points inside `[-1,1]`, moments up to `d`. -/
def goodTable (q : Nat) (d : Nat) (T : List Rat × List Rat) : Bool :=
  T.1.length == q && T.2.length == q && T.2.all (fun w => decide (0 < w)) &&
  T.1.all (fun x => decide (-1 ≤ x ∧ x ≤ 1)) &&
  (List.zipWith (fun a b => decide (a < b)) T.1 T.1.tail).all id &&
  (List.range (d+1)).all (fun k => decide (|quadSum T.1 T.2 (fun x => x^k) - moment k| ≤ 1/10^34))

theorem legendre_good : ∀ q : Nat, 1 ≤ q → q ≤ 10 →
    ∃ T, legendreTable q = some T ∧ goodTable q (2*q-1) T = true := by
  intro q h1 h2
  interval_cases q <;> exact ⟨_, rfl, by decide +kernel⟩

theorem lobatto_good : ∀ q : Nat, 2 ≤ q → q ≤ 10 →
    ∃ T, lobattoTable q = some T ∧ goodTable q (2*q-3) T = true ∧ T.1.head? = some (-1) ∧ T.1.getLast? = some 1 := by
  intro q h1 h2
  interval_cases q <;> exact ⟨_, rfl, by decide +kernel, by decide +kernel, by decide +kernel⟩

/-- What C16 says about one table. -/
structure IntegratesTo (q d : Nat) (X W : List Rat) : Prop where
  npoints : X.length = q
  nweights : W.length = q
  pos : ∀ w ∈ W, 0 < w
  inside : ∀ x ∈ X, -1 ≤ x ∧ x ≤ 1
  increasing : X.Pairwise (· < ·)
  exact : ∀ f : ℝ[X], f.natDegree ≤ d →
    |quadSum (X.map fun x : Rat => (x:ℝ)) (W.map fun w : Rat => (w:ℝ)) (fun x => f.eval x) - integral11 f|
      ≤ 1/10^34 * ∑ k ∈ Finset.range (f.natDegree+1), |f.coeff k|

theorem pairwise_of_zip : ∀ (l : List Rat), (List.zipWith (fun a b => decide (a < b)) l l.tail).all id = true →
    l.Pairwise (· < ·)
  | [], _ => List.Pairwise.nil
  | [a], _ => by simp
  | a :: b :: l, h => by
    simp only [List.tail_cons, List.zipWith_cons_cons, List.all_cons, Bool.and_eq_true, id, decide_eq_true_eq] at h
    have ih := pairwise_of_zip (b :: l) (by simpa using h.2)
    refine List.pairwise_cons.2 ⟨fun x hx => ?_, ih⟩
    rcases List.mem_cons.1 hx with hx | hx
    · rw [hx]; exact h.1
    · exact lt_trans h.1 ((List.pairwise_cons.1 ih).1 x hx)

theorem integrates_of_good {q d : Nat} {T : List Rat × List Rat} (h : goodTable q d T = true) :
    IntegratesTo q d T.1 T.2 := by
  unfold goodTable at h
  simp only [Bool.and_eq_true] at h
  obtain ⟨⟨⟨⟨⟨h1, h2⟩, h3⟩, h4⟩, h5⟩, h6⟩ := h
  refine ⟨by simpa using h1, by simpa using h2, ?_, ?_, pairwise_of_zip _ h5, ?_⟩
  · intro w hw; simpa using (List.all_eq_true.1 h3) w hw
  · intro w hw; simpa using (List.all_eq_true.1 h4) w hw
  · intro f hf
    have := lift_moments T.1 T.2 d (1/10^34) (fun k hk => by
      have := (List.all_eq_true.1 h6) k (by simp; omega)
      simpa only [decide_eq_true_eq] using this) f hf
    push_cast at this
    exact this

/-- **C16**, Gauss–Legendre: for every supported `q` the table has `q` increasing points in `[-1,1]`, positive
weights, and integrates *every* polynomial of degree at most `2q-1` up to the rounding of the constants; any
other `q` is refused. -/
theorem C16_legendre (q : Int) :
    (1 ≤ q → q ≤ 10 → ∃ X W, legendreTable q = some (X, W) ∧ IntegratesTo q.toNat (2*q.toNat-1) X W) ∧
    ((q < 1 ∨ 10 < q) → legendreTable q = none) := by
  constructor
  · intro h1 h2
    obtain ⟨T, a, b⟩ := legendre_good q.toNat (by omega) (by omega)
    rw [show ((q.toNat : Nat) : Int) = q by omega] at a
    exact ⟨T.1, T.2, a, integrates_of_good b⟩
  · intro h
    unfold legendreTable
    split <;> first | omega | rfl

/-- **C16**, Gauss–Lobatto: degree `2q-3`, both end points are quadrature points. -/
theorem C16_lobatto (q : Int) :
    (2 ≤ q → q ≤ 10 → ∃ X W, lobattoTable q = some (X, W) ∧ IntegratesTo q.toNat (2*q.toNat-3) X W ∧
      X.head? = some (-1) ∧ X.getLast? = some 1) ∧
    ((q < 2 ∨ 10 < q) → lobattoTable q = none) := by
  constructor
  · intro h1 h2
    obtain ⟨T, a, b, c, d⟩ := lobatto_good q.toNat (by omega) (by omega)
    rw [show ((q.toNat : Nat) : Int) = q by omega] at a
    exact ⟨T.1, T.2, a, integrates_of_good b, c, d⟩
  · intro h
    unfold lobattoTable
    split <;> first | omega | rfl

variable {K : Type} [Field K]

/-- **C16**, API: changing the size succeeds exactly when the rule type supports it, and then stores the
table (any number of points is accepted for user rules). -/
theorem C16_set_size (r : Rule K) (q : Int) (hne : r.nqp ≠ q) :
    ((setSize r q).1 = .ok () ↔
      1 ≤ q ∧ (r.type = .user ∨ (r.type = .lobatto ∧ 2 ≤ q ∧ q ≤ 10) ∨
        ((r.type = .legendre ∨ r.type = .reduced) ∧ q ≤ 10))) ∧
    ((setSize r q).1 = .ok () → (setSize r q).2.nqp = q ∧ (setSize r q).2.type = r.type ∧
      ∀ X W, table r.type q = some (some (X, W)) →
        (setSize r q).2.point = some (X.map fun x : Rat => ((x:Rat):K)) ∧
        (setSize r q).2.weight = some (W.map fun w : Rat => ((w:Rat):K))) := by
  unfold setSize
  by_cases h1 : q < 1
  · rw [if_pos h1]
    refine ⟨⟨fun h => by simp at h, fun h => by omega⟩, fun h => by simp at h⟩
  rw [if_neg h1, if_neg hne]
  unfold setUp reset
  dsimp only
  rw [if_neg h1]
  have hleg : (legendreTable q = none ↔ 10 < q) := by
    constructor
    · intro h
      by_contra hc
      obtain ⟨X, W, e, _⟩ := (C16_legendre q).1 (by omega) (by omega)
      rw [h] at e; simp at e
    · intro h; exact (C16_legendre q).2 (by omega)
  have hlob : (lobattoTable q = none ↔ (q < 2 ∨ 10 < q)) := by
    constructor
    · intro h
      by_contra hc
      obtain ⟨X, W, e, _⟩ := (C16_lobatto q).1 (by omega) (by omega)
      rw [h] at e; simp at e
    · intro h; exact (C16_lobatto q).2 h
  cases ht : r.type
  · simp only [table]
    cases hT : legendreTable q with
    | none => have := hleg.1 hT; simp; omega
    | some T =>
      have : ¬ 10 < q := fun h => by have := hleg.2 h; rw [hT] at this; simp at this
      refine ⟨by simp; omega, fun _ => ⟨rfl, by simp [ht], ?_⟩⟩
      rintro X W ⟨⟩
      exact ⟨rfl, rfl⟩
  · simp only [table]
    cases hT : lobattoTable q with
    | none => have := hlob.1 hT; simp; omega
    | some T =>
      have : ¬ (q < 2 ∨ 10 < q) := fun h => by have := hlob.2 h; rw [hT] at this; simp at this
      refine ⟨by simp; omega, fun _ => ⟨rfl, by simp [ht], ?_⟩⟩
      rintro X W ⟨⟩
      exact ⟨rfl, rfl⟩
  · simp only [table]
    cases hT : legendreTable q with
    | none => have := hleg.1 hT; simp; omega
    | some T =>
      have : ¬ 10 < q := fun h => by have := hleg.2 h; rw [hT] at this; simp at this
      refine ⟨by simp; omega, fun _ => ⟨rfl, by simp [ht], ?_⟩⟩
      rintro X W ⟨⟩
      exact ⟨rfl, rfl⟩
  · simp only [table]; simp; omega

/-- Calls that modify a rule. -/
inductive Op (K : Type) where
  | setType (t : RuleType)
  | setSize (q : Int)
  | setRule (q : Int) (x w : List K)
  | setUp

/-- One call. -/
def step (r : Rule K) : Op K → Res Unit × Rule K
  | .setType t => setType r t
  | .setSize q => setSize r q
  | .setRule q x w => setRule r q x w
  | .setUp => setUp r

/-- The rule holds what its type and size promise: nothing yet, or the built-in table, or `nqp` user points
and weights. -/
def Sound (r : Rule K) : Prop :=
  (r.nqp = 0 ∧ r.point = none ∧ r.weight = none) ∨
  (1 ≤ r.nqp ∧ ∃ x w, r.point = some x ∧ r.weight = some w ∧ (x.length : Int) = r.nqp ∧ (w.length : Int) = r.nqp ∧
    ∀ T, table r.type r.nqp = some T → ∃ X W, T = some (X, W) ∧
      x = X.map (fun x : Rat => ((x:Rat):K)) ∧ w = W.map (fun w : Rat => ((w:Rat):K)))

/-- **C19 is false**: asking for an unsupported number of points fails, but asking again reports success with
a rule whose points and weights are all zero. -/
theorem C19_retry_refuted :
    ∃ (r0 : Rule Rat) (q : Int), r0 = create ∧ (setSize r0 q).1 ≠ .ok () ∧
      (setSize (setSize r0 q).2 q).1 = .ok () ∧
      (setSize (setSize r0 q).2 q).2.weight = some (List.replicate q.toNat 0) := by
  refine ⟨create, 11, rfl, ?_, ?_, ?_⟩ <;> decide +kernel

theorem table_len (t : RuleType) (q : Int) (X W : List Rat) (h : table t q = some (some (X, W))) :
    (X.length : Int) = q ∧ (W.length : Int) = q := by
  have hleg : legendreTable q = some (X, W) → (X.length : Int) = q ∧ (W.length : Int) = q := by
    intro h
    by_cases hq : q < 1 ∨ 10 < q
    · rw [(C16_legendre q).2 hq] at h; simp at h
    · obtain ⟨X', W', e, i⟩ := (C16_legendre q).1 (by omega) (by omega)
      rw [e] at h
      simp only [Option.some.injEq, Prod.mk.injEq] at h
      obtain ⟨rfl, rfl⟩ := h
      have := i.npoints; have := i.nweights; omega
  have hlob : lobattoTable q = some (X, W) → (X.length : Int) = q ∧ (W.length : Int) = q := by
    intro h
    by_cases hq : q < 2 ∨ 10 < q
    · rw [(C16_lobatto q).2 hq] at h; simp at h
    · obtain ⟨X', W', e, i, _⟩ := (C16_lobatto q).1 (by omega) (by omega)
      rw [e] at h
      simp only [Option.some.injEq, Prod.mk.injEq] at h
      obtain ⟨rfl, rfl⟩ := h
      have := i.npoints; have := i.nweights; omega
  cases t <;> simp only [table, Option.some.injEq, reduceCtorEq] at h
  · exact hleg h
  · exact hlob h
  · exact hleg h

theorem setUp_sound (r : Rule K) (hp : ∀ x, r.point = some x → (x.length : Int) = r.nqp)
    (hw : ∀ x, r.weight = some x → (x.length : Int) = r.nqp) (h : (setUp r).1 = .ok ()) :
    Sound (setUp r).2 ∧ (setUp r).2.type = r.type ∧ (setUp r).2.nqp = r.nqp := by
  unfold setUp at h ⊢
  by_cases h1 : r.nqp < 1
  · rw [if_pos h1] at h; simp at h
  rw [if_neg h1] at h ⊢
  dsimp only at h ⊢
  cases hT : table r.type r.nqp with
  | none =>
    rw [hT] at h
    refine ⟨Or.inr ⟨by dsimp only; omega, _, _, rfl, rfl, ?_, ?_, ?_⟩, rfl, rfl⟩
    · dsimp only
      cases hx : r.point with
      | none => simp; omega
      | some x => simpa using hp x hx
    · dsimp only
      cases hx : r.weight with
      | none => simp; omega
      | some x => simpa using hw x hx
    · intro T h'; dsimp only at h'; rw [hT] at h'; simp at h'
  | some o =>
    rw [hT] at h
    cases o with
    | none => simp at h
    | some XW =>
      obtain ⟨X, W⟩ := XW
      have hl := table_len _ _ _ _ hT
      refine ⟨Or.inr ⟨by dsimp only; omega, _, _, rfl, rfl, ?_, ?_, ?_⟩, rfl, rfl⟩
      · simpa using hl.1
      · simpa using hl.2
      · intro T h'
        dsimp only at h'; rw [hT] at h'
        simp only [Option.some.injEq] at h'
        exact ⟨X, W, h'.symm, rfl, rfl⟩

theorem setSize_sound (r : Rule K) (q : Int) (hs : Sound r) (h : (setSize r q).1 = .ok ()) :
    Sound (setSize r q).2 ∧ (setSize r q).2.type = r.type ∧ (setSize r q).2.nqp = q ∧ 1 ≤ q := by
  unfold setSize at h ⊢
  split_ifs at h ⊢ with h1 h2
  · exact ⟨hs, rfl, h2, by omega⟩
  · obtain ⟨a, b, c⟩ := setUp_sound { reset r with nqp := q } (by simp [reset]) (by simp [reset]) h
    exact ⟨a, b, c, by omega⟩

theorem step_sound (r : Rule K) (op : Op K) (hs : Sound r) (h : (step r op).1 = .ok ()) :
    Sound (step r op).2 := by
  have hlen : (∀ x, r.point = some x → (x.length : Int) = r.nqp) ∧
      (∀ x, r.weight = some x → (x.length : Int) = r.nqp) := by
    rcases hs with ⟨a, b, c⟩ | ⟨a, x, w, b, c, d, e, _⟩
    · rw [b, c]; exact ⟨fun x h => by simp at h, fun x h => by simp at h⟩
    · rw [b, c]
      refine ⟨fun y h => ?_, fun y h => ?_⟩
      · simp only [Option.some.injEq] at h; subst h; exact d
      · simp only [Option.some.injEq] at h; subst h; exact e
  cases op with
  | setType t =>
    unfold step setType at h ⊢
    dsimp only at h ⊢
    split_ifs at h ⊢ with h1 h2
    · exact hs
    · exact (setUp_sound { r with type := t } hlen.1 hlen.2 h).1
    · rcases hs with ⟨a, b, c⟩ | ⟨a, _⟩
      · exact Or.inl ⟨a, b, c⟩
      · omega
  | setSize q => exact (setSize_sound r q hs h).1
  | setUp => exact (setUp_sound r hlen.1 hlen.2 h).1
  | setRule q x w =>
    unfold step setRule at h ⊢
    dsimp only at h ⊢
    have hs' : Sound ({ r with type := .user } : Rule K) := by
      rcases hs with h | ⟨a, x, w, b, c, d, e, _⟩
      · exact Or.inl h
      · exact Or.inr ⟨a, x, w, b, c, d, e, fun T h => by simp [table] at h⟩
    have key := setSize_sound { r with type := .user } q hs'
    generalize setSize { r with type := .user } q = y at h key ⊢
    obtain ⟨e, r'⟩ := y
    cases e with
    | ok u =>
      dsimp only at h key ⊢
      split_ifs at h ⊢ with hc
      · rw [not_or, not_or] at hc
        obtain ⟨k1, k2, k3, k4⟩ := key rfl
        refine Or.inr ⟨by dsimp only; omega, _, _, rfl, rfl, ?_, ?_, ?_⟩
        · simp; omega
        · simp; omega
        · intro T hT; dsimp only at hT; rw [k2] at hT; simp [table] at hT
    | err e => simp at h
    | ub => simp at h

/-- **C19**, partial: as long as no call has failed, the rule is sound after any sequence of calls. What is
missing (and false) is soundness after a failed call has been repeated. -/
theorem C19_no_failure_partial (ops : List (Op K)) (r : Rule K)
    (h : List.foldlM (fun r op => match step r op with
      | (.ok _, r') => some r'
      | _ => none) (create : Rule K) ops = some r) : Sound r := by
  suffices H : ∀ (ops : List (Op K)) (r0 r : Rule K), Sound r0 →
      List.foldlM (fun r op => match step r op with
        | (.ok _, r') => some r'
        | _ => none) r0 ops = some r → Sound r from
    H ops create r (Or.inl ⟨rfl, rfl, rfl⟩) h
  intro ops
  induction ops with
  | nil => intro r0 r h0 h; simp at h; subst h; exact h0
  | cons op ops ih =>
    intro r0 r h0 h
    rw [List.foldlM_cons] at h
    cases hs : step r0 op with
    | mk e r1 =>
      rw [hs] at h
      cases e with
      | ok u =>
        simp only [Option.bind_eq_bind, Option.bind_some] at h
        refine ih r1 r ?_ h
        have := step_sound r0 op h0 (by rw [hs])
        rwa [hs] at this
      | err e => simp at h
      | ub => simp at h

example : Sound (setSize (create : Rule Rat) 3).2 ∧ (setSize (create : Rule Rat) 3).1 = .ok () :=
  ⟨(setSize_sound create 3 (Or.inl ⟨rfl, rfl, rfl⟩) (by decide +kernel)).1, by decide +kernel⟩

end PetIGA.Rule
