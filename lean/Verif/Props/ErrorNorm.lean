import Verif.Props.Assemble
import Verif.Model.ErrorNorm
import Mathlib.Tactic.IntervalCases
set_option linter.unusedSectionVars false
/-
C49: error norms.
-/
namespace PetIGA.Asm
open PetIGA.Ax PetIGA.Lay PetIGA.Elem PetIGA.Grid PetIGA.Spec PetIGA.Part PetIGA.Ker Finset

variable {K : Type} [Field K] [LinearOrder K] [IsStrictOrderedRing K]

/-- The value of the derivative `l` of field `c` of the discrete solution at point `p` of an element with values `U`. -/
def approxAt {P : Type} {d nen : Nat} (dof : Nat) (shapeAt : P → Tab ℝ d (Fin nen)) (p : P) (U : List ℝ)
    (l : List (Fin d)) (c : Nat) : ℝ := ∑ a : Fin nen, (shapeAt p).at l a 0 * U.getD (a * dof + c) 0

/-- The exact solution computed by the callback: all zero if there is none. -/
def Exactly {P : Type} {d dof : Nat} (k : Int) (exact : Option (P → Int → Ders d dof → Res (Ders d dof)))
    (X : P → List (Fin d) → Fin dof → ℝ) : Prop :=
  match exact with
  | none => ∀ p l c, X p l c = 0
  | some f => ∀ p, ∃ V, f p k (fun _ _ => 0) = .ok V ∧ ∀ l c, (l.length : Int) = k → V l c = X p l c

theorem intpow_eq {d : Nat} (h1 : 1 ≤ d) (h3 : d ≤ 3) {k : Int} (k0 : 0 ≤ k) (k4 : k ≤ 4) :
    intpow d k = .ok (d ^ k.toNat) ∧ intpow (clip d 1 3) (clip k 0 4) = .ok (d ^ k.toNat) := by
  have e1 : clip d 1 3 = d := by unfold clip; omega
  have e2 : clip k 0 4 = k := by unfold clip; omega
  rw [e1, e2]
  interval_cases d <;> interval_cases k <;> exact ⟨rfl, rfl⟩

theorem errorSqr_computes {P : Type} {d dof nen : Nat} (h1 : 1 ≤ d) (h3 : d ≤ 3) {k : Int} (k0 : 0 ≤ k) (k4 : k ≤ 4)
    (shapeAt : P → Tab ℝ d (Fin nen)) (exact : Option (P → Int → Ders d dof → Res (Ders d dof))) (mem : P → Ders d dof)
    (X : P → List (Fin d) → Fin dof → ℝ) (hX : Exactly k exact X) :
    Computes dof (errorSqr k (dof * d ^ k.toNat) shapeAt exact mem) fun p U i =>
      if h : i < dof then ∑ t : Fin k.toNat → Fin d, (X p (List.ofFn t) ⟨i, h⟩ - approxAt dof shapeAt p U (List.ofFn t) i) ^ 2
      else 0 := by
  intro p U w hw
  have e2 : clip k 0 4 = k := by unfold clip; omega
  obtain ⟨V, hV1, hV2⟩ : ∃ V, exactAt exact p k = Res.ok V ∧ ∀ l c, (l.length : Int) = k → V l c = X p l c := by
    cases exact with
    | none => exact ⟨_, rfl, fun l c _ => (hX p l c).symm⟩
    | some f => exact hX p
  have ha : ∃ A, pointEvaluate 0 k (shapeAt p) (fun (c : Fin dof) (a : Fin nen) => U.getD (a * dof + c) 0) (mem p) = .ok A ∧
      ∀ l (c : Fin dof), (l.length : Int) = k → A l c = approxAt dof shapeAt p U l c := by
    refine ⟨_, by unfold pointEvaluate; rw [if_neg (by omega), if_neg (by omega)], ?_⟩
    intro l c hl
    rw [if_neg (by omega)]
    match l, hl with
    | [], _ => rfl
    | [i], _ => rfl
    | [i, j], _ => rfl
    | [i, j, m], _ => rfl
    | [i, j, m, n], _ => rfl
    | _ :: _ :: _ :: _ :: _ :: _, hl => simp at hl; omega
  obtain ⟨A, hA1, hA2⟩ := ha
  have e3 := (intpow_eq h1 h3 k0 k4).2
  unfold errorSqr
  rw [e2] at e3 ⊢
  unfold errorAt
  simp only [e3, Res.bind]
  rw [if_neg (by omega)]
  simp only [hA1, hV1]
  refine ⟨_, rfl, ?_⟩
  intro i hi
  simp only [dif_pos hi, hw i hi, zero_add]
  apply Finset.sum_congr rfl
  intro t _
  have hl : ((List.ofFn t).length : Int) = k := by rw [List.length_ofFn]; omega
  rw [hV2 _ _ hl, hA2 _ _ hl, abs_mul_abs_self, pow_two]

section
variable {g2 : Guess2} {g3 : Guess3} {colloc : Bool} {size : Int} {procs : List Int} {axes axs : List (Axis K)}
  {Ls : List (Layout K)}

/-- **C49**, what is computed for `0 ≤ k ≤ 4`: for each field the square root of the sum over all elements and points of
weight times the squared differences of all `k`-th derivatives, on every process, independent of the decomposition and
of the contents of the arrays. -/
theorem C49_error_norm_partial {P : Type} {d dof nen : Nat} (S : Setup g2 g3 colloc size procs axes axs Ls)
    (hdim : axs.length = d) (hist : Nat → Hist) (k : Int) (k0 : 0 ≤ k) (k4 : k ≤ 4)
    (gvec : Int → ℝ) (junk : Nat × Int → ℝ) (u : List Int → Nat → ℝ) (hu : Represents axs Ls dof gvec u)
    (heap : Nat → Nat → ℝ) (points : List Int → List (QPoint P)) (shapeAt : P → Tab ℝ d (Fin nen))
    (exact : Option (P → Int → Ders d dof → Res (Ders d dof))) (X : P → List (Fin d) → Fin dof → ℝ) (hX : Exactly k exact X)
    (mem : P → Ders d dof) (errsqr enorm : Nat → ℝ) :
    ∃ E, computeErrorNorm colloc Ls hist k gvec junk heap points shapeAt exact mem errsqr enorm = .ok E ∧
      (∀ c : Fin dof, E c = Real.sqrt ((indices (axs.map (gridSize colloc))).map fun e => ((points e).map fun q =>
        (∑ t : Fin k.toNat → Fin d, (X q.data (List.ofFn t) c -
          approxAt dof shapeAt q.data (valuesOf colloc axs dof u e) (List.ofFn t) c) ^ 2) * (q.detJac * q.weight)).sum).sum) ∧
      ∀ i : Nat, dof ≤ i → E i = enorm i := by
  have hd : 1 ≤ d ∧ d ≤ 3 := by rw [← hdim, setUpAxes_length S.set]; exact S.dim
  have := C48_compute_scalar_partial S hist dof dof gvec junk u hu heap points _ _
    (errorSqr_computes hd.1 hd.2 k0 k4 shapeAt exact mem X hX) errsqr
  unfold computeErrorNorm
  rw [if_neg (by omega), (intpow_eq hd.1 hd.2 k0 k4).1]
  simp only [Res.bind, this]
  refine ⟨_, rfl, ?_, ?_⟩
  · intro c
    simp only [if_pos c.2, dif_pos c.2]
  · intro i hi
    exact if_neg (by omega)

end

/-- The hypotheses of `C49_error_norm_partial` hold on the four-process example; the callback computes the gradient of
`(p, 0)`, where the point `p` is a number. -/
example (g2 : Guess2) (g3 : Guess3) (u : List Int → Nat → ℝ) :
    ∃ Ls gvec, Setup g2 g3 false 4 [2,2] [exAx0, exAx1] exAxs Ls ∧ exAxs.length = 2 ∧ Represents exAxs Ls 1 gvec u ∧
      Exactly (d := 2) (dof := 1) 1 (some fun (p : ℝ) _ V => .ok fun l c => if l = [0] then p else V l c)
        (fun p l _ => if l = [0] then p else 0) := by
  obtain ⟨Ls, S⟩ := exSetup g2 g3
  obtain ⟨gvec, hu⟩ := represents_exists S 1 u
  exact ⟨Ls, gvec, S, rfl, hu, fun p => ⟨_, rfl, fun _ _ _ => rfl⟩⟩

/-- **C49**: a negative derivative index is refused. -/
theorem C49_negative {P : Type} {d dof nen : Nat} (colloc : Bool) (Ls : List (Layout K)) (hist : Nat → Hist) (k : Int)
    (hk : k < 0) (gvec : Int → ℝ) (junk : Nat × Int → ℝ) (heap : Nat → Nat → ℝ) (points : List Int → List (QPoint P))
    (shapeAt : P → Tab ℝ d (Fin nen)) (exact : Option (P → Int → Ders d dof → Res (Ders d dof))) (mem : P → Ders d dof)
    (errsqr enorm : Nat → ℝ) :
    computeErrorNorm colloc Ls hist k gvec junk heap points shapeAt exact mem errsqr enorm = .err .outOfRange :=
  if_pos hk

/-- **C49** is false for `k ≥ 5`: `intpow[dim][k]` is read outside its bounds, whatever the discretisation.  (With the
usual layout `intpow[2][5]` is `intpow[3][0] = 1`, and `ErrorSqr`, which clips the order to 4, then writes `16*dof`
numbers into arrays of `dof`.) -/
theorem C49_large_refuted {P : Type} {d dof nen : Nat} (colloc : Bool) (Ls : List (Layout K)) (hist : Nat → Hist) (k : Int)
    (hk : 5 ≤ k) (gvec : Int → ℝ) (junk : Nat × Int → ℝ) (heap : Nat → Nat → ℝ) (points : List Int → List (QPoint P))
    (shapeAt : P → Tab ℝ d (Fin nen)) (exact : Option (P → Int → Ders d dof → Res (Ders d dof))) (mem : P → Ders d dof)
    (errsqr enorm : Nat → ℝ) :
    computeErrorNorm colloc Ls hist k gvec junk heap points shapeAt exact mem errsqr enorm = .ub := by
  have : intpow d k = .ub := by
    unfold intpow
    rw [if_neg (by omega)]
    rcases h : intpowTable[((d:Nat):Int).toNat]? with _ | row
    · rfl
    · have hr : row ∈ intpowTable := List.mem_of_getElem? h
      have hl : row.length = 5 := by
        have : ∀ r ∈ intpowTable, r.length = 5 := by decide
        exact this row hr
      dsimp only
      rw [List.getElem?_eq_none (by omega)]
  unfold computeErrorNorm
  rw [if_neg (by omega), this]
  rfl

/-- … and the second error described there: if the arrays have room for one number per field only, the callback writes
beyond them. -/
theorem C49_overflow_refuted {P : Type} {dof nen : Nat} (hdof : 1 ≤ dof) (k : Int) (hk : 5 ≤ k) (shapeAt : P → Tab ℝ 2 (Fin nen))
    (exact : Option (P → Int → Ders 2 dof → Res (Ders 2 dof))) (mem : P → Ders 2 dof) (p : P) (U : List ℝ) (e : Nat → ℝ) :
    errorSqr k dof shapeAt exact mem p U e = .ub := by
  have e2 : clip k 0 4 = 4 := by unfold clip; omega
  unfold errorSqr errorAt
  rw [e2, show intpow (clip ((2:Nat):Int) 1 3) 4 = .ok 16 by decide]
  simp only [Res.bind]
  exact if_pos (by omega)

/-- **C49** is false for `iga->order < k ≤ 4` too: there is no check, and the tables of derivatives beyond `iga->order`
are allocated and never written, so that what is evaluated there is what happened to be in memory.  One dimension, one
basis function, `iga->order = 1` (the default for degree 1), second derivatives: any number `r` can come out. -/
theorem C49_unset_order_refuted (r : ℝ) (N : Tab ℝ 1 (Fin 1)) (J : ℝ) (hN : N.t1 0 0 = 1) :
    ∃ mem o, tabulate (nsd := 1) ⟨1, none, some fun _ _ => 1, none, false, false⟩ N J mem = .ok o ∧
      ∃ V, pointEvaluate (dof := 1) 0 2 (pointShape ⟨1, none, some fun _ _ => 1, none, false, false⟩ o) (fun _ _ => 1)
        (fun _ _ => 0) = .ok V ∧ V [0, 0] 0 = r := by
  refine ⟨⟨N, ⟨fun _ => 0, fun _ _ => 0, fun _ _ _ => 0, fun _ _ _ _ => 0, fun _ _ _ _ _ => 0⟩, 0,
    ⟨fun _ => 0, fun _ _ => 0, fun _ _ _ => 0, fun _ _ _ _ => 0, fun _ _ _ _ _ => 0⟩,
    ⟨fun _ => 0, fun _ _ => 0, fun _ _ _ => r, fun _ _ _ _ => 0, fun _ _ _ _ _ => 0⟩, 0, fun _ => 0, 0⟩, _, rfl, _, rfl, ?_⟩
  simp [pointShape, shapeFunctions, evaluate]

end PetIGA.Asm
