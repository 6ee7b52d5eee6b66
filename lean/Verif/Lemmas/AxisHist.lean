import Verif.Props.Axis
/-! Axes reachable through the axis interface (`Verif.Model.Axis`) without a failed call. -/
set_option linter.unusedSectionVars false
namespace PetIGA.Ax
open PetIGA.Spec

variable {K : Type} [Field K] [LinearOrder K] [IsStrictOrderedRing K]

/-- Calls that configure an axis. -/
inductive Op (K : Type) where
  | setPeriodic (b : Bool)
  | setDegree (p : Int)
  | setKnots (m : Int) (U : Int → K)
  | init (p m : Int) (U : Int → K)
  | initBreaks (mem : Int → K) (nu : Int) (u : Int → K) (C : Int)
  | initUniform (mem : Int → K) (N : Int) (Ui Uf : K) (C : Int)
  | setUp

/-- One call. -/
def step (ax : Axis K) : Op K → Res Unit × Axis K
  | .setPeriodic b => setPeriodic ax b
  | .setDegree p => setDegree ax p
  | .setKnots m U => setKnots ax m U
  | .init p m U => init ax p m U
  | .initBreaks mem nu u C => initBreaks mem ax nu u C
  | .initUniform mem N Ui Uf C => initUniform mem ax N Ui Uf C
  | .setUp => setUp ax

/-- `ax` is reached from a new axis by successful calls only. -/
inductive Reached : Axis K → Prop
  | create (junk : Int → K) : Reached (create junk)
  | step (ax : Axis K) (op : Op K) : Reached ax → (step ax op).1 = .ok () → Reached (step ax op).2

/-- Everything except the node count is consistent with the knots. -/
structure PreWF (ax : Axis K) : Prop where
  legal : LegalKnots ax.p ax.m ax.U
  span : ax.span = computeSpans ax.p ax.m ax.U
  nel : ax.nel = ax.span.length

/-- A configured axis. -/
structure WF (ax : Axis K) : Prop extends PreWF ax where
  nnp : ax.nnp = computeNnp ax.periodic ax.p ax.m ax.U

theorem setKnots_wf (ax : Axis K) (m : Int) (U : Int → K) (h : (setKnots ax m U).1 = .ok ()) :
    WF (setKnots ax m U).2 := by
  have hl := (C05_accepts_exactly_legal ax m U).1 h
  unfold setKnots at h ⊢
  split_ifs at h ⊢
  exact ⟨⟨hl, rfl, rfl⟩, rfl⟩

theorem good_wf {ax ax' : Axis K} {r C : Int} {u : Int → K} (g : GoodInit ax ax' r C u) : WF ax' := by
  have := setKnots_wf ax ax'.m ax'.U (by rw [g.same])
  rwa [g.same] at this

theorem reached_inv (ax : Axis K) (h : Reached ax) : ax.m = 1 ∨ PreWF ax := by
  induction h with
  | create junk => left; rfl
  | step ax op _ hok ih =>
    cases op with
    | setPeriodic b =>
      rcases ih with h | ⟨a, b, c⟩
      · left; exact h
      · right; exact ⟨a, b, c⟩
    | setDegree p =>
      unfold step setDegree at hok ⊢
      dsimp only at hok ⊢
      split_ifs at hok ⊢ with h1 h2
      rcases ih with h | w
      · left; exact h
      · right
        have hp := w.legal.degree
        have hm := w.legal.enough
        have : ax.p = p := by
          by_contra hc; exact h2 ⟨by omega, by omega, hc⟩
        subst this
        exact w
    | setKnots m U => right; exact (setKnots_wf ax m U hok).toPreWF
    | init p m U =>
      right
      unfold step init at hok ⊢
      dsimp only at hok ⊢
      generalize setDegree { ax with p := 0 } p = y at hok ⊢
      obtain ⟨e, ax1⟩ := y
      cases e with
      | ok u => exact (setKnots_wf ax1 m U hok).toPreWF
      | err e => simp at hok
      | ub => simp at hok
    | initBreaks mem nu u C => right; exact (good_wf (C07_initBreaks mem ax nu u C hok)).toPreWF
    | initUniform mem N Ui Uf C => right; exact (good_wf (C07_initUniform mem ax N Ui Uf C hok)).toPreWF
    | setUp =>
      unfold step setUp at hok ⊢
      dsimp only at hok ⊢
      split_ifs at hok ⊢ with h1 h2 h3
      · rcases ih with h | w
        · omega
        · right
          refine ⟨w.legal, ?_, ?_⟩
          · dsimp only
          · dsimp only
      · rcases ih with h | w
        · omega
        · right; exact ⟨w.legal, w.span, w.nel⟩

/-- After a history of successful calls, a successful set up leaves a consistent axis. -/
theorem setUp_wf (ax : Axis K) (h : Reached ax) (hok : (setUp ax).1 = .ok ()) : WF (setUp ax).2 := by
  have h1 := reached_inv _ (Reached.step ax .setUp h hok)
  change (setUp ax).2.m = 1 ∨ PreWF (setUp ax).2 at h1
  have h2 : (setUp ax).2.nnp = computeNnp (setUp ax).2.periodic (setUp ax).2.p (setUp ax).2.m (setUp ax).2.U ∧
      (setUp ax).2.m ≠ 1 := by
    unfold setUp at hok ⊢
    split_ifs at hok ⊢ with a b c
    · exact ⟨rfl, by dsimp only; omega⟩
    · exact ⟨rfl, by dsimp only; omega⟩
  exact ⟨h1.resolve_left h2.2, h2.1⟩

/-- Set up of a consistent axis changes nothing. -/
theorem setUp_of_wf (ax : Axis K) (h : WF ax) : setUp ax = (.ok (), ax) := by
  unfold setUp
  have := h.legal.degree
  have := h.legal.enough
  rw [if_neg (by omega), if_neg (by omega), ← h.nnp]
  dsimp only
  split_ifs with hs
  · have e1 := h.span; have e2 := h.nel
    obtain ⟨a, b, c, d, e, f, g⟩ := ax
    simp only at *
    subst e1; rw [← e2]
  · rfl

end PetIGA.Ax
