import Verif.Props.Assemble
/-
C01/C20: which set-ups succeed.  A processor grid the user gives that multiplies to the number of processes and has no
more parts than there are elements (nodes for collocation) in a direction is accepted, whatever the knots.
-/
set_option linter.unusedSectionVars false
namespace PetIGA.Asm
open PetIGA.Spec PetIGA.Ax PetIGA.Lay PetIGA.Part PetIGA.Grid

variable {K : Type} [Field K] [LinearOrder K] [IsStrictOrderedRing K]

/-- **C01**: a processor grid given by the user is accepted as it is when it fits. -/
theorem C01_user_grid_accepted (g2 : Guess2) (g3 : Guess3) (size rank : Int) (N n : List Int) (hd : 1 ≤ n.length ∧ n.length ≤ 3)
    (hf : Fits N n) (hp : Spec.prod n = size) (h0 : 0 ≤ rank) (h1 : rank < size) :
    partition g2 g3 size rank N n = .ok (n, coords n rank) := by
  have hpos : ∀ a ∈ n, 1 ≤ a := by
    clear hd hp
    induction hf with
    | nil => simp
    | cons h _ ih =>
      intro a ha
      rcases List.mem_cons.1 ha with rfl | ha
      · exact h.1
      · exact ih a ha
  have hN : ∀ q ∈ N.zip n, ¬ q.1 < q.2 := by
    clear hd hp hpos
    induction hf with
    | nil => simp
    | cons h _ ih =>
      intro q hq
      simp only [List.zip_cons_cons, List.mem_cons] at hq
      rcases hq with rfl | hq
      · have := h.2; simp only; omega
      · exact ih q hq
  have hc : chooseGrid g2 g3 size N n = .ok n := by
    have hl := hf.length_eq
    match n, N, hd, hl, hpos with
    | [a], [A], _, _, hpos =>
      have := hpos a (by simp)
      simp only [chooseGrid]
      rw [if_neg (by omega)]
    | [a, b], [A, B], _, _, hpos =>
      have := hpos a (by simp); have := hpos b (by simp)
      simp only [chooseGrid, partition2D]
      rw [if_neg (by omega), if_neg (by omega), if_neg (by omega)]
      rfl
    | [a, b, c], [A, B, D], _, _, hpos =>
      have := hpos a (by simp); have := hpos b (by simp); have := hpos c (by simp)
      simp only [chooseGrid, partition3D]
      rw [if_neg (by omega), if_neg (by omega), if_neg (by omega), if_neg (by omega), if_neg (by omega), if_neg (by omega),
        if_neg (by omega)]
      rfl
    | [], _, hd, _, _ => simp at hd
    | _ :: _ :: _ :: _ :: _, _, hd, _, _ => exact absurd hd.2 (by simp)
  unfold partition check
  rw [if_pos (by omega), Res.ok_bind, if_pos (by omega), Res.ok_bind, hc, Res.ok_bind, if_pos (by rw [Part.foldl_mul, one_mul, hp]), Res.ok_bind,
    if_pos hN]
  rfl

/-- **C20**: the set-up of the layout succeeds on every process whenever the axes can be set up and the processor grid
given by the user fits. -/
theorem C20_setup_succeeds (g2 : Guess2) (g3 : Guess3) (colloc : Bool) (size : Int) (procs : List Int) (axes axs : List (Axis K))
    (hr : ∀ ax ∈ axes, Reached ax) (hd : 1 ≤ axes.length ∧ axes.length ≤ 3) (hs : setUpAxes axes = .ok axs)
    (hf : Fits (axs.map (gridSize colloc)) procs) (hp : Spec.prod procs = size) (r : Int) (h0 : 0 ≤ r) (h1 : r < size) :
    ∃ L, stage1 g2 g3 colloc size r procs axes = .ok L := by
  have hlen := setUpAxes_length hs
  have hl := hf.length_eq
  simp only [List.length_map] at hl
  have hw := setUpAxes_wf hr hs
  have hc := C01_user_grid_accepted g2 g3 size r _ procs (by omega) hf hp h0 h1
  obtain ⟨-, -, -, c4, -⟩ := C01_processor_grid_bijection g2 g3 size r _ _ _ _ hc
  obtain ⟨c, hc', hb⟩ := c4 r h0 h1
  have hdist : distribute (procs.zip (c.zip (axs.map (gridSize colloc)))) =
      .ok ((procs.zip (c.zip (axs.map (gridSize colloc)))).map fun a => dist1D a.1 a.2.1 a.2.2) := by
    rw [C02_distribute_iff]
    refine ⟨?_, ?_, rfl⟩
    · have e2 := List.Forall₂.length_eq hb
      simp only [List.length_zip, List.length_map]
      omega
    · clear hc' hc c4 hw hs hlen hl hp hd
      induction axs generalizing procs c with
      | nil => cases hf; cases hb; simp
      | cons a as ih =>
        cases hf with
        | cons h1 h2 =>
          cases hb with
          | cons h3 h4 =>
            intro x hx
            simp only [List.map_cons, List.zip_cons_cons, List.mem_cons] at hx
            rcases hx with rfl | hx
            · exact ⟨h1.1, h3, by dsimp only; omega⟩
            · exact ih _ h2 _ h4 x hx
  refine ⟨⟨axs, procs, c, mkDirs colloc axs procs c⟩, ?_⟩
  unfold stage1
  rw [hs, Res.ok_bind]
  dsimp only
  rw [hc', Res.ok_bind]
  dsimp only
  rw [hdist, Res.ok_bind, dirs_eq colloc hw hf hb, Res.ok_bind]

/-- The set-up all theorems about the running program start from exists whenever the processor grid fits. -/
theorem setup_exists (g2 : Guess2) (g3 : Guess3) (colloc : Bool) (size : Int) (procs : List Int) (axes axs : List (Axis K))
    (hr : ∀ ax ∈ axes, Reached ax) (hd : 1 ≤ axes.length ∧ axes.length ≤ 3) (hs : setUpAxes axes = .ok axs)
    (hf : Fits (axs.map (gridSize colloc)) procs) (hp : Spec.prod procs = size) (h1 : 1 ≤ size)
    (hcond : ∀ ax ∈ axs, Condition colloc ax) : ∃ Ls, Setup g2 g3 colloc size procs axes axs Ls := by
  obtain ⟨L, hL⟩ := C20_setup_succeeds g2 g3 colloc size procs axes axs hr hd hs hf hp 0 (by omega) (by omega)
  obtain ⟨Ls, h⟩ := allRanks_exists g2 g3 colloc size procs axes L 0 hr hL
  exact ⟨Ls, hr, hd, hs, h1, h, hcond⟩

/-- The axis with degree `p`, knots `U 0, …, U m`. -/
def knotAxis (b : Bool) (p m : Int) (U : Int → K) : Axis K :=
  ⟨b, p, m, U, computeNnp b p m U, (computeSpans p m U).length, computeSpans p m U⟩

/-- A new axis to which a legal knot vector was given. -/
theorem knotAxis_reached {b : Bool} {p m : Int} {U : Int → K} (h : LegalKnots p m U) :
    Reached (knotAxis b p m U) ∧ Ax.setUp (knotAxis b p m U) = (.ok (), knotAxis b p m U) := by
  have hp := h.degree
  have hm := h.enough
  constructor
  · have h1 : Reached (Ax.step (Ax.create fun _ => (0:K)) (.setPeriodic b)).2 := .step _ _ (.create _) rfl
    have e2 : Ax.setDegree (Ax.step (Ax.create fun _ => (0:K)) (.setPeriodic b)).2 p =
        (.ok (), { (Ax.step (Ax.create fun _ => (0:K)) (.setPeriodic b)).2 with p := p }) := by
      unfold Ax.setDegree
      rw [if_neg (by omega), if_neg (by simp [Ax.step, Ax.create, Ax.setPeriodic])]
    have h2 := Reached.step _ (.setDegree p) h1 (by simp only [Ax.step] at e2 ⊢; rw [e2])
    have h3 : (Ax.setKnots (Ax.step (Ax.step (Ax.create fun _ => (0:K)) (.setPeriodic b)).2 (.setDegree p)).2 m U).1 = .ok () := by
      rw [C05_accepts_exactly_legal]
      simp only [Ax.step] at e2 ⊢
      rw [e2]
      exact h
    have h4 := Reached.step _ (.setKnots m U) h2 h3
    have : (Ax.step (Ax.step (Ax.step (Ax.create fun _ => (0:K)) (.setPeriodic b)).2 (.setDegree p)).2 (.setKnots m U)).2 =
        knotAxis b p m U := by
      simp only [Ax.step] at e2 h3 ⊢
      rw [e2] at h3 ⊢
      unfold Ax.setKnots at h3 ⊢
      split_ifs at h3 ⊢
      rfl
    rw [← this]
    exact h4
  · unfold Ax.setUp knotAxis
    dsimp only
    rw [if_neg (by omega), if_neg (by omega)]
    by_cases hs : computeSpans p m U = []
    · simp only [if_pos hs]
    · simp only [if_neg hs]

/-- A set-up exists for any legal knot vectors whose first and last interval is not empty and any processor grid that
fits. -/
theorem knot_setup (g2 : Guess2) (g3 : Guess3) (size : Int) (procs : List Int) (axs : List (Axis K))
    (hk : ∀ ax ∈ axs, ∃ b p m U, ax = knotAxis b p m U ∧ LegalKnots p m U ∧ U p < U (p+1) ∧ U (m-p-1) < U (m-p))
    (hd : 1 ≤ axs.length ∧ axs.length ≤ 3) (hf : Fits (axs.map (gridSize false)) procs) (hp : Spec.prod procs = size)
    (h1 : 1 ≤ size) : ∃ Ls, Setup g2 g3 false size procs axs axs Ls := by
  refine setup_exists g2 g3 false size procs axs axs ?_ hd ?_ hf hp h1 ?_
  · intro ax hax
    obtain ⟨b, p, m, U, rfl, h, _⟩ := hk ax hax
    exact (knotAxis_reached h).1
  · clear hd hf
    induction axs with
    | nil => rfl
    | cons ax axs ih =>
      obtain ⟨b, p, m, U, rfl, h, _⟩ := hk ax (by simp)
      unfold setUpAxes
      rw [(knotAxis_reached h).2]
      dsimp only
      rw [ih (fun a ha => hk a (by simp [ha]))]
      rfl
  · intro ax hax
    obtain ⟨b, p, m, U, rfl, _, h2, h3⟩ := hk ax hax
    exact ⟨fun _ => ⟨h2, h3⟩, by simp⟩

/-- The hypotheses of `C20_setup_succeeds` hold: six processes on the two axes of the examples. -/
example (g2 : Guess2) (g3 : Guess3) (r : Int) (h0 : 0 ≤ r) (h1 : r < 6) :
    ∃ L, stage1 g2 g3 false 6 r [3,2] [exAx0, exAx1] = .ok L :=
  C20_setup_succeeds g2 g3 false 6 [3,2] [exAx0, exAx1] exAxs exAx_reached (by simp) rfl
    (.cons (by decide +kernel) (.cons (by decide +kernel) .nil)) rfl r h0 h1

end PetIGA.Asm
