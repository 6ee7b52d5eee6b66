import Verif.Model.SetUp
import Verif.Props.Layout
import Mathlib.Data.List.Induction
import Mathlib.Data.Fin.VecNotation

/-!
Life cycle of an IGA object: C57 (sizes are written once), C22 (failed set-up), C67 (what a successful set-up
describes).
-/

set_option linter.unusedSectionVars false

namespace PetIGA.SetUp
open PetIGA.Ax PetIGA.Lay PetIGA.Rule PetIGA.Quad PetIGA.Part

variable {K V : Type} [Field K] [LinearOrder K] [IsStrictOrderedRing K]

/-! ### Frame lemmas -/

theorem ruleCall_frame (s : IGA K V) (k : Nat) (r : Res Unit × Rule K) :
    ∃ b rs, (ruleCall s k r).2 = { s with setup := b, rules := rs } ∧ rs.length = s.rules.length ∧ (b = true → s.setup = true) := by
  rcases r with ⟨_ | _ | _, r'⟩
  · exact ⟨false, _, rfl, by simp, by simp⟩
  · exact ⟨s.setup, _, rfl, by simp, id⟩
  · exact ⟨s.setup, _, rfl, by simp, id⟩

/-- The calls that only touch rules. -/
def IsRuleOp : Op K V → Prop
  | .setRuleType _ _ => True
  | .setRuleSize _ _ => True
  | .setQuadrature _ _ => True
  | _ => False

theorem ruleOp_frame (W : World K V) (s : IGA K V) (o : Op K V) (ho : IsRuleOp o) :
    ∃ b rs, (step W s o).2 = { s with setup := b, rules := rs } ∧ rs.length = s.rules.length ∧ (b = true → s.setup = true) := by
  have triv : ∃ b rs, s = { s with setup := b, rules := rs } ∧ rs.length = s.rules.length ∧ (b = true → s.setup = true) :=
    ⟨s.setup, s.rules, rfl, rfl, id⟩
  cases o <;> try (exact absurd ho id)
  · rename_i i t
    simp only [step, setRuleType]
    cases checkDir s i with
    | ok k =>
      simp only
      cases s.rules[k]? with
      | none => exact triv
      | some r =>
        simp only
        split_ifs
        · exact triv
        · exact ruleCall_frame s k _
    | err e => exact triv
    | ub => exact triv
  · rename_i i q
    simp only [step, setRuleSize]
    cases checkDir s i with
    | ok k =>
      simp only
      cases s.rules[k]? with
      | none => exact triv
      | some r =>
        simp only
        split_ifs
        · exact triv
        · exact ruleCall_frame s k _
    | err e => exact triv
    | ub => exact triv
  · rename_i i q
    simp only [step, setQuadrature]
    cases checkDir s i with
    | ok k =>
      simp only
      cases s.rules[k]? with
      | none => exact triv
      | some r =>
        cases s.axes[k]? with
        | none => exact triv
        | some ax =>
          simp only
          split_ifs
          all_goals first | exact triv | exact ruleCall_frame s k _
    | err e => exact triv
    | ub => exact triv

theorem setProcessors_frame (W : World K V) (s : IGA K V) (i n : Int) :
    ∃ ps, (setProcessors W s i n).2 = { s with procs := ps } ∧ ps.length = s.procs.length := by
  unfold setProcessors
  by_cases h : s.setup = true
  · rw [if_pos h]; exact ⟨s.procs, rfl, rfl⟩
  · rw [if_neg h]
    cases checkDir s i with
    | ok k =>
      simp only
      split_ifs
      all_goals first | exact ⟨s.procs, rfl, rfl⟩ | exact ⟨_, rfl, by simp⟩
    | err e => exact ⟨s.procs, rfl, rfl⟩
    | ub => exact ⟨s.procs, rfl, rfl⟩

theorem stage1_frame (W : World K V) (s : IGA K V) :
    ((stage1 W s).2.dim = s.dim ∧ (stage1 W s).2.dof = s.dof ∧ (stage1 W s).2.setup = s.setup ∧
      (stage1 W s).2.stage = max s.stage 1 ∧ (stage1 W s).2.colloc = s.colloc ∧
      (stage1 W s).2.rules = s.rules ∧ (stage1 W s).2.btypes = s.btypes ∧ (stage1 W s).2.bases = s.bases ∧
      (stage1 W s).2.order = s.order) := by
  unfold stage1
  by_cases h : s.stage ≥ 1
  · rw [if_pos h]; refine ⟨rfl, rfl, rfl, ?_, rfl, rfl, rfl, rfl, rfl⟩; simp only; omega
  · rw [if_neg h]
    dsimp only
    cases Lay.stage1 W.g2 W.g3 s.colloc W.size W.rank (s.procs.take s.dim.toNat) (s.axes.take s.dim.toNat) <;>
    · refine ⟨rfl, rfl, rfl, ?_, rfl, rfl, rfl, rfl, rfl⟩; simp only; omega

theorem stage2_frame (s : IGA K V) :
    (stage2 s).1 = .ok () ∧ (stage2 s).2.dim = s.dim ∧ (stage2 s).2.dof = (if s.stage < 2 ∧ s.dof < 1 then 1 else s.dof) ∧
      (stage2 s).2.setup = s.setup ∧ (stage2 s).2.stage = max s.stage 2 ∧ (stage2 s).2.colloc = s.colloc ∧
      (stage2 s).2.rules = s.rules ∧ (stage2 s).2.btypes = s.btypes ∧ (stage2 s).2.bases = s.bases ∧
      (stage2 s).2.axes = s.axes ∧ (stage2 s).2.procs = s.procs ∧ (stage2 s).2.layout = s.layout ∧ (stage2 s).2.order = s.order ∧
      (stage2 s).2.geo = s.geo ∧ (stage2 s).2.fixtable = s.fixtable := by
  unfold stage2
  by_cases h : s.stage ≥ 2
  · rw [if_pos h]
    refine ⟨rfl, rfl, ?_, rfl, ?_, rfl, rfl, rfl, rfl, rfl, rfl, rfl, rfl, rfl, rfl⟩
    · rw [if_neg (by omega)]
    · simp only; omega
  · rw [if_neg h]
    refine ⟨rfl, rfl, ?_, rfl, ?_, rfl, rfl, rfl, rfl, rfl, rfl, rfl, rfl, rfl, rfl⟩
    · simp only [show s.stage < 2 by omega, true_and]
    · simp only; omega

/-- What Stage 3 does not touch. -/
structure Frame3 (s t : IGA K V) : Prop where
  dim : t.dim = s.dim
  dof : t.dof = s.dof
  setup : t.setup = s.setup
  colloc : t.colloc = s.colloc
  btypes : t.btypes = s.btypes
  axes : t.axes = s.axes
  procs : t.procs = s.procs
  layout : t.layout = s.layout
  grid : t.grid = s.grid
  geo : t.geo = s.geo
  fixtable : t.fixtable = s.fixtable
  nrules : t.rules.length = s.rules.length
  nbases : t.bases.length = s.bases.length

theorem Frame3.refl (s : IGA K V) : Frame3 s s := ⟨rfl, rfl, rfl, rfl, rfl, rfl, rfl, rfl, rfl, rfl, rfl, rfl, rfl⟩

theorem Frame3.trans {s t u : IGA K V} (h : Frame3 s t) (g : Frame3 t u) : Frame3 s u :=
  ⟨g.dim.trans h.dim, g.dof.trans h.dof, g.setup.trans h.setup, g.colloc.trans h.colloc, g.btypes.trans h.btypes,
    g.axes.trans h.axes, g.procs.trans h.procs, g.layout.trans h.layout, g.grid.trans h.grid, g.geo.trans h.geo,
    g.fixtable.trans h.fixtable, g.nrules.trans h.nrules, g.nbases.trans h.nbases⟩

theorem defaultOrder_frame (s : IGA K V) : Frame3 s (defaultOrder s).2 ∧ (defaultOrder s).2.stage = s.stage ∧
    (defaultOrder s).2.rules = s.rules ∧ (defaultOrder s).2.bases = s.bases := by
  unfold defaultOrder setOrder
  split_ifs <;> exact ⟨⟨rfl, rfl, rfl, rfl, rfl, rfl, rfl, rfl, rfl, rfl, rfl, rfl, rfl⟩, rfl, rfl, rfl⟩

theorem initDir_frame (W : World K V) (i : Nat) (s : IGA K V) : Frame3 s (initDir W i s).2 ∧ (initDir W i s).2.stage = s.stage ∧
    (initDir W i s).2.order = s.order := by
  unfold initDir
  have triv := Frame3.refl s
  cases s.axes[i]? with
  | none => exact ⟨triv, rfl, rfl⟩
  | some ax =>
    cases s.rules[i]? with
    | none => exact ⟨triv, rfl, rfl⟩
    | some r =>
      cases s.btypes[i]? with
      | none => exact ⟨triv, rfl, rfl⟩
      | some bt =>
        simp only
        split_ifs
        all_goals try
          cases initCollocation (W.kern bt ax) bt ax <;>
            exact ⟨⟨rfl, rfl, rfl, rfl, rfl, rfl, rfl, rfl, rfl, rfl, rfl, by simp, by simp⟩, rfl, rfl⟩
        all_goals
          generalize initQuadrature (W.kern bt ax) W.huge bt ax _ = q
          rcases q with ⟨_ | _ | _, r', _ | b⟩ <;>
            exact ⟨⟨rfl, rfl, rfl, rfl, rfl, rfl, rfl, rfl, rfl, rfl, rfl, by simp, by simp⟩, rfl, rfl⟩

theorem andThen_cases (r : Res Unit × IGA K V) (f : IGA K V → Res Unit × IGA K V) :
    (r.1 = .ok () ∧ andThen r f = f r.2) ∨ (r.1 ≠ .ok () ∧ andThen r f = r) := by
  rcases r with ⟨_ | _ | _, s⟩
  · left; exact ⟨rfl, rfl⟩
  · right; exact ⟨by simp, rfl⟩
  · right; exact ⟨by simp, rfl⟩

theorem andThen_ok {r : Res Unit × IGA K V} {f : IGA K V → Res Unit × IGA K V} (h : (andThen r f).1 = .ok ()) :
    r.1 = .ok () ∧ andThen r f = f r.2 := by
  rcases andThen_cases r f with h' | ⟨h1, h2⟩
  · exact h'
  · rw [h2] at h; exact absurd h h1

theorem frame_andThen {s : IGA K V} {r : Res Unit × IGA K V} {f : IGA K V → Res Unit × IGA K V} (h : Frame3 s r.2)
    (hf : ∀ t, Frame3 t (f t).2) : Frame3 s (andThen r f).2 := by
  rcases andThen_cases r f with ⟨_, h2⟩ | ⟨_, h2⟩
  · rw [h2]; exact h.trans (hf _)
  · rw [h2]; exact h

theorem stage3_frame (W : World K V) (s : IGA K V) : Frame3 s (stage3 W s).2 := by
  unfold stage3
  refine frame_andThen (Frame3.trans (t := { s with stage := 3 }) ⟨rfl, rfl, rfl, rfl, rfl, rfl, rfl, rfl, rfl, rfl, rfl, rfl, rfl⟩ (defaultOrder_frame _).1) fun t => ?_
  refine frame_andThen (initDir_frame W 0 t).1 fun t => ?_
  refine frame_andThen (initDir_frame W 1 t).1 fun t => ?_
  refine frame_andThen (initDir_frame W 2 t).1 fun t => ?_
  exact ⟨rfl, rfl, rfl, rfl, rfl, rfl, rfl, rfl, rfl, rfl, rfl, rfl, rfl⟩

theorem stage3_stage (W : World K V) (s : IGA K V) : (stage3 W s).2.stage = 3 := by
  have key : ∀ (r : Res Unit × IGA K V) (f : IGA K V → Res Unit × IGA K V), r.2.stage = 3 →
      (∀ t : IGA K V, t.stage = 3 → (f t).2.stage = 3) → (andThen r f).2.stage = 3 := by
    intro r f h hf
    rcases andThen_cases r f with ⟨_, h2⟩ | ⟨_, h2⟩
    · rw [h2]; exact hf _ h
    · rw [h2]; exact h
  unfold stage3
  refine key _ _ (defaultOrder_frame _).2.1 fun t ht => ?_
  refine key _ _ ((initDir_frame W 0 t).2.1.trans ht) fun t ht => ?_
  refine key _ _ ((initDir_frame W 1 t).2.1.trans ht) fun t ht => ?_
  refine key _ _ ((initDir_frame W 2 t).2.1.trans ht) fun t ht => ?_
  exact ht

/-! ### C22 -/

theorem setUp_cases (W : World K V) (s : IGA K V) (hs : s.setup = false) (hd : ¬ s.dim < 1) :
    ((stage1 W { s with setup := true }).1 = .ok () ∧
      setUp W s = stage3 W (stage2 (stage1 W { s with setup := true }).2).2) ∨
    ((stage1 W { s with setup := true }).1 ≠ .ok () ∧ setUp W s = stage1 W { s with setup := true }) := by
  unfold setUp
  rw [if_neg (by simp [hs]), if_neg hd]
  rcases andThen_cases (stage1 W { s with setup := true }) (fun s => andThen (stage2 s) fun s => stage3 W s) with ⟨h1, h2⟩ | ⟨h1, h2⟩
  · left
    refine ⟨h1, ?_⟩
    rw [h2]
    rcases andThen_cases (stage2 (stage1 W { s with setup := true }).2) (fun s => stage3 W s) with ⟨_, h4⟩ | ⟨h3, _⟩
    · exact h4
    · exact absurd (stage2_frame _).1 h3
  · right; exact ⟨h1, h2⟩

theorem setUp_setup (W : World K V) (s : IGA K V) (hs : s.setup = false) (hd : ¬ s.dim < 1) : (setUp W s).2.setup = true := by
  rcases setUp_cases W s hs hd with ⟨_, h2⟩ | ⟨_, h2⟩
  · rw [h2, (stage3_frame W _).setup, (stage2_frame _).2.2.2.1, (stage1_frame W _).2.2.1]
  · rw [h2, (stage1_frame W _).2.2.1]

/-- **C22, refuted for every failure.**  Whatever makes `IGASetUp` fail after the dimension test (an unconfigured axis, an
impossible processor grid, an unsupported quadrature rule, …), calling `IGASetUp` again reports success and does
nothing. -/
theorem C22_retry_refuted (W : World K V) (s s' : IGA K V) (e : Err) (h : setUp W s = (.err e, s')) :
    (s.dim < 1 ∧ s' = s) ∨ setUp W s' = (.ok (), s') := by
  by_cases hs : s.setup = true
  · simp [setUp, hs] at h
  · have hs : s.setup = false := by simpa using hs
    by_cases hd : s.dim < 1
    · left
      simp only [setUp, hs, hd, if_true] at h
      exact ⟨hd, (Prod.mk.inj h).2.symm⟩
    · right
      have := setUp_setup W s hs hd
      rw [h] at this
      have this : s'.setup = true := this
      simp only [setUp, this, if_true]

/-- The object is really set up: all three stages are done, the layout and the numbering exist and belong together, and
every direction has its tables. -/
structure Complete (s : IGA K V) : Prop where
  stage : s.stage = 3
  layout : ∃ L, s.layout = some L ∧ s.grid = some (s.dof, L)
  dof : 1 ≤ s.dof
  tables : s.bases.length = 3 ∧ ∀ b ∈ s.bases, b.isSome = true
  iter : s.iter = true

theorem initDir_ok {W : World K V} {i : Nat} {s : IGA K V} (h : (initDir W i s).1 = .ok ()) :
    ∃ ax r bt r' b, s.axes[i]? = some ax ∧ s.rules[i]? = some r ∧ s.btypes[i]? = some bt ∧
      (initDir W i s).2 = { s with rules := s.rules.set i r', bases := s.bases.set i (some b) } ∧
      (if s.colloc then r' = Rule.reset r ∧ initCollocation (W.kern bt ax) bt ax = .ok b
       else initQuadrature (W.kern bt ax) W.huge bt ax
        (if s.dim ≤ i then (Rule.setType (Rule.reset r) .legendre).2 else r) = (.ok (), r', some b)) := by
  unfold initDir at h ⊢
  cases hax : s.axes[i]? with
  | none => simp [hax] at h
  | some ax =>
    cases hr : s.rules[i]? with
    | none => simp [hax, hr] at h
    | some r =>
      cases hb : s.btypes[i]? with
      | none => simp [hax, hr, hb] at h
      | some bt =>
        simp only [hax, hr, hb] at h ⊢
        by_cases hc : s.colloc = true
        · simp only [hc, if_true] at h ⊢
          cases hq : initCollocation (W.kern bt ax) bt ax with
          | ok b => exact ⟨ax, r, bt, Rule.reset r, b, rfl, rfl, rfl, by simp [hc], rfl, hq⟩
          | err e => rw [hq] at h; simp at h
          | ub => rw [hq] at h; simp at h
        · simp only [hc, if_false] at h ⊢
          generalize hr0 : (if s.dim ≤ (i:Int) then (Rule.setType (Rule.reset r) .legendre).2 else r) = r0 at h ⊢
          cases hq : initQuadrature (W.kern bt ax) W.huge bt ax r0 with
          | mk e q =>
            rcases q with ⟨r', _ | b⟩
            · rw [hq] at h; rcases e with _ | _ | _ <;> simp at h
            · rcases e with _ | _ | _
              · exact ⟨ax, r, bt, r', b, rfl, rfl, rfl, by simp, by simp [hr0, hq]⟩
              · rw [hq] at h; simp at h
              · rw [hq] at h; simp at h

theorem all_set {α : Type} {l : List (Option α)} (hl : l.length = 3) (a b c : α) :
    (((l.set 0 (some a)).set 1 (some b)).set 2 (some c)) = [some a, some b, some c] := by
  match l, hl with
  | [_, _, _], _ => rfl

theorem set3 {α : Type} {l : List α} (hl : l.length = 3) (a b c : α) :
    (((l.set 0 a).set 1 b).set 2 c) = [a, b, c] := by
  match l, hl with
  | [_, _, _], _ => rfl

/-- The derivative order after a set-up: the one the user set, or the largest degree clipped to 1..4. -/
def effOrder (s : IGA K V) : Int :=
  if s.order < 0 then clip ((s.axes.take s.dim.toNat).foldl (fun o ax => max o ax.p) s.order) else s.order

/-- A successful Stage 3. -/
theorem stage3_ok {W : World K V} {s : IGA K V} (h : (stage3 W s).1 = .ok ()) :
    ∃ (r' : Fin 3 → Rule K) (b : Fin 3 → Basis K V),
      (stage3 W s).2 = { s with
        stage := 3, order := effOrder s, rules := ((s.rules.set 0 (r' 0)).set 1 (r' 1)).set 2 (r' 2),
        bases := ((s.bases.set 0 (some (b 0))).set 1 (some (b 1))).set 2 (some (b 2)), iter := true } ∧
      ∀ i : Fin 3, ∃ ax r bt, s.axes[i.val]? = some ax ∧ s.rules[i.val]? = some r ∧ s.btypes[i.val]? = some bt ∧
        (if s.colloc then r' i = Rule.reset r ∧ initCollocation (W.kern bt ax) bt ax = .ok (b i)
         else initQuadrature (W.kern bt ax) W.huge bt ax
          (if s.dim ≤ i.val then (Rule.setType (Rule.reset r) .legendre).2 else r) = (.ok (), r' i, some (b i))) := by
  unfold stage3 at h ⊢
  obtain ⟨h0, e0⟩ := andThen_ok h
  rw [e0] at h ⊢
  obtain ⟨h1, e1⟩ := andThen_ok h
  rw [e1] at h ⊢
  obtain ⟨h2, e2⟩ := andThen_ok h
  rw [e2] at h ⊢
  obtain ⟨h3, e3⟩ := andThen_ok h
  rw [e3]
  have hd : (defaultOrder { s with stage := 3 }).2 = { s with stage := 3, order := effOrder s } := by
    unfold effOrder
    unfold defaultOrder setOrder at h0 ⊢
    dsimp only at h0 ⊢
    split_ifs at h0 ⊢ <;> first | rfl | simp at h0
  rw [hd] at h1 h2 h3 ⊢
  obtain ⟨ax0, r0, bt0, r0', b0, ha0, hr0, hb0, hs0, hq0⟩ := initDir_ok h1
  rw [hs0] at h2 h3 ⊢
  obtain ⟨ax1, r1, bt1, r1', b1, ha1, hr1, hb1, hs1, hq1⟩ := initDir_ok h2
  rw [hs1] at h3 ⊢
  obtain ⟨ax2, r2, bt2, r2', b2, ha2, hr2, hb2, hs2, hq2⟩ := initDir_ok h3
  rw [hs2]
  dsimp only at *
  refine ⟨![r0', r1', r2'], ![b0, b1, b2], rfl, ?_⟩
  intro i
  match i with
  | 0 => exact ⟨ax0, r0, bt0, ha0, hr0, hb0, hq0⟩
  | 1 => exact ⟨ax1, r1, bt1, ha1, by simpa using hr1, hb1, hq1⟩
  | 2 => exact ⟨ax2, r2, bt2, ha2, by simpa using hr2, hb2, hq2⟩

theorem setUpAxes_length : ∀ {as as' : List (Axis K)}, setUpAxes as = .ok as' → as'.length = as.length := by
  intro as
  induction as with
  | nil => intro as' h; simp only [setUpAxes] at h; cases h; rfl
  | cons ax as ih =>
    intro as' h
    unfold setUpAxes at h
    split at h
    · obtain ⟨t, h1, h2⟩ := Res.bind_eq_ok.1 h
      cases h2
      simp [ih h1]
    · cases h
    · cases h

theorem chooseGrid_length {g2 : Guess2} {g3 : Guess3} {size : Int} {N n n' : List Int} (h : chooseGrid g2 g3 size N n = .ok n') :
    n'.length = n.length ∧ 1 ≤ n.length := by
  unfold chooseGrid at h
  split at h
  · obtain ⟨t, h1, h2⟩ := Res.bind_eq_ok.1 h; cases h2; simp
  · obtain ⟨t, h1, h2⟩ := Res.bind_eq_ok.1 h; cases h2; simp
  · cases h; simp
  · cases h

theorem layStage1_length {g2 : Guess2} {g3 : Guess3} {colloc : Bool} {size rank : Int} {procs : List Int} {axes : List (Axis K)}
    {L : Layout K} (h : Lay.stage1 g2 g3 colloc size rank procs axes = .ok L) :
    L.axes.length = axes.length ∧ L.procs.length = procs.length := by
  unfold Lay.stage1 at h
  obtain ⟨as, h1, h⟩ := Res.bind_eq_ok.1 h
  obtain ⟨pr, h2, h⟩ := Res.bind_eq_ok.1 h
  obtain ⟨ws, h3, h⟩ := Res.bind_eq_ok.1 h
  obtain ⟨ds, h4, h⟩ := Res.bind_eq_ok.1 h
  cases h
  refine ⟨setUpAxes_length h1, ?_⟩
  unfold partition at h2
  obtain ⟨_, _, h2⟩ := Res.bind_eq_ok.1 h2
  obtain ⟨_, _, h2⟩ := Res.bind_eq_ok.1 h2
  obtain ⟨n', h5, h2⟩ := Res.bind_eq_ok.1 h2
  obtain ⟨_, _, h2⟩ := Res.bind_eq_ok.1 h2
  obtain ⟨_, _, h2⟩ := Res.bind_eq_ok.1 h2
  cases h2
  exact (chooseGrid_length h5).1

/-- A successful Stage 1 on an object that has not run it. -/
theorem stage1_ok {W : World K V} {s : IGA K V} (h0 : s.stage = 0) (h : (stage1 W s).1 = .ok ()) :
    ∃ L, Lay.stage1 W.g2 W.g3 s.colloc W.size W.rank (s.procs.take s.dim.toNat) (s.axes.take s.dim.toNat) = .ok L ∧
      (stage1 W s).2 = { s with
        stage := 1, axes := L.axes ++ List.replicate (3 - s.dim.toNat) (Ax.create W.junk),
        procs := L.procs ++ List.replicate (3 - s.dim.toNat) 1, layout := some L, geo := Geo.none, fixtable := none } := by
  unfold stage1 at h ⊢
  rw [if_neg (by omega)] at h ⊢
  dsimp only at h ⊢
  cases hL : Lay.stage1 W.g2 W.g3 s.colloc W.size W.rank (s.procs.take s.dim.toNat) (s.axes.take s.dim.toNat) with
  | ok L => exact ⟨L, rfl, rfl⟩
  | err e => rw [hL] at h; simp at h
  | ub => rw [hL] at h; simp at h

/-- The arrays of control points, weights and properties have the size of the ghosted geometry box. -/
def GeoFits (L : Layout K) (g : Geo K) : Prop :=
  (∀ w, g.W = some w → w.length = geoCount L) ∧ (∀ x, g.X = some x → x.length = geoCount L * g.nsd.toNat) ∧
    (∀ a, g.A = some a → a.length = geoCount L * g.npd.toNat)

theorem geoFits_none (L : Layout K) : GeoFits L Geo.none := ⟨by simp [Geo.none], by simp [Geo.none], by simp [Geo.none]⟩

/-- What holds between calls as long as no set-up has failed. -/
structure Sane (s : IGA K V) : Prop where
  lens : s.axes.length = 3 ∧ s.rules.length = 3 ∧ s.btypes.length = 3 ∧ s.bases.length = 3 ∧ s.procs.length = 3
  le : s.stage ≤ 3
  dim : s.dim = -1 ∨ 1 ≤ s.dim ∧ s.dim ≤ 3
  dof : s.dof = -1 ∨ 1 ≤ s.dof
  s0 : 1 ≤ s.stage → 1 ≤ s.dim
  s1 : 1 ≤ s.stage → s.layout.isSome = true
  s2 : 2 ≤ s.stage → 1 ≤ s.dof ∧ ∃ L, s.layout = some L ∧ s.grid = some (s.dof, L)
  done : s.setup = true → s.stage = 3 ∧ (∀ b ∈ s.bases, b.isSome = true) ∧ s.iter = true
  geo : ∀ L, s.layout = some L → GeoFits L s.geo

theorem sane_create (W : World K V) : Sane (create W) :=
  ⟨⟨rfl, rfl, rfl, rfl, rfl⟩, by simp [create], .inl rfl, .inl rfl, by simp [create], by simp [create], by simp [create], by simp [create],
    by simp [create]⟩

theorem sane_setUp {W : World K V} {s : IGA K V} (h : Sane s) (hok : (setUp W s).1 = .ok ()) : Sane (setUp W s).2 ∧
    Complete (setUp W s).2 := by
  by_cases hs : s.setup = true
  · have e : setUp W s = (.ok (), s) := by simp [setUp, hs]
    rw [e]
    obtain ⟨h1, h2, h3⟩ := h.done hs
    obtain ⟨h4, h5⟩ := h.s2 (by omega)
    exact ⟨h, h1, h5, h4, ⟨h.lens.2.2.2.1, h2⟩, h3⟩
  have hs : s.setup = false := by simpa using hs
  have hd : ¬ s.dim < 1 := by
    intro hd
    simp [setUp, hs, hd] at hok
  rcases setUp_cases W s hs hd with ⟨h1, h2⟩ | ⟨h1, h2⟩
  · rw [h2] at hok ⊢
    -- the object after stage 1
    have hA : ∃ L, (stage1 W { s with setup := true }).2.layout = some L ∧
        (stage1 W { s with setup := true }).2.axes.length = 3 ∧ (stage1 W { s with setup := true }).2.procs.length = 3 ∧
        (2 ≤ s.stage → (stage1 W { s with setup := true }).2.grid = some (s.dof, L)) ∧
        GeoFits L (stage1 W { s with setup := true }).2.geo := by
      by_cases h0 : s.stage = 0
      · obtain ⟨L, hL, e⟩ := stage1_ok (s := { s with setup := true }) h0 h1
        obtain ⟨l1, l2⟩ := layStage1_length hL
        have hdim : s.dim.toNat ≤ 3 := by have := h.dim; omega
        refine ⟨L, by rw [e], ?_, ?_, by omega, by rw [e]; exact geoFits_none L⟩
        · rw [e]; simp only [List.length_append, List.length_replicate, l1, List.length_take, h.lens.1]; omega
        · rw [e]; simp only [List.length_append, List.length_replicate, l2, List.length_take, h.lens.2.2.2.2]; omega
      · have e : stage1 W { s with setup := true } = (.ok (), { s with setup := true }) := by
          unfold stage1; rw [if_pos (by simp only; omega)]
        obtain ⟨L, hL⟩ := Option.isSome_iff_exists.1 (h.s1 (by omega))
        refine ⟨L, by rw [e]; exact hL, by rw [e]; exact h.lens.1, by rw [e]; exact h.lens.2.2.2.2, ?_, by rw [e]; exact h.geo L hL⟩
        intro h2s
        obtain ⟨_, L', hL', hg⟩ := h.s2 h2s
        rw [e]; rw [hL] at hL'; cases hL'; exact hg
    obtain ⟨L, hL, la, lp, hg, hgeo⟩ := hA
    have hB : (stage2 (stage1 W { s with setup := true }).2).2.grid =
        some ((stage2 (stage1 W { s with setup := true }).2).2.dof, L) ∧ 1 ≤ (stage2 (stage1 W { s with setup := true }).2).2.dof := by
      have hst := (stage1_frame W { s with setup := true }).2.2.2.1
      have hdf := (stage1_frame W { s with setup := true }).2.1
      generalize stage1 W { s with setup := true } = t at *
      unfold stage2
      by_cases h2s : t.2.stage ≥ 2
      · rw [if_pos h2s]
        have : 2 ≤ s.stage := by simp only at hst; omega
        rw [hg this, hdf]; exact ⟨rfl, (h.s2 this).1⟩
      · rw [if_neg h2s]
        simp only [hL, Option.map_some, true_and]
        split_ifs <;> omega
    obtain ⟨f1, f2, f3, f4, f5, f6, f7, f8, f9⟩ := stage1_frame W { s with setup := true }
    obtain ⟨k0, k1, k2, k3, k4, k5, k6, k7, k8, k9, k10, k11, k12, k13, k14⟩ := stage2_frame (stage1 W { s with setup := true }).2
    obtain ⟨r', b, e, _⟩ := stage3_ok hok
    have fr := stage3_frame W (stage2 (stage1 W { s with setup := true }).2).2
    have hbases : (stage3 W (stage2 (stage1 W { s with setup := true }).2).2).2.bases = [some (b 0), some (b 1), some (b 2)] := by
      rw [e]; simp only; rw [k8, f8]; exact all_set h.lens.2.2.2.1 _ _ _
    have hiter : (stage3 W (stage2 (stage1 W { s with setup := true }).2).2).2.iter = true := by rw [e]
    have hstage := stage3_stage W (stage2 (stage1 W { s with setup := true }).2).2
    have hall : ∀ x ∈ (stage3 W (stage2 (stage1 W { s with setup := true }).2).2).2.bases, x.isSome = true := by
      rw [hbases]; intro x hx; simp only [List.mem_cons, List.not_mem_nil, or_false] at hx
      rcases hx with rfl | rfl | rfl <;> rfl
    have hdim := fr.dim.trans (k1.trans f1)
    simp only at hdim
    have hlay : ∃ L, (stage3 W (stage2 (stage1 W { s with setup := true }).2).2).2.layout = some L ∧
        (stage3 W (stage2 (stage1 W { s with setup := true }).2).2).2.grid =
          some ((stage3 W (stage2 (stage1 W { s with setup := true }).2).2).2.dof, L) :=
      ⟨L, by rw [fr.layout, k11, hL], by rw [fr.grid, fr.dof, hB.1]⟩
    have hdof : 1 ≤ (stage3 W (stage2 (stage1 W { s with setup := true }).2).2).2.dof := by rw [fr.dof]; exact hB.2
    refine ⟨⟨⟨?_, ?_, ?_, by rw [hbases]; rfl, ?_⟩, by omega, ?_, .inr hdof, ?_, ?_, fun _ => ⟨hdof, hlay⟩, fun _ => ⟨hstage, hall, hiter⟩, ?_⟩,
      hstage, hlay, hdof, ⟨by rw [hbases]; rfl, hall⟩, hiter⟩
    · rw [fr.axes, k9, la]
    · rw [fr.nrules, k6, f6]; exact h.lens.2.1
    · rw [fr.btypes, k7, f7]; exact h.lens.2.2.1
    · rw [fr.procs, k10, lp]
    · rw [hdim]; exact h.dim
    · intro _; rw [hdim]; omega
    · intro _; obtain ⟨L, hl, _⟩ := hlay; rw [hl]; rfl
    · intro L' hL'
      rw [fr.layout, k11, hL] at hL'; cases hL'
      rw [fr.geo, k13]; exact hgeo
  · rw [h2] at hok; exact absurd hok h1

theorem sane_step {W : World K V} {s : IGA K V} (h : Sane s) (o : Op K V)
    (hf : o = .setUp → (setUp W s).1 = .ok () ∨ s.dim < 1) : Sane (step W s o).2 := by
  by_cases hr : IsRuleOp o
  · obtain ⟨b, rs, e, hl, hb⟩ := ruleOp_frame W s o hr
    rw [e]
    exact ⟨⟨h.lens.1, hl.trans h.lens.2.1, h.lens.2.2.1, h.lens.2.2.2.1, h.lens.2.2.2.2⟩, h.le, h.dim, h.dof, h.s0, h.s1, h.s2,
      fun hb' => h.done (hb hb'), h.geo⟩
  cases o with
  | setDim d =>
    simp only [step, setDim]
    split_ifs with h1 h2
    · exact h
    · exact h
    · exact ⟨h.lens, h.le, .inr (by simp only; omega), h.dof, fun _ => by simp only; omega, h.s1, h.s2, h.done, h.geo⟩
  | setDof n =>
    simp only [step, setDof]
    split_ifs with h1 h2
    · exact h
    · exact h
    · refine ⟨h.lens, h.le, h.dim, .inr (by simp only; omega), h.s0, h.s1, ?_, h.done, h.geo⟩
      intro hst
      obtain ⟨h3, h4⟩ := h.s2 hst
      have : s.dof = n := by simp only [not_and, not_not] at h2; exact h2 (by omega)
      simp only
      rw [← this]; exact ⟨h3, h4⟩
  | setOrder k =>
    simp only [step, setOrder]
    split_ifs
    · exact h
    · exact ⟨h.lens, h.le, h.dim, h.dof, h.s0, h.s1, h.s2, h.done, h.geo⟩
  | setBasisType i t =>
    simp only [step, setBasisType]
    split_ifs
    · exact h
    · cases checkDir s i with
      | ok k =>
        simp only
        split_ifs
        · exact h
        · exact ⟨⟨h.lens.1, h.lens.2.1, by simp [h.lens.2.2.1], by simp [h.lens.2.2.2.1], h.lens.2.2.2.2⟩, h.le, h.dim, h.dof, h.s0, h.s1,
            h.s2, by simp, h.geo⟩
      | err e => exact h
      | ub => exact h
  | setRuleType i t => exact absurd trivial hr
  | setRuleSize i q => exact absurd trivial hr
  | setQuadrature i q => exact absurd trivial hr
  | setProcessors i n =>
    obtain ⟨ps, e, hl⟩ := setProcessors_frame W s i n
    simp only [step, e]
    exact ⟨⟨h.lens.1, h.lens.2.1, h.lens.2.2.1, h.lens.2.2.2.1, hl.trans h.lens.2.2.2.2⟩, h.le, h.dim, h.dof, h.s0, h.s1, h.s2, h.done, h.geo⟩
  | setCollocation b =>
    simp only [step, setCollocation]
    split_ifs
    · exact h
    · exact ⟨h.lens, h.le, h.dim, h.dof, h.s0, h.s1, h.s2, h.done, h.geo⟩
  | axis i f =>
    simp only [step, axisCall]
    cases checkDir s i with
    | ok k =>
      simp only
      cases s.axes[k]? with
      | none => exact h
      | some ax => exact ⟨⟨by simp [h.lens.1], h.lens.2.1, h.lens.2.2.1, h.lens.2.2.2.1, h.lens.2.2.2.2⟩, h.le, h.dim, h.dof, h.s0, h.s1, h.s2, h.done, h.geo⟩
    | err e => exact h
    | ub => exact h
  | setGeo g fx =>
    simp only [step, setGeo]
    cases hlay : s.layout with
    | none => exact h
    | some L =>
      simp only
      split_ifs with hg
      · simp only [← hlay]
        refine ⟨h.lens, h.le, h.dim, h.dof, h.s0, h.s1, h.s2, h.done, ?_⟩
        intro L' hL'
        rw [hlay] at hL'; cases hL'
        exact hg.2
      · exact h
  | setUp =>
    rcases hf rfl with hf | hf
    · exact (sane_setUp h hf).1
    · simp only [step, setUp]
      split_ifs
      · exact h
      · exact h
  | reset => exact ⟨h.lens, by simp [step, reset], h.dim, h.dof, by simp [step, reset], by simp [step, reset], by simp [step, reset], by simp [step, reset],
      fun L _ => geoFits_none L⟩

/-- No `IGASetUp` of the history failed (calls made before `IGASetDim`, which are harmless, excepted). -/
def NoFailedSetUp (W : World K V) (ops : List (Op K V)) : Prop :=
  ∀ pre post, ops = pre ++ Op.setUp :: post →
    (setUp W (run W (create W) pre)).1 = .ok () ∨ (run W (create W) pre).dim < 1

theorem sane_run {W : World K V} (ops : List (Op K V)) : NoFailedSetUp W ops → Sane (run W (create W) ops) := by
  induction ops using List.reverseRecOn with
  | nil => intro _; exact sane_create W
  | append_singleton os o ih =>
    intro hn
    have h := ih fun pre post he => hn pre (post ++ [o]) (by rw [he]; simp)
    have : run W (create W) (os ++ [o]) = (step W (run W (create W) os) o).2 := by simp [run]
    rw [this]
    refine sane_step h o fun ho => ?_
    subst ho
    exact hn os [] rfl

/-- **C22, partial.**  As long as no set-up has failed, `IGASetUp` reports success only when the object really is set up.
Missing: histories with a failed set-up, for which `C22_retry_refuted` shows the contrary. -/
theorem C22_success_means_done_partial (W : World K V) (ops : List (Op K V)) (hn : NoFailedSetUp W ops)
    (hok : (setUp W (run W (create W) ops)).1 = .ok ()) : Complete (setUp W (run W (create W) ops)).2 :=
  (sane_setUp (sane_run ops hn) hok).2

/-! ### C57 -/

theorem dim_step (W : World K V) (s : IGA K V) (o : Op K V) : (step W s o).2.dim = s.dim ∨
    ∃ d, 1 ≤ d ∧ d ≤ 3 ∧ (s.dim ≤ 0 ∨ s.dim = d) ∧ (step W s o).2.dim = d := by
  by_cases hr : IsRuleOp o
  · obtain ⟨b, rs, e, _⟩ := ruleOp_frame W s o hr
    rw [e]; first | exact .inl rfl | exact .inl trivial
  cases o with
  | setDim d =>
    simp only [step, setDim]
    split_ifs with h1 h2
    · first | exact .inl rfl | exact .inl trivial
    · first | exact .inl rfl | exact .inl trivial
    · right; refine ⟨d, by omega, by omega, by omega, rfl⟩
  | setDof n => simp only [step, setDof]; split_ifs <;> first | exact .inl rfl | exact .inl trivial
  | setOrder k => simp only [step, setOrder]; split_ifs <;> first | exact .inl rfl | exact .inl trivial
  | setBasisType i t =>
    simp only [step, setBasisType]
    split_ifs
    · first | exact .inl rfl | exact .inl trivial
    · cases checkDir s i <;> simp only
      · split_ifs <;> first | exact .inl rfl | exact .inl trivial
      all_goals first | exact .inl rfl | exact .inl trivial
  | setRuleType i t => exact absurd trivial hr
  | setRuleSize i q => exact absurd trivial hr
  | setQuadrature i q => exact absurd trivial hr
  | setProcessors i n =>
    obtain ⟨ps, e, hl⟩ := setProcessors_frame W s i n
    simp only [step, e]; first | exact .inl rfl | exact .inl trivial
  | setCollocation b => simp only [step, setCollocation]; split_ifs <;> first | exact .inl rfl | exact .inl trivial
  | axis i f =>
    simp only [step, axisCall]
    cases checkDir s i <;> simp only
    · rename_i kk; cases s.axes[kk]? <;> first | exact .inl rfl | exact .inl trivial
    all_goals first | exact .inl rfl | exact .inl trivial
  | setGeo g fx =>
    simp only [step, setGeo]
    cases s.layout <;> simp only
    · first | exact .inl rfl | exact .inl trivial
    · split_ifs <;> first | exact .inl rfl | exact .inl trivial
  | setUp =>
    left
    simp only [step]
    by_cases hs : s.setup = true
    · simp [setUp, hs]
    · have hs : s.setup = false := by simpa using hs
      by_cases hd : s.dim < 1
      · simp [setUp, hs, hd]
      · rcases setUp_cases W s hs hd with ⟨_, h2⟩ | ⟨_, h2⟩
        · rw [h2, (stage3_frame W _).dim, (stage2_frame _).2.1, (stage1_frame W _).1]
        · rw [h2, (stage1_frame W _).1]
  | reset => first | exact .inl rfl | exact .inl trivial

theorem dof_step (W : World K V) (s : IGA K V) (o : Op K V) : (step W s o).2.dof = s.dof ∨
    ∃ n, 1 ≤ n ∧ (s.dof ≤ 0 ∨ s.dof = n) ∧ (step W s o).2.dof = n := by
  by_cases hr : IsRuleOp o
  · obtain ⟨b, rs, e, _⟩ := ruleOp_frame W s o hr
    rw [e]; first | exact .inl rfl | exact .inl trivial
  cases o with
  | setDim d => simp only [step, setDim]; split_ifs <;> first | exact .inl rfl | exact .inl trivial
  | setDof n =>
    simp only [step, setDof]
    split_ifs with h1 h2
    · first | exact .inl rfl | exact .inl trivial
    · first | exact .inl rfl | exact .inl trivial
    · right; refine ⟨n, by omega, by omega, rfl⟩
  | setOrder k => simp only [step, setOrder]; split_ifs <;> first | exact .inl rfl | exact .inl trivial
  | setBasisType i t =>
    simp only [step, setBasisType]
    split_ifs
    · first | exact .inl rfl | exact .inl trivial
    · cases checkDir s i <;> simp only
      · split_ifs <;> first | exact .inl rfl | exact .inl trivial
      all_goals first | exact .inl rfl | exact .inl trivial
  | setRuleType i t => exact absurd trivial hr
  | setRuleSize i q => exact absurd trivial hr
  | setQuadrature i q => exact absurd trivial hr
  | setProcessors i n =>
    obtain ⟨ps, e, hl⟩ := setProcessors_frame W s i n
    simp only [step, e]; first | exact .inl rfl | exact .inl trivial
  | setCollocation b => simp only [step, setCollocation]; split_ifs <;> first | exact .inl rfl | exact .inl trivial
  | axis i f =>
    simp only [step, axisCall]
    cases checkDir s i <;> simp only
    · rename_i kk; cases s.axes[kk]? <;> first | exact .inl rfl | exact .inl trivial
    all_goals first | exact .inl rfl | exact .inl trivial
  | setGeo g fx =>
    simp only [step, setGeo]
    cases s.layout <;> simp only
    · first | exact .inl rfl | exact .inl trivial
    · split_ifs <;> first | exact .inl rfl | exact .inl trivial
  | setUp =>
    simp only [step]
    by_cases hs : s.setup = true
    · simp [setUp, hs]
    · have hs : s.setup = false := by simpa using hs
      by_cases hd : s.dim < 1
      · simp [setUp, hs, hd]
      · rcases setUp_cases W s hs hd with ⟨_, h2⟩ | ⟨_, h2⟩
        · rw [h2, (stage3_frame W _).dof, (stage2_frame _).2.2.1, (stage1_frame W _).2.1]
          split_ifs with h3
          · right; exact ⟨1, by omega, by simp only at h3; omega, rfl⟩
          · left; rfl
        · rw [h2, (stage1_frame W _).2.1]; first | exact .inl rfl | exact .inl trivial
  | reset => first | exact .inl rfl | exact .inl trivial

theorem range_run (W : World K V) (ops : List (Op K V)) :
    ((run W (create W) ops).dim = -1 ∨ 1 ≤ (run W (create W) ops).dim ∧ (run W (create W) ops).dim ≤ 3) ∧
      ((run W (create W) ops).dof = -1 ∨ 1 ≤ (run W (create W) ops).dof) := by
  induction ops using List.reverseRecOn with
  | nil => exact ⟨.inl rfl, .inl rfl⟩
  | append_singleton os o ih =>
    have : run W (create W) (os ++ [o]) = (step W (run W (create W) os) o).2 := by simp [run]
    rw [this]
    constructor
    · rcases dim_step W (run W (create W) os) o with h | ⟨d, h1, h2, _, h3⟩
      · rw [h]; exact ih.1
      · rw [h3]; exact .inr ⟨h1, h2⟩
    · rcases dof_step W (run W (create W) os) o with h | ⟨d, h1, _, h3⟩
      · rw [h]; exact ih.2
      · rw [h3]; exact .inr h1

/-- **C57, dimension.**  After any history of calls on an IGA object, `IGASetDim(d)` succeeds exactly when `d` is 1, 2 or
3 and the dimension has not been set yet (it still is −1) or is already `d`; success records `d`, failure leaves the
object as it was. -/
theorem C57_dim (W : World K V) (ops : List (Op K V)) (d : Int) :
    ((setDim (run W (create W) ops) d).1 = .ok () ↔
      (1 ≤ d ∧ d ≤ 3) ∧ ((run W (create W) ops).dim = -1 ∨ (run W (create W) ops).dim = d)) ∧
    ((setDim (run W (create W) ops) d).1 = .ok () → (setDim (run W (create W) ops) d).2 = { run W (create W) ops with dim := d }) ∧
    ((setDim (run W (create W) ops) d).1 ≠ .ok () → (setDim (run W (create W) ops) d).2 = run W (create W) ops) := by
  have h := (range_run W ops).1
  unfold setDim
  split_ifs with h1 h2
  · refine ⟨by simp; omega, by simp, by simp⟩
  · refine ⟨by simp; omega, by simp, by simp⟩
  · refine ⟨by simp; omega, by simp, by simp⟩

/-- **C57, number of fields.** -/
theorem C57_dof (W : World K V) (ops : List (Op K V)) (n : Int) :
    ((setDof (run W (create W) ops) n).1 = .ok () ↔
      1 ≤ n ∧ ((run W (create W) ops).dof = -1 ∨ (run W (create W) ops).dof = n)) ∧
    ((setDof (run W (create W) ops) n).1 = .ok () → (setDof (run W (create W) ops) n).2 = { run W (create W) ops with dof := n }) ∧
    ((setDof (run W (create W) ops) n).1 ≠ .ok () → (setDof (run W (create W) ops) n).2 = run W (create W) ops) := by
  have h := (range_run W ops).2
  unfold setDof
  split_ifs with h1 h2
  · refine ⟨by simp; omega, by simp, by simp⟩
  · refine ⟨by simp; omega, by simp, by simp⟩
  · refine ⟨by simp; omega, by simp, by simp⟩

/-- **C57, order of derivatives**: after any history `IGASetOrder(k)` succeeds exactly when `k` is not negative; the order
recorded is the one of 1, 2, 3, 4 nearest to `k`, nothing else changes, and failure leaves the object as it was. -/
theorem C57_order (W : World K V) (ops : List (Op K V)) (k : Int) :
    ((setOrder (run W (create W) ops) k).1 = .ok () ↔ 0 ≤ k) ∧
    ((setOrder (run W (create W) ops) k).1 = .ok () →
      (setOrder (run W (create W) ops) k).2 = { run W (create W) ops with order := max 1 (min k 4) }) ∧
    ((setOrder (run W (create W) ops) k).1 ≠ .ok () → (setOrder (run W (create W) ops) k).2 = run W (create W) ops) := by
  have e : clip k = max 1 (min k 4) := by unfold clip; split_ifs <;> omega
  unfold setOrder
  split_ifs with h1
  · refine ⟨by simp; omega, by simp, by simp⟩
  · refine ⟨by simp; omega, by simp [e], by simp⟩

/-- **C57, no call changes a size once it is set**: setters, set-up (also failed), reset, axis and geometry calls. -/
theorem C57_frozen (W : World K V) (s : IGA K V) (ops : List (Op K V)) :
    (0 < s.dim → (run W s ops).dim = s.dim) ∧ (0 < s.dof → (run W s ops).dof = s.dof) := by
  induction ops using List.reverseRecOn with
  | nil => exact ⟨fun _ => rfl, fun _ => rfl⟩
  | append_singleton os o ih =>
    have : run W s (os ++ [o]) = (step W (run W s os) o).2 := by simp [run]
    rw [this]
    constructor
    · intro h
      have ih := ih.1 h
      rcases dim_step W (run W s os) o with h' | ⟨d, h1, h2, h3, h4⟩
      · rw [h', ih]
      · rw [h4]; omega
    · intro h
      have ih := ih.2 h
      rcases dof_step W (run W s os) o with h' | ⟨d, h1, h3, h4⟩
      · rw [h', ih]
      · rw [h4]; omega

/-- **C57, degree (partial).**  On an axis with knots, `IGAAxisSetDegree` accepts exactly the degree it has; it rejects
illegal degrees on every axis; a rejected call changes nothing.  Missing: before the knots are given a different degree
is accepted, see `C57_degree_refuted`. -/
theorem C57_degree_partial (ax : Axis K) (p : Int) :
    (p < 1 → (setDegree ax p).1 ≠ .ok ()) ∧
    (0 < ax.p → 1 < ax.m → ((setDegree ax p).1 = .ok () ↔ p = ax.p)) ∧
    ((setDegree ax p).1 ≠ .ok () → (setDegree ax p).2 = ax) ∧
    ((setDegree ax p).1 = .ok () → (setDegree ax p).2 = { ax with p := p }) := by
  unfold setDegree
  split_ifs with h1 h2
  · refine ⟨by simp, fun _ _ => by simp; omega, by simp, by simp⟩
  · refine ⟨by simp, fun _ _ => by simp; omega, by simp, by simp⟩
  · refine ⟨by omega, fun h3 h4 => ?_, by simp, by simp⟩
    simp; omega

/-- **C57, degree, refuted.**  On a new axis `IGAAxisSetDegree(2)` followed by `IGAAxisSetDegree(3)` both succeed. -/
theorem C57_degree_refuted (junk : Int → K) :
    (setDegree (Ax.create junk) 2).1 = .ok () ∧ (setDegree (setDegree (Ax.create junk) 2).2 3).1 = .ok () ∧
      (setDegree (setDegree (Ax.create junk) 2).2 3).2.p = 3 := by
  refine ⟨?_, ?_, ?_⟩ <;> simp [setDegree, Ax.create]

/-! ### Concrete histories -/

/-- A world with `n` processes, seen from process 0; the tables of one-dimensional values are not needed. -/
def exWorld (n : Int) : World Rat Unit :=
  { size := n, rank := 0, g2 := fun _ _ _ => 1, g3 := fun _ _ _ _ => 1, kern := fun _ _ _ _ => (), huge := 1000, junk := fun _ => 0 }

/-- Configure axis 0 as a uniform one with `N` elements of degree 2: `IGAAxisReset`, `IGAAxisSetDegree`,
`IGAAxisInitUniform`. -/
def exAxisCall (N : Int) (_ : Axis Rat) : Res Unit × Axis Rat :=
  Ax.initUniform (fun _ => 0) (Ax.setDegree (Ax.create fun _ => 0) 2).2 N 0 1 (-1)

/-- Whether a call succeeded. -/
def isOk : Res Unit → Bool
  | .ok _ => true
  | _ => false

/-- Every call of the history succeeds. -/
def allOk (W : World K V) : IGA K V → List (Op K V) → Bool
  | _, [] => true
  | s, o :: l => isOk (step W s o).1 && allOk W (step W s o).2 l

theorem isOk_iff {r : Res Unit} : isOk r = true ↔ r = .ok () := by
  cases r <;> simp [isOk]

theorem allOk_append {W : World K V} : ∀ {s : IGA K V} {l l' : List (Op K V)}, allOk W s (l ++ l') = true →
    allOk W s l = true ∧ allOk W (run W s l) l' = true := by
  intro s l
  induction l generalizing s with
  | nil => intro l' h; exact ⟨rfl, h⟩
  | cons o l ih =>
    intro l' h
    simp only [List.cons_append, allOk, Bool.and_eq_true] at h
    obtain ⟨h1, h2⟩ := ih h.2
    exact ⟨by simp [allOk, h.1, h1], h2⟩

theorem allOk_noFail {W : World K V} {ops : List (Op K V)} (h : allOk W (create W) ops = true) : NoFailedSetUp W ops := by
  intro pre post he
  left
  rw [he] at h
  have := (allOk_append h).2
  simp only [allOk, Bool.and_eq_true] at this
  exact isOk_iff.1 this.1

/-- A one-dimensional IGA with a configured axis. -/
def exGood : List (Op Rat Unit) := [.setDim 1, .axis 0 (exAxisCall 4), .setDof 2, .setUp]

/-- A one-dimensional IGA whose axis was forgotten. -/
def exBad : List (Op Rat Unit) := [.setDim 1]

/-- A reachable failing set-up (hypothesis of `C22_retry_refuted`): the axis was never configured.  Configuring it afterwards
and retrying reports success, although there is no partition. -/
example : (∃ e s', setUp (exWorld 1) (run (exWorld 1) (create (exWorld 1)) exBad) = (.err e, s')) ∧
    isOk (setUp (exWorld 1) (run (exWorld 1) (create (exWorld 1)) (exBad ++ [.setUp, .axis 0 (exAxisCall 4)]))).1 = true ∧
    (setUp (exWorld 1) (run (exWorld 1) (create (exWorld 1)) (exBad ++ [.setUp, .axis 0 (exAxisCall 4)]))).2.layout.isSome = false := by
  refine ⟨?_, by decide +kernel, by decide +kernel⟩
  generalize hh : setUp (exWorld 1) (run (exWorld 1) (create (exWorld 1)) exBad) = y
  have h1 : (match y.1 with | .err _ => true | _ => false) = true := by rw [← hh]; decide +kernel
  obtain ⟨r, s'⟩ := y
  cases r with
  | err e => exact ⟨e, s', rfl⟩
  | ok u => cases h1
  | ub => cases h1

/-- `exGood` meets the hypotheses of `C22_success_means_done_partial`. -/
example : NoFailedSetUp (exWorld 1) (exGood.take 3) ∧
    isOk (setUp (exWorld 1) (run (exWorld 1) (create (exWorld 1)) (exGood.take 3))).1 = true :=
  ⟨allOk_noFail (by decide +kernel), by decide +kernel⟩

/-- After `exGood` a second dimension or number of fields is refused. -/
example : (run (exWorld 1) (create (exWorld 1)) exGood).dim = 1 ∧ (run (exWorld 1) (create (exWorld 1)) exGood).dof = 2 ∧
    isOk (step (exWorld 1) (run (exWorld 1) (create (exWorld 1)) exGood) (.setDim 2)).1 = false ∧
    isOk (step (exWorld 1) (run (exWorld 1) (create (exWorld 1)) exGood) (.setDof 3)).1 = false := by decide +kernel

end PetIGA.SetUp
